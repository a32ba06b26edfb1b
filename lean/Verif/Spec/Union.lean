import Verif.Model.TaggedUnion

/-! # Specification vocabulary for tagged unions -/

namespace Expression.Spec

variable {V : Type}

/-- The two attribute names that the implementation uses itself are not used as case names. -/
def Ordinary (c : TU.Cls) : Prop := "_index" ∉ c.fieldNames ∧ "__dataclass_fields__" ∉ c.fieldNames

/-- `u` was made by calling the class `c` with some keyword arguments. -/
def IsValue [PyValue V] (c : TU.Cls) (u : TU.Inst V) : Prop :=
  ∃ (ident : Nat) (kwargs : List (String × V)), TU.init c ident kwargs = .ok u

/-- `==` of payloads is an equivalence (not so for NaN). -/
structure EqLawful (V : Type) [PyValue V] : Prop where
  refl : ∀ a : V, PyValue.eq a a = true
  symm : ∀ a b : V, PyValue.eq a b = true → PyValue.eq b a = true
  trans : ∀ a b c : V, PyValue.eq a b = true → PyValue.eq b c = true → PyValue.eq a c = true

/-- Strings behave: a string is not `None` and equals itself only. -/
structure StrLawful (V : Type) [PyValue V] : Prop where
  not_none : ∀ s, PyValue.isNone (PyValue.ofString s : V) = false
  eq_iff : ∀ s t, PyValue.eqStr (PyValue.ofString s : V) t = true ↔ s = t

/-- Equal payloads have equal hashes. -/
def HashLawful (V : Type) [PyValue V] : Prop := ∀ a b : V, PyValue.eq a b = true → PyValue.hash a = PyValue.hash b

/-- The payloads of one case (those with `P`) are totally ordered by `<` up to `==`: of two that are not equal exactly one is
less, `<` is transitive, and equal payloads compare alike.  (Payloads that are all equal, such as `None`, need no `<`.) -/
structure TotalOn [PyValue V] (P : V → Prop) : Prop where
  total : ∀ a b, P a → P b → PyValue.eq a b = false →
    (PyValue.lt a b = .ok true ∧ PyValue.lt b a = .ok false) ∨ (PyValue.lt a b = .ok false ∧ PyValue.lt b a = .ok true)
  trans : ∀ a b c, P a → P b → P c → PyValue.lt a b = .ok true → PyValue.lt b c = .ok true → PyValue.lt a c = .ok true
  congr : ∀ a b a' b', P a → P b → P a' → P b' → PyValue.eq a a' = true → PyValue.eq b b' = true →
    PyValue.eq a b = false → PyValue.lt a b = PyValue.lt a' b'

/-- An assignment or deletion of an attribute. -/
inductive AttrOp (V : Type) where
  | set (name : String) (value : TU.Attr V)
  | del (name : String)

/-- try an attribute operation; when it raises, the instance stays as it is -/
def AttrOp.run (op : AttrOp V) (u : TU.Inst V) : TU.Inst V :=
  match (match op with
    | .set name value => TU.setattr u name value
    | .del name => TU.delattr u name) with
  | .ok u' => u'
  | .error _ => u

end Expression.Spec
