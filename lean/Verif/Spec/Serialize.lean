import Verif.Model.Serialize
import Mathlib.Data.List.Forall2

/-!
# Specification vocabulary for serialisation
-/

namespace Expression.Spec

open Serialize

mutual
/-- plain data: numbers, strings, `None`, lists and dictionaries all the way down -/
def Plain : Val → Prop
  | .none => True
  | .int _ => True
  | .str _ => True
  | .list xs => PlainAll xs
  | .obj fields => PlainFields fields
  | _ => False

def PlainAll : List Val → Prop
  | [] => True
  | x :: xs => Plain x ∧ PlainAll xs

def PlainFields : List (String × Val) → Prop
  | [] => True
  | f :: fs => Plain f.2 ∧ PlainFields fs
end

/-- Values made of plain data and of objects that dump to plain data by `Some`, `Nothing`, `Ok`, `Error` and blocks, nested to any
depth -/
inductive DumpBuilt : Val → Prop
  | plain {v} : Plain v → DumpBuilt v
  | model {id d} : Plain d → DumpBuilt (.model id d)
  | some {v} : DumpBuilt v → DumpBuilt (.some v)
  | nothing : DumpBuilt .nothing
  | ok {v} : DumpBuilt v → DumpBuilt (.ok v)
  | error {e} : DumpBuilt e → DumpBuilt (.error e)
  | block {xs} : (∀ x ∈ xs, DumpBuilt x) → DumpBuilt (.block xs)

/-- The same, and also plain lists and dictionaries of such values -/
inductive Dumpable : Val → Prop
  | built {v} : DumpBuilt v → Dumpable v
  | list {xs} : (∀ x ∈ xs, Dumpable x) → Dumpable (.list xs)
  | obj {fields} : (∀ f ∈ fields, Dumpable f.2) → Dumpable (.obj fields)
  | some {v} : Dumpable v → Dumpable (.some v)
  | ok {v} : Dumpable v → Dumpable (.ok v)
  | error {e} : Dumpable e → Dumpable (.error e)
  | block {xs} : (∀ x ∈ xs, Dumpable x) → Dumpable (.block xs)

/-- the values that belong to an annotation -/
def Member : Ty → Val → Prop
  | .leaf l, v => l.member v
  | .option t, v => v = .nothing ∨ ∃ u, v = .some u ∧ Member t u
  | .result a b, v => (∃ u, v = .ok u ∧ Member a u) ∨ ∃ e, v = .error e ∧ Member b e
  | .block t, v => ∃ xs, v = .block xs ∧ ∀ x ∈ xs, Member t x

/-- all the other types that occur in an annotation satisfy `P` -/
def EveryLeaf (P : Leaf → Prop) : Ty → Prop
  | .leaf l => P l
  | .option t => EveryLeaf P t
  | .result a b => EveryLeaf P a ∧ EveryLeaf P b
  | .block t => EveryLeaf P t

/-- an instance of `Option`, or `None`, both of which an `Option[...]` annotation treats specially -/
def OptionLike : Val → Prop
  | .some _ => True
  | .nothing => True
  | .none => True
  | _ => False

/-- A type whose values survive dumping and validating, and are not dumped to something that `Option[...]` treats specially. -/
def RoundTrips (l : Leaf) : Prop := ∀ v, l.member v → l.py (toObj v) = .ok v ∧ ¬ OptionLike (toObj v)

/-- The same for JSON input. -/
def RoundTripsJson (l : Leaf) : Prop := ∀ v, l.member v → l.json (toObj v) = .ok v ∧ ¬ OptionLike (toObj v)

/-- A type whose values are dumped as they are, such as numbers and strings. -/
def DumpedAsIs (l : Leaf) : Prop := ∀ v, l.member v → toObj v = v

/-- A type whose schema accepts only what it turns into members. -/
def Sound (l : Leaf) : Prop := ∀ v u, l.py v = .ok u → l.member u

/-- no `Option[Option[...]]` -/
def NoNestedOption : Ty → Prop
  | .leaf _ => True
  | .option (.option _) => False
  | .option t => NoNestedOption t
  | .result a b => NoNestedOption a ∧ NoNestedOption b
  | .block t => NoNestedOption t

/-- a value of the annotation that is `Nothing`, `Some(Nothing)`, `Some(Some(Nothing))`, ... -/
def EmptyOption : Ty → Val → Bool
  | .option _, .nothing => true
  | .option t, .some u => EmptyOption t u
  | _, _ => false

/-- the value with every `Some(Nothing)`, `Some(Some(Nothing))`, ... in it replaced by `Nothing` -/
def flattened : Ty → Val → Val
  | .option t, .some u => if EmptyOption t u then .nothing else .some (flattened t u)
  | .result a _, .ok u => .ok (flattened a u)
  | .result _ b, .error e => .error (flattened b e)
  | .block t, .block xs => .block (xs.map (flattened t))
  | _, v => v

/-- nowhere in the value is there a `Some(Nothing)` -/
def NoSomeNothing : Ty → Val → Prop
  | .option t, .some u => EmptyOption t u = false ∧ NoSomeNothing t u
  | .result a _, .ok u => NoSomeNothing a u
  | .result _ b, .error e => NoSomeNothing b e
  | .block t, .block xs => ∀ x ∈ xs, NoSomeNothing t x
  | _, _ => True

/-- The instances of `Option`, `Result` and `Block` in the input, where the annotation has these, hold values of the annotated types. -/
def InstancesFit : Ty → Val → Prop
  | .leaf _, _ => True
  | .option t, v => (∀ u, v = .some u → Member t u) ∧ (¬ OptionLike v → InstancesFit t v)
  | .result a b, v => (∀ u, v = .ok u → Member a u) ∧ (∀ e, v = .error e → Member b e) ∧
      ∀ fields, v = .obj fields → ∀ f ∈ fields, (f.1 = "error" → InstancesFit b f.2) ∧ (f.1 = "ok" → InstancesFit a f.2)
  | .block t, v => (∀ xs, v = .block xs → ∀ x ∈ xs, Member t x) ∧ ∀ xs, v = .list xs → ∀ x ∈ xs, InstancesFit t x

/-- no `Result[...]`, except below an `Option[...]` -/
def NoBareResult : Ty → Prop
  | .leaf _ => True
  | .option _ => True
  | .result _ _ => False
  | .block t => NoBareResult t

/-- what JSON below an `Option[...]` is loaded as: the plain data -/
def rawBelowOption : Ty → Val → Val
  | .option t, .some u => if EmptyOption t u then .nothing else .some (toObj u)
  | .block t, .block xs => .block (xs.map (rawBelowOption t))
  | _, v => v

/-- only blocks, of blocks, ..., of other types or of options of other types that are dumped as they are -/
def JsonLoadable : Ty → Prop
  | .leaf _ => True
  | .option (.leaf l) => DumpedAsIs l
  | .block t => JsonLoadable t
  | _ => False

/-- an instance of `Result` -/
def IsResult : Val → Prop
  | .ok _ => True
  | .error _ => True
  | _ => False

/-- Wherever the annotation says `Result[...]`, the input is a `Result` or a dictionary. -/
def Shaped : Ty → Val → Prop
  | .leaf _, _ => True
  | .option t, v => OptionLike v ∨ Shaped t v
  | .result a b, v => IsResult v ∨ ∃ fields, v = .obj fields ∧ (∀ x, fields.lookup "error" = some x → Shaped b x) ∧
      ∀ x, fields.lookup "ok" = some x → Shaped a x
  | .block t, v => ∀ xs, v = .list xs → ∀ x ∈ xs, Shaped t x

/-- `Reads t v u`: read as a `t`, the data `v` means `u`.  Instances mean themselves, `None` is `Nothing`, a dictionary with the key `error` is an
`Error`, one with the key `ok` is an `Ok` unless it can be read as an `Error`, a list is a block. -/
def Reads : Ty → Val → Val → Prop
  | .leaf l, v, u => l.py v = .ok u
  | .option t, v, u => ((∃ x, v = .some x) ∧ u = v) ∨ ((v = .nothing ∨ v = .none) ∧ u = .nothing) ∨
      ¬ OptionLike v ∧ ∃ x, u = .some x ∧ Reads t v x
  | .result a b, v, u => IsResult v ∧ u = v ∨ ∃ fields, v = .obj fields ∧
      ((∃ x e, fields.lookup "error" = some x ∧ Reads b x e ∧ u = .error e) ∨
        ((¬ ∃ x e, fields.lookup "error" = some x ∧ Reads b x e) ∧ ∃ x y, fields.lookup "ok" = some x ∧ Reads a x y ∧ u = .ok y))
  | .block t, v, u => (∃ xs, v = .block xs ∧ u = v) ∨ ∃ xs ys, v = .list xs ∧ u = .block ys ∧ List.Forall₂ (Reads t) xs ys

/-- A type whose schema rejects input with `ValueError` (pydantic's `ValidationError` is one), never with another exception. -/
def RejectsPolitely (l : Leaf) : Prop := ∀ v e, l.py v = .error e → ∃ m, e = .valueError m

/-- no `Result[...]` -/
def NoResult : Ty → Prop
  | .leaf _ => True
  | .option t => NoResult t
  | .result _ _ => False
  | .block t => NoResult t

/-- the type `int`, as an example -/
def intLeaf : Leaf where
  member v := ∃ n, v = .int n
  py v := match v with
    | .int n => .ok (.int n)
    | _ => .error (.valueError "Input should be a valid integer")
  json v := match v with
    | .int n => .ok (.int n)
    | _ => .error (.valueError "Input should be a valid integer")

end Expression.Spec
