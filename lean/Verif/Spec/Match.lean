import Verif.Model.Match
import Verif.Spec.UnionClass

/-! # Specification vocabulary for pattern matching -/

namespace Expression.Spec

open TU

variable {A : Type}

/-- strings are compared by their characters -/
def StringsCompare (A : Type) [PyValue (Thing A)] : Prop :=
  ∀ s t : String, PyValue.eq (Thing.str s : Thing A) (.str t) = decide (s = t)

/-- a decorated class without a constructor of its own, whose cases do not use the names the decorator uses itself -/
structure OrdinaryUnion (d : ClassDef (Thing A)) : Prop where
  decorated : d.deco.isSome
  noInit : "__init__" ∉ d.own
  noIndex : "_index" ∉ d.ownFields
  noFields : "__dataclass_fields__" ∉ d.ownFields

/-- `o` is what calling the union `d`, or a plain subclass of it, with the case `n` and the value `v` returns -/
def IsCase [PyValue (Thing A)] (d : ClassDef (Thing A)) (n : String) (v : Thing A) (o : Thing A) : Prop :=
  n ≠ "tag" ∧ ∃ (subs : List (ClassDef (Thing A))) (ident : Nat) (u : Obj (Thing A)), (∀ c ∈ subs, PlainClass c) ∧
    make (subs ++ [d]) ident [(n, v)] = .ok u ∧ o = u.thing

/-- `case D(tag="m", m=p)` -/
def casePattern (d : ClassDef (Thing A)) (m : String) (p : Pat A) : Pat A :=
  .klass (patternClass [d]) [] [("tag", .value (.str m)), (m, p)]

end Expression.Spec
