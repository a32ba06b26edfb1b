import Verif.Model.UnionClass

/-! # Specification vocabulary for classes of tagged unions -/

namespace Expression.Spec

open TU

variable {V : Type}

/-- A class that adds nothing the decorator cares about: not decorated, no special methods of its own. -/
def PlainClass (c : ClassDef V) : Prop :=
  c.deco = none ∧ ∀ m ∈ ["__init__", "__eq__", "__hash__", "__copy__"], m ∉ c.own

end Expression.Spec
