import Verif.Model.Py

/-!
# Specification: stable sorting by key

Elements are paired with their keys.  `output` is the stable sort of `input` if it is a rearrangement of it, its keys are in
order, and for every key the elements carrying an equal key appear in the same order as in `input`.
-/

namespace Expression.Spec

/-- keys that are neither smaller nor larger than `k` -/
def sameKey {γ α : Type} [PyOrd γ] (k : γ) (p : γ × α) : Bool := !PyOrd.lt k p.1 && !PyOrd.lt p.1 k

/-- see the module comment; `descending` for `reverse=True` -/
structure IsStableSort {γ α : Type} [PyOrd γ] (descending : Bool) (input output : List (γ × α)) : Prop where
  perm : output.Perm input
  ordered : output.Pairwise (fun a b => if descending then PyOrd.lt a.1 b.1 = false else PyOrd.lt b.1 a.1 = false)
  stable : ∀ k : γ, output.filter (sameKey k) = input.filter (sameKey k)

end Expression.Spec
