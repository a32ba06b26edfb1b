import Verif.Spec.Loop

/-!
# Specification vocabulary for asynchronous sequences

The loops that a programmer would write over the source, beyond those of `Verif.Spec.Loop`.
-/

namespace Expression.Spec

variable {σ α C T S : Type}

/-- `if i >= n: break`, then `body`, then `i += 1` -/
def takeLateBody (n : Int) (body : C → α → PyD σ (Flow C)) (ic : Nat × C) (x : α) : PyD σ (Flow (Nat × C)) :=
  if n ≤ (ic.1 : Int) then pure (.stop ic) else do
    let fl ← body ic.2 x
    pure (fl.map (fun c' => (ic.1 + 1, c')))

/-- `m` is the first of the greatest elements of `xs` (of the smallest ones if `gt` is `<`) -/
def FirstGreatest (gt : α → α → Bool) (xs : List α) (m : α) : Prop :=
  ∃ before behind, xs = before ++ m :: behind ∧ (∀ x ∈ before, gt m x = true) ∧ ∀ x ∈ xs, gt x m = false

/-- the elements of `range(start, stop, step)`: the `i`-th one is `start + step * i`, as long as that is short of `stop` -/
def RangeElements (start stop step : Int) (ys : List Int) : Prop :=
  ∀ (i : Nat) (v : Int), ys[i]? = some v ↔ v = start + step * i ∧ (if 0 < step then v < stop else stop < v)

end Expression.Spec
