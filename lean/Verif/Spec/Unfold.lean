import Verif.Model.Py

/-!
# Specification: running a generator function from a seed
-/

namespace Expression.Spec

variable {σ α S : Type}

/-- `Generates g s w xs r w'`: starting with seed `s` in world `w`, the generator function is called on `s`, then on the seed
it returned, and so on; it produced `xs` and then stopped (`r = none`) or raised (`r = some e`), leaving world `w'`. -/
inductive Generates (g : S → Py σ (Option (α × S))) : S → σ → List α → Option PyErr → σ → Prop
  | stop {s w w'} (h : (g s).exec w = (.ok none, w')) : Generates g s w [] none w'
  | raise {s w e w'} (h : (g s).exec w = (.error e, w')) : Generates g s w [] (some e) w'
  | step {s w x s' w1 xs r w'} (h : (g s).exec w = (.ok (some (x, s')), w1)) (rest : Generates g s' w1 xs r w') :
      Generates g s w (x :: xs) r w'

/-- the generator function keeps producing for ever: an infinite chain of seeds and worlds -/
def NeverStops (g : S → Py σ (Option (α × S))) (s : S) (w : σ) : Prop :=
  ∃ chain : Nat → S × σ, chain 0 = (s, w) ∧
    ∀ n, ∃ x, (g (chain n).1).exec (chain n).2 = (.ok (some (x, (chain (n + 1)).1)), (chain (n + 1)).2)

end Expression.Spec
