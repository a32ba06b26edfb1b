import Verif.Spec.Loop

/-!
# Specification: callbacks that raise `StopIteration`

The loops that a programmer would write, with `try` statements around the calls.
-/

namespace Expression.Spec

variable {σ α β γ C : Type}

/-- `CallsReturn f w xs ys w'`: called for the elements of `xs` one after the other, from world `w` on, `f` returned `ys`; that left `w'`. -/
inductive CallsReturn (f : α → PyD σ β) : σ → List α → List β → σ → Prop
  | nil {w} : CallsReturn f w [] [] w
  | cons {w x y w1 xs ys w'} (call : (f x).exec w = some (.ok y, w1)) (rest : CallsReturn f w1 xs ys w') : CallsReturn f w (x :: xs) (y :: ys) w'

/-- `StopIteration` is never raised -/
def NoStopIteration (f : α → PyD σ β) : Prop := ∀ x w w', (f x).exec w ≠ some (.error .stopIteration, w')

/-- `try: x = p` / `except StopIteration: break`, then `k`; `c` is what the loop variables hold -/
def orBreak (p : PyD σ α) (c : C) (k : α → PyD σ (Flow C)) : PyD σ (Flow C) := fun w =>
  match p.exec w with
  | none => none
  | some (.ok x, w') => (k x).exec w'
  | some (.error e, w') => if e = .stopIteration then some (.ok (.stop c), w') else some (.error e, w')

/-- `try: return p` / `except StopIteration: raise RuntimeError("generator raised StopIteration")` -/
def asRuntimeError (p : PyD σ α) : PyD σ α := fun w =>
  match p.exec w with
  | none => none
  | some (.ok x, w') => some (.ok x, w')
  | some (.error e, w') => some (.error (if e = .stopIteration then .failwith "generator raised StopIteration" else e), w')

/-- `y = f(x)`, breaking off at `StopIteration`, then `body` with `y` -/
def breakMapBody (f : α → PyD σ β) (body : C → β → PyD σ (Flow C)) (c : C) (x : α) : PyD σ (Flow C) := orBreak (f x) c (body c)

/-- `b = p(x)`, breaking off at `StopIteration`, then `body` if `b` -/
def breakFilterBody (p : α → PyD σ Bool) (body : C → α → PyD σ (Flow C)) (c : C) (x : α) : PyD σ (Flow C) :=
  orBreak (p x) c (fun b => if b then body c x else pure (.next c))

/-- `total = f(total, x)`, breaking off at `StopIteration`, then `body` with `total` -/
def breakScanBody (f : γ → α → PyD σ γ) (body : C → γ → PyD σ (Flow C)) (ct : C × γ) (x : α) : PyD σ (Flow (C × γ)) :=
  orBreak (f ct.2 x) ct (fun total => do
    let fl ← body ct.1 total
    pure (fl.map (fun c' => (c', total))))

/-- `y = f(i, x)`, breaking off at `StopIteration`; then `i += 1` and `y` is appended to the results -/
def breakIndexBody (f : Nat → α → PyD σ β) (c : Nat × List β) (x : α) : PyD σ (Flow (Nat × List β)) :=
  orBreak (f c.1 x) c (fun y => pure (.next (c.1 + 1, c.2 ++ [y])))

/-- After the calls for `xs`, which returned and left `w`, the outcome of `run` on a list that begins with `xs` is decided by the next call,
`f x`: at `StopIteration` the rest is dropped and the result is `res`, as if there were nothing after `xs`; any other exception comes out;
and if the call does not return, neither does `run`. -/
def Truncates (f : α → PyD σ β) (xs : List α) (w : σ) (run : List α → Option (Except PyErr γ × σ)) (res : γ) : Prop :=
  run xs = some (.ok res, w) ∧ ∀ x rest,
    (∀ w', (f x).exec w = some (.error .stopIteration, w') → run (xs ++ x :: rest) = some (.ok res, w')) ∧
    (∀ e w', e ≠ .stopIteration → (f x).exec w = some (.error e, w') → run (xs ++ x :: rest) = some (.error e, w')) ∧
    ((f x).exec w = none → run (xs ++ x :: rest) = none)

end Expression.Spec
