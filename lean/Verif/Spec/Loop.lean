import Verif.Model.PyD

/-!
# Specification vocabulary for lazy sequences

A pipeline is specified by the `for` loop that a programmer would write over its *source*.
-/

namespace Expression

/-- change the loop variables that a loop body leaves -/
def Flow.map {C D : Type} (f : C → D) : Flow C → Flow D
  | .next c => .next (f c)
  | .stop c => .stop (f c)

/-- the loop variables -/
def Flow.get {C : Type} : Flow C → C
  | .next c => c
  | .stop c => c

namespace Spec

variable {σ α β γ S T C : Type}

/-- A `for y in it: body` nested in the body of another loop, where `break` leaves both loops. -/
def nested (it : Iterable σ α S) (body : C → α → PyD σ (Flow C)) (c : C) : PyD σ (Flow C) :=
  it.forLoop (fun fc y => do
    match ← body fc.get y with
    | .stop c' => pure (.stop (.stop c'))
    | .next c' => pure (.next (.next c'))) (.next c)

/-! Loop bodies: what to do with one element `x` of the source, given what the consumer does with an element (`body`). -/

/-- `y = f(x); body` -/
def mapBody (f : α → PyD σ β) (body : C → β → PyD σ (Flow C)) (c : C) (x : α) : PyD σ (Flow C) := do
  let y ← f x
  body c y

/-- `if p(x): body` -/
def filterBody (p : α → PyD σ Bool) (body : C → α → PyD σ (Flow C)) (c : C) (x : α) : PyD σ (Flow C) := do
  if ← p x then body c x else pure (.next c)

/-- `if i >= n: body`, then `i += 1`; the loop variables are `i` and those of `body` -/
def skipBody (n : Int) (body : C → α → PyD σ (Flow C)) (ic : Nat × C) (x : α) : PyD σ (Flow (Nat × C)) :=
  if (ic.1 : Int) < n then pure (.next (ic.1 + 1, ic.2)) else do
    let fl ← body ic.2 x
    pure (fl.map (fun c' => (ic.1 + 1, c')))

/-- `body`, then `i += 1` and `break` if that was the `n`-th element -/
def takeBody (n : Nat) (body : C → α → PyD σ (Flow C)) (ic : Nat × C) (x : α) : PyD σ (Flow (Nat × C)) := do
  match ← body ic.2 x with
  | .stop c' => pure (.stop (ic.1 + 1, c'))
  | .next c' => if ic.1 + 1 = n then pure (.stop (ic.1 + 1, c')) else pure (.next (ic.1 + 1, c'))

/-- `o = f(x)`; if it is `Some(y)`, `body` with `y` -/
def chooseBody (f : α → PyD σ (Option β)) (body : C → β → PyD σ (Flow C)) (c : C) (x : α) : PyD σ (Flow C) := do
  match ← f x with
  | some y => body c y
  | none => pure (.next c)

/-- `it = m(x)`, then `for y in it: body`; a `break` in `body` leaves both loops -/
def collectBody (m : α → PyD σ (Iterable σ β T)) (body : C → β → PyD σ (Flow C)) (c : C) (x : α) : PyD σ (Flow C) := do
  let it ← m x
  nested it body c

/-- `total = f(total, x)`, then `body` with `total` -/
def scanBody (f : γ → α → PyD σ γ) (body : C → γ → PyD σ (Flow C)) (ct : C × γ) (x : α) : PyD σ (Flow (C × γ)) := do
  let total ← f ct.2 x
  let fl ← body ct.1 total
  pure (fl.map (fun c' => (c', total)))

/-- `y = next(it2)`, `break` if there is none, then `body` with `(x, y)`; the loop variables include the iterator `it2` -/
def zipBody (src2 : Iterable σ β T) (body : C → α × β → PyD σ (Flow C)) (ct : C × T) (x : α) : PyD σ (Flow (C × T)) := do
  match ← src2.next ct.2 with
  | none => pure (.stop ct)
  | some (y, t') => do
    let fl ← body ct.1 (x, y)
    pure (fl.map (fun c' => (c', t')))

/-- `body` with `(old, x)` unless this is the first element, then `old = x` -/
def pairBody (body : C → α × α → PyD σ (Flow C)) (co : C × Option α) (x : α) : PyD σ (Flow (C × Option α)) :=
  match co.2 with
  | none => pure (.next (co.1, some x))
  | some old => do
    let fl ← body co.1 (old, x)
    pure (fl.map (fun c' => (c', some x)))

/-- `Skips src miss s w n s' w'`: from iterator state `s` and world `w`, `n` elements were pulled one after the other, the test
(with its effects) was run on each right after it was pulled and said no, ending in iterator state `s'` and world `w'`. -/
inductive Skips (src : Iterable σ α S) (miss : α → σ → σ → Prop) : S → σ → Nat → S → σ → Prop
  | zero {s w} : Skips src miss s w 0 s w
  | succ {s w x s1 w1 w2 n s' w'} (pull : (src.next s).exec w = some (.ok (some (x, s1)), w1)) (test : miss x w1 w2)
      (rest : Skips src miss s1 w2 n s' w') : Skips src miss s w (n + 1) s' w'

/-- A source that counts how often it is asked for an element; the counter is part of the world. -/
def counted (src : Iterable σ α S) : Iterable (σ × Nat) α S where
  iter := fun w => match src.iter.exec w.1 with
    | none => none
    | some (r, w') => some (r, (w', w.2))
  next s := fun w => match (src.next s).exec w.1 with
    | none => none
    | some (r, w') => some (r, (w', w.2 + 1))

/-- The outcome (a value, an exception, or not returning) does not depend on the world, and the world is left unchanged. -/
def Const (p : PyD σ α) : Prop := ∃ r : Option (Except PyErr α), ∀ w, p.exec w = r.map (fun x => (x, w))

/-- A re-iterable collection: the outcome of a `for` loop over it, whatever the body as long as it reads and changes nothing
outside the loop variables, does not depend on when the loop is run, and the loop leaves everything as it was.  (So a second
loop over the collection sees what the first one saw.)  The collection may be infinite, and the loop may break. -/
def Repeatable (it : Iterable σ α S) : Prop :=
  ∀ (C : Type) (body : C → α → PyD σ (Flow C)) (c : C), (∀ c x, Const (body c x)) → Const (it.forLoop body c)

/-- the successive states of a fold: the initial one, and one after each element -/
def foldStates (f : β → α → PyD σ β) : β → List α → PyD σ (List β)
  | s, [] => pure [s]
  | s, x :: xs => do
    let s' ← f s x
    let rest ← foldStates f s' xs
    pure (s :: rest)

/-- `f(x0, f(x1, ... f(xN, s)))` -/
def foldRight (f : α → β → PyD σ β) : List α → β → PyD σ β
  | [], s => pure s
  | x :: xs, s => do
    let s' ← foldRight f xs s
    f x s'

/-- `s = f(s, x0); s = f(s, x1); ...` -/
def foldLeftD (f : β → α → PyD σ β) : β → List α → PyD σ β
  | s, [] => pure s
  | s, x :: xs => do
    let s' ← f s x
    foldLeftD f s' xs

end Spec
end Expression
