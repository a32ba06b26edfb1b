import Verif.Model.AsyncStop
import Verif.Spec.Loop
import Verif.Spec.StopIter

/-!
# Specification: callbacks of asynchronous sequences that raise `StopIteration` or `StopAsyncIteration`

The loops that a programmer would write over the source, with a `try` statement around each call that the library makes.
-/

namespace Expression.Spec.AsyncStop

open Expression.AsyncStop

variable {σ α β γ S T C : Type}

/-- the exception that comes out of a `try` statement which replaces `StopIteration` by `RuntimeError` -/
def replaced (e : PyErr) : PyErr := if e = .stopIteration then .failwith "async generator raised StopIteration" else e

/-- `try: return p`, with both `StopIteration` and `StopAsyncIteration` replaced by `RuntimeError` -/
def asRuntimeError (p : PyA σ α) : PyD σ α := fun w =>
  match p.run.exec w with
  | none => none
  | some (.ok (some x), w') => some (.ok x, w')
  | some (.ok none, w') => some (.error (.failwith "async generator raised StopAsyncIteration"), w')
  | some (.error e, w') => some (.error (replaced e), w')

/-- a source, with such a `try` statement around `__aiter__()` and around `__anext__()`, which may still say that it is exhausted -/
def guarded (src : AsyncIterable σ α S) : AsyncIterable σ α S where
  aiter := OptionT.lift (asRuntimeError src.aiter)
  anext s := OptionT.mk (asRuntimeError (ask src s))

/-- `y = f(x)`, then `body` with `y` -/
def mapBody (f : α → PyA σ β) (body : C → β → PyA σ (Flow C)) (c : C) (x : α) : PyA σ (Flow C) := do
  let y ← OptionT.lift (asRuntimeError (f x))
  body c y

/-- `if p(x)`: `body` -/
def filterBody (p : α → PyA σ Bool) (body : C → α → PyA σ (Flow C)) (c : C) (x : α) : PyA σ (Flow C) := do
  let b ← OptionT.lift (asRuntimeError (p x))
  if b then body c x else pure (.next c)

/-- `o = f(x)`; if it is `Some(y)`, `body` with `y` -/
def chooseBody (f : α → PyA σ (Option β)) (body : C → β → PyA σ (Flow C)) (c : C) (x : α) : PyA σ (Flow C) := do
  match ← OptionT.lift (asRuntimeError (f x)) with
  | some y => body c y
  | none => pure (.next c)

/-- `total = f(total, x)`, then `body` with `total` -/
def scanBody (f : γ → α → PyA σ γ) (body : C → γ → PyA σ (Flow C)) (ct : C × γ) (x : α) : PyA σ (Flow (C × γ)) := do
  let total ← OptionT.lift (asRuntimeError (f ct.2 x))
  let fl ← body ct.1 total
  pure (fl.map (fun c' => (c', total)))

/-- `it = m(x)`, then `async for y in it: body`; a `break` in `body` leaves both loops -/
def collectBody (m : α → PyA σ (AsyncIterable σ β T)) (body : C → β → PyA σ (Flow C)) (c : C) (x : α) : PyA σ (Flow C) := do
  let it ← OptionT.lift (asRuntimeError (m x))
  forLoop (guarded it) (fun fc y => do
    match ← body fc.get y with
    | .stop c' => pure (.stop (.stop c'))
    | .next c' => pure (.next (.next c'))) (.next c)

/-- an asynchronous generator that yields the elements of a list (such as `asyncseq.range` and `asyncseq.repeat`) -/
def listSource (xs : List α) : AsyncIterable σ α (List α) where
  aiter := pure xs
  anext s := OptionT.mk (pure (match s with
    | [] => none
    | x :: rest => some (x, rest)))

/-- an iterable of the other models as an asynchronous iterable that raises `StopAsyncIteration` at the end -/
def ofIterable (it : Iterable σ α S) : AsyncIterable σ α S where
  aiter := OptionT.lift it.iter
  anext s := OptionT.mk (it.next s)

/-- an iterable that never raises `StopIteration` -/
def Plain (it : Iterable σ α S) : Prop := NoStopIteration (fun _ : Unit => it.iter) ∧ NoStopIteration it.next

/-- `p`, run in world `w`, returns `x` and leaves `w'` -/
def Returns (p : PyA σ α) (w : σ) (x : α) (w' : σ) : Prop := p.run.exec w = some (.ok (some x), w')

/-- what a callback can raise -/
inductive Raised where
  | stopAsyncIteration
  | other (e : PyErr)

/-- `p`, run in world `w`, raises and leaves `w'` -/
def Raises (p : PyA σ α) (w : σ) : Raised → σ → Prop
  | .stopAsyncIteration, w' => p.run.exec w = some (.ok none, w')
  | .other e, w' => p.run.exec w = some (.error e, w')

/-- `CallsReturn f w xs ys w'`: called for the elements of `xs` one after the other, from world `w` on, `f` returned `ys`; that left `w'`. -/
inductive CallsReturn (f : α → PyA σ β) : σ → List α → List β → σ → Prop
  | nil {w} : CallsReturn f w [] [] w
  | cons {w x y w1 xs ys w'} (call : Returns (f x) w y w1) (rest : CallsReturn f w1 xs ys w') : CallsReturn f w (x :: xs) (y :: ys) w'

/-- `StateCalls f w z xs z' w'`: `z = f(z, x)` for the elements of `xs` one after the other, from `z` and world `w` on; that left `z'` and `w'`. -/
inductive StateCalls (f : γ → α → PyA σ γ) : σ → γ → List α → γ → σ → Prop
  | nil {w z} : StateCalls f w z [] z w
  | cons {w z x z1 w1 xs z' w'} (call : Returns (f z x) w z1 w1) (rest : StateCalls f w1 z1 xs z' w') : StateCalls f w z (x :: xs) z' w'

/-- what comes out of an asynchronous generator whose code met this exception -/
def outOfGenerator : Raised → PyErr
  | .stopAsyncIteration => .failwith "async generator raised StopAsyncIteration"
  | .other .stopIteration => .failwith "async generator raised StopIteration"
  | .other e => e

/-- what comes out of a coroutine whose code met this exception -/
def outOfCoroutine : Raised → Raised
  | .stopAsyncIteration => .stopAsyncIteration
  | .other .stopIteration => .other (.failwith "coroutine raised StopIteration")
  | .other e => .other e

end Expression.Spec.AsyncStop
