import Verif.Model.Seq

/-!
# Model of `expression/collections/asyncseq.py`

An asynchronous iterable is modelled like an iterable: `iter` is `__aiter__` and `next` is awaiting `__anext__`; whatever other
tasks do to the world while `__anext__` is awaited is part of the effect of `next`.  The callbacks are ordinary functions.

Module-level functions and methods with the same loop share a definition.  The methods that return a sequence are coroutines
(`await xs.map(f)`); they only build the generator, so the await does nothing.
Not modelled: closing an asynchronous generator that was left early.
-/

namespace Expression.AsyncSeq

open Expression

variable {σ α β γ S T C : Type}

/-- what the body of an `async for` loop in a generator does with one element: `yield` something, go on, or `break`; `c` is what
the local variables hold then [Python: asynchronous generators, as in asyncseq.py:64-206, 279-304] -/
inductive Act (C β : Type) where
  | emit (y : β) (c : C)
  | skip (c : C)
  | stop

/-- resume a generator `async for value in source: ...` until it yields or ends
[Python: asynchronous generators, as in asyncseq.py:64-206, 279-304] -/
def loopNext (body : C → α → PyD σ (Act C β)) (source : Iterable σ α S) (st : S × C) : PyD σ (Option (β × (S × C))) := do
  match ← source.next st.1 with
  | none => pure none
  | some (x, s') =>
    match ← body st.2 x with
    | .emit y c' => pure (some (y, (s', c')))
    | .skip c' => loopNext body source (s', c')
    | .stop => pure none
partial_fixpoint

/-- the start state of a generator object, or where it is suspended [Python: asynchronous generators, as in asyncseq.py:64-206, 279-304] -/
def resume (c : C) (body : C → α → PyD σ (Act C β)) (source : Iterable σ α S) :
    Option (S × C) → PyD σ (Option (β × Option (S × C)))
  | none => do
    let s ← source.iter
    match ← loopNext body source (s, c) with
    | none => pure none
    | some (y, st) => pure (some (y, some st))
  | some st => do
    match ← loopNext body source st with
    | none => pure none
    | some (y, st) => pure (some (y, some st))

/-- a generator function whose code is `c = ...; async for value in source: body`
[Python: asynchronous generators, as in asyncseq.py:64-206, 279-304] -/
def generator (c : C) (body : C → α → PyD σ (Act C β)) (source : Iterable σ α S) : Iterable σ β (Option (S × C)) where
  iter := pure none
  next := resume c body source

/-- asyncseq.py:287-292, and the method (21-24) -/
def map (mapper : α → PyD σ β) (source : Iterable σ α S) : Iterable σ β (Option (S × Unit)) :=
  generator () (fun _ value => do
    let y ← mapper value
    pure (.emit y ())) source

/-- asyncseq.py:278-284, and the method (107-126) -/
def filter (predicate : α → PyD σ Bool) (source : Iterable σ α S) : Iterable σ α (Option (S × Unit)) :=
  generator () (fun _ value => do
    if ← predicate value then pure (.emit value ()) else pure (.skip ())) source

/-- asyncseq.py:295-304, and the method (49-70) -/
def choose (chooser : α → PyD σ (Option β)) (source : Iterable σ α S) : Iterable σ β (Option (S × Unit)) :=
  generator () (fun _ value => do
    match ← chooser value with
    | some y => pure (.emit y ())
    | none => pure (.skip ())) source

/-- asyncseq.py:307-317, and the method (72-91): `async for value in source: async for item in mapping(value): yield item`.  The
nested loops are those of `Seq.collectNext`, whose `yield from` is a loop that yields. -/
def collect (mapping : α → PyD σ (Iterable σ β T)) (source : Iterable σ α S) :
    Iterable σ β (Seq.CollectState S (Iterable σ β T) T) where
  iter := pure .fresh
  next := Seq.collectNext mapping source

/-- asyncseq.py:93-105 -/
def concat (source : Iterable σ (Iterable σ β T) S) : Iterable σ β (Seq.CollectState S (Iterable σ β T) T) :=
  collect (fun value => pure value) source

/-- asyncseq.py:166-177: the test is made when the next element has been fetched -/
def take (count : Int) (source : Iterable σ α S) : Iterable σ α (Option (S × Nat)) :=
  generator 0 (fun (i : Nat) value => pure (if (i : Int) ≥ count then .stop else .emit value (i + 1))) source

/-- asyncseq.py:179-189 -/
def skip (count : Int) (source : Iterable σ α S) : Iterable σ α (Option (S × Nat)) :=
  generator 0 (fun (i : Nat) value => pure (if (i : Int) ≥ count then .emit value (i + 1) else .skip (i + 1))) source

/-- asyncseq.py:197-208 -/
def tail (source : Iterable σ α S) : Iterable σ α (Option (S × Bool)) :=
  generator true (fun (first : Bool) value => pure (if first then .skip false else .emit value false)) source

/-- where the generator of `scan` is: not started, at the first `yield`, or in the loop [asyncseq.py:154-164] -/
inductive ScanState (S γ : Type) where
  | fresh
  | began
  | running (s : S) (result : γ)

/-- asyncseq.py:154-164: the initial state is yielded before the source is started -/
def scan (scanner : γ → α → PyD σ γ) (state : γ) (source : Iterable σ α S) : Iterable σ γ (ScanState S γ) where
  iter := pure .fresh
  next st := match st with
    | .fresh => pure (some (state, .began))
    | .began => do
      let s ← source.iter
      match ← source.next s with
      | none => pure none
      | some (value, s') =>
        let result ← scanner state value
        pure (some (result, .running s' result))
    | .running s result => do
      match ← source.next s with
      | none => pure none
      | some (value, s') =>
        let result ← scanner result value
        pure (some (result, .running s' result))

/-- where the generator of `append` is [asyncseq.py:246-250] -/
inductive AppendState (S T : Type) where
  | fresh
  | left (s : S)
  | right (t : T)

/-- the second loop of `append` [asyncseq.py:249-250] -/
def appendRight (other : Iterable σ α T) (t : T) : PyD σ (Option (α × AppendState S T)) := do
  match ← other.next t with
  | none => pure none
  | some (value, t') => pure (some (value, .right t'))

/-- the first loop of `append`, going over to the second one when the source is used up [asyncseq.py:247-248] -/
def appendLeft (other : Iterable σ α T) (source : Iterable σ α S) (s : S) : PyD σ (Option (α × AppendState S T)) := do
  match ← source.next s with
  | some (value, s') => pure (some (value, .left s'))
  | none =>
    let t ← other.iter
    appendRight other t

/-- asyncseq.py:243-252 -/
def append (other : Iterable σ α T) (source : Iterable σ α S) : Iterable σ α (AppendState S T) where
  iter := pure .fresh
  next st := match st with
    | .fresh => do
      let s ← source.iter
      appendLeft other source s
    | .left s => appendLeft other source s
    | .right t => appendRight other t

/-- asyncseq.py:255-257, and 26-28 -/
def empty : Iterable σ α (List α) := Iterable.ofList []

/-- asyncseq.py:260-262: `itertools.repeat(value, times or 0)`; a negative count means 0 -/
def «repeat» (value : α) (times : Option Int) : Iterable σ α (List α) :=
  Iterable.ofList (List.replicate (times.getD 0).toNat value)

/-- asyncseq.py:273-275, and 42-44: a generator, so `range` is called by the first `next` -/
def range (start stop step : Int) : Iterable σ Int (Option (List Int)) where
  iter := pure none
  next st := match st with
    | none => match Builtins.range start stop step with
      | .error e => PyD.raise e
      | .ok [] => pure none
      | .ok (x :: rest) => pure (some (x, some rest))
    | some [] => pure none
    | some (x :: rest) => pure (some (x, some rest))

/-- asyncseq.py:128-137 -/
def fold (folder : β → α → PyD σ β) (state : β) (source : Iterable σ α S) : PyD σ β :=
  source.forLoop (fun result value => do
    let r ← folder result value
    pure (.next r)) state

/-- asyncseq.py:139-152 -/
def foldBack (folder : α → β → PyD σ β) (state : β) (source : Iterable σ α S) : PyD σ β := do
  let items ← source.toList
  (Iterable.ofList items.reverse).forLoop (fun result value => do
    let r ← folder value result
    pure (.next r)) state

/-- asyncseq.py:191-195 -/
def head (source : Iterable σ α S) : PyD σ α := do
  match ← source.forLoop (fun _ value => pure (.stop (some value))) none with
  | some value => pure value
  | none => PyD.raise (.valueError "Sequence contains no elements")

/-- asyncseq.py:210-215 -/
def length (source : Iterable σ α S) : PyD σ Nat := source.forLoop (fun count _ => pure (.next (count + 1))) 0

/-- asyncseq.py:217-222; `plus` is Python's `+` -/
def sum (plus : α → α → PyD σ α) (zero : α) (source : Iterable σ α S) : PyD σ α :=
  source.forLoop (fun result value => do
    let r ← plus result value
    pure (.next r)) zero

/-- `builtins.max(items)`: the current best is replaced by an item that is greater [Python; used by asyncseq.py:231, 240] -/
def builtinsMax (gt : α → α → Bool) : α → List α → α
  | best, [] => best
  | best, x :: rest => if gt x best then builtinsMax gt x rest else builtinsMax gt best rest

/-- asyncseq.py:224-231; for `min` (233-240) `gt` is Python's `<` -/
def max (gt : α → α → Bool) (source : Iterable σ α S) : PyD σ α := do
  match ← source.toList with
  | [] => PyD.raise (.valueError "Sequence contains no elements")
  | x :: rest => pure (builtinsMax gt x rest)

end Expression.AsyncSeq
