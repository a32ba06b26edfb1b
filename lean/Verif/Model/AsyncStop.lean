import Verif.Model.AsyncSeq

/-!
# Model of asyncseq.py with `StopAsyncIteration` as the exception that it is

An asynchronous iterator says that it is exhausted by raising `StopAsyncIteration`, and an `async for` loop ends when `__anext__` raises it.
`Model/AsyncSeq.lean` writes this as `none` and has no callbacks that raise `StopAsyncIteration` themselves.  Here a generator is a frame:
its code runs until it yields, returns or raises, and what `__anext__` then does is decided by `inFrame`.
As in `Iterable`, an iterator is not asked again after it raised.
-/

namespace Expression.AsyncStop

open Expression AsyncSeq

variable {σ α β γ S T C : Type}

/-- Python code that may raise `StopAsyncIteration` (`none`) besides what `PyD` says. [Python] -/
abbrev PyA (σ α : Type) : Type := OptionT (PyD σ) α

/-- What `__aiter__()` and awaiting `__anext__()` do: see `Iterable`.  The end is `StopAsyncIteration` raised by `anext`. [Python] -/
structure AsyncIterable (σ α S : Type) where
  aiter : PyA σ S
  anext : S → PyA σ (α × S)

/-- `try: x = await it.__anext__()` / `except StopAsyncIteration`: what an `async for` statement does first; `none` is the end of the
loop [Python] -/
def ask (it : AsyncIterable σ α S) (s : S) : PyA σ (Option (α × S)) := OptionT.lift (it.anext s).run

/-- the rest of an `async for` loop: what the body raises, `StopAsyncIteration` as well, goes past the loop [Python] -/
def loop (it : AsyncIterable σ α S) (body : C → α → PyA σ (Flow C)) (s : S) (c : C) : PyA σ C := do
  match ← ask it s with
  | none => pure c
  | some (x, s') =>
    match ← body c x with
    | .stop c' => pure c'
    | .next c' => loop it body s' c'
partial_fixpoint

/-- `async for x in it: body` [Python] -/
def forLoop (it : AsyncIterable σ α S) (body : C → α → PyA σ (Flow C)) (c : C) : PyA σ C := do
  let s ← it.aiter
  loop it body s c

/-- `[x async for x in it]` [Python] -/
def toList (it : AsyncIterable σ α S) : PyA σ (List α) := forLoop it (fun acc x => pure (.next (acc ++ [x]))) []

/-- the outcome of `__anext__`, by how the code of the asynchronous generator left its frame: after a `yield` (`some (some _)`) it returns;
after a `return` it raises `StopAsyncIteration`; `StopIteration` and `StopAsyncIteration` out of the code become `RuntimeError`
(PEP 479, PEP 525; genobject.c `gen_send_ex2`, `async_gen_unwrap_value`) [Python] -/
def framed : Option (Except PyErr (Option (Option β)) × σ) → Option (Except PyErr (Option β) × σ)
  | none => none
  | some (.ok (some (some y)), w) => some (.ok (some y), w)
  | some (.ok (some none), w) => some (.ok none, w)
  | some (.ok none, w) => some (.error (.failwith "async generator raised StopAsyncIteration"), w)
  | some (.error .stopIteration, w) => some (.error (.failwith "async generator raised StopIteration"), w)
  | some (.error e, w) => some (.error e, w)

/-- run the code of an asynchronous generator until it yields, returns or raises [Python] -/
def inFrame (code : PyA σ (Option β)) : PyA σ β := OptionT.mk fun w => framed (code.run.exec w)

/-- the outcome of awaiting a coroutine, by how its code left the frame: only `StopIteration` is changed (PEP 479) [Python] -/
def framedCoroutine : Option (Except PyErr (Option β) × σ) → Option (Except PyErr (Option β) × σ)
  | none => none
  | some (.ok o, w) => some (.ok o, w)
  | some (.error .stopIteration, w) => some (.error (.failwith "coroutine raised StopIteration"), w)
  | some (.error e, w) => some (.error e, w)

/-- `await` a coroutine with this code [Python] -/
def coroutine (code : PyA σ β) : PyA σ β := OptionT.mk fun w => framedCoroutine (code.run.exec w)

/-- the code of a generator `async for value in source: body` from where it is suspended to the next `yield` or to the end
[Python: asynchronous generators, as in asyncseq.py:64-206, 279-304] -/
def loopNext (body : C → α → PyA σ (Act C β)) (source : AsyncIterable σ α S) (st : S × C) : PyA σ (Option (β × (S × C))) := do
  match ← ask source st.1 with
  | none => pure none
  | some (x, s') =>
    match ← body st.2 x with
    | .emit y c' => pure (some (y, (s', c')))
    | .skip c' => loopNext body source (s', c')
    | .stop => pure none
partial_fixpoint

/-- the same from the start, or from where it is suspended [Python: asynchronous generators, as in asyncseq.py:64-206, 279-304] -/
def resume (c : C) (body : C → α → PyA σ (Act C β)) (source : AsyncIterable σ α S) :
    Option (S × C) → PyA σ (Option (β × Option (S × C)))
  | none => do
    let s ← source.aiter
    match ← loopNext body source (s, c) with
    | none => pure none
    | some (y, st) => pure (some (y, some st))
  | some st => do
    match ← loopNext body source st with
    | none => pure none
    | some (y, st) => pure (some (y, some st))

/-- a generator function whose code is `c = ...; async for value in source: body`
[Python: asynchronous generators, as in asyncseq.py:64-206, 279-304] -/
def generator (c : C) (body : C → α → PyA σ (Act C β)) (source : AsyncIterable σ α S) : AsyncIterable σ β (Option (S × C)) where
  aiter := pure none
  anext st := inFrame (resume c body source st)

/-- asyncseq.py:287-292, and the method (21-24) -/
def map (mapper : α → PyA σ β) (source : AsyncIterable σ α S) : AsyncIterable σ β (Option (S × Unit)) :=
  generator () (fun _ value => do
    let y ← mapper value
    pure (.emit y ())) source

/-- asyncseq.py:278-284, and the method (107-126) -/
def filter (predicate : α → PyA σ Bool) (source : AsyncIterable σ α S) : AsyncIterable σ α (Option (S × Unit)) :=
  generator () (fun _ value => do
    if ← predicate value then pure (.emit value ()) else pure (.skip ())) source

/-- asyncseq.py:295-304, and the method (49-70) -/
def choose (chooser : α → PyA σ (Option β)) (source : AsyncIterable σ α S) : AsyncIterable σ β (Option (S × Unit)) :=
  generator () (fun _ value => do
    match ← chooser value with
    | some y => pure (.emit y ())
    | none => pure (.skip ())) source

/-- the code of `collect` from where it is suspended to the next `yield` or to the end [asyncseq.py:312-315] -/
def collectNext (mapping : α → PyA σ (AsyncIterable σ β T)) (source : AsyncIterable σ α S) (st : Seq.CollectState S (AsyncIterable σ β T) T) :
    PyA σ (Option (β × Seq.CollectState S (AsyncIterable σ β T) T)) :=
  match st with
  | .fresh => do
    let s ← source.aiter
    collectNext mapping source (.outer s)
  | .outer s => do
    match ← ask source s with
    | none => pure none
    | some (value, s') =>
      let it ← mapping value
      let t ← it.aiter
      collectNext mapping source (.inner s' it t)
  | .inner s it t => do
    match ← ask it t with
    | some (item, t') => pure (some (item, .inner s it t'))
    | none => collectNext mapping source (.outer s)
partial_fixpoint

/-- asyncseq.py:307-317, and the method (72-91) -/
def collect (mapping : α → PyA σ (AsyncIterable σ β T)) (source : AsyncIterable σ α S) :
    AsyncIterable σ β (Seq.CollectState S (AsyncIterable σ β T) T) where
  aiter := pure .fresh
  anext st := inFrame (collectNext mapping source st)

/-- the loop of `scan` from where it is suspended to the next `yield` or to the end [asyncseq.py:162-164] -/
def scanNext (scanner : γ → α → PyA σ γ) (source : AsyncIterable σ α S) (s : S) (result : γ) : PyA σ (Option (γ × ScanState S γ)) := do
  match ← ask source s with
  | none => pure none
  | some (value, s') =>
    let result ← scanner result value
    pure (some (result, .running s' result))

/-- asyncseq.py:154-164 -/
def scan (scanner : γ → α → PyA σ γ) (state : γ) (source : AsyncIterable σ α S) : AsyncIterable σ γ (ScanState S γ) where
  aiter := pure .fresh
  anext st := inFrame (match st with
    | .fresh => pure (some (state, .began))
    | .began => do
      let s ← source.aiter
      scanNext scanner source s state
    | .running s result => scanNext scanner source s result)

/-- asyncseq.py:128-137 -/
def fold (folder : β → α → PyA σ β) (state : β) (source : AsyncIterable σ α S) : PyA σ β :=
  coroutine (forLoop source (fun result value => do
    let r ← folder result value
    pure (.next r)) state)

/-- `for value in items`: going through a list raises nothing, and what the body raises goes past the loop [Python] -/
def forList (body : C → α → PyA σ C) : C → List α → PyA σ C
  | c, [] => pure c
  | c, x :: rest => do
    let c' ← body c x
    forList body c' rest

/-- asyncseq.py:139-152 -/
def foldBack (folder : α → β → PyA σ β) (state : β) (source : AsyncIterable σ α S) : PyA σ β :=
  coroutine (do
    let items ← toList source
    forList (fun result value => folder value result) state items.reverse)

end Expression.AsyncStop
