import Verif.Model.AsyncSeq
import Verif.Model.Threads

/-!
# Model of `expression/collections/asyncseq.py`: one sequence and several askers

`map`, `filter`, `choose`, `take`, `skip` and `tail` of `asyncseq.py` make an asynchronous generator that goes through its source with `async for`.  Any
number of tasks, and of sequences made from it in turn, may ask one generator object for its next element, at any time: also while it waits for
its source, and a task may be cancelled while it waits.  `Model/AsyncSeq.lean` has one asker only.

A generator object is here what happens to it, one event at a time (CPython genobject.c `async_gen_asend_send`, `async_gen_unwrap_value`):
an asker is turned away while an earlier request is being worked on, and the object is used up once its code has ended in any way.
Simplified: starting the source (`__aiter__`) belongs to the first request; the callbacks have no effects besides raising.
-/

namespace Expression.AsyncShared

open Expression AsyncSeq

variable {α β C : Type}

/-- `RuntimeError` of a second `__anext__` while the first one is awaited
[Python: asynchronous generators and asyncio; the generators are those of asyncseq.py:279-304] -/
def alreadyRunning : PyErr := .failwith "anext(): asynchronous generator is already running"

/-- `asyncio.CancelledError` [Python: asynchronous generators and asyncio; the generators are those of asyncseq.py:279-304] -/
def cancelledError : PyErr := .user 0

/-- an exception that leaves the code of an asynchronous generator (PEP 479; genobject.c `gen_send_ex2`) [Python] -/
def leaving : PyErr → PyErr
  | .stopIteration => .failwith "async generator raised StopIteration"
  | e => e

/-- where the generator object is [Python: asynchronous generators and asyncio; the generators are those of asyncseq.py:279-304] -/
inductive Phase (C : Type) where
  /-- not started, or at a `yield`; `c` is what its local variables hold -/
  | idle (c : C)
  /-- somebody waits for its next element, and it waits for its source -/
  | busy (who : Nat) (c : C)
  /-- its code has ended -/
  | over

/-- what a request comes to [Python: asynchronous generators and asyncio; the generators are those of asyncseq.py:279-304] -/
inductive Outcome (β : Type) where
  | value (y : β)
  /-- `StopAsyncIteration`: an `async for` loop ends -/
  | ended
  | raised (e : PyErr)

/-- what happens [Python: asynchronous generators and asyncio; the generators are those of asyncseq.py:279-304] -/
inductive Event (α : Type) where
  /-- somebody awaits `__anext__` -/
  | ask (who : Nat)
  /-- the source delivers an element -/
  | element (x : α)
  /-- the source is exhausted -/
  | exhausted
  /-- the source raises -/
  | failed (e : PyErr)
  /-- the task that waits is cancelled -/
  | cancel

/-- the generator object, and who got what so far [Python: asynchronous generators and asyncio; the generators are those of asyncseq.py:279-304] -/
structure State (C β : Type) where
  phase : Phase C
  log : List (Nat × Outcome β) := []

/-- the request of `who` is done with [Python: asynchronous generators and asyncio; the generators are those of asyncseq.py:279-304] -/
def State.answer (s : State C β) (who : Nat) (o : Outcome β) (phase : Phase C) : State C β := { phase, log := s.log ++ [(who, o)] }

/-- what the code of the generator does with an element (the body of the loops at asyncseq.py:168-175, 182-187, 200-206, 279-282, 288-290, 298-302) -/
def State.process (body : C → α → Except PyErr (Act C β)) (s : State C β) (who : Nat) (c : C) (x : α) : State C β :=
  match body c x with
  | .ok (.emit y c') => s.answer who (.value y) (.idle c')
  | .ok (.skip c') => { s with phase := .busy who c' }
  | .ok .stop => s.answer who .ended .over
  | .error e => s.answer who (.raised (leaving e)) .over

/-- one event; the source does nothing unless it was asked
[Python: asynchronous generators and asyncio; the generators are those of asyncseq.py:279-304] -/
def step (body : C → α → Except PyErr (Act C β)) (s : State C β) (ev : Event α) : Option (State C β) :=
  match ev, s.phase with
  | .ask who, .idle c => some { s with phase := .busy who c }
  | .ask who, .busy _ _ => some { s with log := s.log ++ [(who, .raised alreadyRunning)] }
  | .ask who, .over => some { s with log := s.log ++ [(who, .ended)] }
  | .element x, .busy who c => some (s.process body who c x)
  | .exhausted, .busy who _ => some (s.answer who .ended .over)
  | .failed e, .busy who _ => some (s.answer who (.raised (leaving e)) .over)
  | .cancel, .busy who _ => some (s.answer who (.raised cancelledError) .over)
  | _, _ => none

/-- a generator that nobody has asked yet [Python: asynchronous generators and asyncio; the generators are those of asyncseq.py:279-304] -/
def start (c : C) : State C β := { phase := .idle c }

/-! The bodies of the loops, for callbacks that compute or raise. -/

/-- asyncseq.py:288-290 -/
def mapAct (f : α → Except PyErr β) (_ : Unit) (x : α) : Except PyErr (Act Unit β) := do
  let y ← f x
  pure (.emit y ())

/-- asyncseq.py:279-282 -/
def filterAct (p : α → Except PyErr Bool) (_ : Unit) (x : α) : Except PyErr (Act Unit α) := do
  let b ← p x
  pure (if b then .emit x () else .skip ())

/-- asyncseq.py:298-302 -/
def chooseAct (f : α → Except PyErr (Option β)) (_ : Unit) (x : α) : Except PyErr (Act Unit β) := do
  let o ← f x
  match o with
  | some y => pure (.emit y ())
  | none => pure (.skip ())

/-- asyncseq.py:170-175 -/
def takeAct (count : Int) (i : Nat) (x : α) : Except PyErr (Act Nat α) := pure (if (i : Int) ≥ count then .stop else .emit x (i + 1))

/-- asyncseq.py:183-187 -/
def skipAct (count : Int) (i : Nat) (x : α) : Except PyErr (Act Nat α) :=
  pure (if (i : Int) ≥ count then .emit x (i + 1) else .skip (i + 1))

/-- asyncseq.py:199-206 -/
def tailAct (first : Bool) (x : α) : Except PyErr (Act Bool α) := pure (if first then .skip false else .emit x false)

end Expression.AsyncShared
