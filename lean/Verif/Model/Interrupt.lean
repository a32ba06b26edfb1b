import Verif.Model.Disposable

/-!
# Disposables and interrupts

`Disposable.step` with one more thing that can happen to a thread anywhere in a call: an exception from outside, such as the `KeyboardInterrupt` that a signal
raises in the main thread, or the one of `PyThreadState_SetAsyncExc`.  It ends the call; leaving a `with` block gives the lock back.
Simplified: no interrupt comes between taking the lock and being in the block, or between being through the block and giving it back (in CPython it cannot come
inside `RLock.__enter__` and `__exit__`, which are written in C).
-/

namespace Expression.Interrupt

open Threads Disposable

/-- does a call that stands here hold the lock (disposable.py:55-58) -/
def holds : Frame → Bool
  | .test => true
  | .set => true
  | .unlock _ => true
  | _ => false

/-- what can happen to a thread [model: exceptions from outside] -/
inductive Act where
  | act (a : Disposable.Act)
  /-- an exception from outside in the innermost open call -/
  | interrupt
deriving DecidableEq

/-- `hits`: where calls were interrupted, and in which thread [model: exceptions from outside] -/
structure State where
  obj : Disposable.State
  hits : List (Nat × Frame)

/-- a new object [disposable.py:47-50] -/
def init : State := ⟨Disposable.init, []⟩

/-- One atomic action of thread `c.1`, disposable.py:52-66.  An interrupted call does not return: there is no `ended`. -/
def step (s : State) (c : Nat × Act) : Option State :=
  match c.2 with
  | .act a => (Disposable.step s.obj (c.1, a)).map fun o => { s with obj := o }
  | .interrupt =>
    match s.obj.stack c.1 with
    | [] => none
    | f :: fs => some
      { obj := { s.obj with owner := if holds f then none else s.obj.owner, stack := upd s.obj.stack c.1 fs },
        hits := s.hits ++ [(c.1, f)] }

end Expression.Interrupt
