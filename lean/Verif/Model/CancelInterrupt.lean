import Verif.Model.Threads

/-!
# Cancellation and interrupts

`expression/system/cancellation.py` once more, one atomic action at a time, with one more thing that can happen to a call anywhere: it is ended by an exception
from outside, such as a `KeyboardInterrupt`; in a listener this may also be a `BaseException` that the listener raises itself.  Leaving a `with` block gives the
lock back.

Every call has a number, and is in one place.  Which thread makes it, and whether it is made by a listener, does not matter: the calls are independent (this allows
more interleavings than threads do: a call may go on before one that a listener of its makes is over).
Simplified: no exception comes between taking the lock and being in the block, or between being through the block and giving it back; the test-and-set of a
registration (disposable.py:54-58) is one step (see C49 and C146 for it).
-/

namespace Expression.CancelInterrupt

open Threads

/-- Where a call stands.  A listener is given by its key in the dictionary and the number of the call that registered it.
[cancellation.py:71-101, disposable.py:52-61] -/
inductive PC where
  /-- not made yet -/
  | idle
  /-- `register`, cancellation.py:89 -/
  | rCheck
  /-- line 92 -/
  | rLock
  /-- line 93 -/
  | rRead
  /-- line 94 -/
  | rStore (current : Nat)
  /-- line 95 -/
  | rIncr (current : Nat)
  /-- leaving the `with` block -/
  | rUnlock (current : Nat)
  /-- lines 97-101 -/
  | rMake (current : Nat)
  /-- it has returned -/
  | rDone (current : Nat)
  /-- it has raised `ObjectDisposedException` (line 90) -/
  | rRefused
  /-- disposing what the call `reg` returned: the test-and-set, disposable.py:54-58 -/
  | uTest (reg current : Nat)
  /-- line 98 -/
  | uLock (reg current : Nat)
  /-- line 99 -/
  | uDel (reg current : Nat)
  /-- leaving the `with` block -/
  | uUnlock (reg : Nat)
  /-- it has returned -/
  | uDone (reg : Nat)
  /-- it has raised `KeyError` -/
  | uKeyError (reg : Nat)
  /-- `cancel` and `dispose`, line 77 -/
  | cLock
  /-- line 78 -/
  | cTest
  /-- line 79 -/
  | cSet
  /-- line 80 -/
  | cSnap
  /-- leaving the `with` block -/
  | cUnlock (listeners : List (Nat × Nat))
  /-- line 82, the listeners still to be called -/
  | cLoop (listeners : List (Nat × Nat))
  /-- line 84, in a listener -/
  | inListener (listeners : List (Nat × Nat))
  /-- it has returned -/
  | cDone
  /-- it was ended there by an exception from outside -/
  | hit (pc : PC)
deriving DecidableEq

/-- in a `with` block [cancellation.py:71-101, disposable.py:52-61] -/
def PC.holds : PC → Bool
  | .rRead => true
  | .rStore _ => true
  | .rIncr _ => true
  | .rUnlock _ => true
  | .uDel _ _ => true
  | .uUnlock _ => true
  | .cTest => true
  | .cSet => true
  | .cSnap => true
  | .cUnlock _ => true
  | _ => false

/-- has the call begun and not come to an end [cancellation.py:71-101, disposable.py:52-61] -/
def PC.isOpen : PC → Bool
  | .idle => false
  | .rDone _ => false
  | .rRefused => false
  | .uDone _ => false
  | .uKeyError _ => false
  | .cDone => false
  | .hit _ => false
  | _ => true

/-- cancellation.py:57-61, the lock, the calls, the disposed registrations (by the calls that made them), and the listeners that were called, in order -/
structure State where
  isDisposed : Bool
  owner : Option Nat
  listeners : List (Nat × Nat)
  id : Nat
  gone : List Nat
  pc : Nat → PC
  calls : List (Nat × Nat)

/-- a new source [cancellation.py:57-61] -/
def init : State := ⟨false, none, [], 0, [], fun _ => .idle, []⟩

/-- what can happen to a call: it is made, goes on, or is ended from outside [model] -/
inductive Act where
  | register
  /-- dispose what the call `reg` returned -/
  | unregister (reg : Nat)
  | cancel
  | go
  | interrupt
deriving DecidableEq

/-- a call is somewhere else [model] -/
def State.at (s : State) (t : Nat) (f : PC) : State := { s with pc := upd s.pc t f }

/-- `listeners[i] = callback`: a key that is there keeps its place [Python: `dict`; cancellation.py:94] -/
def store (i cb : Nat) : List (Nat × Nat) → List (Nat × Nat)
  | [] => [(i, cb)]
  | e :: l => if e.1 = i then (i, cb) :: l else e :: store i cb l

/-- `del listeners[i]`: `none` is the `KeyError` [Python: `dict`; cancellation.py:99] -/
def delete (i : Nat) : List (Nat × Nat) → Option (List (Nat × Nat))
  | [] => none
  | e :: l => if e.1 = i then some l else (delete i l).map (e :: ·)

/-- the next action of a call [cancellation.py:71-101, disposable.py:52-61] -/
def go (s : State) (t : Nat) : Option State :=
  match s.pc t with
  | .rCheck => if s.isDisposed then some (s.at t .rRefused) else some (s.at t .rLock)
  | .rLock => if s.owner = none then some { s.at t .rRead with owner := some t } else none
  | .rRead => some (s.at t (.rStore s.id))
  | .rStore i => some { s.at t (.rIncr i) with listeners := store i t s.listeners }
  | .rIncr i => some { s.at t (.rUnlock i) with id := s.id + 1 }
  | .rUnlock i => some { s.at t (.rMake i) with owner := none }
  | .rMake i => some (s.at t (.rDone i))
  | .uTest r i => if r ∈ s.gone then some (s.at t (.uDone r)) else some { s.at t (.uLock r i) with gone := r :: s.gone }
  | .uLock r i => if s.owner = none then some { s.at t (.uDel r i) with owner := some t } else none
  | .uDel r i =>
    match delete i s.listeners with
    | some l => some { s.at t (.uUnlock r) with listeners := l }
    | none => some { s.at t (.uKeyError r) with owner := none }
  | .uUnlock r => some { s.at t (.uDone r) with owner := none }
  | .cLock => if s.owner = none then some { s.at t .cTest with owner := some t } else none
  | .cTest => if s.isDisposed then some (s.at t (.cUnlock [])) else some (s.at t .cSet)
  | .cSet => some { s.at t .cSnap with isDisposed := true }
  | .cSnap => some (s.at t (.cUnlock s.listeners))
  | .cUnlock ls => some { s.at t (.cLoop ls) with owner := none }
  | .cLoop [] => some (s.at t .cDone)
  | .cLoop (l :: ls) => some { s.at t (.inListener ls) with calls := s.calls ++ [l] }
  | .inListener ls => some (s.at t (.cLoop ls))
  | _ => none

/-- One atomic action of call `c.1`. [cancellation.py:71-101, disposable.py:52-61, the lines at each case of `go`] -/
def step (s : State) (c : Nat × Act) : Option State :=
  let t := c.1
  match c.2 with
  | .register => if s.pc t = .idle then some (s.at t .rCheck) else none
  | .unregister r =>
    match s.pc r with
    | .rDone i => if s.pc t = .idle then some (s.at t (.uTest r i)) else none
    | _ => none
  | .cancel => if s.pc t = .idle then some (s.at t .cLock) else none
  | .go => go s t
  | .interrupt =>
    if (s.pc t).isOpen then some { s.at t (.hit (s.pc t)) with owner := if (s.pc t).holds then none else s.owner } else none

end Expression.CancelInterrupt
