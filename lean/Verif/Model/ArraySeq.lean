import Verif.Model.ArrayLive
import Verif.Model.StopIter

/-!
# Model of the remaining methods that `TypedArray` inherits

`TypedArray` (array.py:168) is a `collections.abc.MutableSequence`; `append`, `extend`, `pop`, `reverse` and `remove` are in `Model/Array.lean` and
`Model/ArrayLive.lean`.  These are the other ones (CPython `Lib/_collections_abc.py`), written in terms of `__len__`, `__iter__`, `__getitem__` and
`__delitem__` of array.py:453-466.  `same v` stands for `v is value or v == value`, where `==` may be any code; the array is on the heap, so that
code may change it.
-/

namespace Expression.ArrLive

open Expression Builtins Arr

variable {ω τ S : Type}

/-- array.py:462-463 with an integer key -/
def getItem (self : Ref) (key : Int) : PyD (World ω τ) (Val ω) := fun w =>
  match (self.view w.1).item key with
  | .error e => some (.error e, w)
  | .ok v => some (.ok v, w)

/-- array.py:453-454 -/
def length (self : Ref) : PyD (World ω τ) Int := fun w => some (.ok ((self.view w.1).len : Int), w)

/-- `Sequence.__contains__`: `for v in self: if v is value or v == value: return True`, then `return False`
[Python: `collections.abc`, the bases of array.py:168] -/
def contains (self : Ref) (same : Val ω → PyD (World ω τ) Bool) : PyD (World ω τ) Bool :=
  (cellIter self.addr).forLoop (fun _ v => do
    let b ← same v
    pure (if b then .stop true else .next false)) false

/-- `Sequence.count`: `sum(1 for v in self if v is value or v == value)`; the comparison is made in the frame of the generator expression -/
def count (self : Ref) (same : Val ω → PyD (World ω τ) Bool) : PyD (World ω τ) Nat :=
  (cellIter self.addr).forLoop (fun n v => do
    let b ← StopIter.inGenerator (same v)
    pure (.next (if b then n + 1 else n))) 0

/-- `stop is None or i < stop` [Python: `collections.abc`, the bases of array.py:168] -/
def before (stop : Option Int) (i : Int) : Bool :=
  match stop with
  | none => true
  | some k => decide (i < k)

/-- `try: v = self[i]` / `except IndexError: break` [Python: `collections.abc`, the bases of array.py:168] -/
def tryItem (self : Ref) (i : Int) : PyD (World ω τ) (Option (Val ω)) := fun w =>
  match (self.view w.1).item i with
  | .error .indexError => some (.ok none, w)
  | .error e => some (.error e, w)
  | .ok v => some (.ok (some v), w)

/-- the `while` loop of `Sequence.index` [Python: `collections.abc`, the bases of array.py:168] -/
def indexLoop (self : Ref) (same : Val ω → PyD (World ω τ) Bool) (stop : Option Int) (i : Int) : PyD (World ω τ) Int := do
  if before stop i then
    match ← tryItem self i with
    | none => PyD.raise (.valueError "")
    | some v =>
      let b ← same v
      if b then pure i else indexLoop self same stop (i + 1)
  else PyD.raise (.valueError "")
partial_fixpoint

/-- `Sequence.index(value, start=0, stop=None)`: negative bounds count from the end [Python: `collections.abc`, the bases of array.py:168] -/
def index (self : Ref) (same : Val ω → PyD (World ω τ) Bool) (start : Int := 0) (stop : Option Int := none) : PyD (World ω τ) Int := do
  let n ← length self
  let start' := if start < 0 then max (n + start) 0 else start
  let stop' := stop.map (fun k => if k < 0 then k + n else k)
  indexLoop self same stop' start'

/-- `Sequence.__reversed__`, a generator: `for i in reversed(range(len(self))): yield self[i]`
[Python: `collections.abc`, the bases of array.py:168] -/
def reversed (self : Ref) : Iterable (World ω τ) (Val ω) (Option Int) where
  iter := pure none
  next st := do
    let i ← match st with
      | none => do
        let n ← length self
        pure (n - 1)
      | some i => pure i
    if i < 0 then pure none
    else
      let v ← getItem self i
      pure (some (v, some (i - 1)))

/-- `while True: self.pop()`, which can only end by an exception [Python: `collections.abc`, the bases of array.py:168] -/
def clearLoop (self : Ref) : PyD (World ω τ) Unit := do
  let _ ← inPlace self (fun a => a.pop)
  clearLoop self
partial_fixpoint

/-- `MutableSequence.clear`: `try: while True: self.pop()` / `except IndexError: pass` [Python: `collections.abc`, the bases of array.py:168] -/
def clear (self : Ref) : PyD (World ω τ) Unit := fun w =>
  match (clearLoop self).exec w with
  | some (.error .indexError, w') => some (.ok (), w')
  | r => r

/-- `MutableSequence.__iadd__`: `self.extend(values); return self`, where `values` is not `self`
[Python: `collections.abc`, the bases of array.py:168] -/
def iadd [Floats ω] (long : Nat) (self : Ref) (values : Iterable (World ω τ) (Val ω) S) : PyD (World ω τ) Ref := do
  extend long self values
  pure self

end Expression.ArrLive
