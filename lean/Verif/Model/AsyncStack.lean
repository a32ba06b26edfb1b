import Verif.Model.AsyncSeq
import Verif.Model.SeqStack

/-!
# Iterating over asynchronous sequences on a bounded stack

The functions of `expression/collections/asyncseq.py` once more, with the number of frames that are free on the interpreter's stack.  An asynchronous
generator that is awaited occupies a frame until it yields, also whenever the event loop resumes it in between; while it awaits the sequence it was
made from, it stays there.  `__aiter__` of a generator object is written in C and occupies none; `AsyncSeq.__aiter__` is written in Python.

Simplified as in `Model/SeqStack.lean`: all the elements are awaited with the same number of free frames, as in an `async for` loop.  The frames of
the calls that make the generators (`await xs.filter(f)`, `pipe`) are not counted: those calls have returned when the loop begins.
-/

namespace Expression.FrameAsync

open Expression

variable {σ α β γ S T : Type}

/-- a coroutine, or a function, whose code, run in a frame of its own, is `code` [Python: coroutines and the stack] -/
def coroutine (code : Nat → PyD σ β) : Nat → PyD σ β
  | 0 => PyD.raise .recursionError
  | free + 1 => code free

/-- a call of a function written in Python that returns `x` and calls no function itself: `Option.is_none` (option.py:217-223) and `Option.value`
(281-290) are such, and `typing.cast` [Python: functions and the stack] -/
def returns (x : α) : Nat → PyD σ α := coroutine (fun _ => pure x)

/-- An asynchronous generator whose code, run in a frame of its own, is `body`. [Python: asynchronous generators and the stack] -/
def generator (body : FrameSeq σ α S) : FrameSeq σ α S := fun free => {
  iter := (body free).iter
  next := match free with
    | 0 => fun _ => PyD.raise .recursionError
    | free + 1 => (body free).next }

/-- asyncseq.py:17-19, 46-47: `AsyncSeq(ai)`; `__aiter__` calls that of `ai` from its own frame and returns the iterator itself -/
def asyncSeq (ai : FrameSeq σ α S) : FrameSeq σ α S := fun free => {
  iter := match free with
    | 0 => PyD.raise .recursionError
    | free + 1 => (ai free).iter
  next := (ai free).next }

/-- asyncseq.py:287-292; the mapper is called from the generator.  The method (21-24) is `AsyncSeq` of this. -/
def map (mapper : Nat → α → PyD σ β) (source : FrameSeq σ α S) : FrameSeq σ β (Option (S × Unit)) :=
  generator (fun free => AsyncSeq.map (mapper free) (source free))

/-- asyncseq.py:278-284, and the method (107-126) -/
def filter (predicate : Nat → α → PyD σ Bool) (source : FrameSeq σ α S) : FrameSeq σ α (Option (S × Unit)) :=
  generator (fun free => AsyncSeq.filter (predicate free) (source free))

/-- asyncseq.py:295-304, and the method (49-70).  `result.is_none()` and `result.value` are called, one after the other, once the chooser has returned; as
neither calls anything, they need the frame of the first. -/
def choose (chooser : Nat → α → PyD σ (Option β)) (source : FrameSeq σ α S) : FrameSeq σ β (Option (S × Unit)) :=
  generator (fun free => AsyncSeq.choose (fun value => do
    let result ← chooser free value
    returns result free) (source free))

/-- asyncseq.py:307-317, and the method (72-91) -/
def collect (mapping : Nat → α → PyD σ (FrameSeq σ β T)) (source : FrameSeq σ α S) :
    FrameSeq σ β (Seq.CollectState S (Iterable σ β T) T) :=
  generator (fun free => AsyncSeq.collect (fun x => do
    let xs ← mapping free x
    pure (xs free)) (source free))

/-- asyncseq.py:166-177 -/
def take (count : Int) (source : FrameSeq σ α S) : FrameSeq σ α (Option (S × Nat)) :=
  generator (fun free => AsyncSeq.take count (source free))

/-- asyncseq.py:179-189 -/
def skip (count : Int) (source : FrameSeq σ α S) : FrameSeq σ α (Option (S × Nat)) :=
  generator (fun free => AsyncSeq.skip count (source free))

/-- asyncseq.py:197-208 -/
def tail (source : FrameSeq σ α S) : FrameSeq σ α (Option (S × Bool)) :=
  generator (fun free => AsyncSeq.tail (source free))

/-- asyncseq.py:154-164 -/
def scan (scanner : Nat → γ → α → PyD σ γ) (state : γ) (source : FrameSeq σ α S) : FrameSeq σ γ (AsyncSeq.ScanState S γ) :=
  generator (fun free => AsyncSeq.scan (scanner free) state (source free))

/-- asyncseq.py:243-252 -/
def append (other : FrameSeq σ α T) (source : FrameSeq σ α S) : FrameSeq σ α (AsyncSeq.AppendState S T) :=
  generator (fun free => AsyncSeq.append (other free) (source free))

/-- asyncseq.py:260-262; with `times = None` it is also what `empty` (255-257) does -/
def «repeat» (value : α) (times : Option Int) : FrameSeq σ α (List α) :=
  generator (fun _ => AsyncSeq.repeat value times)

/-- asyncseq.py:273-275 -/
def range (start stop step : Int) : FrameSeq σ Int (Option (List Int)) :=
  generator (fun _ => AsyncSeq.range start stop step)

/-- asyncseq.py:128-137 -/
def fold (folder : Nat → β → α → PyD σ β) (state : β) (source : FrameSeq σ α S) : Nat → PyD σ β :=
  coroutine (fun free => AsyncSeq.fold (folder free) state (source free))

/-- asyncseq.py:139-152 -/
def foldBack (folder : Nat → α → β → PyD σ β) (state : β) (source : FrameSeq σ α S) : Nat → PyD σ β :=
  coroutine (fun free => AsyncSeq.foldBack (folder free) state (source free))

/-- asyncseq.py:191-195 -/
def head (source : FrameSeq σ α S) : Nat → PyD σ α := coroutine (fun free => AsyncSeq.head (source free))

/-- asyncseq.py:210-215 -/
def length (source : FrameSeq σ α S) : Nat → PyD σ Nat := coroutine (fun free => AsyncSeq.length (source free))

/-- asyncseq.py:217-222; `plus` is Python's `+`, `returns` stands for the calls of `cast` -/
def sum (plus : Nat → α → α → PyD σ α) (zero : α) (source : FrameSeq σ α S) : Nat → PyD σ α :=
  coroutine (fun free => do
    let result ← returns zero free
    AsyncSeq.sum (fun result value => do
      let r ← plus free result value
      returns r free) result (source free))

/-- asyncseq.py:224-231, and `min` (233-240).  Simplified: comparing takes no frame. -/
def max (gt : α → α → Bool) (source : FrameSeq σ α S) : Nat → PyD σ α := coroutine (fun free => AsyncSeq.max gt (source free))

end Expression.FrameAsync
