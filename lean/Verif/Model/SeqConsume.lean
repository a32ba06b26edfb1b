import Verif.Model.AsyncStack

/-!
# Running through sequences on a bounded stack

The functions of `expression/collections/seq.py` that run through a sequence, with the number of frames that are free when they are called.  Simplified
as in `Model/SeqStack.lean`: the iterator is made with as many free frames as its elements are asked for.  The functions are called as such, not as
methods of `Seq`, which take a frame more.
-/

namespace Expression.FrameSeq

open Expression

variable {σ α β S : Type}

/-- curry.py:18-24, 195-205: what `curry_flip(1)` made of a function, called with the last argument: `wrapper` calls `_wrap_curried`, and this the
function -/
def curried (code : Nat → PyD σ β) : Nat → PyD σ β := FrameAsync.coroutine (FrameAsync.coroutine (FrameAsync.coroutine code))

/-- seq.py:606-621 -/
def head (source : FrameSeq σ α S) : Nat → PyD σ α := FrameAsync.coroutine (fun free => Seq.head (source free))

/-- seq.py:762-769, and `min` (779-785).  Simplified: comparing takes no frame. -/
def max (gt : α → α → Bool) (source : FrameSeq σ α S) : Nat → PyD σ α := FrameAsync.coroutine (fun free => Seq.max gt (source free))

/-- seq.py:670-672: the sum over the generator `(1 for _ in source)` -/
def length (source : FrameSeq σ α S) : Nat → PyD σ Nat :=
  FrameAsync.coroutine (fun free => Seq.length (generator (pure ()) source free))

/-- seq.py:548-572: `functools.reduce`, written in C, calls the folder -/
def fold (folder : Nat → β → α → PyD σ β) (state : β) (source : FrameSeq σ α S) : Nat → PyD σ β :=
  curried (fun free => Seq.fold (folder free) state (source free))

/-- seq.py:575-603: `_fold_back` lists the source; the folder is called by a `lambda` -/
def foldBack (folder : Nat → α → β → PyD σ β) (source : FrameSeq σ α S) (state : β) : Nat → PyD σ β :=
  FrameAsync.coroutine (fun free => Seq.foldBack (fun y acc => FrameAsync.coroutine (fun free => folder free y acc) free) (source free) state)

/-- seq.py:655-667 -/
def iter (action : Nat → α → PyD σ Unit) (source : FrameSeq σ α S) : Nat → PyD σ Unit :=
  curried (fun free => Seq.iter (action free) (source free))

/-- seq.py:899-902; `plus` is Python's `+`, and `returns` stands for the call of `cast` -/
def sum (plus : Nat → α → α → PyD σ α) (zero : α) (source : FrameSeq σ α S) : Nat → PyD σ α :=
  FrameAsync.coroutine (fun free => do
    let ret ← Seq.sum (plus free) zero (source free)
    FrameAsync.returns ret free)

/-- the generator `(projection(x) for x in source)` of seq.py:776, 790, 912 -/
def genexpr (projection : Nat → α → PyD σ β) (source : FrameSeq σ α S) : FrameSeq σ β (Option S) :=
  generator (pure ()) (fun free => Seq.map (projection free) (source free))

/-- seq.py:772-776, and `min_by` (788-790).  Simplified: comparing takes no frame. -/
def maxBy (gt : β → β → Bool) (projection : Nat → α → PyD σ β) (source : FrameSeq σ α S) : Nat → PyD σ β :=
  curried (fun free => Seq.max gt (genexpr projection source free))

/-- seq.py:905-912: calls `sum` -/
def sumBy (plus : Nat → β → β → PyD σ β) (zero : β) (projection : Nat → α → PyD σ β) (source : FrameSeq σ α S) : Nat → PyD σ β :=
  curried (sum plus zero (genexpr projection source))

/-- seq.py:981-1005; `result.is_some()` (option.py:209-215) is called when the chooser has returned -/
def tryPick (chooser : Nat → α → PyD σ (Option β)) (source : FrameSeq σ α S) : Nat → PyD σ (Option β) :=
  curried (fun free => Seq.tryPick (fun x => do
    let result ← chooser free x
    FrameAsync.returns result free) (source free))

/-- seq.py:741-759: `itertools.starmap` and `enumerate` are written in C -/
def mapi (mapping : Nat → Nat → α → PyD σ β) (source : FrameSeq σ α S) : Nat → PyD σ (List β) :=
  curried (fun free => Seq.mapi (mapping free) (source free))

end Expression.FrameSeq
