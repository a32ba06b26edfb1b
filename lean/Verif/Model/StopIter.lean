import Verif.Model.Array
import Verif.Model.Block
import Verif.Model.MapSource
import Verif.Model.Seq

/-!
# Model of callbacks that raise `StopIteration`

An iterator says that it is exhausted by raising `StopIteration`, so whoever asks an iterator cannot tell this from a `StopIteration` that
a callback raised (CPython `tuple`, `list`, `for` and `functools.reduce` clear it: abstract.c `PySequence_Tuple`, listobject.c
`list_extend`, bytecodes.c `FOR_ITER`).  Inside a generator it becomes a `RuntimeError` instead (PEP 479, genobject.c `gen_send_ex2`).  The
other models leave this out; here are the functions of `block.py`, `array.py` and `seq.py` for which it makes a difference.  Where a
callback is called by a plain function (`fold`, `fold_back`, `iter`, `partition`, `sort_with`, `try_pick`, ...) it makes none.

In `Iterable` the exhaustion of an iterator is `none`; `next` raising `PyErr.stopIteration` does not occur here.
-/

namespace Expression.StopIter

open Expression MapSource Iterable

variable {σ α β γ S T : Type}

/-- the outcome of code in the frame of a generator: PEP 479 -/
def framed : Option (Except PyErr α × σ) → Option (Except PyErr α × σ)
  | none => none
  | some (.ok x, w) => some (.ok x, w)
  | some (.error .stopIteration, w) => some (.error (.failwith "generator raised StopIteration"), w)
  | some (.error e, w) => some (.error e, w)

/-- code in the frame of a generator [Python] -/
def inGenerator (p : PyD σ α) : PyD σ α := fun w => framed (p.exec w)

/-- an iterable that a generator goes through: `iter(it)` is called in its frame [Python] -/
def source (it : Iterable σ α S) : Iterable σ α S := { it with iter := inGenerator it.iter }

/-- `builtins.map(f, src)`; `itertools.starmap` is the same with unpacking.  `f` is called by `__next__`. [Python] -/
def mapObject (f : α → PyD σ β) (src : Iterable σ α S) : Iterable σ β S where
  iter := src.iter
  next s := do
    match ← src.next s with
    | none => pure none
    | some (x, s') =>
      match ← unlessStopIteration (f x) with
      | none => pure none
      | some y => pure (some (y, s'))

/-- `builtins.filter(p, src).__next__` [Python] -/
def filterNext (p : α → PyD σ Bool) (src : Iterable σ α S) (s : S) : PyD σ (Option (α × S)) := do
  match ← src.next s with
  | none => pure none
  | some (x, s') =>
    match ← unlessStopIteration (p x) with
    | none => pure none
    | some b => if b then pure (some (x, s')) else filterNext p src s'
partial_fixpoint

/-- `builtins.filter(p, src)` [Python] -/
def filterObject (p : α → PyD σ Bool) (src : Iterable σ α S) : Iterable σ α S where
  iter := src.iter
  next := filterNext p src

/-- `builtins.enumerate(src)` [Python] -/
def enumerate (src : Iterable σ α S) : Iterable σ (Nat × α) (S × Nat) where
  iter := do
    let s ← src.iter
    pure (s, 0)
  next st := do
    match ← src.next st.1 with
    | none => pure none
    | some (x, s') => pure (some ((st.2, x), (s', st.2 + 1)))

/-- `itertools.count(0, 1)` -/
def count : Iterable σ Nat Nat where
  iter := pure 0
  next i := pure (some (i, i + 1))

/-! ### seq.py -/

/-- seq.py:675-695, a generator; `(f(x) for x in source)` (seq.py:776, 790, 912) is the same -/
def seqMap (mapper : α → PyD σ β) (src : Iterable σ α S) : Iterable σ β (Option S) :=
  Seq.map (fun x => inGenerator (mapper x)) (source src)

/-- seq.py:463-487, a generator: `mapping` is called and its result iterated over in its frame -/
def seqCollect (mapping : α → PyD σ (Iterable σ β T)) (src : Iterable σ α S) : Iterable σ β (Seq.CollectState S (Iterable σ β T) T) :=
  Seq.collect (fun x => do
    let it ← inGenerator (mapping x)
    pure (source it)) (source src)

/-- seq.py:440-460: the chooser is called by the function that `collect` calls -/
def seqChoose (chooser : α → PyD σ (Option β)) (src : Iterable σ α S) :
    Iterable σ β (Seq.CollectState S (Iterable σ β (List β)) (List β)) :=
  seqCollect (fun x => do
    let o ← chooser x
    pure (Iterable.ofList o.toList)) src

/-- seq.py:529-545 -/
def seqFilter (predicate : α → PyD σ Bool) (src : Iterable σ α S) : Iterable σ α S := filterObject predicate src

/-- seq.py:848-864: `itertools.accumulate`; `scanner` is called by `__next__` -/
def seqScan (scanner : γ → α → PyD σ γ) (state : γ) (src : Iterable σ α S) : Iterable σ γ (Seq.ScanState S γ) where
  iter := do
    let s ← src.iter
    pure (.initial s)
  next st := match st with
    | .initial s => pure (some (state, .running s state))
    | .running s total => do
      match ← src.next s with
      | none => pure none
      | some (x, s') =>
        match ← unlessStopIteration (scanner total x) with
        | none => pure none
        | some total' => pure (some (total', .running s' total'))

/-- seq.py:624-651 -/
def seqInitInfinite (initializer : Nat → PyD σ α) : Iterable σ α Nat := mapObject initializer count

/-- seq.py:742-759 -/
def seqMapi (mapping : Nat → α → PyD σ β) (src : Iterable σ α S) : PyD σ (List β) :=
  (mapObject (fun p => mapping p.1 p.2) (enumerate src)).toList

/-- seq.py:1008-1032 -/
def seqUnfold (generator : S → PyD σ (Option (α × S))) (state : S) : Iterable σ α S := Seq.unfold (fun s => inGenerator (generator s)) state

/-- seq.py:772-776 (`min_by`, 789-790, likewise) -/
def seqMaxBy (gt : β → β → Bool) (projection : α → PyD σ β) (src : Iterable σ α S) : PyD σ β := Seq.max gt (seqMap projection src)

/-- seq.py:905-912 -/
def seqSumBy (plus : β → β → PyD σ β) (zero : β) (projection : α → PyD σ β) (src : Iterable σ α S) : PyD σ β :=
  Seq.sum plus zero (seqMap projection src)

/-! ### block.py -/

/-- block.py:239-253 -/
def blockMap (self : Block α) (mapping : α → PyD σ β) : PyD σ (Block β) := do
  pure ⟨← (mapObject mapping (ofList self.value)).toList⟩

/-- block.py:276-291 -/
def blockMapi (self : Block α) (mapping : Nat → α → PyD σ β) : PyD σ (Block β) := do
  pure ⟨← seqMapi mapping (ofList self.value)⟩

/-- block.py:142-155 -/
def blockFilter (self : Block α) (predicate : α → PyD σ Bool) : PyD σ (Block α) := do
  pure ⟨← (filterObject predicate (ofList self.value)).toList⟩

/-- block.py:115-131: the generator expression goes through a `map` object; nothing that is called in its own frame raises -/
def blockCollect (self : Block α) (mapping : α → PyD σ (Block β)) : PyD σ (Block β) := do
  pure ⟨← (mapObject mapping (ofList self.value)).forLoop (fun acc b => pure (.next (acc ++ b.value))) []⟩

/-- block.py:95-113 -/
def blockChoose (self : Block α) (chooser : α → PyD σ (Option β)) : PyD σ (Block β) :=
  blockCollect self (fun x => do
    let o ← chooser x
    pure ⟨Block.optionToSeq o⟩)

/-- block.py:180-192: `all` of a generator expression -/
def blockForall (self : Block α) (predicate : α → PyD σ Bool) : PyD σ Bool :=
  (seqMap predicate (ofList self.value)).forLoop (fun _ b => pure (if b then .next true else .stop false)) true

/-- block.py:273-274, 938-941 -/
def blockSumBy (plus : β → β → PyD σ β) (zero : β) (self : Block α) (projection : α → PyD σ β) : PyD σ β := do
  let xs ← blockMap self projection
  Seq.sum plus zero (ofList xs.value)

/-- block.py:469-486, 997-1015 -/
def blockUnfold (generator : S → PyD σ (Option (α × S))) (state : S) : PyD σ (Block α) := do
  pure ⟨← (seqUnfold generator state).toList⟩

/-! ### array.py -/

open Arr

variable {ω : Type} [Floats ω]

/-- array.py:187-189 -/
def arrayMap (long : Nat) (self : TypedArray ω) (mapping : Val ω → PyD σ (Val ω)) : PyD σ (TypedArray ω) := do
  let ys ← (mapObject mapping (ofList self.value.items)).toList
  PyD.ofPy (Py.ofExcept (TypedArray.ofIterable long ys))

/-- array.py:228-241 -/
def arrayFilter (long : Nat) (self : TypedArray ω) (predicate : Val ω → PyD σ Bool) : PyD σ (TypedArray ω) := do
  let ys ← (filterObject predicate (ofList self.value.items)).toList
  PyD.ofPy (Py.ofExcept (init long (.iterable ys) (some self.typecode)))

/-- array.py:211-214; `choose` (191-209) is `collect` with arrays of no or one element -/
def arrayCollect (long : Nat) (self : TypedArray ω) (mapping : Val ω → PyD σ (TypedArray ω)) : PyD σ (TypedArray ω) := do
  let ys ← (mapObject mapping (ofList self.value.items)).forLoop (fun acc a => pure (.next (acc ++ a.value.items))) []
  PyD.ofPy (Py.ofExcept (TypedArray.ofIterable long ys))

omit [Floats ω] in
/-- array.py:266-278 -/
def arrayForall (self : TypedArray ω) (predicate : Val ω → PyD σ Bool) : PyD σ Bool :=
  (seqMap predicate (ofList self.value.items)).forLoop (fun _ b => pure (if b then .next true else .stop false)) true

end Expression.StopIter
