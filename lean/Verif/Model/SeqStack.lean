import Verif.Model.Seq
import Verif.Model.Builder

/-!
# Iterating over sequences on a bounded stack

The functions of `expression/collections/seq.py` once more, with the number of frames that are free on the interpreter's stack.  A generator that
is resumed occupies a frame until it yields; while it asks the sequence it was made from, it stays there.  CPython raises `RecursionError` when no
frame is free.  Iterators written in C (of lists and tuples, `builtins.filter`, `builtins.zip`, `itertools`) occupy none.

Simplified: all the elements of a sequence are asked for with the same number of free frames, as in a `for` loop or in `list(xs)`.  A generator of
the library is taken to need its frame also when it is made (`__iter__` and the call of the generator function occupy frames then).

`tick` is what happens, besides, whenever a generator is resumed: nothing (`pure ()`), or counting.
-/

namespace Expression

variable {σ α β γ ε S T : Type}

/-- a sequence, and what iterating over it does when so many frames are free [Python: generators and the stack] -/
abbrev FrameSeq (σ α S : Type) : Type := Nat → Iterable σ α S

namespace FrameSeq

/-- there is no frame for the iterator [Python: generators and the stack] -/
def overflow : Iterable σ α S := ⟨PyD.raise .recursionError, fun _ => PyD.raise .recursionError⟩

/-- a list or tuple: the iterator is written in C [Python: generators and the stack] -/
def ofList (xs : List α) : FrameSeq σ α (List α) := fun _ => Iterable.ofList xs

/-- A generator whose code, run in a frame of its own, is `body`. [Python: generators and the stack] -/
def generator (tick : PyD σ Unit) (body : FrameSeq σ α S) : FrameSeq σ α S
  | 0 => overflow
  | free + 1 => {
      iter := (body free).iter
      next := fun s => do
        tick
        (body free).next s }

/-- `Seq(xs)` (seq.py:75-76, 385-388): the generator expression `(x for x in self._value)` -/
def seq (tick : PyD σ Unit) (xs : FrameSeq σ α S) : FrameSeq σ α S := generator tick xs

/-- `SeqGen(gen)` (seq.py:410-423): the generator expression `(x for x in self.gen())` around the generator -/
def seqGen (tick : PyD σ Unit) (gen : FrameSeq σ α S) : FrameSeq σ α S := generator tick (generator tick gen)

/-- seq.py:675-695; the mapper is called from the generator -/
def map (tick : PyD σ Unit) (mapper : Nat → α → PyD σ β) (source : FrameSeq σ α S) : FrameSeq σ β (Option S) :=
  seqGen tick (fun free => Seq.map (mapper free) (source free))

/-- seq.py:463-487 -/
def collect (tick : PyD σ Unit) (mapping : Nat → α → PyD σ (FrameSeq σ β T)) (source : FrameSeq σ α S) :
    FrameSeq σ β (Seq.CollectState S (Iterable σ β T) T) :=
  seqGen tick (fun free => Seq.collect (fun x => do
    let xs ← mapping free x
    pure (xs free)) (source free))

/-- seq.py:490-507; `append` (426-437) is `concat(source, *others)` -/
def concat (tick : PyD σ Unit) (iterables : List (FrameSeq σ α T)) :
    FrameSeq σ α (Seq.CollectState (List (Iterable σ α T)) (Iterable σ α T) T) :=
  seqGen tick (fun free => Seq.concat (iterables.map (fun q => q free)))

/-- seq.py:529-545: `builtins.filter`; the predicate is called from where the next element is asked for -/
def filter (predicate : Nat → α → PyD σ Bool) (source : FrameSeq σ α S) : FrameSeq σ α S :=
  fun free => Seq.filter (predicate free) (source free)

/-- seq.py:848-864: `itertools.accumulate` -/
def scan (scanner : Nat → γ → α → PyD σ γ) (state : γ) (source : FrameSeq σ α S) : FrameSeq σ γ (Seq.ScanState S γ) :=
  fun free => Seq.scan (scanner free) state (source free)

/-- seq.py:1035-1068: `builtins.zip` -/
def zip (source1 : FrameSeq σ α S) (source2 : FrameSeq σ β T) : FrameSeq σ (α × β) (S × T) :=
  fun free => Seq.zip (source1 free) (source2 free)

/-- seq.py:1008-1032: a generator, not in a `SeqGen` -/
def unfold (tick : PyD σ Unit) (gen : Nat → S → PyD σ (Option (α × S))) (state : S) : FrameSeq σ α S :=
  generator tick (fun free => Seq.unfold (gen free) state)

/-- seq.py:879-896; `tail` (915-922) is `skip 1` -/
def skip (tick : PyD σ Unit) (count : Int) (source : FrameSeq σ α S) : FrameSeq σ α (Option (S × Nat)) :=
  seqGen tick (fun free => Seq.skip count (source free))

/-- seq.py:925-946; for `count <= 0` it is `Seq()` -/
def take (tick : PyD σ Unit) (count : Int) (source : FrameSeq σ α S) : FrameSeq σ α (Option (S × Nat)) :=
  if count > 0 then seqGen tick (fun free => Seq.take count (source free)) else seq tick (fun free => Seq.take count (source free))

/-- seq.py:510-522, with `SeqGen` (410-423): the generator expression `(x for x in self.gen())` around what the function returns, which `__iter__`
calls from its own frame -/
def delay (tick : PyD σ Unit) (gen : Nat → PyD σ (FrameSeq σ α T)) : FrameSeq σ α (Iterable σ α T × T) :=
  generator tick (fun free => Seq.delay (do
    let xs ← gen free
    pure (xs free)))

/-- seq.py:810-826: `SeqGen(lambda: itertools.pairwise(source))`.  To make the iterator takes two frames, that of `__iter__` and that of the `lambda`;
later there is one, that of the generator expression (410-423). -/
def pairwise (tick : PyD σ Unit) (source : FrameSeq σ α S) : FrameSeq σ (α × α) (S × Option α)
  | 0 => overflow
  | free + 1 => {
      iter := match free with
        | 0 => PyD.raise .recursionError
        | free' + 1 => (Seq.pairwise (source free')).iter
      next := fun s => do
        tick
        (Seq.pairwise (source free)).next s }

/-- seq.py:624-651: `__iter__` needs a frame; the iterator is a `builtins.map` object, which calls the initializer from where the next element is
asked for -/
def initInfinite (initializer : Nat → Nat → PyD σ α) : FrameSeq σ α Nat := fun free => {
  iter := match free with
    | 0 => PyD.raise .recursionError
    | _ + 1 => (Seq.initInfinite (initializer free)).iter
  next := (Seq.initInfinite (initializer free)).next }

/-- an iterable among others, with iterators of other types [Python: generators and the stack] -/
def left (q : FrameSeq σ α S) : FrameSeq σ α (S ⊕ T) := fun free => {
  iter := Sum.inl <$> (q free).iter
  next := fun s => match s with
    | .inl s => (Option.map (fun p => (p.1, Sum.inl p.2))) <$> (q free).next s
    | .inr _ => pure none }

/-- the same, the other one of two [Python: generators and the stack] -/
def right (q : FrameSeq σ α T) : FrameSeq σ α (S ⊕ T) := fun free => {
  iter := Sum.inr <$> (q free).iter
  next := fun s => match s with
    | .inl _ => pure none
    | .inr s => (Option.map (fun p => (p.1, Sum.inr p.2))) <$> (q free).next s }

/-- `seq.concat(xs, ys)` (seq.py:490-507) -/
def concat2 (tick : PyD σ Unit) (xs : FrameSeq σ α S) (ys : FrameSeq σ α T) :
    FrameSeq σ α (Seq.CollectState (List (Iterable σ α (S ⊕ T))) (Iterable σ α (S ⊕ T)) (S ⊕ T)) :=
  concat tick [left xs, right ys]

end FrameSeq

/-! ## what `effect.seq` returns -/

/-- The objects that `effect.seq` makes its result from: an `Option`, `Result` or `Seq`; a list; `seq.concat(xs, ys)`. [effect/seq.py:12-99] -/
inductive Piece (α ε : Type) where
  | value (m : Eff α ε)
  | list (xs : List (Obj α))
  | concat (xs ys : Piece α ε)

namespace Piece

/-- the iterator of an `Option`, `Result` or `Seq`, apart from its frame [effect/seq.py:12-99] -/
def iterator (m : Eff α ε) : Iterable σ (Obj α) (List (Obj α)) :=
  match m.iterate with
  | .ok xs => Iterable.ofList xs
  | .error e => ⟨pure [], fun _ => PyD.raise e⟩

/-- the states of an iterator over such an object [effect/seq.py:12-99] -/
def State (σ : Type) : Piece α ε → Type
  | value _ => List (Obj α)
  | list _ => List (Obj α)
  | concat xs ys => Seq.CollectState (List (Iterable σ (Obj α) (State σ xs ⊕ State σ ys)))
      (Iterable σ (Obj α) (State σ xs ⊕ State σ ys)) (State σ xs ⊕ State σ ys)

/-- Iterating over such an object.  `__iter__` of options and results (option.py:295-300, result.py:268-273) is a generator function, like that of
`Seq` it needs one frame. -/
def frames (tick : PyD σ Unit) : (p : Piece α ε) → FrameSeq σ (Obj α) (p.State σ)
  | value m => FrameSeq.generator tick (fun _ => iterator m)
  | list xs => FrameSeq.ofList xs
  | concat xs ys => FrameSeq.concat2 tick (frames tick xs) (frames tick ys)

/-- what `SeqBuilder.bind` (effect/seq.py:26) returned is a list -/
def ofBind : Eff α ε → Piece α ε
  | .seq xs => .list xs
  | m => .value m

end Piece

namespace SeqBuilder

/-- the loop of builder.py:128-134 with `SeqBuilder.bind` and `SeqBuilder.combine` (effect/seq.py:25-26, 51-61): the result is not
iterated over, but one `seq.concat` is put around it -/
def loop (binder : Obj α → PyD (σ × GState S) (Eff α ε)) (result : Piece α ε) (value : Eff α ε) :
    PyD (σ × GState S) (Piece α ε) := do
  if ← Builder.done then pure result
  else
    match ← tryStop (seqBuilder.bind value binder) with
    | none => pure result
    | some value => loop binder (.concat result (.ofBind value)) value
partial_fixpoint

/-- builder.py:115-136; `zero()` is `seq.empty`, a `Seq` (seq.py:525) -/
def drive (binder : Obj α → PyD (σ × GState S) (Eff α ε)) : PyD (σ × GState S) (Piece α ε) := do
  match ← tryStop (binder .none) with
  | none => pure (.value (.seq []))
  | some value => loop binder (.value value) value

/-- calling a function decorated with `effect.seq` whose body contains `yield` (builder.py:102-136): the object returned -/
def call (g : Gen σ α ε S) : PyD σ (Piece α ε) := fun w =>
  ((drive (seqBuilder.send g)).exec (w, ⟨some g.start, false⟩)).map (fun r => (r.1, r.2.1))

end SeqBuilder

end Expression
