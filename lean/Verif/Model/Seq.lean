import Verif.Model.PyD
import Verif.Model.Builtins

/-!
# Model of `expression/collections/seq.py`

The module-level functions.  The methods of `Seq` (seq.py:62-404) wrap them (`Model/SeqMethods.lean`), except `Seq.collect` and
`Seq.concat`, which are modelled here.  `Seq(x)` and `SeqGen.__iter__` wrap an iterable in a generator expression `(x for x in xs)` (seq.py:385-388,
419-423), which calls `iter(xs)` at once and passes elements through; it is left out.  Simplified throughout: a `StopIteration` raised by a callback
is an exception like any other; what it really does is in `Model/StopIter.lean`.
-/

namespace Expression.Seq

open Expression

variable {σ α β γ S T U : Type}

/-- A generator's first `next` runs `iter(source)`; later ones find the iterator in their frame. [Python: generators] -/
def started (src : Iterable σ α S) : Option S → PyD σ S
  | none => src.iter
  | some s => pure s

/-- seq.py:675-695 (`for x in source: yield mapper(x)`); `starmap`, `map2`, `map3` (714-739) are `map` with unpacking -/
def map (mapper : α → PyD σ β) (source : Iterable σ α S) : Iterable σ β (Option S) where
  iter := pure none
  next st := do
    match ← source.next (← started source st) with
    | none => pure none
    | some (x, s') =>
      let y ← mapper x
      pure (some (y, some s'))

/-- where the generator of `collect` is suspended [seq.py:464-487] -/
inductive CollectState (S It T : Type) where
  | fresh
  /-- at the outer `for` -/
  | outer (s : S)
  /-- inside `yield from it` -/
  | inner (s : S) (it : It) (t : T)

/-- seq.py:483-485 (`for xs in source: yield from mapping(xs)`).  Simplified: all the iterables that `mapping` returns have the
same type `T` of iterator states, which is arbitrary. -/
def collectNext (mapping : α → PyD σ (Iterable σ β T)) (source : Iterable σ α S)
    (st : CollectState S (Iterable σ β T) T) :
    PyD σ (Option (β × CollectState S (Iterable σ β T) T)) :=
  match st with
  | .fresh => do
    let s ← source.iter
    collectNext mapping source (.outer s)
  | .outer s => do
    match ← source.next s with
    | none => pure none
    | some (x, s') =>
      let it ← mapping x
      let t ← it.iter
      collectNext mapping source (.inner s' it t)
  | .inner s it t => do
    match ← it.next t with
    | some (y, t') => pure (some (y, .inner s it t'))
    | none => collectNext mapping source (.outer s)
partial_fixpoint

/-- seq.py:463-487 -/
def collect (mapping : α → PyD σ (Iterable σ β T)) (source : Iterable σ α S) :
    Iterable σ β (CollectState S (Iterable σ β T) T) where
  iter := pure .fresh
  next := collectNext mapping source

/-- seq.py:440-460, with `Option.to_seq` (option.py:198-207) -/
def choose (chooser : α → PyD σ (Option β)) (source : Iterable σ α S) :
    Iterable σ β (CollectState S (Iterable σ β (List β)) (List β)) :=
  collect (fun x => do
    let o ← chooser x
    pure (Iterable.ofList o.toList)) source

/-- seq.py:490-507 (`for it in iterables: yield from it`), the loop over the argument tuple being the outer loop; `append`
(426-437) is `concat(source, *others)`. -/
def concat (iterables : List (Iterable σ α T)) :
    Iterable σ α (CollectState (List (Iterable σ α T)) (Iterable σ α T) T) :=
  collect (fun it => pure it) (Iterable.ofList iterables)

/-- seq.py:510-522: `iter` calls the generator function -/
def delay (generator : PyD σ (Iterable σ α T)) : Iterable σ α (Iterable σ α T × T) where
  iter := do
    let it ← generator
    let s ← it.iter
    pure (it, s)
  next st := do
    match ← st.1.next st.2 with
    | none => pure none
    | some (x, s') => pure (some (x, (st.1, s')))

/-- `builtins.filter.__next__` [Python] -/
def filterNext (predicate : α → PyD σ Bool) (source : Iterable σ α S) (s : S) : PyD σ (Option (α × S)) := do
  match ← source.next s with
  | none => pure none
  | some (x, s') =>
    if ← predicate x then pure (some (x, s')) else filterNext predicate source s'
partial_fixpoint

/-- seq.py:529-545: a `builtins.filter` object.  It calls `iter(source)` when it is made and can be iterated once; the model
below is of that one iteration, see `oneShot` for more. -/
def filter (predicate : α → PyD σ Bool) (source : Iterable σ α S) : Iterable σ α S where
  iter := source.iter
  next := filterNext predicate source

/-- state of `itertools.accumulate`: before or after the initial value was delivered [Python] -/
inductive ScanState (S γ : Type) where
  | initial (s : S)
  | running (s : S) (total : γ)

/-- seq.py:848-864: `itertools.accumulate(source, scanner, initial=state)`; one iteration, see `filter` -/
def scan (scanner : γ → α → PyD σ γ) (state : γ) (source : Iterable σ α S) : Iterable σ γ (ScanState S γ) where
  iter := do
    let s ← source.iter
    pure (.initial s)
  next st := match st with
    | .initial s => pure (some (state, .running s state))
    | .running s total => do
      match ← source.next s with
      | none => pure none
      | some (x, s') =>
        let total' ← scanner total x
        pure (some (total', .running s' total'))

/-- seq.py:1035-1068: `builtins.zip(source1, source2)`; one iteration, see `filter` -/
def zip (source1 : Iterable σ α S) (source2 : Iterable σ β T) : Iterable σ (α × β) (S × T) where
  iter := do
    let s ← source1.iter
    let t ← source2.iter
    pure (s, t)
  next st := do
    match ← source1.next st.1 with
    | none => pure none
    | some (x, s') =>
      match ← source2.next st.2 with
      | none => pure none
      | some (y, t') => pure (some ((x, y), (s', t')))

/-- seq.py:1008-1032: a generator; one iteration, see `filter` -/
def unfold (generator : S → PyD σ (Option (α × S))) (state : S) : Iterable σ α S where
  iter := pure state
  next := generator

/-- seq.py:891-894: the loop of `skip`'s generator; `i` counts the elements seen -/
def skipNext (count : Int) (source : Iterable σ α S) (st : S × Nat) :
    PyD σ (Option (α × (Option (S × Nat)))) := do
  match ← source.next st.1 with
  | none => pure none
  | some (n, s') =>
    if (st.2 : Int) ≥ count then pure (some (n, some (s', st.2 + 1))) else skipNext count source (s', st.2 + 1)
partial_fixpoint

/-- seq.py:879-896; `tail` (915-922) is `skip 1` -/
def skip (count : Int) (source : Iterable σ α S) : Iterable σ α (Option (S × Nat)) where
  iter := pure none
  next st := match st with
    | none => do
      let s ← source.iter
      skipNext count source (s, 0)
    | some st => skipNext count source st

/-- seq.py:937-942: the generator of `take`.  It is suspended at the `yield` of the `i`-th element; when resumed it first
compares `i` with `count - 1`. -/
def takeGen (count : Int) (source : Iterable σ α S) : Iterable σ α (Option (S × Nat)) where
  iter := pure none
  next st := match st with
    | none => do
      let s ← source.iter
      match ← source.next s with
      | none => pure none
      | some (n, s') => pure (some (n, some (s', 0)))
    | some (s, i) =>
      if (i : Int) = count - 1 then pure none
      else do
        match ← source.next s with
        | none => pure none
        | some (n, s') => pure (some (n, some (s', i + 1)))

/-- seq.py:925-946; for `count <= 0` an empty `Seq` (whose iterator is exhausted from the start) -/
def take (count : Int) (source : Iterable σ α S) : Iterable σ α (Option (S × Nat)) :=
  if count > 0 then takeGen count source else ⟨pure none, fun _ => pure none⟩

/-- seq.py:810-826: `itertools.pairwise(source)`; `iter(source)` is called by `iter`, the first `next` pulls two elements -/
def pairwise (source : Iterable σ α S) : Iterable σ (α × α) (S × Option α) where
  iter := do
    let s ← source.iter
    pure (s, none)
  next st := do
    match st.2 with
    | none =>
      match ← source.next st.1 with
      | none => pure none
      | some (old, s') =>
        match ← source.next s' with
        | none => pure none
        | some (new, s'') => pure (some ((old, new), (s'', some new)))
    | some old =>
      match ← source.next st.1 with
      | none => pure none
      | some (new, s') => pure (some ((old, new), (s', some new)))

/-- seq.py:624-651.  Simplified: counting goes on without a limit. -/
def initInfinite (initializer : Nat → PyD σ α) : Iterable σ α Nat where
  iter := pure 0
  next i := do
    let y ← initializer i
    pure (some (y, i + 1))

/-- seq.py:606-621 -/
def head (source : Iterable σ α S) : PyD σ α := do
  match ← source.forLoop (fun _ x => pure (.stop (some x))) none with
  | some x => pure x
  | none => PyD.raise (.valueError "Sequence contains no elements")

/-- seq.py:955-978; the pair holds the index of `enumerate` and the answer -/
def tryFindIndex (predicate : α → PyD σ Bool) (source : Iterable σ α S) : PyD σ (Option Nat) := do
  let r ← source.forLoop (fun (c : Nat × Option Nat) x => do
    if ← predicate x then pure (.stop (c.1, some c.1)) else pure (.next (c.1 + 1, none))) (0, none)
  pure r.2

/-- seq.py:981-1005 -/
def tryPick (chooser : α → PyD σ (Option β)) (source : Iterable σ α S) : PyD σ (Option β) :=
  source.forLoop (fun _ x => do
    match ← chooser x with
    | some r => pure (.stop (some r))
    | none => pure (.next none)) none

/-- seq.py:548-572: `functools.reduce(folder, source, state)` -/
def fold (folder : β → α → PyD σ β) (state : β) (source : Iterable σ α S) : PyD σ β :=
  source.forLoop (fun acc x => do pure (.next (← folder acc x))) state

/-- seq.py:575-603: `functools.reduce(lambda x, y: folder(y, x), reversed(list(source)), state)` -/
def foldBack (folder : α → β → PyD σ β) (source : Iterable σ α S) (state : β) : PyD σ β := do
  let xs ← source.toList
  (Iterable.ofList xs.reverse).forLoop (fun acc y => do pure (.next (← folder y acc))) state

/-- seq.py:655-667 -/
def iter (action : α → PyD σ Unit) (source : Iterable σ α S) : PyD σ Unit :=
  source.forLoop (fun _ x => do action x; pure (.next ())) ()

/-- seq.py:670-672 -/
def length (source : Iterable σ α S) : PyD σ Nat := source.forLoop (fun n _ => pure (.next (n + 1))) 0

/-- seq.py:742-759: consumes the source at once -/
def mapi (mapping : Nat → α → PyD σ β) (source : Iterable σ α S) : PyD σ (List β) := do
  let r ← source.forLoop (fun (c : Nat × List β) x => do
    let y ← mapping c.1 x
    pure (.next (c.1 + 1, c.2 ++ [y]))) (0, [])
  pure r.2

/-- seq.py:426-437 (`concat(source, *others)`).  Simplified: all have the same type of iterator states. -/
def append (others : List (Iterable σ α T)) (source : Iterable σ α T) :
    Iterable σ α (CollectState (List (Iterable σ α T)) (Iterable σ α T) T) := concat (source :: others)

/-- seq.py:714-731, for pairs; `map2` (734-735) is the same -/
def starmap (mapper : α → β → PyD σ γ) (source : Iterable σ (α × β) S) : Iterable σ γ (Option S) :=
  map (fun args => mapper args.1 args.2) source

/-- seq.py:915-922 -/
def tail (source : Iterable σ α S) : Iterable σ α (Option (S × Nat)) := skip 1 source

/-- seq.py:867-876 -/
def singleton (item : α) : Iterable σ α (List α) := Iterable.ofList [item]

/-- seq.py:844-845 -/
def range (start stop step : Int) : Except PyErr (Iterable σ Int (List Int)) := do
  .ok (Iterable.ofList (← Builtins.range start stop step))

/-- `builtins.max(source)` (seq.py:762-769): the best so far is replaced by an element that is greater.  For `min` (779-785)
`gt` is Python's `<`.  Simplified: comparing has no effects. -/
def max (gt : α → α → Bool) (source : Iterable σ α S) : PyD σ α := do
  let best ← source.forLoop (fun (best : Option α) x => match best with
    | none => pure (.next (some x))
    | some b => pure (.next (some (if gt x b then x else b)))) none
  match best with
  | none => PyD.raise (.valueError "iterable argument is empty")
  | some b => pure b

/-- seq.py:772-776 (`min_by`, 789-790, likewise): the greatest *projection*, over the generator `(projection(x) for x in
source)` -/
def maxBy (gt : β → β → Bool) (projection : α → PyD σ β) (source : Iterable σ α S) : PyD σ β := max gt (map projection source)

/-- seq.py:899-902: `builtins.sum` starts from 0; `plus` is Python's `+` -/
def sum (plus : α → α → PyD σ α) (zero : α) (source : Iterable σ α S) : PyD σ α := fold plus zero source

/-- seq.py:905-912 -/
def sumBy (plus : β → β → PyD σ β) (zero : β) (projection : α → PyD σ β) (source : Iterable σ α S) : PyD σ β :=
  sum plus zero (map projection source)

/-- seq.py:390-404, 406-407: the pair holds the count of `enumerate` and the text so far -/
def repr (str : α → PyD σ String) (source : Iterable σ α S) : PyD σ String := do
  let r ← source.forLoop (fun (c : Nat × String) x =>
    if c.1 = 0 then do pure (.next (c.1 + 1, c.2 ++ (← str x)))
    else if c.1 = 100 then pure (.stop (c.1, c.2 ++ "; ..."))
    else do pure (.next (c.1 + 1, c.2 ++ ("; " ++ (← str x))))) (0, "[")
  pure (r.2 ++ "]")

/-- `Seq.collect` (seq.py:122-136) with `Seq.concat` (114-120): `Seq(concat(*self.map(mapping)))`.  The star unpacks the mapped
sequence into an argument tuple when `collect` is called; what is returned then iterates over that tuple. -/
def collectMethod (mapping : α → PyD σ (Iterable σ β T)) (source : Iterable σ α S) :
    PyD σ (Iterable σ β (CollectState (List (Iterable σ β T)) (Iterable σ β T) T)) := do
  let its ← (map mapping source).toList
  pure (concat its)

/-- An object that is its own iterator (`filter`, `accumulate`, `zip` and generator objects): all iterations share one state,
kept in the world; `none` once exhausted.  `iter` returns the object itself. [Python] -/
def oneShot (it : Iterable σ α S) : Iterable (σ × Option S) α Unit where
  iter := pure ()
  next _ := fun w => match w with
    | (w, none) => some (.ok none, (w, none))
    | (w, some s) => match (it.next s).exec w with
      | none => none
      | some (.error e, w') => some (.error e, (w', none))
      | some (.ok none, w') => some (.ok none, (w', none))
      | some (.ok (some (x, s')), w') => some (.ok (some (x, ())), (w', some s'))

end Expression.Seq
