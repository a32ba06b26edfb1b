import Verif.Model.Seq

/-!
# Model of `expression/collections/seq.py`: what happens to iterators that are left before their end

`Model/Seq.lean` takes it that dropping an unfinished iterator has no effect.  Here it has: a generator that nothing refers to any
more is closed at once (CPython counts references), closing it lets `GeneratorExit` out of the `yield` where it is suspended, the
`for` loops around the `yield` drop their iterators, and a `yield from` closes the iterator it delegates to, before dropping it.  So
a sequence is modelled by a `Source`: an `Iterable` together with what dropping and what closing its iterators does.

Simplified throughout: the objects of `builtins.filter`, `itertools.accumulate`, `itertools.pairwise` and `builtins.zip` drop the
iterators they hold when they end or raise; in Python they do so a moment later, when the loop that they ended drops them.
-/

namespace Expression.SeqClose

open Expression Expression.Seq

variable {σ α β γ S T C : Type}

/-- An iterable whose iterators can be left before their end.  `release s`: the last reference to an unfinished iterator in state `s`
goes.  `close s`: a `yield from` that delegates to such an iterator is closed; it calls the iterator's method `close`, if there is one,
and then drops it.  An iterator that ended or raised has nothing left to release. [Python: generators] -/
structure Source (σ α S : Type) extends Iterable σ α S where
  release : S → PyD σ Unit
  close : S → PyD σ Unit

/-- an exception in a finalizer is reported on the standard error and goes no further [Python: `sys.unraisablehook`] -/
def quietly (p : PyD σ Unit) : PyD σ Unit := fun w => match p.exec w with
  | none => none
  | some (_, w') => some (.ok (), w')

/-- an exception from `p` leaves the frame that holds an iterator; `drop` is what dropping that iterator does [Python: `for`] -/
def leaving (drop : PyD σ Unit) (p : PyD σ α) : PyD σ α := fun w => match p.exec w with
  | none => none
  | some (.ok x, w') => some (.ok x, w')
  | some (.error e, w') => match drop.exec w' with
    | none => none
    | some (_, w'') => some (.error e, w'')

/-- the rest of a `for` loop whose iterator is in state `s`: `break`, and an exception from the body, drop the iterator [Python: `for`] -/
def loop (it : Source σ α S) (body : C → α → PyD σ (Flow C)) (s : S) (c : C) : PyD σ C := do
  match ← it.next s with
  | none => pure c
  | some (x, s') =>
    match ← leaving (it.release s') (body c x) with
    | .stop c' =>
      quietly (it.release s')
      pure c'
    | .next c' => loop it body s' c'
partial_fixpoint

/-- `for x in it: body` [Python: `for`] -/
def forLoop (it : Source σ α S) (body : C → α → PyD σ (Flow C)) (c : C) : PyD σ C := do
  let s ← it.iter
  loop it body s c

/-- `list(it)` [Python] -/
def toList (it : Source σ α S) : PyD σ (List α) := forLoop it (fun acc x => pure (.next (acc ++ [x]))) []

/-- a tuple or list: its iterators have nothing to clean up, and no `close` [Python] -/
def ofList (xs : List α) : Source σ α (List α) where
  toIterable := Iterable.ofList xs
  release _ := pure ()
  close _ := pure ()

/-- seq.py:675-695: `for x in source: yield mapper(x)`, in a `SeqGen` -/
def map (mapper : α → PyD σ β) (source : Source σ α S) : Source σ β (Option S) where
  iter := pure none
  next st := do
    match ← source.next (← started source.toIterable st) with
    | none => pure none
    | some (x, s') =>
      let y ← leaving (source.release s') (mapper x)
      pure (some (y, some s'))
  release st := match st with
    | none => pure ()
    | some s => quietly (source.release s)
  close st := match st with
    | none => pure ()
    | some s => quietly (source.release s)

/-- seq.py:483-485 (`for xs in source: yield from mapping(xs)`).  Simplified as in `Seq.collectNext`. -/
def collectNext (mapping : α → PyD σ (Source σ β T)) (source : Source σ α S) (st : CollectState S (Source σ β T) T) :
    PyD σ (Option (β × CollectState S (Source σ β T) T)) :=
  match st with
  | .fresh => do
    let s ← source.iter
    collectNext mapping source (.outer s)
  | .outer s => do
    match ← source.next s with
    | none => pure none
    | some (x, s') =>
      let it ← leaving (source.release s') (mapping x)
      let t ← leaving (source.release s') it.iter
      collectNext mapping source (.inner s' it t)
  | .inner s it t => do
    match ← leaving (source.release s) (it.next t) with
    | some (y, t') => pure (some (y, .inner s it t'))
    | none => collectNext mapping source (.outer s)
partial_fixpoint

/-- seq.py:483-485: `GeneratorExit` in the generator of `collect`: the `yield from` closes its iterator, the `for` drops its own -/
def collectExit (source : Source σ α S) : CollectState S (Source σ β T) T → PyD σ Unit
  | .fresh => pure ()
  | .outer s => quietly (source.release s)
  | .inner s it t => do
    quietly (it.close t)
    quietly (source.release s)

/-- seq.py:463-487 -/
def collect (mapping : α → PyD σ (Source σ β T)) (source : Source σ α S) :
    Source σ β (CollectState S (Source σ β T) T) where
  iter := pure .fresh
  next := collectNext mapping source
  release := collectExit source
  close := collectExit source

/-- seq.py:440-460, with `Option.to_seq` (option.py:198-207) -/
def choose (chooser : α → PyD σ (Option β)) (source : Source σ α S) :
    Source σ β (CollectState S (Source σ β (List β)) (List β)) :=
  collect (fun x => do
    let o ← chooser x
    pure (ofList o.toList)) source

/-- seq.py:490-507 (`for it in iterables: yield from it`) -/
def concat (iterables : List (Source σ α T)) : Source σ α (CollectState (List (Source σ α T)) (Source σ α T) T) :=
  collect (fun it => pure it) (ofList iterables)

/-- seq.py:426-437 -/
def append (others : List (Source σ α T)) (source : Source σ α T) :
    Source σ α (CollectState (List (Source σ α T)) (Source σ α T) T) := concat (source :: others)

/-- seq.py:510-522, with 419-423: `iter` calls the function and iterates over what it returns in a generator expression -/
def delay (generator : PyD σ (Source σ α T)) : Source σ α (Source σ α T × T) where
  iter := do
    let it ← generator
    let s ← it.iter
    pure (it, s)
  next st := do
    match ← st.1.next st.2 with
    | none => pure none
    | some (x, s') => pure (some (x, (st.1, s')))
  release st := quietly (st.1.release st.2)
  close st := quietly (st.1.release st.2)

/-- seq.py:73-74, 385-388: `Seq(source)`, whose iterators are generator expressions over the source -/
def seq (source : Source σ α S) : Source σ α S where
  toIterable := source.toIterable
  release s := quietly (source.release s)
  close s := quietly (source.release s)

/-- `builtins.filter.__next__` [Python] -/
def filterNext (predicate : α → PyD σ Bool) (source : Source σ α S) (s : S) : PyD σ (Option (α × S)) := do
  match ← source.next s with
  | none => pure none
  | some (x, s') =>
    if ← leaving (source.release s') (predicate x) then pure (some (x, s')) else filterNext predicate source s'
partial_fixpoint

/-- seq.py:529-545: a `builtins.filter` object has no method `close` -/
def filter (predicate : α → PyD σ Bool) (source : Source σ α S) : Source σ α S where
  iter := source.iter
  next := filterNext predicate source
  release s := quietly (source.release s)
  close s := quietly (source.release s)

/-- the iterator that `itertools.accumulate` holds is dropped [Python] -/
def scanRelease (source : Source σ α S) : ScanState S γ → PyD σ Unit
  | .initial s => quietly (source.release s)
  | .running s _ => quietly (source.release s)

/-- seq.py:848-864: an `itertools.accumulate` object, which has no method `close` -/
def scan (scanner : γ → α → PyD σ γ) (state : γ) (source : Source σ α S) : Source σ γ (ScanState S γ) where
  iter := do
    let s ← source.iter
    pure (.initial s)
  next st := match st with
    | .initial s => pure (some (state, .running s state))
    | .running s total => do
      match ← source.next s with
      | none => pure none
      | some (x, s') =>
        let total' ← leaving (source.release s') (scanner total x)
        pure (some (total', .running s' total'))
  release := scanRelease source
  close := scanRelease source

/-- the iterators that `builtins.zip` holds are dropped [Python] -/
def zipRelease (source1 : Source σ α S) (source2 : Source σ β T) (st : S × T) : PyD σ Unit := do
  quietly (source1.release st.1)
  quietly (source2.release st.2)

/-- seq.py:1035-1068: a `builtins.zip` object, which has no method `close`.  When one source ends or raises, the iterator of the other
is dropped. -/
def zip (source1 : Source σ α S) (source2 : Source σ β T) : Source σ (α × β) (S × T) where
  iter := do
    let s ← source1.iter
    let t ← leaving (source1.release s) source2.iter
    pure (s, t)
  next st := do
    match ← leaving (source2.release st.2) (source1.next st.1) with
    | none =>
      quietly (source2.release st.2)
      pure none
    | some (x, s') =>
      match ← leaving (source1.release s') (source2.next st.2) with
      | none =>
        quietly (source1.release s')
        pure none
      | some (y, t') => pure (some ((x, y), (s', t')))
  release := zipRelease source1 source2
  close := zipRelease source1 source2

/-- seq.py:891-894: the loop of `skip`'s generator -/
def skipNext (count : Int) (source : Source σ α S) (st : S × Nat) : PyD σ (Option (α × (Option (S × Nat)))) := do
  match ← source.next st.1 with
  | none => pure none
  | some (n, s') =>
    if (st.2 : Int) ≥ count then pure (some (n, some (s', st.2 + 1))) else skipNext count source (s', st.2 + 1)
partial_fixpoint

/-- seq.py:892, 938: `GeneratorExit` in the generators of `skip` and `take`: `for i, n in enumerate(source)` drops its iterator -/
def enumerateExit (source : Source σ α S) : Option (S × Nat) → PyD σ Unit
  | none => pure ()
  | some (s, _) => quietly (source.release s)

/-- seq.py:879-896; `tail` (915-922) is `skip 1` -/
def skip (count : Int) (source : Source σ α S) : Source σ α (Option (S × Nat)) where
  iter := pure none
  next st := match st with
    | none => do
      let s ← source.iter
      skipNext count source (s, 0)
    | some st => skipNext count source st
  release := enumerateExit source
  close := enumerateExit source

/-- seq.py:937-942: the generator of `take`; its `break` drops the iterator of the source -/
def takeGen (count : Int) (source : Source σ α S) : Source σ α (Option (S × Nat)) where
  iter := pure none
  next st := match st with
    | none => do
      let s ← source.iter
      match ← source.next s with
      | none => pure none
      | some (n, s') => pure (some (n, some (s', 0)))
    | some (s, i) =>
      if (i : Int) = count - 1 then do
        quietly (source.release s)
        pure none
      else do
        match ← source.next s with
        | none => pure none
        | some (n, s') => pure (some (n, some (s', i + 1)))
  release := enumerateExit source
  close := enumerateExit source

/-- seq.py:925-946; for `count <= 0` an empty `Seq` -/
def take (count : Int) (source : Source σ α S) : Source σ α (Option (S × Nat)) :=
  if count > 0 then takeGen count source else
    { iter := pure none, next := fun _ => pure none, release := fun _ => pure (), close := fun _ => pure () }

/-- seq.py:810-826: an `itertools.pairwise` object, which has no method `close` -/
def pairwise (source : Source σ α S) : Source σ (α × α) (S × Option α) where
  iter := do
    let s ← source.iter
    pure (s, none)
  next st := do
    match st.2 with
    | none =>
      match ← source.next st.1 with
      | none => pure none
      | some (old, s') =>
        match ← source.next s' with
        | none => pure none
        | some (new, s'') => pure (some ((old, new), (s'', some new)))
    | some old =>
      match ← source.next st.1 with
      | none => pure none
      | some (new, s') => pure (some ((old, new), (s', some new)))
  release st := quietly (source.release st.1)
  close st := quietly (source.release st.1)

/-- seq.py:606-621: `return` inside the loop drops the iterator -/
def head (source : Source σ α S) : PyD σ α := do
  match ← forLoop source (fun _ x => pure (.stop (some x))) none with
  | some x => pure x
  | none => PyD.raise (.valueError "Sequence contains no elements")

/-- A source of one kind among sources of another kind: their iterators have states of different types. [model] -/
def inLeft (source : Source σ α S) (T : Type) : Source σ α (S ⊕ T) where
  iter := do
    let s ← source.iter
    pure (.inl s)
  next st := match st with
    | .inl s => do
      match ← source.next s with
      | none => pure none
      | some (x, s') => pure (some (x, .inl s'))
    | .inr _ => pure none
  release st := match st with
    | .inl s => source.release s
    | .inr _ => pure ()
  close st := match st with
    | .inl s => source.close s
    | .inr _ => pure ()

/-- see `inLeft` [model] -/
def inRight (S : Type) (source : Source σ α T) : Source σ α (S ⊕ T) where
  iter := do
    let t ← source.iter
    pure (.inr t)
  next st := match st with
    | .inr t => do
      match ← source.next t with
      | none => pure none
      | some (x, t') => pure (some (x, .inr t'))
    | .inl _ => pure none
  release st := match st with
    | .inr t => source.release t
    | .inl _ => pure ()
  close st := match st with
    | .inr t => source.close t
    | .inl _ => pure ()

end Expression.SeqClose
