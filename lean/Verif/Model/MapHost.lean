import Verif.Model.Map

/-!
# Model of `expression/collections/maptree.py` and `map.py` inside an interpreter

`Model/MapTree.lean` takes `<` and `==` of keys to be Boolean functions and calls to be free.  Here the same functions are
modelled once more, with both left to the host: a comparison is code of the key's class, which may raise, have effects and
answer inconsistently, and a call of a recursive function occupies a frame of the interpreter's stack.  Names and branches
are those of `Model/MapTree.lean`; `rebalance`, `mk`, `height` and `is_empty`, which neither compare nor recurse, are shared.

Simplified: the calls and frames of these helpers and of constructors, which call no user code and of which there is a bounded
number for each call that is modelled, are not counted.
-/

namespace Expression

open MapTree (Tree)
open MapTree.Tree

/-- What the interpreter supplies (nothing in `/repo`): `k < key` and `k == key` including the test of their truth, and the
call of a function of the library with the given body. -/
structure Host (σ K : Type) where
  lt : K → K → Py σ Bool
  eq : K → K → Py σ Bool
  call : {α : Type} → Py σ α → Py σ α

namespace Host

variable {σ K : Type}

/-- A host whose stack is never exhausted (nothing in `/repo`). -/
def unbounded (lt eq : K → K → Py σ Bool) : Host σ K := ⟨lt, eq, fun p => p⟩

/-- A call on a bounded stack (nothing in `/repo`): the world carries the number of free frames.  Without a free frame
`RecursionError` is raised; otherwise the body runs with one frame less, which is free again afterwards. -/
def frame {α : Type} (p : Py (σ × Nat) α) : Py (σ × Nat) α := ExceptT.mk fun
  | (w, 0) => (.error .recursionError, (w, 0))
  | (w, n + 1) => let (r, (w', _)) := p.exec (w, n); (r, (w', n + 1))

/-- A host with a bounded stack (nothing in `/repo`).  Comparisons see, and may use, the free frames. -/
def bounded (lt eq : K → K → Py (σ × Nat) Bool) : Host (σ × Nat) K := ⟨lt, eq, frame⟩

/-- A call that is counted (nothing in `/repo`): the world carries the number of calls made so far. -/
def tick {α : Type} (p : Py (σ × Nat) α) : Py (σ × Nat) α := ExceptT.mk fun (w, n) => p.exec (w, n + 1)

/-- A host that counts calls (nothing in `/repo`).  Comparisons may add to the count. -/
def metered (lt eq : K → K → Py (σ × Nat) Bool) : Host (σ × Nat) K := ⟨lt, eq, tick⟩

end Host

namespace MapHost

variable {K V R σ : Type} (H : Host σ K)

/-- maptree.py:66-73 -/
def sizeAux (acc : Nat) : Tree K V → Py σ Nat
  | node _ _ left right _ => do
    let acc ← H.call (sizeAux (acc + 1) left)
    H.call (sizeAux acc right)
  | leaf _ _ => pure (acc + 1)
  | nothing => pure acc

/-- maptree.py:76-77 -/
def size (x : Tree K V) : Py σ Nat := H.call (sizeAux H 0 x)

/-- maptree.py:149-167 -/
def add (k : K) (v : V) : Tree K V → Py σ (Tree K V)
  | node key value left right h => do
    if ← H.lt k key then
      let l ← H.call (add k v left)
      Py.ofExcept (MapTree.rebalance l key value right)
    else if ← H.eq k key then
      pure (node k v left right h)
    else
      let r ← H.call (add k v right)
      Py.ofExcept (MapTree.rebalance left key value r)
  | leaf key value => do
    if ← H.lt k key then pure (node k v nothing (leaf key value) 2)
    else if ← H.eq k key then pure (leaf k v)
    else pure (node k v (leaf key value) nothing 2)
  | nothing => pure (leaf k v)

/-- maptree.py:170-181 -/
def tryFind (k : K) : Tree K V → Py σ (Option V)
  | node key value left right _ => do
    if ← H.eq k key then pure (some value)
    else if ← H.lt k key then H.call (tryFind k left) else H.call (tryFind k right)
  | leaf key value => do
    if ← H.eq k key then pure (some value) else pure none
  | nothing => pure none

/-- maptree.py:184-188 -/
def find (k : K) (m : Tree K V) : Py σ V := do
  match ← H.call (tryFind H k m) with
  | some v => pure v
  | none => Py.raise (.keyError "Key not found")

/-- maptree.py:191-202 -/
def partition1 (predicate : K → V → Py σ Bool) (k : K) (v : V) (acc : Tree K V × Tree K V) :
    Py σ (Tree K V × Tree K V) := do
  let (acc1, acc2) := acc
  if ← predicate k v then
    let a ← H.call (add H k v acc1)
    pure (a, acc2)
  else
    let b ← H.call (add H k v acc2)
    pure (acc1, b)

/-- maptree.py:205-218 -/
def partitionAux (predicate : K → V → Py σ Bool) : Tree K V → Tree K V × Tree K V → Py σ (Tree K V × Tree K V)
  | node key value left right _, acc => do
    let acc ← H.call (partitionAux predicate right acc)
    let acc ← H.call (partition1 H predicate key value acc)
    H.call (partitionAux predicate left acc)
  | leaf key value, acc => H.call (partition1 H predicate key value acc)
  | nothing, acc => pure acc

/-- maptree.py:221-224 -/
def partition (predicate : K → V → Py σ Bool) (m : Tree K V) : Py σ (Tree K V × Tree K V) :=
  H.call (partitionAux H predicate m (nothing, nothing))

/-- maptree.py:227-231 -/
def filter1 (predicate : K → V → Py σ Bool) (k : K) (v : V) (acc : Tree K V) : Py σ (Tree K V) := do
  if ← predicate k v then H.call (add H k v acc)
  else pure acc

/-- maptree.py:234-247 -/
def filterAux (predicate : K → V → Py σ Bool) : Tree K V → Tree K V → Py σ (Tree K V)
  | node key value left right _, acc => do
    let acc ← H.call (filterAux predicate left acc)
    let acc ← H.call (filter1 H predicate key value acc)
    H.call (filterAux predicate right acc)
  | leaf key value, acc => H.call (filter1 H predicate key value acc)
  | nothing, acc => pure acc

/-- maptree.py:250-251 -/
def filter (f : K → V → Py σ Bool) (m : Tree K V) : Py σ (Tree K V) := H.call (filterAux H f m nothing)

/-- maptree.py:254-265 -/
def spliceOutSuccessor : Tree K V → Py σ (K × V × Tree K V)
  | node key value left right _ =>
    if MapTree.isEmpty left then pure (key, value, right)
    else do
      let (k3, v3, l') ← H.call (spliceOutSuccessor left)
      pure (k3, v3, MapTree.mk l' key value right)
  | leaf key value => pure (key, value, nothing)
  | nothing => Py.raise (.failwith "internal error: Map.splice_out_successor")

/-- maptree.py:268-289 -/
def remove (k : K) : Tree K V → Py σ (Tree K V)
  | node key value left right _ => do
    if ← H.lt k key then
      let l ← H.call (remove k left)
      Py.ofExcept (MapTree.rebalance l key value right)
    else if ← H.eq k key then
      if MapTree.isEmpty left then pure right
      else if MapTree.isEmpty right then pure left
      else
        let (sk, sv, r') ← H.call (spliceOutSuccessor H right)
        pure (MapTree.mk left sk sv r')
    else
      let r ← H.call (remove k right)
      Py.ofExcept (MapTree.rebalance left key value r)
  | leaf key value => do
    if ← H.eq k key then pure nothing else pure (leaf key value)
  | nothing => pure nothing

/-- maptree.py:292-331; on the last case see `MapTree.change`. -/
def change (k : K) (u : Option V → Py σ (Option V)) : Tree K V → Py σ (Tree K V)
  | node key value left right h => do
    if ← H.lt k key then
      let l ← H.call (change k u left)
      Py.ofExcept (MapTree.rebalance l key value right)
    else if ← H.eq k key then
      match ← u (some value) with
      | some v => pure (node k v left right h)
      | none =>
        if MapTree.isEmpty left then pure right
        else if MapTree.isEmpty right then pure left
        else
          let (sk, sv, r') ← H.call (spliceOutSuccessor H right)
          pure (MapTree.mk left sk sv r')
    else
      let r ← H.call (change k u right)
      Py.ofExcept (MapTree.rebalance left key value r)
  | leaf key value => do
    if ← H.lt k key then
      match ← u none with
      | some v => pure (node k v nothing (leaf key value) 2)
      | none => pure (leaf key value)
    else if ← H.eq k key then
      match ← u (some value) with
      | some v => pure (leaf k v)
      | none => pure nothing
    else
      match ← u none with
      | some v => pure (node k v (leaf key value) nothing 2)
      | none => pure (leaf key value)
  | nothing => do
    match ← u none with
    | some v => pure (leaf k v)
    | none => Py.raise .effectError

/-- maptree.py:334-344 -/
def mem (k : K) : Tree K V → Py σ Bool
  | node key _ left right _ => do
    if ← H.lt k key then H.call (mem k left)
    else if ← H.eq k key then pure true
    else H.call (mem k right)
  | leaf key _ => H.eq k key
  | nothing => pure false

/-- maptree.py:347-357 -/
def iter (fn : K → V → Py σ Unit) : Tree K V → Py σ Unit
  | node key value left right _ => do
    H.call (iter fn left)
    fn key value
    H.call (iter fn right)
  | leaf key value => fn key value
  | nothing => pure ()

/-- maptree.py:360-375 -/
def tryPick (f : K → V → Py σ (Option R)) : Tree K V → Py σ (Option R)
  | node key value left right _ => do
    let res ← H.call (tryPick f left)
    if res.isSome then pure res
    else
      let res ← f key value
      if res.isSome then pure res
      else H.call (tryPick f right)
  | leaf key value => f key value
  | nothing => pure none

/-- maptree.py:378-385 -/
def «exists» (f : K → V → Py σ Bool) : Tree K V → Py σ Bool
  | node key value left right _ => do
    if ← H.call («exists» f left) then pure true
    else if ← f key value then pure true
    else H.call («exists» f right)
  | leaf key value => f key value
  | nothing => pure false

/-- maptree.py:388-395 -/
def «forall» (f : K → V → Py σ Bool) : Tree K V → Py σ Bool
  | node key value left right _ => do
    if ← H.call («forall» f left) then
      if ← f key value then H.call («forall» f right)
      else pure false
    else pure false
  | leaf key value => f key value
  | nothing => pure true

/-- maptree.py:398-408 -/
def map (f : K → V → Py σ R) : Tree K V → Py σ (Tree K R)
  | node key value left right h => do
    let l2 ← H.call (map f left)
    let v2 ← f key value
    let r2 ← H.call (map f right)
    pure (node key v2 l2 r2 h)
  | leaf key value => do
    let v2 ← f key value
    pure (leaf key v2)
  | nothing => pure nothing

/-- maptree.py:411-420 -/
def foldBack (f : K × V → R → Py σ R) : Tree K V → R → Py σ R
  | node key value left right _, x => do
    let x ← H.call (foldBack f right x)
    let x ← f (key, value) x
    H.call (foldBack f left x)
  | leaf key value, x => f (key, value) x
  | nothing, x => pure x

/-- maptree.py:423-432 -/
def fold (f : R → K × V → Py σ R) : R → Tree K V → Py σ R
  | x, node key value left right _ => do
    let x ← H.call (fold f x left)
    let x ← f x (key, value)
    H.call (fold f x right)
  | x, leaf key value => f x (key, value)
  | x, nothing => pure x

/-- maptree.py:436-443, the local `loop` -/
def toListLoop : Tree K V → List (K × V) → Py σ (List (K × V))
  | node key value left right _, acc => do
    let acc ← H.call (toListLoop right acc)
    H.call (toListLoop left ((key, value) :: acc))
  | leaf key value, acc => pure ((key, value) :: acc)
  | nothing, acc => pure acc

/-- maptree.py:435-445 -/
def toList (m : Tree K V) : Py σ (List (K × V)) := H.call (toListLoop H m [])

/-- maptree.py:448-453: `functools.reduce`, a loop written in C, calls `folder` for each pair. -/
def ofList (xs : List (K × V)) : Py σ (Tree K V) :=
  xs.foldlM (fun acc kv => H.call (H.call (add H kv.1 kv.2 acc))) nothing

/-- maptree.py:456-462.  Simplified: the iterator is the list of the pairs it will produce. -/
def mkFromIterator (acc : Tree K V) : List (K × V) → Py σ (Tree K V)
  | [] => pure acc
  | (x, y) :: e => do
    let acc' ← H.call (add H x y acc)
    H.call (mkFromIterator acc' e)

/-- maptree.py:465-467 -/
def ofSeq (xs : List (K × V)) : Py σ (Tree K V) := H.call (mkFromIterator H nothing xs)

/-- maptree.py:476-487 -/
def collapseLHS : List (Tree K V) → Py σ (List (Tree K V))
  | [] => pure []
  | node key value left right _ :: rest => H.call (collapseLHS (left :: leaf key value :: right :: rest))
  | leaf key value :: rest => pure (leaf key value :: rest)
  | nothing :: rest => H.call (collapseLHS rest)
termination_by s => MapTree.stackWeight s
decreasing_by
  all_goals simp [MapTree.stackWeight, MapTree.weight]
  all_goals omega

/-- maptree.py:491-492 -/
def mkIterator (m : Tree K V) : Py σ (List (Tree K V)) := H.call (collapseLHS H [m])

/-- maptree.py:494-506.  `none` is `StopIteration`; otherwise the pair and the new stack. -/
def iterNext : List (Tree K V) → Py σ (Option ((K × V) × List (Tree K V)))
  | [] => pure none
  | node _ _ _ _ _ :: _ => Py.raise MapTree.iteratorError
  | leaf key value :: rest => do
    let stack ← H.call (collapseLHS H rest)
    pure (some ((key, value), stack))
  | nothing :: _ => Py.raise MapTree.iteratorError

/-- A loop over the iterator, `for kv in it: body(kv)` as in map.py:206-208 and in client code: `fuel` is a bound on the
number of rounds (not in the code; `none` if it does not suffice). -/
def forEach (body : K × V → Py σ Unit) : Nat → List (Tree K V) → Py σ (Option Unit)
  | 0, _ => pure none
  | fuel + 1, stack => do
    match ← H.call (iterNext H stack) with
    | none => pure (some ())
    | some (kv, stack) =>
      body kv
      forEach body fuel stack

end MapHost

/-! ## The methods of `Map` -/

namespace HostMap

variable {K V R σ : Type} (H : Host σ K)

/-- map.py:218-220 -/
def len (m : Map K V) : Py σ Nat := H.call (H.call (MapHost.size H m.tree))

/-- map.py:49-50 -/
def add (m : Map K V) (key : K) (value : V) : Py σ (Map K V) := H.call do
  pure ⟨← H.call (MapHost.add H key value m.tree)⟩

/-- map.py:56-57 -/
def containsKey (m : Map K V) (key : K) : Py σ Bool := H.call (H.call (MapHost.mem H key m.tree))

/-- map.py:59-60 -/
def change (m : Map K V) (key : K) (f : Option V → Py σ (Option V)) : Py σ (Map K V) := H.call do
  pure ⟨← H.call (MapHost.change H key f m.tree)⟩

/-- map.py:69-70 -/
def «exists» (m : Map K V) (predicate : K → V → Py σ Bool) : Py σ Bool :=
  H.call (H.call (MapHost.exists H predicate m.tree))

/-- map.py:72-73 -/
def filter (m : Map K V) (predicate : K → V → Py σ Bool) : Py σ (Map K V) := H.call do
  pure ⟨← H.call (MapHost.filter H predicate m.tree)⟩

/-- map.py:75-88 -/
def forAll (m : Map K V) (predicate : K → V → Py σ Bool) : Py σ Bool :=
  H.call (H.call (MapHost.forall H predicate m.tree))

/-- map.py:90-91 -/
def iterate (m : Map K V) (f : K → V → Py σ Unit) : Py σ Unit := H.call (H.call (MapHost.iter H f m.tree))

/-- map.py:96-97 -/
def fold (m : Map K V) (folder : R → K × V → Py σ R) (state : R) : Py σ R :=
  H.call (H.call (MapHost.fold H folder state m.tree))

/-- map.py:99-100 -/
def foldBack (m : Map K V) (folder : K × V → R → Py σ R) (state : R) : Py σ R :=
  H.call (H.call (MapHost.foldBack H folder m.tree state))

/-- map.py:102-116 -/
def map (m : Map K V) (mapping : K → V → Py σ R) : Py σ (Map K R) := H.call do
  pure ⟨← H.call (MapHost.map H mapping m.tree)⟩

/-- map.py:118-120 -/
def partition (m : Map K V) (predicate : K → V → Py σ Bool) : Py σ (Map K V × Map K V) := H.call do
  let (r1, r2) ← H.call (MapHost.partition H predicate m.tree)
  pure (⟨r1⟩, ⟨r2⟩)

/-- map.py:140-141 -/
def remove (m : Map K V) (key : K) : Py σ (Map K V) := H.call do
  pure ⟨← H.call (MapHost.remove H key m.tree)⟩

/-- map.py:143-144 -/
def toList (m : Map K V) : Py σ (List (K × V)) := H.call (H.call (MapHost.toList H m.tree))

/-- map.py:161-162 -/
def tryFind (m : Map K V) (key : K) : Py σ (Option V) := H.call (H.call (MapHost.tryFind H key m.tree))

/-- map.py:164-165 -/
def tryPick (m : Map K V) (chooser : K → V → Py σ (Option R)) : Py σ (Option R) :=
  H.call (H.call (MapHost.tryPick H chooser m.tree))

/-- map.py:211-212 -/
def getItem (m : Map K V) (key : K) : Py σ V := H.call (H.call (MapHost.find H key m.tree))

/-- map.py:180-187 and 458-459: the method calls the function, which calls `maptree.of_list`, which calls `Block.fold` -/
def ofList (lst : List (K × V)) : Py σ (Map K V) := H.call (H.call do
  pure ⟨← H.call (H.call (MapHost.ofList H lst))⟩)

/-- map.py:189-199 and 462-463: the method calls the function -/
def ofSeq (sequence : List (K × V)) : Py σ (Map K V) := H.call (H.call do
  pure ⟨← H.call (MapHost.ofSeq H sequence)⟩)

/-- `for kv in maptree.mk_iterator(m._tree): body(kv)`, map.py:201-209 (`__hash__`) and 214-216 (`__iter__`). -/
def forEach (m : Map K V) (body : K × V → Py σ Unit) (fuel : Nat) : Py σ (Option Unit) := do
  let stack ← H.call (MapHost.mkIterator H m.tree)
  MapHost.forEach H body fuel stack

end HostMap
end Expression
