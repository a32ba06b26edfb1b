import Verif.Model.MapTree
import Verif.Model.PyD

/-!
# The nodes of maps as objects

`expression/collections/maptree.py` once more, with the nodes in a heap: a tree is a reference to a node, whose fields `left` and `right` are references
in turn (maptree.py:42-59), and what the functions do is to read nodes and to make new ones.  Other threads (or callbacks) work at the same time: before each step
of ours they may have made any number of nodes.

Simplified: all maps of a program have keys and values of the same types; the fields of a node are read in one step; `Some(...)` objects, which have no
identity for a program that does not use `is`, are made together with the nodes in them; keys compare without effects.
-/

namespace Expression.MapHeap

open Expression MapTree

/-- maptree.py:49: `Nothing`, or `Some` of the node at an address -/
abbrev Ref : Type := Option Nat

/-- the nodes, maptree.py:42-57 -/
inductive Cell (K V : Type) where
  | leaf (key : K) (value : V)
  | node (key : K) (value : V) (left right : Ref) (height : Nat)

/-- all nodes that exist, and which of them we have made [model: memory] -/
structure World (K V : Type) where
  heap : List (Cell K V)
  mine : List Nat
  /-- the nodes that others make before our step of this number -/
  others : Nat → List (Cell K V)
  /-- how many steps we have made -/
  clock : Nat

variable {K V : Type}

/-- the others work [model: memory] -/
def World.wait (w : World K V) : World K V := { w with heap := w.heap ++ w.others w.clock, clock := w.clock + 1 }

/-- `Some(MapTreeLeaf(...))` or `Some(MapTreeNode(...))`: a new object [maptree.py:42-56] -/
def alloc (c : Cell K V) : PyD (World K V) Ref := fun w =>
  some (.ok (some w.wait.heap.length), { w.wait with heap := w.wait.heap ++ [c], mine := w.mine ++ [w.wait.heap.length] })

/-- the node at an address (there is one at every address that occurs, see `Spec.MapHeap.Holds`) [model: memory] -/
def read (a : Nat) : PyD (World K V) (Cell K V) := fun w =>
  match w.wait.heap[a]? with
  | some c => some (.ok c, w.wait)
  | none => some (.error (.attributeError "value"), w.wait)

/-- `match m` with `Nothing` or a node [model: memory] -/
def look : Ref → PyD (World K V) (Option (Cell K V))
  | none => pure none
  | some a => do pure (some (← read a))

/-- `m.value`, option.py `value`: raises if there is none [option.py:281-290] -/
def value : Ref → PyD (World K V) (Cell K V)
  | none => PyD.raise noValueError
  | some a => read a

/-- maptree.py:62-63 -/
def isEmpty : Ref → Bool
  | none => true
  | some _ => false

/-- maptree.py:80-87 -/
def height (m : Ref) : PyD (World K V) Nat := do
  match ← look m with
  | some (.node _ _ _ _ h) => pure h
  | some (.leaf _ _) => pure 1
  | none => pure 0

/-- maptree.py:93-100 -/
def mk (left : Ref) (key : K) (v : V) (right : Ref) : PyD (World K V) Ref := do
  let hl ← height left
  let hr ← height right
  let m := if hl < hr then hr else hl
  if m = 0 then alloc (.leaf key v)
  else alloc (.node key v left right (m + 1))

/-- maptree.py:103-146 -/
def rebalance (t1 : Ref) (k : K) (v : V) (t2 : Ref) : PyD (World K V) Ref := do
  let t1h ← height t1
  let t2h ← height t2
  if t2h > t1h + TOLERANCE then
    match ← value t2 with
    | .node k2 v2 l2 r2 _ =>
      if (← height l2) > t1h + 1 then
        match ← value l2 with
        | .node k2l v2l l2l r2l _ =>
          let a ← mk t1 k v l2l
          let b ← mk r2l k2 v2 r2
          mk a k2l v2l b
        | .leaf _ _ => PyD.raise rebalanceError
      else
        let a ← mk t1 k v l2
        mk a k2 v2 r2
    | .leaf _ _ => PyD.raise rebalanceError
  else if t1h > t2h + TOLERANCE then
    match ← value t1 with
    | .node k1 v1 l1 r1 _ =>
      if (← height r1) > t2h + 1 then
        match ← value r1 with
        | .node k1r v1r l1r r1r _ =>
          let a ← mk l1 k1 v1 l1r
          let b ← mk r1r k v t2
          mk a k1r v1r b
        | .leaf _ _ => PyD.raise rebalanceError
      else
        let b ← mk r1 k v t2
        mk l1 k1 v1 b
    | .leaf _ _ => PyD.raise rebalanceError
  else
    mk t1 k v t2

/-- maptree.py:254-265 -/
def spliceOutSuccessor (m : Ref) : PyD (World K V) (K × V × Ref) := do
  match ← look m with
  | some (.node key v left right _) =>
    if isEmpty left then pure (key, v, right)
    else do
      let (k3, v3, l') ← spliceOutSuccessor left
      pure (k3, v3, ← mk l' key v right)
  | some (.leaf key v) => pure (key, v, none)
  | none => PyD.raise (.failwith "internal error: Map.splice_out_successor")
partial_fixpoint

/-- maptree.py:398-408.  Simplified: the new values are of the same type. -/
def map (f : K → V → PyD (World K V) V) (m : Ref) : PyD (World K V) Ref := do
  match ← look m with
  | some (.node key v left right h) => do
    let l2 ← map f left
    let v2 ← f key v
    let r2 ← map f right
    alloc (.node key v2 l2 r2 h)
  | some (.leaf key v) => do
    let v2 ← f key v
    alloc (.leaf key v2)
  | none => pure none
partial_fixpoint

/-- maptree.py:476-487 -/
def collapseLHS : List Ref → PyD (World K V) (List Ref)
  | [] => pure []
  | m :: rest => do
    match ← look m with
    | some (.node key v left right _) => do
      let tree ← alloc (.leaf key v)
      collapseLHS (left :: tree :: right :: rest)
    | some (.leaf _ _) => pure (m :: rest)
    | none => collapseLHS rest
partial_fixpoint

/-- maptree.py:491-492; the state of the iterator is its field `stack` -/
def mkIterator (m : Ref) : PyD (World K V) (List Ref) := collapseLHS [m]

/-- maptree.py:494-506 -/
def iterNext : List Ref → PyD (World K V) (Option ((K × V) × List Ref))
  | [] => pure none
  | m :: rest => do
    match ← look m with
    | some (.node _ _ _ _ _) => PyD.raise iteratorError
    | some (.leaf key v) => do
      let stack ← collapseLHS rest
      pure (some ((key, v), stack))
    | none => PyD.raise iteratorError

/-- maptree.py:517-518: what `for key, value in m.to_seq()` goes through.  `Map.__iter__` (map.py:214-216) drops the values. -/
def iterable (m : Ref) : Iterable (World K V) (K × V) (List Ref) where
  iter := mkIterator m
  next := iterNext

variable [PyOrd K]

/-- maptree.py:149-167 -/
def add (k : K) (v : V) (m : Ref) : PyD (World K V) Ref := do
  match ← look m with
  | some (.node key old left right h) =>
    if PyOrd.lt k key then do
      let l ← add k v left
      rebalance l key old right
    else if PyOrd.eq k key then alloc (.node k v left right h)
    else do
      let r ← add k v right
      rebalance left key old r
  | some (.leaf key _) =>
    if PyOrd.lt k key then alloc (.node k v none m 2)
    else if PyOrd.eq k key then alloc (.leaf k v)
    else alloc (.node k v m none 2)
  | none => alloc (.leaf k v)
partial_fixpoint

/-- maptree.py:170-181 -/
def tryFind (k : K) (m : Ref) : PyD (World K V) (Option V) := do
  match ← look m with
  | some (.node key v left right _) =>
    if PyOrd.eq k key then pure (some v)
    else if PyOrd.lt k key then tryFind k left else tryFind k right
  | some (.leaf key v) => pure (if PyOrd.eq k key then some v else none)
  | none => pure none
partial_fixpoint

/-- maptree.py:268-289 -/
def remove (k : K) (m : Ref) : PyD (World K V) Ref := do
  match ← look m with
  | some (.node key v left right _) =>
    if PyOrd.lt k key then do
      let l ← remove k left
      rebalance l key v right
    else if PyOrd.eq k key then
      if isEmpty left then pure right
      else if isEmpty right then pure left
      else do
        let (sk, sv, r') ← spliceOutSuccessor right
        mk left sk sv r'
    else do
      let r ← remove k right
      rebalance left key v r
  | some (.leaf key _) => if PyOrd.eq k key then pure none else pure m
  | none => pure none
partial_fixpoint

/-- maptree.py:292-331 (the last case as in `MapTree.change`) -/
def change (k : K) (u : Option V → PyD (World K V) (Option V)) (m : Ref) : PyD (World K V) Ref := do
  match ← look m with
  | some (.node key old left right h) =>
    if PyOrd.lt k key then do
      let l ← change k u left
      rebalance l key old right
    else if PyOrd.eq k key then do
      match ← u (some old) with
      | some v => alloc (.node k v left right h)
      | none =>
        if isEmpty left then pure right
        else if isEmpty right then pure left
        else do
          let (sk, sv, r') ← spliceOutSuccessor right
          mk left sk sv r'
    else do
      let r ← change k u right
      rebalance left key old r
  | some (.leaf key old) =>
    if PyOrd.lt k key then do
      match ← u none with
      | some v => alloc (.node k v none m 2)
      | none => pure m
    else if PyOrd.eq k key then do
      match ← u (some old) with
      | some v => alloc (.leaf k v)
      | none => pure none
    else do
      match ← u none with
      | some v => alloc (.node k v m none 2)
      | none => pure m
  | none => do
    match ← u none with
    | some v => alloc (.leaf k v)
    | none => PyD.raise .effectError
partial_fixpoint

/-- maptree.py:227-231 -/
def filter1 (predicate : K → V → PyD (World K V) Bool) (k : K) (v : V) (acc : Ref) : PyD (World K V) Ref := do
  if ← predicate k v then add k v acc else pure acc

/-- maptree.py:234-247 -/
def filterAux (predicate : K → V → PyD (World K V) Bool) (m acc : Ref) : PyD (World K V) Ref := do
  match ← look m with
  | some (.node key v left right _) => do
    let acc ← filterAux predicate left acc
    let acc ← filter1 predicate key v acc
    filterAux predicate right acc
  | some (.leaf key v) => filter1 predicate key v acc
  | none => pure acc
partial_fixpoint

/-- maptree.py:250-251 -/
def filter (f : K → V → PyD (World K V) Bool) (m : Ref) : PyD (World K V) Ref := filterAux f m none

/-- maptree.py:191-202 -/
def partition1 (predicate : K → V → PyD (World K V) Bool) (k : K) (v : V) (acc : Ref × Ref) : PyD (World K V) (Ref × Ref) := do
  if ← predicate k v then
    let a ← add k v acc.1
    pure (a, acc.2)
  else
    let b ← add k v acc.2
    pure (acc.1, b)

/-- maptree.py:205-218 -/
def partitionAux (predicate : K → V → PyD (World K V) Bool) (m : Ref) (acc : Ref × Ref) : PyD (World K V) (Ref × Ref) := do
  match ← look m with
  | some (.node key v left right _) => do
    let acc ← partitionAux predicate right acc
    let acc ← partition1 predicate key v acc
    partitionAux predicate left acc
  | some (.leaf key v) => partition1 predicate key v acc
  | none => pure acc
partial_fixpoint

/-- maptree.py:221-224 -/
def partition (predicate : K → V → PyD (World K V) Bool) (m : Ref) : PyD (World K V) (Ref × Ref) := partitionAux predicate m (none, none)

end Expression.MapHeap
