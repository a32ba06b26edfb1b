import Verif.Model.Py

/-!
# Model of `expression/collections/maptree.py`

Function by function, branch by branch, names kept (camel-cased).  Exceptions are values of `Except PyErr`; callbacks live
in `Py σ`.  `raise` branches that look unreachable are kept.
-/

namespace Expression.MapTree

open Expression

/-- maptree.py:42-59.  `MapTree = Option[MapTreeLeaf]` with the subclass `MapTreeNode`; `nothing` is `empty = Nothing`.
Simplified: the option wrapper and the class hierarchy become one inductive type; `height` is a natural number. -/
inductive Tree (K V : Type) where
  | nothing
  | leaf (key : K) (value : V)
  | node (key : K) (value : V) (left right : Tree K V) (height : Nat)
deriving DecidableEq, Repr

open Tree

variable {K V R σ : Type}

/-- maptree.py:62-63 -/
def isEmpty : Tree K V → Bool
  | nothing => true
  | _ => false

/-- maptree.py:66-73 -/
def sizeAux (acc : Nat) : Tree K V → Nat
  | node _ _ left right _ => sizeAux (sizeAux (acc + 1) left) right
  | leaf _ _ => acc + 1
  | nothing => acc

/-- maptree.py:76-77 -/
def size (x : Tree K V) : Nat := sizeAux 0 x

/-- maptree.py:80-87 -/
def height : Tree K V → Nat
  | node _ _ _ _ h => h
  | leaf _ _ => 1
  | nothing => 0

/-- maptree.py:90 -/
def TOLERANCE : Nat := 2

/-- maptree.py:93-100 -/
def mk (left : Tree K V) (key : K) (value : V) (right : Tree K V) : Tree K V :=
  let hl := height left
  let hr := height right
  let m := if hl < hr then hr else hl
  if m = 0 then leaf key value
  else node key value left right (m + 1)

/-- The message of maptree.py:120, 124, 140, 144. -/
def rebalanceError : PyErr := .failwith "internal error: Map.rebalance"

/-- `t.value` on a missing option raises `ValueError` (option.py `value` property); used in `rebalance` by
maptree.py:107, 111, 127, 131. -/
def noValueError : PyErr := .valueError "There is no value."

/-- maptree.py:103-146 -/
def rebalance (t1 : Tree K V) (k : K) (v : V) (t2 : Tree K V) : Except PyErr (Tree K V) :=
  let t1h := height t1
  let t2h := height t2
  if t2h > t1h + TOLERANCE then
    match t2 with
    | node k2 v2 l2 r2 _ =>
      if height l2 > t1h + 1 then
        match l2 with
        | node k2l v2l l2l r2l _ =>
          .ok (mk (mk t1 k v l2l) k2l v2l (mk r2l k2 v2 r2))
        | leaf _ _ => .error rebalanceError
        | nothing => .error noValueError
      else
        .ok (mk (mk t1 k v l2) k2 v2 r2)
    | leaf _ _ => .error rebalanceError
    | nothing => .error noValueError
  else if t1h > t2h + TOLERANCE then
    match t1 with
    | node k1 v1 l1 r1 _ =>
      if height r1 > t2h + 1 then
        match r1 with
        | node k1r v1r l1r r1r _ =>
          .ok (mk (mk l1 k1 v1 l1r) k1r v1r (mk r1r k v t2))
        | leaf _ _ => .error rebalanceError
        | nothing => .error noValueError
      else
        .ok (mk l1 k1 v1 (mk r1 k v t2))
    | leaf _ _ => .error rebalanceError
    | nothing => .error noValueError
  else
    .ok (mk t1 k v t2)

section
variable [PyOrd K]

/-- maptree.py:149-167 -/
def add (k : K) (v : V) : Tree K V → Except PyErr (Tree K V)
  | node key value left right h =>
    if PyOrd.lt k key then do
      let l ← add k v left
      rebalance l key value right
    else if PyOrd.eq k key then
      .ok (node k v left right h)
    else do
      let r ← add k v right
      rebalance left key value r
  | leaf key value =>
    if PyOrd.lt k key then .ok (node k v nothing (leaf key value) 2)
    else if PyOrd.eq k key then .ok (leaf k v)
    else .ok (node k v (leaf key value) nothing 2)
  | nothing => .ok (leaf k v)

/-- maptree.py:170-181 -/
def tryFind (k : K) : Tree K V → Option V
  | node key value left right _ =>
    if PyOrd.eq k key then some value
    else if PyOrd.lt k key then tryFind k left else tryFind k right
  | leaf key value => if PyOrd.eq k key then some value else none
  | nothing => none

/-- maptree.py:184-188 -/
def find (k : K) (m : Tree K V) : Except PyErr V :=
  match tryFind k m with
  | some v => .ok v
  | none => .error (.keyError "Key not found")

/-- maptree.py:191-202 -/
def partition1 (predicate : K → V → Py σ Bool) (k : K) (v : V) (acc : Tree K V × Tree K V) :
    Py σ (Tree K V × Tree K V) := do
  let (acc1, acc2) := acc
  if ← predicate k v then
    let a ← Py.ofExcept (add k v acc1)
    pure (a, acc2)
  else
    let b ← Py.ofExcept (add k v acc2)
    pure (acc1, b)

/-- maptree.py:205-218 -/
def partitionAux (predicate : K → V → Py σ Bool) : Tree K V → Tree K V × Tree K V → Py σ (Tree K V × Tree K V)
  | node key value left right _, acc => do
    let acc ← partitionAux predicate right acc
    let acc ← partition1 predicate key value acc
    partitionAux predicate left acc
  | leaf key value, acc => partition1 predicate key value acc
  | nothing, acc => pure acc

/-- maptree.py:221-224 -/
def partition (predicate : K → V → Py σ Bool) (m : Tree K V) : Py σ (Tree K V × Tree K V) :=
  partitionAux predicate m (nothing, nothing)

/-- maptree.py:227-231 -/
def filter1 (predicate : K → V → Py σ Bool) (k : K) (v : V) (acc : Tree K V) : Py σ (Tree K V) := do
  if ← predicate k v then Py.ofExcept (add k v acc)
  else pure acc

/-- maptree.py:234-247 -/
def filterAux (predicate : K → V → Py σ Bool) : Tree K V → Tree K V → Py σ (Tree K V)
  | node key value left right _, acc => do
    let acc ← filterAux predicate left acc
    let acc ← filter1 predicate key value acc
    filterAux predicate right acc
  | leaf key value, acc => filter1 predicate key value acc
  | nothing, acc => pure acc

/-- maptree.py:250-251 -/
def filter (f : K → V → Py σ Bool) (m : Tree K V) : Py σ (Tree K V) := filterAux f m nothing

end

/-- maptree.py:254-265 -/
def spliceOutSuccessor : Tree K V → Except PyErr (K × V × Tree K V)
  | node key value left right _ =>
    if isEmpty left then .ok (key, value, right)
    else do
      let (k3, v3, l') ← spliceOutSuccessor left
      .ok (k3, v3, mk l' key value right)
  | leaf key value => .ok (key, value, nothing)
  | nothing => .error (.failwith "internal error: Map.splice_out_successor")

section
variable [PyOrd K]

/-- maptree.py:268-289 -/
def remove (k : K) : Tree K V → Except PyErr (Tree K V)
  | node key value left right _ =>
    if PyOrd.lt k key then do
      let l ← remove k left
      rebalance l key value right
    else if PyOrd.eq k key then
      if isEmpty left then .ok right
      else if isEmpty right then .ok left
      else do
        let (sk, sv, r') ← spliceOutSuccessor right
        .ok (mk left sk sv r')
    else do
      let r ← remove k right
      rebalance left key value r
  | leaf key value => if PyOrd.eq k key then .ok nothing else .ok (leaf key value)
  | nothing => .ok nothing

/-- maptree.py:292-331.  The last case iterates `u(Nothing)` itself rather than its `to_list()`: iterating `Nothing`
raises `EffectError` (option.py `__iter__`), so the `else: return m` of line 330 is never taken. -/
def change (k : K) (u : Option V → Py σ (Option V)) : Tree K V → Py σ (Tree K V)
  | node key value left right h =>
    if PyOrd.lt k key then do
      let l ← change k u left
      Py.ofExcept (rebalance l key value right)
    else if PyOrd.eq k key then do
      match ← u (some value) with
      | some v => pure (node k v left right h)
      | none =>
        if isEmpty left then pure right
        else if isEmpty right then pure left
        else do
          let (sk, sv, r') ← Py.ofExcept (spliceOutSuccessor right)
          pure (mk left sk sv r')
    else do
      let r ← change k u right
      Py.ofExcept (rebalance left key value r)
  | leaf key value =>
    if PyOrd.lt k key then do
      match ← u none with
      | some v => pure (node k v nothing (leaf key value) 2)
      | none => pure (leaf key value)
    else if PyOrd.eq k key then do
      match ← u (some value) with
      | some v => pure (leaf k v)
      | none => pure nothing
    else do
      match ← u none with
      | some v => pure (node k v (leaf key value) nothing 2)
      | none => pure (leaf key value)
  | nothing => do
    match ← u none with
    | some v => pure (leaf k v)
    | none => Py.raise .effectError

/-- maptree.py:334-344 -/
def mem (k : K) : Tree K V → Bool
  | node key _ left right _ =>
    if PyOrd.lt k key then mem k left else (PyOrd.eq k key || mem k right)
  | leaf key _ => PyOrd.eq k key
  | nothing => false

end

/-- maptree.py:347-357 -/
def iter (fn : K → V → Py σ Unit) : Tree K V → Py σ Unit
  | node key value left right _ => do
    iter fn left
    fn key value
    iter fn right
  | leaf key value => fn key value
  | nothing => pure ()

/-- maptree.py:360-375 -/
def tryPick (f : K → V → Py σ (Option R)) : Tree K V → Py σ (Option R)
  | node key value left right _ => do
    let res ← tryPick f left
    if res.isSome then pure res
    else
      let res ← f key value
      if res.isSome then pure res
      else tryPick f right
  | leaf key value => f key value
  | nothing => pure none

/-- maptree.py:378-385 (`or` evaluates left to right and stops at the first truth) -/
def «exists» (f : K → V → Py σ Bool) : Tree K V → Py σ Bool
  | node key value left right _ => do
    if ← «exists» f left then pure true
    else if ← f key value then pure true
    else «exists» f right
  | leaf key value => f key value
  | nothing => pure false

/-- maptree.py:388-395 -/
def «forall» (f : K → V → Py σ Bool) : Tree K V → Py σ Bool
  | node key value left right _ => do
    if ← «forall» f left then
      if ← f key value then «forall» f right
      else pure false
    else pure false
  | leaf key value => f key value
  | nothing => pure true

/-- maptree.py:398-408 -/
def map (f : K → V → Py σ R) : Tree K V → Py σ (Tree K R)
  | node key value left right h => do
    let l2 ← map f left
    let v2 ← f key value
    let r2 ← map f right
    pure (node key v2 l2 r2 h)
  | leaf key value => do
    let v2 ← f key value
    pure (leaf key v2)
  | nothing => pure nothing

/-- maptree.py:411-420 -/
def foldBack (f : K × V → R → Py σ R) : Tree K V → R → Py σ R
  | node key value left right _, x => do
    let x ← foldBack f right x
    let x ← f (key, value) x
    foldBack f left x
  | leaf key value, x => f (key, value) x
  | nothing, x => pure x

/-- maptree.py:423-432 -/
def fold (f : R → K × V → Py σ R) : R → Tree K V → Py σ R
  | x, node key value left right _ => do
    let x ← fold f x left
    let x ← f x (key, value)
    fold f x right
  | x, leaf key value => f x (key, value)
  | x, nothing => pure x

/-- maptree.py:436-443, the local `loop` -/
def toListLoop : Tree K V → List (K × V) → List (K × V)
  | node key value left right _, acc => toListLoop left ((key, value) :: toListLoop right acc)
  | leaf key value, acc => (key, value) :: acc
  | nothing, acc => acc

/-- maptree.py:435-445.  Simplified: `Block` is a list. -/
def toList (m : Tree K V) : List (K × V) := toListLoop m []

section
variable [PyOrd K]

/-- maptree.py:448-453: `xs.fold(folder, empty)`, i.e. `functools.reduce`. -/
def ofList (xs : List (K × V)) : Except PyErr (Tree K V) :=
  xs.foldlM (fun acc kv => add kv.1 kv.2 acc) nothing

/-- maptree.py:456-462.  Simplified: the iterator is the list of the pairs it will produce (no effects, finite), and the
Python recursion limit is not modelled. -/
def mkFromIterator (acc : Tree K V) : List (K × V) → Except PyErr (Tree K V)
  | [] => .ok acc
  | (x, y) :: e => do
    let acc' ← add x y acc
    mkFromIterator acc' e

/-- maptree.py:456-462 with `frames` free frames on the interpreter's stack: every call of `mk_from_iterator` occupies one
until it returns, and Python does not eliminate the tail call.  Simplified: the frames of `add` are not counted. -/
def mkFromIteratorWithin (frames : Nat) (acc : Tree K V) (xs : List (K × V)) : Except PyErr (Tree K V) :=
  match frames, xs with
  | 0, _ => .error .recursionError
  | _ + 1, [] => .ok acc
  | frames + 1, (x, y) :: e => do
    let acc' ← add x y acc
    mkFromIteratorWithin frames acc' e

/-- maptree.py:465-467 -/
def ofSeq (xs : List (K × V)) : Except PyErr (Tree K V) := mkFromIterator nothing xs

end

/-- Termination measure for `collapseLHS` (not in the code). -/
def weight : Tree K V → Nat
  | node _ _ left right _ => weight left + weight right + 4
  | leaf _ _ => 2
  | nothing => 1

/-- Termination measure for `collapseLHS` (not in the code). -/
def stackWeight (s : List (Tree K V)) : Nat := (s.map weight).sum

/-- maptree.py:476-487 -/
def collapseLHS : List (Tree K V) → List (Tree K V)
  | [] => []
  | node key value left right _ :: rest => collapseLHS (left :: leaf key value :: right :: rest)
  | leaf key value :: rest => leaf key value :: rest
  | nothing :: rest => collapseLHS rest
termination_by s => stackWeight s
decreasing_by
  all_goals simp [stackWeight, weight]
  all_goals omega

/-- maptree.py:491-492, the iterator's only field -/
def mkIterator (m : Tree K V) : List (Tree K V) := collapseLHS [m]

/-- The message of maptree.py:501 and 506. -/
def iteratorError : PyErr := .failwith "Please report error: Map iterator, unexpected stack for next()"

/-- maptree.py:494-506.  `ok none` is `StopIteration`; otherwise the pair and the new stack. -/
def iterNext : List (Tree K V) → Except PyErr (Option ((K × V) × List (Tree K V)))
  | [] => .ok none
  | node _ _ _ _ _ :: _ => .error iteratorError
  | leaf key value :: rest => .ok (some ((key, value), collapseLHS rest))
  | nothing :: _ => .error iteratorError

/-- Termination of `drain` (not in the code). -/
theorem stackWeight_collapseLHS (s : List (Tree K V)) : stackWeight (collapseLHS s) ≤ stackWeight s := by
  induction s using collapseLHS.induct with
  | case1 => simp [collapseLHS]
  | case2 key value left right h rest ih =>
    rw [collapseLHS]; refine Nat.le_trans ih ?_
    simp [stackWeight, weight]; omega
  | case3 => simp [collapseLHS]
  | case4 rest ih => rw [collapseLHS]; refine Nat.le_trans ih ?_; simp [stackWeight]

/-- Termination of `drain` (not in the code). -/
theorem iterNext_decreases {s s' : List (Tree K V)} {kv : K × V}
    (h : iterNext s = .ok (some (kv, s'))) : stackWeight s' < stackWeight s := by
  match s, h with
  | leaf key value :: rest, h =>
    simp only [iterNext, Except.ok.injEq, Option.some.injEq, Prod.mk.injEq] at h
    have := stackWeight_collapseLHS rest
    rw [← h.2]
    simp only [stackWeight, List.map_cons, List.sum_cons, weight] at *
    omega

/-- Everything the iterator object yields when it is run to its end: maptree.py:521-532 (`to_seq` unfolds `next(it)`
until `StopIteration`) together with seq.py:1008-1032 (`unfold`).  Simplified: consumed completely, in one go; the single-use
nature of the resulting generator is treated in `Model/Seq.lean`. -/
def drain (s : List (Tree K V)) : Except PyErr (List (K × V)) :=
  match _h : iterNext s with
  | .error e => .error e
  | .ok none => .ok []
  | .ok (some (current, it)) => do
    let rest ← drain it
    .ok (current :: rest)
termination_by stackWeight s
decreasing_by exact iterNext_decreases _h

/-- maptree.py:521-532 -/
def toSeq (m : Tree K V) : Except PyErr (List (K × V)) := drain (mkIterator m)

end Expression.MapTree
