import Verif.Model.Map
import Verif.Model.PyD

/-!
# Model of `Map.of_seq` on any iterable (maptree.py:456-467, map.py:189-199)

`Model/Map.lean` gives `of_seq` a list.  Here the iterable is arbitrary: its iterator may compute its elements when asked, raise, not
return, or go on for ever, and so may taking an element apart.
-/

namespace Expression

variable {σ α K V S : Type}

namespace MapSource

/-- the outcome of the `try` statement, by the outcome of its body (maptree.py:457-460) -/
def caught {β : Type} : Option (Except PyErr β × σ) → Option (Except PyErr (Option β) × σ)
  | none => none
  | some (.ok x, w') => some (.ok (some x), w')
  | some (.error .stopIteration, w') => some (.ok none, w')
  | some (.error e, w') => some (.error e, w')

/-- `try: p` / `except StopIteration` (maptree.py:457-460): `none` when `p` raised `StopIteration` -/
def unlessStopIteration {β : Type} (p : PyD σ β) : PyD σ (Option β) := fun w => caught (p.exec w)

/-- maptree.py:458: `(x, y) = next(e)`.  `unpack` is what taking an element apart does: it may run the element's own `__iter__` and
`__next__`, and it raises for an element that is not a pair.  The state of the iterator comes with the pair. -/
def nextPair (unpack : α → PyD σ (K × V)) (src : Iterable σ α S) (s : S) : PyD σ ((K × V) × S) := do
  match ← src.next s with
  | none => PyD.raise .stopIteration
  | some (x, s') =>
    let kv ← unpack x
    pure (kv, s')

/-- maptree.py:456-462 with `frames` free frames on the interpreter's stack: every call of `mk_from_iterator` occupies one until it
returns, and Python does not eliminate the tail call.  Simplified: keys are compared without effects, the frames of `add` and of the
iterator are not counted. -/
def mkFromIterator [PyOrd K] (unpack : α → PyD σ (K × V)) (src : Iterable σ α S) : Nat → MapTree.Tree K V → S → PyD σ (MapTree.Tree K V)
  | 0, _, _ => PyD.raise .recursionError
  | frames + 1, acc, s => do
    match ← unlessStopIteration (nextPair unpack src s) with
    | none => pure acc
    | some ((x, y), s') =>
      let acc' ← PyD.ofPy (Py.ofExcept (MapTree.add x y acc))
      mkFromIterator unpack src frames acc' s'

/-- maptree.py:465-467 and map.py:189-199, 462-463; `create` (map.py:52-54, 308-309) is the same call -/
def ofSeq [PyOrd K] (unpack : α → PyD σ (K × V)) (src : Iterable σ α S) (frames : Nat) : PyD σ (Map K V) := do
  let ie ← src.iter
  let t ← mkFromIterator unpack src frames .nothing ie
  pure ⟨t⟩

end MapSource

end Expression
