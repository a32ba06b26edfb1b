import Verif.Model.MapTree

/-!
# Model of `expression/collections/map.py`

`Map` wraps a tree; methods delegate.  The module-level functions (map.py:259-489) are the same methods with curried
arguments (`Model/Modules.lean`), except `pick`, which exists only there.
-/

namespace Expression

open MapTree (Tree)

/-- map.py:43-47.  `__tree if __tree else maptree.empty` always takes `__tree`: `Option` defines no truth value. -/
structure Map (K V : Type) where
  tree : Tree K V
deriving DecidableEq, Repr

namespace Map

variable {K V R σ : Type}

/-- map.py:62-64 -/
def empty : Map K V := ⟨.nothing⟩

/-- map.py:66-67; `__bool__` (map.py:242-243) is its negation -/
def isEmpty (m : Map K V) : Bool := MapTree.isEmpty m.tree

/-- map.py:218-220 -/
def len (m : Map K V) : Nat := MapTree.size m.tree

section
variable [PyOrd K]

/-- map.py:49-50 -/
def add (m : Map K V) (key : K) (value : V) : Except PyErr (Map K V) := do
  .ok ⟨← MapTree.add key value m.tree⟩

/-- map.py:56-57 and `__contains__` (map.py:222-223) -/
def containsKey (m : Map K V) (key : K) : Bool := MapTree.mem key m.tree

/-- map.py:59-60 -/
def change (m : Map K V) (key : K) (f : Option V → Py σ (Option V)) : Py σ (Map K V) := do
  pure ⟨← MapTree.change key f m.tree⟩

/-- map.py:72-73 -/
def filter (m : Map K V) (predicate : K → V → Py σ Bool) : Py σ (Map K V) := do
  pure ⟨← MapTree.filter predicate m.tree⟩

/-- map.py:118-120 -/
def partition (m : Map K V) (predicate : K → V → Py σ Bool) : Py σ (Map K V × Map K V) := do
  let (r1, r2) ← MapTree.partition predicate m.tree
  pure (⟨r1⟩, ⟨r2⟩)

/-- map.py:140-141 -/
def remove (m : Map K V) (key : K) : Except PyErr (Map K V) := do
  .ok ⟨← MapTree.remove key m.tree⟩

/-- map.py:161-162 -/
def tryFind (m : Map K V) (key : K) : Option V := MapTree.tryFind key m.tree

/-- map.py:154-159.  The caller's list is threaded: the new list and the returned Boolean. -/
def tryGetValue (m : Map K V) (key : K) (value : List V) : List V × Bool :=
  match MapTree.tryFind key m.tree with
  | some v => (value ++ [v], true)
  | none => (value, false)

/-- map.py:211-212 (`__getitem__`), map.py:312-324 (`find`) -/
def getItem (m : Map K V) (key : K) : Except PyErr V := MapTree.find key m.tree

/-- map.py:171-178, 454-455 -/
def ofBlock (lst : List (K × V)) : Except PyErr (Map K V) := do
  .ok ⟨← MapTree.ofList lst⟩

/-- map.py:180-187, 458-459 -/
def ofList (lst : List (K × V)) : Except PyErr (Map K V) := do
  .ok ⟨← MapTree.ofList lst⟩

/-- map.py:189-199, 462-463; `create` (map.py:52-54, 308-309) and `of` (167-169, 449-451) are the same call -/
def ofSeq (sequence : List (K × V)) : Except PyErr (Map K V) := do
  .ok ⟨← MapTree.ofSeq sequence⟩

/-- map.py:189-199, 462-463 (and `create`, `of`, as above) on a stack with `frames` free frames, see
`MapTree.mkFromIteratorWithin`. -/
def ofSeqWithin (frames : Nat) (sequence : List (K × V)) : Except PyErr (Map K V) := do
  .ok ⟨← MapTree.mkFromIteratorWithin frames .nothing sequence⟩

end

/-- map.py:69-70 -/
def «exists» (m : Map K V) (predicate : K → V → Py σ Bool) : Py σ Bool := MapTree.exists predicate m.tree

/-- map.py:75-88 -/
def forAll (m : Map K V) (predicate : K → V → Py σ Bool) : Py σ Bool := MapTree.forall predicate m.tree

/-- map.py:90-91 -/
def iterate (m : Map K V) (f : K → V → Py σ Unit) : Py σ Unit := MapTree.iter f m.tree

/-- map.py:96-97 -/
def fold (m : Map K V) (folder : R → K × V → Py σ R) (state : R) : Py σ R := MapTree.fold folder state m.tree

/-- map.py:99-100 -/
def foldBack (m : Map K V) (folder : K × V → R → Py σ R) (state : R) : Py σ R :=
  MapTree.foldBack folder m.tree state

/-- map.py:102-116 -/
def map (m : Map K V) (mapping : K → V → Py σ R) : Py σ (Map K R) := do
  pure ⟨← MapTree.map mapping m.tree⟩

/-- map.py:143-144 -/
def toList (m : Map K V) : List (K × V) := MapTree.toList m.tree

/-- map.py:146-152, consumed to its end -/
def toSeq (m : Map K V) : Except PyErr (List (K × V)) := MapTree.toSeq m.tree

/-- map.py:214-216, consumed to its end -/
def keys (m : Map K V) : Except PyErr (List K) := do
  .ok ((← MapTree.drain (MapTree.mkIterator m.tree)).map (·.1))

/-- map.py:164-165 -/
def tryPick (m : Map K V) (chooser : K → V → Py σ (Option R)) : Py σ (Option R) := MapTree.tryPick chooser m.tree

/-- map.py:365-370.  `for res in option` iterates the option itself, which raises `EffectError` on `Nothing`
(option.py `__iter__`), so the `else: raise KeyError()` is never reached. -/
def pick (m : Map K V) (chooser : K → V → Py σ (Option R)) : Py σ R := do
  match ← tryPick m chooser with
  | some res => pure res
  | none => Py.raise .effectError

/-- map.py:202-203 -/
def combineHash (x y : Int) : Int := 2 * x + y + 631

/-- map.py:201-209.  `hashK`, `hashV` are Python's `hash` on keys and values. -/
def hash (hashK : K → Int) (hashV : V → Int) (m : Map K V) : Except PyErr Int := do
  let items ← MapTree.drain (MapTree.mkIterator m.tree)
  .ok (items.foldl (fun res kv => combineHash (combineHash res (hashK kv.1)) (hashV kv.2)) 0)

/-- The loop of map.py:232-240: `xs` is what `self` still yields, `ys` what `other` still yields. -/
def eqLoop (kvEq : K × V → K × V → Bool) : List (K × V) → List (K × V) → Bool
  | [], _ => true
  | _ :: _, [] => false
  | kv :: xs, kvOther :: ys => if !kvEq kv kvOther then false else eqLoop kvEq xs ys

/-- map.py:225-240 for two maps.  `kvEq` is Python's `==` on key/value tuples.
Simplified: the two sequences are computed up front (their iteration has no effect). -/
def eq (kvEq : K × V → K × V → Bool) (m o : Map K V) : Except PyErr Bool := do
  let ys ← o.toSeq
  let xs ← m.toSeq
  .ok (eqLoop kvEq xs ys)

end Map
end Expression
