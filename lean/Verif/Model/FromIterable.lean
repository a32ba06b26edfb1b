import Verif.Model.Array
import Verif.Model.Map

/-!
# Collections made from any iterable

`Block(xs)`, `TypedArray(xs)`, `of_seq` and `map.of_list` once more, for an object `xs` of a class of the user's: iterating it has effects, may raise or not end;
and so has the test `if xs`, which calls its `__bool__` or `__len__`.  Left out: the hint at the number of elements that `tuple(xs)` and `list(xs)` ask for.
-/

namespace Expression

variable {σ α S ω : Type}

/-- an object that can be iterated, and what `if xs` does (an object without `__bool__` and `__len__` is true) [Python] -/
structure IterObj (σ α S : Type) where
  truth : PyD σ Bool
  it : Iterable σ α S

open Arr

namespace FromIterable

/-- block.py:86-89 `Block(value)` -/
def newBlock (value : IterObj σ α S) : PyD σ (Block α) := do
  if ← value.truth then do
    let xs ← value.it.toList
    pure ⟨xs⟩
  else pure ⟨[]⟩

/-- a tuple: its length is its truth [Python] -/
def ofTuple (xs : List α) : IterObj σ α (List α) where
  truth := pure (!xs.isEmpty)
  it := Iterable.ofList xs

/-- block.py:298-301, 818-820: `Block((*xs,))` -/
def blockOfSeq (xs : IterObj σ α S) : PyD σ (Block α) := do
  let tuple ← xs.it.toList
  newBlock (ofTuple tuple)

/-- array.py:93, 123: `list(initializer if initializer else [])` -/
def initial (initializer : IterObj σ α S) : PyD σ (List α) := do
  if ← initializer.truth then initializer.it.toList else (Iterable.ofList []).toList

/-- array.py:174-185 `TypedArray(initializer, typecode)`, where the initializer is neither `bytes` nor `bytearray` -/
def newArray [Floats ω] (long : Nat) (initializer : IterObj σ (Val ω) S) (typecode : Option TypeCode) : PyD σ (TypedArray ω) := do
  let arr ← initial initializer
  PyD.ofPy (Py.ofExcept (Arr.init long (.iterable arr) typecode))

/-- array.py:326-329, 566-568: `TypedArray((*xs,))` -/
def arrayOfSeq [Floats ω] (long : Nat) (xs : IterObj σ (Val ω) S) : PyD σ (TypedArray ω) := do
  let tuple ← xs.it.toList
  newArray long (ofTuple tuple) none

/-- map.py:180-187, 458-459: `Map(maptree.of_list(Block(elements)))` -/
def mapOfList {K V : Type} [PyOrd K] (elements : IterObj σ (K × V) S) : PyD σ (Map K V) := do
  let block ← newBlock elements
  PyD.ofPy (Py.ofExcept (Map.ofBlock block.value))

end FromIterable

end Expression
