import Verif.Model.Array

/-!
# Model of `expression/collections/array.py`: arrays that change while they are gone through

`Model/Array.lean` runs callbacks over the elements an array has when the method is called.  Here the storage is an object on the heap,
a callback may change the heap in any way, and the elements are read one by one while the callbacks run.  The world of a callback is the
heap together with anything else (`τ`).
-/

namespace Expression.ArrLive

open Expression Builtins Arr

variable {ω τ β γ S : Type} [Floats ω]

/-- the world: the heap of storage objects, and the rest [model: memory] -/
abbrev World (ω τ : Type) := Heap ω × τ

omit [Floats ω] in
/-- array.py:456-457: `iter(self.value)`.  The iterators of `list`, `bytearray` and `array.array` keep an index and compare it with the
length that the storage has when they are asked (CPython listobject.c `listiter_next`, bytearrayobject.c `bytearrayiter_next`,
arraymodule.c `array_arrayiterator___next___impl`). -/
def cellIter (addr : Nat) : Iterable (World ω τ) (Val ω) Nat where
  iter := pure 0
  next i := fun w => some (.ok ((w.1.cells addr).items[i]?.map (fun x => (x, i + 1))), w)

/-- `TypedArray(initializer, typecode)` (array.py:174-185), on the heap -/
def construct (long : Nat) (initializer : InitRef ω) (typecode : Option TypeCode) : PyD (World ω τ) Ref := fun w =>
  match newArray long w.1 initializer typecode with
  | .error e => some (.error e, w)
  | .ok (r, h) => some (.ok r, (h, w.2))

/-- array.py:187-189: `list(map(mapping, self.value))`, one element at a time, then a new array -/
def map (long : Nat) (self : Ref) (mapping : Val ω → PyD (World ω τ) (Val ω)) : PyD (World ω τ) Ref := do
  let ys ← (cellIter self.addr).forLoop (fun acc x => do
    let y ← mapping x
    pure (.next (acc ++ [y]))) []
  construct long (.detached (.iterable ys)) none

/-- array.py:228-241 -/
def filter (long : Nat) (self : Ref) (predicate : Val ω → PyD (World ω τ) Bool) : PyD (World ω τ) Ref := do
  let ys ← (cellIter self.addr).forLoop (fun acc x => do
    let b ← predicate x
    pure (.next (if b then acc ++ [x] else acc))) []
  construct long (.detached (.iterable ys)) (some self.typecode)

omit [Floats ω] in
/-- array.py:243-264: `functools.reduce(folder, self, state)` -/
def fold (self : Ref) (folder : β → Val ω → PyD (World ω τ) β) (state : β) : PyD (World ω τ) β :=
  (cellIter self.addr).forLoop (fun s x => do
    let s' ← folder s x
    pure (.next s')) state

omit [Floats ω] in
/-- array.py:266-278: `all(predicate(x) for x in self)` -/
def forall' (self : Ref) (predicate : Val ω → PyD (World ω τ) Bool) : PyD (World ω τ) Bool :=
  (cellIter self.addr).forLoop (fun _ x => do
    let b ← predicate x
    pure (if b then .next true else .stop false)) true

/-- array.py:211-214: the generator goes through the array that `mapping` returned before it asks for the next element -/
def collect (long : Nat) (self : Ref) (mapping : Val ω → PyD (World ω τ) Ref) : PyD (World ω τ) Ref := do
  let ys ← (cellIter self.addr).forLoop (fun acc x => do
    let r ← mapping x
    let zs ← (cellIter r.addr).toList
    pure (.next (acc ++ zs))) []
  construct long (.detached (.iterable ys)) none

/-- array.py:358-370: `sorted` makes a list of the elements before it calls `func` -/
def sortWith (long : Nat) (lt : γ → γ → Bool) (self : Ref) (func : Val ω → Py (World ω τ) γ) (reverse : Bool := false) :
    PyD (World ω τ) Ref := do
  let xs ← (cellIter self.addr).toList
  let ys ← PyD.ofPy (sorted lt func reverse xs)
  construct long (.detached (.iterable ys)) none

/-- an operation that changes the array in place and returns a value [array.py:216-217, 459-466] -/
def inPlace (self : Ref) (op : TypedArray ω → Except PyErr (β × TypedArray ω)) : PyD (World ω τ) β := fun w =>
  match op (self.view w.1) with
  | .error e => some (.error e, w)
  | .ok (x, a) => some (.ok x, (w.1.write self.addr a.value, w.2))

/-- `append`, inherited (`MutableSequence.append`): `self.insert(len(self), value)` with array.py:216-217 -/
def append (long : Nat) (self : Ref) (value : Val ω) : PyD (World ω τ) Unit :=
  inPlace self (fun a => (a.append long value).map (fun a' => ((), a')))

omit [Floats ω] in
/-- array.py:465-466 with an integer key -/
def delItem (self : Ref) (key : Int) : PyD (World ω τ) Unit := inPlace self (fun a => (a.delItem key).map (fun a' => ((), a')))

/-- `extend`, inherited (`MutableSequence.extend`): `for v in values: self.append(v)`, where `values` is not `self`
[Python: `collections.abc.MutableSequence`, the base of array.py:168] -/
def extend (long : Nat) (self : Ref) (values : Iterable (World ω τ) (Val ω) S) : PyD (World ω τ) Unit :=
  values.forLoop (fun _ v => do
    append long self v
    pure (.next ())) ()

/-- `extend` with `values` the same object as `self`: `values = list(values)` first
[Python: `collections.abc.MutableSequence`, the base of array.py:168] -/
def extendSelf (long : Nat) (self : Ref) : PyD (World ω τ) Unit := do
  let xs ← (cellIter self.addr).toList
  extend long self (Iterable.ofList xs)

end Expression.ArrLive
