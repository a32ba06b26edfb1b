import Verif.Model.PyD
import Verif.Model.Builtins
import Verif.Model.Seq
import Verif.Model.Text

/-!
# Model of `expression/collections/array.py`

`TypedArray` with its three kinds of storage.  The module-level functions (array.py:475-655) call the methods with curried
arguments (`Model/Modules.lean`), except `unfold`, which carries code of its own.

Floating-point numbers are objects about which only the interface `Floats` is known.
Slices as keys are in `Slice`; arrays that change while they are gone through are in `ArrayLive`.
-/

namespace Expression.Arr

open Expression Builtins

/-- the class of an integer object: `int` itself or one of the subclasses (array.py:43-64); `bool` counts as `plain` -/
inductive IntClass where
  | plain
  | int8
  | int16
  | int32
  | int64
  | uint8
  | uint16
  | uint32
  | uint64
deriving DecidableEq, Repr

/-- the class of a float object: `float` itself or one of the subclasses (array.py:67-73) -/
inductive FloatClass where
  | plain
  | float32
  | float64
  | double
deriving DecidableEq, Repr

/-- Which of the objects `ω` are floats, and what storing does to numbers: `double` is the plain `float` with the value of an element
of `array.array("d")` after the float was stored, `single` the same for `"f"` (the value rounded to single precision), `ofInt` the
float that an integer is converted to, unless it is too large.  The laws: what is read back is a plain `float`, and storing it again
changes nothing. [Python: the module `array`] -/
class Floats (ω : Type) where
  cls : ω → Option FloatClass
  double : ω → ω
  single : ω → ω
  ofInt : Int → Option ω
  cls_double : ∀ o, (cls o).isSome → cls (double o) = some .plain
  cls_single : ∀ o, (cls o).isSome → cls (single o) = some .plain
  cls_ofInt : ∀ n o, ofInt n = some o → cls o = some .plain
  double_double : ∀ o, (cls o).isSome → double (double o) = double o
  single_single : ∀ o, (cls o).isSome → single (single o) = single o
  double_plain : ∀ o, cls o = some .plain → double o = o

/-- no object is a float (for examples) [model] -/
@[reducible] def Floats.none (ω : Type) : Floats ω where
  cls _ := .none
  double o := o
  single o := o
  ofInt _ := .none
  cls_double _ h := by cases h
  cls_single _ h := by cases h
  cls_ofInt _ _ h := by cases h
  double_double _ h := by cases h
  single_single _ h := by cases h
  double_plain _ h := by cases h

/-- for examples [model] -/
instance : Floats Unit := Floats.none Unit

/-- an element: an integer object with its class, or any other object [array.py:43-73] -/
inductive Val (ω : Type) where
  | int (cls : IntClass) (n : Int)
  | obj (o : ω)
deriving DecidableEq, Repr

/-- array.py:76-89 -/
inductive TypeCode where
  | byte
  | int8
  | int16
  | int32
  | int64
  | uint8
  | uint16
  | uint32
  | uint64
  | double
  | float
  | any
deriving DecidableEq, Repr

/-- the type codes of `array.array` that the code uses for integers [array.py:76-89] -/
inductive Code where
  | b
  | B
  | h
  | H
  | l
  | L
  | q
  | Q
deriving DecidableEq, Repr

/-- the type codes of `array.array` for floats [array.py:76-89] -/
inductive FloatCode where
  | f
  | d
deriving DecidableEq, Repr

/-- which Python object holds the elements: a `list`, a `bytearray`, or an `array.array` [array.py:92-116] -/
inductive Kind where
  | list
  | bytes
  | arr (c : Code)
  | flt (c : FloatCode)
deriving DecidableEq, Repr

variable {ω σ S : Type} [Floats ω]

/-- what reading gives after a float was stored [Python: the module `array`, `bytearray`] -/
def FloatCode.store : FloatCode → ω → ω
  | .f, o => Floats.single o
  | .d, o => Floats.double o

/-- the smallest and the largest integer that a C integer with that many bits holds [Python: the module `array`, `bytearray`] -/
def signedRange (bits : Nat) : Int × Int := (-(2 ^ (bits - 1)), 2 ^ (bits - 1) - 1)

/-- the same for unsigned integers [Python: the module `array`, `bytearray`] -/
def unsignedRange (bits : Nat) : Int × Int := (0, 2 ^ bits - 1)

/-- Documentation of `array.array`: `b`, `h`, `l`, `q` are C's `signed char`, `short`, `long`, `long long`, upper case the
unsigned ones.  `long` is the number of bits of a C `long`: 32 on Windows, 64 on Linux and macOS; the other sizes are those of
all these platforms. -/
def Code.range (long : Nat) : Code → Int × Int
  | .b => signedRange 8
  | .B => unsignedRange 8
  | .h => signedRange 16
  | .H => unsignedRange 16
  | .l => signedRange long
  | .L => unsignedRange long
  | .q => signedRange 64
  | .Q => unsignedRange 64

/-- `lo <= n <= hi` [Python: the module `array`, `bytearray`] -/
def within (r : Int × Int) (n : Int) : Bool := decide (r.1 ≤ n) && decide (n ≤ r.2)

/-- Storing an object in an element of that kind of storage; the answer is the object that is read back, which is a plain `int` or
`float` unless the storage is a `list`.  `array.array` raises `OverflowError` and `bytearray` raises `ValueError` for an integer out
of range, both raise `TypeError` for something else than an integer; a float array takes floats and integers, `OverflowError` if the
integer is too large for a float, `TypeError` for others (CPython arraymodule.c `*_setitem`, bytearrayobject.c `_getbytevalue`).
Simplified: objects with an `__index__` or `__float__` method that are no numbers count as other objects. [Python: the module `array`, `bytearray`] -/
def convert (long : Nat) (kind : Kind) (v : Val ω) : Except PyErr (Val ω) :=
  match kind, v with
  | .list, v => .ok v
  | .bytes, .int _ n =>
    if within (0, 255) n then .ok (.int .plain n) else .error (.valueError "byte must be in range(0, 256)")
  | .bytes, .obj _ => .error (.typeError "object cannot be interpreted as an integer")
  | .arr c, .int _ n => if within (c.range long) n then .ok (.int .plain n) else .error .overflowError
  | .arr _, .obj _ => .error (.typeError "an integer is required")
  | .flt c, .int _ n => match Floats.ofInt n with
    | some o => .ok (.obj (c.store o))
    | none => .error .overflowError
  | .flt c, .obj o => if (Floats.cls o).isSome then .ok (.obj (c.store o)) else .error (.typeError "must be real number")

/-- one after the other, stopping at the first that is refused [Python: the module `array`, `bytearray`] -/
def convertAll (long : Nat) (kind : Kind) : List (Val ω) → Except PyErr (List (Val ω))
  | [] => .ok []
  | v :: vs => do
    let v' ← convert long kind v
    let vs' ← convertAll long kind vs
    .ok (v' :: vs')

/-- the object that holds the elements: `TypedArray.value` [array.py:174-185] -/
structure Storage (ω : Type) where
  kind : Kind
  /-- the elements, as objects that reading gives -/
  items : List (Val ω)
deriving DecidableEq, Repr

/-- `list(xs)`, `bytearray(xs)` or `array.array(c, xs)` for a list `xs` [array.py:92-116] -/
def build (long : Nat) (kind : Kind) (xs : List (Val ω)) : Except PyErr (Storage ω) := do
  let items ← convertAll long kind xs
  .ok ⟨kind, items⟩

/-- array.py:168-185 -/
structure TypedArray (ω : Type) where
  value : Storage ω
  typecode : TypeCode
deriving DecidableEq, Repr

/-- what is passed as `initializer`: a `bytearray`, a `bytes` object, or another iterable; with its elements.  (`None` and an
empty iterable have the same effect.)  Simplified: iterating over the initializer has no effects; `map`, `collect`, `unfold` run
their callbacks first, as `list(initializer)` would. [array.py:119-165] -/
inductive Init (ω : Type) where
  | bytearray (xs : List (Val ω))
  | bytes (xs : List (Val ω))
  | iterable (xs : List (Val ω))

/-- the elements that iterating over the initializer gives [array.py:119-165] -/
def Init.elems : Init ω → List (Val ω)
  | .bytearray xs => xs
  | .bytes xs => xs
  | .iterable xs => xs

/-- array.py:94-116: which storage the type code asks for -/
def TypeCode.kind : TypeCode → Kind
  | .byte => .bytes
  | .int8 => .arr .b
  | .uint8 => .arr .B
  | .int16 => .arr .h
  | .uint16 => .arr .H
  | .int32 => .arr .l
  | .uint32 => .arr .L
  | .int64 => .arr .q
  | .uint64 => .arr .Q
  | .float => .flt .f
  | .double => .flt .d
  | .any => .list

/-- array.py:92-116 -/
def arrayFromTypecode (long : Nat) (typeCode : TypeCode) (initializer : Init ω) : Except PyErr (Storage ω) :=
  build long typeCode.kind initializer.elems

/-- array.py:134-157: for integer classes: the storage and the type code for the class of the first element; note `"l"` for `int64` -/
def IntClass.inferred : IntClass → Kind × TypeCode
  | .int8 => (.arr .b, .int8)
  | .int16 => (.arr .h, .int16)
  | .int32 => (.arr .l, .int32)
  | .int64 => (.arr .l, .int64)
  | .uint8 => (.arr .B, .uint8)
  | .uint16 => (.arr .H, .uint16)
  | .uint32 => (.arr .L, .uint32)
  | .uint64 => (.arr .Q, .uint64)
  | .plain => (.list, .any)

/-- array.py:158-163 -/
def FloatClass.inferred : FloatClass → Kind × TypeCode
  | .float32 => (.flt .f, .float)
  | .float64 => (.flt .d, .double)
  | .double => (.flt .d, .double)
  | .plain => (.list, .any)

/-- the storage and the type code that the first element asks for (array.py:132-163) -/
def Val.inferred : Val ω → Kind × TypeCode
  | .int cls _ => cls.inferred
  | .obj o => match Floats.cls o with
    | some cls => cls.inferred
    | none => (.list, .any)

/-- array.py:119-165.  A `bytearray` is used as it is (see `newArray` for the sharing). -/
def arrayFromInitializer (long : Nat) (initializer : Init ω) : Except PyErr (Storage ω × TypeCode) :=
  match initializer with
  | .bytearray xs => .ok (⟨.bytes, xs⟩, .byte)
  | .bytes xs => .ok (⟨.bytes, xs⟩, .byte)
  | .iterable [] => .ok (⟨.list, []⟩, .any)
  | .iterable (x :: rest) => do
    let value ← build long x.inferred.1 (x :: rest)
    .ok (value, x.inferred.2)

/-- array.py:174-185 -/
def init (long : Nat) (initializer : Init ω) (typecode : Option TypeCode) : Except PyErr (TypedArray ω) :=
  match typecode with
  | some tc => do
    let arr ← arrayFromTypecode long tc initializer
    .ok ⟨arr, tc⟩
  | none => do
    let (arr, tc) ← arrayFromInitializer long initializer
    .ok ⟨arr, tc⟩

namespace TypedArray

variable (long : Nat)

/-- array.py:456-457: what iterating over the array gives -/
def iter (self : TypedArray ω) : List (Val ω) := self.value.items

/-- array.py:453-454 -/
def len (self : TypedArray ω) : Nat := self.value.items.length

/-- array.py:219-221 -/
def isEmpty (self : TypedArray ω) : Bool := self.value.items.isEmpty

/-- `TypedArray(xs)` where `xs` is neither `bytes` nor `bytearray` [array.py:174-185] -/
def ofIterable (xs : List (Val ω)) : Except PyErr (TypedArray ω) := init long (.iterable xs) none

/-- `TypedArray(arr)` where `arr` is an object of the same type as the storage `st`: only a `bytearray` is recognised [array.py:174-185] -/
def ofStorage (st : Storage ω) : Except PyErr (TypedArray ω) :=
  match st.kind with
  | .bytes => init long (.bytearray st.items) none
  | _ => init long (.iterable st.items) none

/-- `self.value[start:stop]`: an object of the same type [Python: slices; used by array.py:331-343, 386-409] -/
def sliced (self : TypedArray ω) (start stop : Option Int) : Storage ω :=
  { self.value with items := slice self.value.items start stop }

/-- array.py:187-189 -/
def map (self : TypedArray ω) (mapping : Val ω → Py σ (Val ω)) : Py σ (TypedArray ω) := do
  let ys ← tupleMap mapping self.value.items
  Py.ofExcept (ofIterable long ys)

/-- array.py:211-214 -/
def collect (self : TypedArray ω) (mapping : Val ω → Py σ (TypedArray ω)) : Py σ (TypedArray ω) := do
  let ys ← go self.value.items []
  Py.ofExcept (ofIterable long ys)
where
  /-- the generator `(y for x in mapped for y in x)`, consumed by `list()` -/
  go : List (Val ω) → List (Val ω) → Py σ (List (Val ω))
    | [], acc => pure acc
    | x :: rest, acc => do
      let a ← mapping x
      go rest (acc ++ a.iter)

/-- array.py:191-209, with `Option.to_seq` (option.py:198-207) -/
def choose (self : TypedArray ω) (chooser : Val ω → Py σ (Option (Val ω))) : Py σ (TypedArray ω) :=
  self.collect long (fun x => do
    let o ← chooser x
    Py.ofExcept (ofIterable long o.toList))

/-- array.py:228-241: `list(filter(...))`, then stored under the same type code -/
def filter (self : TypedArray ω) (predicate : Val ω → Py σ Bool) : Py σ (TypedArray ω) := do
  let ys ← tupleFilter predicate self.value.items
  Py.ofExcept (init long (.iterable ys) (some self.typecode))

/-- array.py:243-264 -/
def fold {β : Type} (self : TypedArray ω) (folder : β → Val ω → Py σ β) (state : β) : Py σ β := reduce folder self.iter state

/-- array.py:266-278 -/
def forall' (self : TypedArray ω) (predicate : Val ω → Py σ Bool) : Py σ Bool := all predicate self.iter

/-- array.py:280-293.  Unpacking nothing raises `ValueError`. -/
def head (self : TypedArray ω) : Except PyErr (Val ω) :=
  match self.iter with
  | [] => .error (.valueError "not enough values to unpack (expected at least 1, got 0)")
  | x :: _ => .ok x

/-- array.py:295-308: `start` is not used.  `pair` makes the tuple object that becomes an element. -/
def indexed (pair : Int → Val ω → ω) (self : TypedArray ω) (_start : Int := 0) : Except PyErr (TypedArray ω) :=
  ofIterable long ((enumerate self.iter).map (fun p => .obj (pair p.1 p.2)))

/-- array.py:310-319, and `__getitem__` with an integer (462-463) -/
def item (self : TypedArray ω) (index : Int) : Except PyErr (Val ω) := Builtins.item self.value.items index

/-- array.py:326-329, 566-568; `of` (321-324) is the same on its arguments -/
def ofSeq (xs : List (Val ω)) : Except PyErr (TypedArray ω) := ofIterable long xs

/-- array.py:331-340 -/
def skip (self : TypedArray ω) (count : Int) : Except PyErr (TypedArray ω) := ofStorage long (self.sliced (some count) none)

/-- array.py:342-343 -/
def skipLast (self : TypedArray ω) (count : Int) : Except PyErr (TypedArray ω) :=
  ofStorage long (self.sliced none (some (-count)))

/-- array.py:345-356: `sorted` returns a list -/
def sort (lt : Val ω → Val ω → Bool) (self : TypedArray ω) (reverse : Bool := false) : Py σ (TypedArray ω) := do
  let ys ← sorted lt (fun x => pure x) reverse self.value.items
  Py.ofExcept (ofIterable long ys)

/-- array.py:358-370 -/
def sortWith {γ : Type} (lt : γ → γ → Bool) (self : TypedArray ω) (func : Val ω → Py σ γ) (reverse : Bool := false) :
    Py σ (TypedArray ω) := do
  let ys ← sorted lt func reverse self.value.items
  Py.ofExcept (ofIterable long ys)

/-- array.py:381-384: unpacking gives a list -/
def tail (self : TypedArray ω) : Except PyErr (TypedArray ω) :=
  match self.value.items with
  | [] => .error (.valueError "not enough values to unpack (expected at least 1, got 0)")
  | _ :: rest => ofIterable long rest

/-- array.py:386-395 -/
def take (self : TypedArray ω) (count : Int) : Except PyErr (TypedArray ω) := ofStorage long (self.sliced none (some count))

/-- array.py:397-409 -/
def takeLast (self : TypedArray ω) (count : Int) : Except PyErr (TypedArray ω) :=
  ofStorage long (self.sliced (some (-count)) none)

/-- array.py:411-421 -/
def tryHead (self : TypedArray ω) : Option (Val ω) :=
  match self.value.items with
  | x :: _ => some x
  | [] => none

/-- array.py:423-442, 637-655 with seq.py:1008-1032; the generator is consumed by `list()` -/
def unfold (generator : S → PyD σ (Option (Val ω × S))) (state : S) : PyD σ (TypedArray ω) := do
  let ys ← (Seq.unfold generator state).toList
  match ofIterable long ys with
  | .ok a => pure a
  | .error e => PyD.raise e

/-- array.py:372-373, 583-584: `builtins.sum(source.value)`; `plus` is Python's `+`, the start is the integer 0 -/
def sum (plus : Val ω → Val ω → Py σ (Val ω)) (self : TypedArray ω) : Py σ (Val ω) := reduce plus self.value.items (.int .plain 0)

/-- array.py:375-379, 587-589: `source.map(projection)` makes a typed array first -/
def sumBy (plus : Val ω → Val ω → Py σ (Val ω)) (self : TypedArray ω) (projection : Val ω → Py σ (Val ω)) : Py σ (Val ω) := do
  let mapped ← self.map long projection
  mapped.sum plus

/-- array.py:468-472: `', '.join(self.map(str))`; `str` makes the string object, which `map` puts into a new array and `text` reads -/
def str (str : Val ω → ω) (text : ω → List Char) (self : TypedArray ω) : Except PyErr (List Char) := do
  let strings ← ofIterable long (self.value.items.map (fun x => .obj (str x)))
  .ok ("[|".toList ++ joinText ", ".toList (strings.iter.map (fun x => match x with
    | .obj o => text o
    | .int _ _ => [])) ++ "|]".toList)

/-- array.py:444-451 for `o` a sequence with elements `o`; `ne` is Python's `!=` -/
def eq {β : Type} (ne : Val ω → β → Bool) (self : TypedArray ω) (o : List β) : Except PyErr Bool :=
  if self.len ≠ o.length then .ok false else go (enumerate self.iter)
where
  /-- the `for` loop -/
  go : List (Int × Val ω) → Except PyErr Bool
    | [] => .ok true
    | (i, x) :: rest => do
      let y ← Builtins.item o i
      if ne x y then .ok false else go rest

/-! ### Changing an array -/

/-- the position that an index means, or `IndexError` [Python: indices of sequences] -/
def position (len : Nat) (i : Int) : Except PyErr Nat :=
  let j := if i < 0 then i + len else i
  if j < 0 ∨ j ≥ len then .error .indexError else .ok j.toNat

/-- array.py:216-217: `self.value.insert(index, value)`.  All three kinds of storage bring the index into `0 .. len`; the typed
ones refuse a bad value before they change anything (arraymodule.c `ins1`, bytearrayobject.c `bytearray_insert_impl`). -/
def insert (self : TypedArray ω) (index : Int) (value : Val ω) : Except PyErr (TypedArray ω) := do
  let v ← convert long self.value.kind value
  let xs := self.value.items
  let k := adjustIndex xs.length index
  .ok { self with value := { self.value with items := xs.take k ++ v :: xs.drop k } }

/-- array.py:459-460 with an integer key.  `array.array` looks at the index first, `bytearray` (since CPython 3.10) at the value
first. -/
def setItem (self : TypedArray ω) (key : Int) (value : Val ω) : Except PyErr (TypedArray ω) :=
  let xs := self.value.items
  match self.value.kind with
  | .bytes => do
    let v ← convert long .bytes value
    let k ← position xs.length key
    .ok { self with value := { self.value with items := xs.set k v } }
  | kind => do
    let k ← position xs.length key
    let v ← convert long kind value
    .ok { self with value := { self.value with items := xs.set k v } }

/-- array.py:465-466 with an integer key -/
def delItem (self : TypedArray ω) (key : Int) : Except PyErr (TypedArray ω) := do
  let k ← position self.value.items.length key
  .ok { self with value := { self.value with items := self.value.items.eraseIdx k } }

/-! The methods that `TypedArray` inherits from `collections.abc.MutableSequence` (array.py:168), which are written in terms of
the ones above (CPython `Lib/_collections_abc.py`). -/

/-- `append`: `self.insert(len(self), value)` [Python: `collections.abc.MutableSequence`, the base of array.py:168] -/
def append (self : TypedArray ω) (value : Val ω) : Except PyErr (TypedArray ω) := self.insert long self.len value

/-- `extend`: `for v in values: self.append(v)`.  The second component is the array as it is left when a value is refused.
[Python: `collections.abc.MutableSequence`, the base of array.py:168] -/
def extend (self : TypedArray ω) : List (Val ω) → Option PyErr × TypedArray ω
  | [] => (none, self)
  | v :: vs => match self.append long v with
    | .error e => (some e, self)
    | .ok self' => extend self' vs

/-- `pop`: `v = self[index]; del self[index]; return v` [Python: `collections.abc.MutableSequence`, the base of array.py:168] -/
def pop (self : TypedArray ω) (index : Int := -1) : Except PyErr (Val ω × TypedArray ω) := do
  let v ← self.item index
  let self' ← self.delItem index
  .ok (v, self')

/-- `reverse`: `n = len(self); for i in range(n//2): self[i], self[n-i-1] = self[n-i-1], self[i]`
[Python: `collections.abc.MutableSequence`, the base of array.py:168] -/
def reverse (self : TypedArray ω) : Except PyErr (TypedArray ω) := go (self.len / 2) 0 self
where
  /-- `fuel` iterations are left, `i` is the loop variable; the number of iterations is fixed by `range` -/
  go : Nat → Nat → TypedArray ω → Except PyErr (TypedArray ω)
    | 0, _, a => .ok a
    | fuel + 1, i, a => do
      let n := self.len
      let x ← a.item ((n : Int) - i - 1)
      let y ← a.item i
      let a ← a.setItem long i x
      let a ← a.setItem long ((n : Int) - i - 1) y
      go fuel (i + 1) a

/-- `index(value)`: the first position at which `v is value or v == value` [Python: `collections.abc.MutableSequence`, the base of array.py:168] -/
def index (same : Val ω → Bool) (self : TypedArray ω) : Except PyErr Nat := go self.value.items 0
where
  /-- the loop over positions -/
  go : List (Val ω) → Nat → Except PyErr Nat
    | [], _ => .error (.valueError "")
    | v :: rest, i => if same v then .ok i else go rest (i + 1)

/-- `remove(value)`: `del self[self.index(value)]` [Python: `collections.abc.MutableSequence`, the base of array.py:168] -/
def remove (same : Val ω → Bool) (self : TypedArray ω) : Except PyErr (TypedArray ω) := do
  let i ← self.index same
  self.delItem i

end TypedArray

/-! ### Sharing of storage -/

/-- a heap of storage objects; `next` is the next free address [model: memory] -/
structure Heap (ω : Type) where
  cells : Nat → Storage ω
  next : Nat

/-- an initializer together with where it lives: a `bytearray` is an object on the heap, and so is any list or array passed as an
iterable; `detached` is an iterable that is not such an object (a generator, a tuple, `bytes`) [array.py:119-165] -/
inductive InitRef (ω : Type) where
  | at (addr : Nat)
  | detached (i : Init ω)

/-- the initializer as `init` sees it: a `bytearray` object is recognised, the rest is iterated over [array.py:119-165] -/
def InitRef.read (h : Heap ω) : InitRef ω → Init ω
  | .at a => match (h.cells a).kind with
    | .bytes => .bytearray (h.cells a).items
    | _ => .iterable (h.cells a).items
  | .detached i => i

/-- a `TypedArray` object: where its `value` is, and the type code [array.py:168-185] -/
structure Ref where
  addr : Nat
  typecode : TypeCode

/-- array.py:174-185 on the heap: `self.value = initializer` when it is a `bytearray` and no type code is given (array.py:127),
otherwise a new object -/
def newArray (long : Nat) (h : Heap ω) (initializer : InitRef ω) (typecode : Option TypeCode) :
    Except PyErr (Ref × Heap ω) :=
  match init long (initializer.read h) typecode with
  | .error e => .error e
  | .ok a =>
    let fresh : Ref × Heap ω :=
      (⟨h.next, a.typecode⟩, ⟨fun k => if k = h.next then a.value else h.cells k, h.next + 1⟩)
    match initializer, typecode with
    | .at addr, none => match (h.cells addr).kind with
      | .bytes => .ok (⟨addr, a.typecode⟩, h)
      | _ => .ok fresh
    | _, _ => .ok fresh

/-- assigning to `value`'s elements: the storage object changes in place [model: memory] -/
def Heap.write (h : Heap ω) (addr : Nat) (st : Storage ω) : Heap ω :=
  { h with cells := fun k => if k = addr then st else h.cells k }

/-- what a `TypedArray` object shows in a heap [array.py:168-185] -/
def Ref.view (h : Heap ω) (r : Ref) : TypedArray ω := ⟨h.cells r.addr, r.typecode⟩

end Expression.Arr
