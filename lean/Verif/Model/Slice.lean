import Verif.Model.Block
import Verif.Model.Array

/-!
# Slices as keys

`Block.__getitem__` and `TypedArray.__getitem__`, `__setitem__`, `__delitem__` with a `slice` object.
-/

namespace Expression

variable {α ω : Type}

namespace Builtins

/-- a `slice` object; `none` for an omitted part [Python: slices] -/
structure Slice where
  start : Option Int := none
  stop : Option Int := none
  step : Option Int := none

/-- CPython `PySlice_AdjustIndices`: a bound is brought into `0 .. len`, or into `-1 .. len - 1` if the step is negative [Python: slices] -/
def adjustBound (len : Nat) (negative : Bool) (i : Int) : Int :=
  if i < 0 then
    if i + len < 0 then (if negative then -1 else 0) else i + len
  else if i ≥ len then (if negative then (len : Int) - 1 else len)
  else i

/-- start, stop and step of a slice for a sequence of that length: `slice.indices` (CPython `PySlice_Unpack`, `PySlice_AdjustIndices`)
[Python: slices] -/
def Slice.indices (s : Slice) (len : Nat) : Except PyErr (Int × Int × Int) :=
  let step := s.step.getD 1
  if step = 0 then .error (.valueError "slice step cannot be zero")
  else
    let negative := decide (step < 0)
    let start := match s.start with
      | some i => adjustBound len negative i
      | none => if negative then (len : Int) - 1 else 0
    let stop := match s.stop with
      | some i => adjustBound len negative i
      | none => if negative then -1 else len
    .ok (start, stop, step)

/-- the positions that a slice selects, in the order in which it does: the number that `PySlice_AdjustIndices` gives and the
loop `for (cur = start, i = 0; i < slicelength; cur += step, i++)` of `tuple`, `list`, `array.array` and `bytearray` [Python: slices] -/
def Slice.positions (s : Slice) (len : Nat) : Except PyErr (List Nat) := do
  let (start, stop, step) ← s.indices len
  let count : Nat :=
    if step < 0 then (if stop < start then ((start - stop - 1) / -step + 1).toNat else 0)
    else (if start < stop then ((stop - start - 1) / step + 1).toNat else 0)
  .ok ((List.range count).map (fun i : Nat => (start + i * step).toNat))

/-- `xs[s]` [Python: slices] -/
def getSlice (xs : List α) (s : Slice) : Except PyErr (List α) := do
  let ps ← s.positions xs.length
  .ok (ps.filterMap (fun p => xs[p]?))

/-- `del xs[s]`: the elements at all other positions stay [Python: slices] -/
def delSlice (xs : List α) (s : Slice) : Except PyErr (List α) := do
  let ps ← s.positions xs.length
  .ok ((List.range xs.length).filterMap (fun p => if p ∈ ps then none else xs[p]?))

/-- `xs[s] = ts` for a slice with step 1: CPython `list_ass_slice`, the branch `step == 1` of arraymodule.c `array_ass_subscr`,
`bytearray_setslice_linear`.  If the slice ends before it begins, the elements are put in where it begins. -/
def setLinear (xs : List α) (start stop : Int) (ts : List α) : List α :=
  xs.take start.toNat ++ ts ++ xs.drop (if stop < start then start else stop).toNat

/-- the loop `for (cur = start, i = 0; i < slicelength; cur += step, i++) items[cur] = seqitems[i]` [Python: slices] -/
def setEach (xs : List α) : List Nat → List α → List α
  | p :: ps, t :: ts => setEach (xs.set p t) ps ts
  | _, _ => xs

/-- `xs[s] = ts` of a `list` (CPython `list_ass_subscript`) [Python: slices] -/
def setSliceList (xs : List α) (s : Slice) (ts : List α) : Except PyErr (List α) := do
  let (start, stop, step) ← s.indices xs.length
  if step = 1 then .ok (setLinear xs start stop ts)
  else
    let ps ← s.positions xs.length
    if ts.length ≠ ps.length then .error (.valueError "attempt to assign sequence of one size to extended slice of another size")
    else .ok (setEach xs ps ts)

/-- `xs[s] = ts` of an `array.array` or a `bytearray` (CPython arraymodule.c `array_ass_subscr`, bytearrayobject.c
`bytearray_ass_subscript`): the branch `needed == 0` deletes the slice [Python: slices] -/
def setSliceTyped (xs : List α) (s : Slice) (ts : List α) : Except PyErr (List α) := do
  let (start, stop, step) ← s.indices xs.length
  if step = 1 then .ok (setLinear xs start stop ts)
  else if ts.length = 0 then Builtins.delSlice xs s
  else
    let ps ← s.positions xs.length
    if ts.length ≠ ps.length then .error (.valueError "attempt to assign array of one size to extended slice of another size")
    else .ok (setEach xs ps ts)

end Builtins

open Builtins

/-- block.py:518-521 with a slice -/
def Block.getSlice (self : Block α) (key : Slice) : Except PyErr (Block α) := do
  let ys ← Builtins.getSlice self.value key
  .ok ⟨ys⟩

namespace Arr

/-- what is assigned to a slice.  Simplified: iterating over an object has no effects, and an object that is a number is not iterable.
[Python: slices of `list`, `bytearray` and `array.array`; array.py:459-460] -/
inductive SliceValue (ω : Type) where
  /-- a `list`, a `bytearray` or an `array.array` -/
  | storage (st : Storage ω)
  /-- a `TypedArray` -/
  | typed (a : TypedArray ω)
  /-- another iterable: a tuple, a generator, `bytes` -/
  | iterable (xs : List (Val ω))
  /-- not iterable -/
  | other

/-- what iterating over it gives (array.py:456-457 for a `TypedArray`) -/
def SliceValue.iterate : SliceValue ω → Option (List (Val ω))
  | .storage st => some st.items
  | .typed a => some a.value.items
  | .iterable xs => some xs
  | .other => none

/-- `storage[key] = value`.  A `list` takes every iterable.  A `bytearray` takes a `bytearray`, the memory of an `array.array`
(`memory`, which depends on the machine), or an iterable of integers that are bytes.  An `array.array` takes only an `array.array` with
the same type code.  All look at the step of the slice first.  (CPython `list_ass_subscript`, `bytearray_ass_subscript`,
`array_ass_subscr`) [Python: slices of `list`, `bytearray` and `array.array`; array.py:459-460] -/
def Storage.setSlice [Floats ω] (long : Nat) (memory : Storage ω → List (Val ω)) (self : Storage ω) (key : Slice) (value : SliceValue ω) :
    Except PyErr (Storage ω) := do
  let _ ← key.indices self.items.length
  match self.kind with
  | .list => match value.iterate with
    | some ts => do
      let ys ← setSliceList self.items key ts
      .ok ⟨.list, ys⟩
    | none => .error (.typeError "can only assign an iterable")
  | .bytes => do
    let ts ← match value with
      | .storage ⟨.bytes, ts⟩ => .ok ts
      | .storage ⟨.arr c, ts⟩ => .ok (memory ⟨.arr c, ts⟩)
      | .storage ⟨.flt c, ts⟩ => .ok (memory ⟨.flt c, ts⟩)
      | value => match value.iterate with
        | some ts => convertAll long .bytes ts
        | none => .error (.typeError "can assign only bytes, buffers, or iterables of ints in range(0, 256)")
    let ys ← setSliceTyped self.items key ts
    .ok ⟨.bytes, ys⟩
  | kind => match value with
    | .storage st =>
      if st.kind = kind then do
        let ys ← setSliceTyped self.items key st.items
        .ok ⟨kind, ys⟩
      else .error (.typeError "can only assign array to array slice")
    | _ => .error (.typeError "can only assign array to array slice")

namespace TypedArray

/-- array.py:462-463 with a slice: not a `TypedArray` but an object of the same type as the storage -/
def getSlice (self : TypedArray ω) (key : Slice) : Except PyErr (Storage ω) := do
  let ys ← Builtins.getSlice self.value.items key
  .ok { self.value with items := ys }

/-- array.py:465-466 with a slice -/
def delSlice (self : TypedArray ω) (key : Slice) : Except PyErr (TypedArray ω) := do
  let ys ← Builtins.delSlice self.value.items key
  .ok { self with value := { self.value with items := ys } }

/-- array.py:459-460 with a slice: `self.value[key] = value` -/
def setSlice [Floats ω] (long : Nat) (memory : Storage ω → List (Val ω)) (self : TypedArray ω) (key : Slice) (value : SliceValue ω) :
    Except PyErr (TypedArray ω) := do
  let st ← self.value.setSlice long memory key value
  .ok { self with value := st }

end TypedArray

end Arr

end Expression
