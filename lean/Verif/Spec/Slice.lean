import Verif.Model.Slice
import Verif.Spec.Array

/-!
# Specification of slices

The documentation of Python: the slice of `s` from `i` to `j` with step `k` is the sequence of items with index `x = i + n * k` such that
`0 <= n < (j - i) / k`.  Negative bounds count from the end.  When `k` is positive, `i` and `j` are reduced to `len(s)` if they are greater;
when `k` is negative, they are reduced to `len(s) - 1`.  Omitted bounds become end values (which end depends on the sign of `k`).
-/

namespace Expression.Spec

open Builtins

variable {α : Type}

/-- `i` counted from the end if negative, then brought into `least .. greatest` -/
def bound (len : Nat) (least greatest : Int) (i : Int) : Int := max least (min greatest (if i < 0 then len + i else i))

/-- the step, 1 if omitted -/
def stepOf (s : Slice) : Int := match s.step with
  | none => 1
  | some k => k

/-- where the slice begins -/
def startOf (len : Nat) (s : Slice) : Int := match s.start with
  | none => if stepOf s < 0 then len - 1 else 0
  | some i => if stepOf s < 0 then bound len (-1) (len - 1) i else bound len 0 len i

/-- where it ends, exclusive -/
def stopOf (len : Nat) (s : Slice) : Int := match s.stop with
  | none => if stepOf s < 0 then -1 else len
  | some i => if stepOf s < 0 then bound len (-1) (len - 1) i else bound len 0 len i

/-- the index of the `n`-th item of the slice -/
def indexOf (len : Nat) (s : Slice) (n : Nat) : Int := startOf len s + n * stepOf s

/-- there is an `n`-th item -/
def Within (len : Nat) (s : Slice) (n : Nat) : Prop :=
  if stepOf s < 0 then indexOf len s n > stopOf len s else indexOf len s n < stopOf len s

/-- `ys` is the slice `s` of `xs` -/
structure Sliced (xs : List α) (s : Slice) (ys : List α) : Prop where
  items : ∀ n, Within xs.length s n → ∃ p : Nat, indexOf xs.length s n = p ∧ p < xs.length ∧ ys[n]? = xs[p]?
  no_more : ∀ n, ¬ Within xs.length s n → ys[n]? = none

/-- position `p` is in the slice -/
def Selected (len : Nat) (s : Slice) (p : Nat) : Prop := ∃ n, Within len s n ∧ indexOf len s n = p

open Classical in
/-- `xs` without the slice `s`: the elements at the other positions, in order -/
noncomputable def without (xs : List α) (s : Slice) : List α :=
  (xs.zipIdx.filter (fun q => decide (¬ Selected xs.length s q.2))).map Prod.fst

/-! ## Assignment

The documentation of Python: `s[i:j] = t`: the slice of `s` from `i` to `j` is replaced by the contents of the iterable `t`;
`s[i:j:k] = t`: the elements of `s[i:j:k]` are replaced by those of `t`, where `t` must have the same length as the slice it is replacing
if `k` is not 1. -/

/-- `ys` is `xs` with everything from where the slice begins to where it ends replaced by `ts`; with `ts` put in where it begins if it ends
before that -/
structure Spliced (xs : List α) (s : Slice) (ts ys : List α) : Prop where
  before : ∀ n : Nat, (n : Int) < startOf xs.length s → ys[n]? = xs[n]?
  new : ∀ n, n < ts.length → ys[(startOf xs.length s).toNat + n]? = ts[n]?
  after : ∀ n, ys[(startOf xs.length s).toNat + ts.length + n]? = xs[(max (startOf xs.length s) (stopOf xs.length s)).toNat + n]?

/-- `ys` is `xs` with the items of the slice replaced by those of `ts`, one by one -/
structure Overwritten (xs : List α) (s : Slice) (ts ys : List α) : Prop where
  len : ys.length = xs.length
  new : ∀ n, Within xs.length s n → ∃ p : Nat, indexOf xs.length s n = p ∧ p < xs.length ∧ ys[p]? = ts[n]?
  others : ∀ p : Nat, ¬ Selected xs.length s p → ys[p]? = xs[p]?

/-- the slice has `n` items -/
def SizeIs (len : Nat) (s : Slice) (n : Nat) : Prop := ∀ i, Within len s i ↔ i < n

/-- `r` is what the documentation says of `xs[s] = ts` -/
structure Assigned (xs : List α) (s : Slice) (ts : List α) (r : Except PyErr (List α)) : Prop where
  zero : stepOf s = 0 → ∃ m, r = .error (.valueError m)
  one : stepOf s = 1 → ∃ ys, r = .ok ys ∧ Spliced xs s ts ys
  same_size : stepOf s ≠ 0 → stepOf s ≠ 1 → SizeIs xs.length s ts.length → ∃ ys, r = .ok ys ∧ Overwritten xs s ts ys
  other_size : stepOf s ≠ 0 → stepOf s ≠ 1 → ¬ SizeIs xs.length s ts.length → ∃ m, r = .error (.valueError m)

open Arr

variable {ω : Type} [Floats ω]

/-- a possible Python object: the elements of a `bytearray` or an `array.array` are such as reading gives them -/
def PossibleValue (long : Nat) : SliceValue ω → Prop
  | .storage st => ∀ x ∈ st.items, convert long st.kind x = .ok x
  | _ => True

/-- an edit of an array, also of slices -/
inductive SliceEdit (ω : Type) where
  | edit (e : Edit ω)
  | set (key : Slice) (value : SliceValue ω)
  | del (key : Slice)

/-- the array after the edit, which may have raised -/
def SliceEdit.apply (long : Nat) (memory : Storage ω → List (Val ω)) (a : TypedArray ω) : SliceEdit ω → TypedArray ω
  | .edit e => e.apply long a
  | .set key value => match a.setSlice long memory key value with
    | .ok b => b
    | .error _ => a
  | .del key => match a.delSlice key with
    | .ok b => b
    | .error _ => a

/-- what is assigned is a possible object -/
def SliceEdit.Possible (long : Nat) : SliceEdit ω → Prop
  | .set _ value => PossibleValue long value
  | _ => True

end Expression.Spec
