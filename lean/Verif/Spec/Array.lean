import Verif.Model.Array

/-!
# Specification vocabulary for typed arrays
-/

namespace Expression.Spec

open Arr

variable {ω : Type} [Floats ω]

/-- objects for examples: tuples, strings, and floats with values that are halves of integers, where single precision keeps only the
integer part -/
inductive Sample where
  | pair (i : Int)
  | text (s : String)
  | flt (cls : FloatClass) (halves : Int)
deriving DecidableEq, Repr

instance : Floats Sample where
  cls
    | .flt c _ => some c
    | _ => none
  double
    | .flt _ n => .flt .plain n
    | o => o
  single
    | .flt _ n => .flt .plain (n / 2 * 2)
    | o => o
  ofInt n := if n.natAbs < 1000000 then some (.flt .plain (2 * n)) else none
  cls_double o h := by cases o <;> first | rfl | cases h
  cls_single o h := by cases o <;> first | rfl | cases h
  cls_ofInt n o h := by
    split at h
    · cases h; rfl
    · cases h
  double_double o h := by cases o <;> rfl
  single_single o h := by
    cases o
    · rfl
    · rfl
    · simp only [Sample.flt.injEq, true_and]; omega
  double_plain o h := by
    cases o
    · rfl
    · rfl
    · cases h; rfl

/-- the numbers that an element type holds according to its name -/
def declared : TypeCode → Option (Int × Int)
  | .byte => some (0, 255)
  | .int8 => some (-128, 127)
  | .uint8 => some (0, 255)
  | .int16 => some (-32768, 32767)
  | .uint16 => some (0, 65535)
  | .int32 => some (-2147483648, 2147483647)
  | .uint32 => some (0, 4294967295)
  | .int64 => some (-9223372036854775808, 9223372036854775807)
  | .uint64 => some (0, 18446744073709551615)
  | .double => none
  | .float => none
  | .any => none

/-- the type code that the class of an integer object names -/
def named : IntClass → Option TypeCode
  | .plain => none
  | .int8 => some .int8
  | .int16 => some .int16
  | .int32 => some .int32
  | .int64 => some .int64
  | .uint8 => some .uint8
  | .uint16 => some .uint16
  | .uint32 => some .uint32
  | .uint64 => some .uint64

/-- the same for floats -/
def namedFloat : FloatClass → Option TypeCode
  | .plain => none
  | .float32 => some .float
  | .float64 => some .double
  | .double => some .double

/-- an object of one of the classes `int8` ... `uint64`, `float32`, `float64`, `double` -/
def Sized : Val ω → Prop
  | .int c _ => c ≠ .plain
  | .obj o => ∃ c, Floats.cls o = some c ∧ c ≠ .plain

/-- the plain `int` objects with these values -/
def plainInts {ω : Type} (ns : List Int) : List (Val ω) := ns.map (fun n => .int .plain n)

/-- integer objects of the given classes -/
def intObjects {ω : Type} (ns : List (IntClass × Int)) : List (Val ω) := ns.map (fun p => .int p.1 p.2)

/-- no element is an object of one of the sized classes -/
def Unsized (xs : List (Val ω)) : Prop := ∀ x ∈ xs, ¬ Sized x

/-- a `bytes` or `bytearray` object has elements in `0 .. 255`, read as plain `int`s -/
def Bytes {ω : Type} (xs : List (Val ω)) : Prop := ∀ x ∈ xs, ∃ n : Int, x = .int .plain n ∧ 0 ≤ n ∧ n ≤ 255

/-- what is passed as initializer is a possible Python object -/
def PossibleInit {ω : Type} : Init ω → Prop
  | .bytearray xs => Bytes xs
  | .bytes xs => Bytes xs
  | .iterable _ => True

/-- `ys` is `xs` with `v` put in at position `k` -/
structure Inserted {α : Type} (xs : List α) (k : Nat) (v : α) (ys : List α) : Prop where
  len : ys.length = xs.length + 1
  at_k : ys[k]? = some v
  before : ∀ j, j < k → ys[j]? = xs[j]?
  after : ∀ j, k ≤ j → ys[j + 1]? = xs[j]?

/-- `ys` is `xs` with position `k` overwritten by `v` -/
structure Replaced {α : Type} (xs : List α) (k : Nat) (v : α) (ys : List α) : Prop where
  len : ys.length = xs.length
  at_k : ys[k]? = some v
  others : ∀ j, j ≠ k → ys[j]? = xs[j]?

/-- `ys` is `xs` without position `k` -/
structure Deleted {α : Type} (xs : List α) (k : Nat) (ys : List α) : Prop where
  len : ys.length + 1 = xs.length
  before : ∀ j, j < k → ys[j]? = xs[j]?
  after : ∀ j, k ≤ j → ys[j]? = xs[j + 1]?

/-- Python's index into a sequence of length `len`: `i` counts from the front if it is not negative, else from the back -/
def IndexMeans (len : Nat) (i : Int) (k : Nat) : Prop := k < len ∧ ((0 ≤ i ∧ i = k) ∨ (i < 0 ∧ i + len = k))

/-- the position at which `insert(i, _)` inserts: outside `-len .. len` it is the front or the back -/
def InsertMeans (len : Nat) (i : Int) (k : Nat) : Prop :=
  (i ≤ -len ∧ i < 0 ∧ k = 0) ∨ (-len < i ∧ i < 0 ∧ (k : Int) = len + i) ∨ (0 ≤ i ∧ i ≤ len ∧ (k : Int) = i) ∨ (len < i ∧ k = len)

/-- the range that is really enforced: as the name says, except that the 32-bit types have the size of a C `long` -/
def enforced (long : Nat) : TypeCode → Option (Int × Int)
  | .int32 => if long = 32 then declared .int32 else declared .int64
  | .uint32 => if long = 32 then declared .uint32 else declared .uint64
  | tc => declared tc

/-- the range check of an array: what reading gives after storing `v`, or the exception -/
abbrev stores (long : Nat) (a : TypedArray ω) (v : Val ω) : Except PyErr (Val ω) := convert long a.value.kind v

/-- an edit of an array; values that are refused and bad indices leave it as it was -/
inductive Edit (ω : Type) where
  | insert (i : Int) (v : Val ω)
  | set (i : Int) (v : Val ω)
  | delete (i : Int)
  | append (v : Val ω)
  | pop (i : Int)
  | extend (vs : List (Val ω))
  | reverse
  | remove (same : Val ω → Bool)

/-- the array after the edit, which may have raised -/
def Edit.apply (long : Nat) (a : TypedArray ω) : Edit ω → TypedArray ω
  | .insert i v => match a.insert long i v with
    | .ok b => b
    | .error _ => a
  | .set i v => match a.setItem long i v with
    | .ok b => b
    | .error _ => a
  | .delete i => match a.delItem i with
    | .ok b => b
    | .error _ => a
  | .append v => match a.append long v with
    | .ok b => b
    | .error _ => a
  | .pop i => match a.pop i with
    | .ok (_, b) => b
    | .error _ => a
  | .extend vs => (a.extend long vs).2
  | .reverse => match a.reverse long with
    | .ok b => b
    | .error _ => a
  | .remove same => match a.remove same with
    | .ok b => b
    | .error _ => a

end Expression.Spec
