import Verif.Lemmas.Slice
import Verif.Spec.Array

/-! # C94: slices of blocks and typed arrays -/

namespace Expression.Props

open Builtins Spec Lemmas Arr

variable {α ω : Type}

/-- `block[i:j:k]` is the block of the items that the documentation of slices says, in that order. -/
theorem C94_block_slice (xs : Block α) (s : Slice) (h : stepOf s ≠ 0) :
    ∃ ys : Block α, xs.getSlice s = .ok ys ∧ Sliced xs.value s ys.value := by
  obtain ⟨ys, h1, h2⟩ := getSlice_sliced xs.value s h
  exact ⟨⟨ys⟩, by rw [Block.getSlice, h1]; rfl, h2⟩

/-- That determines the items. -/
theorem C94_unique {xs ys zs : List α} {s : Slice} (h1 : Sliced xs s ys) (h2 : Sliced xs s zs) : ys = zs := sliced_unique h1 h2

/-- A step of 0 is refused with `ValueError`, by blocks and arrays. -/
theorem C94_zero_step (xs : Block α) (a : TypedArray ω) (s : Slice) (h : stepOf s = 0) :
    (∃ m, xs.getSlice s = .error (.valueError m)) ∧ (∃ m, a.getSlice s = .error (.valueError m)) ∧
    (∃ m, a.delSlice s = .error (.valueError m)) := by
  obtain ⟨m, hm⟩ := positions_zero xs.value.length s h
  obtain ⟨m', hm'⟩ := positions_zero a.value.items.length s h
  refine ⟨⟨m, ?_⟩, ⟨m', ?_⟩, ⟨m', ?_⟩⟩
  · rw [Block.getSlice, getSlice, hm]; rfl
  · rw [TypedArray.getSlice, getSlice, hm']; rfl
  · rw [TypedArray.delSlice, delSlice, hm']; rfl

/-- `a[i:j:k]` of a typed array is an object of the same type as its storage, with the items that the documentation says. -/
theorem C94_array_slice (a : TypedArray ω) (s : Slice) (h : stepOf s ≠ 0) :
    ∃ st : Storage ω, a.getSlice s = .ok st ∧ st.kind = a.value.kind ∧ Sliced a.iter s st.items := by
  obtain ⟨ys, h1, h2⟩ := getSlice_sliced a.value.items s h
  exact ⟨⟨a.value.kind, ys⟩, by rw [TypedArray.getSlice, h1]; rfl, rfl, h2⟩

/-- `del a[i:j:k]` removes exactly these items; the others stay in order, and the type stays the same. -/
theorem C94_array_delete (a : TypedArray ω) (s : Slice) (h : stepOf s ≠ 0) :
    ∃ b : TypedArray ω, a.delSlice s = .ok b ∧ b.iter = without a.iter s ∧ b.typecode = a.typecode ∧ b.value.kind = a.value.kind := by
  refine ⟨⟨⟨a.value.kind, without a.iter s⟩, a.typecode⟩, ?_, rfl, rfl, rfl⟩
  rw [TypedArray.delSlice, delSlice_eq _ _ h]
  rfl

/-- Slices without a step are what `take`, `skip`, `take_last` and `skip_last` give. -/
theorem C94_block_take (xs : Block α) (n : Int) :
    xs.getSlice { stop := some n } = .ok (xs.take n) ∧ xs.getSlice { start := some n } = .ok (xs.skip n) ∧
    xs.getSlice { start := some (-n) } = .ok (xs.takeLast n) ∧ xs.getSlice { stop := some (-n) } = .ok (xs.skipLast n) := by
  have key : ∀ start stop, xs.getSlice ⟨start, stop, none⟩ = .ok ⟨slice xs.value start stop⟩ := by
    intro start stop
    obtain ⟨ys, h1, h2⟩ := C94_block_slice xs ⟨start, stop, none⟩ (by simp [stepOf])
    rw [h1, ← sliced_unique h2 (sliced_simple xs.value start stop)]
  exact ⟨key _ _, key _ _, key _ _, key _ _⟩

/-- `block[:n]` followed by `block[n:]` is the block, for every `n`, also negative or out of range. -/
theorem C94_block_split (xs : Block α) (n : Int) : ∃ ys zs, xs.getSlice { stop := some n } = .ok ys ∧
    xs.getSlice { start := some n } = .ok zs ∧ ys.value ++ zs.value = xs.value := by
  refine ⟨_, _, (C94_block_take xs n).1, (C94_block_take xs n).2.1, ?_⟩
  simp only [Block.take, Block.skip, slice, List.drop_zero, List.take_length]
  exact List.take_append_drop _ _

/-- `block[::-1]` is the block in reverse order. -/
theorem C94_block_reverse (xs : Block α) : xs.getSlice { step := some (-1) } = .ok ⟨xs.value.reverse⟩ := by
  obtain ⟨ys, h1, h2⟩ := C94_block_slice xs { step := some (-1) } (by decide)
  rw [h1, ← sliced_unique h2 (sliced_reverse xs.value)]

example : (⟨[0, 1, 2, 3, 4, 5]⟩ : Block Nat).getSlice { start := some (-2), stop := some 0, step := some (-2) } = .ok ⟨[4, 2]⟩ := by decide
example : (⟨⟨.arr .b, plainInts [0, 1, 2, 3, 4]⟩, .int8⟩ : TypedArray Unit).delSlice { step := some 2 } =
    .ok ⟨⟨.arr .b, plainInts [1, 3]⟩, .int8⟩ := by decide

end Expression.Props
