import Verif.Lemmas.Block
import Verif.Lemmas.AsyncSeq2

/-!
# Properties of `Block`: equality, membership, ranges and constructors (C75, C76)
-/

namespace Expression.Props

open Expression Expression.Spec

variable {σ α : Type}

/-! ## C75 equality and membership -/

/-- `v in xs` holds exactly when some element is `v` or equal to it. -/
theorem C75_contains (same : α → α → Bool) (xs : Block α) (v : α) :
    xs.contains same v = true ↔ ∃ x ∈ xs.value, same x v = true := by
  obtain ⟨l⟩ := xs
  simp only [Block.contains]
  induction l with
  | nil => simp [Block.contains.go]
  | cons x l ih =>
    simp only [Block.contains.go]
    split
    · rename_i h; simp [h]
    · rename_i h; rw [ih]; simp [h]

theorem block_eq_go (same : α → α → Bool) : ∀ ys xs : List α, Block.eq.go same ys xs = true ↔
    ys.length = xs.length ∧ ∀ (i : Nat) (y x : α), ys[i]? = some y → xs[i]? = some x → same y x = true
  | [], [] => by simp [Block.eq.go]
  | [], x :: xs => by simp [Block.eq.go]
  | y :: ys, [] => by simp [Block.eq.go]
  | y :: ys, x :: xs => by
    simp only [Block.eq.go, Bool.and_eq_true, block_eq_go same ys xs, List.length_cons, Nat.add_right_cancel_iff]
    constructor
    · rintro ⟨h1, h2, h3⟩
      refine ⟨h2, fun i => ?_⟩
      cases i with
      | zero => intro a b ha hb; simp only [List.getElem?_cons_zero, Option.some.injEq] at ha hb; subst ha hb; exact h1
      | succ i => simpa using h3 i
    · rintro ⟨h2, h3⟩
      exact ⟨h3 0 y x rfl rfl, h2, fun i a b ha hb => h3 (i + 1) a b (by simpa using ha) (by simpa using hb)⟩

/-- `xs == ys` holds exactly when both have the same length and every element of `ys` equals the element of `xs` at the same
place (it is the element of `ys` that is asked). -/
theorem C75_eq (same : α → α → Bool) (xs ys : Block α) :
    xs.eq same ys = true ↔
      ys.len = xs.len ∧ ∀ (i : Nat) (y x : α), ys.value[i]? = some y → xs.value[i]? = some x → same y x = true :=
  block_eq_go same ys.value xs.value

/-- Equality of blocks is an equivalence whenever equality of the elements is. -/
theorem C75_eq_equivalence (same : α → α → Bool) (hrefl : ∀ x, same x x = true)
    (hsymm : ∀ x y, same x y = true → same y x = true)
    (htrans : ∀ x y z, same x y = true → same y z = true → same x z = true) (xs ys zs : Block α) :
    xs.eq same xs = true ∧ (xs.eq same ys = true → ys.eq same xs = true) ∧
    (xs.eq same ys = true → ys.eq same zs = true → xs.eq same zs = true) := by
  refine ⟨?_, ?_, ?_⟩
  · rw [C75_eq]
    refine ⟨rfl, fun i y x hy hx => ?_⟩
    rw [hy] at hx; cases hx; exact hrefl _
  · rw [C75_eq, C75_eq]
    rintro ⟨h1, h2⟩
    exact ⟨h1.symm, fun i y x hy hx => hsymm _ _ (h2 i x y hx hy)⟩
  · rw [C75_eq, C75_eq, C75_eq]
    rintro ⟨h1, h2⟩ ⟨h3, h4⟩
    refine ⟨h3.trans h1, fun i z x hz hx => ?_⟩
    have hi : i < ys.value.length := by
      have : i < xs.value.length := (List.getElem?_eq_some_iff.1 hx).1
      rw [Block.len, Block.len] at h1; omega
    have hy := List.getElem?_eq_getElem hi
    exact htrans _ _ _ (h4 i z _ hz hy) (h2 i _ x hy hx)

/-- Equal blocks have the same members. -/
theorem C75_eq_members (same : α → α → Bool) (hsymm : ∀ x y, same x y = true → same y x = true)
    (htrans : ∀ x y z, same x y = true → same y z = true → same x z = true) (xs ys : Block α)
    (h : xs.eq same ys = true) (v : α) : xs.contains same v = ys.contains same v := by
  obtain ⟨hl, he⟩ := (C75_eq same xs ys).1 h
  simp only [Block.len] at hl
  rw [Bool.eq_iff_iff, C75_contains, C75_contains]
  constructor
  · rintro ⟨x, hx, hv⟩
    obtain ⟨i, hi, rfl⟩ := List.getElem_of_mem hx
    have hy := List.getElem?_eq_getElem (l := ys.value) (i := i) (by omega)
    exact ⟨_, List.getElem_mem _, htrans _ _ _ (he i _ _ hy (List.getElem?_eq_getElem hi)) hv⟩
  · rintro ⟨y, hy, hv⟩
    obtain ⟨i, hi, rfl⟩ := List.getElem_of_mem hy
    have hx := List.getElem?_eq_getElem (l := xs.value) (i := i) (by omega)
    exact ⟨_, List.getElem_mem _, htrans _ _ _ (hsymm _ _ (he i _ _ (List.getElem?_eq_getElem hi) hx)) hv⟩

/-- Appending and prepending keep membership and equality. -/
theorem C75_append_members (same : α → α → Bool) (xs ys : Block α) (x v : α) :
    (xs.append ys).contains same v = (xs.contains same v || ys.contains same v) ∧
    (xs.cons x).contains same v = (same x v || xs.contains same v) ∧
    (xs.append ys).len = xs.len + ys.len ∧ (xs.cons x).len = xs.len + 1 := by
  refine ⟨?_, ?_, by simp [Block.append, Block.len], by simp [Block.cons, Block.len]⟩
  · rw [Bool.eq_iff_iff, Bool.or_eq_true, C75_contains, C75_contains, C75_contains]
    simp only [Block.append, List.mem_append]
    constructor
    · rintro ⟨a, h | h, hv⟩
      · exact Or.inl ⟨a, h, hv⟩
      · exact Or.inr ⟨a, h, hv⟩
    · rintro (⟨a, h, hv⟩ | ⟨a, h, hv⟩)
      · exact ⟨a, Or.inl h, hv⟩
      · exact ⟨a, Or.inr h, hv⟩
  · rw [Bool.eq_iff_iff, Bool.or_eq_true, C75_contains, C75_contains]
    simp [Block.cons]

example : (⟨[1, 2]⟩ : Block Nat).eq (· == ·) ⟨[1, 2]⟩ = true ∧ (⟨[1, 2]⟩ : Block Nat).eq (· == ·) ⟨[1, 2, 3]⟩ = false ∧
    (⟨[1, 2]⟩ : Block Nat).contains (· == ·) 2 = true ∧ (⟨[1, 2]⟩ : Block Nat).contains (· == ·) 3 = false := by decide

/-! ## C76 constructors -/

/-- `Block.range(start, stop, step)` holds start, start + step, ... as long as these are before stop (after it when step is
negative); step 0 raises `ValueError`. -/
theorem C76_range (start stop step : Int) :
    (step ≠ 0 → ∃ xs : Block Int, Block.range start stop step = .ok xs ∧ RangeElements start stop step xs.value) ∧
    (step = 0 → ∃ m, Block.range start stop step = .error (.valueError m)) := by
  constructor
  · intro h
    obtain ⟨ys, e, hy⟩ := Lemmas.range_elements start stop step h
    exact ⟨⟨ys⟩, by simp only [Block.range, e]; rfl, hy⟩
  · rintro rfl
    exact ⟨_, rfl⟩

/-- A range determines its elements: no other block satisfies the description. -/
theorem C76_range_unique (start stop step : Int) (xs ys : List Int) (hx : RangeElements start stop step xs)
    (hy : RangeElements start stop step ys) : xs = ys := by
  apply List.ext_getElem?
  intro i
  apply Option.ext
  intro v
  rw [hx i v, hy i v]

/-- The elements given are the elements held, in order: `of_seq`, `of`, `singleton`, `of_option`, `empty`. -/
theorem C76_constructors (l : List α) (x : α) :
    (Block.ofSeq l).value = l ∧ (Block.singleton x).value = [x] ∧ (Block.ofOption (some x)).value = [x] ∧
    (Block.ofOption (none : Option α)).value = [] ∧ (Block.empty : Block α).value = [] ∧
    (Block.ofOption (some x)).tryHead = some x ∧ (Block.ofOption (none : Option α)).tryHead = none :=
  ⟨rfl, rfl, rfl, rfl, rfl, rfl, rfl⟩

/-- `sum` adds the elements to 0 from left to right. -/
theorem C76_sum (plus : α → α → Py σ α) (zero : α) (xs : Block α) :
    xs.sum plus zero = foldLeft plus zero xs.value := by
  simp [Block.sum, reduce_eq]

example : Block.range 2 9 3 = .ok ⟨[2, 5, 8]⟩ ∧ Block.range 5 0 (-2) = .ok ⟨[5, 3, 1]⟩ ∧ Block.range 3 3 1 = .ok ⟨[]⟩ := by
  decide

end Expression.Props
