import Verif.Spec.Slice

namespace Expression.Lemmas

open Builtins Spec

variable {α : Type}

theorem adjustBound_pos (len : Nat) (i : Int) : adjustBound len false i = bound len 0 len i := by
  simp only [adjustBound, bound]
  split
  · split
    · rename_i h1 h2
      simp only [Bool.false_eq_true, if_false]
      omega
    · omega
  · split
    · simp only [Bool.false_eq_true, if_false]; omega
    · omega

theorem adjustBound_neg (len : Nat) (i : Int) : adjustBound len true i = bound len (-1) (len - 1) i := by
  simp only [adjustBound, bound]
  split
  · split
    · rename_i h1 h2
      simp only [if_true]
      omega
    · omega
  · split
    · simp only [if_true]; omega
    · omega

/-- the number of positions that the code computes -/
def countOf (len : Nat) (s : Slice) : Nat :=
  if stepOf s < 0 then (if stopOf len s < startOf len s then ((startOf len s - stopOf len s - 1) / -stepOf s + 1).toNat else 0)
  else (if startOf len s < stopOf len s then ((stopOf len s - startOf len s - 1) / stepOf s + 1).toNat else 0)

theorem indices_eq (len : Nat) (s : Slice) (h : stepOf s ≠ 0) : s.indices len = .ok (startOf len s, stopOf len s, stepOf s) := by
  obtain ⟨start, stop, step⟩ := s
  have hs : step.getD 1 = stepOf ⟨start, stop, step⟩ := by cases step <;> rfl
  simp only [Slice.indices, hs, if_neg h]
  by_cases hn : stepOf ⟨start, stop, step⟩ < 0
  · cases start <;> cases stop <;> simp only [hn, decide_true, if_true, adjustBound_neg, startOf, stopOf]
  · cases start <;> cases stop <;>
      simp only [hn, decide_false, if_false, Bool.false_eq_true, adjustBound_pos, startOf, stopOf]

theorem positions_eq (len : Nat) (s : Slice) (h : stepOf s ≠ 0) :
    s.positions len = .ok ((List.range (countOf len s)).map (fun i => (indexOf len s i).toNat)) := by
  rw [Slice.positions, indices_eq _ _ h]
  rfl

theorem indices_zero (len : Nat) (s : Slice) (h : stepOf s = 0) : ∃ m, s.indices len = .error (.valueError m) := by
  obtain ⟨start, stop, step⟩ := s
  have hs : step.getD 1 = stepOf ⟨start, stop, step⟩ := by cases step <;> rfl
  exact ⟨"slice step cannot be zero", by simp only [Slice.indices, hs, if_pos h]⟩

theorem positions_zero (len : Nat) (s : Slice) (h : stepOf s = 0) : ∃ m, s.positions len = .error (.valueError m) := by
  obtain ⟨m, hm⟩ := indices_zero len s h
  exact ⟨m, by rw [Slice.positions, hm]; rfl⟩

theorem within_iff_count (len : Nat) (s : Slice) (h : stepOf s ≠ 0) (n : Nat) : Within len s n ↔ n < countOf len s := by
  unfold Within countOf indexOf
  generalize startOf len s = a
  generalize stopOf len s = b
  generalize stepOf s = k at h ⊢
  have hle : ∀ (d k : Int), 0 < k → ((n : Int) ≤ d / k ↔ (n : Int) * k ≤ d) := fun d k hk => Int.le_ediv_iff_mul_le hk
  split
  · split
    · have h1 := hle (a - b - 1) (-k) (by omega)
      have h2 : 0 ≤ (a - b - 1) / -k := Int.ediv_nonneg (by omega) (by omega)
      have h3 : (n : Int) * -k = -(n * k) := by rw [Int.mul_neg]
      rw [h3] at h1
      generalize (n : Int) * k = t at h1 ⊢
      omega
    · have h3 : (n : Int) * k ≤ 0 := Int.mul_nonpos_of_nonneg_of_nonpos (by omega) (by omega)
      omega
  · split
    · have h1 := hle (b - a - 1) k (by omega)
      have h2 : 0 ≤ (b - a - 1) / k := Int.ediv_nonneg (by omega) (by omega)
      generalize (n : Int) * k = t at h1 ⊢
      omega
    · have h3 : 0 ≤ (n : Int) * k := Int.mul_nonneg (by omega) (by omega)
      omega

theorem index_range (len : Nat) (s : Slice) (h : stepOf s ≠ 0) (n : Nat) (hw : Within len s n) :
    0 ≤ indexOf len s n ∧ indexOf len s n < len := by
  unfold Within indexOf at *
  have ha : (stepOf s < 0 → -1 ≤ stopOf len s ∧ startOf len s ≤ len - 1) ∧ (0 < stepOf s → 0 ≤ startOf len s ∧ stopOf len s ≤ len) := by
    unfold startOf stopOf bound
    constructor
    · intro hk
      simp only [hk, if_true]
      cases s.start <;> cases s.stop <;> simp only <;> omega
    · intro hk
      have : ¬ stepOf s < 0 := by omega
      simp only [this, if_false]
      cases s.start <;> cases s.stop <;> simp only <;> omega
  generalize startOf len s = a at *
  generalize stopOf len s = b at *
  generalize stepOf s = k at *
  split at hw
  · have h3 : (n : Int) * k ≤ 0 := Int.mul_nonpos_of_nonneg_of_nonpos (by omega) (by omega)
    omega
  · have h3 : 0 ≤ (n : Int) * k := Int.mul_nonneg (by omega) (by omega)
    omega

theorem filterMap_get (xs : List α) (ps : List Nat) (h : ∀ p ∈ ps, p < xs.length) (n : Nat) :
    (ps.filterMap (fun p => xs[p]?))[n]? = (ps[n]?).bind (fun p => xs[p]?) := by
  induction ps generalizing n with
  | nil => rfl
  | cons p ps ih =>
    have hp := h p List.mem_cons_self
    rw [List.filterMap_cons, List.getElem?_eq_getElem hp]
    cases n with
    | zero => simp [List.getElem?_eq_getElem hp]
    | succ n =>
      simp only [List.getElem?_cons_succ]
      exact ih (fun q hq => h q (List.mem_cons_of_mem _ hq)) n

theorem getSlice_sliced (xs : List α) (s : Slice) (h : stepOf s ≠ 0) :
    ∃ ys, getSlice xs s = .ok ys ∧ Sliced xs s ys := by
  have hp : ∀ p ∈ (List.range (countOf xs.length s)).map (fun i => (indexOf xs.length s i).toNat), p < xs.length := by
    intro p hp
    obtain ⟨i, hi, rfl⟩ := List.mem_map.1 hp
    have := index_range xs.length s h i ((within_iff_count _ _ h i).2 (List.mem_range.1 hi))
    omega
  refine ⟨_, by rw [getSlice, positions_eq _ _ h]; rfl, ?_, ?_⟩
  · intro n hw
    have hr := index_range xs.length s h n hw
    refine ⟨(indexOf xs.length s n).toNat, by omega, by omega, ?_⟩
    rw [filterMap_get _ _ hp, List.getElem?_map, List.getElem?_range ((within_iff_count _ _ h n).1 hw)]
    rfl
  · intro n hw
    rw [within_iff_count _ _ h] at hw
    rw [filterMap_get _ _ hp, List.getElem?_map, List.getElem?_eq_none (by simp; omega)]
    rfl

/-- there is only one slice -/
theorem sliced_unique {xs ys zs : List α} {s : Slice} (h1 : Sliced xs s ys) (h2 : Sliced xs s zs) : ys = zs := by
  apply List.ext_getElem?
  intro n
  by_cases hw : Within xs.length s n
  · obtain ⟨p, hp, -, h⟩ := h1.items n hw
    obtain ⟨q, hq, -, h'⟩ := h2.items n hw
    have : p = q := by omega
    rw [h, h', this]
  · rw [h1.no_more n hw, h2.no_more n hw]

theorem mem_positions (len : Nat) (s : Slice) (h : stepOf s ≠ 0) (p : Nat) :
    p ∈ (List.range (countOf len s)).map (fun i => (indexOf len s i).toNat) ↔ Selected len s p := by
  constructor
  · intro hp
    obtain ⟨i, hi, rfl⟩ := List.mem_map.1 hp
    have hw := (within_iff_count _ _ h i).2 (List.mem_range.1 hi)
    have := index_range len s h i hw
    exact ⟨i, hw, by omega⟩
  · rintro ⟨i, hw, hp⟩
    exact List.mem_map.2 ⟨i, List.mem_range.2 ((within_iff_count _ _ h i).1 hw), by omega⟩

theorem delSlice_eq (xs : List α) (s : Slice) (h : stepOf s ≠ 0) : delSlice xs s = .ok (without xs s) := by
  rw [delSlice, positions_eq _ _ h]
  change Except.ok _ = Except.ok _
  congr 1
  unfold without
  have key : ∀ (xs : List α) (g : Nat → Option α) (k : Nat) (P : Nat → Prop) (q : Nat → Bool) (hq : ∀ p, q p = true ↔ P p)
      (_ : ∀ i x, xs[i]? = some x → g (k + i) = some x) [∀ p, Decidable (P p)],
      (List.range' k xs.length).filterMap (fun p => if P p then none else g p) =
        ((xs.zipIdx k).filter (fun r => !q r.2)).map Prod.fst := by
    intro xs
    induction xs with
    | nil => intros; rfl
    | cons x xs ih =>
      intro g k P q hq hg _
      have hx : g k = some x := hg 0 x rfl
      have ih' := ih g (k + 1) P q hq (fun i y hy => by rw [show k + 1 + i = k + (i + 1) by omega]; exact hg (i + 1) y hy)
      rw [List.length_cons, List.range'_succ, List.filterMap_cons, List.zipIdx_cons, List.filter_cons, ih']
      by_cases hp : P k
      · simp [hp, (hq k).2 hp]
      · have : q k = false := by
          cases hqk : q k
          · rfl
          · exact absurd ((hq k).1 hqk) hp
        simp [hp, this, hx]
  classical
  have := key xs (fun p => xs[p]?) 0 (fun p => p ∈ (List.range (countOf xs.length s)).map (fun i => (indexOf xs.length s i).toNat))
    (fun p => decide (Selected xs.length s p)) (fun p => by rw [decide_eq_true_iff, mem_positions _ _ h])
    (fun i x hx => by rw [Nat.zero_add]; exact hx)
  rw [← List.range_eq_range'] at this
  simp only [decide_not]
  refine Eq.trans ?_ this
  congr

theorem slice_bounds (xs : List α) (start stop : Option Int) :
    slice xs start stop = (xs.take (stopOf xs.length ⟨start, stop, none⟩).toNat).drop (startOf xs.length ⟨start, stop, none⟩).toNat ∧
    0 ≤ startOf xs.length ⟨start, stop, none⟩ ∧ 0 ≤ stopOf xs.length ⟨start, stop, none⟩ ∧
    stopOf xs.length ⟨start, stop, none⟩ ≤ xs.length := by
  have hb : ∀ i : Int, adjustIndex xs.length i = (bound xs.length 0 xs.length i).toNat := by
    intro i
    simp only [bound, adjustIndex]
    split <;> omega
  have hr : ∀ i : Int, 0 ≤ bound xs.length 0 xs.length i ∧ bound xs.length 0 xs.length i ≤ xs.length := by
    intro i; unfold bound; omega
  cases start with
  | none =>
    cases stop with
    | none => exact ⟨rfl, Int.le_refl 0, Int.natCast_nonneg _, Int.le_refl _⟩
    | some j =>
      refine ⟨?_, Int.le_refl 0, (hr j).1, (hr j).2⟩
      simp only [slice, hb]
      rfl
  | some i =>
    cases stop with
    | none =>
      refine ⟨?_, (hr i).1, Int.natCast_nonneg _, Int.le_refl _⟩
      simp only [slice, hb]
      rfl
    | some j =>
      refine ⟨?_, (hr i).1, (hr j).1, (hr j).2⟩
      simp only [slice, hb]
      rfl

theorem sliced_simple (xs : List α) (start stop : Option Int) : Sliced xs ⟨start, stop, none⟩ (slice xs start stop) := by
  obtain ⟨h1, h2, h3, h4⟩ := slice_bounds xs start stop
  have hst : stepOf ⟨start, stop, none⟩ = 1 := rfl
  rw [h1]
  constructor
  · intro n hw
    simp only [Within, indexOf, hst] at hw ⊢
    rw [if_neg (by omega)] at hw
    refine ⟨(startOf xs.length ⟨start, stop, none⟩).toNat + n, by omega, by omega, ?_⟩
    rw [List.getElem?_drop, List.getElem?_take, if_pos (by omega)]
  · intro n hw
    simp only [Within, indexOf, hst] at hw
    rw [if_neg (by omega)] at hw
    rw [List.getElem?_drop, List.getElem?_take, if_neg (by omega)]

theorem sliced_reverse (xs : List α) : Sliced xs ⟨none, none, some (-1)⟩ xs.reverse := by
  have h1 : startOf xs.length ⟨none, none, some (-1)⟩ = xs.length - 1 := rfl
  have h2 : stopOf xs.length ⟨none, none, some (-1)⟩ = -1 := rfl
  have h3 : stepOf ⟨none, none, some (-1)⟩ = -1 := rfl
  constructor
  · intro n hw
    simp only [Within, indexOf, h1, h2, h3] at hw ⊢
    rw [if_pos (by omega)] at hw
    refine ⟨xs.length - 1 - n, by omega, by omega, ?_⟩
    rw [List.getElem?_reverse (by omega)]
  · intro n hw
    simp only [Within, indexOf, h1, h2, h3] at hw
    rw [if_pos (by omega)] at hw
    exact List.getElem?_eq_none (by simp; omega)

end Expression.Lemmas
