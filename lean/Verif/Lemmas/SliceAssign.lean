import Verif.Lemmas.Slice
import Verif.Lemmas.Array2

/-! Assignment to slices. -/

namespace Expression.Lemmas

open Builtins Spec Arr

variable {α : Type}

theorem start_range (len : Nat) (s : Slice) (h : stepOf s = 1) : 0 ≤ startOf len s ∧ startOf len s ≤ len ∧
    0 ≤ stopOf len s ∧ stopOf len s ≤ len := by
  have : ¬ stepOf s < 0 := by omega
  unfold startOf stopOf bound
  simp only [this, if_false]
  cases s.start <;> cases s.stop <;> simp only <;> omega

theorem setLinear_spliced (xs : List α) (s : Slice) (h : stepOf s = 1) (ts : List α) :
    Spliced xs s ts (setLinear xs (startOf xs.length s) (stopOf xs.length s) ts) := by
  obtain ⟨h1, h2, h3, h4⟩ := start_range xs.length s h
  have hm : (if stopOf xs.length s < startOf xs.length s then startOf xs.length s else stopOf xs.length s)
      = max (startOf xs.length s) (stopOf xs.length s) := by split <;> omega
  unfold setLinear
  rw [hm]
  have hl : (xs.take (startOf xs.length s).toNat).length = (startOf xs.length s).toNat := by rw [List.length_take]; omega
  constructor
  · intro n hn
    rw [List.append_assoc, List.getElem?_append_left (by omega), List.getElem?_take, if_pos (by omega)]
  · intro n hn
    rw [List.append_assoc, List.getElem?_append_right (by omega), hl, List.getElem?_append_left (by omega)]
    congr 1; omega
  · intro n
    rw [List.getElem?_append_right (by simp; omega), List.getElem?_drop, List.length_append, hl]
    congr 1; omega

theorem spliced_unique {xs ts ys zs : List α} {s : Slice} (h1 : Spliced xs s ts ys) (h2 : Spliced xs s ts zs) : ys = zs := by
  apply List.ext_getElem?
  intro n
  by_cases ha : (n : Int) < startOf xs.length s
  · rw [h1.before n ha, h2.before n ha]
  · by_cases hb : n < (startOf xs.length s).toNat + ts.length
    · have e : n = (startOf xs.length s).toNat + (n - (startOf xs.length s).toNat) := by omega
      rw [e, h1.new _ (by omega), h2.new _ (by omega)]
    · have e : n = (startOf xs.length s).toNat + ts.length + (n - (startOf xs.length s).toNat - ts.length) := by omega
      rw [e, h1.after, h2.after]

theorem setEach_length (ps : List Nat) : ∀ (xs ts : List α), (setEach xs ps ts).length = xs.length := by
  induction ps with
  | nil => intro xs ts; cases ts <;> rfl
  | cons p ps ih =>
    intro xs ts
    cases ts with
    | nil => rfl
    | cons t ts => rw [setEach, ih, List.length_set]

theorem setEach_other (ps : List Nat) (q : Nat) (hq : q ∉ ps) : ∀ (xs ts : List α), (setEach xs ps ts)[q]? = xs[q]? := by
  induction ps with
  | nil => intro xs ts; cases ts <;> rfl
  | cons p ps ih =>
    intro xs ts
    cases ts with
    | nil => rfl
    | cons t ts =>
      rw [setEach, ih (fun h => hq (List.mem_cons_of_mem _ h)), List.getElem?_set_ne]
      intro e; exact hq (e ▸ List.mem_cons_self)

theorem setEach_get (ps : List Nat) (hd : ps.Nodup) : ∀ (xs ts : List α), (∀ p ∈ ps, p < xs.length) → ps.length = ts.length →
    ∀ n p : Nat, ps[n]? = some p → (setEach xs ps ts)[p]? = ts[n]? := by
  induction ps with
  | nil => intro xs ts _ _ n p h; cases h
  | cons q ps ih =>
    intro xs ts hp hl n p h
    obtain ⟨hq, hd'⟩ := List.nodup_cons.1 hd
    cases ts with
    | nil => cases hl
    | cons t ts =>
      rw [setEach]
      cases n with
      | zero =>
        cases h
        rw [setEach_other _ _ hq, List.getElem?_set_self (hp _ List.mem_cons_self)]
        rfl
      | succ n =>
        rw [ih hd' _ _ (fun r hr => by rw [List.length_set]; exact hp r (List.mem_cons_of_mem _ hr)) (by simpa using hl) n p
          (by simpa using h)]
        rfl

theorem indexOf_inj (len : Nat) (s : Slice) (h : stepOf s ≠ 0) {i j : Nat} (e : indexOf len s i = indexOf len s j) : i = j := by
  unfold indexOf at e
  have e2 : (i : Int) * stepOf s = j * stepOf s := by omega
  have := Int.eq_of_mul_eq_mul_right h e2
  omega

theorem positions_nodup (len : Nat) (s : Slice) (h : stepOf s ≠ 0) :
    ((List.range (countOf len s)).map (fun i => (indexOf len s i).toNat)).Nodup := by
  rw [List.nodup_iff_pairwise_ne, List.pairwise_map]
  refine List.Pairwise.imp_of_mem ?_ (List.nodup_iff_pairwise_ne.1 List.nodup_range)
  intro i j hi hj hne e
  have h1 := index_range len s h i ((within_iff_count _ _ h i).2 (List.mem_range.1 hi))
  have h2 := index_range len s h j ((within_iff_count _ _ h j).2 (List.mem_range.1 hj))
  exact hne (indexOf_inj len s h (by omega))

theorem sizeIs_iff (len : Nat) (s : Slice) (h : stepOf s ≠ 0) (n : Nat) : SizeIs len s n ↔ n = countOf len s := by
  constructor
  · intro hs
    have h1 := hs n
    have h2 := hs (countOf len s)
    rw [within_iff_count _ _ h] at h1 h2
    omega
  · rintro rfl i
    exact within_iff_count _ _ h i

theorem setEach_overwritten (xs : List α) (s : Slice) (h : stepOf s ≠ 0) (ts : List α) (hs : ts.length = countOf xs.length s) :
    Overwritten xs s ts (setEach xs ((List.range (countOf xs.length s)).map (fun i => (indexOf xs.length s i).toNat)) ts) := by
  refine ⟨setEach_length _ _ _, ?_, ?_⟩
  · intro n hw
    have hr := index_range xs.length s h n hw
    refine ⟨(indexOf xs.length s n).toNat, by omega, by omega, ?_⟩
    refine setEach_get _ (positions_nodup _ _ h) xs ts ?_ (by simp [hs]) n _ ?_
    · intro p hp
      obtain ⟨i, hi, rfl⟩ := List.mem_map.1 hp
      have := index_range xs.length s h i ((within_iff_count _ _ h i).2 (List.mem_range.1 hi))
      omega
    · rw [List.getElem?_map, List.getElem?_range ((within_iff_count _ _ h n).1 hw)]
      rfl
  · intro p hp
    exact setEach_other _ _ (fun hm => hp ((mem_positions _ _ h p).1 hm)) _ _

theorem overwritten_sliced {xs ts ys : List α} {s : Slice} (hs : SizeIs xs.length s ts.length)
    (ho : Overwritten xs s ts ys) : Sliced ys s ts := by
  constructor
  · intro n hw
    rw [ho.len] at hw ⊢
    obtain ⟨p, h1, h2, h3⟩ := ho.new n hw
    exact ⟨p, h1, h2, h3.symm⟩
  · intro n hw
    rw [ho.len, hs n] at hw
    exact List.getElem?_eq_none (by omega)

theorem overwritten_unique {xs ts ys zs : List α} {s : Slice} (h1 : Overwritten xs s ts ys) (h2 : Overwritten xs s ts zs) : ys = zs := by
  apply List.ext_getElem?
  intro p
  by_cases hp : Selected xs.length s p
  · obtain ⟨n, hw, hn⟩ := hp
    obtain ⟨q, e1, -, g1⟩ := h1.new n hw
    obtain ⟨r, e2, -, g2⟩ := h2.new n hw
    have : q = p := by omega
    have : r = p := by omega
    subst_vars
    rw [g1, g2]
  · rw [h1.others p hp, h2.others p hp]

theorem setSliceList_eq (xs : List α) (s : Slice) (h : stepOf s ≠ 0) (ts : List α) : setSliceList xs s ts =
    if stepOf s = 1 then .ok (setLinear xs (startOf xs.length s) (stopOf xs.length s) ts)
    else if ts.length ≠ countOf xs.length s then
      .error (.valueError "attempt to assign sequence of one size to extended slice of another size")
    else .ok (setEach xs ((List.range (countOf xs.length s)).map (fun i => (indexOf xs.length s i).toNat)) ts) := by
  rw [setSliceList, indices_eq _ _ h, positions_eq _ _ h]
  simp only [bind, Except.bind, List.length_map, List.length_range]

theorem setSliceTyped_eq (xs : List α) (s : Slice) (h : stepOf s ≠ 0) (ts : List α) : setSliceTyped xs s ts =
    if stepOf s = 1 then .ok (setLinear xs (startOf xs.length s) (stopOf xs.length s) ts)
    else if ts.length = 0 then .ok (without xs s)
    else if ts.length ≠ countOf xs.length s then
      .error (.valueError "attempt to assign array of one size to extended slice of another size")
    else .ok (setEach xs ((List.range (countOf xs.length s)).map (fun i => (indexOf xs.length s i).toNat)) ts) := by
  rw [setSliceTyped, indices_eq _ _ h, positions_eq _ _ h, delSlice_eq _ _ h]
  simp only [bind, Except.bind, List.length_map, List.length_range]

theorem setSliceList_assigned (xs : List α) (s : Slice) (ts : List α) : Assigned xs s ts (setSliceList xs s ts) := by
  constructor
  · intro h
    obtain ⟨m, hm⟩ := indices_zero xs.length s h
    exact ⟨m, by rw [setSliceList, hm]; rfl⟩
  · intro h
    rw [setSliceList_eq _ _ (by omega), if_pos h]
    exact ⟨_, rfl, setLinear_spliced xs s h ts⟩
  · intro h h1 hs
    rw [sizeIs_iff _ _ h] at hs
    rw [setSliceList_eq _ _ h, if_neg h1, if_neg (by omega)]
    exact ⟨_, rfl, setEach_overwritten xs s h ts hs⟩
  · intro h h1 hs
    rw [sizeIs_iff _ _ h] at hs
    rw [setSliceList_eq _ _ h, if_neg h1, if_pos hs]
    exact ⟨_, rfl⟩

theorem setSliceTyped_assigned (xs : List α) (s : Slice) (ts : List α) (hn : ts ≠ [] ∨ stepOf s = 1) :
    Assigned xs s ts (setSliceTyped xs s ts) := by
  have hl : stepOf s ≠ 1 → ts.length ≠ 0 := by
    intro h e
    rcases hn with hn | hn
    · exact hn (List.length_eq_zero_iff.1 e)
    · exact h hn
  constructor
  · intro h
    obtain ⟨m, hm⟩ := indices_zero xs.length s h
    exact ⟨m, by rw [setSliceTyped, hm]; rfl⟩
  · intro h
    rw [setSliceTyped_eq _ _ (by omega), if_pos h]
    exact ⟨_, rfl, setLinear_spliced xs s h ts⟩
  · intro h h1 hs
    rw [sizeIs_iff _ _ h] at hs
    rw [setSliceTyped_eq _ _ h, if_neg h1, if_neg (hl h1), if_neg (by omega)]
    exact ⟨_, rfl, setEach_overwritten xs s h ts hs⟩
  · intro h h1 hs
    rw [sizeIs_iff _ _ h] at hs
    rw [setSliceTyped_eq _ _ h, if_neg h1, if_neg (hl h1), if_pos hs]
    exact ⟨_, rfl⟩

theorem setEach_mem (ps : List Nat) : ∀ (xs ts : List α), ∀ x ∈ setEach xs ps ts, x ∈ xs ∨ x ∈ ts := by
  induction ps with
  | nil => intro xs ts x hx; cases ts <;> exact .inl hx
  | cons p ps ih =>
    intro xs ts x hx
    cases ts with
    | nil => exact .inl hx
    | cons t ts =>
      rcases ih _ _ x hx with h | h
      · rcases List.mem_or_eq_of_mem_set h with h | h
        · exact .inl h
        · exact .inr (h ▸ List.mem_cons_self)
      · exact .inr (List.mem_cons_of_mem _ h)

theorem setLinear_mem (xs : List α) (a b : Int) (ts : List α) : ∀ x ∈ setLinear xs a b ts, x ∈ xs ∨ x ∈ ts := by
  intro x hx
  rcases List.mem_append.1 hx with h | h
  · rcases List.mem_append.1 h with h | h
    · exact .inl (List.mem_of_mem_take h)
    · exact .inr h
  · exact .inl (List.mem_of_mem_drop h)

theorem without_mem (xs : List α) (s : Slice) : ∀ x ∈ without xs s, x ∈ xs := by
  intro x hx
  obtain ⟨⟨y, k⟩, h1, rfl⟩ := List.mem_map.1 hx
  have := List.mem_filter.1 h1
  exact List.fst_mem_of_mem_zipIdx this.1

theorem step_cases (s : Slice) : stepOf s = 0 ∨ stepOf s ≠ 0 := Decidable.em _

theorem setSliceTyped_mem {xs ts ys : List α} {s : Slice} (h : setSliceTyped xs s ts = .ok ys) : ∀ x ∈ ys, x ∈ xs ∨ x ∈ ts := by
  rcases step_cases s with h0 | h0
  · obtain ⟨m, hm⟩ := indices_zero xs.length s h0
    rw [setSliceTyped, hm] at h; cases h
  · rw [setSliceTyped_eq _ _ h0] at h
    split at h
    · cases h; exact setLinear_mem _ _ _ _
    · split at h
      · cases h; exact fun x hx => .inl (without_mem _ _ x hx)
      · split at h
        · cases h
        · cases h; exact setEach_mem _ _ _

theorem sliced_size {xs ts : List α} {s : Slice} (h : Sliced xs s ts) : SizeIs xs.length s ts.length := by
  intro n
  constructor
  · intro hw
    obtain ⟨p, -, hp, e⟩ := h.items n hw
    rw [List.getElem?_eq_getElem hp] at e
    exact (List.getElem?_eq_some_iff.1 e).1
  · intro hn
    apply Classical.byContradiction
    intro hw
    have := h.no_more n hw
    rw [List.getElem?_eq_getElem hn] at this
    cases this

theorem without_nothing (xs : List α) (s : Slice) (h : ∀ p, ¬ Selected xs.length s p) : without xs s = xs := by
  unfold without
  rw [List.filter_eq_self.2 (fun q _ => by simp [h]), List.zipIdx_map_fst]

theorem spliced_own {xs ts : List α} {s : Slice} (h1 : stepOf s = 1) (h : Sliced xs s ts) : Spliced xs s ts xs := by
  obtain ⟨a1, a2, a3, a4⟩ := start_range xs.length s h1
  have hl : ts.length = (stopOf xs.length s - startOf xs.length s).toNat := by
    have hs := sliced_size h
    have e1 := hs ts.length
    have e2 := hs (stopOf xs.length s - startOf xs.length s).toNat
    simp only [Within, indexOf, h1, Int.mul_one] at e1 e2
    rw [if_neg (by omega)] at e1 e2
    omega
  refine ⟨fun _ _ => rfl, ?_, ?_⟩
  · intro n hn
    obtain ⟨p, e, -, g⟩ := h.items n ((sliced_size h n).2 hn)
    simp only [indexOf, h1, Int.mul_one] at e
    rw [g]
    congr 1; omega
  · intro n
    congr 1; omega

theorem overwritten_own {xs ts : List α} {s : Slice} (h : Sliced xs s ts) : Overwritten xs s ts xs := by
  refine ⟨rfl, ?_, fun _ _ => rfl⟩
  intro n hw
  obtain ⟨p, h1, h2, h3⟩ := h.items n hw
  exact ⟨p, h1, h2, h3.symm⟩

theorem setSliceList_own {xs ts : List α} {s : Slice} (h : stepOf s ≠ 0) (hs : Sliced xs s ts) : setSliceList xs s ts = .ok xs := by
  have ha := setSliceList_assigned xs s ts
  by_cases h1 : stepOf s = 1
  · obtain ⟨ys, e, g⟩ := ha.one h1
    rw [e, spliced_unique g (spliced_own h1 hs)]
  · obtain ⟨ys, e, g⟩ := ha.same_size h h1 (sliced_size hs)
    rw [e, overwritten_unique g (overwritten_own hs)]

theorem setSliceTyped_own {xs ts : List α} {s : Slice} (h : stepOf s ≠ 0) (hs : Sliced xs s ts) : setSliceTyped xs s ts = .ok xs := by
  by_cases h1 : stepOf s = 1
  · obtain ⟨ys, e, g⟩ := (setSliceTyped_assigned xs s ts (.inr h1)).one h1
    rw [e, spliced_unique g (spliced_own h1 hs)]
  · by_cases h2 : ts = []
    · subst h2
      rw [setSliceTyped_eq _ _ h, if_neg h1, if_pos List.length_nil, without_nothing]
      rintro p ⟨n, hw, -⟩
      exact absurd ((sliced_size hs n).1 hw) (Nat.not_lt_zero _)
    · obtain ⟨ys, e, g⟩ := (setSliceTyped_assigned xs s ts (.inl h2)).same_size h h1 (sliced_size hs)
      rw [e, overwritten_unique g (overwritten_own hs)]

theorem plain_bounds (len : Nat) (i j : Int) (h1 : 0 ≤ i) (h2 : i ≤ len) (h3 : 0 ≤ j) (h4 : j ≤ len) :
    startOf len ⟨some i, some j, none⟩ = i ∧ stopOf len ⟨some i, some j, none⟩ = j := by
  have hst : ¬ stepOf ⟨some i, some j, none⟩ < 0 := by show ¬ (1 : Int) < 0; decide
  simp only [startOf, stopOf, if_neg hst, bound]
  constructor
  · rw [if_neg (by omega)]; omega
  · rw [if_neg (by omega)]; omega

theorem spliced_read {xs ts ys : List α} {s : Slice} (h1 : stepOf s = 1) (h : Spliced xs s ts ys) :
    Sliced ys ⟨some (startOf xs.length s), some (startOf xs.length s + ts.length), none⟩ ts := by
  obtain ⟨a1, a2, a3, a4⟩ := start_range xs.length s h1
  have e : ys = setLinear xs (startOf xs.length s) (stopOf xs.length s) ts := spliced_unique h (setLinear_spliced xs s h1 ts)
  have hlen : (startOf xs.length s).toNat + ts.length ≤ ys.length := by
    rw [e, setLinear, List.length_append, List.length_append, List.length_take]
    omega
  have hst : stepOf ⟨some (startOf xs.length s), some (startOf xs.length s + ts.length), none⟩ = 1 := rfl
  have h2 : startOf ys.length ⟨some (startOf xs.length s), some (startOf xs.length s + ts.length), none⟩ = startOf xs.length s := by
    exact (plain_bounds _ _ _ (by omega) (by omega) (by omega) (by omega)).1
  have h3 : stopOf ys.length ⟨some (startOf xs.length s), some (startOf xs.length s + ts.length), none⟩ =
      startOf xs.length s + ts.length := by
    exact (plain_bounds _ _ _ (by omega) (by omega) (by omega) (by omega)).2
  constructor
  · intro n hw
    simp only [Within, indexOf, hst, h2, h3] at hw ⊢
    rw [if_neg (by omega)] at hw
    exact ⟨(startOf xs.length s).toNat + n, by omega, by omega, (h.new n (by omega)).symm⟩
  · intro n hw
    simp only [Within, indexOf, hst, h2, h3] at hw
    rw [if_neg (by omega)] at hw
    exact List.getElem?_eq_none (by omega)

theorem getSlice_eq {xs ts : List α} {s : Slice} (h : stepOf s ≠ 0) (hs : Sliced xs s ts) : Builtins.getSlice xs s = .ok ts := by
  obtain ⟨ys, e, g⟩ := getSlice_sliced xs s h
  rw [e, sliced_unique g hs]

variable {ω : Type} [Floats ω]

theorem setSlice_list (long : Nat) (memory : Storage ω → List (Val ω)) (a : TypedArray ω) (ha : a.value.kind = .list) (s : Slice)
    (v : SliceValue ω) (ts : List (Val ω)) (hv : v.iterate = some ts) :
    a.setSlice long memory s v =
      (setSliceList a.value.items s ts).map (fun ys => { a with value := { a.value with items := ys } }) := by
  rw [TypedArray.setSlice, Storage.setSlice]
  rcases step_cases s with h | h
  · obtain ⟨m, hm⟩ := indices_zero a.value.items.length s h
    rw [setSliceList, hm]
    rfl
  · rw [indices_eq _ _ h]
    simp only [bind, Except.bind, ha, hv]
    cases setSliceList a.value.items s ts <;> rfl

theorem setSlice_typed (long : Nat) (memory : Storage ω → List (Val ω)) (a : TypedArray ω) (ha : a.value.kind ≠ .list) (s : Slice)
    (ts : List (Val ω)) :
    a.setSlice long memory s (.storage ⟨a.value.kind, ts⟩) =
      (setSliceTyped a.value.items s ts).map (fun ys => { a with value := { a.value with items := ys } }) := by
  obtain ⟨⟨k, xs⟩, tc⟩ := a
  rw [TypedArray.setSlice, Storage.setSlice]
  simp only at ha ⊢
  rcases step_cases s with h | h
  · obtain ⟨m, hm⟩ := indices_zero xs.length s h
    rw [setSliceTyped, hm]
    rfl
  · rw [indices_eq _ _ h]
    cases k with
    | list => exact absurd rfl ha
    | bytes => cases h2 : setSliceTyped xs s ts <;> simp only [bind, Except.bind, h2] <;> rfl
    | arr c => cases setSliceTyped xs s ts <;> simp only [bind, Except.bind, if_true] <;> rfl
    | flt c => cases setSliceTyped xs s ts <;> simp only [bind, Except.bind, if_true] <;> rfl

theorem setSlice_bytes (long : Nat) (memory : Storage ω → List (Val ω)) (a : TypedArray ω) (ha : a.value.kind = .bytes) (s : Slice)
    (h : stepOf s ≠ 0) (v : SliceValue ω) (ts : List (Val ω)) (hv : v.iterate = some ts)
    (hs : ∀ st, v = .storage st → st.kind = .list) :
    a.setSlice long memory s v = (do
      let ts ← convertAll long .bytes ts
      let ys ← setSliceTyped a.value.items s ts
      .ok { a with value := { a.value with items := ys } }) := by
  obtain ⟨⟨k, xs⟩, tc⟩ := a
  cases ha
  rw [TypedArray.setSlice, Storage.setSlice, indices_eq _ _ h]
  have hm : ∀ r : Except PyErr (List (Val ω)), (do
      let st ← (do
        let ts ← r
        let ys ← setSliceTyped xs s ts
        .ok ⟨.bytes, ys⟩ : Except PyErr (Storage ω))
      .ok ⟨st, tc⟩ : Except PyErr (TypedArray ω)) = (do
      let ts ← r
      let ys ← setSliceTyped xs s ts
      .ok ⟨⟨.bytes, ys⟩, tc⟩) := by
    intro r
    cases r with
    | error e => rfl
    | ok ts => cases h2 : setSliceTyped xs s ts <;> simp only [bind, Except.bind, h2]
  cases v with
  | storage st =>
    obtain ⟨k, ys⟩ := st
    have hk : k = .list := hs _ rfl
    cases hk; cases hv
    exact hm _
  | typed b => cases hv; exact hm _
  | iterable ys => cases hv; exact hm _
  | other => cases hv

theorem setSlice_good {long : Nat} {memory : Storage ω → List (Val ω)} (hm : ∀ st, Bytes (memory st)) {a b : TypedArray ω} {s : Slice}
    {v : SliceValue ω} (hv : PossibleValue long v) (hg : GoodArray long a) (h : a.setSlice long memory s v = .ok b) :
    GoodArray long b ∧ b.typecode = a.typecode ∧ b.value.kind = a.value.kind := by
  obtain ⟨⟨k, xs⟩, tc⟩ := a
  have key : ∀ {k : Kind} {ts ys : List (Val ω)}, Stored long k xs → Stored long k ts → setSliceTyped xs s ts = .ok ys → Stored long k ys :=
    fun h1 h2 h3 x hx => (setSliceTyped_mem h3 x hx).elim (h1 x) (h2 x)
  rcases step_cases s with h0 | h0
  · obtain ⟨m, hm'⟩ := indices_zero xs.length s h0
    rw [TypedArray.setSlice, Storage.setSlice, hm'] at h
    cases h
  · by_cases hl : k = .list
    · subst hl
      cases hi : v.iterate with
      | none =>
        rw [TypedArray.setSlice, Storage.setSlice, indices_eq _ _ h0] at h
        simp only [bind, Except.bind, hi] at h
        cases h
      | some ts =>
        rw [setSlice_list long memory _ rfl s v ts hi] at h
        simp only at h
        cases h2 : setSliceList xs s ts with
        | error e => rw [h2] at h; cases h
        | ok ys => rw [h2] at h; cases h; exact ⟨fun _ _ => rfl, rfl, rfl⟩
    · have typed : ∀ ts, v = .storage ⟨k, ts⟩ → GoodArray long b ∧ b.typecode = tc ∧ b.value.kind = k := by
        rintro ts rfl
        rw [setSlice_typed long memory ⟨⟨k, xs⟩, tc⟩ hl] at h
        simp only at h
        cases h2 : setSliceTyped xs s ts with
        | error e => rw [h2] at h; cases h
        | ok ys => rw [h2] at h; cases h; exact ⟨key hg hv h2, rfl, rfl⟩
      by_cases hk : ∃ ts, v = .storage ⟨k, ts⟩
      · obtain ⟨ts, e⟩ := hk; exact typed ts e
      · rw [TypedArray.setSlice, Storage.setSlice, indices_eq _ _ h0] at h
        cases k with
        | list => exact absurd rfl hl
        | bytes =>
          have fin : ∀ r : Except PyErr (List (Val ω)), (∀ ts, r = .ok ts → Stored long .bytes ts) → (do
              let st ← (do
                let ts ← r
                let ys ← setSliceTyped xs s ts
                .ok ⟨.bytes, ys⟩ : Except PyErr (Storage ω))
              .ok ⟨st, tc⟩ : Except PyErr (TypedArray ω)) = .ok b → GoodArray long b ∧ b.typecode = tc ∧ b.value.kind = .bytes := by
            intro r hr h
            cases r with
            | error e => cases h
            | ok ts =>
              cases h2 : setSliceTyped xs s ts with
              | error e => simp only [bind, Except.bind, h2] at h; cases h
              | ok ys =>
                simp only [bind, Except.bind, h2] at h
                cases h
                exact ⟨key hg (hr ts rfl) h2, rfl, rfl⟩
          cases v with
          | other => cases h
          | typed c => exact fin _ (fun ts ht => convertAll_stored ht) h
          | iterable c => exact fin _ (fun ts ht => convertAll_stored ht) h
          | storage st =>
            obtain ⟨k, ts⟩ := st
            cases k with
            | list => exact fin _ (fun ts ht => convertAll_stored ht) h
            | bytes => exact absurd ⟨ts, rfl⟩ hk
            | arr c => exact fin (.ok _) (fun ts ht => by cases ht; exact bytes_stored (hm _)) h
            | flt c => exact fin (.ok _) (fun ts ht => by cases ht; exact bytes_stored (hm _)) h
        | arr c =>
          cases v with
          | storage st =>
            obtain ⟨k, ts⟩ := st
            have hne : ¬ k = .arr c := fun e => hk ⟨ts, by rw [e]⟩
            simp only [bind, Except.bind, if_neg hne] at h
            cases h
          | _ => cases h
        | flt c =>
          cases v with
          | storage st =>
            obtain ⟨k, ts⟩ := st
            have hne : ¬ k = .flt c := fun e => hk ⟨ts, by rw [e]⟩
            simp only [bind, Except.bind, if_neg hne] at h
            cases h
          | _ => cases h

theorem sliceEdits_good {long : Nat} {memory : Storage ω → List (Val ω)} (hm : ∀ st, Bytes (memory st)) (es : List (SliceEdit ω)) :
    ∀ {a : TypedArray ω}, (∀ e ∈ es, e.Possible long) → GoodArray long a →
    GoodArray long (es.foldl (SliceEdit.apply long memory) a) ∧ (es.foldl (SliceEdit.apply long memory) a).typecode = a.typecode ∧
      (es.foldl (SliceEdit.apply long memory) a).value.kind = a.value.kind := by
  induction es with
  | nil => intro a _ hg; exact ⟨hg, rfl, rfl⟩
  | cons e es ih =>
    intro a hp hg
    have h1 : GoodArray long (e.apply long memory a) ∧ (e.apply long memory a).typecode = a.typecode ∧
        (e.apply long memory a).value.kind = a.value.kind := by
      have he := hp e List.mem_cons_self
      cases e with
      | edit e => exact edit_good hg e
      | set key value =>
        simp only [SliceEdit.apply]
        split
        · rename_i b hb; exact setSlice_good hm he hg hb
        · exact ⟨hg, rfl, rfl⟩
      | del key =>
        simp only [SliceEdit.apply]
        split
        · rename_i b hb
          rw [TypedArray.delSlice] at hb
          rcases step_cases key with h0 | h0
          · obtain ⟨m, hm'⟩ := positions_zero a.value.items.length key h0
            rw [Builtins.delSlice, hm'] at hb
            cases hb
          · rw [delSlice_eq _ _ h0] at hb
            cases hb
            exact ⟨stored_sub hg (without_mem _ _), rfl, rfl⟩
        · exact ⟨hg, rfl, rfl⟩
    obtain ⟨g1, g2, g3⟩ := ih (fun e he => hp e (List.mem_cons_of_mem _ he)) h1.1
    exact ⟨g1, g2.trans h1.2.1, g3.trans h1.2.2⟩

end Expression.Lemmas
