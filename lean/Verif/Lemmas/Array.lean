import Verif.Spec.Array
import Verif.Lemmas.Block

namespace Expression.Lemmas

open Arr Builtins Spec

variable {ω σ : Type} [Floats ω]

theorem within_iff (r : Int × Int) (n : Int) : within r n = true ↔ r.1 ≤ n ∧ n ≤ r.2 := by simp [within]

/-- stored objects are read back unchanged, so storing them again changes nothing -/
theorem convert_idem {long : Nat} {kind : Kind} {v v' : Val ω} (h : convert long kind v = .ok v') :
    convert long kind v' = .ok v' := by
  have hs : ∀ (c : FloatCode) (o : ω), (Floats.cls o).isSome → convert long (.flt c) (.obj (c.store o)) = .ok (.obj (c.store o)) := by
    intro c o ho
    cases c
    · simp only [convert, FloatCode.store, Floats.cls_single o ho, Floats.single_single o ho]; rfl
    · simp only [convert, FloatCode.store, Floats.cls_double o ho, Floats.double_double o ho]; rfl
  cases kind <;> cases v <;> simp only [convert] at h
  · rfl
  · rfl
  · split at h
    · cases h; rename_i hw; simp [convert, hw]
    · cases h
  · cases h
  · split at h
    · cases h; rename_i hw; simp [convert, hw]
    · cases h
  · cases h
  · split at h
    · rename_i o ho
      cases h
      exact hs _ o (by rw [Floats.cls_ofInt _ _ ho]; rfl)
    · cases h
  · split at h
    · rename_i ho
      cases h
      exact hs _ _ ho
    · cases h

theorem convertAll_nil (long : Nat) (kind : Kind) : convertAll long kind ([] : List (Val ω)) = .ok [] := rfl

theorem convertAll_cons (long : Nat) (kind : Kind) (v : Val ω) (vs : List (Val ω)) :
    convertAll long kind (v :: vs) = (match convert long kind v with
      | .error e => .error e
      | .ok v' => match convertAll long kind vs with
        | .error e => .error e
        | .ok vs' => .ok (v' :: vs')) := by
  rw [convertAll]
  rcases convert long kind v with e | v'
  · rfl
  · rcases h : convertAll long kind vs with e | vs'
    · simp only [bind, Except.bind]
    · simp only [bind, Except.bind]

/-- every element can be stored as it is -/
def Stored (long : Nat) (kind : Kind) (xs : List (Val ω)) : Prop := ∀ x ∈ xs, convert long kind x = .ok x

theorem convertAll_stored {long : Nat} {kind : Kind} {xs ys : List (Val ω)} (h : convertAll long kind xs = .ok ys) :
    Stored long kind ys := by
  induction xs generalizing ys with
  | nil => cases h; intro x hx; cases hx
  | cons v vs ih =>
    rw [convertAll_cons] at h
    split at h
    · cases h
    · rename_i v' hv
      split at h
      · cases h
      · rename_i vs' hvs
        cases h
        intro x hx
        rcases List.mem_cons.1 hx with rfl | hx
        · exact convert_idem hv
        · exact ih hvs x hx

theorem convertAll_of_stored {long : Nat} {kind : Kind} {xs : List (Val ω)} (h : Stored long kind xs) :
    convertAll long kind xs = .ok xs := by
  induction xs with
  | nil => rfl
  | cons v vs ih =>
    rw [convertAll_cons, h v (by simp), ih (fun x hx => h x (by simp [hx]))]

theorem convertAll_list (long : Nat) (xs : List (Val ω)) : convertAll long .list xs = .ok xs :=
  convertAll_of_stored (fun _ _ => rfl)

theorem convertAll_ok {long : Nat} {kind : Kind} {r : Int × Int} (ns : List (IntClass × Int))
    (hk : ∀ c n, convert (ω := ω) long kind (.int c n) =
      if within r n then .ok (.int .plain n) else .error (if kind = .bytes then .valueError "byte must be in range(0, 256)" else .overflowError))
    (h : ∀ p ∈ ns, r.1 ≤ p.2 ∧ p.2 ≤ r.2) :
    convertAll long kind (intObjects ns : List (Val ω)) = .ok (plainInts (ns.map Prod.snd)) := by
  induction ns with
  | nil => rfl
  | cons p ns ih =>
    have hp := (within_iff r p.2).2 (h p (by simp))
    have := ih (fun q hq => h q (by simp [hq]))
    simp only [intObjects, plainInts, List.map_cons] at this ⊢
    rw [convertAll_cons, hk, if_pos hp, this]

theorem convertAll_bad {long : Nat} {kind : Kind} {r : Int × Int} (ns : List (IntClass × Int)) (x : Val ω) (rest : List (Val ω))
    (e : PyErr)
    (hk : ∀ c n, convert (ω := ω) long kind (.int c n) =
      if within r n then .ok (.int .plain n) else .error (if kind = .bytes then .valueError "byte must be in range(0, 256)" else .overflowError))
    (h : ∀ p ∈ ns, r.1 ≤ p.2 ∧ p.2 ≤ r.2) (hx : convert long kind x = .error e) :
    convertAll long kind (intObjects ns ++ x :: rest) = .error e := by
  induction ns with
  | nil => simp only [intObjects, List.map_nil, List.nil_append]; rw [convertAll_cons, hx]
  | cons p ns ih =>
    have hp := (within_iff r p.2).2 (h p (by simp))
    have := ih (fun q hq => h q (by simp [hq]))
    simp only [intObjects, List.map_cons, List.cons_append] at this ⊢
    rw [convertAll_cons, hk, if_pos hp, this]

theorem build_eq (long : Nat) (kind : Kind) (xs : List (Val ω)) :
    build long kind xs = (match convertAll long kind xs with
      | .error e => .error e
      | .ok ys => .ok ⟨kind, ys⟩) := by
  rw [build]
  rcases convertAll long kind xs with e | ys <;> rfl

theorem init_typecode (long : Nat) (i : Init ω) (tc : TypeCode) :
    init long i (some tc) = (match convertAll long tc.kind i.elems with
      | .error e => .error e
      | .ok ys => .ok ⟨⟨tc.kind, ys⟩, tc⟩) := by
  simp only [init, arrayFromTypecode, build_eq]
  rcases convertAll long tc.kind i.elems with e | ys <;> rfl

theorem init_first (long : Nat) (x : Val ω) (rest : List (Val ω)) :
    init long (.iterable (x :: rest)) none = (match convertAll long x.inferred.1 (x :: rest) with
      | .error e => .error e
      | .ok ys => .ok ⟨⟨x.inferred.1, ys⟩, x.inferred.2⟩) := by
  simp only [init, arrayFromInitializer, build_eq]
  rcases convertAll long x.inferred.1 (x :: rest) with e | ys <;> rfl

theorem inferred_unsized {x : Val ω} (h : ¬ Sized x) : x.inferred = (.list, .any) := by
  cases x with
  | int c n =>
    have : c = .plain := Classical.not_not.1 h
    subst this; rfl
  | obj o =>
    simp only [Val.inferred]
    cases hc : Floats.cls o with
    | none => rfl
    | some c =>
      have : c = .plain := Classical.not_not.1 (fun hn => h ⟨c, hc, hn⟩)
      subst this; rfl

/-- an iterable whose first element is not an object of one of the sized classes becomes a list -/
theorem init_list (long : Nat) (xs : List (Val ω)) (h : ∀ x, xs.head? = some x → ¬ Sized x) :
    init long (.iterable xs) none = .ok ⟨⟨.list, xs⟩, .any⟩ := by
  cases xs with
  | nil => rfl
  | cons x rest =>
    rw [init_first, inferred_unsized (h x rfl)]
    simp only [convertAll_list]

/-- what every array satisfies: its elements can be stored as they are -/
def GoodArray (long : Nat) (a : TypedArray ω) : Prop := Stored long a.value.kind a.value.items

theorem bytes_stored {long : Nat} {xs : List (Val ω)} (h : Bytes xs) : Stored long .bytes xs := by
  intro x hx
  obtain ⟨n, rfl, h1, h2⟩ := h x hx
  simp [convert, (within_iff (0, 255) n).2 ⟨h1, h2⟩]

theorem init_good {long : Nat} {i : Init ω} {tc : Option TypeCode} {a : TypedArray ω} (hi : PossibleInit i)
    (h : init long i tc = .ok a) : GoodArray long a := by
  cases tc with
  | some tc =>
    rw [init_typecode] at h
    split at h
    · cases h
    · rename_i ys hy; cases h; exact convertAll_stored hy
  | none =>
    cases i with
    | bytearray xs => cases h; exact bytes_stored hi
    | bytes xs => cases h; exact bytes_stored hi
    | iterable xs =>
      cases xs with
      | nil => cases h; intro x hx; cases hx
      | cons x rest =>
        rw [init_first] at h
        split at h
        · cases h
        · rename_i ys hy; cases h; exact convertAll_stored hy

theorem stored_unsized {long : Nat} {kind : Kind} {xs : List (Val ω)} (hk : kind ≠ .list) (h : Stored long kind xs) :
    Unsized xs := by
  intro x hx hs
  have := h _ hx
  cases x with
  | int c n =>
    refine hs ?_
    cases kind with
    | list => exact absurd rfl hk
    | bytes =>
      simp only [convert] at this
      split at this
      · cases this; rfl
      · cases this
    | arr =>
      simp only [convert] at this
      split at this
      · cases this; rfl
      · cases this
    | flt =>
      simp only [convert] at this
      split at this <;> cases this
  | obj o =>
    obtain ⟨c, hc, hn⟩ := hs
    cases kind with
    | list => exact absurd rfl hk
    | bytes => cases this
    | arr => cases this
    | flt fc =>
      have ho : (Floats.cls o).isSome := by rw [hc]; rfl
      simp only [convert, if_pos ho, Except.ok.injEq, Val.obj.injEq] at this
      have h2 : Floats.cls (fc.store o) = some .plain := by
        cases fc
        · exact Floats.cls_single o ho
        · exact Floats.cls_double o ho
      rw [this, hc] at h2
      exact hn (Option.some.inj h2)

theorem unsized_sub {xs ys : List (Val ω)} (h : Unsized xs) (hs : ∀ x ∈ ys, x ∈ xs) : Unsized ys :=
  fun x hx => h x (hs _ hx)

theorem init_unsized (long : Nat) {xs : List (Val ω)} (h : Unsized xs) :
    init long (.iterable xs) none = .ok ⟨⟨.list, xs⟩, .any⟩ :=
  init_list long xs (fun x hx => h x (List.mem_of_mem_head? hx))

theorem ofStorage_unsized (long : Nat) (st : Storage ω) (h : Unsized st.items) :
    TypedArray.ofStorage long st = .ok ⟨⟨if st.kind = .bytes then .bytes else .list, st.items⟩,
      if st.kind = .bytes then .byte else .any⟩ := by
  rcases st with ⟨kind, items⟩
  cases kind with
  | bytes => rfl
  | list => simpa [TypedArray.ofStorage] using init_unsized long h
  | arr c => simpa [TypedArray.ofStorage] using init_unsized long h
  | flt c => simpa [TypedArray.ofStorage] using init_unsized long h

/-! ### Edits -/

theorem adjust_means (len : Nat) (i : Int) : InsertMeans len i (adjustIndex len i) := by
  unfold InsertMeans adjustIndex
  split <;> omega

theorem position_eq (len : Nat) (i : Int) : TypedArray.position len i =
    if 0 ≤ i ∧ i < len then .ok i.toNat else if i < 0 ∧ 0 ≤ i + len then .ok (i + len).toNat else .error .indexError := by
  unfold TypedArray.position
  rcases Int.lt_or_le i 0 with h | h
  · simp only [if_pos h]
    rw [if_neg (show ¬ (0 ≤ i ∧ i < len) by omega)]
    rcases Int.lt_or_le (i + len) 0 with h2 | h2
    · rw [if_pos (by omega), if_neg (by omega)]
    · rw [if_neg (by omega), if_pos (by omega)]
  · simp only [if_neg (Int.not_lt.2 h)]
    rcases Int.lt_or_le i len with h2 | h2
    · rw [if_neg (by omega), if_pos (by omega)]
    · rw [if_pos (by omega), if_neg (by omega), if_neg (by omega)]

theorem position_ok {len : Nat} {i : Int} {k : Nat} : TypedArray.position len i = .ok k ↔ IndexMeans len i k := by
  rw [position_eq, IndexMeans]
  split
  · simp only [Except.ok.injEq]; omega
  · split
    · simp only [Except.ok.injEq]; omega
    · simp only [reduceCtorEq, false_iff]; omega

theorem position_error {len : Nat} {i : Int} {e : PyErr} :
    TypedArray.position len i = .error e ↔ e = .indexError ∧ ∀ k, ¬ IndexMeans len i k := by
  rcases h1 : TypedArray.position len i with e' | k
  · have h2 : ∀ k, ¬ IndexMeans len i k := fun k hk => by rw [position_ok.2 hk] at h1; cases h1
    rw [position_eq] at h1
    split at h1
    · cases h1
    · split at h1
      · cases h1
      · cases h1; simp [h2, eq_comm]
  · simp only [reduceCtorEq, false_iff, not_and, Classical.not_forall, Classical.not_not]
    exact fun _ => ⟨k, position_ok.1 h1⟩

theorem inserted_take_drop {α : Type} (xs : List α) (k : Nat) (v : α) (hk : k ≤ xs.length) :
    Inserted xs k v (xs.take k ++ v :: xs.drop k) := by
  have hl : (xs.take k).length = k := by simp [hk]
  refine ⟨by simp; omega, ?_, ?_, ?_⟩
  · rw [List.getElem?_append_right (by omega), hl]; simp
  · intro j hj
    rw [List.getElem?_append_left (by omega), List.getElem?_take_of_lt hj]
  · intro j hj
    rw [List.getElem?_append_right (by omega), hl, show j + 1 - k = (j - k) + 1 by omega, List.getElem?_cons_succ,
      List.getElem?_drop]
    congr 1; omega

theorem replaced_set {α : Type} (xs : List α) (k : Nat) (v : α) (hk : k < xs.length) : Replaced xs k v (xs.set k v) := by
  refine ⟨by simp, by simp [hk], fun j hj => ?_⟩
  rw [List.getElem?_set_ne (Ne.symm hj)]

theorem deleted_eraseIdx {α : Type} (xs : List α) (k : Nat) (hk : k < xs.length) : Deleted xs k (xs.eraseIdx k) := by
  refine ⟨by rw [List.length_eraseIdx]; split <;> omega, fun j hj => ?_, fun j hj => ?_⟩
  · rw [List.getElem?_eraseIdx]; simp [hj]
  · rw [List.getElem?_eraseIdx]; simp [Nat.not_lt.2 hj]

theorem adjust_le (len : Nat) (i : Int) : adjustIndex len i ≤ len := by
  unfold adjustIndex; split <;> omega

end Expression.Lemmas
