import Verif.Lemmas.SliceAssign

/-! # C105: assignment to slices of typed arrays -/

namespace Expression.Props

open Builtins Spec Lemmas Arr

variable {ω : Type} [Floats ω]

/-- What the property says: for two arrays of the same type, `a[s] = b` and `a[s] = b[:]` do what the documentation of sequences says. -/
def C105_full_statement : Prop :=
  ∀ (ω : Type) [Floats ω] (long : Nat) (memory : Storage ω → List (Val ω)) (tc : TypeCode) (xs ys : List (Val ω)) (a b : TypedArray ω) (s : Slice),
    init long (.iterable xs) (some tc) = .ok a → init long (.iterable ys) (some tc) = .ok b →
      Assigned a.iter s b.iter ((a.setSlice long memory s (.typed b)).map TypedArray.iter) ∧
      Assigned a.iter s b.iter ((a.setSlice long memory s (.storage b.value)).map TypedArray.iter)

/-- The code violates it: for arrays of 8-bit numbers, `a[0:1] = b` raises `TypeError`. -/
theorem C105_full_statement_false : ¬ C105_full_statement := by
  intro h
  obtain ⟨ys, h1, -⟩ := (h Unit 64 (fun _ => []) .int8 (plainInts [1]) (plainInts [2]) ⟨⟨.arr .b, plainInts [1]⟩, .int8⟩
    ⟨⟨.arr .b, plainInts [2]⟩, .int8⟩ { start := some 0, stop := some 1 } rfl rfl).1.one rfl
  cases h1

/-- With `b[:]` instead of `b` it is violated too: if `b` is empty, `a[i:j:k] = b[:]` deletes the slice of `a` instead of raising
`ValueError`, unless the storage is a list. -/
theorem C105_empty_deletes (long : Nat) (memory : Storage ω → List (Val ω)) (a : TypedArray ω) (ha : a.value.kind ≠ .list) (s : Slice)
    (h1 : stepOf s ≠ 1) : a.setSlice long memory s (.storage ⟨a.value.kind, []⟩) = a.delSlice s := by
  rw [setSlice_typed long memory a ha, TypedArray.delSlice]
  rcases step_cases s with h | h
  · obtain ⟨m, hm⟩ := indices_zero a.value.items.length s h
    rw [setSliceTyped, hm, Builtins.delSlice, Slice.positions, hm]
    rfl
  · rw [setSliceTyped_eq _ _ h, if_neg h1, if_pos List.length_nil, delSlice_eq _ _ h]
    rfl

example : TypedArray.setSlice 64 (fun _ => []) (⟨⟨.arr .b, plainInts [0, 1, 2, 3, 4]⟩, .int8⟩ : TypedArray Unit) { step := some 2 }
    (.storage ⟨.arr .b, []⟩) = .ok ⟨⟨.arr .b, plainInts [1, 3]⟩, .int8⟩ := by decide

/-- Nor does the same type code suffice: of two arrays of 64-bit numbers, the type code of one inferred, neither takes a slice of the
other. -/
theorem C105_int64 (memory : Storage Unit → List (Val Unit)) : ∃ (a b : TypedArray Unit) (st st' : Storage Unit) (m m' : String),
    init 64 (.iterable [.int .int64 5]) none = .ok a ∧ init 64 (.iterable [.int .int64 5]) (some .int64) = .ok b ∧
    a.typecode = b.typecode ∧ a.iter = b.iter ∧ a.getSlice {} = .ok st ∧ b.getSlice {} = .ok st' ∧
    a.setSlice 64 memory {} (.storage st') = .error (.typeError m) ∧ b.setSlice 64 memory {} (.storage st) = .error (.typeError m') :=
  ⟨⟨⟨.arr .l, plainInts [5]⟩, .int64⟩, ⟨⟨.arr .q, plainInts [5]⟩, .int64⟩, ⟨.arr .l, plainInts [5]⟩, ⟨.arr .q, plainInts [5]⟩, _, _,
    rfl, rfl, rfl, rfl, rfl, rfl, rfl, rfl⟩

/-- An array whose storage is a list takes every iterable, and does with it what the documentation says. -/
theorem C105_list_partial (long : Nat) (memory : Storage ω → List (Val ω)) (a : TypedArray ω) (ha : a.value.kind = .list) (s : Slice)
    (v : SliceValue ω) (ts : List (Val ω)) (hv : v.iterate = some ts) :
    Assigned a.iter s ts ((a.setSlice long memory s v).map TypedArray.iter) := by
  rw [setSlice_list long memory a ha s v ts hv]
  have : ∀ r : Except PyErr (List (Val ω)), (r.map (fun ys => ({ a with value := { a.value with items := ys } } : TypedArray ω))).map
      TypedArray.iter = r := fun r => by cases r <;> rfl
  rw [this]
  exact setSliceList_assigned _ _ _

/-- Every array takes what the slice of an array with the same storage gives, and does with it what the documentation says, unless that is
empty and the step is not 1. -/
theorem C105_same_storage_partial (long : Nat) (memory : Storage ω → List (Val ω)) (a : TypedArray ω) (s : Slice) (st : Storage ω)
    (hk : st.kind = a.value.kind) (hn : st.items ≠ [] ∨ stepOf s = 1 ∨ st.kind = .list) :
    Assigned a.iter s st.items ((a.setSlice long memory s (.storage st)).map TypedArray.iter) := by
  by_cases hl : a.value.kind = .list
  · exact C105_list_partial long memory a hl s (.storage st) st.items rfl
  · obtain ⟨k, ts⟩ := st
    cases hk
    rw [setSlice_typed long memory a hl]
    have : ∀ r : Except PyErr (List (Val ω)), (r.map (fun ys => ({ a with value := { a.value with items := ys } } : TypedArray ω))).map
        TypedArray.iter = r := fun r => by cases r <;> rfl
    rw [this]
    exact setSliceTyped_assigned _ _ _ (hn.imp id (fun h => h.elim id (fun h => absurd h hl)))

/-- An array of numbers with another storage than a list or a `bytearray` takes nothing else: `TypeError`, and the array stays as it
is. -/
theorem C105_array_refuses (long : Nat) (memory : Storage ω → List (Val ω)) (a : TypedArray ω) (hl : a.value.kind ≠ .list)
    (hb : a.value.kind ≠ .bytes) (s : Slice) (h : stepOf s ≠ 0) (v : SliceValue ω) (hv : ∀ st, v = .storage st → st.kind ≠ a.value.kind) :
    ∃ m, a.setSlice long memory s v = .error (.typeError m) := by
  obtain ⟨⟨k, xs⟩, tc⟩ := a
  rw [TypedArray.setSlice, Storage.setSlice, indices_eq _ _ h]
  cases k with
  | list => exact absurd rfl hl
  | bytes => exact absurd rfl hb
  | arr c =>
    cases v with
    | storage st =>
      simp only [bind, Except.bind, if_neg (hv st rfl)]
      exact ⟨_, rfl⟩
    | _ => exact ⟨_, rfl⟩
  | flt c =>
    cases v with
    | storage st =>
      simp only [bind, Except.bind, if_neg (hv st rfl)]
      exact ⟨_, rfl⟩
    | _ => exact ⟨_, rfl⟩

/-- A list or a `bytearray` does not take what is not iterable. -/
theorem C105_not_iterable (long : Nat) (memory : Storage ω → List (Val ω)) (a : TypedArray ω) (s : Slice) (h : stepOf s ≠ 0) :
    ∃ m, a.setSlice long memory s .other = .error (.typeError m) := by
  obtain ⟨⟨k, xs⟩, tc⟩ := a
  rw [TypedArray.setSlice, Storage.setSlice, indices_eq _ _ h]
  cases k <;> exact ⟨_, rfl⟩

/-- An array of bytes takes every list, typed array or other iterable of integers in `0 .. 255` (not empty, unless the step is 1), and
does with them what the documentation says. -/
theorem C105_bytes_partial (long : Nat) (memory : Storage ω → List (Val ω)) (a : TypedArray ω) (ha : a.value.kind = .bytes) (s : Slice)
    (v : SliceValue ω) (hs : ∀ st, v = .storage st → st.kind = .list) (ns : List (IntClass × Int)) (hv : v.iterate = some (intObjects ns))
    (hb : ∀ p ∈ ns, 0 ≤ p.2 ∧ p.2 ≤ 255) (hn : ns ≠ [] ∨ stepOf s = 1) :
    Assigned a.iter s (plainInts (ns.map Prod.snd)) ((a.setSlice long memory s v).map TypedArray.iter) := by
  rcases step_cases s with h | h
  · obtain ⟨m, hm⟩ := indices_zero a.value.items.length s h
    rw [TypedArray.setSlice, Storage.setSlice, hm]
    exact ⟨fun _ => ⟨m, rfl⟩, fun h1 => by omega, fun h1 => absurd h h1, fun h1 => absurd h h1⟩
  · rw [setSlice_bytes long memory a ha s h v _ hv hs,
      convertAll_ok (r := (0, 255)) ns (fun c n => by simp [convert]) hb]
    have : ∀ r : Except PyErr (List (Val ω)), Except.map TypedArray.iter (do
        let ys ← r
        .ok ({ a with value := { a.value with items := ys } } : TypedArray ω) : Except PyErr (TypedArray ω)) = r :=
      fun r => by cases r <;> rfl
    have e := this (setSliceTyped a.value.items s (plainInts (ns.map Prod.snd)))
    refine e ▸ setSliceTyped_assigned _ _ _ (hn.imp (fun hn => ?_) id)
    cases ns with
    | nil => exact absurd rfl hn
    | cons p ns => intro h; cases h

/-- At the first that is no byte it raises `ValueError`, or `TypeError` if that is no integer, and stays as it is. -/
theorem C105_bytes_refuses (long : Nat) (memory : Storage ω → List (Val ω)) (a : TypedArray ω) (ha : a.value.kind = .bytes) (s : Slice)
    (h : stepOf s ≠ 0) (v : SliceValue ω) (hs : ∀ st, v = .storage st → st.kind = .list) (ns : List (IntClass × Int)) (x : Val ω)
    (rest : List (Val ω)) (hv : v.iterate = some (intObjects ns ++ x :: rest)) (hb : ∀ p ∈ ns, 0 ≤ p.2 ∧ p.2 ≤ 255) :
    (∀ c n, x = .int c n → n < 0 ∨ 255 < n → ∃ m, a.setSlice long memory s v = .error (.valueError m)) ∧
    (∀ o, x = .obj o → ∃ m, a.setSlice long memory s v = .error (.typeError m)) := by
  have key : ∀ e, convert long .bytes x = .error e → a.setSlice long memory s v = .error e := by
    intro e he
    rw [setSlice_bytes long memory a ha s h v _ hv hs,
      convertAll_bad (r := (0, 255)) ns x rest e (fun c n => by simp [convert]) hb he]
    rfl
  constructor
  · rintro c n rfl hn
    exact ⟨_, key _ (by rw [convert, if_neg]; rw [within_iff]; omega)⟩
  · rintro o rfl
    exact ⟨_, key _ rfl⟩

/-- Reading the slice after assigning to it gives what was assigned; for a step of 1 and another number of items, reading as many from
where the slice begins. -/
theorem C105_read_back (long : Nat) (memory : Storage ω → List (Val ω)) (a b : TypedArray ω) (s : Slice) (st : Storage ω)
    (hk : st.kind = a.value.kind) (hn : st.items ≠ [] ∨ stepOf s = 1 ∨ st.kind = .list)
    (hb : a.setSlice long memory s (.storage st) = .ok b) :
    (stepOf s ≠ 1 → b.getSlice s = .ok st) ∧
    (stepOf s = 1 → b.getSlice { start := some (startOf a.len s), stop := some (startOf a.len s + st.items.length) } = .ok st) := by
  have ha := C105_same_storage_partial long memory a s st hk hn
  have hbk : b.value.kind = st.kind := by
    obtain ⟨k, ts⟩ := st
    cases hk
    by_cases hl : a.value.kind = .list
    · rw [setSlice_list long memory a hl s _ ts rfl] at hb
      rcases h2 : setSliceList a.value.items s ts with e | ys <;> rw [h2] at hb <;> cases hb
      rfl
    · rw [setSlice_typed long memory a hl] at hb
      rcases h2 : setSliceTyped a.value.items s ts with e | ys <;> rw [h2] at hb <;> cases hb
      rfl
  rw [hb] at ha
  have fin : ∀ s', stepOf s' ≠ 0 → Sliced b.iter s' st.items → b.getSlice s' = .ok st := by
    intro s' h' hs
    have e : Builtins.getSlice b.value.items s' = .ok st.items := getSlice_eq h' hs
    rw [TypedArray.getSlice, e]
    show Except.ok (⟨b.value.kind, st.items⟩ : Storage ω) = _
    rw [hbk]
  constructor
  · intro h1
    by_cases h0 : stepOf s = 0
    · obtain ⟨m, hm⟩ := ha.zero h0; cases hm
    · by_cases hs : SizeIs a.iter.length s st.items.length
      · obtain ⟨ys, e, g⟩ := ha.same_size h0 h1 hs
        cases e
        exact fin s h0 (overwritten_sliced hs g)
      · obtain ⟨m, hm⟩ := ha.other_size h0 h1 hs; cases hm
  · intro h1
    obtain ⟨ys, e, g⟩ := ha.one h1
    cases e
    exact fin _ (show (1 : Int) ≠ 0 by decide) (spliced_read h1 g)

/-- Assigning a slice of an array to itself changes nothing, whatever the storage and the slice. -/
theorem C105_own (long : Nat) (memory : Storage ω → List (Val ω)) (a : TypedArray ω) (s : Slice) (st : Storage ω)
    (h : a.getSlice s = .ok st) : a.setSlice long memory s (.storage st) = .ok a := by
  obtain ⟨⟨k, xs⟩, tc⟩ := a
  rcases step_cases s with h0 | h0
  · obtain ⟨m, hm⟩ := positions_zero xs.length s h0
    rw [TypedArray.getSlice, Builtins.getSlice, hm] at h
    cases h
  · obtain ⟨ts, e, g⟩ := getSlice_sliced xs s h0
    rw [TypedArray.getSlice, e] at h
    cases h
    by_cases hl : k = .list
    · subst hl
      rw [setSlice_list long memory ⟨⟨.list, xs⟩, tc⟩ rfl s _ ts rfl]
      simp only [setSliceList_own h0 g]
      rfl
    · rw [setSlice_typed long memory ⟨⟨k, xs⟩, tc⟩ hl]
      simp only [setSliceTyped_own h0 g]
      rfl

/-- The documentation determines the outcome. -/
theorem C105_unique {α : Type} {xs ts ys zs : List α} {s : Slice} :
    (Spliced xs s ts ys → Spliced xs s ts zs → ys = zs) ∧ (Overwritten xs s ts ys → Overwritten xs s ts zs → ys = zs) :=
  ⟨spliced_unique, overwritten_unique⟩

/-- After any history of edits, also of slices, successful or not, every element of an array made with an integer type code is a number in
its range, and the type code is still the same. -/
theorem C105_always_in_range {long : Nat} (hl : long = 32 ∨ long = 64) {tc : TypeCode} {lo hi : Int}
    (htc : enforced long tc = some (lo, hi)) {i : Init ω} (hi' : PossibleInit i) {a : TypedArray ω}
    (h : init long i (some tc) = .ok a) (memory : Storage ω → List (Val ω)) (hm : ∀ st, Bytes (memory st))
    (es : List (SliceEdit ω)) (hes : ∀ e ∈ es, e.Possible long) :
    (∀ x ∈ (es.foldl (SliceEdit.apply long memory) a).iter, ∃ n : Int, x = .int .plain n ∧ lo ≤ n ∧ n ≤ hi) ∧
      (es.foldl (SliceEdit.apply long memory) a).typecode = tc := by
  obtain ⟨g1, g2, g3⟩ := sliceEdits_good hm es hes (init_good hi' h)
  rw [init_typecode] at h
  split at h
  · cases h
  · cases h
    refine ⟨fun x hx => ?_, g2⟩
    have hx' := g1 x hx
    rw [g3] at hx'
    simp only at hx'
    cases x with
    | obj o => cases tc <;> first | (cases hx'; done) | (cases htc; done)
    | int c n =>
      rw [convert_enforced hl htc] at hx'
      split at hx'
      · rename_i hw
        cases hx'
        exact ⟨n, rfl, (within_iff _ _).1 hw⟩
      · cases hx'

/-! Cases that meet the hypotheses. -/

example : TypedArray.setSlice 64 (fun _ => []) (⟨⟨.arr .b, plainInts [0, 1, 2, 3, 4]⟩, .int8⟩ : TypedArray Unit)
    { start := some 3, stop := some 1 } (.storage ⟨.arr .b, plainInts [7, 8]⟩) =
    .ok ⟨⟨.arr .b, plainInts [0, 1, 2, 7, 8, 3, 4]⟩, .int8⟩ := by decide
example : TypedArray.setSlice 64 (fun _ => []) (⟨⟨.arr .b, plainInts [0, 1, 2, 3, 4]⟩, .int8⟩ : TypedArray Unit)
    { start := some (-1), step := some (-2) } (.storage ⟨.arr .b, plainInts [7, 8, 9]⟩) =
    .ok ⟨⟨.arr .b, plainInts [9, 1, 8, 3, 7]⟩, .int8⟩ := by decide
example : TypedArray.setSlice 64 (fun _ => []) (⟨⟨.list, plainInts [0, 1, 2, 3]⟩, .any⟩ : TypedArray Unit)
    { start := some 1, stop := some 3 } (.typed ⟨⟨.arr .b, plainInts [9]⟩, .int8⟩) = .ok ⟨⟨.list, plainInts [0, 9, 3]⟩, .any⟩ := by decide
example : TypedArray.setSlice 64 (fun _ => []) (⟨⟨.bytes, plainInts [0, 1, 2]⟩, .byte⟩ : TypedArray Unit)
    { start := some 1 } (.iterable (plainInts [255])) = .ok ⟨⟨.bytes, plainInts [0, 255]⟩, .byte⟩ := by decide
example : ([.set { stop := some 1 } (.storage ⟨.arr .b, plainInts [5, 6]⟩), .set {} (.iterable (plainInts [300])), .del { step := some 2 },
    .edit (.append (.int .plain 200))].foldl (SliceEdit.apply 64 (fun _ => []))
    (⟨⟨.arr .b, plainInts [0, 1, 2]⟩, .int8⟩ : TypedArray Unit)).iter = plainInts [6, 2] := by decide

end Expression.Props
