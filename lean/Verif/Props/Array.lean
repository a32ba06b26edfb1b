import Verif.Lemmas.Array2

/-!
# Properties of `TypedArray` (C56, C67 - C72)

`long` is the number of bits of a C `long`: 32 on Windows, 64 on Linux and macOS.  `ω` is the type of all objects that are not
integers.
-/

namespace Expression.Props

open Arr Spec Lemmas

variable {ω σ S : Type} [Floats ω]

/-! ## C56 what is stored -/

/-- What the property says: with a type code, or with objects of a sized class, the array is made exactly when all numbers fit
the range that the type's name says, otherwise `OverflowError`. -/
def C56_full_statement (long : Nat) : Prop :=
  (∀ (ω : Type) [Floats ω] (tc : TypeCode) (lo hi : Int), declared tc = some (lo, hi) → ∀ ns : List Int,
    ((∀ n ∈ ns, lo ≤ n ∧ n ≤ hi) → ∃ a : TypedArray ω, init long (.iterable (plainInts ns)) (some tc) = .ok a ∧
      a.iter = plainInts ns ∧ a.typecode = tc) ∧
    ((∃ n ∈ ns, n < lo ∨ hi < n) →
      (init long (.iterable (plainInts ns)) (some tc) : Except PyErr (TypedArray ω)) = .error .overflowError)) ∧
  (∀ (ω : Type) [Floats ω] (cls : IntClass) (tc : TypeCode) (lo hi : Int), named cls = some tc → declared tc = some (lo, hi) →
    ∀ ns : List Int, ns ≠ [] →
    ((∀ n ∈ ns, lo ≤ n ∧ n ≤ hi) → ∃ a : TypedArray ω,
      init long (.iterable (ns.map (fun n => .int cls n))) none = .ok a ∧ a.iter = plainInts ns ∧ a.typecode = tc) ∧
    ((∃ n ∈ ns, n < lo ∨ hi < n) →
      (init long (.iterable (ns.map (fun n => .int cls n))) none : Except PyErr (TypedArray ω)) = .error .overflowError))

/-- The code violates it on every platform: where a C `long` has 64 bits, `TypeCode.Int32` accepts `2**40`; where it has 32
bits, an array of `int64` objects refuses `2**40`. -/
theorem C56_full_statement_false (long : Nat) (h : long = 32 ∨ long = 64) : ¬ C56_full_statement long := by
  rintro ⟨h1, h2⟩
  rcases h with rfl | rfl
  · obtain ⟨a, ha, _⟩ := (h2 Unit .int64 .int64 _ _ rfl rfl [1099511627776] (by simp)).1 (by decide)
    cases ha
  · have := (h1 Unit .int32 _ _ rfl [1099511627776]).2 ⟨_, List.mem_singleton.2 rfl, by decide⟩
    cases this

/-- On no platform either does a `Byte` array raise `OverflowError`: it raises `ValueError`. -/
theorem C56_byte_value_error (long : Nat) (ns : List (IntClass × Int)) (x : Val ω) (rest : List (Val ω))
    (hns : ∀ p ∈ ns, 0 ≤ p.2 ∧ p.2 ≤ 255) (c : IntClass) (n : Int) (hx : x = .int c n) (hn : n < 0 ∨ 255 < n) :
    (init long (.iterable (intObjects ns ++ x :: rest)) (some .byte) : Except PyErr (TypedArray ω)) =
      .error (.valueError "byte must be in range(0, 256)") := by
  rw [init_typecode]
  simp only [Init.elems, TypeCode.kind]
  rw [convertAll_bad (r := (0, 255)) ns x rest _ (fun c n => by simp [convert]) hns (by
    subst hx
    rw [convert, if_neg]
    rw [within_iff]
    omega)]

/-- With a type code: if all the integer objects fit, they are stored, and read back as plain `int`s with the same values in the
same order. -/
theorem C56_stored_partial {long : Nat} (hl : long = 32 ∨ long = 64) (tc : TypeCode) (lo hi : Int)
    (htc : enforced long tc = some (lo, hi)) (ns : List (IntClass × Int)) (h : ∀ p ∈ ns, lo ≤ p.2 ∧ p.2 ≤ hi) :
    ∃ a : TypedArray ω, init long (.iterable (intObjects ns)) (some tc) = .ok a ∧ a.iter = plainInts (ns.map Prod.snd) ∧
      a.typecode = tc := by
  refine ⟨⟨⟨tc.kind, plainInts (ns.map Prod.snd)⟩, tc⟩, ?_, rfl, rfl⟩
  rw [init_typecode]
  simp only [Init.elems]
  rw [convertAll_ok (r := (lo, hi)) ns (convert_enforced hl htc) h]

/-- Otherwise there is a first element that does not fit, and it decides: `OverflowError` for a number out of range (`ValueError`
if the type code is `Byte`), `TypeError` for an object that is not an integer.  What follows it does not matter. -/
theorem C56_refused_partial {long : Nat} (hl : long = 32 ∨ long = 64) (tc : TypeCode) (lo hi : Int)
    (htc : enforced long tc = some (lo, hi)) (ns : List (IntClass × Int)) (h : ∀ p ∈ ns, lo ≤ p.2 ∧ p.2 ≤ hi)
    (rest : List (Val ω)) :
    (∀ c n, n < lo ∨ hi < n → tc ≠ .byte →
      init long (.iterable (intObjects ns ++ .int c n :: rest)) (some tc) = (.error .overflowError : Except PyErr (TypedArray ω))) ∧
    (∀ o, ∃ msg, init long (.iterable (intObjects ns ++ .obj o :: rest)) (some tc) =
      (.error (.typeError msg) : Except PyErr (TypedArray ω))) := by
  constructor
  · intro c n hn hb
    rw [init_typecode]
    simp only [Init.elems]
    rw [convertAll_bad (r := (lo, hi)) ns _ rest .overflowError (convert_enforced hl htc) h]
    rw [convert_enforced hl htc, if_neg (by rw [within_iff]; simp only; omega), if_neg]
    cases tc <;> first | exact absurd rfl hb | (intro hk; cases hk)
  · intro o
    have : ∃ msg, convert long tc.kind (Val.obj o : Val ω) = .error (.typeError msg) := by
      cases tc <;> first | exact ⟨_, rfl⟩ | (cases htc; done)
    obtain ⟨msg, hm⟩ := this
    refine ⟨msg, ?_⟩
    rw [init_typecode]
    simp only [Init.elems]
    rw [convertAll_bad (r := (lo, hi)) ns _ rest _ (convert_enforced hl htc) h hm]

/-- For the names whose range is enforced as declared, these two theorems are the property. -/
theorem C56_enforced_declared (long : Nat) (tc : TypeCode) (h : long = 32 ∨ (tc ≠ .int32 ∧ tc ≠ .uint32)) :
    enforced long tc = declared tc := by
  rcases h with rfl | ⟨h1, h2⟩
  · cases tc <;> rfl
  · cases tc <;> first | rfl | exact absurd rfl h1 | exact absurd rfl h2

/-- Without a type code and with a first element of a sized class, the result is as with the type code that the class names;
except for `int64` where a C `long` has 32 bits. -/
theorem C56_inferred_partial {long : Nat} (hl : long = 32 ∨ long = 64) (x : Val ω) (tc : TypeCode)
    (hx : (∃ cls n, x = .int cls n ∧ named cls = some tc ∧ (long = 32 → cls ≠ .int64)) ∨
      (∃ cls o, x = .obj o ∧ Floats.cls o = some cls ∧ namedFloat cls = some tc)) (rest : List (Val ω)) :
    match init long (.iterable (x :: rest)) none, init long (.iterable (x :: rest)) (some tc) with
    | .ok a, .ok b => a.iter = b.iter ∧ a.typecode = tc ∧ b.typecode = tc
    | .error e, .error e' => e = e'
    | _, _ => False := by
  rw [init_first, init_typecode]
  simp only [Init.elems]
  have hc : convertAll long x.inferred.1 (x :: rest) = convertAll (ω := ω) long tc.kind (x :: rest) ∧ x.inferred.2 = tc := by
    rcases hx with ⟨cls, n, rfl, hcls, h64⟩ | ⟨cls, o, rfl, ho, hcls⟩
    · cases cls <;> cases hcls <;> refine ⟨?_, rfl⟩ <;> try rfl
      rcases hl with rfl | rfl
      · exact absurd rfl (h64 rfl)
      · have : ∀ v : Val ω, convert 64 (.arr .l) v = convert 64 (.arr .q) v := by
          intro v; cases v <;> rfl
        have hall : ∀ xs : List (Val ω), convertAll 64 (.arr .l) xs = convertAll 64 (.arr .q) xs := by
          intro xs
          induction xs with
          | nil => rfl
          | cons x xs ih => rw [convertAll_cons, convertAll_cons, this, ih]
        exact hall _
    · have : (Val.obj o : Val ω).inferred = cls.inferred := by simp only [Val.inferred, ho]
      rw [this]
      cases cls <;> cases hcls <;> exact ⟨rfl, rfl⟩
  rw [hc.1, hc.2]
  rcases convertAll long tc.kind (x :: rest) with e | ys
  · rfl
  · exact ⟨rfl, rfl, rfl⟩

/-- Any other iterable is kept as a list: the very objects, in order, whatever they are. -/
theorem C56_any (long : Nat) (xs : List (Val ω)) (h : ∀ x, xs.head? = some x → ¬ Sized x) :
    ∃ a, init long (.iterable xs) none = .ok a ∧ a.iter = xs ∧ a.typecode = .any :=
  ⟨_, init_list long xs h, rfl, rfl⟩

/-- With the type codes `Double` and `Float`: floats are stored, and read back as plain floats, those of `Float` rounded to single
precision. -/
theorem C56_floats (long : Nat) (os : List ω) (h : ∀ o ∈ os, (Floats.cls o).isSome) :
    (∃ a : TypedArray ω, init long (.iterable (os.map .obj)) (some .double) = .ok a ∧
      a.iter = os.map (fun o => .obj (Floats.double o)) ∧ a.typecode = .double) ∧
    (∃ a : TypedArray ω, init long (.iterable (os.map .obj)) (some .float) = .ok a ∧
      a.iter = os.map (fun o => .obj (Floats.single o)) ∧ a.typecode = .float) := by
  have key : ∀ (c : FloatCode) (os : List ω), (∀ o ∈ os, (Floats.cls o).isSome) →
      convertAll long (.flt c) (os.map Val.obj) = .ok (os.map (fun o => .obj (c.store o))) := by
    intro c os h
    induction os with
    | nil => rfl
    | cons o os ih =>
      rw [List.map_cons, convertAll_cons, ih (fun o ho => h o (List.mem_cons_of_mem _ ho))]
      simp only [convert, if_pos (h o List.mem_cons_self)]
      rfl
  constructor
  · refine ⟨⟨⟨.flt .d, _⟩, .double⟩, ?_, rfl, rfl⟩
    rw [init_typecode]
    simp only [Init.elems, TypeCode.kind, key .d os h]
    rfl
  · refine ⟨⟨⟨.flt .f, _⟩, .float⟩, ?_, rfl, rfl⟩
    rw [init_typecode]
    simp only [Init.elems, TypeCode.kind, key .f os h]
    rfl

/-- Integers become floats in such an array, if they are not too large; anything that is not a number is refused. -/
theorem C56_floats_convert (long : Nat) (c : FloatCode) :
    (∀ cls n o, Floats.ofInt n = some o → convert long (.flt c) (.int cls n : Val ω) = .ok (.obj (c.store o))) ∧
    (∀ cls n, Floats.ofInt (ω := ω) n = none → convert long (.flt c) (.int cls n : Val ω) = .error .overflowError) ∧
    (∀ o : ω, Floats.cls o = none → ∃ msg, convert long (.flt c) (.obj o) = .error (.typeError msg)) := by
  refine ⟨fun cls n o h => ?_, fun cls n h => ?_, fun o h => ⟨"must be real number", ?_⟩⟩
  · simp only [convert, h]
  · simp only [convert, h]
  · simp only [convert, h]; rfl

example : (init 64 (.iterable [.obj (.flt .float32 3), .obj (.flt .plain 4), .int .plain 1]) none : Except PyErr (TypedArray Sample)) =
    .ok ⟨⟨.flt .f, [.obj (.flt .plain 2), .obj (.flt .plain 4), .obj (.flt .plain 2)]⟩, .float⟩ := by decide

/-- A `bytes` or `bytearray` object gives its bytes. -/
theorem C56_bytes (long : Nat) (xs : List (Val ω)) :
    (∃ a, init long (.bytes xs) none = .ok a ∧ a.iter = xs ∧ a.typecode = .byte) ∧
    (∃ a, init long (.bytearray xs) none = .ok a ∧ a.iter = xs ∧ a.typecode = .byte) :=
  ⟨⟨_, rfl, rfl, rfl⟩, ⟨_, rfl, rfl, rfl⟩⟩

omit [Floats ω] in
/-- Equality never raises, and holds exactly for sequences of the same length with pairwise equal elements. -/
theorem C56_equality {β : Type} (ne : Val ω → β → Bool) (a : TypedArray ω) (o : List β) :
    ∃ b, a.eq ne o = .ok b ∧ (b = true ↔ a.iter.length = o.length ∧ ∀ p ∈ a.iter.zip o, ne p.1 p.2 = false) := eq_iff ne a o

example : (init 64 (.iterable (plainInts [-128, 127])) (some .int8) : Except PyErr (TypedArray Unit)) =
    .ok ⟨⟨.arr .b, plainInts [-128, 127]⟩, .int8⟩ ∧
    (init 64 (.iterable (plainInts [-128, 128])) (some .int8) : Except PyErr (TypedArray Unit)) = .error .overflowError := by
  decide

/-! ## C67 edits -/

/-- Storing in the array is as the array's type says: a number in range becomes that number, others are refused. -/
theorem C67_stores {long : Nat} (hl : long = 32 ∨ long = 64) {tc : TypeCode} {lo hi : Int} (htc : enforced long tc = some (lo, hi))
    {i : Init ω} {a : TypedArray ω} (h : init long i (some tc) = .ok a) (c : IntClass) (n : Int) :
    (lo ≤ n ∧ n ≤ hi → stores long a (.int c n) = .ok (.int .plain n)) ∧
    (n < lo ∨ hi < n → stores long a (.int c n) = .error (if tc = .byte then .valueError "byte must be in range(0, 256)" else .overflowError)) ∧
    (∀ o, ∃ msg, stores long a (.obj o) = .error (.typeError msg)) := by
  rw [init_typecode] at h
  split at h
  · cases h
  · cases h
    simp only [stores]
    refine ⟨fun hn => ?_, fun hn => ?_, fun o => ?_⟩
    · rw [convert_enforced hl htc, if_pos (by rw [within_iff]; exact hn)]
    · rw [convert_enforced hl htc, if_neg (by rw [within_iff]; simp only; omega)]
      cases tc <;> rfl
    · cases tc <;> first | exact ⟨_, rfl⟩ | (cases htc; done)

/-- `insert` puts the value in at the position that Python's `list.insert` means, or refuses it and changes nothing. -/
theorem C67_insert (long : Nat) (a : TypedArray ω) (i : Int) (v : Val ω) :
    (∀ e, stores long a v = .error e → a.insert long i v = .error e) ∧
    (∀ v', stores long a v = .ok v' → ∃ b k, a.insert long i v = .ok b ∧ InsertMeans a.len i k ∧ Inserted a.iter k v' b.iter ∧
      b.typecode = a.typecode) := by
  rw [insert_eq]
  refine ⟨fun e he => by simp only [stores] at he; rw [he], fun v' hv => ?_⟩
  simp only [stores] at hv
  rw [hv]
  exact ⟨_, _, rfl, adjust_means _ _, inserted_take_drop _ _ _ (adjust_le _ _), rfl⟩

/-- `a[i] = v` overwrites the element that the index means; it raises `IndexError` if there is none, or refuses the value; then
nothing is changed. -/
theorem C67_set_item (long : Nat) (a : TypedArray ω) (i : Int) (v : Val ω) :
    (∀ k v', IndexMeans a.len i k → stores long a v = .ok v' →
      ∃ b, a.setItem long i v = .ok b ∧ Replaced a.iter k v' b.iter ∧ b.typecode = a.typecode) ∧
    (∀ e, a.setItem long i v = .error e → stores long a v = .error e ∨ (e = .indexError ∧ ∀ k, ¬ IndexMeans a.len i k)) ∧
    ((∀ k, ¬ IndexMeans a.len i k) ∨ (∃ e, stores long a v = .error e) → ∃ e, a.setItem long i v = .error e) := by
  refine ⟨fun k v' hk hv => ⟨_, setItem_ok hk hv, replaced_set _ _ _ hk.1, rfl⟩, fun e he => setItem_refused he, fun h => ?_⟩
  rcases hs : a.setItem long i v with e | b
  · exact ⟨e, rfl⟩
  · obtain ⟨k, v', hk, hv, -⟩ := setItem_cases hs
    rcases h with h | ⟨e, he⟩
    · exact absurd hk (h k)
    · simp only [stores, hv] at he; cases he

omit [Floats ω] in
/-- `del a[i]` removes the element that the index means, or raises `IndexError` if there is none. -/
theorem C67_del_item (a : TypedArray ω) (i : Int) :
    (∀ k, IndexMeans a.len i k → ∃ b, a.delItem i = .ok b ∧ Deleted a.iter k b.iter ∧ b.typecode = a.typecode) ∧
    ((∀ k, ¬ IndexMeans a.len i k) → a.delItem i = .error .indexError) := by
  rw [delItem_eq]
  simp only [TypedArray.len]
  refine ⟨fun k hk => ?_, fun h => ?_⟩
  · rw [position_ok.2 hk]
    exact ⟨_, rfl, deleted_eraseIdx _ _ hk.1, rfl⟩
  · rw [position_error.2 ⟨rfl, h⟩]

omit [Floats ω] in
/-- `a[i]` is the element that the index means, or raises `IndexError` if there is none. -/
theorem C67_get_item (a : TypedArray ω) (i : Int) :
    (∀ x, a.item i = .ok x ↔ ∃ k, IndexMeans a.len i k ∧ a.iter[k]? = some x) ∧
    (∀ e, a.item i = .error e ↔ e = .indexError ∧ ∀ k, ¬ IndexMeans a.len i k) :=
  ⟨fun _ => item_ok, fun _ => item_error⟩

/-- `append` adds at the end, or refuses the value. -/
theorem C67_append (long : Nat) (a : TypedArray ω) (v : Val ω) :
    (∀ e, stores long a v = .error e → a.append long v = .error e) ∧
    (∀ v', stores long a v = .ok v' → ∃ b, a.append long v = .ok b ∧ b.iter = a.iter ++ [v'] ∧ b.typecode = a.typecode) := by
  rw [append_eq]
  refine ⟨fun e he => by simp only [stores] at he; rw [he], fun v' hv => ?_⟩
  simp only [stores] at hv
  rw [hv]
  exact ⟨_, rfl, rfl, rfl⟩

omit [Floats ω] in
/-- `pop` returns the element that the index means and removes it. -/
theorem C67_pop (a : TypedArray ω) (i : Int) :
    (∀ k, IndexMeans a.len i k → ∃ x b, a.pop i = .ok (x, b) ∧ a.iter[k]? = some x ∧ Deleted a.iter k b.iter) ∧
    ((∀ k, ¬ IndexMeans a.len i k) → a.pop i = .error .indexError) := by
  refine ⟨fun k hk => ?_, fun h => ?_⟩
  · obtain ⟨b, hb, hd, -⟩ := (C67_del_item a i).1 k hk
    have hx : a.iter[k]? = some (a.iter[k]'hk.1) := List.getElem?_eq_getElem hk.1
    have : a.item i = .ok (a.iter[k]'hk.1) := item_ok.2 ⟨k, hk, hx⟩
    refine ⟨_, b, ?_, hx, hd⟩
    simp only [TypedArray.pop, this, hb, bind, Except.bind]
  · have : a.item i = .error .indexError := item_error.2 ⟨rfl, h⟩
    simp only [TypedArray.pop, this, bind, Except.bind]

omit [Floats ω] in
/-- Without an argument `pop` takes the last element; of an empty array it raises `IndexError`. -/
theorem C67_pop_last (a : TypedArray ω) :
    (∀ xs x, a.iter = xs ++ [x] → ∃ b, a.pop = .ok (x, b) ∧ b.iter = xs) ∧ (a.iter = [] → a.pop = .error .indexError) := by
  refine ⟨fun xs x h => ?_, fun h => (C67_pop a (-1)).2 fun k hk => ?_⟩
  · have hl : a.len = xs.length + 1 := by rw [show a.len = a.iter.length from rfl, h, List.length_append]; rfl
    obtain ⟨y, b, hp, hy, hd⟩ := (C67_pop a (-1)).1 xs.length ⟨by omega, Or.inr ⟨by omega, by omega⟩⟩
    rw [h] at hy hd
    have hx : y = x := by simpa using hy.symm
    refine ⟨b, hx ▸ hp, List.ext_getElem? fun j => ?_⟩
    by_cases hj : j < xs.length
    · rw [hd.before j hj, List.getElem?_append_left hj]
    · rw [hd.after j (by omega), List.getElem?_eq_none (by simp; omega), List.getElem?_eq_none (by omega)]
  · have hl : a.len = 0 := by rw [show a.len = a.iter.length from rfl, h]; rfl
    have := hk.1
    omega

/-- So `pop` undoes `append`. -/
theorem C67_append_pop (long : Nat) (a b : TypedArray ω) (v : Val ω) (h : a.append long v = .ok b) :
    ∃ v' c, stores long a v = .ok v' ∧ b.pop = .ok (v', c) ∧ c.iter = a.iter := by
  cases hv : stores long a v with
  | error e => rw [(C67_append long a v).1 e hv] at h; cases h
  | ok v' =>
    obtain ⟨b', hb, hi, -⟩ := (C67_append long a v).2 v' hv
    rw [h] at hb
    cases hb
    obtain ⟨c, hc, he⟩ := (C67_pop_last b).1 _ _ hi
    exact ⟨v', c, rfl, hc, he⟩

/-- `extend` appends the values one by one; when one is refused, those before it stay. -/
theorem C67_extend (long : Nat) (a : TypedArray ω) (vs : List (Val ω)) :
    ((a.extend long vs).2.typecode = a.typecode) ∧
    ((∃ vs', convertAll long a.value.kind vs = .ok vs' ∧ (a.extend long vs).1 = none ∧
      (a.extend long vs).2.iter = a.iter ++ vs') ∨
     (∃ pre x post pre' e, vs = pre ++ x :: post ∧ convertAll long a.value.kind pre = .ok pre' ∧
      stores long a x = .error e ∧ (a.extend long vs).1 = some e ∧ (a.extend long vs).2.iter = a.iter ++ pre')) := by
  induction vs generalizing a with
  | nil => exact ⟨rfl, .inl ⟨[], rfl, rfl, by simp [TypedArray.extend]⟩⟩
  | cons v vs ih =>
    rw [TypedArray.extend, append_eq]
    rcases hv : convert long a.value.kind v with e | v'
    · exact ⟨rfl, .inr ⟨[], v, vs, [], e, rfl, rfl, hv, rfl, by simp⟩⟩
    · simp only
      obtain ⟨h1, h2⟩ := ih (withItems a (a.value.items ++ [v']))
      refine ⟨h1, ?_⟩
      rcases h2 with ⟨vs', hc, hn, hi⟩ | ⟨pre, x, post, pre', e, hs, hc, hx, he, hi⟩
      · refine .inl ⟨v' :: vs', ?_, hn, ?_⟩
        · rw [convertAll_cons, hv]
          simp only [withItems] at hc
          rw [hc]
        · rw [hi]; simp [withItems, TypedArray.iter]
      · refine .inr ⟨v :: pre, x, post, v' :: pre', e, by rw [hs]; rfl, ?_, hx, he, ?_⟩
        · rw [convertAll_cons, hv]
          simp only [withItems] at hc
          rw [hc]
        · rw [hi]; simp [withItems, TypedArray.iter]

/-- After any history of edits, successful or not, every element of an array made with an integer type code is a number in its
range, and the type code is still the same. -/
theorem C67_always_in_range {long : Nat} (hl : long = 32 ∨ long = 64) {tc : TypeCode} {lo hi : Int}
    (htc : enforced long tc = some (lo, hi)) {i : Init ω} (hi' : PossibleInit i) {a : TypedArray ω}
    (h : init long i (some tc) = .ok a) (es : List (Edit ω)) :
    (∀ x ∈ (es.foldl (Edit.apply long) a).iter, ∃ n : Int, x = .int .plain n ∧ lo ≤ n ∧ n ≤ hi) ∧
      (es.foldl (Edit.apply long) a).typecode = tc := by
  obtain ⟨g1, g2, g3⟩ := edits_good es (init_good hi' h)
  rw [init_typecode] at h
  split at h
  · cases h
  · cases h
    refine ⟨fun x hx => ?_, g2⟩
    have hx' := g1 x hx
    rw [g3] at hx'
    simp only at hx'
    cases x with
    | obj o => cases tc <;> first | (cases hx'; done) | (cases htc; done)
    | int c n =>
      rw [convert_enforced hl htc] at hx'
      split at hx'
      · rename_i hw
        cases hx'
        exact ⟨n, rfl, (within_iff _ _).1 hw⟩
      · cases hx'

/-- `reverse` reverses the elements, and never raises, after any history. -/
theorem C67_reverse (long : Nat) {i : Init ω} (hi : PossibleInit i) {tc : Option TypeCode} {a : TypedArray ω}
    (h : init long i tc = .ok a) (es : List (Edit ω)) :
    ∃ b, (es.foldl (Edit.apply long) a).reverse long = .ok b ∧ b.iter = (es.foldl (Edit.apply long) a).iter.reverse :=
  ⟨_, reverse_eq long _ (edits_good es (init_good hi h)).1, rfl⟩

example : ((init 64 (.iterable (plainInts [1, 2, 3])) (some .int8) : Except PyErr (TypedArray Unit)).map
    (fun a => ([.append (.int .plain 127), .append (.int .plain 128), .delete (-4), .insert 1 (.obj ()), .reverse].foldl
      (Edit.apply 64) a).iter)) = .ok (plainInts [127, 3, 2]) := by decide

/-! ## C68 ownership of the storage -/

/-- What the property says: later changes to objects that existed before do not change the array. -/
def C68_full_statement : Prop :=
  ∀ (ω : Type) [Floats ω] (long : Nat) (h h' : Heap ω) (i : InitRef ω) (tc : Option TypeCode) (r : Ref),
    newArray long h i tc = .ok (r, h') → ∀ addr, addr < h.next → ∀ st, (r.view (h'.write addr st)).iter = (r.view h').iter

/-- The code violates it: `TypedArray(b)` for a `bytearray` `b` keeps `b` itself. -/
theorem C68_full_statement_false : ¬ C68_full_statement := by
  intro hf
  let h : Heap Unit := ⟨fun _ => ⟨.bytes, plainInts [1, 2]⟩, 5⟩
  have := hf Unit 64 h h (.at 3) none ⟨3, .byte⟩ rfl 3 (by decide) ⟨.bytes, []⟩
  revert this
  decide

/-- So writing to the caller's `bytearray` later changes the array. -/
theorem C68_shared_bytearray (long : Nat) (h : Heap ω) (addr : Nat) (hb : (h.cells addr).kind = .bytes) (xs : List (Val ω)) :
    ∃ r h', newArray long h (.at addr) none = .ok (r, h') ∧
      (r.view (h'.write addr ⟨.bytes, xs⟩)).iter = xs := by
  refine ⟨⟨addr, .byte⟩, h, ?_, by simp [Ref.view, Heap.write, TypedArray.iter]⟩
  simp only [newArray, InitRef.read, hb]
  rfl

/-- In all other cases the storage is new: writes to any object that existed before do not change the array, and writes to the
array change no such object. -/
theorem C68_owned_partial (long : Nat) (h h' : Heap ω) (i : InitRef ω) (tc : Option TypeCode) (r : Ref)
    (hi : tc = none → ∀ addr, i = .at addr → (h.cells addr).kind ≠ .bytes) (hn : newArray long h i tc = .ok (r, h')) :
    (∀ addr, addr < h.next → ∀ st, (r.view (h'.write addr st)).iter = (r.view h').iter) ∧
    (∀ addr, addr < h.next → ∀ st, (h'.write r.addr st).cells addr = h.cells addr) ∧
    init long (i.read h) tc = .ok (r.view h') := by
  have key : ∀ a : TypedArray ω, init long (i.read h) tc = .ok a →
      newArray long h i tc = .ok (⟨h.next, a.typecode⟩, ⟨fun k => if k = h.next then a.value else h.cells k, h.next + 1⟩) := by
    intro a ha
    simp only [newArray, ha]
    cases i with
    | detached i => rfl
    | «at» addr =>
      cases tc with
      | some tc => rfl
      | none =>
        have := hi rfl addr rfl
        rcases hk : (h.cells addr).kind with _ | _ | c | c
        · simp only [hk]
        · exact absurd hk this
        · simp only [hk]
        · simp only [hk]
  rcases ha : init long (i.read h) tc with e | a
  · simp only [newArray, ha] at hn; cases hn
  · rw [key a ha] at hn
    cases hn
    refine ⟨fun addr hlt st => ?_, fun addr hlt st => ?_, ?_⟩
    · simp only [Ref.view, Heap.write, TypedArray.iter]
      rw [if_neg (by omega)]
    · simp only [Heap.write]
      rw [if_neg (by omega), if_neg (by omega)]
    · simp [Ref.view]

example : ((newArray 64 (⟨fun _ => ⟨.bytes, plainInts [1, 2]⟩, 5⟩ : Heap Unit) (.at 3) (some .byte)).map
    (fun p => (p.1.addr, (p.1.view p.2).iter))) = .ok (5, plainInts [1, 2]) := by decide

/-! ## C69 element-wise operations -/

/-- What the property says of `map`: the results of calling the function on each element, left to right. -/
def C69_full_statement : Prop :=
  ∀ (ω σ : Type) [Floats ω] (long : Nat) (a : TypedArray ω) (f : Val ω → Py σ (Val ω)),
    TypedArray.iter <$> a.map long f = each f a.iter

/-- The code violates it: if the first result is an object of a sized class, the other results must fit that type. -/
theorem C69_full_statement_false : ¬ C69_full_statement := by
  intro h
  have := congrArg (fun p => p.exec ()) (h Unit Unit 64 ⟨⟨.list, plainInts [1, 300]⟩, .any⟩ (fun x => match x with
    | .int _ n => pure (.int .int8 n)
    | .obj o => pure (.obj o)))
  revert this
  decide

/-- `map` calls the function on each element, left to right, and then makes an array of the results (see `C56`). -/
theorem C69_map (long : Nat) (a : TypedArray ω) (f : Val ω → Py σ (Val ω)) :
    a.map long f = (do
      let ys ← each f a.iter
      Py.ofExcept (init long (.iterable ys) none)) := by
  simp only [TypedArray.map, tupleMap_eq]
  rfl

/-- `collect` calls the function on each element, left to right, and makes an array of the elements of all results. -/
theorem C69_collect (long : Nat) (a : TypedArray ω) (f : Val ω → Py σ (TypedArray ω)) :
    a.collect long f = (do
      let ys ← flatEach (fun x => TypedArray.iter <$> f x) a.iter
      Py.ofExcept (init long (.iterable ys) none)) := by
  simp only [TypedArray.collect, collect_go]
  simp only [List.nil_append, id_map']
  rfl

/-- If no result is an object of a sized class, `map` gives the results, in order. -/
theorem C69_map_partial (long : Nat) (a : TypedArray ω) (f : Val ω → Py σ (Val ω)) (w w' : σ) (ys : List (Val ω))
    (h : (each f a.iter).exec w = (.ok ys, w')) (hy : Unsized ys) :
    ∃ b, (a.map long f).exec w = (.ok b, w') ∧ b.iter = ys := by
  refine ⟨⟨⟨.list, ys⟩, .any⟩, ?_, rfl⟩
  rw [C69_map, Py.exec_bind, h]
  simp only [init_unsized long hy]
  rfl

/-- If the function raises on an element, `map` raises that, having called it on no later element. -/
theorem C69_map_raises (long : Nat) (a : TypedArray ω) (f : Val ω → Py σ (Val ω)) (w w' : σ) (e : PyErr)
    (h : (each f a.iter).exec w = (.error e, w')) : (a.map long f).exec w = (.error e, w') := by
  rw [C69_map, Py.exec_bind, h]

/-- The same for `collect`. -/
theorem C69_collect_partial (long : Nat) (a : TypedArray ω) (f : Val ω → Py σ (TypedArray ω)) (w w' : σ) (ys : List (Val ω))
    (h : (flatEach (fun x => TypedArray.iter <$> f x) a.iter).exec w = (.ok ys, w')) (hy : Unsized ys) :
    ∃ b, (a.collect long f).exec w = (.ok b, w') ∧ b.iter = ys := by
  refine ⟨⟨⟨.list, ys⟩, .any⟩, ?_, rfl⟩
  rw [C69_collect, Py.exec_bind, h]
  simp only [init_unsized long hy]
  rfl

/-- `choose` gives the values of the `Some` answers, in order, if none is an object of a sized class. -/
theorem C69_choose_partial (long : Nat) (a : TypedArray ω) (f : Val ω → Py σ (Option (Val ω))) (w w' : σ) (ys : List (Val ω))
    (h : (pick f a.iter).exec w = (.ok ys, w')) (hy : Unsized ys) :
    ∃ b, (a.choose long f).exec w = (.ok b, w') ∧ b.iter = ys :=
  C69_collect_partial long a _ w w' ys (choose_inner long f a.iter w w' ys h hy) hy

/-- `filter` keeps the elements for which the predicate says yes, in order, and the type code; after any history. -/
theorem C69_filter (long : Nat) {i : Init ω} (hi : PossibleInit i) {tc : TypeCode} {a0 : TypedArray ω}
    (h : init long i (some tc) = .ok a0) (es : List (Edit ω)) (a : TypedArray ω) (ha : a = es.foldl (Edit.apply long) a0)
    (p : Val ω → Py σ Bool) (w : σ) :
    (a.filter long p).exec w = (match (keep p a.iter).exec w with
      | (.error e, w') => (.error e, w')
      | (.ok ys, w') => (.ok ⟨⟨a.value.kind, ys⟩, tc⟩, w')) := by
  obtain ⟨g1, g2, g3⟩ := edits_good es (init_good hi h)
  rw [← ha] at g1 g2 g3
  have hk : a0.value.kind = tc.kind ∧ a0.typecode = tc := by
    rw [init_typecode] at h
    split at h
    · cases h
    · cases h; exact ⟨rfl, rfl⟩
  simp only [TypedArray.filter, tupleFilter_eq]
  rw [Py.exec_bind]
  rw [show a.value.items = a.iter from rfl]
  rcases hr : (keep p a.iter).exec w with ⟨e | ys, w'⟩
  · rfl
  · have hs : Stored long a.value.kind ys := stored_sub g1 (keep_mem p _ hr)
    rw [g3, hk.1] at hs
    have hi2 : init long (.iterable ys) (some a.typecode) = .ok ⟨⟨a.value.kind, ys⟩, tc⟩ := by
      rw [g2, hk.2, init_typecode, Init.elems, convertAll_of_stored hs, g3, hk.1]
    simp only [hi2]
    rfl

omit [Floats ω] in
/-- `fold` and `forall` process the elements left to right; `forall` stops at the first `False`. -/
theorem C69_fold {β : Type} (a : TypedArray ω) (f : β → Val ω → Py σ β) (s : β) (p : Val ω → Py σ Bool) :
    a.fold f s = foldLeft f s a.iter ∧ a.forall' p = every p a.iter :=
  ⟨reduce_eq f a.iter s, all_eq p a.iter⟩

omit [Floats ω] in
/-- `head`, `try_head` and `tail`: the first element and the rest; `ValueError` or `Nothing` if there is none. -/
theorem C69_head (a : TypedArray ω) :
    (∀ x rest, a.iter = x :: rest → a.head = .ok x ∧ a.tryHead = some x) ∧
    (a.iter = [] → a.tryHead = none ∧ ∃ msg, a.head = .error (.valueError msg)) := by
  constructor
  · intro x rest h
    simp only [TypedArray.head, h, TypedArray.tryHead]
    simp only [TypedArray.iter] at h
    simp [h]
  · intro h
    simp only [TypedArray.head, h, TypedArray.tryHead]
    simp only [TypedArray.iter] at h
    simp [h]

/-- `TypedArray.of_seq`: the elements are those given; there are as many as were given, and the array is empty if and only if there is none. -/
theorem C69_of_seq_partial (long : Nat) (xs : List (Val ω)) (hx : Unsized xs) :
    ∃ a, TypedArray.ofSeq long xs = .ok a ∧ a.iter = xs ∧ a.len = xs.length ∧ (a.isEmpty = true ↔ xs = []) := by
  refine ⟨⟨⟨.list, xs⟩, .any⟩, ?_, rfl, rfl, List.isEmpty_iff⟩
  rw [TypedArray.ofSeq, TypedArray.ofIterable, init_unsized long hx]

omit [Floats ω] in
/-- After any history, an array is empty if and only if its length is 0, if and only if `try_head` is `Nothing`. -/
theorem C69_is_empty (a : TypedArray ω) : (a.isEmpty = true ↔ a.len = 0) ∧ (a.isEmpty = true ↔ a.tryHead = none) := by
  constructor
  · rw [TypedArray.isEmpty, TypedArray.len, List.isEmpty_iff, List.length_eq_zero_iff]
  · rw [TypedArray.isEmpty, TypedArray.tryHead]
    cases a.value.items <;> simp

/-- `tail`: all but the first element; `ValueError` if there is none. -/
theorem C69_tail_partial (long : Nat) (a : TypedArray ω) (ha : Unsized a.iter) :
    (∀ x rest, a.iter = x :: rest → TypedArray.iter <$> a.tail long = .ok rest) ∧
    (a.iter = [] → ∃ msg, a.tail long = .error (.valueError msg)) := by
  constructor
  · intro x rest h
    simp only [TypedArray.iter] at h
    have hr : Unsized rest := unsized_sub ha (fun y hy => by
      simp only [TypedArray.iter, h]; exact List.mem_cons_of_mem _ hy)
    simp only [TypedArray.tail, h, TypedArray.ofIterable, init_unsized long hr]
    rfl
  · intro h
    simp only [TypedArray.iter] at h
    simp [TypedArray.tail, h]

/-- `sort_with` computes the key of every element once, left to right, and then gives the stable sort by these keys (which is
unique, see `C17_unique`). -/
theorem C69_sort_with_partial {γ : Type} [PyOrd γ] [LawfulPyOrd γ] (reverse : Bool) :
    ∃ out : List (γ × Val ω) → List (γ × Val ω), (∀ input, IsStableSort reverse input (out input)) ∧
      ∀ (long : Nat) (a : TypedArray ω) (func : Val ω → Py σ γ) (w : σ), Unsized a.iter →
        (TypedArray.iter <$> a.sortWith long PyOrd.lt func reverse).exec w = (match (each func a.iter).exec w with
          | (.error e, w') => (.error e, w')
          | (.ok keys, w') => (.ok ((out (List.zip keys a.iter)).map Prod.snd), w')) := by
  have hst : ∀ input : List (γ × Val ω), IsStableSort reverse input
      (if reverse then (Builtins.sortPairs PyOrd.lt input.reverse).reverse else Builtins.sortPairs PyOrd.lt input) := by
    intro input
    cases reverse
    · exact sortPairs_stable input
    · exact sortPairs_stable_rev input
  refine ⟨_, hst, ?_⟩
  intro long a func w ha
  simp only [TypedArray.sortWith, Builtins.sorted, tupleMap_eq, each_pair, bind_assoc, pure_bind, map_bind, bind_map_left]
  rw [show a.value.items = a.iter from rfl, Py.exec_bind]
  rcases (each func a.iter).exec w with ⟨e | keys, w'⟩
  · rfl
  · simp only
    have hu : Unsized (((if reverse then (Builtins.sortPairs PyOrd.lt (List.zip keys a.iter).reverse).reverse
        else Builtins.sortPairs PyOrd.lt (List.zip keys a.iter)).map Prod.snd) : List (Val ω)) := by
      refine unsized_sub ha (fun x hx => ?_)
      obtain ⟨p, hp, rfl⟩ := List.mem_map.1 hx
      have := (hst (List.zip keys a.iter)).perm.mem_iff.1 hp
      exact (List.of_mem_zip this).2
    simp only [TypedArray.ofIterable]
    rw [init_unsized long hu]
    rfl

example : ((⟨⟨.arr .b, plainInts [1, 2, 3]⟩, .int8⟩ : TypedArray Unit).filter 64
    (fun x => (do modify (· + 1); pure (x != .int .plain 2) : Py Nat Bool))).exec 0 =
    (.ok ⟨⟨.arr .b, plainInts [1, 3]⟩, .int8⟩, 3) := by decide

/-! ## C70 slicing -/

/-- What the property says. -/
def C70_full_statement : Prop :=
  ∀ (ω : Type) [Floats ω] (long : Nat) (a : TypedArray ω) (n : Nat),
    TypedArray.iter <$> a.take long n = .ok (a.iter.take n) ∧ TypedArray.iter <$> a.skip long n = .ok (a.iter.drop n) ∧
    TypedArray.iter <$> a.takeLast long n = .ok (a.iter.drop (a.len - n)) ∧
    TypedArray.iter <$> a.skipLast long n = .ok (a.iter.take (a.len - n))

/-- The code violates it: `skip_last(0)` is empty and `take_last(0)` is everything. -/
theorem C70_full_statement_false : ¬ C70_full_statement := by
  intro h
  have := (h Unit 64 ⟨⟨.arr .b, plainInts [1, 2]⟩, .int8⟩ 0).2.2.1
  revert this
  decide

/-- And in another way: a slice whose first element is an object of a sized class is stored as that type, so `skip` can raise
`OverflowError`. -/
theorem C70_skip_raises : ∃ a : TypedArray Unit,
    init 64 (.iterable [.int .plain 1, .int .int8 2, .int .plain 300]) none = .ok a ∧ a.skip 64 1 = .error .overflowError :=
  ⟨_, rfl, rfl⟩

/-- The first `n` elements and the rest, if the array holds no object of a sized class (typed arrays never do). -/
theorem C70_take_skip_partial (long : Nat) (a : TypedArray ω) (ha : Unsized a.iter) (n : Nat) :
    TypedArray.iter <$> a.take long n = .ok (a.iter.take n) ∧ TypedArray.iter <$> a.skip long n = .ok (a.iter.drop n) := by
  have h1 : Unsized (a.sliced none (some (n : Int))).items :=
    unsized_sub ha (fun x hx => by simp only [TypedArray.sliced, slice_prefix] at hx; exact List.mem_of_mem_take hx)
  have h2 : Unsized (a.sliced (some (n : Int)) none).items :=
    unsized_sub ha (fun x hx => by simp only [TypedArray.sliced, slice_suffix] at hx; exact List.mem_of_mem_drop hx)
  rw [TypedArray.take, TypedArray.skip, ofStorage_unsized long _ h1, ofStorage_unsized long _ h2]
  simp only [TypedArray.sliced, slice_prefix, slice_suffix, adjustIndex_nonneg, TypedArray.iter]
  constructor
  · change Except.ok (List.take _ _) = _
    rw [← List.take_eq_take_min]
  · change Except.ok (List.drop _ _) = _
    rcases Nat.le_total n a.value.items.length with h | h
    · rw [Nat.min_eq_left h]
    · rw [Nat.min_eq_right h, List.drop_length, List.drop_eq_nil_of_le h]

/-- The last `n` elements and all but them, for `n > 0`. -/
theorem C70_last_partial (long : Nat) (a : TypedArray ω) (ha : Unsized a.iter) (n : Nat) (hn : 0 < n) :
    TypedArray.iter <$> a.takeLast long n = .ok (a.iter.drop (a.len - n)) ∧
    TypedArray.iter <$> a.skipLast long n = .ok (a.iter.take (a.len - n)) := by
  have h1 : Unsized (a.sliced none (some (-(n : Int)))).items :=
    unsized_sub ha (fun x hx => by simp only [TypedArray.sliced, slice_prefix] at hx; exact List.mem_of_mem_take hx)
  have h2 : Unsized (a.sliced (some (-(n : Int))) none).items :=
    unsized_sub ha (fun x hx => by simp only [TypedArray.sliced, slice_suffix] at hx; exact List.mem_of_mem_drop hx)
  rw [TypedArray.takeLast, TypedArray.skipLast, ofStorage_unsized long _ h1, ofStorage_unsized long _ h2]
  have := adjustIndex_neg a.value.items.length n hn
  simp only [TypedArray.sliced, slice_prefix, slice_suffix, this, TypedArray.iter]
  exact ⟨rfl, rfl⟩

/-- Arrays made with a type code other than `Any` hold no objects of a sized class, after any history. -/
theorem C70_typed_unsized (long : Nat) {i : Init ω} (hi : PossibleInit i) {tc : TypeCode} (htc : tc ≠ .any) {a : TypedArray ω}
    (h : init long i (some tc) = .ok a) (es : List (Edit ω)) : Unsized (es.foldl (Edit.apply long) a).iter := by
  obtain ⟨g1, g2, g3⟩ := edits_good es (init_good hi h)
  refine stored_unsized ?_ g1
  rw [g3]
  rw [init_typecode] at h
  split at h
  · cases h
  · cases h
    cases tc <;> first | exact absurd rfl htc | (intro hk; cases hk)

example : (TypedArray.iter <$> (⟨⟨.arr .b, plainInts [1, 2, 3]⟩, .int8⟩ : TypedArray Unit).takeLast 64 2) =
    .ok (plainInts [2, 3]) ∧ Unsized (plainInts [1, 2, 3] : List (Val Unit)) := by
  refine ⟨by decide, ?_⟩
  intro x h
  simp only [plainInts, List.map_cons, List.map_nil, List.mem_cons, List.not_mem_nil, or_false] at h
  rcases h with rfl | rfl | rfl <;> exact fun h => h rfl

/-! ## C71 indexed -/

/-- What the property says: the `i`-th element is paired with `start + i`. -/
def C71_full_statement : Prop :=
  ∀ (ω : Type) [Floats ω] (pair : Int → Val ω → ω), (∀ i x, Floats.cls (pair i x) = none) → ∀ (long : Nat) (a : TypedArray ω) (start : Int), ∃ b : TypedArray ω,
    a.indexed long pair start = .ok b ∧ b.len = a.len ∧
      ∀ (k : Nat) x, a.iter[k]? = some x → b.iter[k]? = some (Val.obj (pair (start + k) x))

/-- The code violates it: `start` is not used. -/
theorem C71_full_statement_false : ¬ C71_full_statement := by
  intro h
  obtain ⟨b, hb, -, h3⟩ := @h Int (Floats.none Int) (fun i _ => i) (fun _ _ => rfl) 64 ⟨⟨.list, plainInts [7]⟩, .any⟩ 5
  cases hb
  have := h3 0 (.int .plain 7) rfl
  revert this
  decide

/-- For `start = 0` it holds; whatever `start` is, counting starts at 0. -/
theorem C71_indexed_partial (pair : Int → Val ω → ω) (hp : ∀ i x, Floats.cls (pair i x) = none) (long : Nat) (a : TypedArray ω) (start : Int) : ∃ b : TypedArray ω,
    a.indexed long pair start = .ok b ∧ b.len = a.len ∧
      ∀ (k : Nat) x, a.iter[k]? = some x → b.iter[k]? = some (Val.obj (pair k x)) := by
  refine ⟨_, init_unsized long ?_, ?_, ?_⟩
  · intro x h hs
    obtain ⟨p, -, rfl⟩ := List.mem_map.1 h
    obtain ⟨c, hc, _⟩ := hs
    rw [hp] at hc
    cases hc
  · simp [TypedArray.len, TypedArray.iter, enumerate_eq]
  · intro k x hx
    simp only [TypedArray.iter] at hx ⊢
    rw [List.getElem?_map, enumerate_eq]
    simp [hx]

example : (TypedArray.iter <$> (⟨⟨.list, plainInts [7, 8]⟩, .any⟩ : TypedArray Sample).indexed 64 (fun i _ => .pair i) 0) =
    .ok [.obj (.pair 0), .obj (.pair 1)] := by decide

/-! ## C72 the element type survives selection -/

/-- What the property says: the operations that only select or reorder elements give an array of the same element type. -/
def C72_full_statement : Prop :=
  ∀ (ω : Type) [Floats ω] (long : Nat) (a b : TypedArray ω) (n : Nat) (i : Init ω) (tc : TypeCode), init long i (some tc) = .ok a →
    (a.take long n = .ok b ∨ a.skip long n = .ok b ∨ a.tail long = .ok b ∨
      ∃ lt r, (a.sort (σ := Unit) long lt r).exec () = (.ok b, ())) → b.typecode = tc

/-- The code violates it: the result is a plain list, and takes any value. -/
theorem C72_full_statement_false : ¬ C72_full_statement := by
  intro h
  have := h Unit 64 ⟨⟨.arr .b, plainInts [1, 2]⟩, .int8⟩ ⟨⟨.list, plainInts [1]⟩, .any⟩ 1 (.iterable (plainInts [1, 2])) .int8
    rfl (.inl rfl)
  cases this

/-- Exactly what happens: `take` and `skip` (and `take_last`, `skip_last`) of a `Byte` array are `Byte` arrays, those of all
others are `Any`, so their elements are no longer range-checked. -/
theorem C72_slices_partial (long : Nat) (a : TypedArray ω) (ha : Unsized a.iter) (n : Int) (b : TypedArray ω)
    (h : a.take long n = .ok b ∨ a.skip long n = .ok b ∨ a.takeLast long n = .ok b ∨ a.skipLast long n = .ok b) :
    (a.value.kind = .bytes → b.typecode = .byte ∧ b.value.kind = .bytes) ∧
    (a.value.kind ≠ .bytes → b.typecode = .any ∧ b.value.kind = .list) := by
  have key : ∀ start stop, TypedArray.ofStorage long (a.sliced start stop) = .ok b →
      (a.value.kind = .bytes → b.typecode = .byte ∧ b.value.kind = .bytes) ∧
      (a.value.kind ≠ .bytes → b.typecode = .any ∧ b.value.kind = .list) := by
    intro start stop hb
    rw [ofStorage_unsized long _ (unsized_sub ha (fun x hx => ?_))] at hb
    · cases hb
      simp only [TypedArray.sliced]
      exact ⟨fun hk => by simp [hk], fun hk => by simp [hk]⟩
    · simp only [TypedArray.sliced, Builtins.slice] at hx
      exact List.mem_of_mem_take (List.mem_of_mem_drop hx)
  rcases h with h | h | h | h <;> exact key _ _ h

/-- Filtering keeps the type. -/
theorem C72_filter_partial (long : Nat) (a b : TypedArray ω) (p : Val ω → Py σ Bool) (w w' : σ)
    (h : (a.filter long p).exec w = (.ok b, w')) : b.typecode = a.typecode := by
  simp only [TypedArray.filter] at h
  rw [Py.exec_bind] at h
  split at h
  · rw [init_typecode] at h
    split at h
    · cases h
    · cases h; rfl
  · cases h

/-- the hypotheses of `C72_slices_partial`: a `Byte` array stays one, an `Int8` array does not -/
example : (⟨⟨.bytes, plainInts [1, 2, 3]⟩, .byte⟩ : TypedArray Unit).take 64 2 = .ok ⟨⟨.bytes, plainInts [1, 2]⟩, .byte⟩ ∧
    (⟨⟨.arr .b, plainInts [1, 2, 3]⟩, .int8⟩ : TypedArray Unit).skip 64 1 = .ok ⟨⟨.list, plainInts [2, 3]⟩, .any⟩ ∧
    Unsized (plainInts (ω := Unit) [1, 2, 3]) :=
  ⟨by decide, by decide, fun x hx => by simp [plainInts] at hx; rcases hx with rfl | rfl | rfl <;> exact fun h => h rfl⟩

/-- the hypothesis of `C72_filter_partial`: what is left of an `Int8` array is one -/
example : ((⟨⟨.arr .b, plainInts [1, 2, 3]⟩, .int8⟩ : TypedArray Unit).filter 64 (fun x => pure (x != .int .plain 2)) : Py Unit _).exec () =
    (.ok ⟨⟨.arr .b, plainInts [1, 3]⟩, .int8⟩, ()) := by decide

end Expression.Props
