import Verif.Lemmas.Array

namespace Expression.Lemmas

open Arr Builtins Spec

variable {ω σ : Type} [Floats ω]

/-- the same array with other elements -/
def withItems (a : TypedArray ω) (xs : List (Val ω)) : TypedArray ω := { a with value := { a.value with items := xs } }

theorem setItem_ok {long : Nat} {a : TypedArray ω} {i : Int} {k : Nat} {v v' : Val ω}
    (hi : IndexMeans a.value.items.length i k) (hv : convert long a.value.kind v = .ok v') :
    a.setItem long i v = .ok (withItems a (a.value.items.set k v')) := by
  have hp := position_ok.2 hi
  rcases a with ⟨⟨kind, items⟩, tc⟩
  cases kind <;> simp only [TypedArray.setItem, bind, Except.bind] at hp hv ⊢ <;> simp only [hp, hv] <;> rfl

theorem item_eq {α : Type} (xs : List α) (i : Int) : Builtins.item xs i =
    match TypedArray.position xs.length i with
    | .error e => .error e
    | .ok k => match xs[k]? with
      | some x => .ok x
      | none => .error .indexError := by
  rw [Builtins.item, position_eq]
  rcases Int.lt_or_le i 0 with h | h
  · simp only [if_pos h]
    rw [if_neg (show ¬ (0 ≤ i ∧ i < xs.length) by omega)]
    rcases Int.lt_or_le (i + xs.length) 0 with h2 | h2
    · rw [if_pos (by omega), if_neg (by omega)]
    · rw [if_neg (by omega), if_pos (by omega)]
      simp only
      cases xs[(i + xs.length).toNat]? <;> rfl
  · simp only [if_neg (Int.not_lt.2 h)]
    rcases Int.lt_or_le i xs.length with h2 | h2
    · rw [if_pos (by omega)]
      simp only
      cases xs[i.toNat]? <;> rfl
    · rw [if_neg (show ¬ (0 ≤ i ∧ i < xs.length) by omega), if_neg (by omega), List.getElem?_eq_none (by omega)]

theorem item_ok {α : Type} {xs : List α} {i : Int} {x : α} :
    Builtins.item xs i = .ok x ↔ ∃ k, IndexMeans xs.length i k ∧ xs[k]? = some x := by
  rw [item_eq]
  constructor
  · intro h
    split at h
    · cases h
    · rename_i k hk
      split at h
      · rename_i y hy; cases h; exact ⟨k, position_ok.1 hk, hy⟩
      · cases h
  · rintro ⟨k, hk, hx⟩
    rw [position_ok.2 hk]; simp only [hx]

theorem item_error {α : Type} {xs : List α} {i : Int} {e : PyErr} :
    Builtins.item xs i = .error e ↔ e = .indexError ∧ ∀ k, ¬ IndexMeans xs.length i k := by
  rw [item_eq]
  rcases hp : TypedArray.position xs.length i with e' | k
  · simp only
    rw [← position_error, hp]
    simp only [Except.error.injEq]
  · have hk := position_ok.1 hp
    obtain ⟨x, hx⟩ : ∃ x, xs[k]? = some x := ⟨xs[k]'hk.1, List.getElem?_eq_getElem hk.1⟩
    simp only [hx, reduceCtorEq, false_iff]
    rintro ⟨_, h⟩
    exact h k hk

theorem indexMeans_det {len : Nat} {i : Int} {k k' : Nat} (h : IndexMeans len i k) (h' : IndexMeans len i k') : k = k' := by
  unfold IndexMeans at h h'; omega

theorem insert_eq (long : Nat) (a : TypedArray ω) (i : Int) (v : Val ω) :
    a.insert long i v = (match convert long a.value.kind v with
      | .error e => .error e
      | .ok v' => .ok (withItems a (a.value.items.take (adjustIndex a.value.items.length i) ++
          v' :: a.value.items.drop (adjustIndex a.value.items.length i)))) := by
  rw [TypedArray.insert]
  rcases convert long a.value.kind v with e | v' <;> rfl

omit [Floats ω] in
theorem delItem_eq (a : TypedArray ω) (i : Int) :
    a.delItem i = (match TypedArray.position a.value.items.length i with
      | .error e => .error e
      | .ok k => .ok (withItems a (a.value.items.eraseIdx k))) := by
  rw [TypedArray.delItem]
  rcases TypedArray.position a.value.items.length i with e | v' <;> rfl

theorem append_eq (long : Nat) (a : TypedArray ω) (v : Val ω) :
    a.append long v = (match convert long a.value.kind v with
      | .error e => .error e
      | .ok v' => .ok (withItems a (a.value.items ++ [v']))) := by
  rw [TypedArray.append, insert_eq]
  have : adjustIndex a.value.items.length a.len = a.value.items.length := by
    rw [show ((a.len : Nat) : Int) = ((a.value.items.length : Nat) : Int) from rfl, adjustIndex_nonneg]; simp
  rw [this]
  simp

theorem setItem_cases {long : Nat} {a b : TypedArray ω} {i : Int} {v : Val ω} (h : a.setItem long i v = .ok b) :
    ∃ k v', IndexMeans a.value.items.length i k ∧ convert long a.value.kind v = .ok v' ∧
      b = withItems a (a.value.items.set k v') := by
  rcases hp : TypedArray.position a.value.items.length i with e | k
  · rcases a with ⟨⟨kind, items⟩, tc⟩
    cases kind <;> simp only [TypedArray.setItem, bind, Except.bind] at h hp <;> rw [hp] at h
    · cases h
    · split at h <;> cases h
    · cases h
    · cases h
  · rcases hv : convert long a.value.kind v with e | v'
    · rcases a with ⟨⟨kind, items⟩, tc⟩
      cases kind <;> simp only [TypedArray.setItem, bind, Except.bind] at h hp hv <;> rw [hv] at h
      · rw [hp] at h; cases h
      · cases h
      · rw [hp] at h; cases h
      · rw [hp] at h; cases h
    · refine ⟨k, v', position_ok.1 hp, rfl, ?_⟩
      rw [setItem_ok (position_ok.1 hp) hv] at h
      cases h; rfl

theorem setItem_refused {long : Nat} {a : TypedArray ω} {i : Int} {v : Val ω} {e : PyErr} (h : a.setItem long i v = .error e) :
    convert long a.value.kind v = .error e ∨ (e = .indexError ∧ ∀ k, ¬ IndexMeans a.value.items.length i k) := by
  rcases hp : TypedArray.position a.value.items.length i with e' | k
  · rcases a with ⟨⟨kind, items⟩, tc⟩
    have hp' := position_error.1 hp
    cases kind <;> simp only [TypedArray.setItem, bind, Except.bind] at h hp <;> rw [hp] at h
    · cases h; exact .inr hp'
    · split at h
      · rename_i e2 he2; cases h; exact .inl he2
      · cases h; exact .inr hp'
    · cases h; exact .inr hp'
    · cases h; exact .inr hp'
  · rcases hv : convert long a.value.kind v with e' | v'
    · rcases a with ⟨⟨kind, items⟩, tc⟩
      cases kind <;> simp only [TypedArray.setItem, bind, Except.bind] at h hp hv <;> rw [hv] at h
      · rw [hp] at h; cases h; exact .inl rfl
      · cases h; exact .inl rfl
      · rw [hp] at h; cases h; exact .inl rfl
      · rw [hp] at h; cases h; exact .inl rfl
    · rw [setItem_ok (position_ok.1 hp) hv] at h; cases h

/-! ### invariants of edits -/

theorem stored_append {long : Nat} {kind : Kind} {xs : List (Val ω)} {v v' : Val ω} (h : Stored long kind xs)
    (hv : convert long kind v = .ok v') (k : Nat) : Stored long kind (xs.take k ++ v' :: xs.drop k) := by
  intro x hx
  simp only [List.mem_append, List.mem_cons] at hx
  rcases hx with hx | rfl | hx
  · exact h x (List.mem_of_mem_take hx)
  · exact convert_idem hv
  · exact h x (List.mem_of_mem_drop hx)

theorem stored_set {long : Nat} {kind : Kind} {xs : List (Val ω)} {v v' : Val ω} (h : Stored long kind xs)
    (hv : convert long kind v = .ok v') (k : Nat) : Stored long kind (xs.set k v') := by
  intro x hx
  rcases List.mem_or_eq_of_mem_set hx with hx | rfl
  · exact h x hx
  · exact convert_idem hv

theorem stored_sub {long : Nat} {kind : Kind} {xs ys : List (Val ω)} (h : Stored long kind xs) (hs : ∀ x ∈ ys, x ∈ xs) :
    Stored long kind ys := fun x hx => h x (hs x hx)

/-! ### reverse -/

theorem reverse_go (long : Nat) (self : TypedArray ω) (orig : List (Val ω)) (hlen : self.len = orig.length) :
    ∀ (fuel i : Nat) (a : TypedArray ω), i + fuel = orig.length / 2 → a.value.items.length = orig.length →
      GoodArray long a →
      (∀ j, j < orig.length → a.value.items[j]? =
        if j < i ∨ orig.length ≤ j + i then orig[orig.length - 1 - j]? else orig[j]?) →
      TypedArray.reverse.go long self fuel i a = .ok (withItems a orig.reverse) := by
  intro fuel
  induction fuel with
  | zero =>
    intro i a hi hl _ hj
    rw [TypedArray.reverse.go]
    have : a.value.items = orig.reverse := by
      apply List.ext_getElem?
      intro j
      rcases Nat.lt_or_ge j orig.length with h | h
      · rw [hj j h, List.getElem?_reverse h]
        split
        · rfl
        · rename_i hn
          congr 1; omega
      · rw [List.getElem?_eq_none (by omega), List.getElem?_eq_none (by simpa using h)]
    rw [withItems, ← this]
  | succ fuel ih =>
    intro i a hi hl hg hj
    rw [TypedArray.reverse.go]
    have hi2 : i < orig.length / 2 := by omega
    have h1 : i < orig.length := by omega
    have h2 : orig.length - 1 - i < orig.length := by omega
    have hx : a.value.items[orig.length - 1 - i]? = some (orig[orig.length - 1 - i]'h2) := by
      rw [hj _ h2, if_neg (by omega), List.getElem?_eq_getElem]
    have hy : a.value.items[i]? = some (orig[i]'h1) := by
      rw [hj _ h1, if_neg (by omega), List.getElem?_eq_getElem]
    have m1 : IndexMeans orig.length ((self.len : Int) - i - 1) (orig.length - 1 - i) := ⟨h2, .inl (by omega)⟩
    have m2 : IndexMeans orig.length (i : Int) i := ⟨h1, .inl (by omega)⟩
    have e1 : a.item ((self.len : Int) - i - 1) = .ok (orig[orig.length - 1 - i]'h2) := item_ok.2 ⟨_, by rw [hl]; exact m1, hx⟩
    have e2 : a.item (i : Int) = .ok (orig[i]'h1) := item_ok.2 ⟨_, by rw [hl]; exact m2, hy⟩
    have c1 : convert long a.value.kind (orig[orig.length - 1 - i]'h2) = .ok _ := hg _ (List.mem_of_getElem? hx)
    have c2 : convert long a.value.kind (orig[i]'h1) = .ok _ := hg _ (List.mem_of_getElem? hy)
    have e3 := setItem_ok (a := a) (i := (i : Int)) (by rw [hl]; exact m2) c1
    have e4 := setItem_ok (a := withItems a (a.value.items.set i (orig[orig.length - 1 - i]'h2)))
      (i := ((self.len : Int) - i - 1)) (k := orig.length - 1 - i) (by simp only [withItems, List.length_set, hl]; exact m1) c2
    simp only [e1, e2, e3, bind, Except.bind]
    rw [e4]
    simp only
    rw [ih (i + 1) _ (by omega) (by simp [withItems, hl]) ?_ ?_]
    · rfl
    · exact stored_set (stored_set hg c1 _) c2 _
    · intro j hjl
      simp only [withItems, List.getElem?_set, List.length_set, hl]
      rcases Nat.lt_trichotomy j i with hc | hc | hc
      · rw [if_neg (by omega), if_neg (by omega), hj j hjl, if_pos (by omega), if_pos (by omega)]
      · subst hc
        rw [if_neg (by omega), if_pos rfl, if_pos h1, if_pos (by omega), List.getElem?_eq_getElem]
      · rcases Nat.lt_trichotomy j (orig.length - 1 - i) with hd | hd | hd
        · rw [if_neg (by omega), if_neg (by omega), hj j hjl, if_neg (by omega), if_neg (by omega)]
        · subst hd
          rw [if_pos rfl, if_pos h2, if_pos (by omega), show orig.length - 1 - (orig.length - 1 - i) = i by omega,
            List.getElem?_eq_getElem]
        · rw [if_neg (by omega), if_neg (by omega), hj j hjl, if_pos (by omega), if_pos (by omega)]

theorem reverse_eq (long : Nat) (a : TypedArray ω) (hg : GoodArray long a) :
    a.reverse long = .ok (withItems a a.value.items.reverse) := by
  rw [TypedArray.reverse]
  exact reverse_go long a a.value.items rfl _ 0 a (by simp [TypedArray.len]) rfl hg (fun j hj => by
    rw [if_neg (by omega)])

/-! ### equality -/

omit [Floats ω] in
theorem eq_go {β : Type} (ne : Val ω → β → Bool) (o : List β) (xs : List (Val ω)) (i : Nat)
    (h : xs.length + i = o.length) :
    ∃ b, TypedArray.eq.go ne o (enumerate xs i) = .ok b ∧ (b = true ↔ ∀ p ∈ xs.zip (o.drop i), ne p.1 p.2 = false) := by
  induction xs generalizing i with
  | nil => exact ⟨true, rfl, by simp⟩
  | cons x xs ih =>
    simp only [List.length_cons] at h
    have hi : i < o.length := by omega
    have e : Builtins.item o (i : Int) = .ok (o[i]'hi) :=
      item_ok.2 ⟨i, ⟨hi, .inl (by omega)⟩, List.getElem?_eq_getElem hi⟩
    rw [enumerate, TypedArray.eq.go, e]
    simp only [bind, Except.bind]
    rw [List.drop_eq_getElem_cons hi]
    split
    · rename_i hne
      refine ⟨false, rfl, ?_⟩
      simp only [Bool.false_eq_true, List.zip_cons_cons, List.mem_cons, forall_eq_or_imp, false_iff, not_and]
      intro h2; rw [hne] at h2; cases h2
    · rename_i hne
      obtain ⟨b, hb, hb2⟩ := ih (i + 1) (by omega)
      refine ⟨b, ?_, ?_⟩
      · rw [show ((i : Int) + 1) = ((i + 1 : Nat) : Int) by omega]; exact hb
      · rw [hb2, List.zip_cons_cons]
        simp only [List.mem_cons, forall_eq_or_imp]
        simp [hne]

omit [Floats ω] in
theorem eq_iff {β : Type} (ne : Val ω → β → Bool) (a : TypedArray ω) (o : List β) :
    ∃ b, a.eq ne o = .ok b ∧ (b = true ↔ a.iter.length = o.length ∧ ∀ p ∈ a.iter.zip o, ne p.1 p.2 = false) := by
  rw [TypedArray.eq]
  split
  · rename_i h
    refine ⟨false, rfl, ?_⟩
    simp only [Bool.false_eq_true, false_iff]
    intro hf
    exact h hf.1
  · rename_i h
    have h : a.iter.length = o.length := Classical.not_not.1 h
    have := eq_go ne o a.iter 0 (by simpa using h)
    simpa [h] using this

/-! ### collect, choose -/

omit [Floats ω] in
theorem collect_go (f : Val ω → Py σ (TypedArray ω)) (xs acc : List (Val ω)) :
    TypedArray.collect.go f xs acc = (fun ys => acc ++ ys) <$> flatEach (fun x => TypedArray.iter <$> f x) xs := by
  induction xs generalizing acc with
  | nil => simp [TypedArray.collect.go, flatEach]
  | cons x xs ih =>
    simp only [TypedArray.collect.go, flatEach, ih, map_eq_pure_bind, bind_assoc, pure_bind,
      List.append_assoc]

/-! ### what is stored, and histories -/

theorem convert_enforced {long : Nat} (hl : long = 32 ∨ long = 64) {tc : TypeCode} {r : Int × Int}
    (h : enforced long tc = some r) (c : IntClass) (n : Int) :
    convert (ω := ω) long tc.kind (.int c n) = if within r n then .ok (.int .plain n) else
      .error (if tc.kind = .bytes then .valueError "byte must be in range(0, 256)" else .overflowError) := by
  rcases hl with rfl | rfl <;> cases tc <;> cases h <;> rfl

theorem delItem_good {long : Nat} {a b : TypedArray ω} {i : Int} (hg : GoodArray long a) (h : a.delItem i = .ok b) :
    GoodArray long b ∧ b.typecode = a.typecode ∧ b.value.kind = a.value.kind := by
  rw [delItem_eq] at h
  split at h
  · cases h
  · cases h
    exact ⟨stored_sub hg (fun x hx => (List.eraseIdx_sublist _ _).mem hx), rfl, rfl⟩

theorem append_good {long : Nat} {a b : TypedArray ω} {v : Val ω} (hg : GoodArray long a) (h : a.append long v = .ok b) :
    GoodArray long b ∧ b.typecode = a.typecode ∧ b.value.kind = a.value.kind := by
  rw [append_eq] at h
  split at h
  · cases h
  · rename_i v' hv
    cases h
    refine ⟨?_, rfl, rfl⟩
    have := stored_append hg hv a.value.items.length
    simpa [GoodArray, withItems] using this

theorem edit_good {long : Nat} {a : TypedArray ω} (hg : GoodArray long a) (e : Edit ω) :
    GoodArray long (e.apply long a) ∧ (e.apply long a).typecode = a.typecode ∧ (e.apply long a).value.kind = a.value.kind := by
  cases e with
  | insert i v =>
    simp only [Edit.apply, insert_eq]
    rcases hv : convert long a.value.kind v with e | v'
    · exact ⟨hg, rfl, rfl⟩
    · exact ⟨stored_append hg hv _, rfl, rfl⟩
  | set i v =>
    simp only [Edit.apply]
    split
    · rename_i b hb
      obtain ⟨k, v', -, hv, rfl⟩ := setItem_cases hb
      exact ⟨stored_set hg hv _, rfl, rfl⟩
    · exact ⟨hg, rfl, rfl⟩
  | delete i =>
    simp only [Edit.apply]
    split
    · rename_i b hb; exact delItem_good hg hb
    · exact ⟨hg, rfl, rfl⟩
  | append v =>
    simp only [Edit.apply]
    split
    · rename_i b hb; exact append_good hg hb
    · exact ⟨hg, rfl, rfl⟩
  | pop i =>
    simp only [Edit.apply, TypedArray.pop, bind, Except.bind]
    rcases a.item i with e | x
    · exact ⟨hg, rfl, rfl⟩
    · rcases hd : a.delItem i with e | b
      · exact ⟨hg, rfl, rfl⟩
      · exact delItem_good hg hd
  | extend vs =>
    simp only [Edit.apply]
    induction vs generalizing a with
    | nil => exact ⟨hg, rfl, rfl⟩
    | cons v vs ih =>
      rw [TypedArray.extend]
      rcases hb : a.append long v with e | b
      · exact ⟨hg, rfl, rfl⟩
      · obtain ⟨g1, g2, g3⟩ := append_good hg hb
        obtain ⟨h1, h2, h3⟩ := ih g1
        exact ⟨h1, h2.trans g2, h3.trans g3⟩
  | reverse =>
    simp only [Edit.apply, reverse_eq long a hg]
    exact ⟨stored_sub hg (fun x hx => List.mem_reverse.1 hx), rfl, rfl⟩
  | remove same =>
    simp only [Edit.apply, TypedArray.remove, bind, Except.bind]
    rcases a.index same with e | i
    · exact ⟨hg, rfl, rfl⟩
    · rcases hd : a.delItem (i : Int) with e | b
      · simp only [hd]; exact ⟨hg, by trivial⟩
      · simp only [hd]; exact delItem_good hg hd

theorem edits_good {long : Nat} (es : List (Edit ω)) {a : TypedArray ω} (hg : GoodArray long a) :
    GoodArray long (es.foldl (Edit.apply long) a) ∧ (es.foldl (Edit.apply long) a).typecode = a.typecode ∧
      (es.foldl (Edit.apply long) a).value.kind = a.value.kind := by
  induction es generalizing a with
  | nil => exact ⟨hg, rfl, rfl⟩
  | cons e es ih =>
    obtain ⟨g1, g2, g3⟩ := edit_good hg e
    obtain ⟨h1, h2, h3⟩ := ih g1
    exact ⟨h1, h2.trans g2, h3.trans g3⟩

theorem choose_inner (long : Nat) (f : Val ω → Py σ (Option (Val ω))) (xs : List (Val ω)) (w w' : σ) (ys : List (Val ω))
    (h : (pick f xs).exec w = (.ok ys, w')) (hy : Unsized ys) :
    (flatEach (fun x => TypedArray.iter <$> (do
      let o ← f x
      Py.ofExcept (TypedArray.ofIterable long o.toList))) xs).exec w = (.ok ys, w') := by
  induction xs generalizing w w' ys with
  | nil => exact h
  | cons x xs ih =>
    rw [pick, Py.exec_bind] at h
    rw [flatEach, Py.exec_bind, map_eq_pure_bind, bind_assoc, Py.exec_bind]
    rcases hx : (f x).exec w with ⟨e | o, w1⟩
    · rw [hx] at h; cases h
    · rw [hx] at h
      simp only at h ⊢
      rw [Py.exec_bind] at h
      rcases hp : (pick f xs).exec w1 with ⟨e | zs, w2⟩
      · rw [hp] at h; cases h
      · rw [hp] at h
        cases h
        have h1 : Unsized o.toList := unsized_sub hy (fun x hx => List.mem_append_left _ hx)
        have h2 : Unsized zs := unsized_sub hy (fun x hx => List.mem_append_right _ hx)
        simp only [TypedArray.ofIterable, init_unsized long h1, Py.ofExcept_ok, pure_bind, Py.exec_pure, TypedArray.iter]
        rw [Py.exec_bind]
        have := ih w1 w' zs hp h2
        simp only [TypedArray.ofIterable] at this
        rw [this]
        rfl

omit [Floats ω] in
theorem keep_mem (p : Val ω → Py σ Bool) (xs : List (Val ω)) {w w' : σ} {ys : List (Val ω)} (h : (keep p xs).exec w = (.ok ys, w')) :
    ∀ y ∈ ys, y ∈ xs := by
  induction xs generalizing w w' ys with
  | nil => intro y hy; cases h; exact hy
  | cons x xs ih =>
    intro y hy
    rw [keep, Py.exec_bind] at h
    split at h
    · rename_i b w1 _
      rw [Py.exec_bind] at h
      split at h
      · rename_i zs w2 hz
        cases h
        have := ih hz
        cases b
        · exact List.mem_cons_of_mem _ (this y hy)
        · rcases List.mem_cons.1 hy with rfl | hy
          · exact List.mem_cons_self
          · exact List.mem_cons_of_mem _ (this y hy)
      · cases h
    · cases h

/-- what fits the storage of an array fits the storage that its type code asks for -/
theorem stored_typecode {long : Nat} (hl : long = 32 ∨ long = 64) {i : Init ω} {tc : Option TypeCode} {a : TypedArray ω}
    (h : init long i tc = .ok a) {ys : List (Val ω)} (hs : Stored long a.value.kind ys) : Stored long a.typecode.kind ys := by
  cases tc with
  | some tc =>
    rw [init_typecode] at h
    split at h
    · cases h
    · cases h; exact hs
  | none =>
    rcases i with xs | xs | _ | ⟨x, rest⟩
    · cases h; exact hs
    · cases h; exact hs
    · cases h; exact hs
    · rw [init_first] at h
      split at h
      · cases h
      · cases h
        simp only at hs ⊢
        rcases x with ⟨c, n⟩ | o
        · cases c <;> try exact hs
          intro y hy
          have := hs y hy
          rcases y with ⟨c, m⟩ | o
          · simp only [Val.inferred, IntClass.inferred, convert] at this
            simp only [Val.inferred, IntClass.inferred, TypeCode.kind, convert]
            by_cases hw : within (Code.range long .l) m = true
            · rw [if_pos hw] at this
              rw [if_pos]
              · exact this
              · rw [within_iff] at hw ⊢
                rcases hl with rfl | rfl
                · simp only [Code.range, signedRange] at hw ⊢
                  omega
                · exact hw
            · rw [if_neg hw] at this
              cases this
          · cases this
        · simp only [Val.inferred] at hs ⊢
          revert hs
          rcases Floats.cls o with _ | c
          · exact id
          · cases c <;> exact id

end Expression.Lemmas
