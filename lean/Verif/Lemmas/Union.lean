import Verif.Spec.Union

namespace Expression.Lemmas

open TU Spec

variable {V : Type}

/-- the instance that a successful construction makes -/
def made (c : Cls) (ident : Nat) (name : String) (v : V) : Inst V :=
  ⟨ident, c, setAttr (setAttr (setAttr (setAttr [] "tag" (.name name)) name (.obj v)) "_index"
    (.index (c.fieldNames.idxOf name))) "__dataclass_fields__"
    (.fields (c.fieldNames.filter (fun f => f == name || f == "tag")))⟩

theorem initCase_ok_iff [PyValue V] (c : Cls) (ident : Nat) (tag : Option V) (kwargs : List (String × V)) (u : Inst V) :
    initCase c ident tag kwargs = .ok u ↔ ∃ name v, kwargs = [(name, v)] ∧
      name ∈ c.fieldNames ∧ tagMatches tag name = true ∧ u = made c ident name v := by
  rcases kwargs with _ | ⟨⟨name, v⟩, rest⟩
  · simp [initCase]
  · rw [initCase]
    by_cases h1 : name ∈ c.fieldNames
    · rw [if_neg (by simpa using h1)]
      cases rest with
      | cons _ _ => simp
      | nil =>
        rw [if_neg (by simp)]
        cases hm : tagMatches tag name with
        | true =>
          simp only [if_true, Except.ok.injEq, List.cons.injEq, Prod.mk.injEq, and_true]
          constructor
          · rintro rfl
            exact ⟨name, v, ⟨rfl, rfl⟩, h1, hm, rfl⟩
          · rintro ⟨_, _, ⟨rfl, rfl⟩, _, _, h⟩
            exact h.symm
        | false =>
          simp only [Bool.false_eq_true, if_false, reduceCtorEq, List.cons.injEq, Prod.mk.injEq, and_true, false_iff]
          rintro ⟨_, _, ⟨rfl, rfl⟩, _, h, _⟩
          rw [hm] at h; cases h
    · rw [if_pos (by simpa using h1)]
      constructor
      · intro h; cases h
      · rintro ⟨n', v', h2, h3, _⟩
        simp only [List.cons.injEq, Prod.mk.injEq] at h2
        exact absurd (h2.1.1 ▸ h3) h1

theorem init_ok_iff [PyValue V] (c : Cls) (ident : Nat) (kwargs : List (String × V)) (u : Inst V) :
    init c ident kwargs = .ok u ↔ ∃ name v, kwargs.filter (fun kv => kv.1 != "tag") = [(name, v)] ∧
      name ∈ c.fieldNames ∧ name ≠ "self" ∧ tagMatches (tagArg kwargs) name = true ∧ u = made c ident name v := by
  have hself : kwargs.any (fun kv => kv.1 == "self") = true ↔
      ∃ v, ("self", v) ∈ kwargs.filter (fun kv => kv.1 != "tag") := by
    simp only [List.any_eq_true, beq_iff_eq, List.mem_filter, bne_iff_ne, ne_eq]
    constructor
    · rintro ⟨⟨n, v⟩, h1, rfl⟩; exact ⟨v, h1, by simp⟩
    · rintro ⟨v, h1, _⟩; exact ⟨_, h1, rfl⟩
  rw [init]
  by_cases hs : kwargs.any (fun kv => kv.1 == "self") = true
  · rw [if_pos hs]
    obtain ⟨v, hv⟩ := hself.1 hs
    constructor
    · intro h; cases h
    · rintro ⟨name, v', h, _, h2, _⟩
      rw [h] at hv
      simp only [List.mem_singleton, Prod.mk.injEq] at hv
      exact absurd hv.1.symm h2
  · rw [if_neg hs, initCase_ok_iff]
    constructor
    · rintro ⟨name, v, h1, h2, h3, h4⟩
      refine ⟨name, v, h1, h2, ?_, h3, h4⟩
      rintro rfl
      exact hs (hself.2 ⟨v, by rw [h1]; simp⟩)
    · rintro ⟨name, v, h1, h2, _, h3, h4⟩
      exact ⟨name, v, h1, h2, h3, h4⟩

theorem init_error [PyValue V] (c : Cls) (ident : Nat) (kwargs : List (String × V)) (e : PyErr)
    (h : init c ident kwargs = .error e) : ∃ msg, e = .typeError msg := by
  unfold init at h
  split at h
  · cases h; exact ⟨_, rfl⟩
  · unfold initCase at h
    split at h
    · cases h; exact ⟨_, rfl⟩
    · split at h
      · cases h; exact ⟨_, rfl⟩
      · split at h
        · cases h; exact ⟨_, rfl⟩
        · split at h
          · cases h
          · cases h; exact ⟨_, rfl⟩

/-! ## reading a made instance -/

theorem lookup_setAttr (attrs : List (String × Attr V)) (n m : String) (a : Attr V) :
    lookup (setAttr attrs n a) m = if n = m then some a else lookup attrs m := by
  induction attrs with
  | nil => simp [setAttr, lookup]
  | cons x rest ih =>
    rcases x with ⟨k, b⟩
    simp only [setAttr]
    by_cases hk : k = n
    · subst hk
      by_cases hm : k = m
      · simp [lookup, hm]
      · simp [lookup, hm]
    · rw [if_neg hk]
      by_cases hm : k = m
      · subst hm
        simp [lookup, Ne.symm hk]
      · simp [lookup, hm, ih]

theorem lookup_made (c : Cls) (ident : Nat) (name : String) (v : V) (m : String) :
    lookup (made c ident name v).attrs m =
      if "__dataclass_fields__" = m then some (.fields (c.fieldNames.filter (fun f => f == name || f == "tag")))
      else if "_index" = m then some (.index (c.fieldNames.idxOf name))
      else if name = m then some (.obj v)
      else if "tag" = m then some (.name name)
      else none := by
  simp only [made, lookup_setAttr, lookup]

theorem tagOf_made (c : Cls) (ident : Nat) (name : String) (v : V) (h : name ≠ "tag") :
    tagOf (made c ident name v) = .ok name := by
  simp only [tagOf, getattr, lookup_made]
  simp [h, bind, Except.bind]

theorem indexOf_made (c : Cls) (ident : Nat) (name : String) (v : V) :
    indexOf (made c ident name v) = .ok (c.fieldNames.idxOf name) := by
  simp only [indexOf, getattr, lookup_made]
  simp [bind, Except.bind]

theorem getattr_made (c : Cls) (ident : Nat) (name : String) (v : V)
    (h1 : name ≠ "_index") (h2 : name ≠ "__dataclass_fields__") : getattr (made c ident name v) name = .ok (.obj v) := by
  simp only [getattr, lookup_made]
  simp [h1.symm, h2.symm]

theorem payload_made (c : Cls) (ident : Nat) (name : String) (v : V) (h : name ≠ "tag")
    (h1 : name ≠ "_index") (h2 : name ≠ "__dataclass_fields__") : payload (made c ident name v) = .ok v := by
  rw [payload, tagOf_made _ _ _ _ h]
  simp only [bind, Except.bind, getattr_made _ _ _ _ h1 h2]

/-- what is known of a value -/
theorem isValue_made [PyValue V] {c : Cls} {u : Inst V} (h : IsValue c u) :
    ∃ ident name v, name ∈ c.fieldNames ∧ name ≠ "tag" ∧ name ≠ "self" ∧ u = made c ident name v := by
  obtain ⟨ident, kwargs, h⟩ := h
  obtain ⟨name, v, h1, h2, h3, _, h4⟩ := (init_ok_iff c ident kwargs u).1 h
  refine ⟨ident, name, v, h2, ?_, h3, h4⟩
  have : (name, v) ∈ kwargs.filter (fun kv => kv.1 != "tag") := by rw [h1]; simp
  simpa using (List.mem_filter.1 this).2

theorem ordinary_ne {c : Cls} (hc : Ordinary c) {name : String} (h : name ∈ c.fieldNames) :
    name ≠ "_index" ∧ name ≠ "__dataclass_fields__" := by
  constructor
  · rintro rfl; exact hc.1 h
  · rintro rfl; exact hc.2 h

/-- everything about a value of an ordinary class -/
theorem isValue_cases [PyValue V] {c : Cls} (hc : Ordinary c) {u : Inst V} (h : IsValue c u) :
    ∃ name v, name ∈ c.fieldNames ∧ name ≠ "tag" ∧ name ≠ "self" ∧ u.cls = c ∧ tagOf u = .ok name ∧ payload u = .ok v ∧
      getattr u name = .ok (.obj v) ∧ indexOf u = .ok (c.fieldNames.idxOf name) ∧
      getattr u "__dataclass_fields__" = .ok (.fields (c.fieldNames.filter (fun f => f == name || f == "tag"))) ∧
      getattr u "tag" = .ok (.name name) := by
  obtain ⟨ident, name, v, h1, h2, h3, rfl⟩ := isValue_made h
  obtain ⟨o1, o2⟩ := ordinary_ne hc h1
  refine ⟨name, v, h1, h2, h3, rfl, tagOf_made c ident name v h2, payload_made c ident name v h2 o1 o2,
    getattr_made c ident name v o1 o2, indexOf_made c ident name v, ?_, ?_⟩
  · simp only [getattr, lookup_made]; simp
  · simp only [getattr, lookup_made]; simp [h2]

theorem eq_cases [PyValue V] {a b : Inst V} {ta tb : String} {va vb : V}
    (ha : tagOf a = .ok ta) (hb : tagOf b = .ok tb) (ga : getattr a ta = .ok (.obj va)) (gb : getattr b tb = .ok (.obj vb)) :
    TU.eq a b = .ok (decide (a.cls.id = b.cls.id) && decide (ta = tb) && PyValue.eq va vb) := by
  rw [TU.eq]
  by_cases h1 : a.cls.id = b.cls.id
  · rw [if_neg (by simpa using h1), ha, hb]
    by_cases h2 : ta = tb
    · subst h2
      simp only [bind, Except.bind]
      rw [if_neg (by simp), ga, gb]
      simp [h1, pure, Except.pure]
    · simp only [bind, Except.bind]
      rw [if_pos h2]
      simp [h2, pure, Except.pure]
  · rw [if_pos h1]
    simp [h1, pure, Except.pure]

theorem lt_cases [PyValue V] {a b : Inst V} {ia ib : Nat} {va vb : V} (hc : a.cls.id = b.cls.id)
    (ha : indexOf a = .ok ia) (hb : indexOf b = .ok ib) (ga : payload a = .ok va) (gb : payload b = .ok vb) :
    TU.lt a b = tupleLt ia va ib vb := by
  rw [TU.lt, if_neg (by simpa using hc), ha, hb, ga, gb]
  rfl

theorem idxOf_inj {l : List String} {a b : String} (ha : a ∈ l) (hb : b ∈ l) (h : l.idxOf a = l.idxOf b) : a = b := by
  induction l with
  | nil => cases ha
  | cons x l ih =>
    rw [List.idxOf_cons, List.idxOf_cons] at h
    by_cases hxa : x = a <;> by_cases hxb : x = b
    · rw [← hxa, hxb]
    · rw [beq_iff_eq.2 hxa, beq_false_of_ne hxb] at h
      simp at h
    · rw [beq_iff_eq.2 hxb, beq_false_of_ne hxa] at h
      simp at h
    · rw [beq_false_of_ne hxa, beq_false_of_ne hxb] at h
      simp only [cond_false, Nat.add_right_cancel_iff] at h
      exact ih (by simpa [Ne.symm hxa] using ha) (by simpa [Ne.symm hxb] using hb) h

/-- the fields kept on an instance -/
theorem filter_two (l : List String) (hl : l.Nodup) (a b : String) (hab : a ≠ b) (ha : a ∈ l) :
    l.filter (fun f => f == a || f == b) = [a] ∨ l.filter (fun f => f == a || f == b) = [a, b] ∨
      l.filter (fun f => f == a || f == b) = [b, a] := by
  have none : ∀ (l : List String) (x : String), x ∉ l → l.filter (fun f => f == x) = [] := by
    intro l x hx
    rw [List.filter_eq_nil_iff]
    intro y hy
    simp only [beq_iff_eq]
    rintro rfl
    exact hx hy
  have one : ∀ (l : List String) (x : String), l.Nodup → x ∈ l → l.filter (fun f => f == x) = [x] := by
    intro l x
    induction l with
    | nil => intro _ h; cases h
    | cons y l ih =>
      intro hn hx
      by_cases hy : y = x
      · subst hy
        rw [List.filter_cons_of_pos (by simp), none l y (List.nodup_cons.1 hn).1]
      · rw [List.filter_cons_of_neg (by simpa using hy)]
        exact ih (List.nodup_cons.1 hn).2 (by simpa [Ne.symm hy] using hx)
  have drop : ∀ (l : List String) (x y : String), x ∉ l → l.filter (fun f => f == x || f == y) = l.filter (fun f => f == y) := by
    intro l x y hx
    apply List.filter_congr
    intro z hz
    have : z ≠ x := by rintro rfl; exact hx hz
    simp [this]
  have drop' : ∀ (l : List String) (x y : String), y ∉ l → l.filter (fun f => f == x || f == y) = l.filter (fun f => f == x) := by
    intro l x y hx
    apply List.filter_congr
    intro z hz
    have : z ≠ y := by rintro rfl; exact hx hz
    simp [this]
  induction l with
  | nil => cases ha
  | cons x l ih =>
    obtain ⟨h1, h2⟩ := List.nodup_cons.1 hl
    by_cases hxa : x = a
    · subst hxa
      rw [List.filter_cons_of_pos (by simp), drop l x b h1]
      by_cases hb : b ∈ l
      · rw [one l b h2 hb]; exact .inr (.inl rfl)
      · rw [none l b hb]; exact .inl rfl
    · have ha' : a ∈ l := by simpa [Ne.symm hxa] using ha
      by_cases hxb : x = b
      · subst hxb
        rw [List.filter_cons_of_pos (by simp), drop' l a x h1, one l a h2 ha']
        exact .inr (.inr rfl)
      · rw [List.filter_cons_of_neg (by simp [hxa, hxb])]
        exact ih h2 ha'

theorem run_cls (op : AttrOp V) (u : Inst V) : (op.run u).cls = u.cls := by
  cases op with
  | set n a =>
    simp only [AttrOp.run, TU.setattr]
    split
    · rename_i h; split at h <;> cases h; rfl
    · rfl
  | del n =>
    simp only [AttrOp.run, TU.delattr]
    split
    · rename_i h
      split at h
      · cases h
      · split at h <;> cases h; rfl
    · rfl

theorem lookup_filter (attrs : List (String × Attr V)) (n m : String) (h : m ≠ n) :
    lookup (attrs.filter (fun na => na.1 != n)) m = lookup attrs m := by
  induction attrs with
  | nil => rfl
  | cons x rest ih =>
    rcases x with ⟨k, a⟩
    by_cases hk : k = n
    · rw [List.filter_cons_of_neg (by simpa using hk), ih, lookup]
      rw [if_neg (by rintro rfl; exact h hk)]
    · rw [List.filter_cons_of_pos (by simpa using hk), lookup, lookup, ih]

theorem run_field (op : AttrOp V) (u : Inst V) (name : String) (hf : u.cls.frozen = true) (h : name ∈ u.cls.fieldNames) :
    getattr (op.run u) name = getattr u name := by
  cases op with
  | set n a =>
    simp only [AttrOp.run, TU.setattr]
    by_cases hn : n ∈ u.cls.fieldNames
    · rw [if_pos ⟨hf, hn⟩]
    · rw [if_neg (fun h => hn h.2)]
      simp only [TU.getattr, lookup_setAttr]
      rw [if_neg (by rintro rfl; exact hn h)]
  | del n =>
    simp only [AttrOp.run, TU.delattr]
    by_cases hn : n ∈ u.cls.fieldNames
    · rw [if_pos ⟨hf, hn⟩]
    · rw [if_neg (fun h => hn h.2)]
      cases hl : lookup u.attrs n with
      | none => rfl
      | some a =>
        simp only [TU.getattr]
        rw [lookup_filter _ _ _ (by rintro rfl; exact hn h)]

theorem mapM_congr_mem {α β ε : Type} (l : List α) (f g : α → Except ε β) (h : ∀ x ∈ l, f x = g x) : l.mapM f = l.mapM g := by
  induction l with
  | nil => rfl
  | cons x l ih =>
    rw [List.mapM_cons, List.mapM_cons, h x List.mem_cons_self, ih (fun y hy => h y (List.mem_cons_of_mem _ hy))]

theorem eq_singleton_of_nodup_mem {α : Type} {l : List α} {a : α} (hn : l.Nodup) (h : ∀ x, x ∈ l ↔ x = a) : l = [a] := by
  match l, hn, h with
  | [], _, h => exact absurd ((h a).2 rfl) (by simp)
  | [x], _, h => rw [(h x).1 List.mem_cons_self]
  | x :: y :: l, hn, h =>
    have hx := (h x).1 List.mem_cons_self
    have hy := (h y).1 (List.mem_cons_of_mem _ List.mem_cons_self)
    exact absurd (hx.trans hy.symm) (by
      have := (List.nodup_cons.1 hn).1
      intro e; exact this (e ▸ List.mem_cons_self))

end Expression.Lemmas
