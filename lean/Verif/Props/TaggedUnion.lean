import Verif.Lemmas.Union

/-! # C30-C32, C60, C91: tagged unions -/

namespace Expression.Props

open TU Spec Lemmas

variable {V : Type}

/-- Objects for the examples: `None`, strings, integers. -/
inductive Lit where
  | none
  | str (s : String)
  | int (n : Int)
deriving DecidableEq, Repr

instance : PyValue Lit where
  eq a b := decide (a = b)
  lt a b := match a, b with
    | .int n, .int m => .ok (decide (n < m))
    | .str s, .str t => .ok (decide (s < t))
    | _, _ => .error (.typeError "'<' not supported")
  hash a := match a with
    | .none => 0
    | .str s => s.length
    | .int n => n
  isNone a := decide (a = .none)
  eqStr a s := decide (a = .str s)
  ofString := .str

/-- `Option` (option.py:31-52) and a union that is not frozen -/
def optionCls : Cls := ⟨0, "Option", ["tag", "none", "some"], true⟩
def shapeCls : Cls := ⟨1, "Shape", ["tag", "circle", "square"], false⟩

/-! ## C30 construction -/

/-- Calling the class succeeds exactly when, apart from `tag`, one keyword is given, it is a declared case (not called `self`, which
Python reserves here), and `tag` is absent, `None` or that case. -/
theorem C30_construction [PyValue V] (c : Cls) (ident : Nat) (kwargs : List (String × V)) :
    (∃ u, init c ident kwargs = .ok u) ↔
      ∃ name v, kwargs.filter (fun kv => kv.1 != "tag") = [(name, v)] ∧ name ∈ c.fieldNames ∧ name ≠ "self" ∧
        (∀ t, kwargs.find? (fun kv => kv.1 == "tag") = some ("tag", t) →
          PyValue.isNone t = true ∨ PyValue.eqStr t name = true) := by
  have key : ∀ name, tagMatches (tagArg kwargs) name = true ↔
      ∀ t, kwargs.find? (fun kv => kv.1 == "tag") = some ("tag", t) →
        PyValue.isNone t = true ∨ PyValue.eqStr t name = true := by
    intro name
    rw [tagArg]
    rcases h : kwargs.find? (fun kv => kv.1 == "tag") with _ | ⟨k, t⟩
    · simp [tagMatches, h]
    · have hk : k = "tag" := by simpa using List.find?_some h
      subst hk
      simp [tagMatches, h]
  constructor
  · rintro ⟨u, h⟩
    obtain ⟨name, v, h1, h2, h3, h4, _⟩ := (init_ok_iff c ident kwargs u).1 h
    exact ⟨name, v, h1, h2, h3, (key name).1 h4⟩
  · rintro ⟨name, v, h1, h2, h3, h4⟩
    exact ⟨_, (init_ok_iff c ident kwargs _).2 ⟨name, v, h1, h2, h3, (key name).2 h4, rfl⟩⟩

/-- Otherwise it raises `TypeError`. -/
theorem C30_type_error [PyValue V] (c : Cls) (ident : Nat) (kwargs : List (String × V)) (e : PyErr)
    (h : init c ident kwargs = .error e) : ∃ msg, e = .typeError msg := init_error c ident kwargs e h

/-- What was made has the case as its tag and the value under that name; every other declared case is absent: reading it raises
`AttributeError`. -/
theorem C30_reading [PyValue V] (c : Cls) (hc : Ordinary c) (ident : Nat) (kwargs : List (String × V)) (u : Inst V)
    (h : init c ident kwargs = .ok u) (name : String) (v : V)
    (hk : kwargs.filter (fun kv => kv.1 != "tag") = [(name, v)]) :
    tagOf u = .ok name ∧ getattr u name = .ok (.obj v) ∧ payload u = .ok v ∧
    ∀ other ∈ c.fieldNames, other ≠ name → other ≠ "tag" → getattr u other = .error (.attributeError other) := by
  obtain ⟨n', v', h1, h2, h3, h4, rfl⟩ := (init_ok_iff c ident kwargs u).1 h
  rw [hk] at h1
  simp only [List.cons.injEq, Prod.mk.injEq, and_true] at h1
  obtain ⟨rfl, rfl⟩ := h1
  have ht : name ≠ "tag" := by
    have : (name, v) ∈ kwargs.filter (fun kv => kv.1 != "tag") := by rw [hk]; simp
    simpa using (List.mem_filter.1 this).2
  obtain ⟨o1, o2⟩ := ordinary_ne hc h2
  refine ⟨tagOf_made c ident name v ht, getattr_made c ident name v o1 o2, payload_made c ident name v ht o1 o2, ?_⟩
  intro other ho hne htag
  obtain ⟨p1, p2⟩ := ordinary_ne hc ho
  simp only [TU.getattr, lookup_made]
  rw [if_neg p2.symm, if_neg p1.symm, if_neg (Ne.symm hne), if_neg (Ne.symm htag)]

example : Ordinary optionCls ∧ (∃ u, init optionCls 7 [("tag", Lit.str "some"), ("some", .int 3)] = .ok u) ∧
    (¬ ∃ u, init optionCls 7 [("tag", Lit.str "none"), ("some", .int 3)] = .ok u) := by
  refine ⟨⟨by decide, by decide⟩, ⟨_, rfl⟩, ?_⟩
  rintro ⟨u, h⟩
  exact nomatch (show (Except.error (PyErr.typeError "Tag does not match case name") : Except PyErr (Inst Lit)) = .ok u from h)

/-! ## C31 equality, hash, order -/

/-- Two values (of any two unions) are equal exactly when they are of the same class, in the same case, with equal payloads;
comparing never raises. -/
theorem C31_eq_iff [PyValue V] (c d : Cls) (hc : Ordinary c) (hd : Ordinary d) (a b : Inst V) (ha : IsValue c a)
    (hb : IsValue d b) : ∃ r, TU.eq a b = .ok r ∧
      (r = true ↔ c.id = d.id ∧ tagOf a = tagOf b ∧
        ∃ v w, payload a = .ok v ∧ payload b = .ok w ∧ PyValue.eq v w = true) := by
  obtain ⟨na, va, _, _, _, ca, ta, pa, ga, _⟩ := isValue_cases hc ha
  obtain ⟨nb, vb, _, _, _, cb, tb, pb, gb, _⟩ := isValue_cases hd hb
  refine ⟨_, eq_cases ta tb ga gb, ?_⟩
  rw [ca, cb, ta, tb, pa, pb]
  simp only [Bool.and_eq_true, decide_eq_true_eq, Except.ok.injEq]
  constructor
  · rintro ⟨⟨h1, h2⟩, h3⟩; exact ⟨h1, h2, _, _, rfl, rfl, h3⟩
  · rintro ⟨h1, h2, _, _, rfl, rfl, h3⟩; exact ⟨⟨h1, h2⟩, h3⟩

/-- Equality is an equivalence when that of payloads is. -/
theorem C31_equivalence [PyValue V] (hV : EqLawful V) (ca cb cc : Cls) (ha : Ordinary ca) (hb : Ordinary cb)
    (hc : Ordinary cc) (a b c : Inst V) (va : IsValue ca a) (vb : IsValue cb b) (vc : IsValue cc c) :
    TU.eq a a = .ok true ∧ (TU.eq a b = .ok true → TU.eq b a = .ok true) ∧
    (TU.eq a b = .ok true → TU.eq b c = .ok true → TU.eq a c = .ok true) := by
  obtain ⟨na, xa, _, _, _, _, ta, pa, ga, _⟩ := isValue_cases ha va
  obtain ⟨nb, xb, _, _, _, _, tb, pb, gb, _⟩ := isValue_cases hb vb
  obtain ⟨nc, xc, _, _, _, _, tc, pc, gc, _⟩ := isValue_cases hc vc
  rw [eq_cases ta ta ga ga, eq_cases ta tb ga gb, eq_cases tb ta gb ga, eq_cases tb tc gb gc, eq_cases ta tc ga gc]
  simp only [Except.ok.injEq, Bool.and_eq_true, decide_eq_true_eq, true_and]
  refine ⟨hV.refl xa, ?_, ?_⟩
  · rintro ⟨⟨h1, h2⟩, h3⟩; exact ⟨⟨h1.symm, h2.symm⟩, hV.symm _ _ h3⟩
  · rintro ⟨⟨h1, h2⟩, h3⟩ ⟨⟨h4, h5⟩, h6⟩; exact ⟨⟨h1.trans h4, h2.trans h5⟩, hV.trans _ _ _ h3 h6⟩

/-- The full property on hashes: equal values have equal hashes. -/
def C31_full_statement_hash : Prop :=
  ∀ (mix : String → String → Int → Int) (c : Cls) (a b : Inst Lit), Ordinary c → IsValue c a → IsValue c b →
    TU.eq a b = .ok true → TU.hash mix a = TU.hash mix b

/-- It is false: a union that is not frozen is hashed by identity. -/
theorem C31_full_statement_hash_false : ¬ C31_full_statement_hash := by
  intro h
  have := h (fun _ _ _ => 0) shapeCls (made shapeCls 1 "circle" (.int 3)) (made shapeCls 2 "circle" (.int 3))
    ⟨by decide, by decide⟩ ⟨1, [("circle", .int 3)], rfl⟩ ⟨2, [("circle", .int 3)], rfl⟩ rfl
  exact absurd (Except.ok.inj this) (by decide)

/-- Proved: for frozen unions (such as `Option` and `Result`). -/
theorem C31_hash_partial [PyValue V] (hV : HashLawful V) (mix : String → String → Int → Int) (c : Cls) (hc : Ordinary c)
    (hf : c.frozen = true) (a b : Inst V) (ha : IsValue c a) (hb : IsValue c b) (h : TU.eq a b = .ok true) :
    ∃ n, TU.hash mix a = .ok n ∧ TU.hash mix b = .ok n := by
  obtain ⟨na, xa, _, _, _, ca, ta, pa, ga, _⟩ := isValue_cases hc ha
  obtain ⟨nb, xb, _, _, _, cb, tb, pb, gb, _⟩ := isValue_cases hc hb
  rw [eq_cases ta tb ga gb] at h
  simp only [Except.ok.injEq, Bool.and_eq_true, decide_eq_true_eq] at h
  obtain ⟨⟨_, h2⟩, h3⟩ := h
  refine ⟨mix c.name na (PyValue.hash xa), ?_, ?_⟩
  · rw [TU.hash, ca, if_pos hf, ta, pa]; rfl
  · rw [TU.hash, cb, if_pos hf, tb, pb, h2, hV _ _ h3]; rfl

/-- `a < b`, for values of one class in cases `x` and `y`: the case declared first is the lesser; within a case the payloads decide,
`<` being asked only for payloads that are not equal. -/
theorem C31_order [PyValue V] (c : Cls) (hc : Ordinary c) (a b : Inst V) (ha : IsValue c a) (hb : IsValue c b) (x y : String)
    (v w : V) (hx : tagOf a = .ok x) (hy : tagOf b = .ok y) (hv : payload a = .ok v) (hw : payload b = .ok w) :
    (x ≠ y → TU.lt a b = .ok (decide (c.fieldNames.idxOf x < c.fieldNames.idxOf y))) ∧
    (x = y → TU.lt a b = if PyValue.eq v w then .ok false else PyValue.lt v w) := by
  obtain ⟨na, xa, ma, _, _, ca, ta, pa, ga, ia, _⟩ := isValue_cases hc ha
  obtain ⟨nb, xb, mb, _, _, cb, tb, pb, gb, ib, _⟩ := isValue_cases hc hb
  rw [ta] at hx; rw [tb] at hy; rw [pa] at hv; rw [pb] at hw
  cases hx; cases hy; cases hv; cases hw
  rw [lt_cases (by rw [ca, cb]) ia ib pa pb, tupleLt]
  constructor
  · intro h
    rw [if_pos (fun h' => h (idxOf_inj ma mb h'))]
    rfl
  · rintro rfl
    rw [if_neg (by simp)]
    rfl

/-- With totally ordered payloads in every case, comparing never raises and exactly one of `a < b`, `a == b`, `b < a` holds. -/
theorem C31_trichotomy [PyValue V] (hV : EqLawful V) (c : Cls) (hc : Ordinary c) (P : String → V → Prop)
    (hP : ∀ x, TotalOn (P x)) (a b : Inst V) (ha : IsValue c a) (hb : IsValue c b)
    (pa : ∀ x v, tagOf a = .ok x → payload a = .ok v → P x v) (pb : ∀ x v, tagOf b = .ok x → payload b = .ok v → P x v) :
    (TU.lt a b = .ok true ∧ TU.eq a b = .ok false ∧ TU.lt b a = .ok false) ∨
    (TU.lt a b = .ok false ∧ TU.eq a b = .ok true ∧ TU.lt b a = .ok false) ∨
    (TU.lt a b = .ok false ∧ TU.eq a b = .ok false ∧ TU.lt b a = .ok true) := by
  obtain ⟨na, xa, ma, _, _, ca, ta, qa, ga, ia, _⟩ := isValue_cases hc ha
  obtain ⟨nb, xb, mb, _, _, cb, tb, qb, gb, ib, _⟩ := isValue_cases hc hb
  have pa := pa _ _ ta qa
  have pb := pb _ _ tb qb
  rw [lt_cases (by rw [ca, cb]) ia ib qa qb, lt_cases (by rw [ca, cb]) ib ia qb qa, eq_cases ta tb ga gb, ca, cb]
  simp only [tupleLt]
  by_cases hn : na = nb
  · subst hn
    simp only [ne_eq, not_true_eq_false, if_false, decide_true, Bool.true_and]
    cases he : PyValue.eq xa xb with
    | true =>
      rw [hV.symm _ _ he]
      exact .inr (.inl ⟨rfl, rfl, rfl⟩)
    | false =>
      have he' : PyValue.eq xb xa = false := by
        cases h : PyValue.eq xb xa with
        | false => rfl
        | true => rw [hV.symm _ _ h] at he; cases he
      rw [he']
      rcases (hP na).total xa xb pa pb he with ⟨h1, h2⟩ | ⟨h1, h2⟩
      · exact .inl ⟨h1, rfl, h2⟩
      · exact .inr (.inr ⟨h1, rfl, h2⟩)
  · have hi : c.fieldNames.idxOf na ≠ c.fieldNames.idxOf nb := fun h => hn (idxOf_inj ma mb h)
    simp only [ne_eq, hi, hi.symm, not_false_eq_true, if_true, hn, decide_false, Bool.and_false, Bool.false_and]
    rcases Nat.lt_or_gt_of_ne hi with h | h
    · refine .inl ⟨?_, by simp, ?_⟩
      · exact congrArg Except.ok (decide_eq_true h)
      · exact congrArg Except.ok (decide_eq_false (by omega))
    · refine .inr (.inr ⟨?_, by simp, ?_⟩)
      · exact congrArg Except.ok (decide_eq_false (by omega))
      · exact congrArg Except.ok (decide_eq_true h)

/-- ... and `<` is transitive. -/
theorem C31_transitive [PyValue V] (hV : EqLawful V) (cl : Cls) (hc : Ordinary cl) (P : String → V → Prop)
    (hP : ∀ x, TotalOn (P x)) (a b c : Inst V) (ha : IsValue cl a) (hb : IsValue cl b) (hcv : IsValue cl c)
    (pa : ∀ x v, tagOf a = .ok x → payload a = .ok v → P x v) (pb : ∀ x v, tagOf b = .ok x → payload b = .ok v → P x v)
    (pc : ∀ x v, tagOf c = .ok x → payload c = .ok v → P x v) (hab : TU.lt a b = .ok true) (hbc : TU.lt b c = .ok true) :
    TU.lt a c = .ok true := by
  obtain ⟨na, xa, ma, _, _, ca, ta, qa, ga, ia, _⟩ := isValue_cases hc ha
  obtain ⟨nb, xb, mb, _, _, cb, tb, qb, gb, ib, _⟩ := isValue_cases hc hb
  obtain ⟨nc, xc, mc, _, _, cc, tc, qc, gc, ic, _⟩ := isValue_cases hc hcv
  have pa := pa _ _ ta qa
  have pb := pb _ _ tb qb
  have pc := pc _ _ tc qc
  rw [lt_cases (by rw [ca, cb]) ia ib qa qb] at hab
  rw [lt_cases (by rw [cb, cc]) ib ic qb qc] at hbc
  rw [lt_cases (by rw [ca, cc]) ia ic qa qc]
  simp only [tupleLt] at *
  by_cases hn : na = nb
  · subst hn
    rw [if_neg (by simp)] at hab
    cases he : PyValue.eq xa xb with
    | true => rw [he, if_pos rfl] at hab; cases hab
    | false =>
      rw [he, if_neg (by simp)] at hab
      by_cases hm : na = nc
      · subst hm
        rw [if_neg (by simp)] at hbc ⊢
        cases he2 : PyValue.eq xb xc with
        | true => rw [he2, if_pos rfl] at hbc; cases hbc
        | false =>
          rw [he2, if_neg (by simp)] at hbc
          cases he3 : PyValue.eq xa xc with
          | false => exact (hP na).trans _ _ _ pa pb pc hab hbc
          | true =>
            have h1 := (hP na).congr xb xc xb xa pb pc pb pa (hV.refl _) (hV.symm _ _ he3) he2
            rcases (hP na).total xa xb pa pb he with ⟨_, h3⟩ | ⟨h2, _⟩
            · rw [h1, h3] at hbc; cases hbc
            · rw [h2] at hab; cases hab
      · have hi : cl.fieldNames.idxOf na ≠ cl.fieldNames.idxOf nc := fun h => hm (idxOf_inj mb mc h)
        rw [if_pos hi] at hbc ⊢
        exact hbc
  · have hi : cl.fieldNames.idxOf na ≠ cl.fieldNames.idxOf nb := fun h => hn (idxOf_inj ma mb h)
    rw [if_pos hi] at hab
    have h1 : cl.fieldNames.idxOf na < cl.fieldNames.idxOf nb := of_decide_eq_true (Except.ok.inj hab)
    by_cases hm : nb = nc
    · subst hm
      rw [if_pos hi]; exact hab
    · have hj : cl.fieldNames.idxOf nb ≠ cl.fieldNames.idxOf nc := fun h => hm (idxOf_inj mb mc h)
      rw [if_pos hj] at hbc
      have h2 : cl.fieldNames.idxOf nb < cl.fieldNames.idxOf nc := of_decide_eq_true (Except.ok.inj hbc)
      rw [if_pos (by omega)]
      exact congrArg Except.ok (decide_eq_true (by omega))

/-- the payloads of `Option[int]`: `None` under `none`, integers under `some` -/
def optionPayload (x : String) (v : Lit) : Prop := (x = "none" ∧ v = .none) ∨ (x = "some" ∧ ∃ n, v = .int n)

/-- the hypotheses of `C31_trichotomy` and `C31_transitive` hold for `Option[int]` -/
example : EqLawful Lit ∧ ∀ x, TotalOn (optionPayload x) := by
  refine ⟨⟨fun a => decide_eq_true rfl, fun a b h => decide_eq_true (of_decide_eq_true h).symm,
    fun a b c h h' => decide_eq_true ((of_decide_eq_true h).trans (of_decide_eq_true h'))⟩, ?_⟩
  intro x
  by_cases hx : x = "none"
  · subst hx
    have h : ∀ v, optionPayload "none" v → v = .none := by
      rintro v (⟨_, h⟩ | ⟨h, _⟩)
      · exact h
      · exact absurd h (by decide)
    refine ⟨?_, ?_, ?_⟩
    · intro a b ha hb h'; rw [h a ha, h b hb] at h'; cases h'
    · intro a b c ha hb hc h'; rw [h a ha, h b hb] at h'; cases h'
    · intro a b a' b' ha hb _ _ _ _ h'; rw [h a ha, h b hb] at h'; cases h'
  · have h : ∀ v, optionPayload x v → ∃ n, v = .int n := by
      rintro v (⟨h, _⟩ | ⟨_, h⟩)
      · exact absurd h hx
      · exact h
    refine ⟨?_, ?_, ?_⟩
    · intro a b ha hb h'
      obtain ⟨n, rfl⟩ := h a ha; obtain ⟨m, rfl⟩ := h b hb
      simp only [PyValue.eq, Lit.int.injEq, decide_eq_false_iff_not] at h'
      simp only [PyValue.lt, Except.ok.injEq, decide_eq_true_eq, decide_eq_false_iff_not]
      omega
    · intro a b c ha hb hc h1 h2
      obtain ⟨n, rfl⟩ := h a ha; obtain ⟨m, rfl⟩ := h b hb; obtain ⟨k, rfl⟩ := h c hc
      simp only [PyValue.lt, Except.ok.injEq, decide_eq_true_eq] at *
      omega
    · intro a b a' b' ha hb ha' hb' h1 h2 _
      rw [of_decide_eq_true h1, of_decide_eq_true h2]

/-- `Nothing < Some(3) < Some(5)`, and `Nothing < Nothing` is false without comparing `None` with `None` -/
example : TU.lt (made optionCls 1 "none" Lit.none) (made optionCls 2 "some" (.int 3)) = .ok true ∧
    TU.lt (made optionCls 2 "some" (Lit.int 3)) (made optionCls 3 "some" (.int 5)) = .ok true ∧
    TU.lt (made optionCls 1 "none" Lit.none) (made optionCls 4 "none" .none) = .ok false := ⟨rfl, rfl, rfl⟩

/-! ## C32 copy and pickle -/

/-- Copying gives a new value of the same class with the same tag and payload. -/
theorem C32_copy [PyValue V] (hV : EqLawful V) (c : Cls) (hc : Ordinary c) (u : Inst V) (hu : IsValue c u) (ident : Nat) :
    ∃ u', TU.copy ident u = .ok u' ∧ IsValue c u' ∧ TU.eq u' u = .ok true ∧ tagOf u' = tagOf u ∧ payload u' = payload u := by
  obtain ⟨name, v, m, n1, n2, cu, tu, pu, gu, _⟩ := isValue_cases hc hu
  obtain ⟨o1, o2⟩ := ordinary_ne hc m
  have hi : init c ident [(name, v)] = .ok (made c ident name v) :=
    (init_ok_iff c ident _ _).2 ⟨name, v, by simp [n1], m, n2, by simp [tagArg, tagMatches, n1], rfl⟩
  refine ⟨made c ident name v, ?_, ⟨ident, _, hi⟩, ?_, ?_, ?_⟩
  · rw [TU.copy, tu, pu, cu]; exact hi
  · rw [eq_cases (tagOf_made c ident name v n1) tu (getattr_made c ident name v o1 o2) gu]
    simp [made, cu, hV.refl]
  · rw [tu, tagOf_made c ident name v n1]
  · rw [pu, payload_made c ident name v n1 o1 o2]

/-- Deep copying replaces the payload by its deep copy; the result is equal if the deep copy of the payload is. -/
theorem C32_deepcopy [PyValue V] (dup : V → V) (hdup : ∀ v, PyValue.eq (dup v) v = true) (c : Cls) (hc : Ordinary c)
    (u : Inst V) (hu : IsValue c u) (ident : Nat) :
    ∃ u' v, TU.deepcopy dup ident u = .ok u' ∧ IsValue c u' ∧ TU.eq u' u = .ok true ∧ tagOf u' = tagOf u ∧
      payload u = .ok v ∧ payload u' = .ok (dup v) := by
  obtain ⟨name, v, m, n1, n2, cu, tu, pu, gu, _⟩ := isValue_cases hc hu
  obtain ⟨o1, o2⟩ := ordinary_ne hc m
  have hi : init c ident [(name, dup v)] = .ok (made c ident name (dup v)) :=
    (init_ok_iff c ident _ _).2 ⟨name, dup v, by simp [n1], m, n2, by simp [tagArg, tagMatches, n1], rfl⟩
  refine ⟨made c ident name (dup v), v, ?_, ⟨ident, _, hi⟩, ?_, ?_, pu, ?_⟩
  · rw [TU.deepcopy, tu, pu, cu]; exact hi
  · rw [eq_cases (tagOf_made c ident name _ n1) tu (getattr_made c ident name _ o1 o2) gu]
    simp [made, cu, hdup]
  · rw [tu, tagOf_made c ident name _ n1]
  · rw [payload_made c ident name _ n1 o1 o2]

/-- Pickling and unpickling, for a class whose field names are distinct (Python keeps them in a dictionary). -/
theorem C32_pickle [PyValue V] (hS : StrLawful V) (dup : V → V) (hdup : ∀ v, PyValue.eq (dup v) v = true)
    (hstr : ∀ s, dup (PyValue.ofString s) = PyValue.ofString s) (c : Cls) (hc : Ordinary c) (hn : c.fieldNames.Nodup)
    (u : Inst V) (hu : IsValue c u) (ident : Nat) :
    ∃ u' v, TU.pickle dup ident u = .ok u' ∧ IsValue c u' ∧ TU.eq u' u = .ok true ∧ tagOf u' = tagOf u ∧
      payload u = .ok v ∧ payload u' = .ok (dup v) := by
  obtain ⟨name, v, m, n1, n2, cu, tu, pu, gu, iu, fu, gt⟩ := isValue_cases hc hu
  obtain ⟨o1, o2⟩ := ordinary_ne hc m
  obtain ⟨state, hs1, hs2⟩ : ∃ state, getstate u = .ok state ∧
      init c ident (state.map (fun nv => (nv.1, dup nv.2))) = .ok (made c ident name (dup v)) := by
    have hname : attrObj u name = .ok v := by rw [attrObj, gu]; rfl
    have htag : attrObj u "tag" = .ok (PyValue.ofString name) := by rw [attrObj, gt]; rfl
    have hfil := filter_two c.fieldNames hn name "tag" n1 m
    rw [getstate, fu]
    rcases hfil with h | h | h <;> simp only [bind, Except.bind] <;> rw [h]
    · refine ⟨[(name, v)], by simp [List.mapM_cons, hname, bind, Except.bind, pure, Except.pure], ?_⟩
      refine (init_ok_iff c ident _ _).2 ⟨name, dup v, by simp [n1], m, n2, by simp [tagArg, tagMatches, n1], rfl⟩
    · refine ⟨[(name, v), ("tag", PyValue.ofString name)],
        by simp [List.mapM_cons, hname, htag, bind, Except.bind, pure, Except.pure], ?_⟩
      refine (init_ok_iff c ident _ _).2 ⟨name, dup v, by simp [n1], m, n2, ?_, rfl⟩
      simp [tagArg, tagMatches, n1, hstr, (hS.eq_iff name name).2 rfl]
    · refine ⟨[("tag", PyValue.ofString name), (name, v)],
        by simp [List.mapM_cons, hname, htag, bind, Except.bind, pure, Except.pure], ?_⟩
      refine (init_ok_iff c ident _ _).2 ⟨name, dup v, by simp [n1], m, n2, ?_, rfl⟩
      simp [tagArg, tagMatches, hstr, (hS.eq_iff name name).2 rfl]
  refine ⟨made c ident name (dup v), v, ?_, ⟨ident, _, hs2⟩, ?_, ?_, pu, ?_⟩
  · rw [TU.pickle, hs1, cu]; exact hs2
  · rw [eq_cases (tagOf_made c ident name _ n1) tu (getattr_made c ident name _ o1 o2) gu]
    simp [made, cu, hdup]
  · rw [tu, tagOf_made c ident name _ n1]
  · rw [payload_made c ident name _ n1 o1 o2]

example : StrLawful Lit ∧ optionCls.fieldNames.Nodup ∧
    (TU.pickle (V := Lit) id 9 (made optionCls 2 "some" (.int 3))).toOption.map tagOf = some (.ok "some") :=
  ⟨⟨fun _ => rfl, fun s t => by simp [PyValue.eqStr, PyValue.ofString]⟩, by decide, rfl⟩

/-! ## C91 `dataclasses.asdict` -/

/-- `dataclasses.asdict` of a value, for a class whose field names are distinct: a dictionary with the active case and, if the class
declares it, the tag; no other case is in it. -/
theorem C91_asdict [PyValue V] (conv : V → V) (c : Cls) (hc : Ordinary c) (hn : c.fieldNames.Nodup) (u : Inst V) (hu : IsValue c u) :
    ∃ name v d, tagOf u = .ok name ∧ payload u = .ok v ∧ TU.asdict conv u = .ok d ∧ (d.map Prod.fst).Nodup ∧
      ∀ key x, (key, x) ∈ d ↔
        (key = name ∧ x = conv v) ∨ (key = "tag" ∧ "tag" ∈ c.fieldNames ∧ x = conv (PyValue.ofString name)) := by
  obtain ⟨name, v, m, n1, n2, cu, tu, pu, gu, iu, fu, gt⟩ := isValue_cases hc hu
  have hname : attrObj u name = .ok v := by rw [attrObj, gu]; rfl
  have htag : attrObj u "tag" = .ok (PyValue.ofString name) := by rw [attrObj, gt]; rfl
  have hmem : ∀ f, f ∈ c.fieldNames.filter (fun f => f == name || f == "tag") ↔ f = name ∨ (f = "tag" ∧ "tag" ∈ c.fieldNames) := by
    intro f
    simp only [List.mem_filter, Bool.or_eq_true, beq_iff_eq]
    constructor
    · rintro ⟨h, rfl | rfl⟩
      · exact .inl rfl
      · exact .inr ⟨rfl, h⟩
    · rintro (rfl | ⟨rfl, h⟩)
      · exact ⟨m, .inl rfl⟩
      · exact ⟨h, .inr rfl⟩
  refine ⟨name, v, (c.fieldNames.filter (fun f => f == name || f == "tag")).map
    (fun f => (f, conv (if f = name then v else PyValue.ofString name))), tu, pu, ?_, ?_, ?_⟩
  · rw [TU.asdict, fu]
    simp only [bind, Except.bind]
    refine Eq.trans (mapM_congr_mem _ _ (fun f => pure (f, conv (if f = name then v else PyValue.ofString name))) ?_) List.mapM_pure
    intro f hf
    rcases (hmem f).1 hf with rfl | ⟨rfl, _⟩
    · rw [hname, if_pos rfl]
    · rw [htag, if_neg n1.symm]
  · rw [List.map_map]
    show (List.map id _).Nodup
    rw [List.map_id]
    exact hn.filter _
  · intro key x
    simp only [List.mem_map, Prod.mk.injEq]
    constructor
    · rintro ⟨f, hf, rfl, rfl⟩
      rcases (hmem f).1 hf with rfl | ⟨rfl, h⟩
      · exact .inl ⟨rfl, by rw [if_pos rfl]⟩
      · exact .inr ⟨rfl, h, by rw [if_neg n1.symm]⟩
    · rintro (⟨rfl, rfl⟩ | ⟨rfl, h, rfl⟩)
      · exact ⟨_, (hmem _).2 (.inl rfl), rfl, by rw [if_pos rfl]⟩
      · exact ⟨_, (hmem _).2 (.inr ⟨rfl, h⟩), rfl, by rw [if_neg n1.symm]⟩

/-- Calling the class with that dictionary makes a value with the same tag and the converted payload again. -/
theorem C91_round_trip [PyValue V] (hS : StrLawful V) (conv : V → V) (hstr : ∀ s, conv (PyValue.ofString s) = PyValue.ofString s)
    (c : Cls) (hc : Ordinary c) (hn : c.fieldNames.Nodup) (u : Inst V) (hu : IsValue c u) (ident : Nat) :
    ∃ d u' v, TU.asdict conv u = .ok d ∧ init c ident d = .ok u' ∧ tagOf u' = tagOf u ∧ payload u = .ok v ∧
      payload u' = .ok (conv v) := by
  obtain ⟨name, v, d, tu, pu, hd, hnd, hmem⟩ := C91_asdict conv c hc hn u hu
  obtain ⟨name', v', m, n1, n2, _, tu', pu', _⟩ := isValue_cases hc hu
  rw [tu] at tu'; rw [pu] at pu'
  cases tu'; cases pu'
  obtain ⟨o1, o2⟩ := ordinary_ne hc m
  refine ⟨d, made c ident name (conv v), v, hd, (init_ok_iff c ident _ _).2 ⟨name, conv v, ?_, m, n2, ?_, rfl⟩, ?_, pu,
    payload_made c ident name _ n1 o1 o2⟩
  · have hnd' : d.Nodup := List.Pairwise.of_map Prod.fst (fun _ _ h e => h (congrArg Prod.fst e)) hnd
    refine eq_singleton_of_nodup_mem (hnd'.filter _) ?_
    rintro ⟨k, x⟩
    rw [List.mem_filter, hmem]
    simp only [bne_iff_ne, ne_eq, Prod.mk.injEq]
    constructor
    · rintro ⟨⟨rfl, rfl⟩ | ⟨rfl, _⟩, h⟩
      · exact ⟨rfl, rfl⟩
      · exact absurd rfl h
    · rintro ⟨rfl, rfl⟩
      exact ⟨.inl ⟨rfl, rfl⟩, n1⟩
  · rw [tagArg]
    rcases h : d.find? (fun kv => kv.1 == "tag") with _ | ⟨k, x⟩
    · rw [h]; rfl
    · have hk : k = "tag" := by simpa using List.find?_some h
      subst hk
      rw [h]
      rcases (hmem _ _).1 (List.mem_of_find?_eq_some h) with ⟨h', _⟩ | ⟨_, _, rfl⟩
      · exact absurd h'.symm n1
      · simp [tagMatches, hstr, (hS.eq_iff name name).2 rfl]
  · rw [tu, tagOf_made c ident name _ n1]

example : TU.asdict (V := Lit) id (made optionCls 2 "some" (.int 3)) = .ok [("tag", .str "some"), ("some", .int 3)] := rfl

/-! ## C60 frozen values do not change -/

/-- Whatever assignments and deletions of attributes are tried on a value of a frozen union that declares its tag, its tag and its payload
stay what they were. -/
theorem C60_frozen [PyValue V] (c : Cls) (hc : Ordinary c) (hf : c.frozen = true) (ht : "tag" ∈ c.fieldNames) (u : Inst V)
    (hu : IsValue c u) (ops : List (AttrOp V)) :
    tagOf (ops.foldl (fun u op => op.run u) u) = tagOf u ∧ payload (ops.foldl (fun u op => op.run u) u) = payload u ∧
    ∀ name ∈ c.fieldNames, getattr (ops.foldl (fun u op => op.run u) u) name = getattr u name := by
  have hcls : u.cls = c := (isValue_cases hc hu).choose_spec.choose_spec.2.2.2.1
  have key : ∀ (ops : List (AttrOp V)) (w : Inst V), w.cls = c →
      ∀ name ∈ c.fieldNames, getattr (ops.foldl (fun u op => op.run u) w) name = getattr w name := by
    intro ops
    induction ops with
    | nil => intro w _ name _; rfl
    | cons op ops ih =>
      intro w hw name hname
      rw [List.foldl_cons, ih (op.run w) (by rw [run_cls, hw]) name hname]
      exact run_field op w name (by rw [hw]; exact hf) (by rw [hw]; exact hname)
  have h := key ops u hcls
  obtain ⟨name, v, m, n1, n2, cu, tu, pu, gu, iu, fu, gt⟩ := isValue_cases hc hu
  have ht' : tagOf (ops.foldl (fun u op => op.run u) u) = tagOf u := by
    rw [tagOf, h "tag" ht, ← tagOf]
  refine ⟨ht', ?_, h⟩
  rw [payload, ht', tu, payload, tu]
  simp only [bind, Except.bind]
  rw [h name m]

/-- The assignment itself raises `TypeError`. -/
theorem C60_assignment_raises (u : Inst V) (hf : u.cls.frozen = true) (name : String) (h : name ∈ u.cls.fieldNames)
    (value : Attr V) : (∃ msg, setattr u name value = .error (.typeError msg)) ∧
      ∃ msg, delattr u name = .error (.typeError msg) := by
  constructor
  · exact ⟨_, by rw [TU.setattr, if_pos ⟨hf, h⟩]⟩
  · exact ⟨_, by rw [TU.delattr, if_pos ⟨hf, h⟩]⟩

example : payload (([.set "some" (.obj (Lit.int 9)), .del "tag", .set "note" (.obj (Lit.int 1)), .del "note"]).foldl
    (fun u op => AttrOp.run op u) (made optionCls 2 "some" (Lit.int 3))) = .ok (.int 3) := rfl

end Expression.Props
