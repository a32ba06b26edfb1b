import Verif.Model.UnionOrder
import Verif.Props.UnionClass2

/-! # C157: `<`, `>`, `<=` and `>=` on values of ordered unions and of their subclasses -/

namespace Expression.Props

open TU Spec Lemmas

variable {V : Type}

/-- classes that add nothing to how their values are made and compared -/
def NoCompare (c : ClassDef V) : Prop := PlainClass c ∧ ∀ k : Cmp, k.method ∉ c.own

/-- The order of the values in cases `x` and `y`, with payloads `v` and `w`, of a union with these cases: by the place of the case first, then by payload. -/
def CaseBefore [PyValue V] (cases : List String) (x : String) (v : V) (y : String) (w : V) : Except PyErr Bool :=
  if x ≠ y then .ok (decide (cases.idxOf x < cases.idxOf y)) else if PyValue.eq v w then .ok false else PyValue.lt v w

/-- where the methods of comparison come from, for a union and its subclasses -/
theorem resolve_compare {d : ClassDef V} {f : Flags} (hd : d.deco = some f) (ho : ∀ k : Cmp, k.method ∉ d.own) {subs : List (ClassDef V)}
    (hs : ∀ c ∈ subs, NoCompare c) (k : Cmp) :
    resolve (subs ++ [d]) k.method = if k = .lt ∧ f.order = true then .generated d.id else .object := by
  induction subs with
  | nil =>
    have hb : classDict.body d k.method = none := by
      rw [classDict.body, if_neg (ho k), if_neg (fun h => by cases k <;> exact absurd h.1 (by decide))]
    rw [List.nil_append, resolve, classDict, hd]
    simp only [hb]
    cases k <;> cases h : f.order <;> simp [Flags.assigns, Cmp.method, h, resolve]
  | cons c subs ih =>
    obtain ⟨⟨h1, _⟩, h2⟩ := hs c (by simp)
    have e : classDict c k.method = none := by
      rw [classDict, h1]
      simp only [classDict.body, if_neg (h2 k)]
      exact if_neg (fun h => by cases k <;> exact absurd h.1 (by decide))
    rw [List.cons_append, resolve, e]
    exact ih fun c hc => hs c (by simp [hc])

/-- the operator asks both operands, in one of the two orders -/
theorem opCmp_asks [PyValue V] (written : Nat → Cmp → Obj V → Obj V → Except PyErr (Option Bool)) (c : Cmp) (a b : Obj V) :
    ∃ sub : Bool, opCmp written c a b = (do
      let first ← if sub then callCmp written c.reflected b a else callCmp written c a b
      match first with
      | some r => .ok r
      | none =>
        match ← if sub then callCmp written c a b else callCmp written c.reflected b a with
        | some r => .ok r
        | none => .error (.typeError "comparison not supported between instances")) := ⟨_, rfl⟩

/-- The full property: values of a union declared with `order=True` can be compared with all four operators. -/
def C157_full_statement : Prop :=
  ∀ (written : Nat → Cmp → Obj Lit → Obj Lit → Except PyErr (Option Bool)) (d : ClassDef Lit) (f : Flags), d.deco = some f → f.order = true →
    "__init__" ∉ d.own → "_index" ∉ d.ownFields → "__dataclass_fields__" ∉ d.ownFields → (∀ k : Cmp, k.method ∉ d.own) →
    ∀ (i j : Nat) (x : String) (m n : Int) (a b : Obj Lit), x ≠ "tag" → make [d] i [(x, .int m)] = .ok a → make [d] j [(x, .int n)] = .ok b →
      ∀ k : Cmp, ∃ r, opCmp written k a b = .ok r

/-- **C157 (`<` and `>`).** Values of an ordered union and of its plain subclasses are ordered by the place of their cases and then by payload, whichever of the classes they
were made by and on whichever side they stand; `a > b` is `b < a`. -/
theorem C157_less_partial [PyValue V] (written : Nat → Cmp → Obj V → Obj V → Except PyErr (Option Bool)) (d : ClassDef V) (f : Flags)
    (hd : d.deco = some f) (hf : f.order = true) (hi : "__init__" ∉ d.own) (h1 : "_index" ∉ d.ownFields) (h2 : "__dataclass_fields__" ∉ d.ownFields)
    (ho : ∀ k : Cmp, k.method ∉ d.own) (sub1 sub2 : List (ClassDef V)) (hs1 : ∀ c ∈ sub1, NoCompare c) (hs2 : ∀ c ∈ sub2, NoCompare c)
    (i j : Nat) (x y : String) (v w : V) (hx : x ≠ "tag") (hy : y ≠ "tag") (a b : Obj V)
    (ha : make (sub1 ++ [d]) i [(x, v)] = .ok a) (hb : make (sub2 ++ [d]) j [(y, w)] = .ok b) :
    opCmp written .lt a b = CaseBefore d.ownFields x v y w ∧ opCmp written .gt b a = CaseBefore d.ownFields x v y w := by
  obtain ⟨_, mx, rfl⟩ := (make_ok_iff (fun c hc => (hs1 c hc).1) hd hi i x v hx a).1 ha
  obtain ⟨_, my, rfl⟩ := (make_ok_iff (fun c hc => (hs2 c hc).1) hd hi j y w hy b).1 hb
  obtain ⟨ta, pa⟩ := stored_reads h1 h2 hx mx i (sub1 ++ [d]) v
  obtain ⟨tb, pb⟩ := stored_reads h1 h2 hy my j (sub2 ++ [d]) w
  have ix : ∀ (n : Nat) (mro : List (ClassDef V)) (z : String) (u : V), (⟨n, mro, stored d.ownFields z u⟩ : Obj V).index = .ok (d.ownFields.idxOf z) := by
    intro n mro z u
    rw [Obj.index]
    simp only [lookup_stored]
    rfl
  have e1 : callCmp written .lt ⟨i, sub1 ++ [d], stored d.ownFields x v⟩ ⟨j, sub2 ++ [d], stored d.ownFields y w⟩ =
      (CaseBefore d.ownFields x v y w).map some := by
    rw [callCmp, resolve_compare hd ho hs1, if_pos ⟨rfl, hf⟩]
    simp only [ltGenerated, isA_last, if_true, ix, ta, tb, pa, pb, bind, Except.bind]
    have ht : tupleLt (d.ownFields.idxOf x) v (d.ownFields.idxOf y) w = CaseBefore d.ownFields x v y w := by
      rw [tupleLt, CaseBefore]
      by_cases hxy : x = y
      · subst hxy
        simp only [ne_eq, not_true_eq_false, if_false]
        rfl
      · rw [if_pos hxy, if_pos fun h => hxy (idxOf_inj mx my h)]
        rfl
    rw [ht]
    cases CaseBefore d.ownFields x v y w <;> rfl
  have e2 : callCmp written .gt ⟨j, sub2 ++ [d], stored d.ownFields y w⟩ ⟨i, sub1 ++ [d], stored d.ownFields x v⟩ = .ok none := by
    rw [callCmp, resolve_compare hd ho hs2, if_neg (fun h => absurd h.1 (by decide))]
  constructor
  · obtain ⟨sub, h⟩ := opCmp_asks written .lt ⟨i, sub1 ++ [d], stored d.ownFields x v⟩ ⟨j, sub2 ++ [d], stored d.ownFields y w⟩
    rw [h]
    simp only [Cmp.reflected, e1, e2]
    cases sub <;> cases CaseBefore d.ownFields x v y w <;> rfl
  · obtain ⟨sub, h⟩ := opCmp_asks written .gt ⟨j, sub2 ++ [d], stored d.ownFields y w⟩ ⟨i, sub1 ++ [d], stored d.ownFields x v⟩
    rw [h]
    simp only [Cmp.reflected, e1, e2]
    cases sub <;> cases CaseBefore d.ownFields x v y w <;> rfl

/-- **C157 (`<=` and `>=`).** They raise `TypeError` on all values of unions and plain subclasses, ordered or not, unless a class writes them; so do `<` and `>` where the union is
not declared with `order=True`. -/
theorem C157_unsupported [PyValue V] (written : Nat → Cmp → Obj V → Obj V → Except PyErr (Option Bool)) (d e : ClassDef V) (f g : Flags)
    (hd : d.deco = some f) (he : e.deco = some g) (ho : ∀ k : Cmp, k.method ∉ d.own) (ho' : ∀ k : Cmp, k.method ∉ e.own)
    (sub1 sub2 : List (ClassDef V)) (hs1 : ∀ c ∈ sub1, NoCompare c) (hs2 : ∀ c ∈ sub2, NoCompare c) (a b : Obj V)
    (ha : a.mro = sub1 ++ [d]) (hb : b.mro = sub2 ++ [e]) (k : Cmp) (hk : k = .le ∨ k = .ge ∨ (f.order = false ∧ g.order = false)) :
    ∃ msg, opCmp written k a b = .error (.typeError msg) := by
  have e1 : callCmp written k a b = .ok none := by
    rw [callCmp, ha, resolve_compare hd ho hs1, if_neg]
    rintro ⟨rfl, h⟩
    rcases hk with h' | h' | h'
    · cases h'
    · cases h'
    · rw [h'.1] at h; cases h
  have e2 : callCmp written k.reflected b a = .ok none := by
    rw [callCmp, hb, resolve_compare he ho' hs2, if_neg]
    rintro ⟨h, h3⟩
    rcases hk with rfl | rfl | h'
    · cases h
    · cases h
    · rw [h'.2] at h3; cases h3
  refine ⟨"comparison not supported between instances", ?_⟩
  rw [opCmp]
  simp only [e1, e2, ite_self, bind, Except.bind]

/-- **C157 (other unions).** Comparing with a value of a union that is not related raises `TypeError`, with each of the operators. -/
theorem C157_unrelated [PyValue V] (written : Nat → Cmp → Obj V → Obj V → Except PyErr (Option Bool)) (d e : ClassDef V) (f g : Flags)
    (hd : d.deco = some f) (he : e.deco = some g) (ho : ∀ k : Cmp, k.method ∉ d.own) (ho' : ∀ k : Cmp, k.method ∉ e.own)
    (sub1 sub2 : List (ClassDef V)) (hs1 : ∀ c ∈ sub1, NoCompare c) (hs2 : ∀ c ∈ sub2, NoCompare c) (a b : Obj V)
    (ha : a.mro = sub1 ++ [d]) (hb : b.mro = sub2 ++ [e]) (h1 : a.isA e.id = false) (h2 : b.isA d.id = false) (k : Cmp) :
    ∃ msg, opCmp written k a b = .error (.typeError msg) := by
  have e1 : callCmp written k a b = .ok none := by
    rw [callCmp, ha, resolve_compare hd ho hs1]
    by_cases h : k = .lt ∧ f.order = true
    · rw [if_pos h]
      simp only [ltGenerated, h2, Bool.false_eq_true, if_false]
    · rw [if_neg h]
  have e2 : callCmp written k.reflected b a = .ok none := by
    rw [callCmp, hb, resolve_compare he ho' hs2]
    by_cases h : k.reflected = .lt ∧ g.order = true
    · rw [if_pos h]
      simp only [ltGenerated, h1, Bool.false_eq_true, if_false]
    · rw [if_neg h]
  refine ⟨"comparison not supported between instances", ?_⟩
  rw [opCmp]
  simp only [e1, e2, ite_self, bind, Except.bind]

theorem try_noCompare : ∀ c ∈ [(tryDef : ClassDef V)], NoCompare c := by
  intro c hc
  obtain rfl := List.mem_singleton.1 hc
  exact ⟨⟨rfl, by simp [tryDef]⟩, fun k => by cases k <;> simp [tryDef, Cmp.method]⟩

theorem result_noCompare : ∀ k : Cmp, k.method ∉ (resultDef : ClassDef V).own := fun k => by cases k <;> simp [resultDef, Cmp.method]

/-- `Ok(1) <= Ok(2)` raises. -/
theorem C157_full_statement_false : ¬ C157_full_statement := by
  intro h
  obtain ⟨a, ha⟩ : ∃ a, make [resultDef] 0 [("ok", Lit.int 1)] = .ok a := ⟨_, rfl⟩
  obtain ⟨b, hb⟩ : ∃ b, make [resultDef] 1 [("ok", Lit.int 2)] = .ok b := ⟨_, rfl⟩
  obtain ⟨r, hr⟩ := h (fun _ _ _ _ => .ok none) resultDef _ rfl rfl (by decide) (by decide) (by decide) result_noCompare 0 1 "ok" 1 2 a b (by decide) ha hb .le
  obtain ⟨msg, he⟩ := C157_unsupported (fun _ _ _ _ => .ok none) (resultDef : ClassDef Lit) resultDef _ _ rfl rfl result_noCompare result_noCompare [] []
    (by simp) (by simp) a b (by cases ha; rfl) (by cases hb; rfl) .le (.inl rfl)
  exact nomatch hr.symm.trans he

/-- `Success(3) < Error(1)`, `Error(1) > Success(3)` -/
example (written : Nat → Cmp → Obj Lit → Obj Lit → Except PyErr (Option Bool)) (s e : Obj Lit) (hs : success 0 (Lit.int 3) = .ok s)
    (he : make [resultDef] 1 [("error", Lit.int 1)] = .ok e) : opCmp written .lt s e = .ok true ∧ opCmp written .gt e s = .ok true :=
  C157_less_partial written resultDef _ rfl rfl (by decide) (by decide) (by decide) result_noCompare [tryDef] [] try_noCompare (by simp) 0 1 "ok" "error"
    (Lit.int 3) (Lit.int 1) (by decide) (by decide) s e hs he

/-- `Some(1) < Ok(1)` raises -/
example (written : Nat → Cmp → Obj Lit → Obj Lit → Except PyErr (Option Bool)) (o r : Obj Lit) (ho : make [optionDef] 0 [("some", Lit.int 1)] = .ok o)
    (hr : make [resultDef] 1 [("ok", Lit.int 1)] = .ok r) : ∃ msg, opCmp written .lt o r = .error (.typeError msg) := by
  cases ho; cases hr
  exact C157_unrelated written optionDef resultDef _ _ rfl rfl (fun k => by cases k <;> simp [optionDef, Cmp.method]) result_noCompare [] [] (by simp) (by simp)
    _ _ rfl rfl rfl rfl .lt

/-- **C157 (which operand is asked).** If the class of the right operand is a proper subclass of that of the left one and writes the reflected method, that method decides when it
gives an answer; otherwise a method that the class of the left operand writes decides when it gives an answer. -/
theorem C157_asked [PyValue V] (written : Nat → Cmp → Obj V → Obj V → Except PyErr (Option Bool)) (k : Cmp) (a b : Obj V) (c e : ClassDef V)
    (ra rb : List (ClassDef V)) (ha : a.mro = c :: ra) (hb : b.mro = e :: rb) (id : Nat) (r : Bool) :
    (e.id ≠ c.id → (∃ p ∈ rb, p.id = c.id) → resolve b.mro k.reflected.method = .written id → written id k.reflected b a = .ok (some r) →
      opCmp written k a b = .ok r) ∧
    ((e.id = c.id ∨ ∀ p ∈ e :: rb, p.id ≠ c.id) → resolve a.mro k.method = .written id → written id k a b = .ok (some r) →
      opCmp written k a b = .ok r) := by
  constructor
  · rintro h1 ⟨p, hp, hpc⟩ h2 h3
    have hs : (b.isA c.id && (b.mro.head?.map (·.id) != some c.id)) = true := by
      rw [Obj.isA, hb, Bool.and_eq_true]
      exact ⟨List.any_eq_true.2 ⟨p, by simp [hp], by simp [hpc]⟩, by simp [h1]⟩
    rw [opCmp, ha]
    simp only [List.head?_cons, hs, if_true]
    rw [callCmp, h2]
    simp only [h3]
    rfl
  · intro h1 h2 h3
    have hs : (b.isA c.id && (b.mro.head?.map (·.id) != some c.id)) = false := by
      rw [Obj.isA, hb, Bool.and_eq_false_iff]
      rcases h1 with h | h
      · exact .inr (by simp [h])
      · exact .inl (List.any_eq_false.2 fun p hp => by simpa using h p hp)
    have hc : callCmp written k a b = .ok (some r) := by
      rw [callCmp, h2]
      exact h3
    rw [opCmp]
    simp only [ha, List.head?_cons, hs, Bool.false_eq_true, if_false, hc]
    rfl

/-- a subclass of `Result` that writes `__gt__`, always true: `Ok(1) < Sub(ok=1)` is true -/
example : opCmp (V := Lit) (fun _ _ _ _ => .ok (some true)) .lt ⟨0, [resultDef], []⟩
    ⟨1, [⟨7, "Sub", ["__gt__"], [], none, fun _ a => .ok a⟩, resultDef], []⟩ = .ok true :=
  (C157_asked _ .lt _ _ resultDef _ [] [resultDef] rfl rfl 7 true).1 (by decide) ⟨resultDef, by simp, rfl⟩ rfl rfl

end Expression.Props
