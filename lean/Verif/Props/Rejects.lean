import Verif.Lemmas.Serialize

/-!
# C126 Data that does not fit the annotation is rejected with a `ValidationError`
-/

namespace Expression.Props

open Serialize Spec Lemmas

/-- The full property: whatever the data, validation fails with nothing but `ValueError`. -/
def C126_full_statement : Prop :=
  ∀ (t : Ty) (v : Val) (e : PyErr), EveryLeaf RejectsPolitely t → validate t v = .error e → ∃ m, e = .valueError m

private theorem intLeaf_polite : RejectsPolitely intLeaf := by
  intro v e h
  cases v <;> cases h <;> exact ⟨_, rfl⟩

/-- It is false: the number 5 as a `Result[int, int]` raises `TypeError` (`"error" in 5`). -/
theorem C126_full_statement_false : ¬ C126_full_statement := by
  intro h
  obtain ⟨m, hm⟩ := h (.result (.leaf intLeaf) (.leaf intLeaf)) (.int 5) _ ⟨intLeaf_polite, intLeaf_polite⟩ rfl
  cases hm

private theorem lookup_eq (k : String) (fields : List (String × Val)) :
    fields.lookup k = (fields.find? (fun f => f.1 == k)).map (·.2) := by
  induction fields with
  | nil => rfl
  | cons f fs ih =>
    obtain ⟨a, b⟩ := f
    rw [List.lookup_cons, List.find?_cons]
    by_cases h : k = a
    · subst h; simp
    · have h1 : (k == a) = false := by simpa using h
      have h2 : (a == k) = false := by simpa using fun e => h e.symm
      rw [h1]
      simp only [h2]
      exact ih

private theorem validateCase_obj (k : String) (f : Val → Except PyErr Val) (fields : List (String × Val)) :
    validateCase k f (.obj fields) = match fields.lookup k with
      | none => .error (.valueError "Missing field")
      | some x => f x := by
  rw [lookup_eq]
  cases h : fields.find? (fun f => f.1 == k) with
  | none =>
    have : fields.any (fun f => f.1 == k) = false := by
      rw [List.any_eq_false]
      intro x hx
      exact List.find?_eq_none.1 h x hx
    simp [validateCase, contains, this, bind, Except.bind]
  | some x =>
    have : fields.any (fun f => f.1 == k) = true := by
      rw [List.any_eq_true]
      exact ⟨x, List.mem_of_find?_eq_some h, (by have := List.find?_some h; exact this)⟩
    simp [validateCase, contains, getItem, this, h, bind, Except.bind]

private theorem all_ok {f : Val → Except PyErr Val} {R : Val → Val → Prop} (xs : List Val)
    (h : ∀ x ∈ xs, (∀ u, f x = .ok u ↔ R x u) ∧ ∀ e, f x = .error e → ∃ m, e = .valueError m) :
    (∀ ys, validateAll f xs = .ok ys ↔ List.Forall₂ R xs ys) ∧ ∀ e, validateAll f xs = .error e → ∃ m, e = .valueError m := by
  induction xs with
  | nil =>
    refine ⟨fun ys => ?_, fun e he => by cases he⟩
    rw [List.forall₂_nil_left_iff]
    constructor
    · intro h; cases h; rfl
    · rintro rfl; rfl
  | cons x xs ih =>
    obtain ⟨h1, h2⟩ := h x (by simp)
    obtain ⟨h3, h4⟩ := ih fun y hy => h y (by simp [hy])
    cases hx : f x with
    | error e0 =>
      refine ⟨fun ys => ?_, fun e he => ?_⟩
      · constructor
        · intro h
          simp [validateAll, hx, bind, Except.bind] at h
        · intro h
          rw [List.forall₂_cons_left_iff] at h
          obtain ⟨y, ys', hy, _⟩ := h
          rw [← h1, hx] at hy; cases hy
      · simp [validateAll, hx, bind, Except.bind] at he
        exact he ▸ h2 _ hx
    | ok y =>
      have hy := (h1 y).1 hx
      cases hr : validateAll f xs with
      | error e0 =>
        refine ⟨fun ys => ?_, fun e he => ?_⟩
        · constructor
          · intro h
            simp [validateAll, hx, hr, bind, Except.bind] at h
          · intro h
            rw [List.forall₂_cons_left_iff] at h
            obtain ⟨y, ys', _, hys, _⟩ := h
            rw [← h3, hr] at hys; cases hys
        · simp [validateAll, hx, hr, bind, Except.bind] at he
          exact he ▸ h4 _ hr
      | ok ys0 =>
        refine ⟨fun ys => ?_, fun e he => ?_⟩
        · constructor
          · intro h
            simp [validateAll, hx, hr, bind, Except.bind] at h
            subst h
            exact .cons hy ((h3 _).1 hr)
          · intro h
            rw [List.forall₂_cons_left_iff] at h
            obtain ⟨z, zs, hz, hzs, rfl⟩ := h
            rw [← h1, hx] at hz
            rw [← h3, hr] at hzs
            cases hz; cases hzs
            simp [validateAll, hx, hr, bind, Except.bind]
        · simp [validateAll, hx, hr, bind, Except.bind] at he

/-- Proved: if the data has dictionaries (or results) wherever the annotation has `Result[...]`, validation returns what the data means, and if it
means nothing, the failure is a `ValueError`. -/
theorem C126_decides_partial (t : Ty) (v : Val) (hl : EveryLeaf RejectsPolitely t) (hv : Shaped t v) :
    (∀ u, validate t v = .ok u ↔ Reads t v u) ∧ ∀ e, validate t v = .error e → ∃ m, e = .valueError m := by
  induction t generalizing v with
  | leaf l => exact ⟨fun u => Iff.rfl, fun e he => hl v e he⟩
  | option t ih =>
    by_cases ho : OptionLike v
    · cases v <;> try exact absurd ho id
      · refine ⟨fun u => ?_, fun e he => by cases he⟩
        simp [Reads, OptionLike, validate, eq_comm]
      · refine ⟨fun u => ?_, fun e he => by cases he⟩
        simp [Reads, OptionLike, validate, eq_comm]
      · refine ⟨fun u => ?_, fun e he => by cases he⟩
        simp [Reads, OptionLike, validate, eq_comm]
    · obtain ⟨h1, h2⟩ := ih v hl (hv.resolve_left ho)
      rw [validate_option t v ho]
      cases hx : validate t v with
      | error e0 =>
        refine ⟨fun u => ?_, fun e he => ?_⟩
        · constructor
          · intro h; cases h
          · rintro (⟨⟨x, rfl⟩, _⟩ | ⟨rfl | rfl, _⟩ | ⟨_, x, rfl, h⟩)
            · exact absurd trivial ho
            · exact absurd trivial ho
            · exact absurd trivial ho
            · rw [← h1, hx] at h; cases h
        · cases he; exact h2 _ hx
      | ok y =>
        refine ⟨fun u => ?_, fun e he => by cases he⟩
        constructor
        · intro h; cases h
          exact .inr (.inr ⟨ho, y, rfl, (h1 y).1 hx⟩)
        · rintro (⟨⟨x, rfl⟩, _⟩ | ⟨rfl | rfl, _⟩ | ⟨_, x, rfl, h⟩)
          · exact absurd trivial ho
          · exact absurd trivial ho
          · exact absurd trivial ho
          · rw [← h1, hx] at h; cases h; rfl
  | result a b iha ihb =>
    rcases hv with hr | ⟨fields, rfl, hb, ha⟩
    · cases v <;> try exact absurd hr id
      · refine ⟨fun u => ?_, fun e he => by cases he⟩
        simp [Reads, IsResult, validate, eq_comm]
      · refine ⟨fun u => ?_, fun e he => by cases he⟩
        simp [Reads, IsResult, validate, eq_comm]
    · have key : ∀ u, Reads (.result a b) (.obj fields) u ↔
          ((∃ x e, fields.lookup "error" = some x ∧ Reads b x e ∧ u = .error e) ∨
            ((¬ ∃ x e, fields.lookup "error" = some x ∧ Reads b x e) ∧ ∃ x y, fields.lookup "ok" = some x ∧ Reads a x y ∧ u = .ok y)) := by
        intro u
        rw [Reads]
        constructor
        · rintro (⟨h, _⟩ | ⟨fs, hfs, h⟩)
          · cases h
          · cases hfs; exact h
        · exact fun h => .inr ⟨fields, rfl, h⟩
      have hval : validate (.result a b) (.obj fields) = orElse (do .ok (.error (← validateCase "error" (validate b) (.obj fields))))
          (fun _ => do .ok (.ok (← validateCase "ok" (validate a) (.obj fields)))) := rfl
      have second : (¬ ∃ x e, fields.lookup "error" = some x ∧ Reads b x e) →
          (∀ u, (do .ok (.ok (← validateCase "ok" (validate a) (.obj fields))) : Except PyErr Val) = .ok u ↔ Reads (.result a b) (.obj fields) u) ∧
          ∀ e, (do .ok (.ok (← validateCase "ok" (validate a) (.obj fields))) : Except PyErr Val) = .error e → ∃ m, e = .valueError m := by
        intro hno
        have key' : ∀ u, Reads (.result a b) (.obj fields) u ↔ ∃ x y, fields.lookup "ok" = some x ∧ Reads a x y ∧ u = .ok y := by
          intro u
          rw [key]
          constructor
          · rintro (⟨x, e, h1, h2, _⟩ | ⟨_, h⟩)
            · exact absurd ⟨x, e, h1, h2⟩ hno
            · exact h
          · exact fun h => .inr ⟨hno, h⟩
        rw [validateCase_obj]
        cases hok : fields.lookup "ok" with
        | none =>
          refine ⟨fun u => ?_, fun e he => ?_⟩
          · rw [key', hok]
            constructor
            · intro h; cases h
            · rintro ⟨x, y, h, _⟩; cases h
          · cases he; exact ⟨_, rfl⟩
        | some x =>
          obtain ⟨h1, h2⟩ := iha x hl.1 (ha x hok)
          change (∀ u, (validate a x >>= fun y => Except.ok (Val.ok y)) = _ ↔ _) ∧ ∀ e, (validate a x >>= fun y => Except.ok (Val.ok y)) = _ → _
          cases hx : validate a x with
          | error e0 =>
            refine ⟨fun u => ?_, fun e he => ?_⟩
            · rw [key', hok]
              constructor
              · intro h; cases h
              · rintro ⟨x', y, h, hy, _⟩
                cases h
                rw [← h1, hx] at hy; cases hy
            · cases he; exact h2 _ hx
          | ok y =>
            refine ⟨fun u => ?_, fun e he => by cases he⟩
            rw [key', hok]
            constructor
            · intro h; cases h
              exact ⟨x, y, rfl, (h1 y).1 hx, rfl⟩
            · rintro ⟨x', y', h, hy, rfl⟩
              cases h
              rw [← h1, hx] at hy; cases hy
              rfl
      rw [hval]
      rw [validateCase_obj "error"]
      cases herr : fields.lookup "error" with
      | none =>
        have hno : ¬ ∃ x e, fields.lookup "error" = some x ∧ Reads b x e := by
          rintro ⟨x, e, h, _⟩; rw [herr] at h; cases h
        exact second hno
      | some x =>
        obtain ⟨h1, h2⟩ := ihb x hl.2 (hb x herr)
        change (∀ u, orElse (validate b x >>= fun y => Except.ok (Val.error y)) _ = _ ↔ _) ∧
          ∀ e, orElse (validate b x >>= fun y => Except.ok (Val.error y)) _ = _ → _
        cases hx : validate b x with
        | error e0 =>
          obtain ⟨m, rfl⟩ := h2 _ hx
          have hno : ¬ ∃ x e, fields.lookup "error" = some x ∧ Reads b x e := by
            rintro ⟨x', e, h, he⟩
            rw [herr] at h; cases h
            rw [← h1, hx] at he; cases he
          exact second hno
        | ok y =>
          refine ⟨fun u => ?_, fun e he => by cases he⟩
          rw [key]
          constructor
          · intro h; cases h
            exact .inl ⟨x, y, herr, (h1 y).1 hx, rfl⟩
          · rintro (⟨x', y', h, hy, rfl⟩ | ⟨hno, _⟩)
            · rw [herr] at h; cases h
              rw [← h1, hx] at hy; cases hy
              rfl
            · exact absurd ⟨x, y, herr, (h1 y).1 hx⟩ hno
  | block t ih =>
    cases v with
    | block xs =>
      refine ⟨fun u => ?_, fun e he => by cases he⟩
      simp [Reads, validate, eq_comm]
    | list xs =>
      obtain ⟨h1, h2⟩ := all_ok (f := validate t) (R := Reads t) xs fun x hx => ih x hl (hv xs rfl x hx)
      rw [validate_block]
      cases hx : validateAll (validate t) xs with
      | error e0 =>
        refine ⟨fun u => ?_, fun e he => ?_⟩
        · constructor
          · intro h; cases h
          · rintro (⟨_, h, _⟩ | ⟨xs', ys, h, rfl, h'⟩)
            · cases h
            · cases h
              rw [← h1, hx] at h'; cases h'
        · cases he; exact h2 _ hx
      | ok ys =>
        refine ⟨fun u => ?_, fun e he => by cases he⟩
        constructor
        · intro h; cases h
          exact .inr ⟨xs, ys, rfl, rfl, (h1 ys).1 hx⟩
        · rintro (⟨_, h, _⟩ | ⟨xs', ys', h, rfl, h'⟩)
          · cases h
          · cases h
            rw [← h1, hx] at h'; cases h'
            rfl
    | _ =>
      refine ⟨fun u => ?_, fun e he => ?_⟩
      · simp [Reads, validate]
      · cases he; exact ⟨_, rfl⟩

/-- Without `Result[...]` in the annotation there is no condition on the data. -/
theorem C126_no_result (t : Ty) (v : Val) (hl : EveryLeaf RejectsPolitely t) (ht : NoResult t) :
    (∀ u, validate t v = .ok u ↔ Reads t v u) ∧ ∀ e, validate t v = .error e → ∃ m, e = .valueError m := by
  refine C126_decides_partial t v hl ?_
  clear hl
  induction t generalizing v with
  | leaf l => trivial
  | option t ih => exact .inr (ih v ht)
  | result a b => cases ht
  | block t ih => exact fun xs _ x _ => ih x ht

/-- Data for a `Result[...]` that is neither a result nor a dictionary is never accepted, and what is raised depends on it: numbers, `None` and other
objects raise `TypeError`; a string raises `TypeError` if `error` or `ok` is a part of it, a list if one of these is an element, and `ValueError`
otherwise. -/
theorem C126_not_a_dictionary (a b : Ty) (v : Val) (h1 : ¬ IsResult v) (h2 : ∀ fields, v ≠ .obj fields) :
    ∃ e, validate (.result a b) v = .error e ∧
      ((∃ m, e = .valueError m) ↔
        (∃ s, v = .str s ∧ ¬ "error".toList <:+: s.toList ∧ ¬ "ok".toList <:+: s.toList) ∨
        ∃ xs, v = .list xs ∧ .str "error" ∉ xs ∧ .str "ok" ∉ xs) ∧
      ((∃ m, e = .valueError m) ∨ ∃ m, e = .typeError m) := by
  have hl : ∀ (k : String) (xs : List Val) (c : Bool), contains k (.list xs) = .ok c → (c = false ↔ Val.str k ∉ xs) := by
    intro k xs c hc
    cases hc
    rw [List.any_eq_false]
    constructor
    · exact fun h hk => h _ hk (by simp)
    · intro h x hx hb
      cases x <;> try cases hb
      exact h (of_decide_eq_true hb ▸ hx)
  have both : ∀ (c1 c2 : Bool), contains "error" v = .ok c1 → contains "ok" v = .ok c2 → (∀ k, getItem k v = .error (.typeError "indices must be integers")) →
      ∃ e, validate (.result a b) v = .error e ∧ ((∃ m, e = .valueError m) ↔ c1 = false ∧ c2 = false) ∧
        ((∃ m, e = .valueError m) ∨ ∃ m, e = .typeError m) := by
    intro c1 c2 e1 e2 e3
    rw [validate_result _ _ _ (by cases v <;> first | exact id | exact absurd trivial h1)]
    cases c1
    · cases c2
      · exact ⟨.valueError "Missing field", by simp [orElse, validateCase, e1, e2, bind, Except.bind], by simp, .inl ⟨_, rfl⟩⟩
      · exact ⟨.typeError "indices must be integers", by simp [orElse, validateCase, e1, e2, e3, bind, Except.bind], by simp, .inr ⟨_, rfl⟩⟩
    · exact ⟨.typeError "indices must be integers", by simp [orElse, validateCase, e1, e3, bind, Except.bind], by simp, .inr ⟨_, rfl⟩⟩
  cases v with
  | obj fields => exact absurd rfl (h2 fields)
  | ok x => exact absurd trivial h1
  | error x => exact absurd trivial h1
  | str s =>
    obtain ⟨e, he, h3, h4⟩ := both _ _ rfl rfl (fun _ => rfl)
    refine ⟨e, he, h3.trans ?_, h4⟩
    rw [decide_eq_false_iff_not, decide_eq_false_iff_not]
    constructor
    · exact fun h => .inl ⟨s, rfl, h.1, h.2⟩
    · rintro (⟨s', h, h5, h6⟩ | ⟨xs, h, _⟩) <;> cases h
      exact ⟨h5, h6⟩
  | list xs =>
    obtain ⟨e, he, h3, h4⟩ := both _ _ rfl rfl (fun _ => rfl)
    refine ⟨e, he, h3.trans ?_, h4⟩
    rw [hl "error" xs _ rfl, hl "ok" xs _ rfl]
    constructor
    · exact fun h => .inr ⟨xs, rfl, h.1, h.2⟩
    · rintro (⟨s', h, _⟩ | ⟨xs', h, h5, h6⟩) <;> cases h
      exact ⟨h5, h6⟩
  | _ => exact ⟨_, rfl, by simp, .inr ⟨_, rfl⟩⟩

/-- `{"ok": 3}` as a `Result[int, Block[int]]`; and the word `ok` alone -/
example : validate (.result (.leaf intLeaf) (.block (.leaf intLeaf))) (.obj [("ok", .int 3)]) = .ok (.ok (.int 3)) :=
  ((C126_decides_partial (.result (.leaf intLeaf) (.block (.leaf intLeaf))) (.obj [("ok", .int 3)]) ⟨intLeaf_polite, intLeaf_polite⟩ (.inr ⟨_, rfl, by simp [List.lookup, Shaped], by simp [Shaped]⟩)).1 _).2
    (.inr ⟨_, rfl, .inr ⟨by simp [List.lookup], .int 3, .int 3, rfl, rfl, rfl⟩⟩)

example : validate (.result (.leaf intLeaf) (.leaf intLeaf)) (.str "look") = .error (.typeError "indices must be integers") := rfl

end Expression.Props
