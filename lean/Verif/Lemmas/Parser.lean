import Verif.Lemmas.Seq2
import Verif.Lemmas.Block
import Verif.Spec.Parse

/-! # Parsers -/

namespace Expression.Lemmas.Parser

open Expression Expression.Parser PyD Spec Expression.Lemmas

variable {σ ρ α β γ δ : Type}

/-! ## bind, and what is a bind -/

/-- what `bind` does after the first parser -/
def bindStep (f : α → PyD σ (Parser σ β)) : Res (α × Remaining) String → PyD σ (Res (β × Remaining) String)
  | .ok (v, r) => f v >>= fun q => q r
  | .error e => pure (.error e)

theorem bind_eq (f : α → PyD σ (Parser σ β)) (p : Parser σ α) (inp : Remaining) :
    Parser.bind f p inp = p inp >>= bindStep f := by
  refine bind_congr fun o => ?_
  rcases o with ⟨_, _⟩ | _ <;> rfl

theorem map_eq (f : α → PyD σ β) (p : Parser σ α) :
    Parser.map f p = Parser.bind (fun a => do let b ← f a; pure (preturn b)) p := by
  funext inp
  rw [bind_eq]
  refine bind_congr fun o => ?_
  rcases o with ⟨_, _⟩ | _
  · simp only [bindStep, bind_assoc, pure_bind]; rfl
  · rfl

theorem andThen_eq (p : Parser σ α) (q : Parser σ β) :
    andThen p q = Parser.bind (fun a => pure (Parser.bind (fun b => pure (preturn (a, b))) q)) p := by
  funext inp
  rw [bind_eq]
  refine bind_congr fun o => ?_
  rcases o with ⟨_, _⟩ | _
  · simp only [bindStep, pure_bind]
    rw [bind_eq]
    refine bind_congr fun o => ?_
    rcases o with ⟨_, _⟩ | _ <;> rfl
  · rfl

theorem many1_eq (p : Parser σ α) :
    many1 p = Parser.bind (fun a => pure (Parser.map (fun (b : Block α) => pure (b.cons a)) (many p))) p := by
  funext inp
  rw [bind_eq]
  refine bind_congr fun o => ?_
  rcases o with ⟨v, mid⟩ | _
  · simp only [bindStep, pure_bind]
    change _ = (many p mid >>= fun o => _)
    unfold many
    rw [bind_assoc]
    refine bind_congr fun o => ?_
    rcases o with ⟨_, _⟩
    simp only [pure_bind]
  · rfl

theorem bind_inv {f : α → PyD σ (Parser σ β)} {p : Parser σ α} {inp : Remaining} {w : σ} {r}
    (h : (Parser.bind f p inp).exec w = some r) :
    (∃ e w', Raises p w inp e w' ∧ r = (.error e, w')) ∨ (∃ e w', Fails p w inp e w' ∧ r = (.ok (.error e), w')) ∨
      (∃ v mid w1, Succeeds p w inp v mid w1 ∧ (f v >>= fun q => q mid).exec w1 = some r) := by
  rw [bind_eq] at h
  rcases exec_bind_some h with ⟨e, h1, h2⟩ | ⟨o, w1, h1, h2⟩
  · exact .inl ⟨e, r.2, h1, by rw [← h2]⟩
  · rcases o with ⟨v, mid⟩ | e
    · exact .inr (.inr ⟨v, mid, w1, h1, h2⟩)
    · simp only [bindStep, exec_pure, Option.some.injEq] at h2
      exact .inr (.inl ⟨e, w1, h1, h2.symm⟩)

theorem bind_succ {f : α → PyD σ (Parser σ β)} {p : Parser σ α} {inp mid : Remaining} {w w1 : σ} {v : α}
    (h : Succeeds p w inp v mid w1) : (Parser.bind f p inp).exec w = (f v >>= fun q => q mid).exec w1 := by
  rw [bind_eq, exec_bind, h]; rfl

theorem bind_fail {f : α → PyD σ (Parser σ β)} {p : Parser σ α} {inp : Remaining} {w w1 : σ} {e : String}
    (h : Fails p w inp e w1) : Fails (Parser.bind f p) w inp e w1 := by
  unfold Fails
  rw [bind_eq, exec_bind, h]; rfl

theorem bind_raise {f : α → PyD σ (Parser σ β)} {p : Parser σ α} {inp : Remaining} {w w1 : σ} {e : PyErr}
    (h : Raises p w inp e w1) : Raises (Parser.bind f p) w inp e w1 := by
  unfold Raises
  rw [bind_eq, exec_bind, h]

theorem bind_succ_iff {f : α → PyD σ (Parser σ β)} {p : Parser σ α} {inp rest : Remaining} {w w' : σ} {v : β} :
    Succeeds (Parser.bind f p) w inp v rest w' ↔ ∃ a mid w1 q w2, Succeeds p w inp a mid w1 ∧
      (f a).exec w1 = some (.ok q, w2) ∧ Succeeds q w2 mid v rest w' := by
  constructor
  · intro h
    rcases bind_inv h with ⟨_, _, _, h2⟩ | ⟨_, _, _, h2⟩ | ⟨a, mid, w1, h1, h2⟩
    · cases h2
    · cases h2
    · rcases exec_bind_some h2 with ⟨_, _, h4⟩ | ⟨q, w2, h3, h4⟩
      · cases h4
      · exact ⟨a, mid, w1, q, w2, h1, h3, h4⟩
  · rintro ⟨a, mid, w1, q, w2, h1, h2, h3⟩
    unfold Succeeds
    rw [bind_succ h1, exec_bind, h2]; exact h3

theorem bind_fail_iff {f : α → PyD σ (Parser σ β)} {p : Parser σ α} {inp : Remaining} {w w' : σ} {e : String} :
    Fails (Parser.bind f p) w inp e w' ↔ Fails p w inp e w' ∨ ∃ a mid w1 q w2, Succeeds p w inp a mid w1 ∧
      (f a).exec w1 = some (.ok q, w2) ∧ Fails q w2 mid e w' := by
  constructor
  · intro h
    rcases bind_inv h with ⟨_, _, _, h2⟩ | ⟨_, _, h1, h2⟩ | ⟨a, mid, w1, h1, h2⟩
    · cases h2
    · cases h2; exact .inl h1
    · rcases exec_bind_some h2 with ⟨_, _, h4⟩ | ⟨q, w2, h3, h4⟩
      · cases h4
      · exact .inr ⟨a, mid, w1, q, w2, h1, h3, h4⟩
  · rintro (h | ⟨a, mid, w1, q, w2, h1, h2, h3⟩)
    · exact bind_fail h
    · unfold Fails
      rw [bind_succ h1, exec_bind, h2]; exact h3

theorem preturn_succ_iff {x v : α} {w w' : σ} {inp rest : Remaining} :
    Succeeds (preturn x) w inp v rest w' ↔ v = x ∧ rest = inp ∧ w' = w := by
  simp only [Succeeds, preturn, exec_pure, Option.some.injEq, Prod.mk.injEq, Except.ok.injEq, Res.ok.injEq]
  constructor
  · rintro ⟨⟨rfl, rfl⟩, rfl⟩; exact ⟨rfl, rfl, rfl⟩
  · rintro ⟨rfl, rfl, rfl⟩; exact ⟨⟨rfl, rfl⟩, rfl⟩

theorem preturn_not_fail {x : α} {w w' : σ} {inp : Remaining} {e : String} :
    ¬ Fails (preturn x) w inp e w' := by
  intro h; cases h

theorem map_succ_iff {f : α → PyD σ β} {p : Parser σ α} {inp rest : Remaining} {w w' : σ} {v : β} :
    Succeeds (Parser.map f p) w inp v rest w' ↔ ∃ a w1, Succeeds p w inp a rest w1 ∧ (f a).exec w1 = some (.ok v, w') := by
  rw [map_eq, bind_succ_iff]
  constructor
  · rintro ⟨a, mid, w1, q, w2, h1, h2, h3⟩
    rcases exec_bind_some h2 with ⟨_, _, h4⟩ | ⟨b, w3, h4, h5⟩
    · cases h4
    · cases h5
      obtain ⟨rfl, rfl, rfl⟩ := preturn_succ_iff.1 h3
      exact ⟨a, w1, h1, h4⟩
  · rintro ⟨a, w1, h1, h2⟩
    exact ⟨a, rest, w1, preturn v, w', h1, by rw [exec_bind, h2]; rfl, preturn_succ_iff.2 ⟨rfl, rfl, rfl⟩⟩

theorem map_fail_iff {f : α → PyD σ β} {p : Parser σ α} {inp : Remaining} {w w' : σ} {e : String} :
    Fails (Parser.map f p) w inp e w' ↔ Fails p w inp e w' := by
  rw [map_eq, bind_fail_iff]
  constructor
  · rintro (h | ⟨a, mid, w1, q, w2, h1, h2, h3⟩)
    · exact h
    · rcases exec_bind_some h2 with ⟨_, _, h4⟩ | ⟨b, w3, h4, h5⟩
      · cases h4
      · cases h5; exact absurd h3 preturn_not_fail
  · exact .inl

theorem andThen_succ_iff {p : Parser σ α} {q : Parser σ β} {inp rest : Remaining} {w w' : σ} {v : α × β} :
    Succeeds (andThen p q) w inp v rest w' ↔ ∃ mid w1, Succeeds p w inp v.1 mid w1 ∧ Succeeds q w1 mid v.2 rest w' := by
  rw [andThen_eq, bind_succ_iff]
  constructor
  · rintro ⟨a, mid, w1, _, w2, h1, h2, h3⟩
    cases h2
    obtain ⟨b, mid', w3, _, w4, h4, h5, h6⟩ := bind_succ_iff.1 h3
    cases h5
    obtain ⟨rfl, rfl, rfl⟩ := preturn_succ_iff.1 h6
    exact ⟨mid, w1, h1, h4⟩
  · rintro ⟨mid, w1, h1, h2⟩
    exact ⟨v.1, mid, w1, _, w1, h1, rfl, bind_succ_iff.2 ⟨v.2, rest, w', _, w', h2, rfl, preturn_succ_iff.2 ⟨rfl, rfl, rfl⟩⟩⟩

theorem andThen_fail_iff {p : Parser σ α} {q : Parser σ β} {inp : Remaining} {w w' : σ} {e : String} :
    Fails (andThen p q) w inp e w' ↔ Fails p w inp e w' ∨
      ∃ v mid w1, Succeeds p w inp v mid w1 ∧ Fails q w1 mid e w' := by
  rw [andThen_eq, bind_fail_iff]
  refine or_congr Iff.rfl ?_
  constructor
  · rintro ⟨a, mid, w1, _, w2, h1, h2, h3⟩
    cases h2
    rcases bind_fail_iff.1 h3 with h | ⟨b, mid', w3, _, w4, h4, h5, h6⟩
    · exact ⟨a, mid, w1, h1, h⟩
    · cases h5; exact absurd h6 preturn_not_fail
  · rintro ⟨v, mid, w1, h1, h2⟩
    exact ⟨v, mid, w1, _, w1, h1, rfl, bind_fail_iff.2 (.inl h2)⟩

theorem ignoreThen_succ_iff {p : Parser σ α} {q : Parser σ β} {inp rest : Remaining} {w w' : σ} {v : β} :
    Succeeds (ignoreThen p q) w inp v rest w' ↔ ∃ a mid w1, Succeeds p w inp a mid w1 ∧ Succeeds q w1 mid v rest w' := by
  unfold ignoreThen
  rw [map_succ_iff]
  constructor
  · rintro ⟨⟨a, b⟩, w1, h1, h2⟩
    cases h2
    obtain ⟨mid, w1, h3, h4⟩ := andThen_succ_iff.1 h1
    exact ⟨a, mid, w1, h3, h4⟩
  · rintro ⟨a, mid, w1, h1, h2⟩
    exact ⟨(a, v), w', andThen_succ_iff.2 ⟨mid, w1, h1, h2⟩, rfl⟩

theorem ignoreThen_fail_iff {p : Parser σ α} {q : Parser σ β} {inp : Remaining} {w w' : σ} {e : String} :
    Fails (ignoreThen p q) w inp e w' ↔ Fails p w inp e w' ∨
      ∃ v mid w1, Succeeds p w inp v mid w1 ∧ Fails q w1 mid e w' := by
  unfold ignoreThen
  rw [map_fail_iff, andThen_fail_iff]

theorem thenIgnore_succ_iff {p : Parser σ α} {q : Parser σ β} {inp rest : Remaining} {w w' : σ} {v : α} :
    Succeeds (thenIgnore p q) w inp v rest w' ↔ ∃ b mid w1, Succeeds p w inp v mid w1 ∧ Succeeds q w1 mid b rest w' := by
  unfold thenIgnore
  rw [map_succ_iff]
  constructor
  · rintro ⟨⟨a, b⟩, w1, h1, h2⟩
    cases h2
    obtain ⟨mid, w1, h3, h4⟩ := andThen_succ_iff.1 h1
    exact ⟨b, mid, w1, h3, h4⟩
  · rintro ⟨a, mid, w1, h1, h2⟩
    exact ⟨(v, a), w', andThen_succ_iff.2 ⟨mid, w1, h1, h2⟩, rfl⟩

/-! ## or_else, choice -/

def orStep (q : PyD σ (Res (α × Remaining) String)) : Res (α × Remaining) String → PyD σ (Res (α × Remaining) String)
  | .ok r => pure (.ok r)
  | .error _ => q

theorem orElse_eq (p q : Parser σ α) (inp : Remaining) : orElse p q inp = p inp >>= orStep (q inp) := by
  refine bind_congr fun o => ?_
  rcases o with ⟨_, _⟩ | _ <;> rfl

theorem orElse_succ {p q : Parser σ α} {inp rest : Remaining} {w w' : σ} {v : α} (h : Succeeds p w inp v rest w') :
    Succeeds (orElse p q) w inp v rest w' := by
  unfold Succeeds
  rw [orElse_eq, exec_bind, h]; rfl

theorem orElse_fail {p q : Parser σ α} {inp : Remaining} {w w' : σ} {e : String} (h : Fails p w inp e w') :
    (orElse p q inp).exec w = (q inp).exec w' := by
  rw [orElse_eq, exec_bind, h]; rfl

theorem orElse_raise {p q : Parser σ α} {inp : Remaining} {w w' : σ} {e : PyErr} (h : Raises p w inp e w') :
    Raises (orElse p q) w inp e w' := by
  unfold Raises
  rw [orElse_eq, exec_bind, h]

theorem orElse_inv {p q : Parser σ α} {inp : Remaining} {w : σ} {r} (h : (orElse p q inp).exec w = some r) :
    (∃ e w', Raises p w inp e w' ∧ r = (.error e, w')) ∨ (∃ v rest w', Succeeds p w inp v rest w' ∧ r = (.ok (.ok (v, rest)), w')) ∨
      (∃ e w1, Fails p w inp e w1 ∧ (q inp).exec w1 = some r) := by
  rw [orElse_eq] at h
  rcases exec_bind_some h with ⟨e, h1, h2⟩ | ⟨o, w1, h1, h2⟩
  · exact .inl ⟨e, r.2, h1, by rw [← h2]⟩
  · rcases o with ⟨v, mid⟩ | e
    · simp only [orStep, exec_pure, Option.some.injEq] at h2
      exact .inr (.inl ⟨v, mid, w1, h1, h2.symm⟩)
    · exact .inr (.inr ⟨e, w1, h1, h2⟩)

theorem orElse_assoc (p q r : Parser σ α) : orElse (orElse p q) r = orElse p (orElse q r) := by
  funext inp
  simp only [orElse_eq, bind_assoc]
  refine bind_congr fun o => ?_
  cases o
  · simp only [orStep, pure_bind]
  · rfl

theorem choice_nil (w : ρ) : (Parser.choice (⟨[]⟩ : Block (Parser σ α))).exec w = (.error (.valueError "Collection was empty"), w) := rfl

theorem fold_pure (f : α → β → α) (a : α) (bs : List β) :
    Block.fold (σ := ρ) ⟨bs⟩ (fun a b => pure (f a b)) a = pure (bs.foldl f a) := by
  unfold Block.fold
  induction bs generalizing a with
  | nil => rfl
  | cons b bs ih => exact ih (f a b)

theorem choice_cons (p : Parser σ α) (ps : List (Parser σ α)) (w : ρ) :
    (Parser.choice ⟨p :: ps⟩).exec w = (.ok (ps.foldl orElse p), w) := by
  change (Block.fold (σ := ρ) ⟨ps⟩ (fun a b => pure (orElse a b)) p).exec w = _
  rw [fold_pure]; rfl

theorem foldl_orElse (p q : Parser σ α) (ps : List (Parser σ α)) :
    ps.foldl orElse (orElse p q) = orElse p (ps.foldl orElse q) := by
  induction ps generalizing q with
  | nil => rfl
  | cons r ps ih =>
    simp only [List.foldl_cons]
    rw [orElse_assoc, ih]

/-! ## pchar -/

theorem pchar_succ_iff {c : Char} {t : Str} {i : Nat} {w w' : σ} {v : Str} {rest : Remaining} :
    Succeeds (pchar [c]) w (t, i) v rest w' ↔ t[i]? = some c ∧ v = [c] ∧ rest = (t, i + 1) ∧ w' = w := by
  unfold Succeeds pchar
  simp only
  cases h : t[i]? with
  | none => simp
  | some d =>
    simp only [List.cons.injEq, and_true, Option.some.injEq]
    by_cases hd : d = c
    · simp only [hd, if_true, exec_pure, Option.some.injEq, Prod.mk.injEq, Except.ok.injEq, Res.ok.injEq, true_and]
      constructor
      · rintro ⟨⟨rfl, h⟩, rfl⟩; exact ⟨rfl, h.symm, rfl⟩
      · rintro ⟨rfl, h, rfl⟩; exact ⟨⟨rfl, h.symm⟩, rfl⟩
    · simp [hd]

theorem pchar_fail {c : Char} {t : Str} {i : Nat} (w : σ) (h : t[i]? ≠ some c) : ∃ e, Fails (pchar [c]) w (t, i) e w := by
  unfold Fails pchar
  simp only
  cases h' : t[i]? with
  | none => exact ⟨_, rfl⟩
  | some d =>
    have hd : ¬ d = c := fun e => h (by rw [h', e])
    simp only [List.cons.injEq, and_true, hd, if_false, exec_pure]
    exact ⟨_, rfl⟩

/-! ## many -/

def zeroStep (F : Remaining → PyD σ (Block α × Remaining)) (input : Remaining) :
    Res (α × Remaining) String → PyD σ (Block α × Remaining)
  | .ok (v, mid) => F mid >>= fun x => pure (x.1.cons v, x.2)
  | .error _ => pure (Block.empty, input)

theorem zero_eq (p : Parser σ α) (inp : Remaining) :
    parseZeroOrMore p inp = p inp >>= zeroStep (parseZeroOrMore p) inp := by
  rw [parseZeroOrMore.eq_1]
  refine bind_congr fun o => ?_
  rcases o with ⟨_, _⟩ | _ <;> rfl

/-- whatever `parse_zero_or_more` does when it ends -/
theorem zero_inv (p : Parser σ α) (inp : Remaining) (w : σ) (r) (h : (parseZeroOrMore p inp).exec w = some r) :
    (∃ vs rest w', Repeats p w inp vs rest w' ∧ r = (.ok (⟨vs⟩, rest), w')) ∨
      (∃ e w', RepeatsRaises p w inp e w' ∧ r = (.error e, w')) := by
  refine parseZeroOrMore.fixpoint_induct (parser := p) _
    (admissible_post1 (fun (inp : Remaining) (w : σ) (r : Except PyErr (Block α × Remaining) × σ) =>
      (∃ vs rest w', Repeats p w inp vs rest w' ∧ r = (.ok (⟨vs⟩, rest), w')) ∨
      (∃ e w', RepeatsRaises p w inp e w' ∧ r = (.error e, w')))) ?_ inp w r h
  intro F hF inp w r hr
  dsimp only at hr
  rcases exec_bind_some hr with ⟨e, h1, h2⟩ | ⟨o, w1, h1, h2⟩
  · exact .inr ⟨e, r.2, .now h1, by rw [← h2]⟩
  · rcases o with ⟨v, mid⟩ | e
    · simp only at h2
      rcases exec_bind_some h2 with ⟨e, h3, h4⟩ | ⟨x, w2, h3, h4⟩
      · rcases hF _ _ _ h3 with ⟨vs, rest, w', _, h6⟩ | ⟨e', w', h5, h6⟩
        · cases h6
        · cases h6
          exact .inr ⟨e, r.2, .later h1 h5, by rw [← h4]⟩
      · rcases hF _ _ _ h3 with ⟨vs, rest, w', h5, h6⟩ | ⟨e', w', h5, h6⟩
        · cases h6
          simp only [exec_pure, Option.some.injEq] at h4
          exact .inl ⟨v :: vs, rest, w2, .more h1 h5, h4.symm⟩
        · cases h6
    · simp only [exec_pure, Option.some.injEq] at h2
      exact .inl ⟨[], inp, w1, .stop h1, h2.symm⟩

theorem zero_of_repeats {p : Parser σ α} {inp rest : Remaining} {w w' : σ} {vs : List α} (h : Repeats p w inp vs rest w') :
    (parseZeroOrMore p inp).exec w = some (.ok (⟨vs⟩, rest), w') := by
  induction h with
  | stop h => rw [zero_eq, exec_bind, h]; rfl
  | more h _ ih => rw [zero_eq, exec_bind, h]; simp only [zeroStep]; rw [exec_bind, ih]; rfl

theorem zero_of_raises {p : Parser σ α} {inp : Remaining} {w w' : σ} {e : PyErr} (h : RepeatsRaises p w inp e w') :
    (parseZeroOrMore p inp).exec w = some (.error e, w') := by
  induction h with
  | now h => rw [zero_eq, exec_bind, h]
  | later h _ ih => rw [zero_eq, exec_bind, h]; simp only [zeroStep]; rw [exec_bind, ih]

theorem many_exec (p : Parser σ α) (inp : Remaining) (w : σ) :
    (many p inp).exec w = ((parseZeroOrMore p inp).exec w).map (fun r => (r.1.map Res.ok, r.2)) := by
  unfold many
  rw [exec_bind]
  rcases (parseZeroOrMore p inp).exec w with _ | ⟨_ | _, _⟩ <;> rfl

theorem many_succ_iff {p : Parser σ α} {inp rest : Remaining} {w w' : σ} {vs : Block α} :
    Succeeds (many p) w inp vs rest w' ↔ Repeats p w inp vs.value rest w' := by
  unfold Succeeds
  rw [many_exec]
  constructor
  · intro h
    rcases hz : (parseZeroOrMore p inp).exec w with _ | r <;> rw [hz] at h
    · cases h
    · rcases zero_inv p inp w r hz with ⟨vs', rest', w'', h1, rfl⟩ | ⟨e, w'', h1, rfl⟩
      · cases h; exact h1
      · cases h
  · intro h
    rw [zero_of_repeats h]; rfl

theorem many_raise_iff {p : Parser σ α} {inp : Remaining} {w w' : σ} {e : PyErr} :
    Raises (many p) w inp e w' ↔ RepeatsRaises p w inp e w' := by
  unfold Raises
  rw [many_exec]
  constructor
  · intro h
    rcases hz : (parseZeroOrMore p inp).exec w with _ | r <;> rw [hz] at h
    · cases h
    · rcases zero_inv p inp w r hz with ⟨vs', rest', w'', h1, rfl⟩ | ⟨e, w'', h1, rfl⟩
      · cases h
      · cases h; exact h1
  · intro h
    rw [zero_of_raises h]; rfl

theorem many_not_fail {p : Parser σ α} {inp : Remaining} {w w' : σ} {e : String} : ¬ Fails (many p) w inp e w' := by
  intro h
  unfold Fails at h
  rw [many_exec] at h
  rcases hz : (parseZeroOrMore p inp).exec w with _ | ⟨_ | _, _⟩ <;> rw [hz] at h <;> cases h

theorem many1_succ_iff {p : Parser σ α} {inp rest : Remaining} {w w' : σ} {vs : Block α} :
    Succeeds (many1 p) w inp vs rest w' ↔ vs.value ≠ [] ∧ Repeats p w inp vs.value rest w' := by
  rw [many1_eq, bind_succ_iff]
  constructor
  · rintro ⟨a, mid, w1, _, w2, h1, h2, h3⟩
    cases h2
    obtain ⟨b, w3, h4, h5⟩ := map_succ_iff.1 h3
    cases h5
    exact ⟨by simp [Block.cons], .more h1 (many_succ_iff.1 h4)⟩
  · rintro ⟨hne, h⟩
    rcases vs with ⟨_ | ⟨v, vs⟩⟩
    · exact absurd rfl hne
    · rcases h with _ | ⟨h1, h2⟩
      exact ⟨v, _, _, _, _, h1, rfl, map_succ_iff.2 ⟨⟨vs⟩, w', many_succ_iff.2 h2, rfl⟩⟩

theorem many1_fail_iff {p : Parser σ α} {inp : Remaining} {w w' : σ} {e : String} :
    Fails (many1 p) w inp e w' ↔ Fails p w inp e w' := by
  rw [many1_eq, bind_fail_iff]
  constructor
  · rintro (h | ⟨a, mid, w1, _, w2, h1, h2, h3⟩)
    · exact h
    · cases h2
      exact absurd (map_fail_iff.1 h3) many_not_fail
  · exact .inl

end Expression.Lemmas.Parser
