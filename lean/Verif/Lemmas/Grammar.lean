import Verif.Spec.Grammar
import Verif.Lemmas.ParserStack
import Verif.Lemmas.Parser3

/-! Grammars: what their parsers do is what they mean. -/

namespace Expression.Lemmas.Grammar

open Expression Expression.Grammar Spec Spec.Grammar PyD Lemmas.Parser Lemmas.ParserStack

variable {σ N : Type} {α β γ : Type} {g : N → Exp N}

/-! ### the meaning of a grammar -/

theorem parses_det {e : Exp N} {s : Str} {o o' : Option (Tree × Nat)} (h : Parses g e s o) (h' : Parses g e s o') : o = o' := by
  induction h generalizing o' <;> cases h' <;> grind

theorem parses_le {e : Exp N} {s : Str} {o : Option (Tree × Nat)} (h : Parses g e s o) : ∀ t n, o = some (t, n) → n ≤ s.length := by
  induction h with
  | char h => rename_i s; intro t n hn; cases s <;> simp_all
  | text h => have := h.length_le; grind
  | _ => grind

/-- running gave the outcome `o`, for the text from position `pos` on -/
def Answer (r : Option (Except PyErr (Res (α × Remaining) String) × σ)) (text : Str) (pos : Nat) (w : σ) (o : Option (α × Nat)) : Prop :=
  match o with
  | some (t, n) => r = some (.ok (.ok (t, (text, pos + n))), w)
  | none => ∃ m, r = some (.ok (.error m), w)

/-! ### the parsers do nothing else -/

/-- if `p` ends, then with an outcome that `S` allows -/
def Means (p : Parser σ α) (S : Str → Option (α × Nat) → Prop) : Prop :=
  ∀ text pos w r, (p (text, pos)).exec w = some r → ∃ o, S (text.drop pos) o ∧ Answer (some r) text pos w o

theorem Means.mono {p : Parser σ α} {S T : Str → Option (α × Nat) → Prop} (h : Means p S) (hST : ∀ s o, S s o → T s o) : Means p T := by
  intro text pos w r hr
  obtain ⟨o, h1, h2⟩ := h text pos w r hr
  exact ⟨o, hST _ _ h1, h2⟩

theorem preturn_means (x : α) : Means (σ := σ) (Parser.preturn x) (fun _ o => o = some (x, 0)) := by
  intro text pos w r hr
  refine ⟨_, rfl, ?_⟩
  show some r = _
  rw [← hr]; rfl

theorem fail_means (e : String) : Means (σ := σ) (α := α) (Parser.fail e) (fun _ o => o = none) := by
  intro text pos w r hr
  exact ⟨_, rfl, e, hr.symm⟩

theorem map_means {p : Parser σ α} {S : Str → Option (α × Nat) → Prop} (f : α → β) (h : Means p S) :
    Means (Parser.map (fun a => pure (f a)) p) (fun s o => ∃ o', S s o' ∧ o = o'.map fun x => (f x.1, x.2)) := by
  intro text pos w r hr
  unfold Parser.map at hr
  rw [exec_bind] at hr
  rcases hp : (p (text, pos)).exec w with _ | r1
  · rw [hp] at hr; cases hr
  · obtain ⟨o, h1, h2⟩ := h text pos w r1 hp
    rw [hp] at hr
    refine ⟨_, ⟨o, h1, rfl⟩, ?_⟩
    rcases o with _ | ⟨t, n⟩
    · obtain ⟨m, h2⟩ := h2
      cases h2
      exact ⟨m, hr.symm⟩
    · cases h2
      exact hr.symm

theorem andThen_means {p : Parser σ α} {q : Parser σ β} {S : Str → Option (α × Nat) → Prop} {T : Str → Option (β × Nat) → Prop}
    (h : Means p S) (h' : Means q T) :
    Means (Parser.andThen p q) (fun s o =>
      (∃ t n u m, S s (some (t, n)) ∧ T (s.drop n) (some (u, m)) ∧ o = some ((t, u), n + m)) ∨ (S s none ∧ o = none) ∨
      (∃ t n, S s (some (t, n)) ∧ T (s.drop n) none ∧ o = none)) := by
  intro text pos w r hr
  unfold Parser.andThen at hr
  rw [exec_bind] at hr
  rcases hp : (p (text, pos)).exec w with _ | r1
  · rw [hp] at hr; cases hr
  · obtain ⟨o, h1, h2⟩ := h text pos w r1 hp
    rw [hp] at hr
    rcases o with _ | ⟨t, n⟩
    · obtain ⟨m, h2⟩ := h2
      cases h2
      exact ⟨none, .inr (.inl ⟨h1, rfl⟩), m, hr.symm⟩
    · cases h2
      change ((q (text, pos + n) >>= _).exec w) = _ at hr
      rw [exec_bind] at hr
      rcases hq : (q (text, pos + n)).exec w with _ | r2
      · rw [hq] at hr; cases hr
      · obtain ⟨o, h3, h4⟩ := h' text (pos + n) w r2 hq
        rw [← List.drop_drop] at h3
        rw [hq] at hr
        rcases o with _ | ⟨u, m⟩
        · obtain ⟨m, h4⟩ := h4
          cases h4
          exact ⟨none, .inr (.inr ⟨t, n, h1, h3, rfl⟩), m, hr.symm⟩
        · cases h4
          refine ⟨some ((t, u), n + m), .inl ⟨t, n, u, m, h1, h3, rfl⟩, ?_⟩
          show some r = _
          rw [← hr, ← Nat.add_assoc]
          rfl

theorem orElse_means {p q : Parser σ α} {S T : Str → Option (α × Nat) → Prop} (h : Means p S) (h' : Means q T) :
    Means (Parser.orElse p q) (fun s o => (∃ t n, S s (some (t, n)) ∧ o = some (t, n)) ∨ (S s none ∧ T s o)) := by
  intro text pos w r hr
  unfold Parser.orElse at hr
  rw [exec_bind] at hr
  rcases hp : (p (text, pos)).exec w with _ | r1
  · rw [hp] at hr; cases hr
  · obtain ⟨o, h1, h2⟩ := h text pos w r1 hp
    rw [hp] at hr
    rcases o with _ | ⟨t, n⟩
    · obtain ⟨m, h2⟩ := h2
      cases h2
      obtain ⟨o, h3, h4⟩ := h' text pos w r hr
      exact ⟨o, .inr ⟨h1, h3⟩, h4⟩
    · cases h2
      exact ⟨some (t, n), .inl ⟨t, n, h1, rfl⟩, hr.symm⟩

/-- a repetition -/
inductive Star (S : Str → Option (α × Nat) → Prop) : Str → List α → Nat → Prop
  | stop {s} : S s none → Star S s [] 0
  | more {s t n ts m} : S s (some (t, n)) → Star S (s.drop n) ts m → Star S s (t :: ts) (n + m)

theorem repeats_star {p : Parser σ α} {S : Str → Option (α × Nat) → Prop} (h : Means p S) {w w' : σ} {inp rest : Remaining} {vs : List α}
    (hr : Repeats p w inp vs rest w') : w' = w ∧ ∃ m, rest = (inp.1, inp.2 + m) ∧ Star S (inp.1.drop inp.2) vs m := by
  induction hr with
  | stop hf =>
    obtain ⟨o, h1, h2⟩ := h _ _ _ _ hf
    rcases o with _ | ⟨t, n⟩
    · obtain ⟨m, h2⟩ := h2
      cases h2
      exact ⟨rfl, 0, rfl, .stop h1⟩
    · cases h2
  | more hs _ ih =>
    obtain ⟨o, h1, h2⟩ := h _ _ _ _ hs
    rcases o with _ | ⟨t, n⟩
    · obtain ⟨m, h2⟩ := h2
      cases h2
    · cases h2
      obtain ⟨rfl, m, rfl, h3⟩ := ih
      refine ⟨rfl, n + m, by rw [Nat.add_assoc], .more h1 ?_⟩
      rw [List.drop_drop]
      exact h3

theorem not_repeatsRaises {p : Parser σ α} {S : Str → Option (α × Nat) → Prop} (h : Means p S) {w w' : σ} {inp : Remaining} {e : PyErr} :
    ¬ RepeatsRaises p w inp e w' := by
  intro hr
  induction hr with
  | now hf =>
    obtain ⟨o, h1, h2⟩ := h _ _ _ _ hf
    rcases o with _ | ⟨t, n⟩
    · obtain ⟨m, h2⟩ := h2
      cases h2
    · cases h2
  | later _ _ ih => exact ih

theorem many_means {p : Parser σ α} {S : Str → Option (α × Nat) → Prop} (h : Means p S) :
    Means (Parser.many p) (fun s o => ∃ ts m, Star S s ts m ∧ o = some (⟨ts⟩, m)) := by
  intro text pos w r hr
  rw [many_exec] at hr
  rcases hz : (Parser.parseZeroOrMore p (text, pos)).exec w with _ | r1
  · rw [hz] at hr; cases hr
  · rw [hz] at hr
    rcases zero_inv p _ w r1 hz with ⟨vs, rest, w', h1, rfl⟩ | ⟨e, w', h1, rfl⟩
    · obtain ⟨rfl, m, rfl, h2⟩ := repeats_star h h1
      exact ⟨_, ⟨vs, m, h2, rfl⟩, hr.symm⟩
    · exact absurd h1 (not_repeatsRaises h)

theorem many1_means {p : Parser σ α} {S : Str → Option (α × Nat) → Prop} (h : Means p S) :
    Means (Parser.many1 p) (fun s o => (S s none ∧ o = none) ∨
      ∃ t n ts m, S s (some (t, n)) ∧ Star S (s.drop n) ts m ∧ o = some (⟨t :: ts⟩, n + m)) := by
  intro text pos w r hr
  unfold Parser.many1 at hr
  rw [exec_bind] at hr
  rcases hp : (p (text, pos)).exec w with _ | r1
  · rw [hp] at hr; cases hr
  · obtain ⟨o, h1, h2⟩ := h text pos w r1 hp
    rw [hp] at hr
    rcases o with _ | ⟨t, n⟩
    · obtain ⟨m, h2⟩ := h2
      cases h2
      exact ⟨none, .inl ⟨h1, rfl⟩, m, hr.symm⟩
    · cases h2
      change ((Parser.parseZeroOrMore p (text, pos + n) >>= _).exec w) = _ at hr
      rw [exec_bind] at hr
      rcases hz : (Parser.parseZeroOrMore p (text, pos + n)).exec w with _ | r2
      · rw [hz] at hr; cases hr
      · rw [hz] at hr
        rcases zero_inv p _ w r2 hz with ⟨vs, rest, w', h3, rfl⟩ | ⟨e, w', h3, rfl⟩
        · obtain ⟨rfl, m, rfl, h4⟩ := repeats_star h h3
          rw [← List.drop_drop] at h4
          refine ⟨_, .inr ⟨t, n, vs, m, h1, h4, rfl⟩, ?_⟩
          show some r = _
          rw [← hr, ← Nat.add_assoc]
          rfl
        · exact absurd h3 (not_repeatsRaises h)

theorem bind_means {p : Parser σ β} {S : Str → Option (β × Nat) → Prop} (h : Means p S) (x : α) :
    Means (Parser.bind (fun _ => pure p) (Parser.preturn x)) S := by
  intro text pos w r hr
  exact h text pos w r hr

theorem head?_drop (text : Str) (pos : Nat) : (text.drop pos).head? = text[pos]? := by
  simp

theorem pchar_means (c : Char) : Means (σ := σ) (Parser.pchar [c]) (fun s o =>
    (s.head? = some c ∧ o = some ([c], 1)) ∨ (s.head? ≠ some c ∧ o = none)) := by
  intro text pos w r hr
  by_cases h : text[pos]? = some c
  · refine ⟨_, .inl ⟨by rw [head?_drop]; exact h, rfl⟩, ?_⟩
    exact hr.symm.trans (pchar_succ_iff.2 ⟨h, rfl, rfl, rfl⟩)
  · obtain ⟨e, he⟩ := pchar_fail w h
    exact ⟨_, .inr ⟨by rw [head?_drop]; exact h, rfl⟩, e, hr.symm.trans he⟩

theorem pstring_fails {s t : Str} {i : Nat} (hp : ¬ s <+: t.drop i) (w : σ) : ∃ e, Fails (Parser.pstring s) w (t, i) e w := by
  obtain ⟨a, c, b, rfl, h1, h2⟩ := not_prefix hp
  have h3 : t[i + a.length]? ≠ some c := by simpa using h2
  obtain ⟨e, he⟩ := pchar_fail w h3
  exact ⟨e, pstring_fail a c b t i w w e h1 he⟩

theorem pstring_means (x : Str) : Means (σ := σ) (Parser.pstring x) (fun s o =>
    (x <+: s ∧ o = some (x, x.length)) ∨ (¬ x <+: s ∧ o = none)) := by
  intro text pos w r hr
  by_cases h : x <+: text.drop pos
  · exact ⟨_, .inl ⟨h, rfl⟩, hr.symm.trans (pstring_succ x text pos w h)⟩
  · obtain ⟨e, he⟩ := pstring_fails h w
    exact ⟨_, .inr ⟨h, rfl⟩, e, hr.symm.trans he⟩

theorem star_parses {a : Exp N} {s : Str} {ts : List Tree} {m : Nat} (h : Star (Parses g a) s ts m) :
    Parses g (.star a) s (some (.list ts, m)) := by
  induction h with
  | stop h => exact .starEnd h
  | more h _ ih => exact .starMore h ih

theorem make_means {r : N → Parser σ Tree} (hr : ∀ n, Means (r n) (Parses g (g n))) (e : Exp N) : Means (make r e) (Parses g e) := by
  induction e with
  | empty => exact (preturn_means _).mono fun s o h => h ▸ .empty
  | fail => exact (fail_means _).mono fun s o h => h ▸ .fail
  | char c =>
    refine (map_means _ (pchar_means c)).mono ?_
    rintro s o ⟨o', ⟨h, rfl⟩ | ⟨h, rfl⟩, rfl⟩
    · exact .char h
    · exact .charNot h
  | text x =>
    refine (map_means _ (pstring_means x)).mono ?_
    rintro s o ⟨o', ⟨h, rfl⟩ | ⟨h, rfl⟩, rfl⟩
    · exact .text h
    · exact .textNot h
  | seq a b ha hb =>
    refine (map_means _ (andThen_means ha hb)).mono ?_
    rintro s o ⟨o', ⟨t, n, u, m, h1, h2, rfl⟩ | ⟨h, rfl⟩ | ⟨t, n, h1, h2, rfl⟩, rfl⟩
    · exact .seq h1 h2
    · exact .seqFirst h
    · exact .seqSecond h1 h2
  | left a b ha hb =>
    refine (map_means _ (andThen_means ha hb)).mono ?_
    rintro s o ⟨o', ⟨t, n, u, m, h1, h2, rfl⟩ | ⟨h, rfl⟩ | ⟨t, n, h1, h2, rfl⟩, rfl⟩
    · exact .left h1 h2
    · exact .leftFirst h
    · exact .leftSecond h1 h2
  | right a b ha hb =>
    refine (map_means _ (andThen_means ha hb)).mono ?_
    rintro s o ⟨o', ⟨t, n, u, m, h1, h2, rfl⟩ | ⟨h, rfl⟩ | ⟨t, n, h1, h2, rfl⟩, rfl⟩
    · exact .right h1 h2
    · exact .rightFirst h
    · exact .rightSecond h1 h2
  | alt a b ha hb =>
    refine (orElse_means ha hb).mono ?_
    rintro s o (⟨t, n, h1, rfl⟩ | ⟨h1, h2⟩)
    · exact .altFirst h1
    · exact .altSecond h1 h2
  | opt a ha =>
    refine (map_means _ (orElse_means (map_means _ ha) (preturn_means _))).mono ?_
    rintro s o ⟨o', ⟨t, n, ⟨o2, h1, h2⟩, rfl⟩ | ⟨⟨o2, h1, h2⟩, rfl⟩, rfl⟩
    · rcases o2 with _ | ⟨t', n'⟩
      · cases h2
      · cases h2; exact .opt h1
    · rcases o2 with _ | ⟨t', n'⟩
      · exact .optNot h1
      · cases h2
  | star a ha =>
    refine (map_means _ (many_means ha)).mono ?_
    rintro s o ⟨o', ⟨ts, m, h, rfl⟩, rfl⟩
    exact star_parses h
  | plus a ha =>
    refine (map_means _ (many1_means ha)).mono ?_
    rintro s o ⟨o', ⟨h, rfl⟩ | ⟨t, n, ts, m, h1, h2, rfl⟩, rfl⟩
    · exact .plusNot h
    · exact .plus h1 (star_parses h2)
  | sepBy1 a sep ha hs =>
    have hr' : Means (Parser.ignoreThen (make r sep) (make r a)) (Parses g (.right sep a)) := by
      refine (map_means _ (andThen_means hs ha)).mono ?_
      rintro s o ⟨o', ⟨t, n, u, m, h1, h2, rfl⟩ | ⟨h, rfl⟩ | ⟨t, n, h1, h2, rfl⟩, rfl⟩
      · exact .right h1 h2
      · exact .rightFirst h
      · exact .rightSecond h1 h2
    refine (map_means _ (map_means _ (andThen_means ha (many_means hr')))).mono ?_
    rintro s o ⟨_, ⟨_, ⟨t, n, u, m, h1, ⟨ts, m', h2, h3⟩, rfl⟩ | ⟨h, rfl⟩ | ⟨t, n, h1, ⟨ts, m', h2, h3⟩, rfl⟩, rfl⟩, rfl⟩
    · cases h3; exact .sepBy1 h1 (star_parses h2)
    · exact .sepBy1Not h
    · cases h3
  | sepBy a sep ha hs =>
    have hr' : Means (Parser.ignoreThen (make r sep) (make r a)) (Parses g (.right sep a)) := by
      refine (map_means _ (andThen_means hs ha)).mono ?_
      rintro s o ⟨o', ⟨t, n, u, m, h1, h2, rfl⟩ | ⟨h, rfl⟩ | ⟨t, n, h1, h2, rfl⟩, rfl⟩
      · exact .right h1 h2
      · exact .rightFirst h
      · exact .rightSecond h1 h2
    refine (map_means _ (orElse_means (map_means _ (andThen_means ha (many_means hr'))) (preturn_means _))).mono ?_
    rintro s o ⟨_, ⟨t0, n0, ⟨_, ⟨t, n, u, m, h1, ⟨ts, m', h2, h3⟩, rfl⟩ | ⟨h, rfl⟩ | ⟨t, n, h1, ⟨ts, m', h2, h3⟩, rfl⟩, h4⟩, rfl⟩ |
      ⟨⟨_, ⟨t, n, u, m, h1, ⟨ts, m', h2, h3⟩, rfl⟩ | ⟨h, rfl⟩ | ⟨t, n, h1, ⟨ts, m', h2, h3⟩, rfl⟩, h4⟩, rfl⟩, rfl⟩
    · cases h3; cases h4; exact .sepBy h1 (star_parses h2)
    · cases h4
    · cases h3
    · cases h4
    · exact .sepByNot h
    · cases h3
  | between x y a hx hy ha =>
    refine (map_means _ (andThen_means (map_means _ (andThen_means hx ha)) hy)).mono ?_
    rintro s o ⟨_, ⟨t, n, u, m, ⟨_, ⟨t1, n1, u1, m1, h1, h2, rfl⟩ | ⟨h, rfl⟩ | ⟨t1, n1, h1, h2, rfl⟩, h4⟩, h5, rfl⟩ |
      ⟨⟨_, ⟨t1, n1, u1, m1, h1, h2, rfl⟩ | ⟨h, rfl⟩ | ⟨t1, n1, h1, h2, rfl⟩, h4⟩, rfl⟩ |
      ⟨t, n, ⟨_, ⟨t1, n1, u1, m1, h1, h2, rfl⟩ | ⟨h, rfl⟩ | ⟨t1, n1, h1, h2, rfl⟩, h4⟩, h5, rfl⟩, rfl⟩
    · cases h4; exact .between h1 h2 h5
    · cases h4
    · cases h4
    · cases h4
    · exact .betweenOpen h
    · exact .betweenBody h1 h2
    · cases h4; exact .betweenClose h1 h2 h5
    · cases h4
    · cases h4
  | act f a ha =>
    refine (map_means _ ha).mono ?_
    rintro s o ⟨o', h, rfl⟩
    rcases o' with _ | ⟨t, n⟩
    · exact .actNot h
    · exact .act h
  | rule n => exact (bind_means (hr n) ()).mono fun s o h => .rule h

theorem rules_means (n : N) : Means (σ := σ) (rules g n) (Parses g (g n)) := by
  intro text pos w r hr
  refine rules.fixpoint_induct g _ (admissible_post2 (fun n (inp : Remaining) (w : σ) r =>
    ∃ o, Parses g (g n) (inp.1.drop inp.2) o ∧ Answer (some r) inp.1 inp.2 w o)) ?_ n (text, pos) w r hr
  intro F hF n inp w r hr
  exact make_means (r := F) (fun n text pos w r h => hF n (text, pos) w r h) (g n) inp.1 inp.2 w r hr

theorem parser_means (e : Exp N) : Means (σ := σ) (parser g e) (Parses g e) := make_means rules_means e

/-! ### a bounded stack -/

theorem make_faithful {q : N → FrameParser σ Tree} {p : N → Parser σ Tree} (h : ∀ n, Faithful (q n) (p n)) (e : Exp N) :
    Faithful (makeWithin q e) (make p e) := by
  induction e with
  | empty | fail => exact const_faithful _
  | char c => exact map_faithful _ (const_faithful _)
  | text s => exact map_faithful _ (same_faithful (.pstring s))
  | seq a b ha hb => exact map_faithful _ (andThen_faithful ha hb)
  | left a b ha hb => exact map_faithful _ (andThen_faithful ha hb)
  | right a b ha hb => exact map_faithful _ (andThen_faithful ha hb)
  | alt a b ha hb => exact orElse_faithful ha hb
  | opt a ha => exact map_faithful _ (orElse_faithful (map_faithful _ ha) (const_faithful _))
  | star a ha => exact map_faithful _ (many_faithful ha)
  | plus a ha => exact map_faithful _ (many1_faithful ha)
  | sepBy1 a s ha hs => exact map_faithful _ (map_faithful _ (andThen_faithful ha (many_faithful (map_faithful _ (andThen_faithful hs ha)))))
  | sepBy a s ha hs =>
    exact map_faithful _ (orElse_faithful (map_faithful _ (andThen_faithful ha (many_faithful (map_faithful _ (andThen_faithful hs ha)))))
      (const_faithful _))
  | between x y a hx hy ha => exact map_faithful _ (andThen_faithful (map_faithful _ (andThen_faithful hx ha)) hy)
  | act f a ha => exact map_faithful _ ha
  | rule n =>
    intro free inp
    match free with
    | 0 | 1 => exact OrOverflow.raise _
    | free + 2 => exact run_faithful (h n) (free + 2) inp

theorem rulesDeep_faithful (depth : Nat) : ∀ n, Faithful (σ := σ) (rulesDeep g depth n) (rules g n) := by
  induction depth with
  | zero => intro n free inp; exact OrOverflow.raise _
  | succ depth ih =>
    intro n free inp
    have h := make_faithful ih (g n) free inp
    rw [show rules g n inp = make (rules g) (g n) inp from by rw [rules.eq_1]]
    exact h

theorem rulesWithin_faithful (n : N) : Faithful (σ := σ) (rulesWithin g n) (rules g n) :=
  fun free inp => rulesDeep_faithful (free + 1) n free inp

theorem parserWithin_faithful (e : Exp N) : Faithful (σ := σ) (parserWithin g e) (parser g e) := make_faithful rulesWithin_faithful e

/-- the same with at most so many free frames -/
def Agree (k : Nat) (q q' : FrameParser σ α) : Prop := ∀ free ≤ k, q free = q' free

theorem Agree.refl (k : Nat) (q : FrameParser σ α) : Agree k q q := fun _ _ => rfl

theorem run_agree {k : Nat} {q q' : FrameParser σ α} (h : Agree k q q') {free : Nat} (hf : free ≤ k) : q.run free = q'.run free := by
  match free with
  | 0 | 1 => rfl
  | free + 2 => exact h free (by omega)

theorem map_agree {k : Nat} (f : α → PyD σ β) {q q' : FrameParser σ α} (h : Agree k q q') : Agree k (q.map f) (q'.map f) := by
  intro free hf
  unfold FrameParser.map
  rw [run_agree h hf]

theorem andThen_agree {k : Nat} {p p' : FrameParser σ α} {q q' : FrameParser σ β} (h : Agree k p p') (h' : Agree k q q') :
    Agree k (p.andThen q) (p'.andThen q') := by
  intro free hf
  unfold FrameParser.andThen
  rw [run_agree h hf, run_agree h' hf]

theorem orElse_agree {k : Nat} {p p' q q' : FrameParser σ α} (h : Agree k p p') (h' : Agree k q q') :
    Agree k (p.orElse q) (p'.orElse q') := by
  intro free hf
  unfold FrameParser.orElse
  rw [run_agree h hf, run_agree h' hf]

theorem zero_agree {k : Nat} {p p' : FrameParser σ α} (h : Agree k p p') : ∀ free ≤ k, p.parseZeroOrMore free = p'.parseZeroOrMore free := by
  intro free
  induction free with
  | zero => intro _; rfl
  | succ free ih =>
    intro hf
    funext inp
    rw [FrameParser.parseZeroOrMore, FrameParser.parseZeroOrMore, run_agree h hf, ih (by omega)]

theorem many_agree {k : Nat} {p p' : FrameParser σ α} (h : Agree k p p') : Agree k p.many p'.many := by
  intro free hf
  funext inp
  cases free with
  | zero => rfl
  | succ free => unfold FrameParser.many; simp only; rw [zero_agree h free (by omega)]

theorem many1_agree {k : Nat} {p p' : FrameParser σ α} (h : Agree k p p') : Agree k p.many1 p'.many1 := by
  intro free hf
  funext inp
  unfold FrameParser.many1
  rw [run_agree h hf]
  cases free with
  | zero => rfl
  | succ free => simp only; rw [zero_agree h free (by omega)]

theorem make_agree {k : Nat} {r r' : N → FrameParser σ Tree} (h : ∀ n free, free + 2 ≤ k → r n free = r' n free) (e : Exp N) :
    Agree k (makeWithin r e) (makeWithin r' e) := by
  induction e with
  | empty | fail | char | text => exact Agree.refl _ _
  | seq a b ha hb => exact map_agree _ (andThen_agree ha hb)
  | left a b ha hb => exact map_agree _ (andThen_agree ha hb)
  | right a b ha hb => exact map_agree _ (andThen_agree ha hb)
  | alt a b ha hb => exact orElse_agree ha hb
  | opt a ha => exact map_agree _ (orElse_agree (map_agree _ ha) (Agree.refl _ _))
  | star a ha => exact map_agree _ (many_agree ha)
  | plus a ha => exact map_agree _ (many1_agree ha)
  | sepBy1 a s ha hs => exact map_agree _ (map_agree _ (andThen_agree ha (many_agree (map_agree _ (andThen_agree hs ha)))))
  | sepBy a s ha hs =>
    exact map_agree _ (orElse_agree (map_agree _ (andThen_agree ha (many_agree (map_agree _ (andThen_agree hs ha)))))
      (Agree.refl _ _))
  | between x y a hx hy ha => exact map_agree _ (andThen_agree (map_agree _ (andThen_agree hx ha)) hy)
  | act f a ha => exact map_agree _ ha
  | rule n =>
    intro free hf
    match free with
    | 0 | 1 => rfl
    | free + 2 =>
      funext inp
      exact congrFun (h n free hf) inp

theorem rulesDeep_eq (d d' : Nat) : ∀ (n : N) (free : Nat), free < d → free < d' → rulesDeep (σ := σ) g d n free = rulesDeep g d' n free := by
  induction d generalizing d' with
  | zero => intro n free h; omega
  | succ d ih =>
    intro n free h h'
    cases d' with
    | zero => omega
    | succ d' => exact make_agree (k := free) (fun m f hf => ih d' m f (by omega) (by omega)) (g n) free (Nat.le_refl _)

/-- `rule(n) = make(body of n)` -/
theorem rulesWithin_eq (n : N) : rulesWithin (σ := σ) g n = makeWithin (rulesWithin g) (g n) := by
  funext free
  exact make_agree (k := free) (fun m f hf => rulesDeep_eq free (f + 1) m f (by omega) (by omega)) (g n) free (Nat.le_refl _)

/-! ### with a large enough stack they do all of it -/

/-- with enough frames `q` answers `o` where the text is `s` -/
def Gives (q : FrameParser σ α) (s : Str) (o : Option (α × Nat)) : Prop :=
  ∃ k, ∀ free, k ≤ free → ∀ text pos w, text.drop pos = s → Answer ((q free (text, pos)).exec w) text pos w o

theorem run_large (q : FrameParser σ α) {k free : Nat} (hf : k + 2 ≤ free) : ∃ f, k ≤ f ∧ q.run free = q f :=
  ⟨free - 2, by omega, by obtain ⟨j, rfl⟩ : ∃ j, free = j + 2 := ⟨free - 2, by omega⟩; rfl⟩

theorem map_gives {q : FrameParser σ α} {s : Str} {o : Option (α × Nat)} (f : α → β) (h : Gives q s o) :
    Gives (q.map fun a => pure (f a)) s (o.map fun x => (f x.1, x.2)) := by
  obtain ⟨k, h⟩ := h
  refine ⟨k + 2, fun free hf text pos w hs => ?_⟩
  obtain ⟨fr, hfr, hrun⟩ := run_large q hf
  have h1 := h fr hfr text pos w hs
  unfold FrameParser.map
  rw [hrun, exec_bind]
  rcases o with _ | ⟨t, n⟩
  · obtain ⟨m, h1⟩ := h1
    exact ⟨m, by rw [h1]; rfl⟩
  · show _ = _
    rw [h1]; rfl

theorem andThen_gives {p : FrameParser σ α} {q : FrameParser σ β} {s : Str} {t : α} {n : Nat} {o : Option (β × Nat)}
    (h : Gives p s (some (t, n))) (h' : Gives q (s.drop n) o) :
    Gives (p.andThen q) s (o.map fun x => ((t, x.1), n + x.2)) := by
  obtain ⟨k, h⟩ := h
  obtain ⟨k', h'⟩ := h'
  refine ⟨max k k' + 2, fun free hf text pos w hs => ?_⟩
  obtain ⟨fr, hfr, hrun⟩ := run_large p (k := k) (free := free) (by omega)
  obtain ⟨fr', hfr', hrun'⟩ := run_large q (k := k') (free := free) (by omega)
  have h1 : _ = _ := h fr hfr text pos w hs
  have h2 := h' fr' hfr' text (pos + n) w (by rw [← hs, List.drop_drop])
  unfold FrameParser.andThen
  rw [hrun, exec_bind, h1]
  simp only
  rw [hrun', exec_bind]
  rcases o with _ | ⟨u, m⟩
  · obtain ⟨m, h2⟩ := h2
    exact ⟨m, by rw [h2]; rfl⟩
  · show _ = _
    rw [show _ = _ from h2, ← Nat.add_assoc]; rfl

theorem andThen_gives_first {p : FrameParser σ α} (q : FrameParser σ β) {s : Str} (h : Gives p s none) :
    Gives (p.andThen q) s none := by
  obtain ⟨k, h⟩ := h
  refine ⟨k + 2, fun free hf text pos w hs => ?_⟩
  obtain ⟨fr, hfr, hrun⟩ := run_large p hf
  obtain ⟨m, h1⟩ := h fr hfr text pos w hs
  unfold FrameParser.andThen
  rw [hrun, exec_bind, h1]
  exact ⟨m, rfl⟩

theorem orElse_gives_first {p : FrameParser σ α} (q : FrameParser σ α) {s : Str} {t : α} {n : Nat} (h : Gives p s (some (t, n))) :
    Gives (p.orElse q) s (some (t, n)) := by
  obtain ⟨k, h⟩ := h
  refine ⟨k + 2, fun free hf text pos w hs => ?_⟩
  obtain ⟨fr, hfr, hrun⟩ := run_large p hf
  have h1 : _ = _ := h fr hfr text pos w hs
  unfold FrameParser.orElse
  rw [hrun, exec_bind, h1]
  rfl

theorem orElse_gives_second {p q : FrameParser σ α} {s : Str} {o : Option (α × Nat)} (h : Gives p s none) (h' : Gives q s o) :
    Gives (p.orElse q) s o := by
  obtain ⟨k, h⟩ := h
  obtain ⟨k', h'⟩ := h'
  refine ⟨max k k' + 2, fun free hf text pos w hs => ?_⟩
  obtain ⟨fr, hfr, hrun⟩ := run_large p (k := k) (free := free) (by omega)
  obtain ⟨fr', hfr', hrun'⟩ := run_large q (k := k') (free := free) (by omega)
  obtain ⟨m, h1⟩ := h fr hfr text pos w hs
  unfold FrameParser.orElse
  rw [hrun, exec_bind, h1]
  simp only
  rw [hrun']
  exact h' fr' hfr' text pos w hs

/-- the loop of `many`, with enough frames -/
def ZeroGives (q : FrameParser σ α) (s : Str) (ts : List α) (m : Nat) : Prop :=
  ∃ k, ∀ free, k ≤ free → ∀ text pos w, text.drop pos = s →
    (q.parseZeroOrMore free (text, pos)).exec w = some (.ok (⟨ts⟩, (text, pos + m)), w)

theorem zero_stop {q : FrameParser σ α} {s : Str} (h : Gives q s none) : ZeroGives q s [] 0 := by
  obtain ⟨k, h⟩ := h
  refine ⟨k + 2, fun free hf text pos w hs => ?_⟩
  obtain ⟨fr, hfr, hrun⟩ := run_large q hf
  obtain ⟨m, h1⟩ := h fr hfr text pos w hs
  obtain ⟨j, rfl⟩ : ∃ j, free = j + 1 := ⟨free - 1, by omega⟩
  rw [FrameParser.parseZeroOrMore, hrun, exec_bind, h1]
  rfl

theorem zero_more {q : FrameParser σ α} {s : Str} {t : α} {n : Nat} {ts : List α} {m : Nat} (h : Gives q s (some (t, n)))
    (h' : ZeroGives q (s.drop n) ts m) : ZeroGives q s (t :: ts) (n + m) := by
  obtain ⟨k, h⟩ := h
  obtain ⟨k', h'⟩ := h'
  refine ⟨max k k' + 2, fun free hf text pos w hs => ?_⟩
  obtain ⟨fr, hfr, hrun⟩ := run_large q (k := k) (free := free) (by omega)
  have h1 : _ = _ := h fr hfr text pos w hs
  obtain ⟨j, rfl⟩ : ∃ j, free = j + 1 := ⟨free - 1, by omega⟩
  have h2 := h' j (by omega) text (pos + n) w (by rw [← hs, List.drop_drop])
  rw [FrameParser.parseZeroOrMore, hrun, exec_bind, h1]
  simp only
  rw [exec_bind, h2, ← Nat.add_assoc]
  rfl

theorem many_gives {q : FrameParser σ α} {s : Str} {ts : List α} {m : Nat} (h : ZeroGives q s ts m) :
    Gives q.many s (some (⟨ts⟩, m)) := by
  obtain ⟨k, h⟩ := h
  refine ⟨k + 1, fun free hf text pos w hs => ?_⟩
  obtain ⟨j, rfl⟩ : ∃ j, free = j + 1 := ⟨free - 1, by omega⟩
  show _ = _
  unfold FrameParser.many
  simp only
  rw [exec_bind, h j (by omega) text pos w hs]
  rfl

theorem many1_gives {q : FrameParser σ α} {s : Str} {t : α} {n : Nat} {ts : List α} {m : Nat} (h : Gives q s (some (t, n)))
    (h' : ZeroGives q (s.drop n) ts m) : Gives q.many1 s (some (⟨t :: ts⟩, n + m)) := by
  obtain ⟨k, h⟩ := h
  obtain ⟨k', h'⟩ := h'
  refine ⟨max k k' + 2, fun free hf text pos w hs => ?_⟩
  obtain ⟨fr, hfr, hrun⟩ := run_large q (k := k) (free := free) (by omega)
  have h1 : _ = _ := h fr hfr text pos w hs
  obtain ⟨j, rfl⟩ : ∃ j, free = j + 1 := ⟨free - 1, by omega⟩
  have h2 := h' j (by omega) text (pos + n) w (by rw [← hs, List.drop_drop])
  show _ = _
  unfold FrameParser.many1
  rw [hrun, exec_bind, h1]
  simp only
  rw [exec_bind, h2, ← Nat.add_assoc]
  rfl

theorem many1_gives_none {q : FrameParser σ α} {s : Str} (h : Gives q s none) : Gives q.many1 s none := by
  obtain ⟨k, h⟩ := h
  refine ⟨k + 2, fun free hf text pos w hs => ?_⟩
  obtain ⟨fr, hfr, hrun⟩ := run_large q hf
  obtain ⟨m, h1⟩ := h fr hfr text pos w hs
  unfold FrameParser.many1
  rw [hrun, exec_bind, h1]
  exact ⟨m, rfl⟩

theorem rule_gives {q : FrameParser σ β} {s : Str} {o : Option (β × Nat)} (x : α) (h : Gives q s o) :
    Gives (FrameParser.bind (fun _ => pure q) (FrameParser.preturn x)) s o := by
  obtain ⟨k, h⟩ := h
  refine ⟨k + 2, fun free hf text pos w hs => ?_⟩
  obtain ⟨j, rfl⟩ : ∃ j, free = j + 2 := ⟨free - 2, by omega⟩
  exact h j (by omega) text pos w hs

theorem const_gives {p : Parser σ α} {s : Str} {o : Option (α × Nat)}
    (h : ∀ text pos w, text.drop pos = s → Answer ((p (text, pos)).exec w) text pos w o) {q : FrameParser σ α} {n : Nat}
    (hq : EnoughFrames n q p) : Gives q s o := by
  refine ⟨n, fun free hf text pos w hs => ?_⟩
  rw [hq free hf]
  exact h text pos w hs

theorem pstring_enough (s : Str) : ∃ n, EnoughFrames n (.pstring s : FrameParser σ Str) (.pstring s) := by
  refine ⟨_, map_enough _ (sequence_enough (n := 0) (by simp) ?_)⟩
  intro i q p hq hp
  rw [List.getElem?_map, Option.map_eq_some_iff] at hq hp
  obtain ⟨c, hc, rfl⟩ := hq
  obtain ⟨d, hd, rfl⟩ := hp
  rw [hc] at hd
  cases hd
  exact const_enough _

theorem parses_gives {e : Exp N} {s : Str} {o : Option (Tree × Nat)} (h : Parses g e s o) :
    Gives (σ := σ) (parserWithin g e) s o ∧
    ∀ a, e = .star a → ∀ ts m, o = some (.list ts, m) → ZeroGives (σ := σ) (parserWithin g a) s ts m := by
  induction h with
  | empty =>
    exact ⟨const_gives (o := some (Tree.unit, 0)) (p := Parser.preturn Tree.unit) (fun text pos w hs => rfl) (const_enough _), fun a h => by cases h⟩
  | fail =>
    exact ⟨const_gives (o := none) (p := Parser.fail "fail") (fun text pos w hs => ⟨_, rfl⟩) (const_enough _), fun a h => by cases h⟩
  | char hc =>
    rename_i c s
    refine ⟨map_gives (o := some ([c], 1)) _ (const_gives (fun text pos w hs => ?_) (const_enough (Parser.pchar [c]))), fun a h => by cases h⟩
    exact pchar_succ_iff.2 ⟨by rw [← head?_drop, hs]; exact hc, rfl, rfl, rfl⟩
  | charNot hc =>
    rename_i c s
    refine ⟨map_gives (o := none) _ (const_gives (fun text pos w hs => ?_) (const_enough (Parser.pchar [c]))), fun a h => by cases h⟩
    exact pchar_fail w (by rw [← head?_drop, hs]; exact hc)
  | text hx =>
    rename_i x s
    obtain ⟨n, hn⟩ := pstring_enough (σ := σ) x
    refine ⟨map_gives (o := some (x, x.length)) _ (const_gives (fun text pos w hs => ?_) hn), fun a h => by cases h⟩
    exact pstring_succ x text pos w (by rw [hs]; exact hx)
  | textNot hx =>
    rename_i x s
    obtain ⟨n, hn⟩ := pstring_enough (σ := σ) x
    refine ⟨map_gives (o := none) _ (const_gives (fun text pos w hs => ?_) hn), fun a h => by cases h⟩
    exact pstring_fails (by rw [hs]; exact hx) w
  | seq _ _ ha hb => exact ⟨map_gives _ (andThen_gives ha.1 hb.1), fun a h => by cases h⟩
  | seqFirst _ ha => exact ⟨map_gives _ (andThen_gives_first _ ha.1), fun a h => by cases h⟩
  | seqSecond _ _ ha hb => exact ⟨map_gives _ (andThen_gives ha.1 hb.1), fun a h => by cases h⟩
  | left _ _ ha hb => exact ⟨map_gives _ (andThen_gives ha.1 hb.1), fun a h => by cases h⟩
  | leftFirst _ ha => exact ⟨map_gives _ (andThen_gives_first _ ha.1), fun a h => by cases h⟩
  | leftSecond _ _ ha hb => exact ⟨map_gives _ (andThen_gives ha.1 hb.1), fun a h => by cases h⟩
  | right _ _ ha hb => exact ⟨map_gives _ (andThen_gives ha.1 hb.1), fun a h => by cases h⟩
  | rightFirst _ ha => exact ⟨map_gives _ (andThen_gives_first _ ha.1), fun a h => by cases h⟩
  | rightSecond _ _ ha hb => exact ⟨map_gives _ (andThen_gives ha.1 hb.1), fun a h => by cases h⟩
  | altFirst _ ha => exact ⟨orElse_gives_first _ ha.1, fun a h => by cases h⟩
  | altSecond _ _ ha hb => exact ⟨orElse_gives_second ha.1 hb.1, fun a h => by cases h⟩
  | opt _ ha => exact ⟨map_gives _ (orElse_gives_first _ (map_gives _ ha.1)), fun a h => by cases h⟩
  | optNot _ ha =>
    refine ⟨map_gives (o := some (none, 0)) _ (orElse_gives_second (map_gives _ ha.1)
      (const_gives (fun text pos w hs => ?_) (const_enough (Parser.preturn none)))), fun a h => by cases h⟩
    rfl
  | starEnd _ ha =>
    have := zero_stop ha.1
    exact ⟨map_gives _ (many_gives this), fun a h ts m ho => by cases h; cases ho; exact this⟩
  | starMore _ _ ha hb =>
    have := zero_more ha.1 (hb.2 _ rfl _ _ rfl)
    exact ⟨map_gives _ (many_gives this), fun a h ts m ho => by cases h; cases ho; exact this⟩
  | plus _ _ ha hb => exact ⟨map_gives _ (many1_gives ha.1 (hb.2 _ rfl _ _ rfl)), fun a h => by cases h⟩
  | plusNot _ ha => exact ⟨map_gives _ (many1_gives_none ha.1), fun a h => by cases h⟩
  | sepBy1 _ _ ha hb =>
    exact ⟨map_gives _ (map_gives _ (andThen_gives ha.1 (many_gives (hb.2 _ rfl _ _ rfl)))), fun a h => by cases h⟩
  | sepBy1Not _ ha => exact ⟨map_gives _ (map_gives _ (andThen_gives_first _ ha.1)), fun a h => by cases h⟩
  | sepBy _ _ ha hb =>
    exact ⟨map_gives _ (orElse_gives_first _ (map_gives _ (andThen_gives ha.1 (many_gives (hb.2 _ rfl _ _ rfl))))), fun a h => by cases h⟩
  | sepByNot _ ha =>
    refine ⟨map_gives (o := some (Block.empty, 0)) _ (orElse_gives_second (map_gives _ (andThen_gives_first _ ha.1))
      (const_gives (fun text pos w hs => ?_) (const_enough (Parser.preturn Block.empty)))), fun a h => by cases h⟩
    rfl
  | between _ _ _ hx ha hy =>
    refine ⟨map_gives _ (andThen_gives (map_gives _ (andThen_gives hx.1 ha.1)) hy.1), fun a h => by cases h⟩
  | betweenOpen _ hx => exact ⟨map_gives _ (andThen_gives_first _ (map_gives _ (andThen_gives_first _ hx.1))), fun a h => by cases h⟩
  | betweenBody _ _ hx ha => exact ⟨map_gives _ (andThen_gives_first _ (map_gives _ (andThen_gives hx.1 ha.1))), fun a h => by cases h⟩
  | betweenClose _ _ _ hx ha hy =>
    exact ⟨map_gives _ (andThen_gives (map_gives _ (andThen_gives hx.1 ha.1)) hy.1), fun a h => by cases h⟩
  | act _ ha => exact ⟨map_gives _ ha.1, fun a h => by cases h⟩
  | actNot _ ha => exact ⟨map_gives _ ha.1, fun a h => by cases h⟩
  | rule _ ha =>
    refine ⟨rule_gives () ?_, fun a h => by cases h⟩
    rw [rulesWithin_eq]
    exact ha.1

end Expression.Lemmas.Grammar
