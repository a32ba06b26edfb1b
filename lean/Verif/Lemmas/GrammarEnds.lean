import Verif.Lemmas.Grammar

/-! Grammars without left recursion answer, grammars with it do not. -/

namespace Expression.Lemmas.Grammar

open Expression Expression.Grammar Spec Spec.Grammar

variable {N : Type} {g : N → Exp N}

theorem parses_empty {e : Exp N} {s : Str} {o : Option (Tree × Nat)} (h : Parses g e s o) : ∀ t, o = some (t, 0) → MayBeEmpty g e := by
  induction h with
  | empty => exact fun _ _ => .empty
  | text h =>
    rename_i x s
    intro t ht
    simp only [Option.some.injEq, Prod.mk.injEq, List.length_eq_zero_iff] at ht
    obtain ⟨_, rfl⟩ := ht
    exact .text
  | opt | optNot => exact fun _ _ => .opt
  | starEnd | starMore => exact fun _ _ => .star
  | sepBy | sepByNot => exact fun _ _ => .sepBy
  | altFirst _ ha => exact fun t ht => .altFirst (ha t ht)
  | altSecond _ _ _ hb => exact fun t ht => .altSecond (hb t ht)
  | rule _ ha => exact fun t ht => .rule (ha t ht)
  | act _ ha => intro t ht; cases ht; exact .act (ha _ rfl)
  | seq _ _ ha hb => intro t ht; simp only [Option.some.injEq, Prod.mk.injEq, Nat.add_eq_zero_iff] at ht; obtain ⟨_, rfl, rfl⟩ := ht; exact .seq (ha _ rfl) (hb _ rfl)
  | left _ _ ha hb => intro t ht; simp only [Option.some.injEq, Prod.mk.injEq, Nat.add_eq_zero_iff] at ht; obtain ⟨_, rfl, rfl⟩ := ht; exact .left (ha _ rfl) (hb _ rfl)
  | right _ _ ha hb => intro t ht; simp only [Option.some.injEq, Prod.mk.injEq, Nat.add_eq_zero_iff] at ht; obtain ⟨_, rfl, rfl⟩ := ht; exact .right (ha _ rfl) (hb _ rfl)
  | plus _ _ ha hb => intro t ht; simp only [Option.some.injEq, Prod.mk.injEq, Nat.add_eq_zero_iff] at ht; obtain ⟨_, rfl, rfl⟩ := ht; exact .plus (ha _ rfl)
  | sepBy1 _ _ ha hb => intro t ht; simp only [Option.some.injEq, Prod.mk.injEq, Nat.add_eq_zero_iff] at ht; obtain ⟨_, rfl, rfl⟩ := ht; exact .sepBy1 (ha _ rfl)
  | between _ _ _ hx ha hy =>
    intro t ht
    simp only [Option.some.injEq, Prod.mk.injEq, Nat.add_eq_zero_iff] at ht
    obtain ⟨_, ⟨rfl, rfl⟩, rfl⟩ := ht
    exact .between (hx _ rfl) (ha _ rfl) (hy _ rfl)
  | _ => intro t ht; cases ht

theorem mayBeEmpty_right {a b : Exp N} (h : MayBeEmpty g (.right a b)) : MayBeEmpty g a ∧ MayBeEmpty g b := by
  cases h with
  | right h1 h2 => exact ⟨h1, h2⟩

theorem follow {a b : Exp N} {s : Str} {t : Tree} {n : Nat} (h : Parses g a s (some (t, n)))
    (short : ∀ s' : Str, s'.length < s.length → ∃ o, Parses g b s' o) (same : MayBeEmpty g a → ∃ o, Parses g b s o) :
    ∃ o, Parses g b (s.drop n) o := by
  cases n with
  | zero => exact same (parses_empty h _ rfl)
  | succ n =>
    have := parses_le h _ _ rfl
    exact short _ (by rw [List.length_drop]; omega)

theorem star_list {a : Exp N} {s : Str} {o : Option (Tree × Nat)} (h : Parses g (.star a) s o) : ∃ ts m, o = some (.list ts, m) := by
  cases h with
  | starEnd _ => exact ⟨_, _, rfl⟩
  | starMore _ _ => exact ⟨_, _, rfl⟩

theorem star_at {a : Exp N} {s : Str} (h : ∃ o, Parses g a s o) (hne : ¬ MayBeEmpty g a)
    (short : ∀ s' : Str, s'.length < s.length → ∃ o, Parses g (.star a) s' o) : ∃ o, Parses g (.star a) s o := by
  obtain ⟨_ | ⟨t, n⟩, h⟩ := h
  · exact ⟨_, .starEnd h⟩
  · obtain ⟨o, h'⟩ := follow h short (fun h => absurd h hne)
    obtain ⟨ts, m, rfl⟩ := star_list h'
    exact ⟨_, .starMore h h'⟩

theorem sep_at {a sep : Exp N} {s : Str} {t : Tree} {n : Nat} (h : Parses g a s (some (t, n))) (ha : ∃ o, Parses g a s o)
    (hs : MayBeEmpty g a → ∃ o, Parses g sep s o) (hne : ¬ (MayBeEmpty g sep ∧ MayBeEmpty g a))
    (shortA : ∀ s' : Str, s'.length < s.length → ∃ o, Parses g a s' o)
    (short : ∀ s' : Str, s'.length < s.length → ∃ o, Parses g (.star (.right sep a)) s' o) :
    ∃ ts m, Parses g (.star (.right sep a)) (s.drop n) (some (.list ts, m)) := by
  have hr : ¬ MayBeEmpty g (.right sep a) := fun h => hne (mayBeEmpty_right h)
  obtain ⟨o, h'⟩ := follow h short (fun he => by
    refine star_at ?_ hr short
    obtain ⟨_ | ⟨u, k⟩, h1⟩ := hs he
    · exact ⟨_, .rightFirst h1⟩
    · obtain ⟨_ | ⟨v, l⟩, h2⟩ := follow h1 shortA (fun _ => ha)
      · exact ⟨_, .rightSecond h1 h2⟩
      · exact ⟨_, .right h1 h2⟩)
  obtain ⟨ts, m, rfl⟩ := star_list h'
  exact ⟨ts, m, h'⟩

theorem total_at (L : Nat) (short : ∀ e, RepeatsConsume g e → ∀ s : Str, s.length < L → ∃ o, Parses g e s o) (e : Exp N)
    (he : RepeatsConsume g e) (hm : ∀ m, MayStartWith g m e → ∀ s : Str, s.length = L → ∃ o, Parses g (g m) s o) :
    ∀ s : Str, s.length = L → ∃ o, Parses g e s o := by
  induction e with
  | empty => exact fun _ _ => ⟨_, .empty⟩
  | fail => exact fun _ _ => ⟨_, .fail⟩
  | char c =>
    intro s _
    by_cases h : s.head? = some c
    · exact ⟨_, .char h⟩
    · exact ⟨_, .charNot h⟩
  | text x =>
    intro s _
    by_cases h : x <+: s
    · exact ⟨_, .text h⟩
    · exact ⟨_, .textNot h⟩
  | seq a b ha hb =>
    rintro s rfl
    obtain ⟨_ | ⟨t, n⟩, h1⟩ := ha he.1 (fun m h => hm m (.seqFirst h)) s rfl
    · exact ⟨_, .seqFirst h1⟩
    · obtain ⟨_ | ⟨u, k⟩, h2⟩ := follow h1 (short b he.2) (fun h => hb he.2 (fun m h' => hm m (.seqSecond h h')) s rfl)
      · exact ⟨_, .seqSecond h1 h2⟩
      · exact ⟨_, .seq h1 h2⟩
  | left a b ha hb =>
    rintro s rfl
    obtain ⟨_ | ⟨t, n⟩, h1⟩ := ha he.1 (fun m h => hm m (.leftFirst h)) s rfl
    · exact ⟨_, .leftFirst h1⟩
    · obtain ⟨_ | ⟨u, k⟩, h2⟩ := follow h1 (short b he.2) (fun h => hb he.2 (fun m h' => hm m (.leftSecond h h')) s rfl)
      · exact ⟨_, .leftSecond h1 h2⟩
      · exact ⟨_, .left h1 h2⟩
  | right a b ha hb =>
    rintro s rfl
    obtain ⟨_ | ⟨t, n⟩, h1⟩ := ha he.1 (fun m h => hm m (.rightFirst h)) s rfl
    · exact ⟨_, .rightFirst h1⟩
    · obtain ⟨_ | ⟨u, k⟩, h2⟩ := follow h1 (short b he.2) (fun h => hb he.2 (fun m h' => hm m (.rightSecond h h')) s rfl)
      · exact ⟨_, .rightSecond h1 h2⟩
      · exact ⟨_, .right h1 h2⟩
  | alt a b ha hb =>
    rintro s hs
    obtain ⟨_ | ⟨t, n⟩, h1⟩ := ha he.1 (fun m h => hm m (.altFirst h)) s hs
    · obtain ⟨o, h2⟩ := hb he.2 (fun m h => hm m (.altSecond h)) s hs
      exact ⟨_, .altSecond h1 h2⟩
    · exact ⟨_, .altFirst h1⟩
  | opt a ha =>
    rintro s hs
    obtain ⟨_ | ⟨t, n⟩, h1⟩ := ha he (fun m h => hm m (.opt h)) s hs
    · exact ⟨_, .optNot h1⟩
    · exact ⟨_, .opt h1⟩
  | star a ha =>
    rintro s rfl
    exact star_at (ha he.1 (fun m h => hm m (.star h)) s rfl) he.2 (short (.star a) he)
  | plus a ha =>
    rintro s rfl
    obtain ⟨_ | ⟨t, n⟩, h1⟩ := ha he.1 (fun m h => hm m (.plus h)) s rfl
    · exact ⟨_, .plusNot h1⟩
    · obtain ⟨o, h2⟩ := follow h1 (short (.star a) he) (fun h => absurd h he.2)
      obtain ⟨ts, k, rfl⟩ := star_list h2
      exact ⟨_, .plus h1 h2⟩
  | sepBy1 a sep ha hs =>
    rintro s rfl
    have h0 := ha he.1 (fun m h => hm m (.sepBy1First h)) s rfl
    obtain ⟨_ | ⟨t, n⟩, h1⟩ := h0
    · exact ⟨_, .sepBy1Not h1⟩
    · obtain ⟨ts, k, h2⟩ := sep_at h1 ⟨_, h1⟩ (fun h => hs he.2.1 (fun m h' => hm m (.sepBy1Sep h h')) s rfl) he.2.2 (short a he.1)
        (short _ ⟨⟨he.2.1, he.1⟩, fun h => he.2.2 (mayBeEmpty_right h)⟩)
      exact ⟨_, .sepBy1 h1 h2⟩
  | sepBy a sep ha hs =>
    rintro s rfl
    have h0 := ha he.1 (fun m h => hm m (.sepByFirst h)) s rfl
    obtain ⟨_ | ⟨t, n⟩, h1⟩ := h0
    · exact ⟨_, .sepByNot h1⟩
    · obtain ⟨ts, k, h2⟩ := sep_at h1 ⟨_, h1⟩ (fun h => hs he.2.1 (fun m h' => hm m (.sepBySep h h')) s rfl) he.2.2 (short a he.1)
        (short _ ⟨⟨he.2.1, he.1⟩, fun h => he.2.2 (mayBeEmpty_right h)⟩)
      exact ⟨_, .sepBy h1 h2⟩
  | between x y a hx hy ha =>
    rintro s rfl
    obtain ⟨_ | ⟨t, n⟩, h1⟩ := hx he.1 (fun m h => hm m (.betweenOpen h)) s rfl
    · exact ⟨_, .betweenOpen h1⟩
    · obtain ⟨_ | ⟨u, k⟩, h2⟩ := follow h1 (short a he.2.2) (fun h => ha he.2.2 (fun m h' => hm m (.betweenBody h h')) s rfl)
      · exact ⟨_, .betweenBody h1 h2⟩
      · have h3 : Parses g (.right x a) s (some (u, n + k)) := .right h1 h2
        obtain ⟨_ | ⟨v, l⟩, h4⟩ := follow h3 (short y he.2.1) (fun h => by
          have h5 : MayBeEmpty g x ∧ MayBeEmpty g a := mayBeEmpty_right h
          exact hy he.2.1 (fun m h' => hm m (.betweenClose h5.1 h5.2 h')) s rfl)
        · exact ⟨_, .betweenClose h1 h2 h4⟩
        · exact ⟨_, .between h1 h2 h4⟩
  | act f a ha =>
    rintro s hs
    obtain ⟨_ | ⟨t, n⟩, h1⟩ := ha he (fun m h => hm m (.act h)) s hs
    · exact ⟨_, .actNot h1⟩
    · exact ⟨_, .act h1⟩
  | rule n =>
    rintro s hs
    obtain ⟨o, h⟩ := hm n .rule s hs
    exact ⟨o, .rule h⟩

theorem total (hg : WellFormed g) (L : Nat) : ∀ e, RepeatsConsume g e → ∀ s : Str, s.length = L → ∃ o, Parses g e s o := by
  induction L using Nat.strongRecOn with
  | ind L ih =>
    have short : ∀ e, RepeatsConsume g e → ∀ s : Str, s.length < L → ∃ o, Parses g e s o := fun e he s hs => ih _ hs e he s rfl
    have hr : ∀ n, ∀ s : Str, s.length = L → ∃ o, Parses g (g n) s o := by
      intro n
      induction n using hg.noLeftRecursion.induction with
      | h n ihn => exact total_at L short (g n) (hg.repeats n) ihn
    exact fun e he => total_at L short e he fun m _ => hr m

/-! ### on a bounded stack -/

variable {σ α β γ : Type}

/-- answers or raises `RecursionError`, and has no effects -/
def TameOn (q : PyD σ (Res (α × Remaining) String)) (text : Str) (pos : Nat) (w : σ) : Prop :=
  q.exec w = some (.error .recursionError, w) ∨ ∃ o, Answer (q.exec w) text pos w o

def Tame (q : FrameParser σ α) : Prop := ∀ free text pos w, TameOn (q free (text, pos)) text pos w

theorem run_tame {q : FrameParser σ α} (h : Tame q) (free : Nat) (text : Str) (pos : Nat) (w : σ) : TameOn (q.run free (text, pos)) text pos w := by
  match free with
  | 0 | 1 => exact .inl rfl
  | free + 2 => exact h free text pos w

theorem const_tame {p : Parser σ α} {S : Str → Option (α × Nat) → Prop} (h : Means p S) (he : ∀ inp w, (p inp).exec w ≠ none) :
    Tame (fun _ => p) := by
  intro free text pos w
  rcases hr : (p (text, pos)).exec w with _ | r
  · exact absurd hr (he _ _)
  · obtain ⟨o, _, ho⟩ := h text pos w r hr
    exact .inr ⟨o, by rw [hr]; exact ho⟩

theorem map_tame (f : α → β) {q : FrameParser σ α} (h : Tame q) : Tame (q.map fun a => pure (f a)) := by
  intro free text pos w
  rcases run_tame h free text pos w with h1 | ⟨_ | ⟨t, n⟩, h1⟩
  · left; unfold FrameParser.map; rw [PyD.exec_bind, h1]
  · obtain ⟨m, h1⟩ := h1
    exact .inr ⟨none, m, by unfold FrameParser.map; rw [PyD.exec_bind, h1]; rfl⟩
  · refine .inr ⟨some (f t, n), ?_⟩
    show _ = _
    unfold FrameParser.map
    rw [PyD.exec_bind, show _ = _ from h1]
    rfl

theorem andThen_tame {p : FrameParser σ α} {q : FrameParser σ β} (h : Tame p) (h' : Tame q) : Tame (p.andThen q) := by
  intro free text pos w
  unfold TameOn FrameParser.andThen
  rw [PyD.exec_bind]
  rcases run_tame h free text pos w with h1 | ⟨_ | ⟨t, n⟩, h1⟩
  · left; rw [h1]
  · obtain ⟨m, h1⟩ := h1
    exact .inr ⟨none, m, by rw [h1]; rfl⟩
  · rw [show _ = _ from h1]
    simp only
    rw [PyD.exec_bind]
    rcases run_tame h' free text (pos + n) w with h2 | ⟨_ | ⟨u, k⟩, h2⟩
    · left; rw [h2]
    · obtain ⟨m, h2⟩ := h2
      exact .inr ⟨none, m, by rw [h2]; rfl⟩
    · refine .inr ⟨some ((t, u), n + k), ?_⟩
      rw [show _ = _ from h2]
      show _ = _
      rw [← Nat.add_assoc]
      rfl

theorem orElse_tame {p q : FrameParser σ α} (h : Tame p) (h' : Tame q) : Tame (p.orElse q) := by
  intro free text pos w
  unfold TameOn FrameParser.orElse
  rw [PyD.exec_bind]
  rcases run_tame h free text pos w with h1 | ⟨_ | ⟨t, n⟩, h1⟩
  · left; rw [h1]
  · obtain ⟨m, h1⟩ := h1
    rw [h1]
    exact run_tame h' free text pos w
  · rw [show _ = _ from h1]
    exact .inr ⟨some (t, n), rfl⟩

theorem zero_tame {q : FrameParser σ α} (h : Tame q) (free : Nat) : ∀ (text : Str) (pos : Nat) (w : σ),
    (q.parseZeroOrMore free (text, pos)).exec w = some (.error .recursionError, w) ∨
    ∃ ts m, (q.parseZeroOrMore free (text, pos)).exec w = some (.ok (⟨ts⟩, (text, pos + m)), w) := by
  induction free with
  | zero => intro text pos w; exact .inl rfl
  | succ free ih =>
    intro text pos w
    rw [FrameParser.parseZeroOrMore, PyD.exec_bind]
    rcases run_tame h (free + 1) text pos w with h1 | ⟨_ | ⟨t, n⟩, h1⟩
    · left; rw [h1]
    · obtain ⟨m, h1⟩ := h1
      exact .inr ⟨[], 0, by rw [h1]; rfl⟩
    · rw [show _ = _ from h1]
      simp only
      rw [PyD.exec_bind]
      rcases ih text (pos + n) w with h2 | ⟨ts, m, h2⟩
      · left; rw [h2]
      · refine .inr ⟨t :: ts, n + m, ?_⟩
        rw [h2, ← Nat.add_assoc]
        rfl

theorem many_tame {q : FrameParser σ α} (h : Tame q) : Tame q.many := by
  intro free text pos w
  cases free with
  | zero => exact .inl rfl
  | succ free =>
    unfold TameOn FrameParser.many
    simp only
    rw [PyD.exec_bind]
    rcases zero_tame h free text pos w with h1 | ⟨ts, m, h1⟩
    · left; rw [h1]
    · exact .inr ⟨some (⟨ts⟩, m), by rw [h1]; rfl⟩

theorem many1_tame {q : FrameParser σ α} (h : Tame q) : Tame q.many1 := by
  intro free text pos w
  unfold TameOn FrameParser.many1
  rw [PyD.exec_bind]
  rcases run_tame h free text pos w with h1 | ⟨_ | ⟨t, n⟩, h1⟩
  · left; rw [h1]
  · obtain ⟨m, h1⟩ := h1
    exact .inr ⟨none, m, by rw [h1]; rfl⟩
  · rw [show _ = _ from h1]
    cases free with
    | zero => exact .inl rfl
    | succ free =>
      simp only
      rw [PyD.exec_bind]
      rcases zero_tame h free text (pos + n) w with h2 | ⟨ts, m, h2⟩
      · left; rw [h2]
      · refine .inr ⟨some (⟨t :: ts⟩, n + m), ?_⟩
        rw [h2]
        show _ = _
        rw [← Nat.add_assoc]
        rfl

theorem preturn_tame (x : α) : Tame (σ := σ) (FrameParser.preturn x) := fun _ _ _ _ => .inr ⟨some (x, 0), rfl⟩

theorem pchar_tame (c : Char) : Tame (σ := σ) (FrameParser.pchar [c]) := by
  intro free text pos w
  by_cases h : text[pos]? = some c
  · exact .inr ⟨some ([c], 1), Lemmas.Parser.pchar_succ_iff.2 ⟨h, rfl, rfl, rfl⟩⟩
  · obtain ⟨e, he⟩ := Lemmas.Parser.pchar_fail w h
    exact .inr ⟨none, e, he⟩

theorem pstring_tame (x : Str) : Tame (σ := σ) (FrameParser.pstring x) := by
  cases x with
  | nil => exact map_tame (fun x : Block Str => x.value.flatten) (preturn_tame Block.empty)
  | cons c s =>
    intro free text pos w
    obtain ⟨h1, h2⟩ := Lemmas.ParserStack.pstring_exact (σ := σ) c s free text pos w
    by_cases hf : free < 4 * min (agreement (c :: s) text pos) s.length + 10
    · exact .inl (h1 hf)
    · have h3 := h2 (by omega)
      unfold TameOn
      rw [h3]
      by_cases h : (c :: s) <+: text.drop pos
      · exact .inr ⟨some (c :: s, (c :: s).length), Lemmas.Parser.pstring_succ _ text pos w h⟩
      · obtain ⟨e, he⟩ := pstring_fails h w
        exact .inr ⟨none, e, he⟩

theorem make_tame {r : N → FrameParser σ Tree} (h : ∀ n, Tame (r n)) (e : Exp N) : Tame (makeWithin r e) := by
  induction e with
  | empty => exact preturn_tame _
  | fail => exact fun _ _ _ _ => .inr ⟨none, _, rfl⟩
  | char c => exact map_tame _ (pchar_tame c)
  | text s => exact map_tame _ (pstring_tame s)
  | seq a b ha hb => exact map_tame _ (andThen_tame ha hb)
  | left a b ha hb => exact map_tame _ (andThen_tame ha hb)
  | right a b ha hb => exact map_tame _ (andThen_tame ha hb)
  | alt a b ha hb => exact orElse_tame ha hb
  | opt a ha => exact map_tame _ (orElse_tame (map_tame _ ha) (preturn_tame _))
  | star a ha => exact map_tame _ (many_tame ha)
  | plus a ha => exact map_tame _ (many1_tame ha)
  | sepBy1 a s ha hs => exact map_tame _ (map_tame _ (andThen_tame ha (many_tame (map_tame _ (andThen_tame hs ha)))))
  | sepBy a s ha hs =>
    exact map_tame _ (orElse_tame (map_tame _ (andThen_tame ha (many_tame (map_tame _ (andThen_tame hs ha))))) (preturn_tame _))
  | between x y a hx hy ha => exact map_tame _ (andThen_tame (map_tame _ (andThen_tame hx ha)) hy)
  | act f a ha => exact map_tame _ ha
  | rule n =>
    intro free text pos w
    match free with
    | 0 | 1 => exact .inl rfl
    | free + 2 => exact run_tame (h n) (free + 2) text pos w

theorem rulesDeep_tame (depth : Nat) : ∀ n, Tame (σ := σ) (rulesDeep g depth n) := by
  induction depth with
  | zero => intro n free text pos w; exact .inl rfl
  | succ depth ih => intro n; exact make_tame ih (g n)

theorem parserWithin_tame (e : Exp N) : Tame (σ := σ) (parserWithin g e) :=
  make_tame (fun n free => rulesDeep_tame (free + 1) n free) e

/-! ### overflow comes from inside -/

theorem run_over {q : FrameParser σ α} {free : Nat} {inp : Remaining} {w : σ} (h : ∀ f, f + 2 = free → Overflows q f inp w w) :
    (q.run free inp).exec w = some (.error .recursionError, w) := by
  match free with
  | 0 | 1 => rfl
  | free + 2 => exact h free rfl

theorem map_over (f : α → PyD σ β) {q : FrameParser σ α} {free : Nat} {inp : Remaining} {w : σ}
    (h : ∀ f, f + 2 = free → Overflows q f inp w w) : Overflows (q.map f) free inp w w := by
  unfold Overflows FrameParser.map
  rw [PyD.exec_bind, run_over h]

theorem andThen_over_first {p : FrameParser σ α} (q : FrameParser σ β) {free : Nat} {inp : Remaining} {w : σ}
    (h : ∀ f, f + 2 = free → Overflows p f inp w w) : Overflows (p.andThen q) free inp w w := by
  unfold Overflows FrameParser.andThen
  rw [PyD.exec_bind, run_over h]

theorem andThen_over_second {p : FrameParser σ α} {q : FrameParser σ β} {free : Nat} {inp inp' : Remaining} {w : σ} {v : α}
    (h : ∀ f, f + 2 = free → Overflows p f inp w w ∨ (p f inp).exec w = some (.ok (.ok (v, inp')), w))
    (h' : ∀ f, f + 2 = free → Overflows q f inp' w w) : Overflows (p.andThen q) free inp w w := by
  match free with
  | 0 | 1 => rfl
  | free + 2 =>
    rcases h free rfl with h | h
    · exact andThen_over_first q (fun f hf => by cases hf; exact h)
    · unfold Overflows FrameParser.andThen
      rw [PyD.exec_bind, show p.run (free + 2) inp = p free inp from rfl, h]
      simp only
      rw [PyD.exec_bind, run_over h']

theorem many_over {q : FrameParser σ α} {free : Nat} {inp : Remaining} {w : σ} (h : ∀ f, f < free → Overflows q f inp w w) :
    Overflows q.many free inp w w := by
  match free with
  | 0 => rfl
  | free + 1 =>
    unfold Overflows FrameParser.many
    simp only
    rw [PyD.exec_bind]
    match free with
    | 0 => rfl
    | free + 1 =>
      rw [FrameParser.parseZeroOrMore, PyD.exec_bind, run_over (fun f hf => h f (by omega))]

theorem left_recursive {C : N → Prop} (hC : ∀ n, C n → ∃ m, C m ∧ StartsWith m (g n)) {e : Exp N} {s : Str} {o : Option (Tree × Nat)}
    (h : Parses g e s o) : ∀ m, C m → ¬ StartsWith m e := by
  induction h with
  | rule _ ih =>
    intro m hm hs
    cases hs
    obtain ⟨m', h1, h2⟩ := hC _ hm
    exact ih m' h1 h2
  | _ => intro m hm hs; cases hs <;> grind

end Expression.Lemmas.Grammar
