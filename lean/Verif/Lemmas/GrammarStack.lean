import Verif.Lemmas.GrammarEnds

/-! # How many frames the parser of a grammar needs

`GivesIn k q s o`: with `k` free frames or more, `q` answers `o`. The lemmas count the frames that each combinator adds. -/

namespace Expression.Lemmas.GrammarStack

open Expression Expression.Grammar Spec Spec.Grammar PyD Lemmas.Grammar Lemmas.Parser Lemmas.ParserStack

variable {σ α β N : Type} {g : N → Exp N}

/-- with `k` frames `q` answers `o` where the text is `s` -/
def GivesIn (k : Nat) (q : FrameParser σ α) (s : Str) (o : Option (α × Nat)) : Prop :=
  ∀ free, k ≤ free → ∀ text pos w, text.drop pos = s → Answer ((q free (text, pos)).exec w) text pos w o

/-- the loop of `many`, with `k` frames -/
def ZeroIn (k : Nat) (q : FrameParser σ α) (s : Str) (ts : List α) (m : Nat) : Prop :=
  ∀ free, k ≤ free → ∀ text pos w, text.drop pos = s →
    (q.parseZeroOrMore free (text, pos)).exec w = some (.ok (⟨ts⟩, (text, pos + m)), w)

variable {k k' b : Nat}

theorem GivesIn.mono {q : FrameParser σ α} {s : Str} {o : Option (α × Nat)} (h : GivesIn k q s o) (hk : k ≤ b) : GivesIn b q s o :=
  fun free hf => h free (Nat.le_trans hk hf)

theorem map_in {q : FrameParser σ α} {s : Str} {o : Option (α × Nat)} (f : α → β) (h : GivesIn k q s o) (hb : k + 2 ≤ b) :
    GivesIn b (q.map fun a => pure (f a)) s (o.map fun x => (f x.1, x.2)) := by
  intro free hf text pos w hs
  obtain ⟨fr, hfr, hrun⟩ := run_large q (k := k) (free := free) (by omega)
  have h1 := h fr hfr text pos w hs
  unfold FrameParser.map
  rw [hrun, exec_bind]
  rcases o with _ | ⟨t, n⟩
  · obtain ⟨m, h1⟩ := h1
    exact ⟨m, by rw [h1]; rfl⟩
  · show _ = _
    rw [h1]; rfl

theorem andThen_in {p : FrameParser σ α} {q : FrameParser σ β} {s : Str} {t : α} {n : Nat} {o : Option (β × Nat)}
    (h : GivesIn k p s (some (t, n))) (h' : GivesIn k' q (s.drop n) o) (hb : k + 2 ≤ b) (hb' : k' + 2 ≤ b) :
    GivesIn b (p.andThen q) s (o.map fun x => ((t, x.1), n + x.2)) := by
  intro free hf text pos w hs
  obtain ⟨fr, hfr, hrun⟩ := run_large p (k := k) (free := free) (by omega)
  obtain ⟨fr', hfr', hrun'⟩ := run_large q (k := k') (free := free) (by omega)
  have h1 : _ = _ := h fr hfr text pos w hs
  have h2 := h' fr' hfr' text (pos + n) w (by rw [← hs, List.drop_drop])
  unfold FrameParser.andThen
  rw [hrun, exec_bind, h1]
  simp only
  rw [hrun', exec_bind]
  rcases o with _ | ⟨u, m⟩
  · obtain ⟨m, h2⟩ := h2
    exact ⟨m, by rw [h2]; rfl⟩
  · show _ = _
    rw [show _ = _ from h2, ← Nat.add_assoc]; rfl

theorem andThen_in_first {p : FrameParser σ α} (q : FrameParser σ β) {s : Str} (h : GivesIn k p s none) (hb : k + 2 ≤ b) :
    GivesIn b (p.andThen q) s none := by
  intro free hf text pos w hs
  obtain ⟨fr, hfr, hrun⟩ := run_large p (k := k) (free := free) (by omega)
  obtain ⟨m, h1⟩ := h fr hfr text pos w hs
  unfold FrameParser.andThen
  rw [hrun, exec_bind, h1]
  exact ⟨m, rfl⟩

theorem orElse_in_first {p : FrameParser σ α} (q : FrameParser σ α) {s : Str} {t : α} {n : Nat} (h : GivesIn k p s (some (t, n)))
    (hb : k + 2 ≤ b) : GivesIn b (p.orElse q) s (some (t, n)) := by
  intro free hf text pos w hs
  obtain ⟨fr, hfr, hrun⟩ := run_large p (k := k) (free := free) (by omega)
  have h1 : _ = _ := h fr hfr text pos w hs
  unfold FrameParser.orElse
  rw [hrun, exec_bind, h1]
  rfl

theorem orElse_in_second {p q : FrameParser σ α} {s : Str} {o : Option (α × Nat)} (h : GivesIn k p s none) (h' : GivesIn k' q s o)
    (hb : k + 2 ≤ b) (hb' : k' + 2 ≤ b) : GivesIn b (p.orElse q) s o := by
  intro free hf text pos w hs
  obtain ⟨fr, hfr, hrun⟩ := run_large p (k := k) (free := free) (by omega)
  obtain ⟨fr', hfr', hrun'⟩ := run_large q (k := k') (free := free) (by omega)
  obtain ⟨m, h1⟩ := h fr hfr text pos w hs
  unfold FrameParser.orElse
  rw [hrun, exec_bind, h1]
  simp only
  rw [hrun']
  exact h' fr' hfr' text pos w hs

theorem zero_in_stop {q : FrameParser σ α} {s : Str} (h : GivesIn k q s none) (hb : k + 2 ≤ b) : ZeroIn b q s [] 0 := by
  intro free hf text pos w hs
  obtain ⟨fr, hfr, hrun⟩ := run_large q (k := k) (free := free) (by omega)
  obtain ⟨m, h1⟩ := h fr hfr text pos w hs
  obtain ⟨j, rfl⟩ : ∃ j, free = j + 1 := ⟨free - 1, by omega⟩
  rw [FrameParser.parseZeroOrMore, hrun, exec_bind, h1]
  rfl

theorem zero_in_more {q : FrameParser σ α} {s : Str} {t : α} {n : Nat} {ts : List α} {m : Nat} (h : GivesIn k q s (some (t, n)))
    (h' : ZeroIn k' q (s.drop n) ts m) (hb : k + 2 ≤ b) (hb' : k' + 1 ≤ b) : ZeroIn b q s (t :: ts) (n + m) := by
  intro free hf text pos w hs
  obtain ⟨fr, hfr, hrun⟩ := run_large q (k := k) (free := free) (by omega)
  have h1 : _ = _ := h fr hfr text pos w hs
  obtain ⟨j, rfl⟩ : ∃ j, free = j + 1 := ⟨free - 1, by omega⟩
  have h2 := h' j (by omega) text (pos + n) w (by rw [← hs, List.drop_drop])
  rw [FrameParser.parseZeroOrMore, hrun, exec_bind, h1]
  simp only
  rw [exec_bind, h2, ← Nat.add_assoc]
  rfl

theorem many_in {q : FrameParser σ α} {s : Str} {ts : List α} {m : Nat} (h : ZeroIn k q s ts m) (hb : k + 1 ≤ b) :
    GivesIn b q.many s (some (⟨ts⟩, m)) := by
  intro free hf text pos w hs
  obtain ⟨j, rfl⟩ : ∃ j, free = j + 1 := ⟨free - 1, by omega⟩
  show _ = _
  unfold FrameParser.many
  simp only
  rw [exec_bind, h j (by omega) text pos w hs]
  rfl

theorem many1_in {q : FrameParser σ α} {s : Str} {t : α} {n : Nat} {ts : List α} {m : Nat} (h : GivesIn k q s (some (t, n)))
    (h' : ZeroIn k' q (s.drop n) ts m) (hb : k + 2 ≤ b) (hb' : k' + 1 ≤ b) : GivesIn b q.many1 s (some (⟨t :: ts⟩, n + m)) := by
  intro free hf text pos w hs
  obtain ⟨fr, hfr, hrun⟩ := run_large q (k := k) (free := free) (by omega)
  have h1 : _ = _ := h fr hfr text pos w hs
  obtain ⟨j, rfl⟩ : ∃ j, free = j + 1 := ⟨free - 1, by omega⟩
  have h2 := h' j (by omega) text (pos + n) w (by rw [← hs, List.drop_drop])
  show _ = _
  unfold FrameParser.many1
  rw [hrun, exec_bind, h1]
  simp only
  rw [exec_bind, h2, ← Nat.add_assoc]
  rfl

theorem many1_in_none {q : FrameParser σ α} {s : Str} (h : GivesIn k q s none) (hb : k + 2 ≤ b) : GivesIn b q.many1 s none := by
  intro free hf text pos w hs
  obtain ⟨fr, hfr, hrun⟩ := run_large q (k := k) (free := free) (by omega)
  obtain ⟨m, h1⟩ := h fr hfr text pos w hs
  unfold FrameParser.many1
  rw [hrun, exec_bind, h1]
  exact ⟨m, rfl⟩

theorem rule_in {q : FrameParser σ β} {s : Str} {o : Option (β × Nat)} (x : α) (h : GivesIn k q s o) (hb : k + 2 ≤ b) :
    GivesIn b (FrameParser.bind (fun _ => pure q) (FrameParser.preturn x)) s o := by
  intro free hf text pos w hs
  obtain ⟨j, rfl⟩ : ∃ j, free = j + 2 := ⟨free - 2, by omega⟩
  exact h j (by omega) text pos w hs

theorem const_in {p : Parser σ α} {s : Str} {o : Option (α × Nat)}
    (h : ∀ text pos w, text.drop pos = s → Answer ((p (text, pos)).exec w) text pos w o) {q : FrameParser σ α} {n : Nat}
    (hq : EnoughFrames n q p) (hb : n ≤ b) : GivesIn b q s o := by
  intro free hf text pos w hs
  rw [hq free (Nat.le_trans hb hf)]
  exact h text pos w hs

/-! ### the frames of an expression -/

/-- frames enough to read a fixed text -/
noncomputable def textFrames (σ : Type) (x : Str) : Nat := (pstring_enough (σ := σ) x).choose

theorem textFrames_enough (x : Str) : EnoughFrames (textFrames σ x) (.pstring x : FrameParser σ Str) (.pstring x) :=
  (pstring_enough (σ := σ) x).choose_spec

/-- frames for the expression, except those of the rules in it -/
noncomputable def height (σ : Type) : Exp N → Nat
  | .empty | .fail => 0
  | .char _ => 2
  | .text x => textFrames σ x + 2
  | .seq a b | .left a b | .right a b => max (height σ a) (height σ b) + 4
  | .alt a b => max (height σ a) (height σ b) + 2
  | .opt a => height σ a + 6
  | .star a => height σ a + 5
  | .plus a => height σ a + 5
  | .sepBy1 a sep | .sepBy a sep => max (height σ a) (height σ sep) + 20
  | .between x y a => max (height σ x) (max (height σ y) (height σ a)) + 8
  | .act _ a => height σ a + 2
  | .rule _ => 0

/-- what is left of the text after `n` characters, `n ≤` its length, costs `K * n` less -/
theorem less {K n : Nat} {s : Str} (h : n ≤ s.length) : K * (s.drop n).length + K * n = K * s.length := by
  rw [← Nat.mul_add, List.length_drop, Nat.sub_add_cancel h]

/-- `r` is enough for the rules `e` may start with -/
def Starts (g : N → Exp N) (R : N → Nat) (e : Exp N) (r : Nat) : Prop := ∀ m, MayStartWith g m e → R m ≤ r

/-- The frames that are enough for `e` where `s` is the text: those of the expression itself, those of the rules it may start with, and `K` for every
character. -/
def Fits (σ : Type) (g : N → Exp N) (R : N → Nat) (K : Nat) (e : Exp N) (s : Str) (o : Option (Tree × Nat)) : Prop :=
  ∀ r, Starts g R e r → GivesIn (height σ e + r + K * s.length) (parserWithin (σ := σ) g e) s o

/-- and for the loop -/
def FitsLoop (σ : Type) (g : N → Exp N) (R : N → Nat) (K : Nat) (a : Exp N) (s : Str) (ts : List Tree) (m : Nat) : Prop :=
  ∀ r, Starts g R a r → ZeroIn (height σ a + 2 + r + K * s.length) (parserWithin (σ := σ) g a) s ts m

variable {R : N → Nat} {K : Nat}

/-- what comes after `a`: either it may be what the whole starts with, or at least a character is consumed -/
theorem after {P : Nat → Prop} {S : Nat → Prop} (mono : ∀ i j, i ≤ j → P i → P j) {a : Exp N} {s : Str} {t : Tree} {n c : Nat} (hS : S K)
    (h : Parses g a s (some (t, n))) (h' : ∀ r, S r → P (c + r + K * (s.drop n).length)) {r : Nat} (hr : MayBeEmpty g a → S r) :
    P (c + r + K * s.length) := by
  have hn := less (K := K) (parses_le h _ _ rfl)
  cases n with
  | zero => exact mono _ _ (by omega) (h' r (hr (parses_empty h _ rfl)))
  | succ n =>
    refine mono _ _ ?_ (h' K hS)
    rw [Nat.mul_succ] at hn
    omega

theorem Fits.after {a e : Exp N} {s : Str} {t : Tree} {n : Nat} {o : Option (Tree × Nat)} (hR : ∀ m, R m < K)
    (h : Parses g a s (some (t, n))) (h' : Fits σ g R K e (s.drop n) o) {r : Nat} (hr : MayBeEmpty g a → Starts g R e r) :
    GivesIn (height σ e + r + K * s.length) (parserWithin (σ := σ) g e) (s.drop n) o :=
  GrammarStack.after (S := Starts g R e) (P := fun k => GivesIn k (parserWithin (σ := σ) g e) (s.drop n) o) (fun _ _ hij h => h.mono hij)
    (fun m _ => Nat.le_of_lt (hR m)) h h' hr

theorem FitsLoop.after {a e : Exp N} {s : Str} {t : Tree} {n : Nat} {ts : List Tree} {m : Nat} (hR : ∀ m, R m < K)
    (h : Parses g a s (some (t, n))) (h' : FitsLoop σ g R K e (s.drop n) ts m) {r : Nat} (hr : MayBeEmpty g a → Starts g R e r) :
    ZeroIn (height σ e + 2 + r + K * s.length) (parserWithin (σ := σ) g e) (s.drop n) ts m :=
  GrammarStack.after (S := Starts g R e) (P := fun k => ZeroIn k (parserWithin (σ := σ) g e) (s.drop n) ts m)
    (fun _ _ hij h free hf => h free (Nat.le_trans hij hf)) (fun m _ => Nat.le_of_lt (hR m)) h h' hr

theorem FitsLoop.more {a : Exp N} {s : Str} {t : Tree} {n : Nat} {ts : List Tree} {m : Nat} (hK : 0 < K) (hne : ¬ MayBeEmpty g a)
    (h : Parses g a s (some (t, n))) (ha : Fits σ g R K a s (some (t, n))) (hl : FitsLoop σ g R K a (s.drop n) ts m) :
    FitsLoop σ g R K a s (t :: ts) (n + m) := by
  intro r hr
  have hn := less (K := K) (parses_le h _ _ rfl)
  have hKn : 1 ≤ K * n := by
    cases n with
    | zero => exact absurd (parses_empty h _ rfl) hne
    | succ n => exact Nat.mul_pos hK (Nat.succ_pos n)
  exact zero_in_more (ha r hr) (hl r hr) (by omega) (by omega)

theorem fits (hK : 0 < K) (hR : ∀ m, R m < K) (hrep : ∀ n, RepeatsConsume g (g n))
    (hrule : ∀ n, ∃ r, Starts g R (g n) r ∧ height σ (g n) + r + 2 ≤ R n) {e : Exp N} {s : Str} {o : Option (Tree × Nat)} (h : Parses g e s o) :
    RepeatsConsume g e → Fits σ g R K e s o ∧ ∀ a, e = .star a → ∀ ts m, o = some (.list ts, m) → FitsLoop σ g R K a s ts m := by
  induction h with
  | empty =>
    exact fun _ => ⟨fun r hr => const_in (o := some (Tree.unit, 0)) (p := Parser.preturn Tree.unit) (fun text pos w hs => rfl) (const_enough _) (by omega),
      fun a h => by cases h⟩
  | fail =>
    exact fun _ => ⟨fun r hr => const_in (o := none) (p := Parser.fail "fail") (fun text pos w hs => ⟨_, rfl⟩) (const_enough _) (by omega), fun a h => by cases h⟩
  | char hc =>
    rename_i c s
    refine fun _ => ⟨fun r hr => map_in (k := 0) (o := some ([c], 1)) _ (const_in (fun text pos w hs => ?_) (const_enough (Parser.pchar [c])) (Nat.le_refl _))
      (by simp only [height]; omega), fun a h => by cases h⟩
    exact pchar_succ_iff.2 ⟨by rw [← head?_drop, hs]; exact hc, rfl, rfl, rfl⟩
  | charNot hc =>
    rename_i c s
    refine fun _ => ⟨fun r hr => map_in (k := 0) (o := none) _ (const_in (fun text pos w hs => ?_) (const_enough (Parser.pchar [c])) (Nat.le_refl _))
      (by simp only [height]; omega), fun a h => by cases h⟩
    exact pchar_fail w (by rw [← head?_drop, hs]; exact hc)
  | text hx =>
    rename_i x s
    refine fun _ => ⟨fun r hr => map_in (o := some (x, x.length)) _ (const_in (fun text pos w hs => ?_) (textFrames_enough x) (Nat.le_refl _))
      (by simp only [height]; omega), fun a h => by cases h⟩
    exact pstring_succ x text pos w (by rw [hs]; exact hx)
  | textNot hx =>
    rename_i x s
    refine fun _ => ⟨fun r hr => map_in (o := none) _ (const_in (fun text pos w hs => ?_) (textFrames_enough x) (Nat.le_refl _))
      (by simp only [height]; omega), fun a h => by cases h⟩
    exact pstring_fails (by rw [hs]; exact hx) w
  | seq h1 _ ha hb =>
    exact fun he => ⟨fun r hr => map_in _ (andThen_in ((ha he.1).1 r fun m h => hr m (.seqFirst h))
      ((hb he.2).1.after hR h1 fun h m h' => hr m (.seqSecond h h')) (Nat.le_max_left _ _) (Nat.le_max_right _ _)) (by simp only [height]; omega), fun a h => by cases h⟩
  | seqFirst _ ha =>
    exact fun he => ⟨fun r hr => map_in _ (andThen_in_first _ ((ha he.1).1 r fun m h => hr m (.seqFirst h)) (Nat.le_refl _)) (by simp only [height]; omega),
      fun a h => by cases h⟩
  | seqSecond h1 _ ha hb =>
    exact fun he => ⟨fun r hr => map_in _ (andThen_in ((ha he.1).1 r fun m h => hr m (.seqFirst h))
      ((hb he.2).1.after hR h1 fun h m h' => hr m (.seqSecond h h')) (Nat.le_max_left _ _) (Nat.le_max_right _ _)) (by simp only [height]; omega), fun a h => by cases h⟩
  | left h1 _ ha hb =>
    exact fun he => ⟨fun r hr => map_in _ (andThen_in ((ha he.1).1 r fun m h => hr m (.leftFirst h))
      ((hb he.2).1.after hR h1 fun h m h' => hr m (.leftSecond h h')) (Nat.le_max_left _ _) (Nat.le_max_right _ _)) (by simp only [height]; omega), fun a h => by cases h⟩
  | leftFirst _ ha =>
    exact fun he => ⟨fun r hr => map_in _ (andThen_in_first _ ((ha he.1).1 r fun m h => hr m (.leftFirst h)) (Nat.le_refl _)) (by simp only [height]; omega),
      fun a h => by cases h⟩
  | leftSecond h1 _ ha hb =>
    exact fun he => ⟨fun r hr => map_in _ (andThen_in ((ha he.1).1 r fun m h => hr m (.leftFirst h))
      ((hb he.2).1.after hR h1 fun h m h' => hr m (.leftSecond h h')) (Nat.le_max_left _ _) (Nat.le_max_right _ _)) (by simp only [height]; omega), fun a h => by cases h⟩
  | right h1 _ ha hb =>
    exact fun he => ⟨fun r hr => map_in _ (andThen_in ((ha he.1).1 r fun m h => hr m (.rightFirst h))
      ((hb he.2).1.after hR h1 fun h m h' => hr m (.rightSecond h h')) (Nat.le_max_left _ _) (Nat.le_max_right _ _)) (by simp only [height]; omega), fun a h => by cases h⟩
  | rightFirst _ ha =>
    exact fun he => ⟨fun r hr => map_in _ (andThen_in_first _ ((ha he.1).1 r fun m h => hr m (.rightFirst h)) (Nat.le_refl _)) (by simp only [height]; omega),
      fun a h => by cases h⟩
  | rightSecond h1 _ ha hb =>
    exact fun he => ⟨fun r hr => map_in _ (andThen_in ((ha he.1).1 r fun m h => hr m (.rightFirst h))
      ((hb he.2).1.after hR h1 fun h m h' => hr m (.rightSecond h h')) (Nat.le_max_left _ _) (Nat.le_max_right _ _)) (by simp only [height]; omega), fun a h => by cases h⟩
  | altFirst _ ha =>
    exact fun he => ⟨fun r hr => orElse_in_first _ ((ha he.1).1 r fun m h => hr m (.altFirst h)) (by simp only [height]; omega), fun a h => by cases h⟩
  | altSecond _ _ ha hb =>
    exact fun he => ⟨fun r hr => orElse_in_second ((ha he.1).1 r fun m h => hr m (.altFirst h)) ((hb he.2).1 r fun m h => hr m (.altSecond h))
      (by simp only [height]; omega) (by simp only [height]; omega), fun a h => by cases h⟩
  | opt _ ha =>
    exact fun he => ⟨fun r hr => map_in _ (orElse_in_first _ (map_in _ ((ha he).1 r fun m h => hr m (.opt h)) (Nat.le_refl _)) (Nat.le_refl _))
      (by simp only [height]; omega), fun a h => by cases h⟩
  | optNot _ ha =>
    rename_i a s _
    refine fun he => ⟨fun r hr => map_in (k := height σ a + r + K * s.length + 4) (o := some (none, 0)) _ (orElse_in_second
      (map_in _ ((ha he).1 r fun m h => hr m (.opt h)) (Nat.le_refl _))
      (const_in (fun text pos w hs => ?_) (const_enough (Parser.preturn none)) (Nat.le_refl _)) (by omega) (by omega)) (by simp only [height]; omega),
      fun a h => by cases h⟩
    rfl
  | starEnd _ ha =>
    intro he
    have hl : ∀ r, _ := fun r hr => zero_in_stop ((ha he.1).1 r hr) (Nat.le_refl _)
    refine ⟨fun r hr => map_in _ (many_in (hl r fun m h => hr m (.star h)) (Nat.le_refl _)) (by simp only [height]; omega), fun a h ts m ho => ?_⟩
    cases h; cases ho
    intro r hr free hf
    exact hl r hr free (by omega)
  | starMore h1 _ ha hb =>
    intro he
    have hl := FitsLoop.more hK he.2 h1 (ha he.1).1 ((hb he).2 _ rfl _ _ rfl)
    refine ⟨fun r hr => map_in _ (many_in (hl r fun m h => hr m (.star h)) (Nat.le_refl _)) (by simp only [height]; omega), fun a h ts m ho => ?_⟩
    cases h; cases ho
    exact hl
  | plus h1 _ ha hb =>
    exact fun he => ⟨fun r hr => map_in _ (many1_in ((ha he.1).1 r fun m h => hr m (.plus h))
      (((hb he).2 _ rfl _ _ rfl).after hR h1 (r := r) fun h => absurd h he.2) (Nat.le_max_left _ _) (Nat.le_max_right _ _)) (by simp only [height]; omega), fun a h => by cases h⟩
  | plusNot _ ha =>
    exact fun he => ⟨fun r hr => map_in _ (many1_in_none ((ha he.1).1 r fun m h => hr m (.plus h)) (Nat.le_refl _)) (by simp only [height]; omega),
      fun a h => by cases h⟩
  | sepBy1 h1 _ ha hb =>
    intro he
    rename_i a sep s t n ts m _
    have he' : RepeatsConsume g (.star (.right sep a)) := ⟨⟨he.2.1, he.1⟩, fun h => he.2.2 (mayBeEmpty_right h)⟩
    refine ⟨fun r hr => map_in _ (map_in _ (andThen_in ((ha he.1).1 r fun m h => hr m (.sepBy1First h))
      (many_in (((hb he').2 _ rfl _ _ rfl).after hR h1 (r := r) fun h m h' => ?_) (Nat.le_refl _)) (Nat.le_max_left _ _) (Nat.le_max_right _ _)) (Nat.le_refl _))
      (by simp only [height]; omega), fun a h => by cases h⟩
    cases h' with
    | rightFirst h' => exact hr m (.sepBy1Sep h h')
    | rightSecond _ h' => exact hr m (.sepBy1First h')
  | sepBy1Not _ ha =>
    exact fun he => ⟨fun r hr => map_in _ (map_in _ (andThen_in_first _ ((ha he.1).1 r fun m h => hr m (.sepBy1First h)) (Nat.le_refl _)) (Nat.le_refl _))
      (by simp only [height]; omega), fun a h => by cases h⟩
  | sepBy h1 _ ha hb =>
    intro he
    rename_i a sep s t n ts m _
    have he' : RepeatsConsume g (.star (.right sep a)) := ⟨⟨he.2.1, he.1⟩, fun h => he.2.2 (mayBeEmpty_right h)⟩
    refine ⟨fun r hr => map_in _ (orElse_in_first _ (map_in _ (andThen_in ((ha he.1).1 r fun m h => hr m (.sepByFirst h))
      (many_in (((hb he').2 _ rfl _ _ rfl).after hR h1 (r := r) fun h m h' => ?_) (Nat.le_refl _)) (Nat.le_max_left _ _) (Nat.le_max_right _ _)) (Nat.le_refl _)) (Nat.le_refl _))
      (by simp only [height]; omega), fun a h => by cases h⟩
    cases h' with
    | rightFirst h' => exact hr m (.sepBySep h h')
    | rightSecond _ h' => exact hr m (.sepByFirst h')
  | sepByNot _ ha =>
    rename_i a sep s _
    refine fun he => ⟨fun r hr => map_in (k := height σ a + r + K * s.length + 6) (o := some (Block.empty, 0)) _ (orElse_in_second
      (map_in _ (andThen_in_first _ ((ha he.1).1 r fun m h => hr m (.sepByFirst h)) (Nat.le_refl _)) (Nat.le_refl _))
      (const_in (fun text pos w hs => ?_) (const_enough (Parser.preturn Block.empty)) (Nat.le_refl _)) (by omega) (by omega)) (by simp only [height]; omega),
      fun a h => by cases h⟩
    rfl
  | between h1 h2 _ hx ha hy =>
    exact fun he => ⟨fun r hr => map_in _ (andThen_in (map_in _ (andThen_in ((hx he.1).1 r fun m h => hr m (.betweenOpen h))
      ((ha he.2.2).1.after hR h1 fun h m h' => hr m (.betweenBody h h')) (Nat.le_max_left _ _) (Nat.le_max_right _ _)) (Nat.le_refl _))
      ((hy he.2.1).1.after hR (.right h1 h2) fun h m h' => hr m (.betweenClose (mayBeEmpty_right h).1 (mayBeEmpty_right h).2 h'))
      (Nat.le_max_left _ _) (Nat.le_max_right _ _)) (by simp only [height]; omega), fun a h => by cases h⟩
  | betweenOpen _ hx =>
    exact fun he => ⟨fun r hr => map_in _ (andThen_in_first _ (map_in _ (andThen_in_first _ ((hx he.1).1 r fun m h => hr m (.betweenOpen h)) (Nat.le_refl _))
      (Nat.le_refl _)) (Nat.le_refl _)) (by simp only [height]; omega), fun a h => by cases h⟩
  | betweenBody h1 _ hx ha =>
    exact fun he => ⟨fun r hr => map_in _ (andThen_in_first _ (map_in _ (andThen_in ((hx he.1).1 r fun m h => hr m (.betweenOpen h))
      ((ha he.2.2).1.after hR h1 fun h m h' => hr m (.betweenBody h h')) (Nat.le_max_left _ _) (Nat.le_max_right _ _)) (Nat.le_refl _)) (Nat.le_refl _))
      (by simp only [height]; omega), fun a h => by cases h⟩
  | betweenClose h1 h2 _ hx ha hy =>
    exact fun he => ⟨fun r hr => map_in _ (andThen_in (map_in _ (andThen_in ((hx he.1).1 r fun m h => hr m (.betweenOpen h))
      ((ha he.2.2).1.after hR h1 fun h m h' => hr m (.betweenBody h h')) (Nat.le_max_left _ _) (Nat.le_max_right _ _)) (Nat.le_refl _))
      ((hy he.2.1).1.after hR (.right h1 h2) fun h m h' => hr m (.betweenClose (mayBeEmpty_right h).1 (mayBeEmpty_right h).2 h'))
      (Nat.le_max_left _ _) (Nat.le_max_right _ _)) (by simp only [height]; omega), fun a h => by cases h⟩
  | act _ ha => exact fun he => ⟨fun r hr => map_in _ ((ha he).1 r fun m h => hr m (.act h)) (by simp only [height]; omega), fun a h => by cases h⟩
  | actNot _ ha => exact fun he => ⟨fun r hr => map_in _ ((ha he).1 r fun m h => hr m (.act h)) (by simp only [height]; omega), fun a h => by cases h⟩
  | rule _ ha =>
    rename_i n s o _
    refine fun _ => ⟨fun r hr => ?_, fun a h => by cases h⟩
    obtain ⟨r', hr', hle⟩ := hrule n
    have hn := hr n .rule
    refine rule_in () (k := height σ (g n) + r' + K * s.length) ?_ (by simp only [height]; omega)
    rw [rulesWithin_eq]
    exact (ha (hrep n)).1 r' hr'

/-! ### the constants -/

theorem mem_sum (l : List N) (f : N → Nat) {n : N} (h : n ∈ l) : f n ≤ (l.map f).sum := by
  induction h with
  | head => simp
  | tail _ _ ih => simp only [List.map_cons, List.sum_cons]; omega

/-- frames for every rule, from those of the rules it may start with -/
theorem rule_frames (names : List N) (hn : ∀ n, n ∈ names) (wf : WellFounded fun m n => MayStartWith g m (g n)) (h : Exp N → Nat) :
    ∃ R : N → Nat, ∀ n, ∃ r, Starts g R (g n) r ∧ h (g n) + r + 2 ≤ R n := by
  classical
  let F : (n : N) → ((m : N) → MayStartWith g m (g n) → Nat) → Nat := fun n rec =>
    h (g n) + (names.map fun m => if hm : MayStartWith g m (g n) then rec m hm else 0).sum + 2
  refine ⟨wf.fix F, fun n => ⟨(names.map fun m => if MayStartWith g m (g n) then wf.fix F m else 0).sum, fun m hm => ?_, ?_⟩⟩
  · have := mem_sum names (fun m => if MayStartWith g m (g n) then wf.fix F m else 0) (hn m)
    rw [if_pos hm] at this
    exact this
  · rw [wf.fix_eq F n]
    exact Nat.le_refl _

/-- The number of frames is linear, with a constant that depends on the grammar and the expression only. -/
theorem linear (names : List N) (hn : ∀ n, n ∈ names) (hg : WellFormed g) (e : Exp N) (he : RepeatsConsume g e) :
    ∃ c, ∀ s o, Parses g e s o → GivesIn (c * (s.length + 1)) (parserWithin (σ := σ) g e) s o := by
  obtain ⟨R, hR⟩ := rule_frames names hn hg.noLeftRecursion (height σ)
  obtain ⟨K, hK⟩ : ∃ K, K = (names.map R).sum + 1 := ⟨_, rfl⟩
  have hlt : ∀ m, R m < K := fun m => by
    have := mem_sum names R (hn m)
    omega
  refine ⟨height σ e + K, fun s o h => ?_⟩
  refine ((fits (σ := σ) (by omega) hlt hg.repeats hR h he).1 K fun m _ => Nat.le_of_lt (hlt m)).mono ?_
  have : height σ e ≤ height σ e * (s.length + 1) := Nat.le_mul_of_pos_right _ (Nat.succ_pos _)
  rw [Nat.add_mul, Nat.mul_succ K]
  omega

end Expression.Lemmas.GrammarStack
