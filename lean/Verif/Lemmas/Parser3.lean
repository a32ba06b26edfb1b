import Verif.Lemmas.Parser2

/-! # Parsers: sequence, strings, numbers, separated lists, choice -/

namespace Expression.Lemmas.Parser

open Expression Expression.Parser PyD Spec Expression.Lemmas

variable {σ ρ α β γ δ : Type}

/-! ## sequence -/

theorem apply_succ_iff {f : Parser σ (α → PyD σ β)} {p : Parser σ α} {inp rest : Remaining} {w w' : σ} {v : β} :
    Succeeds (apply f p) w inp v rest w' ↔ ∃ g mid w1 a w2, Succeeds f w inp g mid w1 ∧ Succeeds p w1 mid a rest w2 ∧
      (g a).exec w2 = some (.ok v, w') := by
  unfold apply
  rw [map_succ_iff]
  constructor
  · rintro ⟨⟨g, a⟩, w2, h1, h2⟩
    obtain ⟨mid, w1, h3, h4⟩ := andThen_succ_iff.1 h1
    exact ⟨g, mid, w1, a, w2, h3, h4, h2⟩
  · rintro ⟨g, mid, w1, a, w2, h1, h2, h3⟩
    exact ⟨(g, a), w2, andThen_succ_iff.2 ⟨mid, w1, h1, h2⟩, h3⟩

theorem apply_fail_iff {f : Parser σ (α → PyD σ β)} {p : Parser σ α} {inp : Remaining} {w w' : σ} {e : String} :
    Fails (apply f p) w inp e w' ↔ Fails f w inp e w' ∨ ∃ g mid w1, Succeeds f w inp g mid w1 ∧ Fails p w1 mid e w' := by
  unfold apply
  rw [map_fail_iff, andThen_fail_iff]

theorem lift2_succ_iff {f : α → PyD σ (β → PyD σ γ)} {p : Parser σ α} {q : Parser σ β} {inp rest : Remaining} {w w' : σ} {v : γ} :
    Succeeds (lift2 f p q) w inp v rest w' ↔ ∃ a mid w1 g w2 b w3, Succeeds p w inp a mid w1 ∧ (f a).exec w1 = some (.ok g, w2) ∧
      Succeeds q w2 mid b rest w3 ∧ (g b).exec w3 = some (.ok v, w') := by
  unfold lift2
  rw [apply_succ_iff]
  constructor
  · rintro ⟨g, mid, w2, b, w3, h1, h2, h3⟩
    obtain ⟨f', inp', w0, a, w1, h4, h5, h6⟩ := apply_succ_iff.1 h1
    obtain ⟨rfl, rfl, rfl⟩ := preturn_succ_iff.1 h4
    exact ⟨a, mid, w1, g, w2, b, w3, h5, h6, h2, h3⟩
  · rintro ⟨a, mid, w1, g, w2, b, w3, h1, h2, h3, h4⟩
    exact ⟨g, mid, w2, b, w3, apply_succ_iff.2 ⟨f, inp, w, a, w1, preturn_succ_iff.2 ⟨rfl, rfl, rfl⟩, h1, h2⟩, h3, h4⟩

theorem lift2_fail_iff {f : α → PyD σ (β → PyD σ γ)} {p : Parser σ α} {q : Parser σ β} {inp : Remaining} {w w' : σ} {e : String} :
    Fails (lift2 f p q) w inp e w' ↔ Fails p w inp e w' ∨ ∃ a mid w1 g w2, Succeeds p w inp a mid w1 ∧ (f a).exec w1 = some (.ok g, w2) ∧
      Fails q w2 mid e w' := by
  unfold lift2
  rw [apply_fail_iff, apply_fail_iff]
  constructor
  · rintro ((h | ⟨g, mid, w1, h1, h2⟩) | ⟨g, mid, w2, h1, h2⟩)
    · exact absurd h preturn_not_fail
    · obtain ⟨rfl, rfl, rfl⟩ := preturn_succ_iff.1 h1
      exact .inl h2
    · obtain ⟨f', inp', w0, a, w1, h4, h5, h6⟩ := apply_succ_iff.1 h1
      obtain ⟨rfl, rfl, rfl⟩ := preturn_succ_iff.1 h4
      exact .inr ⟨a, mid, w1, g, w2, h5, h6, h2⟩
  · rintro (h | ⟨a, mid, w1, g, w2, h1, h2, h3⟩)
    · exact .inl (.inr ⟨f, inp, w, preturn_succ_iff.2 ⟨rfl, rfl, rfl⟩, h⟩)
    · exact .inr ⟨g, mid, w2, apply_succ_iff.2 ⟨f, inp, w, a, w1, preturn_succ_iff.2 ⟨rfl, rfl, rfl⟩, h1, h2⟩, h3⟩

theorem sequence_cons_succ {p : Parser σ α} {ps : List (Parser σ α)} {inp rest : Remaining} {w w' : σ} {vs : Block α} :
    Succeeds (sequence (p :: ps)) w inp vs rest w' ↔ ∃ v mid w1 vs', Succeeds p w inp v mid w1 ∧
      Succeeds (sequence ps) w1 mid vs' rest w' ∧ vs = vs'.cons v := by
  change Succeeds (lift2 _ p (sequence ps)) w inp vs rest w' ↔ _
  rw [lift2_succ_iff]
  constructor
  · rintro ⟨a, mid, w1, g, w2, b, w3, h1, h2, h3, h4⟩
    cases h2; cases h4
    exact ⟨a, mid, w1, b, h1, h3, rfl⟩
  · rintro ⟨v, mid, w1, vs', h1, h2, rfl⟩
    exact ⟨v, mid, w1, _, w1, vs', w', h1, rfl, h2, rfl⟩

theorem sequence_cons_fail {p : Parser σ α} {ps : List (Parser σ α)} {inp : Remaining} {w w' : σ} {e : String} :
    Fails (sequence (p :: ps)) w inp e w' ↔ Fails p w inp e w' ∨ ∃ v mid w1, Succeeds p w inp v mid w1 ∧
      Fails (sequence ps) w1 mid e w' := by
  change Fails (lift2 _ p (sequence ps)) w inp e w' ↔ _
  rw [lift2_fail_iff]
  refine or_congr Iff.rfl ?_
  constructor
  · rintro ⟨a, mid, w1, g, w2, h1, h2, h3⟩
    cases h2
    exact ⟨a, mid, w1, h1, h3⟩
  · rintro ⟨v, mid, w1, h1, h2⟩
    exact ⟨v, mid, w1, _, w1, h1, rfl, h2⟩

theorem sequence_succ_iff {ps : List (Parser σ α)} {inp rest : Remaining} {w w' : σ} {vs : List α} :
    Succeeds (sequence ps) w inp ⟨vs⟩ rest w' ↔ InOrder ps w inp vs rest w' := by
  induction ps generalizing w inp vs with
  | nil =>
    constructor
    · intro h
      obtain ⟨h1, rfl, rfl⟩ := preturn_succ_iff.1 h
      cases h1; exact .nil
    · intro h; cases h; exact preturn_succ_iff.2 ⟨rfl, rfl, rfl⟩
  | cons p ps ih =>
    rw [sequence_cons_succ]
    constructor
    · rintro ⟨v, mid, w1, ⟨vs'⟩, h1, h2, h3⟩
      cases h3
      exact .cons h1 (ih.1 h2)
    · intro h
      cases h with
      | cons h1 h2 => exact ⟨_, _, _, _, h1, ih.2 h2, rfl⟩

theorem sequence_fail_iff {ps : List (Parser σ α)} {inp : Remaining} {w w' : σ} {e : String} :
    Fails (sequence ps) w inp e w' ↔ ∃ pre p post vs mid w1, ps = pre ++ p :: post ∧ InOrder pre w inp vs mid w1 ∧ Fails p w1 mid e w' := by
  induction ps generalizing w inp with
  | nil =>
    constructor
    · intro h; exact absurd h preturn_not_fail
    · rintro ⟨pre, p, post, vs, mid, w1, h, _⟩
      cases pre <;> cases h
  | cons p ps ih =>
    rw [sequence_cons_fail]
    constructor
    · rintro (h | ⟨v, mid, w1, h1, h2⟩)
      · exact ⟨[], p, ps, [], inp, w, rfl, .nil, h⟩
      · obtain ⟨pre, q, post, vs, mid', w2, rfl, h3, h4⟩ := ih.1 h2
        exact ⟨p :: pre, q, post, v :: vs, mid', w2, rfl, .cons h1 h3, h4⟩
    · rintro ⟨pre, q, post, vs, mid, w1, h, h1, h2⟩
      cases pre with
      | nil => cases h; cases h1; exact .inl h2
      | cons r pre =>
        cases h
        cases h1 with
        | cons h3 h4 => exact .inr ⟨_, _, _, h3, ih.2 ⟨pre, q, post, _, _, _, rfl, h4, h2⟩⟩

theorem inOrder_pchars (s : Str) (t : Str) (i : Nat) (w : σ) (h : s <+: t.drop i) :
    InOrder (s.map (fun c => pchar [c])) w (t, i) (s.map (fun c => [c])) (t, i + s.length) w := by
  induction s generalizing i with
  | nil => exact .nil
  | cons c s ih =>
    have hc : t[i]? = some c := by
      obtain ⟨z, hz⟩ := h
      have : (t.drop i)[0]? = some c := by rw [← hz]; rfl
      simpa using this
    have ht : s <+: t.drop (i + 1) := by
      obtain ⟨z, hz⟩ := h
      refine ⟨z, ?_⟩
      rw [← List.drop_drop, ← hz]; rfl
    have := ih (i + 1) ht
    rw [show i + 1 + s.length = i + (c :: s).length by simp; omega] at this
    exact .cons (pchar_succ_iff.2 ⟨hc, rfl, rfl, rfl⟩) this

theorem flatten_singletons (s : Str) : (s.map (fun c => [c])).flatten = s := by
  induction s with
  | nil => rfl
  | cons c s ih => simp [ih]

theorem pstring_succ (s : Str) (t : Str) (i : Nat) (w : σ) (h : s <+: t.drop i) :
    Succeeds (pstring s) w (t, i) s (t, i + s.length) w := by
  unfold pstring
  refine map_succ_iff.2 ⟨⟨s.map (fun c => [c])⟩, w, sequence_succ_iff.2 (inOrder_pchars s t i w h), ?_⟩
  simp only [flatten_singletons]; rfl

theorem pstring_fail (a : Str) (c : Char) (b : Str) (t : Str) (i : Nat) (w w' : σ) (e : String) (h : a <+: t.drop i)
    (hf : Fails (pchar [c]) w (t, i + a.length) e w') : Fails (pstring (a ++ c :: b)) w (t, i) e w' := by
  unfold pstring
  refine map_fail_iff.2 (sequence_fail_iff.2 ⟨a.map (fun c => pchar [c]), pchar [c], b.map (fun c => pchar [c]), _, _, w, ?_,
    inOrder_pchars a t i w h, hf⟩)
  simp

theorem prefix_of_occurs {s t : Str} {i : Nat} (h : OccursAt s t i) : s <+: t.drop i := by
  obtain ⟨b, a, rfl, rfl⟩ := h
  exact ⟨a, by simp⟩

/-- a string that is not a prefix of another differs from it at some place, or is longer -/
theorem not_prefix {s u : Str} (h : ¬ s <+: u) : ∃ a c b, s = a ++ c :: b ∧ a <+: u ∧ u[a.length]? ≠ some c := by
  induction s generalizing u with
  | nil => exact absurd List.nil_prefix h
  | cons c s ih =>
    cases u with
    | nil => exact ⟨[], c, s, rfl, List.nil_prefix, by simp⟩
    | cons d u =>
      by_cases hd : d = c
      · subst hd
        obtain ⟨a, c', b, rfl, h2, h3⟩ := ih (u := u) (fun h' => h (List.cons_prefix_cons.2 ⟨rfl, h'⟩))
        exact ⟨d :: a, c', b, rfl, List.cons_prefix_cons.2 ⟨rfl, h2⟩, by simpa using h3⟩
      · exact ⟨[], c, s, rfl, List.nil_prefix, by simpa using hd⟩

/-! ## numbers -/

theorem opt_some {p : Parser σ α} {inp rest : Remaining} {w w' : σ} {v : α} (h : Succeeds p w inp v rest w') :
    Succeeds (opt p) w inp (some v) rest w' :=
  orElse_succ (map_succ_iff.2 ⟨v, w', h, rfl⟩)

theorem opt_none {p : Parser σ α} {inp : Remaining} {w w' : σ} {e : String} (h : Fails p w inp e w') :
    Succeeds (opt p) w inp none inp w' := by
  unfold Succeeds opt
  rw [orElse_fail (map_fail_iff.2 h)]; rfl

theorem opt_not_fail {p : Parser σ α} {inp : Remaining} {w w' : σ} {e : String} : ¬ Fails (opt p) w inp e w' := by
  intro h
  rcases orElse_inv h with ⟨_, _, _, h2⟩ | ⟨v', rest', w1, h1, h2⟩ | ⟨e, w1, _, h2⟩
  · cases h2
  · cases h2
  · cases h2

/-- a sign, or none where the text goes on with something else -/
theorem sign_succ (neg : Bool) (before after : Str) (h : neg = false → after.head? ≠ some '-') (w : σ) :
    Succeeds (opt (pchar ['-'])) w (before ++ (if neg then ['-'] else []) ++ after, before.length)
      (if neg then some ['-'] else none) (before ++ (if neg then ['-'] else []) ++ after, before.length + (if neg then 1 else 0)) w := by
  cases neg with
  | true => exact opt_some (pchar_succ_iff.2 ⟨by simp, rfl, rfl, rfl⟩)
  | false =>
    obtain ⟨e, he⟩ := pchar_fail (σ := σ) (c := '-') (t := before ++ [] ++ after) (i := before.length) w (by
      have := h rfl
      rw [List.head?_eq_getElem?] at this
      rw [List.append_nil, List.getElem?_append_right (Nat.le_refl _), Nat.sub_self]
      exact this)
    exact opt_none he

theorem signed_digits (neg : Bool) (before ds after : Str) (hd : ∀ d ∈ ds, d.isDigit = true) (hne : ds ≠ [])
    (hno : NoDigitAt after 0) (w : σ) :
    Succeeds (andThen (opt (pchar ['-'])) digits) w (before ++ ((if neg then ['-'] else []) ++ ds) ++ after, before.length)
      (if neg then some ['-'] else none, ⟨ds.map (fun d => [d])⟩)
      (before ++ ((if neg then ['-'] else []) ++ ds) ++ after, before.length + ((if neg then ['-'] else []) ++ ds).length) w := by
  refine andThen_succ_iff.2
    ⟨(before ++ ((if neg then ['-'] else []) ++ ds) ++ after, before.length + (if neg then 1 else 0)), w, ?_, ?_⟩
  · have := sign_succ neg before (ds ++ after) (by
      intro _
      cases ds with
      | nil => exact absurd rfl hne
      | cons d ds =>
        simp only [List.cons_append, List.head?_cons, ne_eq, Option.some.injEq]
        rintro rfl
        have := hd '-' (by simp)
        revert this; decide) w
    rw [show before ++ ((if neg then ['-'] else []) ++ ds) ++ after = before ++ (if neg then ['-'] else []) ++ (ds ++ after) by simp]
    exact this
  · have := digits_succ ds after hd hne (before ++ (if neg then ['-'] else [])) (by
      intro c hc
      exact hno c (by
        rwa [← List.length_append, List.getElem?_append_right (Nat.le_refl _), Nat.sub_self] at hc)) w
    have e : before ++ ((if neg then ['-'] else []) ++ ds) ++ after = before ++ (if neg then ['-'] else []) ++ ds ++ after := by simp
    have e2 : (before ++ (if neg then ['-'] else [])).length = before.length + (if neg then 1 else 0) := by
      cases neg <;> simp
    have e3 : before.length + ((if neg then ['-'] else []) ++ ds).length = (before ++ (if neg then ['-'] else [])).length + ds.length := by
      cases neg <;> simp <;> omega
    rw [e, e3, ← e2]
    exact this

theorem pint_succ (neg : Bool) (before ds after : Str) (hd : ∀ d ∈ ds, d.isDigit = true) (hne : ds ≠ [])
    (hno : NoDigitAt after 0) (w : σ) :
    Succeeds pint w (before ++ ((if neg then ['-'] else []) ++ ds) ++ after, before.length)
      (if neg then (Nat.ofDigitChars 10 ds 0 : Int) * (-1) else (Nat.ofDigitChars 10 ds 0 : Int))
      (before ++ ((if neg then ['-'] else []) ++ ds) ++ after, before.length + ((if neg then ['-'] else []) ++ ds).length) w := by
  unfold pint starmap
  refine map_succ_iff.2 ⟨_, w, signed_digits neg before ds after hd hne hno w, ?_⟩
  unfold resultToInt pyInt
  simp only [flatten_singletons]
  rw [if_pos ⟨hne, by simpa using hd⟩]
  cases neg <;> rfl

theorem int_toString (n : Int) : (toString n).toList =
    (if decide (n < 0) then ['-'] else []) ++ Nat.toDigits 10 n.natAbs := by
  cases n with
  | ofNat m =>
    have : decide ((Int.ofNat m) < 0) = false := by simp
    rw [this]
    change (Nat.repr m).toList = _
    rw [Nat.toList_repr]; rfl
  | negSucc m =>
    have : decide (Int.negSucc m < 0) = true := by simp
    rw [this]
    change ("-" ++ Nat.repr (m + 1)).toList = _
    rw [String.toList_append, Nat.toList_repr]; rfl

theorem digits_toDigits (n : Nat) : ∀ d ∈ Nat.toDigits 10 n, d.isDigit = true :=
  fun _ hd => Nat.isDigit_of_mem_toDigits (by decide) (by decide) hd

theorem pint_toString (n : Int) (before after : Str) (hno : NoDigitAt after 0) (w : σ) :
    Succeeds pint w (before ++ (toString n).toList ++ after, before.length) n
      (before ++ (toString n).toList ++ after, before.length + (toString n).toList.length) w := by
  have := pint_succ (σ := σ) (decide (n < 0)) before (Nat.toDigits 10 n.natAbs) after (digits_toDigits _) Nat.toDigits_ne_nil hno w
  rw [← int_toString, Nat.ofDigitChars_ten_toDigits] at this
  have e : (if decide (n < 0) then (n.natAbs : Int) * (-1) else (n.natAbs : Int)) = n := by
    by_cases h : n < 0
    · simp only [h, decide_true, if_true]; omega
    · simp only [h, decide_false, Bool.false_eq_true, if_false]; omega
  rwa [e] at this

theorem pint_fail (t : Str) (i : Nat) (w : σ) (h1 : NoDigitAt t i) (h2 : t[i]? = some '-' → NoDigitAt t (i + 1)) :
    ∃ e, Fails pint w (t, i) e w := by
  by_cases hm : t[i]? = some '-'
  · obtain ⟨e, he⟩ := parseDigit_fail w (h2 hm)
    exact ⟨e, map_fail_iff.2 (andThen_fail_iff.2 (.inr ⟨_, _, w, opt_some (pchar_succ_iff.2 ⟨hm, rfl, rfl, rfl⟩),
      many1_fail_iff.2 he⟩))⟩
  · obtain ⟨e, he⟩ := parseDigit_fail w h1
    obtain ⟨e', he'⟩ := pchar_fail w hm
    exact ⟨e, map_fail_iff.2 (andThen_fail_iff.2 (.inr ⟨_, _, w, opt_none he', many1_fail_iff.2 he⟩))⟩

/-! ## choice -/

theorem foldl_succ_iff {p : Parser σ α} {ps : List (Parser σ α)} {inp rest : Remaining} {w w' : σ} {v : α} :
    Succeeds (ps.foldl orElse p) w inp v rest w' ↔ ∃ pre q post w1, p :: ps = pre ++ q :: post ∧ AllFail inp pre w w1 ∧
      Succeeds q w1 inp v rest w' := by
  induction ps generalizing p w with
  | nil =>
    constructor
    · intro h; exact ⟨[], p, [], w, rfl, .nil, h⟩
    · rintro ⟨pre, q, post, w1, h1, h2, h3⟩
      cases pre with
      | nil => cases h1; cases h2; exact h3
      | cons r pre => cases pre <;> cases h1
  | cons p2 ps ih =>
    rw [List.foldl_cons, foldl_orElse]
    constructor
    · intro h
      rcases orElse_inv h with ⟨_, _, _, h2⟩ | ⟨v', rest', w1, h1, h2⟩ | ⟨e, w1, h1, h2⟩
      · cases h2
      · cases h2; exact ⟨[], p, p2 :: ps, w, rfl, .nil, h1⟩
      · obtain ⟨pre, q, post, w2, h3, h4, h5⟩ := ih.1 h2
        exact ⟨p :: pre, q, post, w2, by rw [h3]; rfl, .cons h1 h4, h5⟩
    · rintro ⟨pre, q, post, w1, h1, h2, h3⟩
      cases pre with
      | nil => cases h1; cases h2; exact orElse_succ h3
      | cons r pre =>
        simp only [List.cons_append, List.cons.injEq] at h1
        obtain ⟨rfl, h1⟩ := h1
        cases h2 with
        | cons h4 h5 =>
          unfold Succeeds
          rw [orElse_fail h4]
          exact ih.2 ⟨pre, q, post, w1, h1, h5, h3⟩

theorem foldl_fail_iff {p : Parser σ α} {ps : List (Parser σ α)} {inp : Remaining} {w w' : σ} {e : String} :
    Fails (ps.foldl orElse p) w inp e w' ↔ ∃ pre q w1, p :: ps = pre ++ [q] ∧ AllFail inp pre w w1 ∧ Fails q w1 inp e w' := by
  induction ps generalizing p w with
  | nil =>
    constructor
    · intro h; exact ⟨[], p, w, rfl, .nil, h⟩
    · rintro ⟨pre, q, w1, h1, h2, h3⟩
      cases pre with
      | nil => cases h1; cases h2; exact h3
      | cons r pre => cases pre <;> cases h1
  | cons p2 ps ih =>
    rw [List.foldl_cons, foldl_orElse]
    constructor
    · intro h
      rcases orElse_inv h with ⟨_, _, _, h2⟩ | ⟨v', rest', w1, h1, h2⟩ | ⟨e', w1, h1, h2⟩
      · cases h2
      · cases h2
      · obtain ⟨pre, q, w2, h3, h4, h5⟩ := ih.1 h2
        exact ⟨p :: pre, q, w2, by rw [h3]; rfl, .cons h1 h4, h5⟩
    · rintro ⟨pre, q, w1, h1, h2, h3⟩
      cases pre with
      | nil => cases h1
      | cons r pre =>
        simp only [List.cons_append, List.cons.injEq] at h1
        obtain ⟨rfl, h1⟩ := h1
        cases h2 with
        | cons h4 h5 =>
          unfold Fails
          rw [orElse_fail h4]
          exact ih.2 ⟨pre, q, w1, h1, h5, h3⟩

/-! ## separated lists -/

theorem sepRepeats_iff {p : Parser σ α} {sep : Parser σ β} {w : σ} {inp : Remaining} {vs : List α} {rest : Remaining} {w' : σ} :
    Repeats (ignoreThen sep p) w inp vs rest w' ↔ SepRepeats p sep w inp vs rest w' := by
  constructor
  · intro h
    induction h with
    | stop h =>
      rcases ignoreThen_fail_iff.1 h with h | ⟨s, mid, w1, h1, h2⟩
      · exact .noSep h
      · exact .trailing h1 h2
    | more h _ ih =>
      obtain ⟨s, mid, w1, h1, h2⟩ := ignoreThen_succ_iff.1 h
      exact .more h1 h2 ih
  · intro h
    induction h with
    | noSep h => exact .stop (ignoreThen_fail_iff.2 (.inl h))
    | trailing h1 h2 => exact .stop (ignoreThen_fail_iff.2 (.inr ⟨_, _, _, h1, h2⟩))
    | more h1 h2 _ ih => exact .more (ignoreThen_succ_iff.2 ⟨_, _, _, h1, h2⟩) ih

theorem sepBy1_succ_iff {p : Parser σ α} {sep : Parser σ β} {w : σ} {inp : Remaining} {vs : Block α} {rest : Remaining} {w' : σ} :
    Succeeds (sepBy1 p sep) w inp vs rest w' ↔ ∃ v mid w1 vs', vs.value = v :: vs' ∧ Succeeds p w inp v mid w1 ∧
      SepRepeats p sep w1 mid vs' rest w' := by
  unfold sepBy1 starmap
  rw [map_succ_iff]
  constructor
  · rintro ⟨⟨v, ⟨vs'⟩⟩, w1, h1, h2⟩
    cases h2
    obtain ⟨mid, w1, h3, h4⟩ := andThen_succ_iff.1 h1
    exact ⟨v, mid, w1, vs', rfl, h3, sepRepeats_iff.1 (many_succ_iff.1 h4)⟩
  · rintro ⟨v, mid, w1, vs', h1, h2, h3⟩
    rcases vs with ⟨vs⟩
    obtain rfl : vs = v :: vs' := h1
    exact ⟨(v, ⟨vs'⟩), w', andThen_succ_iff.2 ⟨mid, w1, h2, many_succ_iff.2 (sepRepeats_iff.2 h3)⟩, rfl⟩

theorem sepBy1_fail_iff {p : Parser σ α} {sep : Parser σ β} {w : σ} {inp : Remaining} {w' : σ} {e : String} :
    Fails (sepBy1 p sep) w inp e w' ↔ Fails p w inp e w' := by
  unfold sepBy1 starmap
  rw [map_fail_iff, andThen_fail_iff]
  constructor
  · rintro (h | ⟨v, mid, w1, _, h⟩)
    · exact h
    · exact absurd h many_not_fail
  · exact .inl

end Expression.Lemmas.Parser
