import Verif.Lemmas.Parser3

/-! # Parsers: floating-point literals, endless repetition, laws -/

namespace Expression.Lemmas.Parser

open Expression Expression.Parser PyD Spec Expression.Lemmas

variable {σ ρ α β γ δ : Type}

theorem map_exec {f : α → PyD σ β} {p : Parser σ α} {inp rest : Remaining} {w w1 : σ} {v : α} (h : Succeeds p w inp v rest w1) :
    (Parser.map f p inp).exec w = (do let y ← f v; pure (.ok (y, rest)) : PyD σ (Res (β × Remaining) String)).exec w1 := by
  rw [map_eq, bind_succ h, bind_assoc]
  simp only [pure_bind]; rfl

theorem fraction_succ (frac before after : Str) (hf : ∀ d ∈ frac, d.isDigit = true) (hne : frac ≠ []) (hno : NoDigitAt after 0) (w : σ) :
    Succeeds (opt (ignoreThen (pchar ['.']) digits)) w (before ++ '.' :: frac ++ after, before.length) (some ⟨frac.map (fun d => [d])⟩)
      (before ++ '.' :: frac ++ after, before.length + (frac.length + 1)) w := by
  refine opt_some (ignoreThen_succ_iff.2 ⟨['.'], (before ++ '.' :: frac ++ after, before.length + 1), w,
    pchar_succ_iff.2 ⟨by simp, rfl, rfl, rfl⟩, ?_⟩)
  have := digits_succ (σ := σ) frac after hf hne (before ++ ['.']) (by
    intro c hc
    exact hno c (by rwa [← List.length_append, List.getElem?_append_right (Nat.le_refl _), Nat.sub_self] at hc)) w
  rw [show before ++ '.' :: frac ++ after = before ++ ['.'] ++ frac ++ after by simp,
    show before.length + 1 = (before ++ ['.']).length by simp,
    show before.length + (frac.length + 1) = (before ++ ['.']).length + frac.length by simp; omega]
  exact this

theorem fraction_none (t : Str) (i : Nat) (h : t[i]? = some '.' → NoDigitAt t (i + 1)) (w : σ) :
    Succeeds (opt (ignoreThen (pchar ['.']) digits)) w (t, i) none (t, i) w := by
  by_cases hm : t[i]? = some '.'
  · obtain ⟨e, he⟩ := parseDigit_fail w (h hm)
    exact opt_none (ignoreThen_fail_iff.2 (.inr ⟨_, _, w, pchar_succ_iff.2 ⟨hm, rfl, rfl, rfl⟩, many1_fail_iff.2 he⟩))
  · obtain ⟨e, he⟩ := pchar_fail w hm
    exact opt_none (ignoreThen_fail_iff.2 (.inl he))

theorem pfloat_frac {F : Type} (float : Str → PyD σ F) (neg : F → F) (minus : Bool) (before ds frac after : Str)
    (hd : ∀ d ∈ ds, d.isDigit = true) (hne : ds ≠ []) (hf : ∀ d ∈ frac, d.isDigit = true) (hfne : frac ≠ [])
    (hno : NoDigitAt after 0) (w : σ) :
    (pfloat float neg (before ++ ((if minus then ['-'] else []) ++ ds ++ '.' :: frac) ++ after, before.length)).exec w =
      (do let x ← float (ds ++ '.' :: frac)
          pure (.ok (if minus then neg x else x, (before ++ ((if minus then ['-'] else []) ++ ds ++ '.' :: frac) ++ after,
            before.length + ((if minus then ['-'] else []) ++ ds ++ '.' :: frac).length)))
          : PyD σ (Res (F × Remaining) String)).exec w := by
  have h1 := signed_digits (σ := σ) minus before ds ('.' :: frac ++ after) hd hne (by
    intro c hc; simp only [List.cons_append, List.getElem?_cons_zero, Option.some.injEq] at hc; subst hc; decide) w
  have h2 := fraction_succ (σ := σ) frac (before ++ ((if minus then ['-'] else []) ++ ds)) after hf hfne hno w
  have e1 : before ++ ((if minus then ['-'] else []) ++ ds ++ '.' :: frac) ++ after =
      before ++ ((if minus then ['-'] else []) ++ ds) ++ ('.' :: frac ++ after) := by simp
  have e2 : before ++ ((if minus then ['-'] else []) ++ ds) ++ '.' :: frac ++ after =
      before ++ ((if minus then ['-'] else []) ++ ds) ++ ('.' :: frac ++ after) := by simp
  rw [e2, List.length_append (as := before)] at h2
  have e3 : before.length + ((if minus then ['-'] else []) ++ ds ++ '.' :: frac).length =
      before.length + ((if minus then ['-'] else []) ++ ds).length + (frac.length + 1) := by
    rw [List.length_append (bs := '.' :: frac)]; simp only [List.length_cons]; omega
  rw [e1, e3]
  have h3 := andThen_succ_iff (v := (((if minus then some ['-'] else none : Option Str), (⟨ds.map (fun d => [d])⟩ : Block Str)), some (⟨frac.map (fun d => [d])⟩ : Block Str))).2
    ⟨_, w, h1, h2⟩
  unfold pfloat starmap
  rw [map_exec h3]
  unfold resultToFloat
  have e4 : (List.map (fun d => [d]) ds ++ (Block.cons ⟨List.map (fun d => [d]) frac⟩ ['.']).value).flatten = ds ++ '.' :: frac := by
    simp only [Block.cons, List.flatten_append, List.flatten_cons, flatten_singletons]; rfl
  simp only [e4, bind_assoc, pure_bind]
  cases minus <;> rfl

theorem pfloat_int {F : Type} (float : Str → PyD σ F) (neg : F → F) (minus : Bool) (before ds after : Str)
    (hd : ∀ d ∈ ds, d.isDigit = true) (hne : ds ≠ [])
    (hno : NoDigitAt after 0) (hdot : after[0]? = some '.' → NoDigitAt after 1) (w : σ) :
    (pfloat float neg (before ++ ((if minus then ['-'] else []) ++ ds) ++ after, before.length)).exec w =
      (do let x ← float ds
          pure (.ok (if minus then neg x else x, (before ++ ((if minus then ['-'] else []) ++ ds) ++ after,
            before.length + ((if minus then ['-'] else []) ++ ds).length)))
          : PyD σ (Res (F × Remaining) String)).exec w := by
  have h1 := signed_digits (σ := σ) minus before ds after hd hne hno w
  have h2 := fraction_none (σ := σ) (before ++ ((if minus then ['-'] else []) ++ ds) ++ after)
    (before.length + ((if minus then ['-'] else []) ++ ds).length) (by
      rw [← List.length_append, List.getElem?_append_right (Nat.le_refl _), Nat.sub_self]
      intro hh c hc
      exact hdot hh c (by rwa [List.getElem?_append_right (by omega), Nat.add_sub_cancel_left] at hc)) w
  have h3 := andThen_succ_iff (v := (((if minus then some ['-'] else none : Option Str), (⟨ds.map (fun d => [d])⟩ : Block Str)), (none : Option (Block Str)))).2 ⟨_, w, h1, h2⟩
  unfold pfloat starmap
  rw [map_exec h3]
  unfold resultToFloat
  simp only [flatten_singletons, bind_assoc, pure_bind]
  cases minus <;> rfl

/-! ## endless repetition -/

theorem zero_diverges (p : Parser σ α) (inp : Remaining) (h : ∀ w, ∃ v w', Succeeds p w inp v inp w') (w : σ) :
    (parseZeroOrMore p inp).exec w = none := by
  rcases hz : (parseZeroOrMore p inp).exec w with _ | r
  · rfl
  · exfalso
    have hno : ∀ w vs rest w', ¬ Repeats p w inp vs rest w' := by
      intro w vs rest w' hr
      generalize hx : inp = inp' at hr
      induction hr with
      | @stop w0 _ _ _ hf =>
        subst hx
        obtain ⟨v, w1, hs⟩ := h w0
        unfold Succeeds at hs; unfold Fails at hf
        rw [hs] at hf; cases hf
      | @more w0 _ _ _ _ _ _ _ hs' _ ih =>
        subst hx
        obtain ⟨v, w1, hs⟩ := h w0
        unfold Succeeds at hs hs'
        rw [hs] at hs'; cases hs'
        exact ih rfl
    have hno2 : ∀ w e w', ¬ RepeatsRaises p w inp e w' := by
      intro w e w' hr
      generalize hx : inp = inp' at hr
      induction hr with
      | @now w0 _ _ _ hf =>
        subst hx
        obtain ⟨v, w1, hs⟩ := h w0
        unfold Succeeds at hs; unfold Raises at hf
        rw [hs] at hf; cases hf
      | @later w0 _ _ _ _ _ _ hs' _ ih =>
        subst hx
        obtain ⟨v, w1, hs⟩ := h w0
        unfold Succeeds at hs hs'
        rw [hs] at hs'; cases hs'
        exact ih rfl
    rcases zero_inv p inp w r hz with ⟨vs, rest, w', h1, _⟩ | ⟨e, w', h1, _⟩
    · exact hno _ _ _ _ h1
    · exact hno2 _ _ _ h1

/-! ## bounded stack -/

theorem within_eq (p : Parser σ α) (n : Nat) (inp : Remaining) :
    parseZeroOrMoreWithin p (n + 1) inp = p inp >>= zeroStep (parseZeroOrMoreWithin p n) inp := by
  rw [parseZeroOrMoreWithin]
  refine bind_congr fun o => ?_
  rcases o with ⟨_, _⟩ | _ <;> rfl

theorem within_enough {p : Parser σ α} {w w' : σ} {inp rest : Remaining} {vs : List α} (h : Repeats p w inp vs rest w') (n : Nat)
    (hn : vs.length < n) : (parseZeroOrMoreWithin p n inp).exec w = some (.ok (⟨vs⟩, rest), w') := by
  induction h generalizing n with
  | stop h =>
    obtain ⟨n, rfl⟩ : ∃ m, n = m + 1 := ⟨n - 1, by omega⟩
    rw [within_eq, exec_bind, h]; rfl
  | more h _ ih =>
    obtain ⟨n, rfl⟩ : ∃ m, n = m + 1 := ⟨n - 1, by omega⟩
    rw [within_eq, exec_bind, h]
    simp only [zeroStep]
    rw [exec_bind, ih n (by simpa using hn)]; rfl

theorem within_exhausted {p : Parser σ α} {w w' : σ} {inp rest : Remaining} {vs : List α} (h : Repeats p w inp vs rest w') (n : Nat)
    (hn : n ≤ vs.length) : ∃ w1, (parseZeroOrMoreWithin p n inp).exec w = some (.error .recursionError, w1) := by
  induction h generalizing n with
  | @stop w _ _ _ h =>
    obtain rfl : n = 0 := by simpa using hn
    exact ⟨w, rfl⟩
  | @more w _ _ _ _ _ _ _ h _ ih =>
    cases n with
    | zero => exact ⟨w, rfl⟩
    | succ n =>
      obtain ⟨w1, h1⟩ := ih n (by simpa using hn)
      refine ⟨w1, ?_⟩
      rw [within_eq, exec_bind, h]
      simp only [zeroStep]
      rw [exec_bind, h1]

/-! ## laws -/

theorem bind_preturn (p : Parser σ α) : Parser.bind (fun a => pure (preturn a)) p = p := by
  funext inp
  rw [bind_eq]
  have : ∀ o, bindStep (σ := σ) (fun a => pure (preturn a)) o = (pure o : PyD σ (Res (α × Remaining) String)) := by
    intro o
    rcases o with ⟨_, _⟩ | _ <;> rfl
  rw [show bindStep (σ := σ) (fun (a : α) => pure (preturn a)) = pure from funext this, _root_.bind_pure]

theorem bind_bind (f : α → PyD σ (Parser σ β)) (g : β → PyD σ (Parser σ γ)) (p : Parser σ α) :
    Parser.bind g (Parser.bind f p) = Parser.bind (fun a => do let q ← f a; pure (Parser.bind g q)) p := by
  funext inp
  rw [bind_eq, bind_eq, bind_eq, bind_assoc]
  refine bind_congr fun o => ?_
  rcases o with ⟨v, r⟩ | e
  · simp only [bindStep, bind_assoc, pure_bind]
    refine bind_congr fun q => ?_
    rw [bind_eq]
  · simp only [bindStep, pure_bind]

/-! ## whitespace -/

theorem blank_eq : (const (anyOf stringWhitespace) : Parser σ Str) =
    (['\t', '\n', '\r', Char.ofNat 0x0b, Char.ofNat 0x0c].map (fun c => pchar [c])).foldl orElse (pchar [' ']) := by
  have h : (anyOf stringWhitespace : Py Unit (Parser σ Str)).exec () = _ := choice_cons _ _ ()
  unfold const
  rw [h]

theorem mem_whitespace (d : Char) : d ∈ [' ', '\t', '\n', '\r', Char.ofNat 0x0b, Char.ofNat 0x0c] ↔
    d.toNat = 32 ∨ (9 ≤ d.toNat ∧ d.toNat ≤ 13) := by
  constructor
  · intro h
    simp only [List.mem_cons, List.not_mem_nil, or_false] at h
    rcases h with rfl | rfl | rfl | rfl | rfl | rfl <;> decide
  · intro h
    rw [← Char.ofNat_toNat d]
    have : d.toNat = 32 ∨ d.toNat = 9 ∨ d.toNat = 10 ∨ d.toNat = 11 ∨ d.toNat = 12 ∨ d.toNat = 13 := by omega
    rcases this with h | h | h | h | h | h <;> rw [h] <;> decide

theorem blank_succ_iff {t : Str} {i : Nat} {w w' : σ} {v : Str} {rest : Remaining} :
    Succeeds (const (anyOf stringWhitespace)) w (t, i) v rest w' ↔
      ∃ d, t[i]? = some d ∧ (d.toNat = 32 ∨ (9 ≤ d.toNat ∧ d.toNat ≤ 13)) ∧ v = [d] ∧ rest = (t, i + 1) ∧ w' = w := by
  rw [blank_eq, anyOf_foldl]
  exact exists_congr fun d => and_congr_right fun _ => and_congr_left fun _ => mem_whitespace d

theorem blank_fail {t : Str} {i : Nat} (w : σ) (h : ∀ c, t[i]? = some c → ¬ (c.toNat = 32 ∨ (9 ≤ c.toNat ∧ c.toNat ≤ 13))) :
    ∃ e, Fails (const (anyOf stringWhitespace)) w (t, i) e w := by
  rw [blank_eq]
  refine anyOf_foldl_fail w ?_
  intro d hd hm
  exact h d hd ((mem_whitespace d).1 hm)

theorem repeats_blank (ds after : Str) (hd : ∀ d ∈ ds, d.toNat = 32 ∨ (9 ≤ d.toNat ∧ d.toNat ≤ 13)) (before : Str)
    (hno : ∀ c, after.head? = some c → ¬ (c.toNat = 32 ∨ (9 ≤ c.toNat ∧ c.toNat ≤ 13))) (w : σ) :
    Repeats (const (anyOf stringWhitespace)) w (before ++ ds ++ after, before.length) (ds.map (fun d => [d]))
      (before ++ ds ++ after, before.length + ds.length) w := by
  induction ds generalizing before with
  | nil =>
    obtain ⟨e, he⟩ := blank_fail (t := before ++ [] ++ after) (i := before.length) w (by
      intro c hc
      apply hno c
      simpa [List.getElem?_append_right, List.head?_eq_getElem?] using hc)
    exact .stop he
  | cons d ds ih =>
    have e : before ++ d :: ds ++ after = (before ++ [d]) ++ ds ++ after := by simp
    refine .more (mid := (before ++ d :: ds ++ after, before.length + 1)) (w1 := w)
      (blank_succ_iff.2 ⟨d, by simp, hd d (by simp), rfl, rfl, rfl⟩) ?_
    have := ih (fun x hx => hd x (List.mem_cons_of_mem _ hx)) (before ++ [d])
    rw [← e] at this
    simp only [List.length_append, List.length_cons, List.length_nil] at this ⊢
    rw [show before.length + (ds.length + 1) = before.length + (0 + 1) + ds.length by omega]
    exact this

end Expression.Lemmas.Parser
