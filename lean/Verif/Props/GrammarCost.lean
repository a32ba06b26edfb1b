import Verif.Lemmas.GrammarLinear
import Verif.Props.Grammar

/-! # Property C128: what parsing costs -/

namespace Expression.Props

open Expression Expression.Grammar Spec Spec.Grammar PyD Lemmas.Grammar Lemmas.GrammarCost Lemmas.GrammarLinear

variable {σ N : Type} {g : N → Exp N}

/-- **C128 (counting changes nothing).** The counted parser ends exactly if the parser does, with the same answer. -/
theorem C128_same (e : Exp N) (inp : Remaining) (before : Nat) (w : σ) (r : Except PyErr (Res (Tree × Remaining) String)) :
    (∃ after, (parserCounted g e inp).exec before = some (r, after)) ↔ (∃ w', (parser g e inp).exec w = some (r, w')) :=
  ⟨fun ⟨_, h⟩ => alike_parser e inp _ _ _ h w, fun ⟨_, h⟩ => parser_alike e inp _ _ _ h before⟩

/-- A parser that ends does so after a number of runs that does not depend on what was run before. -/
theorem C128_counts (e : Exp N) (inp : Remaining) (w : σ) : Ends (parser g e) w inp ↔ ∃ k, Runs (parserCounted g e) inp k := by
  constructor
  · intro h
    rcases hr : (parser g e inp).exec w with _ | ⟨r, w'⟩
    · exact absurd hr h
    · obtain ⟨a, ha⟩ := (C128_same e inp 0 w r).2 ⟨w', hr⟩
      obtain ⟨o, k, h1, h2⟩ := parser_costs e inp.1 inp.2 0 _ ha
      refine ⟨k, r, fun before => ?_⟩
      obtain ⟨b, hb⟩ := (C128_same e inp before w r).2 ⟨w', hr⟩
      obtain ⟨o', k', h3, h4⟩ := parser_costs e inp.1 inp.2 before _ hb
      obtain ⟨rfl, rfl⟩ := takes_det h1 h3
      rw [hb]
      rcases o with _ | ⟨t, n⟩
      · obtain ⟨m, h4⟩ := h4
        cases h4
        rfl
      · cases h4
        rfl
  · rintro ⟨k, r, h⟩ h0
    obtain ⟨w', h1⟩ := (C128_same (σ := σ) e inp 0 w r).1 ⟨_, h 0⟩
    have h1 : (parser g e inp).exec w = some (r, w') := h1
    rw [h1] at h0
    cases h0

private theorem runs_takes {e : Exp N} {text : Str} {pos k : Nat} (h : Runs (parserCounted g e) (text, pos) k) :
    ∃ o, Takes g (.exp e) (text.drop pos) o k := by
  obtain ⟨r, h⟩ := h
  obtain ⟨o, k', h1, h2⟩ := parser_costs e text pos 0 _ (h 0)
  have : k = k' := by
    rcases o with _ | ⟨t, n⟩
    · obtain ⟨m, h2⟩ := h2
      have := congrArg Prod.snd (Option.some.inj h2)
      simp only at this
      omega
    · have := congrArg Prod.snd (Option.some.inj h2)
      simp only at this
      omega
  exact ⟨o, this ▸ h1⟩

/-- The full statement: parsing takes polynomial time, for every grammar whose parsers answer on every text. -/
def C128_full_statement : Prop :=
  ∀ (N : Type) (g : N → Exp N), WellFormed g → ∀ e, RepeatsConsume g e →
    ∃ c d, ∀ text k, Runs (parserCounted g e) (text, 0) k → k ≤ c * (text.length + 1) ^ d

/-- **C128 (without rules).** If no rules are used, parsing takes polynomial time: if the parser ends at all, the number of runs is at most the size of the
expression times a power of the length of the text that is left, the power being how deep repetitions are inside each other. -/
theorem C128_polynomial_partial (e : Exp N) (he : RuleFree e) (text : Str) (pos k : Nat) (h : Runs (parserCounted g e) (text, pos) k) :
    k ≤ size e * (text.length - pos + 1) ^ nesting e := by
  obtain ⟨o, h⟩ := runs_takes h
  have := takes_cap h he (text.length - pos) (nesting e) (by simp) (Nat.le_refl _)
  exact this

/-! ## a grammar for which it takes exponential time -/

/-- `term → '(' sum ')' | '1'` -/
def sumTerm : Exp Unit := .alt (.between (.char '(') (.char ')') (.rule ())) (.char '1')

/-- `sum → term '+' sum | term` -/
def sums : Unit → Exp Unit := fun _ => .alt (.seq sumTerm (.right (.char '+') (.rule ()))) sumTerm

theorem sums_wellFormed : WellFormed sums where
  noLeftRecursion := by
    have ht : ∀ n, ¬ MayStartWith sums n sumTerm := by
      intro n h
      cases h with
      | altFirst h =>
        cases h with
        | betweenOpen h => cases h
        | betweenBody h _ => cases h
        | betweenClose h _ _ => cases h
      | altSecond h => cases h
    refine ⟨fun n => ⟨_, fun m h => ?_⟩⟩
    exfalso
    cases h with
    | altFirst h =>
      cases h with
      | seqFirst h => exact ht _ h
      | seqSecond h _ =>
        cases h with
        | altFirst h => cases h with | between h _ _ => cases h
        | altSecond h => cases h
    | altSecond h => exact ht _ h
  repeats _ := ⟨⟨⟨⟨trivial, trivial, trivial⟩, trivial⟩, trivial, trivial⟩, ⟨trivial, trivial, trivial⟩, trivial⟩

/-- the number 1 in so many brackets -/
def bracketed (depth : Nat) : Str := List.replicate depth '(' ++ '1' :: List.replicate depth ')'

private theorem bracketed_succ (d : Nat) (after : Str) : bracketed (d + 1) ++ after = '(' :: (bracketed d ++ ')' :: after) := by
  unfold bracketed
  rw [List.replicate_succ, show List.replicate (d + 1) ')' = List.replicate d ')' ++ [')'] from List.replicate_succ']
  simp

private theorem bracketed_length (d : Nat) : (bracketed d).length = 2 * d + 1 := by
  simp [bracketed]; omega

private theorem term_takes {s : Str} {t : Tree} {n k : Nat} (h : Takes sums (.exp sumTerm) s (some (t, n)) k) (hp : (s.drop n).head? ≠ some '+') :
    ∃ j, Takes sums (.exp (.rule ())) s (some (t, n)) j ∧ 2 * k ≤ j := by
  have h1 : Takes sums (.exp (.right (.char '+') (.rule ()))) (s.drop n) none 2 := .rightFirst (.charNot hp)
  exact ⟨_, .rule (.altSecond (.seqSecond h h1) h), by omega⟩

private theorem sums_take (d : Nat) : ∀ after : Str, ∃ t k, Takes sums (.exp sumTerm) (bracketed d ++ after) (some (t, 2 * d + 1)) k ∧ 2 ^ d ≤ k := by
  induction d with
  | zero =>
    intro after
    exact ⟨_, _, .altSecond (.betweenOpen (.charNot (by simp [bracketed]))) (.char (by simp [bracketed])), by simp⟩
  | succ d ih =>
    intro after
    obtain ⟨t, k, h1, h2⟩ := ih (')' :: after)
    have hd : (bracketed d ++ ')' :: after).drop (2 * d + 1) = ')' :: after := by
      rw [← bracketed_length d, List.drop_left]
    obtain ⟨j, h3, h4⟩ := term_takes h1 (by rw [hd]; simp)
    rw [bracketed_succ, show 2 * (d + 1) + 1 = 1 + (2 * d + 1) + 1 by omega]
    have h5 : Takes sums (.exp (.char '(')) ('(' :: (bracketed d ++ ')' :: after)) (some (.text ['('], 1)) 1 := .char rfl
    have h6 : Takes sums (.exp (.char ')')) (('(' :: (bracketed d ++ ')' :: after)).drop (1 + (2 * d + 1))) (some (.text [')'], 1)) 1 := by
      rw [Nat.add_comm 1, List.drop_succ_cons, hd]
      exact .char rfl
    exact ⟨t, _, .altFirst (h5.between h3 h6), by rw [Nat.pow_succ]; omega⟩

private theorem takes_runs {e : Exp N} {text : Str} {pos k : Nat} {o : Option (Tree × Nat)} (h : Takes g (.exp e) (text.drop pos) o k) :
    Runs (parserCounted g e) (text, pos) k := by
  obtain ⟨k', hk⟩ := (C128_counts (g := g) e (text, pos) ()).1 ((C121_ends e () text pos).2 ⟨o, takes_parses h⟩)
  obtain ⟨o', h'⟩ := runs_takes hk
  obtain ⟨_, rfl⟩ := takes_det h h'
  exact hk

/-- **C128 (exponential time).** The grammar `sum → term '+' sum | term`, `term → '(' sum ')' | '1'` answers on every text; it reads `((…1…))` to its
end, and takes at least `2 ^ d` runs for `d` pairs of brackets. -/
theorem C128_exponential (d : Nat) (w : σ) : WellFormed sums ∧
    (∃ t, Succeeds (parser sums (.rule ())) w (bracketed d, 0) t (bracketed d, (bracketed d).length) w) ∧
    ∃ k, Runs (parserCounted sums (.rule ())) (bracketed d, 0) k ∧ 2 ^ d ≤ k := by
  obtain ⟨t, k, h1, h2⟩ := sums_take d []
  rw [List.append_nil] at h1
  obtain ⟨j, h3, h4⟩ := term_takes h1 (by rw [← bracketed_length d, List.drop_length]; simp)
  refine ⟨sums_wellFormed, ⟨t, ?_⟩, j, takes_runs h3, by omega⟩
  rw [bracketed_length]
  exact (C121_reads _ w w _ 0 t _).2 ⟨rfl, 2 * d + 1, by rw [Nat.zero_add], takes_parses h3⟩

private theorem exp_beats (c d : Nat) : ∃ n, c * (2 * n + 1 + 1) ^ d < 2 ^ n := by
  -- with n = 2 ^ m
  have h4 : ∀ i, (i + 4) * (i + 4) ≤ 2 ^ (i + 4) := by
    intro i
    induction i with
    | zero => decide
    | succ i ih =>
      rw [show i + 1 + 4 = (i + 4) + 1 by omega, Nat.pow_succ]
      have h : (i + 4 + 1) * (i + 4 + 1) = (i + 4) * (i + 4) + (2 * i + 9) := by simp only [Nat.add_mul, Nat.mul_add]; omega
      have h' : 2 * i + 9 ≤ (i + 4) * (i + 4) := by simp only [Nat.add_mul, Nat.mul_add]; omega
      omega
  obtain ⟨m, hm⟩ : ∃ m, m = c + 2 * d + 6 := ⟨_, rfl⟩
  refine ⟨2 ^ m, ?_⟩
  have h1 : 2 * 2 ^ m + 1 + 1 ≤ 2 ^ (m + 2) := by
    have : 1 ≤ 2 ^ m := Nat.one_le_two_pow
    rw [Nat.pow_add]; omega
  have h2 : (2 * 2 ^ m + 1 + 1) ^ d ≤ 2 ^ ((m + 2) * d) := by
    rw [Nat.pow_mul]
    exact Nat.pow_le_pow_left h1 d
  have h3 : c < 2 ^ c := Nat.lt_two_pow_self
  have h5 : c + (m + 2) * d ≤ 2 ^ m := by
    have h6 := h4 (c + 2 * d + 2)
    rw [show c + 2 * d + 2 + 4 = m by omega] at h6
    have h7 : m * m = m * c + m * d + m * d + m * 6 := by
      conv => lhs; rhs; rw [hm]
      rw [Nat.mul_add, Nat.mul_add, Nat.two_mul d, Nat.mul_add, ← Nat.add_assoc]
    have h8 : c ≤ m * c := Nat.le_mul_of_pos_left _ (by omega)
    have h9 : 2 * d ≤ m * d := Nat.mul_le_mul_right _ (by omega)
    rw [Nat.add_mul]
    omega
  calc c * (2 * 2 ^ m + 1 + 1) ^ d ≤ c * 2 ^ ((m + 2) * d) := Nat.mul_le_mul_left _ h2
    _ < 2 ^ c * 2 ^ ((m + 2) * d) := Nat.mul_lt_mul_of_pos_right h3 (Nat.pow_pos (by decide))
    _ = 2 ^ (c + (m + 2) * d) := (Nat.pow_add _ _ _).symm
    _ ≤ 2 ^ (2 ^ m) := Nat.pow_le_pow_right (by decide) h5

theorem C128_full_statement_false : ¬ C128_full_statement := by
  intro h
  obtain ⟨c, d, h⟩ := h Unit sums sums_wellFormed (.rule ()) trivial
  obtain ⟨n, hn⟩ := exp_beats c d
  obtain ⟨_, _, k, hk, h2⟩ := C128_exponential n ()
  have := h _ _ hk
  rw [bracketed_length] at this
  omega

/-! ## the power is needed -/

/-- `(a+ b | a)*` -/
def retries : Exp Empty := .star (.alt (.seq (.plus (.char 'a')) (.char 'b')) (.char 'a'))

private theorem as_loop {g : Empty → Exp Empty} (n : Nat) : ∃ ts k, Takes g (.loop (.char 'a')) (List.replicate n 'a') (some (.list ts, n)) k ∧ n ≤ k := by
  induction n with
  | zero => exact ⟨_, _, .loopEnd (.charNot (by simp)), Nat.zero_le _⟩
  | succ n ih =>
    obtain ⟨ts, k, h1, h2⟩ := ih
    have h3 : Takes g (.exp (.char 'a')) (List.replicate (n + 1) 'a') (some (.text ['a'], 1)) 1 := .char (by simp [List.replicate_succ])
    rw [Nat.add_comm n 1] at h3 ⊢
    exact ⟨_, _, h3.loopMore (by simpa using h1), by omega⟩

private theorem retries_loop {g : Empty → Exp Empty} (n : Nat) :
    ∃ ts k, Takes g (.loop (.alt (.seq (.plus (.char 'a')) (.char 'b')) (.char 'a'))) (List.replicate n 'a') (some (.list ts, n)) k ∧
      n * n ≤ 2 * k := by
  induction n with
  | zero =>
    exact ⟨_, _, .loopEnd (.altSecond (.seqFirst (.plusNot (.charNot (by simp)))) (.charNot (by simp))), Nat.zero_le _⟩
  | succ n ih =>
    obtain ⟨ts, k, h1, h2⟩ := ih
    obtain ⟨us, j, h3, h4⟩ := as_loop (g := g) n
    have h5 : Takes g (.exp (.char 'a')) (List.replicate (n + 1) 'a') (some (.text ['a'], 1)) 1 := .char (by simp [List.replicate_succ])
    have h6 : Takes g (.exp (.plus (.char 'a'))) (List.replicate (n + 1) 'a') _ _ := h5.plus (by simpa using h3)
    have h7 : Takes g (.exp (.char 'b')) ((List.replicate (n + 1) 'a').drop (1 + n)) none 1 := .charNot (by simp [Nat.add_comm])
    have h8 := (Takes.altSecond (h6.seqSecond h7) h5).loopMore (by simpa using h1)
    rw [Nat.add_comm 1 n] at h8
    exact ⟨_, _, h8, by simp only [Nat.add_mul, Nat.mul_add]; omega⟩

/-- **C128 (nested repetitions).** Two repetitions inside each other may take quadratic time: `(a+ b | a)*` reads `n` letters `a` with at least `n² / 2` runs. -/
theorem C128_quadratic (n : Nat) : nesting retries = 2 ∧
    ∃ k, Runs (parserCounted (fun e => e.elim) retries) (List.replicate n 'a', 0) k ∧ n * n ≤ 2 * k := by
  obtain ⟨ts, k, h1, h2⟩ := retries_loop (g := fun e => e.elim) n
  exact ⟨rfl, k + 1, takes_runs (.star h1), by omega⟩

/-! ## where the next character decides -/

/-- **C128 (linear time).** If there are finitely many rules, no rule starts with itself, and the next character decides wherever there is a choice, then
parsing takes linear time, on every text, also one that is refused. -/
theorem C128_linear_partial (names : List N) (hn : ∀ n, n ∈ names) (hg : WellFormed g) (e : Exp N) (h : Predictive g e) :
    ∃ c, ∀ text pos k, Runs (parserCounted g e) (text, pos) k → k ≤ c * (text.length - pos + 1) := by
  obtain ⟨c, hc⟩ := linear names hn hg.noLeftRecursion e h
  refine ⟨c, fun text pos k hr => ?_⟩
  obtain ⟨o, ht⟩ := runs_takes hr
  simpa using hc _ _ _ ht

/-- Nested brackets are read in linear time. -/
example : ∃ c, ∀ text pos k, Runs (parserCounted brackets (.rule ())) (text, pos) k → k ≤ c * (text.length - pos + 1) := by
  refine C128_linear_partial [()] (by simp) brackets_wellFormed _ ⟨fun _ c => c = '(' ∨ c = ')', fun _ => ⟨trivial, ⟨?_, ?_⟩, trivial⟩, fun c h => h.elim⟩
  · rintro c (h | h | ⟨h, _⟩)
    · cases h with | rule h => cases h with
      | betweenOpen h => cases h; exact .inl rfl
      | betweenBody h _ => cases h
      | betweenClose h _ _ => cases h
    · cases h; exact .inr rfl
    · cases h
  · rintro c h (h' | ⟨h', _⟩)
    · cases h'
      cases h with | rule h => cases h with
      | betweenOpen h => cases h
      | betweenBody h _ => cases h
      | betweenClose h _ _ => cases h
    · cases h'

/-- The sums of above, with what the two alternatives have in common written once: `sum → term ('+' term)*` -/
def listedSums : Unit → Exp Unit := fun _ => .sepBy1 sumTerm (.char '+')

private theorem listed_begins {c : Char} (h : MayBegin listedSums c sumTerm) : c = '(' ∨ c = '1' := by
  cases h with
  | altFirst h => cases h with
    | betweenOpen h => cases h; exact .inl rfl
    | betweenBody h _ => cases h
    | betweenClose h _ _ => cases h
  | altSecond h => cases h; exact .inr rfl

private theorem listed_consumes : ¬ MayBeEmpty listedSums sumTerm := by
  intro h
  cases h with
  | altFirst h => cases h with | between h _ _ => cases h
  | altSecond h => cases h

theorem listedSums_wellFormed : WellFormed listedSums where
  noLeftRecursion := by
    refine ⟨fun n => ⟨_, fun m h => ?_⟩⟩
    exfalso
    cases h with
    | sepBy1First h => cases h with
      | altFirst h => cases h with
        | betweenOpen h => cases h
        | betweenBody h _ => cases h
        | betweenClose h _ _ => cases h
      | altSecond h => cases h
    | sepBy1Sep h _ => exact listed_consumes h
  repeats _ := ⟨⟨⟨trivial, trivial, trivial⟩, trivial⟩, trivial, fun h => by cases h.1⟩

private theorem listed_sep {c : Char} (h : MayBegin listedSums c (.right (.char '+') sumTerm)) : c = '+' := by
  cases h with
  | rightFirst h => cases h; rfl
  | rightSecond h _ => cases h

/-- Written so, sums are read in linear time: `C128_exponential` is about the way in which the grammar is written. -/
theorem C128_listed : ∃ c, ∀ text pos k, Runs (parserCounted listedSums (.rule ())) (text, pos) k → k ≤ c * (text.length - pos + 1) := by
  refine C128_linear_partial [()] (by simp) listedSums_wellFormed _
    ⟨fun _ c => c = ')', fun _ => ⟨⟨⟨trivial, ?_, trivial⟩, trivial, ?_⟩, trivial, ?_⟩, fun c h => h.elim⟩
  · rintro c (h | ⟨h, _⟩)
    · cases h; rfl
    · cases h
  · rintro c h (h' | ⟨h', _⟩)
    · cases h'
      cases h with
      | betweenOpen h => cases h
      | betweenBody h _ => cases h
      | betweenClose h _ _ => cases h
    · cases h'
  · rintro c h rfl
    cases listed_sep h

/-- The grammar of `C128_exponential` is not of this kind. -/
example : ¬ Predictive sums (.rule ()) := by
  intro h
  obtain ⟨c, hc⟩ := C128_linear_partial [()] (by simp) sums_wellFormed _ h
  obtain ⟨n, hn⟩ := exp_beats c 1
  obtain ⟨_, _, k, hk, h2⟩ := C128_exponential n ()
  have := hc _ _ _ hk
  rw [bracketed_length] at this
  simp only [Nat.pow_one, Nat.sub_zero] at hn this
  omega

/-- Separated lists are read in linear time: `1,1,…` costs at most 4 runs for each character. -/
example (text : Str) (k : Nat)
    (h : Runs (parserCounted (fun e => e.elim) (.sepBy (.char '1') (.char ',') : Exp Empty)) (text, 0) k) : k ≤ 4 * (text.length + 1) := by
  simpa [size, nesting] using C128_polynomial_partial (.sepBy (.char '1') (.char ',')) ⟨trivial, trivial⟩ text 0 k h

/-- … and there is such a number of runs. -/
example (text : Str) : ∃ k, Runs (parserCounted (fun e => e.elim) (.sepBy (.char '1') (.char ',') : Exp Empty)) (text, 0) k := by
  refine (C128_counts _ _ ()).1 ?_
  have hw : WellFormed (fun e : Empty => (e.elim : Exp Empty)) := ⟨⟨fun e => e.elim⟩, fun e => e.elim⟩
  rcases C122_answers (σ := Unit) hw (.sepBy (.char '1') (.char ',')) ⟨trivial, trivial, fun h => by cases h.1⟩ () text 0 with ⟨t, n, h⟩ | ⟨m, h⟩
  · unfold Ends; rw [show _ = _ from h]; simp
  · unfold Ends; rw [show _ = _ from h]; simp

end Expression.Props
