import Verif.Spec.Answers
import Verif.Lemmas.Parser4

/-! # Parsers that answer -/

namespace Expression.Lemmas.Answers

open Expression Expression.Parser PyD Spec Expression.Lemmas Expression.Lemmas.Parser

variable {σ ρ α β γ δ : Type} {t : Str} {c d : Bool}

theorem ans_weaken {p : Parser σ α} (h : AnswersOn t c p) (hd : d = true → c = true) : AnswersOn t d p := by
  intro w i hi
  rcases h w i hi with ⟨v, j, w', h1, h2, h3, h4⟩ | h
  · exact .inl ⟨v, j, w', h1, h2, h3, fun h => h4 (hd h)⟩
  · exact .inr h

theorem ans_pchar (s : Str) : AnswersOn t true (pchar s : Parser σ Str) := by
  intro w i hi
  unfold Succeeds Fails pchar
  rcases h : t[i]? with _ | x
  · exact .inr ⟨_, w, by simp only [h]; rfl⟩
  · by_cases hx : [x] = s
    · have := (List.getElem?_eq_some_iff.1 h).1
      exact .inl ⟨s, i + 1, w, by simp only [h, if_pos hx]; rfl, by omega, this, fun _ => by omega⟩
    · exact .inr ⟨_, w, by simp only [h, if_neg hx]; rfl⟩

theorem ans_preturn (x : α) : AnswersOn t false (preturn x : Parser σ α) :=
  fun w i hi => .inl ⟨x, i, w, rfl, Nat.le_refl _, hi, fun h => by cases h⟩

theorem ans_fail (e : String) : AnswersOn t c (fail e : Parser σ α) := fun w _ _ => .inr ⟨e, w, rfl⟩

theorem ans_bind {f : α → PyD σ (Parser σ β)} {p : Parser σ α} (hp : AnswersOn t c p)
    (hf : ∀ w i a j w1, i ≤ t.length → Succeeds p w (t, i) a (t, j) w1 → ∃ q w2, (f a).exec w1 = some (.ok q, w2) ∧ AnswersOn t d q) :
    AnswersOn t (c || d) (Parser.bind f p) := by
  intro w i hi
  rcases hp w i hi with ⟨a, j, w1, h1, h2, h3, h4⟩ | ⟨e, w1, h1⟩
  · obtain ⟨q, w2, hq, hd⟩ := hf w i a j w1 hi h1
    have e : (Parser.bind f p (t, i)).exec w = (q (t, j)).exec w2 := by rw [bind_succ h1, exec_bind, hq]
    unfold Succeeds Fails
    rw [e]
    rcases hd w2 j h3 with ⟨b, k, w3, k1, k2, k3, k4⟩ | ⟨e, w3, k1⟩
    · refine .inl ⟨b, k, w3, k1, by omega, k3, fun hc => ?_⟩
      rcases Bool.or_eq_true _ _ ▸ hc with hc | hc
      · have := h4 hc; omega
      · have := k4 hc; omega
    · exact .inr ⟨e, w3, k1⟩
  · exact .inr ⟨e, w1, bind_fail h1⟩

theorem ans_map {f : α → PyD σ β} {p : Parser σ α} (hp : AnswersOn t c p)
    (hf : ∀ w i a j w1, i ≤ t.length → Succeeds p w (t, i) a (t, j) w1 → ∃ b w2, (f a).exec w1 = some (.ok b, w2)) :
    AnswersOn t c (Parser.map f p) := by
  rw [map_eq]
  have := ans_bind (d := false) hp (f := fun a => do let b ← f a; pure (preturn b)) (by
    intro w i a j w1 hi h
    obtain ⟨b, w2, hb⟩ := hf w i a j w1 hi h
    exact ⟨preturn b, w2, by rw [exec_bind, hb]; rfl, ans_preturn b⟩)
  rwa [Bool.or_false] at this

theorem ans_map_returns {f : α → PyD σ β} {p : Parser σ α} (hp : AnswersOn t c p) (hf : Returns f) : AnswersOn t c (Parser.map f p) :=
  ans_map hp fun _ _ a _ w1 _ _ => hf a w1

theorem returns_pure (f : α → β) : Returns (fun a => (pure (f a) : PyD σ β)) := fun a w => ⟨f a, w, rfl⟩

theorem ans_andThen {p : Parser σ α} {q : Parser σ β} (hp : AnswersOn t c p) (hq : AnswersOn t d q) :
    AnswersOn t (c || d) (andThen p q) := by
  rw [andThen_eq]
  refine ans_bind hp fun w i a j w1 _ _ => ⟨_, w1, rfl, ?_⟩
  have := ans_bind (d := false) hq (f := fun b => pure (preturn (a, b))) fun w i b j w1 _ _ => ⟨_, w1, rfl, ans_preturn (a, b)⟩
  rwa [Bool.or_false] at this

theorem ans_orElse {p q : Parser σ α} (hp : AnswersOn t c p) (hq : AnswersOn t d q) : AnswersOn t (c && d) (orElse p q) := by
  intro w i hi
  rcases hp w i hi with ⟨v, j, w1, h1, h2, h3, h4⟩ | ⟨e, w1, h1⟩
  · exact .inl ⟨v, j, w1, orElse_succ h1, h2, h3, fun hc => h4 (Bool.and_eq_true _ _ ▸ hc).1⟩
  · unfold Succeeds Fails
    rw [orElse_fail h1]
    rcases hq w1 i hi with ⟨v, j, w2, k1, k2, k3, k4⟩ | h
    · exact .inl ⟨v, j, w2, k1, k2, k3, fun hc => k4 (Bool.and_eq_true _ _ ▸ hc).2⟩
    · exact .inr h

theorem ans_thenIgnore {p : Parser σ α} {q : Parser σ β} (hp : AnswersOn t c p) (hq : AnswersOn t d q) :
    AnswersOn t (c || d) (thenIgnore p q) := ans_map_returns (ans_andThen hp hq) (returns_pure _)

theorem ans_ignoreThen {p : Parser σ α} {q : Parser σ β} (hp : AnswersOn t c p) (hq : AnswersOn t d q) :
    AnswersOn t (c || d) (ignoreThen p q) := ans_map_returns (ans_andThen hp hq) (returns_pure _)

theorem ans_opt {p : Parser σ α} (hp : AnswersOn t c p) : AnswersOn t false (opt p) :=
  ans_weaken (ans_orElse (ans_map_returns hp (returns_pure _)) (ans_preturn none)) fun h => by cases h

theorem ans_foldl (ps : List (Parser σ α)) {p : Parser σ α} (hp : AnswersOn t c p) (h : ∀ q ∈ ps, AnswersOn t c q) :
    AnswersOn t c (ps.foldl orElse p) := by
  induction ps generalizing p with
  | nil => exact hp
  | cons q ps ih =>
    refine ih ?_ (fun r hr => h r (List.mem_cons_of_mem _ hr))
    have := ans_orElse hp (h q (by simp))
    rwa [Bool.and_self] at this

theorem ans_choice (ps : List (Parser σ α)) (h : ∀ p ∈ ps, AnswersOn t c p) (w w' : ρ) (q : Parser σ α)
    (hq : (choice ⟨ps⟩).exec w = (.ok q, w')) : AnswersOn t c q := by
  cases ps with
  | nil => rw [choice_nil] at hq; cases hq
  | cons p ps =>
    rw [choice_cons] at hq
    cases hq
    exact ans_foldl ps (h p (by simp)) (fun q hq => h q (List.mem_cons_of_mem _ hq))

theorem ans_anyOf (s : Str) (w w' : ρ) (q : Parser σ Str) (hq : (anyOf s).exec w = (.ok q, w')) : AnswersOn t true q := by
  refine ans_choice _ ?_ w w' q hq
  intro p hp
  obtain ⟨c, _, rfl⟩ := List.mem_map.1 hp
  exact ans_pchar _

theorem ans_const_anyOf (x : Char) (s : Str) : AnswersOn t true (const (anyOf (x :: s)) : Parser σ Str) := by
  have h : (anyOf (x :: s) : Py Unit (Parser σ Str)).exec () = _ := choice_cons _ _ ()
  unfold const
  rw [h]
  exact ans_anyOf _ _ _ _ h

/-- repeating a parser that consumes comes to an end -/
theorem ans_repeats {p : Parser σ α} (hp : AnswersOn t true p) (n i : Nat) (hn : t.length - i ≤ n) (hi : i ≤ t.length) (w : σ) :
    ∃ vs j w', Repeats p w (t, i) vs (t, j) w' ∧ i ≤ j ∧ j ≤ t.length := by
  induction n generalizing i w with
  | zero =>
    rcases hp w i hi with ⟨v, j, w1, _, h2, h3, h4⟩ | ⟨e, w1, h1⟩
    · have := h4 rfl; omega
    · exact ⟨[], i, w1, .stop h1, Nat.le_refl _, hi⟩
  | succ n ih =>
    rcases hp w i hi with ⟨v, j, w1, h1, h2, h3, h4⟩ | ⟨e, w1, h1⟩
    · have := h4 rfl
      obtain ⟨vs, k, w', k1, k2, k3⟩ := ih j (by omega) h3 w1
      exact ⟨v :: vs, k, w', .more h1 k1, by omega, k3⟩
    · exact ⟨[], i, w1, .stop h1, Nat.le_refl _, hi⟩

theorem ans_many {p : Parser σ α} (hp : AnswersOn t true p) : AnswersOn t false (many p) := by
  intro w i hi
  obtain ⟨vs, j, w', h1, h2, h3⟩ := ans_repeats hp _ i (Nat.le_refl _) hi w
  exact .inl ⟨⟨vs⟩, j, w', many_succ_iff.2 h1, h2, h3, fun h => by cases h⟩

theorem ans_many1 {p : Parser σ α} (hp : AnswersOn t true p) : AnswersOn t true (many1 p) := by
  rw [many1_eq]
  exact ans_bind (d := false) hp fun w i a j w1 _ _ => ⟨_, w1, rfl, ans_map_returns (ans_many hp) (returns_pure _)⟩

theorem ans_apply {f : Parser σ (α → PyD σ β)} {p : Parser σ α} (hr : ∀ w inp g rest w', Succeeds f w inp g rest w' → Returns g)
    (hf : AnswersOn t c f) (hp : AnswersOn t d p) : AnswersOn t (c || d) (apply f p) := by
  refine ans_map (ans_andThen hf hp) ?_
  intro w i a j w1 _ h
  obtain ⟨mid, w2, h1, _⟩ := andThen_succ_iff.1 h
  exact hr _ _ _ _ _ h1 a.2 w1

theorem ans_lift2 {f : α → PyD σ (β → PyD σ γ)} {p : Parser σ α} {q : Parser σ β} (hf : Returns f)
    (hr : ∀ a w g w', (f a).exec w = some (.ok g, w') → Returns g) (hp : AnswersOn t c p) (hq : AnswersOn t d q) :
    AnswersOn t (c || d) (lift2 f p q) := by
  have h1 : AnswersOn t (false || c) (apply (preturn f) p) := ans_apply (by
    intro w inp g rest w' h
    obtain ⟨rfl, _⟩ := preturn_succ_iff.1 h
    exact hf) (ans_preturn f) hp
  rw [Bool.false_or] at h1
  refine ans_apply ?_ h1 hq
  intro w inp g rest w' h
  obtain ⟨f', mid, w1, a, w2, k1, _, k3⟩ := apply_succ_iff.1 h
  obtain ⟨rfl, _⟩ := preturn_succ_iff.1 k1
  exact hr _ _ _ _ k3

theorem ans_sequence_cons {p : Parser σ α} {ps : List (Parser σ α)} (hp : AnswersOn t c p) (h : AnswersOn t d (sequence ps)) :
    AnswersOn t (c || d) (sequence (p :: ps)) :=
  ans_lift2 (returns_pure _) (by intro a w g w' h; cases h; exact returns_pure _) hp h

theorem ans_sequence (ps : List (Parser σ α)) (h : ∀ p ∈ ps, AnswersOn t false p) : AnswersOn t false (sequence ps) := by
  induction ps with
  | nil => exact ans_preturn _
  | cons p ps ih => exact ans_sequence_cons (h p (by simp)) (ih fun q hq => h q (List.mem_cons_of_mem _ hq))

theorem ans_sequence1 (before after : List (Parser σ α)) (p : Parser σ α) (h : ∀ q ∈ before ++ after, AnswersOn t false q)
    (hp : AnswersOn t true p) : AnswersOn t true (sequence (before ++ p :: after)) := by
  induction before with
  | nil => exact ans_sequence_cons hp (ans_sequence after h)
  | cons q before ih => exact ans_sequence_cons (h q (by simp)) (ih fun r hr => h r (List.mem_cons_of_mem _ hr))

theorem ans_pstring (s : Str) : AnswersOn t (decide (s ≠ [])) (pstring s : Parser σ Str) := by
  refine ans_map_returns ?_ (returns_pure _)
  cases s with
  | nil => exact ans_preturn _
  | cons x s =>
    refine ans_weaken (ans_sequence_cons (ans_pchar [x]) (ans_sequence _ ?_)) (fun _ => rfl)
    intro p hp
    obtain ⟨c, _, rfl⟩ := List.mem_map.1 hp
    exact ans_weaken (ans_pchar _) fun h => by cases h

theorem ans_sepBy1 {p : Parser σ α} {sep : Parser σ β} (hp : AnswersOn t c p) (hs : AnswersOn t d sep) (hcd : (d || c) = true) :
    AnswersOn t c (sepBy1 p sep) := by
  have h1 := ans_ignoreThen hs hp
  rw [hcd] at h1
  have h2 := ans_andThen hp (ans_many h1)
  rw [Bool.or_false] at h2
  exact ans_map_returns h2 (returns_pure _)

theorem ans_digit : AnswersOn t true (parseDigit : Parser σ Str) := ans_const_anyOf _ _

theorem ans_digits : AnswersOn t true (digits : Parser σ (Block Str)) := ans_many1 ans_digit

/-- what a run of digits gives -/
theorem repeats_digit {inp rest : Remaining} {vs : List Str} {w w' : σ} (h : Repeats parseDigit w inp vs rest w') :
    (∀ x ∈ vs.flatten, x.isDigit = true) ∧ rest.1 = inp.1 ∧ inp.2 + vs.flatten.length = rest.2 ∧ vs.flatten.length = vs.length ∧
      (vs ≠ [] → rest.2 ≤ inp.1.length) := by
  induction h with
  | stop _ => exact ⟨by simp, rfl, by simp, rfl, fun h => absurd rfl h⟩
  | @more w inp v mid w1 vs rest w' h1 _ ih =>
    obtain ⟨x, k1, k2, rfl, k4, rfl⟩ := parseDigit_succ_iff (t := inp.1) (i := inp.2) |>.1 h1
    obtain ⟨i1, i2, i3, i5, i4⟩ := ih
    subst k4
    have := (List.getElem?_eq_some_iff.1 k1).1
    refine ⟨?_, i2, ?_, ?_, fun _ => ?_⟩
    · intro y hy
      rw [List.flatten_cons] at hy
      rcases List.mem_append.1 hy with hy | hy
      · rw [List.mem_singleton.1 hy]; exact k2
      · exact i1 y hy
    · simp only [List.flatten_cons, List.length_append, List.length_singleton]
      simp only at i3
      omega
    · simp only [List.flatten_cons, List.length_append, List.length_cons, List.length_nil]; omega
    · cases vs with
      | nil => exact (show inp.2 + 1 = rest.2 from i3) ▸ this
      | cons v vs => exact i4 (by simp)

/-- what the sign and the digits of a number are -/
theorem signed_shape {w w1 : σ} {i j : Nat} {a : Option Str × Block Str}
    (h : Succeeds (andThen (opt (pchar ['-'])) digits) w (t, i) a (t, j) w1) :
    (∀ x ∈ a.2.value.flatten, x.isDigit = true) ∧ a.2.value.flatten ≠ [] ∧ a.2.value.flatten.length ≤ t.length := by
  obtain ⟨mid, w2, h1, h2⟩ := andThen_succ_iff.1 h
  obtain ⟨k1, k2⟩ := many1_succ_iff.1 h2
  obtain ⟨m1, m2, m3, m5, m4⟩ := repeats_digit k2
  refine ⟨m1, ?_, ?_⟩
  · intro e
    rw [e] at m5
    exact k1 (List.length_eq_zero_iff.1 m5.symm)
  · have := m4 k1
    rw [← m2] at this
    simp only at this m3
    omega

theorem pyInt_returns {s : Str} (h1 : ∀ x ∈ s, x.isDigit = true) (h2 : s ≠ []) (w : σ) :
    (pyInt s).exec w = some (.ok (Nat.ofDigitChars 10 s 0 : Int), w) := by
  unfold pyInt
  rw [if_pos ⟨h2, by simpa using h1⟩]
  rfl

theorem ans_pint (limit : Nat) (hl : limit = 0 ∨ t.length ≤ limit) : AnswersOn t true (pintLimited limit : Parser σ Int) := by
  refine ans_map (ans_andThen (ans_opt (ans_pchar _)) ans_digits) ?_
  intro w i a j w1 _ h
  obtain ⟨h1, h2, h3⟩ := signed_shape h
  refine ⟨if a.1.isSome then (Nat.ofDigitChars 10 a.2.value.flatten 0 : Int) * (-1) else Nat.ofDigitChars 10 a.2.value.flatten 0, w1, ?_⟩
  unfold resultToIntLimited pyIntLimited
  rw [if_neg (by omega), exec_bind, pyInt_returns h1 h2]
  rfl

theorem ans_pfloat {F : Type} (float : Str → PyD σ F) (neg : F → F) (h : Returns float) : AnswersOn t true (pfloat float neg) := by
  refine ans_map_returns (ans_andThen (ans_andThen (ans_opt (ans_pchar _)) ans_digits) (ans_opt (ans_ignoreThen (ans_pchar _) ans_digits))) ?_
  intro a w
  unfold resultToFloat
  simp only
  generalize List.flatten _ = s
  obtain ⟨b, w', hb⟩ := h s w
  exact ⟨if a.1.1.isSome then neg b else b, w', by rw [exec_bind, hb]; rfl⟩

theorem guarded_answers {p : Parser σ α} (h : Guarded t c p) : AnswersOn t c p := by
  induction h with
  | own p h => exact h
  | weaken p _ h => exact ans_weaken h fun h => by cases h
  | pchar s => exact ans_pchar s
  | preturn x => exact ans_preturn x
  | fail e => exact ans_fail e
  | pstring s => exact ans_pstring s
  | pint limit h => exact ans_pint limit h
  | pfloat float neg h => exact ans_pfloat float neg h
  | digit => exact ans_digit
  | digits => exact ans_digits
  | whitespace => exact ans_many1 (ans_const_anyOf _ _)
  | anyOf s w w' q h => exact ans_anyOf s w w' q h
  | choice ps w w' q _ hq h => exact ans_choice ps h w w' q hq
  | orElse p q _ _ h1 h2 => exact ans_orElse h1 h2
  | andThen p q _ _ h1 h2 => exact ans_andThen h1 h2
  | thenIgnore p q _ _ h1 h2 => exact ans_thenIgnore h1 h2
  | ignoreThen p q _ _ h1 h2 => exact ans_ignoreThen h1 h2
  | map f p hf _ h => exact ans_map_returns h hf
  | starmap f p hf _ h => exact ans_map_returns h fun a w => hf a.1 a.2 w
  | apply f p hr _ _ h1 h2 => exact ans_apply hr h1 h2
  | lift2 f p q hf hr _ _ h1 h2 => exact ans_lift2 hf hr h1 h2
  | sequence ps _ h => exact ans_sequence ps h
  | sequence1 before after p _ _ h1 h2 => exact ans_sequence1 before after p h1 h2
  | many p _ h => exact ans_many h
  | many1 p _ h => exact ans_many1 h
  | sepBy1 p sep _ _ hcd h1 h2 => exact ans_sepBy1 h1 h2 hcd
  | sepBy p sep _ _ hcd h1 h2 =>
    exact ans_weaken (ans_orElse (ans_sepBy1 h1 h2 hcd) (ans_preturn _)) fun h => by cases h
  | opt p _ h => exact ans_opt h
  | ignore p _ h => exact ans_map_returns h (returns_pure _)
  | between p q r _ _ _ h1 h2 h3 => exact ans_thenIgnore (ans_ignoreThen h1 h3) h2
  | bind f p _ hf _ h1 h2 =>
    refine ans_bind h1 fun w i a j w1 _ _ => ?_
    obtain ⟨q, w2, hq⟩ := hf a w1
    exact ⟨q, w2, hq, h2 a w1 q w2 hq⟩

end Expression.Lemmas.Answers
