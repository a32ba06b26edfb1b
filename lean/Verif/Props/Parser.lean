import Verif.Lemmas.Parser4

/-! # Parser combinators: C37–C42, C61–C63 -/

namespace Expression.Props

open Expression PyD Spec Lemmas Lemmas.Parser

variable {σ ρ α β γ : Type}

/-! ## C37 positions -/

/-- A parser made from the combinators leaves the text alone and moves forward inside it. -/
theorem C37_positions (p : Parser σ α) (hp : Built p) (w : σ) (t : Str) (i : Nat) (hi : i ≤ t.length) (v : α) (rest : Remaining) (w' : σ)
    (h : Succeeds p w (t, i) v rest w') : rest.1 = t ∧ i ≤ rest.2 ∧ rest.2 ≤ t.length :=
  safe_built hp w t i v rest w' hi h

/-- `between(pchar("("), pchar(")"), sep_by(pint, pchar(",")))` -/
example : Built (Parser.between (Parser.pchar ['(']) (Parser.pchar [')']) (Parser.sepBy Parser.pint (Parser.pchar [','])) : Parser Unit (Block Int)) :=
  .between _ _ _ (.pchar _) (.pchar _) (.sepBy _ _ .pint (.pchar _))

/-! ## C38 integers -/

/-- `pint` reads back what `str` writes, wherever it stands, and stops after it. -/
theorem C38_round_trip (n : Int) (before after : Str) (hno : NoDigitAt after 0) (w : σ) :
    Succeeds Parser.pint w (before ++ (toString n).toList ++ after, before.length) n
      (before ++ (toString n).toList ++ after, before.length + (toString n).toList.length) w :=
  pint_toString n before after hno w

/-- Called on the whole text: `pint(str(n) + t) == Ok(n)`. -/
theorem C38_call (n : Int) (after : Str) (hno : NoDigitAt after 0) (w : σ) :
    (Parser.call Parser.pint ((toString n).toList ++ after)).exec w = some (.ok (.ok n), w) := by
  have := pint_toString n [] after hno w
  unfold Succeeds at this
  unfold Parser.call
  simp only [List.nil_append, List.length_nil] at this
  rw [exec_bind, this]; rfl

/-- Any run of digits is accepted, leading zeros or not, with an optional minus sign; the value is that of the digits. -/
theorem C38_value (minus : Bool) (before ds after : Str) (hd : ∀ d ∈ ds, 48 ≤ d.toNat ∧ d.toNat ≤ 57) (hne : ds ≠ [])
    (hno : NoDigitAt after 0) (w : σ) :
    Succeeds Parser.pint w (before ++ ((if minus then ['-'] else []) ++ ds) ++ after, before.length)
      ((if minus then -1 else 1) * (ds.foldl (fun n d => 10 * n + (d.toNat - 48 : Nat)) 0 : Nat))
      (before ++ ((if minus then ['-'] else []) ++ ds) ++ after, before.length + ((if minus then ['-'] else []) ++ ds).length) w := by
  have := pint_succ (σ := σ) minus before ds after (fun d h => (isDigit_iff d).2 (hd d h)) hne hno w
  have e : Nat.ofDigitChars 10 ds 0 = ds.foldl (fun n d => 10 * n + (d.toNat - 48 : Nat)) 0 := rfl
  rw [e] at this
  cases minus
  · simpa using this
  · simpa [Int.mul_comm] using this

/-- Everything else is refused: neither a digit nor a minus sign followed by a digit. -/
theorem C38_refuses (t : Str) (i : Nat) (w : σ) (h1 : NoDigitAt t i) (h2 : t[i]? = some '-' → NoDigitAt t (i + 1)) :
    ∃ e, Fails Parser.pint w (t, i) e w := pint_fail t i w h1 h2

/-- "x=-120;" from position 2 -/
example : Succeeds Parser.pint () (['x', '=', '-', '1', '2', '0', ';'], 2) (-120) (['x', '=', '-', '1', '2', '0', ';'], 6) () := by
  have h := C38_round_trip (-120) ['x', '='] [';'] (by intro c hc; cases hc; decide) ()
  have e : (toString (-120 : Int)).toList = ['-', '1', '2', '0'] := by decide
  rw [e] at h
  exact h

/-! ## C39 strings -/

/-- `pstring(s)` succeeds where `s` stands in the text, gives `s` and stops after it. -/
theorem C39_accepts (s t : Str) (i : Nat) (h : OccursAt s t i) (w : σ) :
    Succeeds (Parser.pstring s) w (t, i) s (t, i + s.length) w :=
  pstring_succ s t i w (prefix_of_occurs h)

/-- Elsewhere it fails, without effects. -/
theorem C39_refuses (s t : Str) (i : Nat) (hi : i ≤ t.length) (h : ¬ OccursAt s t i) (w : σ) :
    ∃ e, Fails (Parser.pstring s) w (t, i) e w := by
  have hp : ¬ s <+: t.drop i := by
    rintro ⟨z, hz⟩
    exact h ⟨t.take i, z, by rw [List.append_assoc, hz, List.take_append_drop], List.length_take_of_le hi⟩
  obtain ⟨a, c, b, rfl, h1, h2⟩ := not_prefix hp
  have h3 : t[i + a.length]? ≠ some c := by simpa using h2
  obtain ⟨e, he⟩ := pchar_fail w h3
  exact ⟨e, pstring_fail a c b t i w w e h1 he⟩

/-- The message tells the first character that differs. -/
theorem C39_message (before a b after : Str) (c d : Char) (hcd : c ≠ d) (w : σ) :
    Fails (Parser.pstring (a ++ c :: b)) w (before ++ a ++ d :: after, before.length)
      ("Expecting '" ++ String.ofList [c] ++ "'. Got '" ++ String.ofList [d] ++ "'") w := by
  refine pstring_fail a c b _ _ w w _ (by simp) ?_
  unfold Fails Parser.pchar
  rw [show before.length + a.length = (before ++ a).length by simp]
  simp only [List.getElem?_append_right (Nat.le_refl _), Nat.sub_self, List.getElem?_cons_zero, List.cons.injEq, and_true,
    if_neg (Ne.symm hcd), exec_pure]

/-- Or that the text ended. -/
theorem C39_message_end (before a b : Str) (c : Char) (w : σ) :
    Fails (Parser.pstring (a ++ c :: b)) w (before ++ a, before.length) "no more input" w := by
  refine pstring_fail a c b _ _ w w _ (by simp) ?_
  unfold Fails Parser.pchar
  rw [show before.length + a.length = (before ++ a).length by simp]
  simp only [List.getElem?_eq_none (Nat.le_refl _), exec_pure]

example : Succeeds (Parser.pstring "let".toList) () ("  let x".toList, 2) "let".toList ("  let x".toList, 5) () :=
  C39_accepts _ _ _ ⟨"  ".toList, " x".toList, rfl, rfl⟩ ()

/-! ## C40 ordered choice -/

/-- `p.or_else(q)`: `p`'s success, else what `q` does at the original position; an exception of `p` is not caught. -/
theorem C40_or_else (p q : Parser σ α) (inp : Remaining) (w : σ) :
    (∀ v rest w', Succeeds p w inp v rest w' → Succeeds (Parser.orElse p q) w inp v rest w') ∧
    (∀ e w1, Fails p w inp e w1 → (Parser.orElse p q inp).exec w = (q inp).exec w1) ∧
    (∀ e w', Raises p w inp e w' → Raises (Parser.orElse p q) w inp e w') ∧
    (¬ Ends p w inp → ¬ Ends (Parser.orElse p q) w inp) := by
  refine ⟨fun v rest w' h => orElse_succ h, fun e w1 h => orElse_fail h, fun e w' h => orElse_raise h, ?_⟩
  intro h h'
  apply h
  unfold Ends at *
  intro hp
  apply h'
  rw [orElse_eq, exec_bind, hp]

/-- `choice(ps)` succeeds with the first success in list order, all earlier alternatives having failed at the same position. -/
theorem C40_choice_success (ps : List (Parser σ α)) (w0 w0' : ρ) (c : Parser σ α) (hc : (Parser.choice ⟨ps⟩).exec w0 = (.ok c, w0'))
    (inp : Remaining) (w : σ) (v : α) (rest : Remaining) (w' : σ) :
    Succeeds c w inp v rest w' ↔
      ∃ before p after w1, ps = before ++ p :: after ∧ AllFail inp before w w1 ∧ Succeeds p w1 inp v rest w' := by
  cases ps with
  | nil => rw [choice_nil] at hc; cases hc
  | cons p ps =>
    rw [choice_cons] at hc
    cases hc
    exact foldl_succ_iff

/-- It fails when all alternatives fail, with the message of the last. -/
theorem C40_choice_failure (ps : List (Parser σ α)) (w0 w0' : ρ) (c : Parser σ α) (hc : (Parser.choice ⟨ps⟩).exec w0 = (.ok c, w0'))
    (inp : Remaining) (w : σ) (e : String) (w' : σ) :
    Fails c w inp e w' ↔ ∃ before p w1, ps = before ++ [p] ∧ AllFail inp before w w1 ∧ Fails p w1 inp e w' := by
  cases ps with
  | nil => rw [choice_nil] at hc; cases hc
  | cons p ps =>
    rw [choice_cons] at hc
    cases hc
    exact foldl_fail_iff

/-- A choice can be made from every non-empty list, without effects; the empty choice raises `ValueError`. -/
theorem C40_choice_made (ps : List (Parser σ α)) (w0 : ρ) :
    (ps ≠ [] → ∃ c, (Parser.choice ⟨ps⟩).exec w0 = (.ok c, w0)) ∧
    (ps = [] → (Parser.choice ⟨ps⟩).exec w0 = (.error (.valueError "Collection was empty"), w0)) := by
  constructor
  · intro h
    cases ps with
    | nil => exact absurd rfl h
    | cons p ps => exact ⟨_, choice_cons p ps w0⟩
  · rintro rfl; exact choice_nil w0

/-- `any_of(s)` takes one character, when it is one of those of `s`. -/
theorem C40_any_of (s : Str) (w0 w0' : ρ) (c : Parser σ Str) (hc : (Parser.anyOf s).exec w0 = (.ok c, w0'))
    (t : Str) (i : Nat) (w : σ) (v : Str) (rest : Remaining) (w' : σ) :
    Succeeds c w (t, i) v rest w' ↔ ∃ d, t[i]? = some d ∧ d ∈ s ∧ v = [d] ∧ rest = (t, i + 1) ∧ w' = w := by
  cases s with
  | nil => cases hc
  | cons d ds =>
    have e : (Parser.anyOf (d :: ds)).exec w0 = (.ok ((ds.map (fun c => Parser.pchar [c])).foldl Parser.orElse (Parser.pchar [d])), w0) :=
      choice_cons (σ := σ) _ _ w0
    rw [e] at hc
    cases hc
    exact anyOf_foldl

/-- `choice([pstring("ab"), pstring("ac")])` at "ac": the first alternative fails after one character, the second starts again. -/
example (c : Parser Unit Str) (hc : (Parser.choice ⟨[Parser.pstring ['a', 'b'], Parser.pstring ['a', 'c']]⟩).exec () = (.ok c, ())) :
    Succeeds c () (['a', 'c'], 0) ['a', 'c'] (['a', 'c'], 2) () := by
  rw [C40_choice_success _ _ _ _ hc]
  exact ⟨[Parser.pstring ['a', 'b']], Parser.pstring ['a', 'c'], [], (), rfl,
    .cons (C39_message [] ['a'] [] [] 'b' 'c' (by decide) ()) .nil, C39_accepts _ _ 0 ⟨[], [], rfl, rfl⟩ ()⟩

/-! ## C41 repetition -/

/-- `many(p)` gives the results of `p` up to its first failure and stops before it. -/
theorem C41_many (p : Parser σ α) (w : σ) (inp : Remaining) (vs : Block α) (rest : Remaining) (w' : σ) :
    Succeeds (Parser.many p) w inp vs rest w' ↔ Repeats p w inp vs.value rest w' := many_succ_iff

/-- It never fails. -/
theorem C41_never_fails (p : Parser σ α) (w : σ) (inp : Remaining) (e : String) (w' : σ) : ¬ Fails (Parser.many p) w inp e w' :=
  many_not_fail

/-- It raises exactly when one of the runs of `p` does. -/
theorem C41_raises (p : Parser σ α) (w : σ) (inp : Remaining) (e : PyErr) (w' : σ) :
    Raises (Parser.many p) w inp e w' ↔ RepeatsRaises p w inp e w' := many_raise_iff

/-- `many1(p)` is the same but fails, with `p`'s message, when there is no first result. -/
theorem C41_many1 (p : Parser σ α) (w : σ) (inp : Remaining) (vs : Block α) (rest : Remaining) (w' : σ) (e : String) :
    (Succeeds (Parser.many1 p) w inp vs rest w' ↔ vs.value ≠ [] ∧ Repeats p w inp vs.value rest w') ∧
    (Fails (Parser.many1 p) w inp e w' ↔ Fails p w inp e w') := ⟨many1_succ_iff, many1_fail_iff⟩

/-- On a text where `p` always ends and never succeeds without consuming, `many(p)` ends. -/
theorem C41_ends (p : Parser σ α) (hp : Built p) (t : Str) (hend : ∀ w i, i ≤ t.length → Ends p w (t, i))
    (hcons : ∀ w i v rest w', Succeeds p w (t, i) v rest w' → rest.2 ≠ i) (w : σ) (i : Nat) (hi : i ≤ t.length) :
    Ends (Parser.many p) w (t, i) := by
  have := zero_ends p (safe_built hp) t hend (fun w i v rest w' h e => hcons w i v rest w' h (by rw [e])) t.length i (by omega) hi w
  unfold Ends
  rw [many_exec]
  intro h
  exact this (Option.map_eq_none_iff.1 h)

/-- `whitespace` takes the whole run of blanks (space, tab, line feed, vertical tab, form feed, carriage return) that stands at the position, and
fails exactly when there is none. -/
theorem C41_whitespace (before ws after : Str) (w : σ) (hws : ∀ c ∈ ws, c.toNat = 32 ∨ (9 ≤ c.toNat ∧ c.toNat ≤ 13))
    (hno : ∀ c, after.head? = some c → ¬ (c.toNat = 32 ∨ (9 ≤ c.toNat ∧ c.toNat ≤ 13))) :
    (ws ≠ [] → Succeeds Parser.whitespace w (before ++ ws ++ after, before.length) ⟨ws.map (fun c => [c])⟩
      (before ++ ws ++ after, before.length + ws.length) w) ∧
    (ws = [] → ∃ e, Fails Parser.whitespace w (before ++ ws ++ after, before.length) e w) := by
  constructor
  · intro hne
    exact many1_succ_iff.2 ⟨by simpa using hne, repeats_blank ws after hws before hno w⟩
  · rintro rfl
    obtain ⟨e, he⟩ := blank_fail (t := before ++ [] ++ after) (i := before.length) w (by
      intro c hc
      apply hno c
      simpa [List.getElem?_append_right, List.head?_eq_getElem?] using hc)
    exact ⟨e, many1_fail_iff.2 he⟩

example : Succeeds Parser.whitespace () (['a', ' ', '\t', 'b'], 1) ⟨[[' '], ['\t']]⟩ (['a', ' ', '\t', 'b'], 3) () :=
  (C41_whitespace ['a'] [' ', '\t'] ['b'] () (by decide) (by intro c hc; cases hc; decide)).1 (by simp)

/-- The condition is needed: where `p` succeeds without consuming, whatever the world, `many(p)` does not end. -/
theorem C41_endless (p : Parser σ α) (inp : Remaining) (h : ∀ w, ∃ v w', Succeeds p w inp v inp w') (w : σ) :
    ¬ Ends (Parser.many p) w inp := by
  unfold Ends
  rw [many_exec, zero_diverges p inp h w]
  simp

/-- `many(pchar("a"))` at "aab" -/
example : Succeeds (Parser.many (Parser.pchar ['a'])) () (['a', 'a', 'b'], 0) ⟨[['a'], ['a']]⟩ (['a', 'a', 'b'], 2) () :=
  (C41_many _ _ _ _ _ _).2 (.more rfl (.more rfl (.stop (e := _) rfl)))

example (t : Str) (i : Nat) (hi : i ≤ t.length) : Ends (Parser.many (Parser.pchar ['a'])) () (t, i) := by
  refine C41_ends _ (.pchar _) t ?_ ?_ () i hi
  · intro w i _ h
    by_cases hc : t[i]? = some 'a'
    · rw [(pchar_succ_iff (w := w)).2 ⟨hc, rfl, rfl, rfl⟩] at h; cases h
    · obtain ⟨e, he⟩ := pchar_fail w hc
      rw [he] at h; cases h
  · intro w i v rest w' h
    obtain ⟨_, _, rfl, _⟩ := pchar_succ_iff.1 h
    simp

/-- `many(preturn(0))` never returns -/
example : ¬ Ends (Parser.many (Parser.preturn 0)) () (['a'], 0) :=
  C41_endless _ _ (fun w => ⟨0, w, (rfl : (Parser.preturn 0 (['a'], 0)).exec w = _)⟩) ()

/-! ## C42 separated lists -/

/-- `sep_by1(p, sep)` is `p (sep p)*`, giving back a separator that no `p` follows. -/
theorem C42_sep_by1 (p : Parser σ α) (sep : Parser σ β) (w : σ) (inp : Remaining) (vs : Block α) (rest : Remaining) (w' : σ) :
    Succeeds (Parser.sepBy1 p sep) w inp vs rest w' ↔ ∃ v mid w1 vs', vs.value = v :: vs' ∧ Succeeds p w inp v mid w1 ∧
      SepRepeats p sep w1 mid vs' rest w' := sepBy1_succ_iff

/-- It fails exactly when the first `p` does. -/
theorem C42_sep_by1_fails (p : Parser σ α) (sep : Parser σ β) (w : σ) (inp : Remaining) (e : String) (w' : σ) :
    Fails (Parser.sepBy1 p sep) w inp e w' ↔ Fails p w inp e w' := sepBy1_fail_iff

/-- `sep_by` never fails: where `sep_by1` does, it gives the empty list and consumes nothing. -/
theorem C42_sep_by (p : Parser σ α) (sep : Parser σ β) (w : σ) (inp : Remaining) (vs : Block α) (rest : Remaining) (w' : σ) (e : String) :
    (Succeeds (Parser.sepBy p sep) w inp vs rest w' ↔
      (∃ v mid w1 vs', vs.value = v :: vs' ∧ Succeeds p w inp v mid w1 ∧ SepRepeats p sep w1 mid vs' rest w') ∨
      (∃ e', Fails p w inp e' w' ∧ vs.value = [] ∧ rest = inp)) ∧
    ¬ Fails (Parser.sepBy p sep) w inp e w' := by
  constructor
  · constructor
    · intro h
      rcases orElse_inv h with ⟨_, _, _, h2⟩ | ⟨v', rest', w1, h1, h2⟩ | ⟨e', w1, h1, h2⟩
      · cases h2
      · cases h2; exact .inl (sepBy1_succ_iff.1 h1)
      · obtain ⟨rfl, rfl, rfl⟩ := preturn_succ_iff.1 h2
        exact .inr ⟨e', sepBy1_fail_iff.1 h1, rfl, rfl⟩
    · rintro (h | ⟨e', h, h1, rfl⟩)
      · exact orElse_succ (sepBy1_succ_iff.2 h)
      · unfold Succeeds Parser.sepBy
        rw [orElse_fail (sepBy1_fail_iff.2 h)]
        rcases vs with ⟨vs⟩
        obtain rfl : vs = [] := h1
        rfl
  · intro h
    rcases orElse_inv h with ⟨_, _, _, h2⟩ | ⟨v', rest', w1, h1, h2⟩ | ⟨e', w1, h1, h2⟩
    · cases h2
    · cases h2
    · exact absurd h2 preturn_not_fail

/-- "a,a,b": two elements; the second comma is not consumed -/
example : Succeeds (Parser.sepBy1 (Parser.pchar ['a']) (Parser.pchar [','])) () (['a', ',', 'a', ',', 'b'], 0) ⟨[['a'], ['a']]⟩
    (['a', ',', 'a', ',', 'b'], 3) () :=
  (C42_sep_by1 _ _ _ _ _ _ _).2 ⟨['a'], (['a', ',', 'a', ',', 'b'], 1), (), [['a']], rfl, rfl,
    .more (s := [',']) (mid := (['a', ',', 'a', ',', 'b'], 2)) (w1 := ()) rfl (mid2 := (['a', ',', 'a', ',', 'b'], 3)) (w2 := ()) rfl
      (.trailing (s := [',']) (mid := (['a', ',', 'a', ',', 'b'], 4)) (w1 := ()) rfl (e := _) rfl)⟩

/-! ## C61 laws of parsers -/

/-- `preturn` and `bind` are a monad. -/
theorem C61_monad (a : α) (p : Parser σ α) (f : α → PyD σ (Parser σ β)) (g : β → PyD σ (Parser σ γ)) :
    (∀ inp, Parser.bind f (Parser.preturn a) inp = (do let q ← f a; q inp)) ∧
    Parser.bind (fun a => pure (Parser.preturn a)) p = p ∧
    Parser.bind g (Parser.bind f p) = Parser.bind (fun a => do let q ← f a; pure (Parser.bind g q)) p :=
  ⟨fun _ => rfl, bind_preturn p, bind_bind f g p⟩

/-- `or_else` is associative; `fail` is its left unit and `preturn` its left zero. -/
theorem C61_alternative (p q r : Parser σ α) (e : String) (x : α) :
    Parser.orElse (Parser.orElse p q) r = Parser.orElse p (Parser.orElse q r) ∧
    Parser.orElse (Parser.fail e) p = p ∧ Parser.orElse (Parser.preturn x) p = Parser.preturn x :=
  ⟨orElse_assoc p q r, rfl, rfl⟩

/-- `map` and `and_then` are what they are in terms of `bind`; mapping twice is mapping once. -/
theorem C61_map (p : Parser σ α) (q : Parser σ β) (f : α → PyD σ β) (g : β → PyD σ γ) :
    Parser.map f p = Parser.bind (fun a => do let b ← f a; pure (Parser.preturn b)) p ∧
    Parser.map g (Parser.map f p) = Parser.map (fun a => do let b ← f a; g b) p ∧
    Parser.andThen p q = Parser.bind (fun a => pure (Parser.map (fun b => pure (a, b)) q)) p := by
  refine ⟨map_eq f p, ?_, ?_⟩
  · funext inp
    rw [map_eq, map_eq, map_eq, bind_eq, bind_eq, bind_eq, bind_assoc]
    refine bind_congr fun o => ?_
    rcases o with ⟨v, r⟩ | e
    · simp only [bindStep, bind_assoc, pure_bind]
      refine bind_congr fun b => ?_
      change ((pure (Res.ok (b, r)) : PyD σ (Res (β × Remaining) String)) >>= _ : PyD σ (Res (γ × Remaining) String)) = _
      simp only [bindStep, bind_assoc, pure_bind]
    · simp only [bindStep, pure_bind]
  · rw [andThen_eq]
    congr 1

/-- `sequence(ps)` runs the parsers in order; it fails where the first of them fails. -/
theorem C61_sequence (ps : List (Parser σ α)) (w : σ) (inp : Remaining) (vs : List α) (rest : Remaining) (w' : σ) (e : String) :
    (Succeeds (Parser.sequence ps) w inp ⟨vs⟩ rest w' ↔ InOrder ps w inp vs rest w') ∧
    (Fails (Parser.sequence ps) w inp e w' ↔
      ∃ before p after vs mid w1, ps = before ++ p :: after ∧ InOrder before w inp vs mid w1 ∧ Fails p w1 mid e w') :=
  ⟨sequence_succ_iff, sequence_fail_iff⟩

/-- `opt(p)` gives `Some` of `p`'s value, or `Nothing` without consuming; it never fails. -/
theorem C61_opt (p : Parser σ α) (w : σ) (inp : Remaining) (o : Option α) (rest : Remaining) (w' : σ) (e : String) :
    (Succeeds (Parser.opt p) w inp o rest w' ↔
      (∃ v, o = some v ∧ Succeeds p w inp v rest w') ∨ (o = none ∧ rest = inp ∧ ∃ e, Fails p w inp e w')) ∧
    ¬ Fails (Parser.opt p) w inp e w' := by
  refine ⟨⟨?_, ?_⟩, opt_not_fail⟩
  · intro h
    rcases orElse_inv h with ⟨_, _, _, h2⟩ | ⟨v', rest', w1, h1, h2⟩ | ⟨e', w1, h1, h2⟩
    · cases h2
    · cases h2
      obtain ⟨a, w1, h3, h4⟩ := map_succ_iff.1 h1
      cases h4
      exact .inl ⟨a, rfl, h3⟩
    · obtain ⟨rfl, rfl, rfl⟩ := preturn_succ_iff.1 h2
      exact .inr ⟨rfl, rfl, e', map_fail_iff.1 h1⟩
  · rintro (⟨v, rfl, h⟩ | ⟨rfl, rfl, e', h⟩)
    · exact opt_some h
    · exact opt_none h

/-- `p.between(open, close)` runs `open`, `p`, `close` in this order and gives `p`'s value. -/
theorem C61_between (popen : Parser σ α) (pclose : Parser σ β) (p : Parser σ γ) (w : σ) (inp : Remaining) (v : γ) (rest : Remaining) (w' : σ) :
    Succeeds (Parser.between popen pclose p) w inp v rest w' ↔ ∃ a m1 w1 m2 w2 b, Succeeds popen w inp a m1 w1 ∧
      Succeeds p w1 m1 v m2 w2 ∧ Succeeds pclose w2 m2 b rest w' := by
  unfold Parser.between
  rw [thenIgnore_succ_iff]
  constructor
  · rintro ⟨b, m2, w2, h1, h2⟩
    obtain ⟨a, m1, w1, h3, h4⟩ := ignoreThen_succ_iff.1 h1
    exact ⟨a, m1, w1, m2, w2, b, h3, h4, h2⟩
  · rintro ⟨a, m1, w1, m2, w2, b, h1, h2, h3⟩
    exact ⟨b, m2, w2, ignoreThen_succ_iff.2 ⟨a, m1, w1, h1, h2⟩, h3⟩

/-- `p.ignore_then(q)` and `p.then_ignore(q)` run `p` and then `q` and keep the value of the one or the other. -/
theorem C61_ignore (p : Parser σ α) (q : Parser σ β) (w : σ) (inp : Remaining) (a : α) (b : β) (rest : Remaining) (w' : σ) :
    (Succeeds (Parser.ignoreThen p q) w inp b rest w' ↔ ∃ a mid w1, Succeeds p w inp a mid w1 ∧ Succeeds q w1 mid b rest w') ∧
    (Succeeds (Parser.thenIgnore p q) w inp a rest w' ↔ ∃ b mid w1, Succeeds p w inp a mid w1 ∧ Succeeds q w1 mid b rest w') :=
  ⟨ignoreThen_succ_iff, thenIgnore_succ_iff⟩

/-- `p.ignore()` succeeds and fails exactly where `p` does, consuming the same text, and drops the value. -/
theorem C61_ignore_value (p : Parser σ α) (w : σ) (inp rest : Remaining) (w' : σ) (e : String) :
    (Succeeds (Parser.ignore p) w inp () rest w' ↔ ∃ a, Succeeds p w inp a rest w') ∧
    (Fails (Parser.ignore p) w inp e w' ↔ Fails p w inp e w') := by
  refine ⟨⟨fun h => ?_, fun ⟨a, h⟩ => map_succ_iff.2 ⟨a, w', h, rfl⟩⟩, map_fail_iff⟩
  obtain ⟨a, w1, h1, h2⟩ := map_succ_iff.1 h
  cases h2
  exact ⟨a, h1⟩

/-- `lift2(f)(p)(q)` runs `p` and `q` in order and applies the curried `f`. -/
theorem C61_lift2 (f : α → PyD σ (β → PyD σ γ)) (p : Parser σ α) (q : Parser σ β) (w : σ) (inp : Remaining) (v : γ) (rest : Remaining) (w' : σ) :
    Succeeds (Parser.lift2 f p q) w inp v rest w' ↔ ∃ a mid w1 g w2 b w3, Succeeds p w inp a mid w1 ∧ (f a).exec w1 = some (.ok g, w2) ∧
      Succeeds q w2 mid b rest w3 ∧ (g b).exec w3 = some (.ok v, w') := lift2_succ_iff

/-- `starmap(f)` runs the parser and then calls `f`, once, on the two values of the pair; it fails exactly where the parser fails, and `f` is not called. -/
theorem C61_starmap (f : α → β → PyD σ γ) (p : Parser σ (α × β)) (w : σ) (inp : Remaining) (v : γ) (rest : Remaining) (w' : σ) (e : String) :
    (Succeeds (Parser.starmap f p) w inp v rest w' ↔ ∃ a b w1, Succeeds p w inp (a, b) rest w1 ∧ (f a b).exec w1 = some (.ok v, w')) ∧
    (Fails (Parser.starmap f p) w inp e w' ↔ Fails p w inp e w') := by
  refine ⟨⟨fun h => ?_, fun ⟨a, b, w1, h1, h2⟩ => map_succ_iff.2 ⟨(a, b), w1, h1, h2⟩⟩, map_fail_iff⟩
  obtain ⟨⟨a, b⟩, w1, h1, h2⟩ := map_succ_iff.1 h
  exact ⟨a, b, w1, h1, h2⟩

/-- "(a)" -/
example : Succeeds (Parser.between (Parser.pchar ['(']) (Parser.pchar [')']) (Parser.pchar ['a'])) () (['(', 'a', ')'], 0) ['a'] (['(', 'a', ')'], 3) () :=
  (C61_between _ _ _ _ _ _ _ _).2 ⟨['('], (['(', 'a', ')'], 1), (), (['(', 'a', ')'], 2), (), [')'], rfl, rfl, rfl⟩

/-! ## C62 floating-point literals -/

/-- With a fraction: `float` is given the digits, the point and the digits of the fraction; the minus sign is applied afterwards. -/
theorem C62_fraction {F : Type} (float : Str → PyD σ F) (neg : F → F) (minus : Bool) (before ds frac after : Str)
    (hd : ∀ d ∈ ds, 48 ≤ d.toNat ∧ d.toNat ≤ 57) (hne : ds ≠ []) (hf : ∀ d ∈ frac, 48 ≤ d.toNat ∧ d.toNat ≤ 57) (hfne : frac ≠ [])
    (hno : NoDigitAt after 0) (w : σ) :
    (Parser.pfloat float neg (before ++ ((if minus then ['-'] else []) ++ ds ++ '.' :: frac) ++ after, before.length)).exec w =
      (do let x ← float (ds ++ '.' :: frac)
          pure (.ok (if minus then neg x else x, (before ++ ((if minus then ['-'] else []) ++ ds ++ '.' :: frac) ++ after,
            before.length + ((if minus then ['-'] else []) ++ ds ++ '.' :: frac).length)))
          : PyD σ (Res (F × Remaining) String)).exec w :=
  pfloat_frac float neg minus before ds frac after (fun d h => (isDigit_iff d).2 (hd d h)) hne (fun d h => (isDigit_iff d).2 (hf d h)) hfne hno w

/-- Without: a point that no digit follows is not consumed. -/
theorem C62_whole {F : Type} (float : Str → PyD σ F) (neg : F → F) (minus : Bool) (before ds after : Str)
    (hd : ∀ d ∈ ds, 48 ≤ d.toNat ∧ d.toNat ≤ 57) (hne : ds ≠ [])
    (hno : NoDigitAt after 0) (hdot : after[0]? = some '.' → NoDigitAt after 1) (w : σ) :
    (Parser.pfloat float neg (before ++ ((if minus then ['-'] else []) ++ ds) ++ after, before.length)).exec w =
      (do let x ← float ds
          pure (.ok (if minus then neg x else x, (before ++ ((if minus then ['-'] else []) ++ ds) ++ after,
            before.length + ((if minus then ['-'] else []) ++ ds).length)))
          : PyD σ (Res (F × Remaining) String)).exec w :=
  pfloat_int float neg minus before ds after (fun d h => (isDigit_iff d).2 (hd d h)) hne hno hdot w

/-- "-1.5." with `float` taken to give the text it is given -/
example : (Parser.pfloat (fun s => pure s) (fun s => '-' :: s) ("-1.5.".toList, 0)).exec () =
    some (.ok (.ok ("-1.5".toList, ("-1.5.".toList, 4))), ()) :=
  (C62_fraction (fun s => pure s) (fun s => '-' :: s) true [] ['1'] ['5'] ['.'] (by decide) (by decide) (by decide) (by decide)
    (by intro c hc; cases hc; decide) ()).trans rfl

/-! ## C63 repetition and the stack -/

/-- The full property: with some stack, `many(pchar("a"))` parses every text as it does with an unbounded stack. -/
def C63_full_statement : Prop :=
  ∃ frames, ∀ (t : Str) (w : Unit), (Parser.manyWithin frames (Parser.pchar ['a']) (t, 0)).exec w = (Parser.many (Parser.pchar ['a']) (t, 0)).exec w

/-- It is false: any stack is exhausted by a text that is long enough. -/
theorem C63_full_statement_false : ¬ C63_full_statement := by
  rintro ⟨frames, h⟩
  have hr : ∀ n k, Repeats (Parser.pchar ['a']) () (List.replicate (n + k) 'a', k) (List.replicate n ['a']) (List.replicate (n + k) 'a', n + k) () := by
    intro n
    induction n with
    | zero =>
      intro k
      obtain ⟨e, he⟩ := pchar_fail (σ := Unit) (c := 'a') (t := List.replicate (0 + k) 'a') (i := k) () (by simp)
      rw [Nat.zero_add] at *
      exact .stop he
    | succ n ih =>
      intro k
      have := ih (k + 1)
      rw [show n + (k + 1) = n + 1 + k by omega] at this
      exact .more (pchar_succ_iff.2 ⟨by rw [List.getElem?_replicate, if_pos (by omega)], rfl, rfl, rfl⟩) this
  have h1 := hr frames 0
  obtain ⟨w1, h2⟩ := within_exhausted h1 frames (by simp)
  have h3 := h (List.replicate (frames + 0) 'a') ()
  have h4 := (many_succ_iff (vs := ⟨_⟩)).2 h1
  unfold Succeeds at h4
  rw [h4] at h3
  unfold Parser.manyWithin at h3
  rw [exec_bind, h2] at h3
  cases h3

/-- Proved: the stack suffices exactly when it is deeper than the number of repetitions; otherwise `RecursionError` is raised. -/
theorem C63_depth_partial (p : Parser σ α) (w : σ) (inp : Remaining) (vs : List α) (rest : Remaining) (w' : σ)
    (h : Succeeds (Parser.many p) w inp ⟨vs⟩ rest w') (frames : Nat) :
    (vs.length < frames → Succeeds (Parser.manyWithin frames p) w inp ⟨vs⟩ rest w') ∧
    (frames ≤ vs.length → ∃ w1, Raises (Parser.manyWithin frames p) w inp .recursionError w1) := by
  have h := many_succ_iff.1 h
  constructor
  · intro hn
    unfold Succeeds Parser.manyWithin
    rw [exec_bind, within_enough h frames hn]; rfl
  · intro hn
    obtain ⟨w1, h1⟩ := within_exhausted h frames hn
    refine ⟨w1, ?_⟩
    unfold Raises Parser.manyWithin
    rw [exec_bind, h1]

/-- "aab" needs three frames: two repetitions and the failure -/
example : Succeeds (Parser.manyWithin 3 (Parser.pchar ['a'])) () (['a', 'a', 'b'], 0) ⟨[['a'], ['a']]⟩ (['a', 'a', 'b'], 2) () ∧
    ∃ w1, Raises (Parser.manyWithin 2 (Parser.pchar ['a'])) () (['a', 'a', 'b'], 0) .recursionError w1 :=
  have h : Succeeds (Parser.many (Parser.pchar ['a'])) () (['a', 'a', 'b'], 0) ⟨[['a'], ['a']]⟩ (['a', 'a', 'b'], 2) () :=
    (C41_many _ _ _ _ _ _).2 (.more rfl (.more rfl (.stop (e := _) rfl)))
  ⟨(C63_depth_partial _ _ _ _ _ _ h 3).1 (by decide), (C63_depth_partial _ _ _ _ _ _ h 2).2 (by decide)⟩

end Expression.Props
