import Verif.Lemmas.ParserError
import Verif.Props.Grammar
import Verif.Props.Parser

/-! # Property C149: what the error of a parser tells -/

namespace Expression.Props

open Expression Expression.Grammar Spec Spec.Grammar PyD Lemmas.Grammar Lemmas.Parser Lemmas.ParserError

variable {σ ρ N : Type} {g : N → Exp N}

/-- **C149.** The parser of an expression fails with the message `m` exactly if the expression gets stuck with a complaint of which `m` is the text. -/
theorem C149_message (e : Exp N) (w w' : σ) (text : Str) (pos : Nat) (m : String) :
    Fails (parser g e) w (text, pos) m w' ↔ w' = w ∧ ∃ k, Stuck g e (text.drop pos) k ∧ m = k.message (text.drop pos) := by
  constructor
  · intro h
    obtain ⟨rfl, h1⟩ := (C121_refuses e w w' text pos).1 ⟨m, h⟩
    obtain ⟨k, hk⟩ := stuck_of_parses h1 rfl
    have h2 : _ = _ := stuck_fails hk text pos w' rfl
    have h3 := h2.symm.trans h
    refine ⟨rfl, k, hk, ?_⟩
    cases h3
    rfl
  · rintro ⟨rfl, k, hk, rfl⟩
    exact stuck_fails hk text pos w' rfl

/-- **C149 (a call).** What a call of the parser with a text gives as `Error`. -/
theorem C149_call (e : Exp N) (w w' : σ) (text : Str) (m : String) :
    ((parser g e).call text).exec w = some (.ok (.error m), w') ↔ w' = w ∧ ∃ k, Stuck g e text k ∧ m = k.message text := by
  have h := C149_message (g := g) e w w' text 0 m
  rw [List.drop_zero] at h
  rw [← h]
  unfold Parser.call Fails
  rw [exec_bind]
  constructor
  · intro h
    rcases hr : (parser g e (text, 0)).exec w with _ | ⟨_ | _ | _, w2⟩ <;> rw [hr] at h <;> cases h
    rfl
  · intro h
    rw [h]
    rfl

/-- There is one complaint at most, and there is one exactly if the grammar says that the expression does not match. -/
theorem C149_one_complaint (e : Exp N) (s : Str) :
    (∀ k k', Stuck g e s k → Stuck g e s k' → k = k') ∧ ((∃ k, Stuck g e s k) ↔ Parses g e s none) :=
  ⟨fun _ _ h h' => stuck_det h h', fun ⟨_, h⟩ => parses_of_stuck h, fun h => stuck_of_parses h rfl⟩

/-- One would like the error to tell a character that was expected at the farthest position the reading came to. -/
def C149_full_statement : Prop :=
  ∀ (N : Type) (g : N → Exp N) (e : Exp N) (text : Str) (m : String),
    Fails (parser g e : Parser Unit Tree) () (text, 0) m () → (∃ c i, Missed g e text c i) → TellsFarthest g e text m

/-- `pstring("ab") | pchar("x")` on "ac": it is 'b' that was not found, after an 'a'; the error speaks of an 'x' instead of the 'a'. -/
theorem C149_full_statement_false : ¬ C149_full_statement := by
  intro h
  have miss : Missed (fun n : Empty => n.elim) (.alt (.text ['a', 'b']) (.char 'x')) ['a', 'c'] 'b' 1 :=
    .altFirst (.text (p := ['a']) (c := 'b') (q := []) ⟨['c'], rfl⟩ (by simp))
  have stuck : Stuck (fun n : Empty => n.elim) (.alt (.text ['a', 'b']) (.char 'x')) ['a', 'c'] (.expected 'x' 0) :=
    .alt (.textNot (by decide)) (.char (by simp))
  obtain ⟨c, i, h1, h2, h3⟩ := h Empty (fun n => n.elim) (.alt (.text ['a', 'b']) (.char 'x')) ['a', 'c'] _
    ((C149_message _ () () _ 0 _).2 ⟨rfl, _, stuck, rfl⟩) ⟨_, _, miss⟩
  have h4 := h2 _ _ miss
  rw [List.drop_zero] at h3
  match i, h4 with
  | 1, _ =>
    simp only [Complaint.message, List.getElem?_cons_zero, List.getElem?_cons_succ] at h3
    have := congrArg String.toList h3
    simp at this
  | i + 2, _ =>
    have h5 : (Complaint.expected c (i + 2)).message ['a', 'c'] = "no more input" := rfl
    rw [h5] at h3
    revert h3
    decide

/-- **C149, what holds: the error is true.** It is "fail", of a `fail()` that was reached, or it tells of a character that was looked for during the reading and that is not
where it was looked for. -/
theorem C149_true_partial (e : Exp N) (w w' : σ) (text : Str) (pos : Nat) (m : String) (h : Fails (parser g e) w (text, pos) m w') :
    (Stuck g e (text.drop pos) .failed ∧ m = "fail") ∨
      ∃ c i, Missed g e (text.drop pos) c i ∧ text[pos + i]? ≠ some c ∧
        m = match (generalizing := false) text[pos + i]? with
          | none => "no more input"
          | some d => "Expecting '" ++ String.ofList [c] ++ "'. Got '" ++ String.ofList [d] ++ "'" := by
  obtain ⟨_, k, hk, rfl⟩ := (C149_message e w w' text pos m).1 h
  cases k with
  | failed => exact .inl ⟨hk, rfl⟩
  | expected c i =>
    have h1 := stuck_missed hk c i rfl
    refine .inr ⟨c, i, h1, ?_, ?_⟩
    · have := missed_true h1
      rwa [List.getElem?_drop] at this
    · have h2 : (Complaint.expected c i).message (text.drop pos) = match (text.drop pos)[i]? with
          | none => "no more input"
          | some d => "Expecting '" ++ String.ofList [c] ++ "'. Got '" ++ String.ofList [d] ++ "'" := rfl
      rw [h2, List.getElem?_drop]

/-- **C149, what holds: without alternatives** and without anything optional or repeated, the error tells the farthest, which is the only one. -/
theorem C149_straight_partial (hg : ∀ n, Straight (g n)) (e : Exp N) (he : Straight e) (w w' : σ) (text : Str) (pos : Nat) (m : String)
    (h : Fails (parser g e) w (text, pos) m w') (hm : ∃ c i, Missed g e (text.drop pos) c i) : TellsFarthest g e (text.drop pos) m := by
  obtain ⟨_, k, hk, rfl⟩ := (C149_message e w w' text pos m).1 h
  obtain ⟨c, i, h1⟩ := hm
  cases stuck_det hk (straight_missed hg h1 he)
  refine ⟨c, i, h1, fun c' j h2 => ?_, rfl⟩
  cases stuck_det hk (straight_missed hg h2 he)
  exact Nat.le_refl _

/-- **C149, of alternatives only the last is told.**  When both fail, the error is that of the second alone, as if the first had not been there. -/
theorem C149_last_alternative (a b : Exp N) (w w' : σ) (text : Str) (pos : Nat) (m : String) :
    Fails (parser g (.alt a b)) w (text, pos) m w' ↔ (∃ m', Fails (parser g a) w (text, pos) m' w) ∧ Fails (parser g b) w (text, pos) m w' := by
  rw [C149_message, C149_message, C121_refuses]
  constructor
  · rintro ⟨rfl, k, hk, rfl⟩
    cases hk with
    | alt h1 h2 => exact ⟨⟨rfl, h1⟩, rfl, _, h2, rfl⟩
  · rintro ⟨⟨_, h1⟩, rfl, k, h2, rfl⟩
    exact ⟨rfl, _, .alt h1 h2, rfl⟩

/-- **C149, `any_of`.** The error of `any_of(s)` names the last character of `s` only. -/
theorem C149_any_of (s : Str) (w0 w0' : ρ) (p : Parser σ Str) (hp : (Parser.anyOf s).exec w0 = (.ok p, w0')) (w w' : σ) (text : Str) (pos : Nat)
    (m : String) :
    Fails p w (text, pos) m w' ↔ w' = w ∧ (∀ c ∈ s, text[pos]? ≠ some c) ∧
      ∃ c, s.getLast? = some c ∧ m = (Complaint.expected c 0).message (text.drop pos) := by
  have one : ∀ (c : Char) (w w' : σ) (m : String), Fails (Parser.pchar [c]) w (text, pos) m w' ↔
      w' = w ∧ text[pos]? ≠ some c ∧ m = (Complaint.expected c 0).message (text.drop pos) := by
    intro c w w' m
    constructor
    · intro h
      by_cases hc : text[pos]? = some c
      · unfold Fails Parser.pchar at h
        dsimp only at h
        rw [hc] at h
        dsimp only at h
        rw [if_pos rfl] at h
        cases h
      · have h1 := pchar_fails w hc (text.drop pos) 0 (by simp)
        have h2 := Eq.trans (Eq.symm h1) h
        cases h2
        exact ⟨rfl, hc, rfl⟩
    · rintro ⟨rfl, h1, rfl⟩
      exact pchar_fails w' h1 _ _ (by simp)
  have all : ∀ (cs : Str) (w w1 : σ), AllFail (text, pos) (cs.map fun c => (Parser.pchar [c] : Parser σ Str)) w w1 ↔
      w1 = w ∧ ∀ c ∈ cs, text[pos]? ≠ some c := by
    intro cs
    induction cs with
    | nil =>
      intro w w1
      constructor
      · intro h; cases h; exact ⟨rfl, by simp⟩
      · rintro ⟨rfl, _⟩; exact .nil
    | cons c cs ih =>
      intro w w1
      constructor
      · intro h
        cases h with
        | cons h1 h2 =>
          obtain ⟨rfl, h3, _⟩ := (one _ _ _ _).1 h1
          obtain ⟨rfl, h4⟩ := (ih _ _).1 h2
          exact ⟨rfl, fun d hd => by rcases List.mem_cons.1 hd with rfl | hd; exacts [h3, h4 d hd]⟩
      · rintro ⟨rfl, h⟩
        exact .cons ((one c w1 w1 _).2 ⟨rfl, h c (by simp), rfl⟩) ((ih _ _).2 ⟨rfl, fun d hd => h d (by simp [hd])⟩)
  rw [C40_choice_failure (s.map fun c => Parser.pchar [c]) w0 w0' p hp]
  constructor
  · rintro ⟨pre, q, w1, h1, h2, h3⟩
    obtain ⟨cs, ds, rfl, rfl, h4⟩ := List.map_eq_append_iff.1 h1
    obtain ⟨c, ds', rfl, rfl, h6⟩ := List.map_eq_cons_iff.1 h4
    cases List.map_eq_nil_iff.1 h6
    obtain ⟨rfl, h7⟩ := (all _ _ _).1 h2
    obtain ⟨rfl, h8, h9⟩ := (one _ _ _ _).1 h3
    refine ⟨rfl, fun d hd => ?_, c, by simp, h9⟩
    rcases List.mem_append.1 hd with hd | hd
    · exact h7 d hd
    · rw [List.mem_singleton.1 hd]; exact h8
  · rintro ⟨rfl, h1, c, h2, h3⟩
    obtain ⟨cs, rfl⟩ := List.getLast?_eq_some_iff.1 h2
    refine ⟨cs.map fun c => Parser.pchar [c], Parser.pchar [c], w', by simp, (all _ _ _).2 ⟨rfl, fun d hd => h1 d (by simp [hd])⟩, ?_⟩
    exact (one _ _ _ _).2 ⟨rfl, h1 c (by simp), h3⟩

/-- `pstring("let") .then_ignore(pchar(" ")).and_then(pchar("x") | pchar("y"))` on "let z": the complaint is about 'y', at the fifth character. -/
example (w : σ) : Fails (parser (fun n : Empty => n.elim) (.seq (.left (.text ['l', 'e', 't']) (.char ' ')) (.alt (.char 'x') (.char 'y')))) w
    (['l', 'e', 't', ' ', 'z'], 0) "Expecting 'y'. Got 'z'" w := by
  refine (C149_message _ w w _ 0 _).2 ⟨rfl, .expected 'y' 4, ?_, by decide⟩
  exact .seqSecond (n := 4) (k := .expected 'y' 0) (t := .text ['l', 'e', 't'])
    (.left (.text (x := ['l', 'e', 't']) ⟨[' ', 'z'], rfl⟩) (.char (by simp))) (.alt (.charNot (by simp)) (.char (by simp)))

/-- a straight one that misses something: `between(pchar("("), pchar(")"), pstring("ab"))` on "(ac)" -/
example : Straight (.between (.char '(') (.char ')') (.text ['a', 'b']) : Exp Empty) ∧
    Missed (fun n : Empty => n.elim) (.between (.char '(') (.char ')') (.text ['a', 'b'])) ['(', 'a', 'c', ')'] 'b' 2 :=
  ⟨⟨trivial, trivial, trivial⟩,
    .betweenBody (n := 1) (.char (by simp)) (.text (p := ['a']) (c := 'b') (q := []) ⟨['c', ')'], rfl⟩ (by simp))⟩

end Expression.Props
