import Verif.Lemmas.Grammar
import Verif.Spec.ParserError

/-! The errors of the parsers of a grammar. -/

namespace Expression.Lemmas.ParserError

open Expression Expression.Grammar Spec Spec.Grammar PyD Lemmas.Parser Lemmas.Grammar

variable {σ N : Type} {g : N → Exp N}

theorem after_message (s : Str) (n : Nat) (k : Complaint) : (k.after n).message s = k.message (s.drop n) := by
  cases k with
  | failed => rfl
  | expected c i => simp only [Complaint.after, Complaint.message, List.getElem?_drop]

theorem after_after (m n : Nat) (k : Complaint) : (k.after n).after m = k.after (m + n) := by
  cases k with
  | failed => rfl
  | expected c i => simp only [Complaint.after, Nat.add_assoc]

/-- where a text that is not there goes wrong -/
theorem not_prefix {x s : Str} (h : ¬ x <+: s) : ∃ p c q, x = p ++ c :: q ∧ p <+: s ∧ (s.drop p.length).head? ≠ some c := by
  induction x generalizing s with
  | nil => exact absurd (List.nil_prefix) h
  | cons c x ih =>
    by_cases hc : s.head? = some c
    · obtain ⟨s', rfl⟩ : ∃ s', s = c :: s' := by
        cases s with
        | nil => cases hc
        | cons d s' => cases hc; exact ⟨s', rfl⟩
      obtain ⟨p, d, q, h1, h2, h3⟩ := ih (s := s') (fun hp => h (List.cons_prefix_cons.2 ⟨rfl, hp⟩))
      exact ⟨c :: p, d, q, by rw [h1]; rfl, List.cons_prefix_cons.2 ⟨rfl, h2⟩, by simpa using h3⟩
    · exact ⟨[], c, x, rfl, List.nil_prefix, by simpa using hc⟩

theorem stuck_of_parses {e : Exp N} {s : Str} {o : Option (Tree × Nat)} (h : Parses g e s o) : o = none → ∃ k, Stuck g e s k := by
  induction h with
  | fail => exact fun _ => ⟨_, .fail⟩
  | charNot h => exact fun _ => ⟨_, .char h⟩
  | textNot h =>
    intro _
    obtain ⟨p, c, q, rfl, h1, h2⟩ := not_prefix h
    exact ⟨_, .text h1 h2⟩
  | seqFirst _ ih => exact fun _ => (ih rfl).imp fun k hk => .seqFirst hk
  | seqSecond h1 _ _ ih => exact fun _ => (ih rfl).elim fun k hk => ⟨_, .seqSecond h1 hk⟩
  | leftFirst _ ih => exact fun _ => (ih rfl).imp fun k hk => .leftFirst hk
  | leftSecond h1 _ _ ih => exact fun _ => (ih rfl).elim fun k hk => ⟨_, .leftSecond h1 hk⟩
  | rightFirst _ ih => exact fun _ => (ih rfl).imp fun k hk => .rightFirst hk
  | rightSecond h1 _ _ ih => exact fun _ => (ih rfl).elim fun k hk => ⟨_, .rightSecond h1 hk⟩
  | altSecond h1 _ _ ih => exact fun h => (ih h).imp fun k hk => .alt h1 hk
  | plusNot _ ih => exact fun _ => (ih rfl).imp fun k hk => .plus hk
  | sepBy1Not _ ih => exact fun _ => (ih rfl).imp fun k hk => .sepBy1 hk
  | betweenOpen _ ih => exact fun _ => (ih rfl).imp fun k hk => .betweenOpen hk
  | betweenBody h1 _ _ ih => exact fun _ => (ih rfl).elim fun k hk => ⟨_, .betweenBody h1 hk⟩
  | betweenClose h1 h2 _ _ _ ih => exact fun _ => (ih rfl).elim fun k hk => ⟨_, .betweenClose h1 h2 hk⟩
  | actNot _ ih => exact fun _ => (ih rfl).imp fun k hk => .act hk
  | rule _ ih => exact fun h => (ih h).imp fun k hk => .rule hk
  | _ => intro h; cases h

theorem parses_of_stuck {e : Exp N} {s : Str} {k : Complaint} (h : Stuck g e s k) : Parses g e s none := by
  induction h with
  | fail => exact .fail
  | char h => exact .charNot h
  | text h1 h2 =>
    refine .textNot fun h => h2 ?_
    obtain ⟨r, rfl⟩ := h
    simp
  | seqFirst _ ih => exact .seqFirst ih
  | seqSecond h1 _ ih => exact .seqSecond h1 ih
  | leftFirst _ ih => exact .leftFirst ih
  | leftSecond h1 _ ih => exact .leftSecond h1 ih
  | rightFirst _ ih => exact .rightFirst ih
  | rightSecond h1 _ ih => exact .rightSecond h1 ih
  | alt h1 _ ih => exact .altSecond h1 ih
  | plus _ ih => exact .plusNot ih
  | sepBy1 _ ih => exact .sepBy1Not ih
  | betweenOpen _ ih => exact .betweenOpen ih
  | betweenBody h1 _ ih => exact .betweenBody h1 ih
  | betweenClose h1 h2 _ ih => exact .betweenClose h1 h2 ih
  | act _ ih => exact .actNot ih
  | rule _ ih => exact .rule ih

/-- what the parser does where the grammar matches -/
theorem succeeds_of_parses {e : Exp N} {text : Str} {pos : Nat} {t : Tree} {n : Nat} (w : σ) (h : Parses g e (text.drop pos) (some (t, n))) :
    Succeeds (make (rules g) e) w (text, pos) t (text, pos + n) w := by
  obtain ⟨⟨k, hk⟩, _⟩ := parses_gives (σ := σ) h
  have h1 : _ = _ := hk k (Nat.le_refl _) text pos w rfl
  rcases parserWithin_faithful e k (text, pos) w with h2 | ⟨w2, h2⟩
  · exact h2.symm.trans h1
  · rw [h1] at h2; cases h2

theorem fails_of_parses {e : Exp N} {text : Str} {pos : Nat} (w : σ) (h : Parses g e (text.drop pos) none) :
    ∃ m, Fails (make (rules g) e) w (text, pos) m w := by
  obtain ⟨⟨k, hk⟩, _⟩ := parses_gives (σ := σ) h
  obtain ⟨m, h1⟩ := hk k (Nat.le_refl _) text pos w rfl
  rcases parserWithin_faithful e k (text, pos) w with h2 | ⟨w2, h2⟩
  · exact ⟨m, h2.symm.trans h1⟩
  · rw [h1] at h2; cases h2

theorem pchar_fails {c : Char} {text : Str} {pos : Nat} (w : σ) (h : text[pos]? ≠ some c) (s : Str) (i : Nat) (hs : text[pos]? = s[i]?) :
    Fails (Parser.pchar [c]) w (text, pos) ((Complaint.expected c i).message s) w := by
  have hm : (Complaint.expected c i).message s = match text[pos]? with
      | none => "no more input"
      | some d => "Expecting '" ++ String.ofList [c] ++ "'. Got '" ++ String.ofList [d] ++ "'" := by rw [hs]; rfl
  rw [hm]
  unfold Fails Parser.pchar
  dsimp only
  cases hd : text[pos]? with
  | none => rfl
  | some d =>
    have : ¬ [d] = [c] := fun he => h (by rw [hd]; cases he; rfl)
    dsimp only
    rw [if_neg this]
    rfl

theorem head_drop (text : Str) (pos : Nat) : (text.drop pos).head? = text[pos]? := by
  rw [List.head?_drop]

theorem stuck_fails {e : Exp N} {s : Str} {k : Complaint} (h : Stuck g e s k) : ∀ (text : Str) (pos : Nat) (w : σ), text.drop pos = s →
    Fails (make (rules g) e) w (text, pos) (k.message s) w := by
  have andThen2 : ∀ {a b : Exp N} {text : Str} {pos : Nat} {w : σ} {t : Tree} {n : Nat} {k : Complaint}, Parses g a (text.drop pos) (some (t, n)) →
      (∀ (text' : Str) (pos' : Nat) (w : σ), text'.drop pos' = (text.drop pos).drop n → Fails (make (rules g) b) w (text', pos') (k.message ((text.drop pos).drop n)) w) →
      Fails (Parser.andThen (make (rules g) a) (make (rules g) b)) w (text, pos) ((k.after n).message (text.drop pos)) w := by
    intro a b text pos w t n k h1 h2
    rw [after_message]
    exact andThen_fail_iff.2 (.inr ⟨t, _, w, succeeds_of_parses w h1, h2 text (pos + n) w (by rw [List.drop_drop])⟩)
  induction h with
  | fail => intro text pos w _; rfl
  | char h =>
    rintro text pos w rfl
    refine map_fail_iff.2 (pchar_fails w (by rw [← head_drop]; exact h) _ _ ?_)
    simp
  | text h1 h2 =>
    rename_i p c q s
    rintro text pos w rfl
    refine map_fail_iff.2 (pstring_fail p c q text pos w w _ h1 (pchar_fails w ?_ _ _ ?_))
    · rw [← head_drop, ← List.drop_drop]; exact h2
    · simp
  | seqFirst _ ih => intro text pos w hs; exact map_fail_iff.2 (andThen_fail_iff.2 (.inl (ih text pos w hs)))
  | seqSecond h1 _ ih => rintro text pos w rfl; exact map_fail_iff.2 (andThen2 h1 ih)
  | leftFirst _ ih => intro text pos w hs; exact map_fail_iff.2 (andThen_fail_iff.2 (.inl (ih text pos w hs)))
  | leftSecond h1 _ ih => rintro text pos w rfl; exact map_fail_iff.2 (andThen2 h1 ih)
  | rightFirst _ ih => intro text pos w hs; exact map_fail_iff.2 (andThen_fail_iff.2 (.inl (ih text pos w hs)))
  | rightSecond h1 _ ih => rintro text pos w rfl; exact map_fail_iff.2 (andThen2 h1 ih)
  | alt h1 _ ih =>
    rintro text pos w rfl
    obtain ⟨m, hm⟩ := fails_of_parses w h1
    unfold Fails
    simp only [make]
    rw [orElse_fail hm]
    exact ih text pos w rfl
  | plus _ ih => intro text pos w hs; exact map_fail_iff.2 (many1_fail_iff.2 (ih text pos w hs))
  | sepBy1 _ ih => intro text pos w hs; exact map_fail_iff.2 (sepBy1_fail_iff.2 (ih text pos w hs))
  | betweenOpen _ ih =>
    intro text pos w hs
    exact map_fail_iff.2 (andThen_fail_iff.2 (.inl (map_fail_iff.2 (andThen_fail_iff.2 (.inl (ih text pos w hs))))))
  | betweenBody h1 _ ih =>
    rintro text pos w rfl
    exact map_fail_iff.2 (andThen_fail_iff.2 (.inl (map_fail_iff.2 (andThen2 h1 ih))))
  | betweenClose h1 h2 _ ih =>
    rename_i t n u m k _
    rintro text pos w rfl
    rw [after_message]
    refine map_fail_iff.2 (andThen_fail_iff.2 (.inr ⟨u, (text, pos + n + m), w, ?_, ih text (pos + n + m) w (by rw [List.drop_drop, Nat.add_assoc])⟩))
    exact map_succ_iff.2 ⟨(t, u), w, andThen_succ_iff.2 ⟨_, w, succeeds_of_parses w h1, succeeds_of_parses w (by rw [← List.drop_drop]; exact h2)⟩, rfl⟩
  | act _ ih => intro text pos w hs; exact map_fail_iff.2 (ih text pos w hs)
  | rule _ ih =>
    intro text pos w hs
    refine bind_fail_iff.2 (.inr ⟨(), (text, pos), w, rules g _, w, rfl, rfl, ?_⟩)
    unfold Fails
    rw [rules.eq_1]
    exact ih text pos w hs

theorem stuck_missed {e : Exp N} {s : Str} {k : Complaint} (h : Stuck g e s k) : ∀ c i, k = .expected c i → Missed g e s c i := by
  have aft : ∀ {n : Nat} {k : Complaint} {c i}, k.after n = .expected c i → ∃ j, k = .expected c j ∧ i = n + j := by
    intro n k c i h
    cases k with
    | failed => cases h
    | expected c' j => cases h; exact ⟨j, rfl, rfl⟩
  induction h with
  | fail => intro c i h; cases h
  | char h => intro c i hk; cases hk; exact .char h
  | text h1 h2 => intro c i hk; cases hk; exact .text h1 h2
  | seqFirst _ ih => intro c i hk; exact .seqFirst (ih c i hk)
  | seqSecond h1 _ ih => intro c i hk; obtain ⟨j, h3, rfl⟩ := aft hk; exact .seqSecond h1 (ih c j h3)
  | leftFirst _ ih => intro c i hk; exact .leftFirst (ih c i hk)
  | leftSecond h1 _ ih => intro c i hk; obtain ⟨j, h3, rfl⟩ := aft hk; exact .leftSecond h1 (ih c j h3)
  | rightFirst _ ih => intro c i hk; exact .rightFirst (ih c i hk)
  | rightSecond h1 _ ih => intro c i hk; obtain ⟨j, h3, rfl⟩ := aft hk; exact .rightSecond h1 (ih c j h3)
  | alt h1 _ ih => intro c i hk; exact .altSecond h1 (ih c i hk)
  | plus _ ih => intro c i hk; exact .plus (ih c i hk)
  | sepBy1 _ ih => intro c i hk; exact .sepBy1 (ih c i hk)
  | betweenOpen _ ih => intro c i hk; exact .betweenOpen (ih c i hk)
  | betweenBody h1 _ ih => intro c i hk; obtain ⟨j, h3, rfl⟩ := aft hk; exact .betweenBody h1 (ih c j h3)
  | betweenClose h1 h2 _ ih => intro c i hk; obtain ⟨j, h3, rfl⟩ := aft hk; exact .betweenClose h1 h2 (ih c j h3)
  | act _ ih => intro c i hk; exact .act (ih c i hk)
  | rule _ ih => intro c i hk; exact .rule (ih c i hk)

/-- what was looked for is not there -/
theorem missed_true {e : Exp N} {s : Str} {c : Char} {i : Nat} (h : Missed g e s c i) : s[i]? ≠ some c := by
  induction h with
  | char h => rw [← List.head?_eq_getElem?]; exact h
  | text h1 h2 => rw [List.head?_drop] at h2; exact h2
  | betweenClose _ _ _ ih => rw [List.getElem?_drop] at ih; exact ih
  | _ =>
    rename_i ih
    first
      | exact ih
      | (rw [List.getElem?_drop] at ih; exact ih)

/-- a straight expression misses nothing before its complaint -/
theorem straight_missed (hg : ∀ n, Straight (g n)) {e : Exp N} {s : Str} {c : Char} {i : Nat} (h : Missed g e s c i) :
    Straight e → Stuck g e s (.expected c i) := by
  induction h with
  | char h => exact fun _ => .char h
  | text h1 h2 => exact fun _ => .text h1 h2
  | seqFirst _ ih => exact fun h => .seqFirst (ih h.1)
  | seqSecond h1 _ ih => exact fun h => .seqSecond h1 (ih h.2)
  | leftFirst _ ih => exact fun h => .leftFirst (ih h.1)
  | leftSecond h1 _ ih => exact fun h => .leftSecond h1 (ih h.2)
  | rightFirst _ ih => exact fun h => .rightFirst (ih h.1)
  | rightSecond h1 _ ih => exact fun h => .rightSecond h1 (ih h.2)
  | betweenOpen _ ih => exact fun h => .betweenOpen (ih h.1)
  | betweenBody h1 _ ih => exact fun h => .betweenBody h1 (ih h.2.2)
  | betweenClose h1 h2 _ ih => exact fun h => .betweenClose h1 h2 (ih h.2.1)
  | act _ ih => exact fun h => .act (ih h)
  | rule _ ih => exact fun _ => .rule (ih (hg _))
  | _ => intro h; cases h

theorem common {p q p' r s : Str} {c : Char} (hx : p ++ c :: q = p' ++ r) (hl : p.length < p'.length) (h : p' <+: s) :
    (s.drop p.length).head? = some c := by
  obtain ⟨u, rfl⟩ := h
  have h1 : (p ++ c :: q)[p.length]? = some c := by simp
  rw [hx, List.getElem?_append_left hl] at h1
  rw [List.head?_drop, List.getElem?_append_left hl, h1]

theorem stuck_det {e : Exp N} {s : Str} {k k' : Complaint} (h : Stuck g e s k) (h' : Stuck g e s k') : k = k' := by
  have no : ∀ {e : Exp N} {s : Str} {k : Complaint} {t : Tree} {n : Nat}, Stuck g e s k → Parses g e s (some (t, n)) → False :=
    fun h1 h2 => by cases parses_det (parses_of_stuck h1) h2
  have same : ∀ {e : Exp N} {s : Str} {t t' : Tree} {n n' : Nat}, Parses g e s (some (t, n)) → Parses g e s (some (t', n')) → n = n' :=
    fun h1 h2 => by cases parses_det h1 h2; rfl
  induction h generalizing k' with
  | fail => cases h'; rfl
  | char h => cases h'; rfl
  | text h1 h2 =>
    rename_i p c q s
    generalize hx : p ++ c :: q = x at h'
    cases h' with
    | text h3 h4 =>
      rename_i p' c' q'
      rcases Nat.lt_trichotomy p.length p'.length with hl | hl | hl
      · exact (h2 (common hx hl h3)).elim
      · have := List.append_inj hx hl
        cases this.2
        cases this.1
        rfl
      · exact (h4 (common hx.symm hl h1)).elim
  | seqFirst h1 ih => cases h' with
    | seqFirst h => exact ih h
    | seqSecond h _ => exact (no h1 h).elim
  | seqSecond h1 _ ih => cases h' with
    | seqFirst h => exact (no h h1).elim
    | seqSecond h2 h3 => cases same h1 h2; rw [ih h3]
  | leftFirst h1 ih => cases h' with
    | leftFirst h => exact ih h
    | leftSecond h _ => exact (no h1 h).elim
  | leftSecond h1 _ ih => cases h' with
    | leftFirst h => exact (no h h1).elim
    | leftSecond h2 h3 => cases same h1 h2; rw [ih h3]
  | rightFirst h1 ih => cases h' with
    | rightFirst h => exact ih h
    | rightSecond h _ => exact (no h1 h).elim
  | rightSecond h1 _ ih => cases h' with
    | rightFirst h => exact (no h h1).elim
    | rightSecond h2 h3 => cases same h1 h2; rw [ih h3]
  | alt _ _ ih => cases h' with | alt _ h => exact ih h
  | plus _ ih => cases h' with | plus h => exact ih h
  | sepBy1 _ ih => cases h' with | sepBy1 h => exact ih h
  | betweenOpen h1 ih => cases h' with
    | betweenOpen h => exact ih h
    | betweenBody h _ => exact (no h1 h).elim
    | betweenClose h _ _ => exact (no h1 h).elim
  | betweenBody h1 h2 ih => cases h' with
    | betweenOpen h => exact (no h h1).elim
    | betweenBody h3 h4 => cases same h1 h3; rw [ih h4]
    | betweenClose h3 h4 _ => cases same h1 h3; exact (no h2 h4).elim
  | betweenClose h1 h2 _ ih => cases h' with
    | betweenOpen h => exact (no h h1).elim
    | betweenBody h3 h4 => cases same h1 h3; exact (no h4 h2).elim
    | betweenClose h3 h4 h5 => cases same h1 h3; cases same h2 h4; rw [ih h5]
  | act _ ih => cases h' with | act h => exact ih h
  | rule _ ih => cases h' with | rule h => exact ih h

end Expression.Lemmas.ParserError
