import Verif.Lemmas.Parser

/-! # Parsers: positions, termination, characters, numbers -/

namespace Expression.Lemmas.Parser

open Expression Expression.Parser PyD Spec Expression.Lemmas

variable {σ ρ α β γ δ : Type}

/-! ## positions -/

/-- the text stays and the position moves forward inside it -/
def Safe (p : Parser σ α) : Prop := ∀ w t i v rest w', i ≤ t.length → Succeeds p w (t, i) v rest w' →
  rest.1 = t ∧ i ≤ rest.2 ∧ rest.2 ≤ t.length

theorem Safe.trans {p : Parser σ α} {q : Parser σ β} (hp : Safe p) (hq : Safe q) {w t i v mid w1 w2 b rest w'} (hi : i ≤ t.length)
    (h1 : Succeeds p w (t, i) v mid w1) (h2 : Succeeds q w2 mid b rest w') : rest.1 = t ∧ i ≤ rest.2 ∧ rest.2 ≤ t.length := by
  obtain ⟨rfl, h3, h4⟩ := hp _ _ _ _ _ _ hi h1
  obtain ⟨h5, h6, h7⟩ := hq _ _ _ _ _ _ h4 h2
  exact ⟨h5, by omega, h7⟩

theorem safe_pchar (c : Str) : Safe (pchar c : Parser σ Str) := by
  intro w t i v rest w' _ h
  unfold Succeeds pchar at h
  simp only at h
  cases h' : t[i]? with
  | none => rw [h'] at h; cases h
  | some d =>
    rw [h'] at h
    simp only at h
    have := List.getElem?_eq_some_iff.1 h'
    obtain ⟨hlt, _⟩ := this
    split at h
    · cases h; exact ⟨rfl, by simp only; omega, by simp only; omega⟩
    · cases h

theorem safe_preturn (x : α) : Safe (preturn x : Parser σ α) := by
  intro w t i v rest w' hi h
  obtain ⟨_, rfl, _⟩ := preturn_succ_iff.1 h
  exact ⟨rfl, Nat.le_refl _, hi⟩

theorem safe_fail (e : String) : Safe (fail e : Parser σ α) := by
  intro w t i v rest w' hi h; cases h

theorem safe_bind (f : α → PyD σ (Parser σ β)) (p : Parser σ α) (hp : Safe p)
    (hf : ∀ a w q w', (f a).exec w = some (.ok q, w') → Safe q) : Safe (Parser.bind f p) := by
  intro w t i v rest w' hi h
  obtain ⟨a, mid, w1, q, w2, h1, h2, h3⟩ := bind_succ_iff.1 h
  exact hp.trans (hf _ _ _ _ h2) hi h1 h3

theorem safe_map (f : α → PyD σ β) (p : Parser σ α) (hp : Safe p) : Safe (Parser.map f p) := by
  intro w t i v rest w' hi h
  obtain ⟨a, w1, h1, _⟩ := map_succ_iff.1 h
  exact hp _ _ _ _ _ _ hi h1

theorem safe_andThen (p : Parser σ α) (q : Parser σ β) (hp : Safe p) (hq : Safe q) : Safe (andThen p q) := by
  intro w t i v rest w' hi h
  obtain ⟨mid, w1, h1, h2⟩ := andThen_succ_iff.1 h
  exact hp.trans hq hi h1 h2

theorem safe_orElse (p q : Parser σ α) (hp : Safe p) (hq : Safe q) : Safe (orElse p q) := by
  intro w t i v rest w' hi h
  rcases orElse_inv h with ⟨_, _, _, h2⟩ | ⟨v', rest', w1, h1, h2⟩ | ⟨e, w1, _, h2⟩
  · cases h2
  · cases h2; exact hp _ _ _ _ _ _ hi h1
  · exact hq _ _ _ _ _ _ hi h2

theorem safe_repeats {p : Parser σ α} (hp : Safe p) {w inp vs rest w'} (h : Repeats p w inp vs rest w') (hi : inp.2 ≤ inp.1.length) :
    rest.1 = inp.1 ∧ inp.2 ≤ rest.2 ∧ rest.2 ≤ inp.1.length := by
  induction h with
  | stop _ => exact ⟨rfl, Nat.le_refl _, hi⟩
  | more h1 _ ih =>
    obtain ⟨h2, h3, h4⟩ := hp _ _ _ _ _ _ hi h1
    rw [h2] at ih
    obtain ⟨h5, h6, h7⟩ := ih h4
    exact ⟨h5, by omega, h7⟩

theorem safe_many (p : Parser σ α) (hp : Safe p) : Safe (many p) := by
  intro w t i v rest w' hi h
  exact safe_repeats hp (many_succ_iff.1 h) hi

theorem safe_many1 (p : Parser σ α) (hp : Safe p) : Safe (many1 p) := by
  intro w t i v rest w' hi h
  exact safe_repeats hp (many1_succ_iff.1 h).2 hi

theorem safe_foldl (p : Parser σ α) (ps : List (Parser σ α)) (hp : Safe p) (h : ∀ q ∈ ps, Safe q) : Safe (ps.foldl orElse p) := by
  induction ps generalizing p with
  | nil => exact hp
  | cons q ps ih =>
    exact ih _ (safe_orElse _ _ hp (h q (by simp))) (fun r hr => h r (List.mem_cons_of_mem _ hr))

theorem safe_choice (ps : List (Parser σ α)) (h : ∀ p ∈ ps, Safe p) (w w' : ρ) (q : Parser σ α)
    (hq : (choice ⟨ps⟩).exec w = (.ok q, w')) : Safe q := by
  cases ps with
  | nil => rw [choice_nil] at hq; cases hq
  | cons p ps =>
    rw [choice_cons] at hq
    cases hq
    exact safe_foldl p ps (h p (by simp)) (fun r hr => h r (List.mem_cons_of_mem _ hr))

theorem safe_anyOf (s : Str) (w w' : ρ) (q : Parser σ Str) (hq : (anyOf s).exec w = (.ok q, w')) : Safe q := by
  refine safe_choice _ ?_ w w' q hq
  intro p hp
  obtain ⟨c, _, rfl⟩ := List.mem_map.1 hp
  exact safe_pchar _

theorem safe_const_anyOf (s : Str) : Safe (const (anyOf s) : Parser σ Str) := by
  unfold const
  rcases h : (anyOf s : Py Unit (Parser σ Str)).exec () with ⟨e | q, w'⟩
  · intro w t i v rest w' _ h; cases h
  · exact safe_anyOf s _ _ _ h

theorem safe_apply (f : Parser σ (α → PyD σ β)) (p : Parser σ α) (hf : Safe f) (hp : Safe p) : Safe (apply f p) :=
  safe_map _ _ (safe_andThen _ _ hf hp)

theorem safe_lift2 (f : α → PyD σ (β → PyD σ γ)) (p : Parser σ α) (q : Parser σ β) (hp : Safe p) (hq : Safe q) : Safe (lift2 f p q) :=
  safe_apply _ _ (safe_apply _ _ (safe_preturn _) hp) hq

theorem safe_sequence (ps : List (Parser σ α)) (h : ∀ p ∈ ps, Safe p) : Safe (sequence ps) := by
  induction ps with
  | nil => exact safe_preturn _
  | cons p ps ih => exact safe_lift2 _ _ _ (h p (by simp)) (ih (fun r hr => h r (List.mem_cons_of_mem _ hr)))

theorem safe_pstring (s : Str) : Safe (pstring s : Parser σ Str) := by
  refine safe_map _ _ (safe_sequence _ ?_)
  intro p hp
  obtain ⟨c, _, rfl⟩ := List.mem_map.1 hp
  exact safe_pchar _

theorem safe_opt (p : Parser σ α) (hp : Safe p) : Safe (opt p) := safe_orElse _ _ (safe_map _ _ hp) (safe_preturn _)

theorem safe_thenIgnore (p : Parser σ α) (q : Parser σ β) (hp : Safe p) (hq : Safe q) : Safe (thenIgnore p q) :=
  safe_map _ _ (safe_andThen _ _ hp hq)

theorem safe_ignoreThen (p : Parser σ α) (q : Parser σ β) (hp : Safe p) (hq : Safe q) : Safe (ignoreThen p q) :=
  safe_map _ _ (safe_andThen _ _ hp hq)

theorem safe_sepBy1 (p : Parser σ α) (sep : Parser σ β) (hp : Safe p) (hs : Safe sep) : Safe (sepBy1 p sep) :=
  safe_map _ _ (safe_andThen _ _ hp (safe_many _ (safe_ignoreThen _ _ hs hp)))

theorem safe_digits : Safe (digits : Parser σ (Block Str)) := safe_many1 _ (safe_const_anyOf _)

theorem safe_built {p : Parser σ α} (h : Built p) : Safe p := by
  induction h with
  | pchar c => exact safe_pchar c
  | preturn x => exact safe_preturn x
  | fail e => exact safe_fail e
  | pstring s => exact safe_pstring s
  | pint => exact safe_map _ _ (safe_andThen _ _ (safe_opt _ (safe_pchar _)) safe_digits)
  | pfloat float neg =>
    exact safe_map _ _ (safe_andThen _ _ (safe_andThen _ _ (safe_opt _ (safe_pchar _)) safe_digits)
      (safe_opt _ (safe_ignoreThen _ _ (safe_pchar _) safe_digits)))
  | digit => exact safe_const_anyOf _
  | digits => exact safe_digits
  | whitespace => exact safe_many1 _ (safe_const_anyOf _)
  | anyOf s w w' q h => exact safe_anyOf s w w' q h
  | choice ps w w' q _ h ih => exact safe_choice ps ih w w' q h
  | andThen p q _ _ h1 h2 => exact safe_andThen p q h1 h2
  | thenIgnore p q _ _ h1 h2 => exact safe_thenIgnore p q h1 h2
  | ignoreThen p q _ _ h1 h2 => exact safe_ignoreThen p q h1 h2
  | orElse p q _ _ h1 h2 => exact safe_orElse p q h1 h2
  | map f p _ h => exact safe_map f p h
  | starmap f p _ h => exact safe_map _ p h
  | apply f p _ _ h1 h2 => exact safe_apply f p h1 h2
  | lift2 f p q _ _ h1 h2 => exact safe_lift2 f p q h1 h2
  | sequence ps _ ih => exact safe_sequence ps ih
  | many p _ h => exact safe_many p h
  | many1 p _ h => exact safe_many1 p h
  | sepBy1 p sep _ _ h1 h2 => exact safe_sepBy1 p sep h1 h2
  | sepBy p sep _ _ h1 h2 => exact safe_orElse _ _ (safe_sepBy1 p sep h1 h2) (safe_preturn _)
  | opt p _ h => exact safe_opt p h
  | ignore p _ h => exact safe_map _ p h
  | between p q r _ _ _ h1 h2 h3 => exact safe_thenIgnore _ _ (safe_ignoreThen _ _ h1 h3) h2
  | bind f p _ _ h1 h2 => exact safe_bind f p h1 h2

/-! ## termination of repetition -/

theorem zero_ends (p : Parser σ α) (hp : Safe p) (t : Str) (hend : ∀ w i, i ≤ t.length → Ends p w (t, i))
    (hcons : ∀ w i v rest w', Succeeds p w (t, i) v rest w' → rest ≠ (t, i)) (n i : Nat) (hn : t.length - i ≤ n)
    (hi : i ≤ t.length) (w : σ) : (parseZeroOrMore p (t, i)).exec w ≠ none := by
  induction n generalizing i w with
  | zero =>
    rw [zero_eq, exec_bind]
    rcases h : (p (t, i)).exec w with _ | ⟨e | (⟨v, rest⟩ | e), w1⟩
    · exact absurd h (hend w i hi)
    · simp
    · have h' : Succeeds p w (t, i) v rest w1 := h
      obtain ⟨h1, h2, h3⟩ := hp _ _ _ _ _ _ hi h'
      exact absurd (Prod.ext h1 (show rest.2 = i by omega)) (hcons _ _ _ _ _ h')
    · simp [zeroStep]
  | succ n ih =>
    rw [zero_eq, exec_bind]
    rcases h : (p (t, i)).exec w with _ | ⟨e | (⟨v, rest⟩ | e), w1⟩
    · exact absurd h (hend w i hi)
    · simp
    · have h' : Succeeds p w (t, i) v rest w1 := h
      obtain ⟨h1, h2, h3⟩ := hp _ _ _ _ _ _ hi h'
      have h4 : rest.2 ≠ i := fun e => hcons _ _ _ _ _ h' (Prod.ext h1 e)
      have h5 := ih rest.2 (by omega) h3 w1
      have e : rest = (t, rest.2) := Prod.ext h1 rfl
      simp only [zeroStep]
      rw [exec_bind]
      rw [← e] at h5
      rcases hz : (parseZeroOrMore p rest).exec w1 with _ | ⟨_ | _, _⟩
      · exact absurd hz h5
      · simp
      · simp
    · simp [zeroStep]

/-! ## characters -/

theorem anyOf_foldl {c : Char} {cs : List Char} {t : Str} {i : Nat} {w w' : σ} {v : Str} {rest : Remaining} :
    Succeeds ((cs.map (fun c => pchar [c])).foldl orElse (pchar [c])) w (t, i) v rest w' ↔
      ∃ d, t[i]? = some d ∧ d ∈ c :: cs ∧ v = [d] ∧ rest = (t, i + 1) ∧ w' = w := by
  induction cs generalizing c with
  | nil =>
    rw [List.map_nil, List.foldl_nil, pchar_succ_iff]
    constructor
    · rintro ⟨h1, h2⟩; exact ⟨c, h1, by simp, h2⟩
    · rintro ⟨d, h1, h2, h3⟩
      obtain rfl : d = c := by simpa using h2
      exact ⟨h1, h3⟩
  | cons c2 cs ih =>
    rw [List.map_cons, List.foldl_cons, foldl_orElse]
    constructor
    · intro h
      rcases orElse_inv h with ⟨_, _, _, h2⟩ | ⟨v', rest', w1, h1, h2⟩ | ⟨e, w1, h1, h2⟩
      · cases h2
      · cases h2
        obtain ⟨h1, h2⟩ := pchar_succ_iff.1 h1
        exact ⟨c, h1, by simp, h2⟩
      · have : w1 = w := by
          by_cases hc : t[i]? = some c
          · have := (pchar_succ_iff (w := w)).2 ⟨hc, rfl, rfl, rfl⟩
            unfold Fails at h1
            rw [this] at h1; cases h1
          · obtain ⟨e', h'⟩ := pchar_fail w hc
            unfold Fails at h1 h'
            rw [h'] at h1; cases h1; rfl
        subst this
        obtain ⟨d, h3, h4, h5⟩ := ih.1 h2
        exact ⟨d, h3, List.mem_cons_of_mem _ h4, h5⟩
    · rintro ⟨d, h1, h2, h3⟩
      by_cases hc : t[i]? = some c
      · obtain rfl : d = c := by rw [h1] at hc; exact Option.some.inj hc
        exact orElse_succ (pchar_succ_iff.2 ⟨h1, h3⟩)
      · obtain ⟨e', h'⟩ := pchar_fail w hc
        have hd : d ∈ c2 :: cs := by
          rcases List.mem_cons.1 h2 with rfl | h
          · exact absurd h1 hc
          · exact h
        unfold Succeeds
        rw [orElse_fail h']
        exact ih.2 ⟨d, h1, hd, h3⟩

theorem anyOf_foldl_fail {c : Char} {cs : List Char} {t : Str} {i : Nat} (w : σ) (h : ∀ d, t[i]? = some d → d ∉ c :: cs) :
    ∃ e, Fails ((cs.map (fun c => pchar [c])).foldl orElse (pchar [c])) w (t, i) e w := by
  induction cs generalizing c with
  | nil =>
    exact pchar_fail w (fun h' => h c h' (by simp))
  | cons c2 cs ih =>
    obtain ⟨e, h1⟩ := pchar_fail (σ := σ) (c := c) w (fun h' => h c h' (by simp))
    obtain ⟨e2, h2⟩ := ih (c := c2) (fun d hd hm => h d hd (List.mem_cons_of_mem _ hm))
    refine ⟨e2, ?_⟩
    rw [List.map_cons, List.foldl_cons, foldl_orElse]
    unfold Fails
    rw [orElse_fail h1]; exact h2

theorem parseDigit_eq : (parseDigit : Parser σ Str) =
    ((['1', '2', '3', '4', '5', '6', '7', '8', '9']).map (fun c => pchar [c])).foldl orElse (pchar ['0']) := by
  have h : (anyOf stringDigits : Py Unit (Parser σ Str)).exec () = _ := choice_cons _ _ ()
  unfold parseDigit const
  rw [h]

theorem mem_digits (d : Char) : d ∈ ['0', '1', '2', '3', '4', '5', '6', '7', '8', '9'] ↔ d.isDigit = true := by
  constructor
  · intro h
    simp only [List.mem_cons, List.not_mem_nil, or_false] at h
    rcases h with rfl | rfl | rfl | rfl | rfl | rfl | rfl | rfl | rfl | rfl <;> rfl
  · intro h
    have h' : 48 ≤ d.toNat ∧ d.toNat ≤ 57 := by
      simp only [Char.isDigit, Bool.and_eq_true, decide_eq_true_eq] at h
      exact ⟨UInt32.le_iff_toNat_le.1 h.1, UInt32.le_iff_toNat_le.1 h.2⟩
    have : d = Char.ofNat d.toNat := (Char.ofNat_toNat d).symm
    rw [this]
    have : d.toNat = 48 ∨ d.toNat = 49 ∨ d.toNat = 50 ∨ d.toNat = 51 ∨ d.toNat = 52 ∨ d.toNat = 53 ∨ d.toNat = 54 ∨
      d.toNat = 55 ∨ d.toNat = 56 ∨ d.toNat = 57 := by omega
    rcases this with h | h | h | h | h | h | h | h | h | h <;> rw [h] <;> decide

theorem isDigit_iff (c : Char) : c.isDigit = true ↔ 48 ≤ c.toNat ∧ c.toNat ≤ 57 := by
  simp only [Char.isDigit, Bool.and_eq_true, decide_eq_true_eq, ge_iff_le]
  exact and_congr UInt32.le_iff_toNat_le UInt32.le_iff_toNat_le

theorem parseDigit_succ_iff {t : Str} {i : Nat} {w w' : σ} {v : Str} {rest : Remaining} :
    Succeeds parseDigit w (t, i) v rest w' ↔ ∃ d, t[i]? = some d ∧ d.isDigit = true ∧ v = [d] ∧ rest = (t, i + 1) ∧ w' = w := by
  rw [parseDigit_eq, anyOf_foldl]
  exact exists_congr fun d => and_congr_right fun _ => and_congr_left fun _ => mem_digits d

theorem parseDigit_fail {t : Str} {i : Nat} (w : σ) (h : NoDigitAt t i) : ∃ e, Fails parseDigit w (t, i) e w := by
  rw [parseDigit_eq]
  refine anyOf_foldl_fail w ?_
  intro d hd hm
  exact h d hd ((isDigit_iff d).1 ((mem_digits d).1 hm))

/-- the digits that stand at the position -/
theorem repeats_digits (ds after : Str) (hd : ∀ d ∈ ds, d.isDigit = true) (before : Str)
    (hno : NoDigitAt (before ++ ds ++ after) (before.length + ds.length)) (w : σ) :
    Repeats parseDigit w (before ++ ds ++ after, before.length) (ds.map (fun d => [d])) (before ++ ds ++ after, before.length + ds.length) w := by
  induction ds generalizing before with
  | nil =>
    obtain ⟨e, he⟩ := parseDigit_fail w hno
    exact .stop he
  | cons d ds ih =>
    have e : before ++ d :: ds ++ after = (before ++ [d]) ++ ds ++ after := by simp
    refine .more (mid := (before ++ d :: ds ++ after, before.length + 1)) (w1 := w)
      (parseDigit_succ_iff.2 ⟨d, by simp, hd d (by simp), rfl, rfl, rfl⟩) ?_
    have := ih (fun x hx => hd x (List.mem_cons_of_mem _ hx)) (before ++ [d])
      (by rw [← e]; simp only [List.length_append, List.length_cons, List.length_nil] at *; rwa [show before.length + (0 + 1) + ds.length = before.length + (ds.length + 1) by omega])
    rw [← e] at this
    simp only [List.length_append, List.length_cons, List.length_nil] at *
    rwa [show before.length + (0 + 1) + ds.length = before.length + (ds.length + 1) by omega] at this

theorem digits_succ (ds after : Str) (hd : ∀ d ∈ ds, d.isDigit = true) (hne : ds ≠ []) (before : Str)
    (hno : NoDigitAt (before ++ ds ++ after) (before.length + ds.length)) (w : σ) :
    Succeeds digits w (before ++ ds ++ after, before.length) ⟨ds.map (fun d => [d])⟩ (before ++ ds ++ after, before.length + ds.length) w :=
  many1_succ_iff.2 ⟨by simpa using hne, repeats_digits ds after hd before hno w⟩

end Expression.Lemmas.Parser
