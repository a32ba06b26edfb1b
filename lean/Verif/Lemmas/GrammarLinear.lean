import Verif.Lemmas.GrammarCost
import Verif.Lemmas.GrammarEnds

/-! What parsing costs where the next character decides. -/

namespace Expression.Lemmas.GrammarLinear

open Expression Expression.Grammar Spec Spec.Grammar Lemmas.Grammar Lemmas.GrammarCost

variable {N : Type} {g : N → Exp N}

/-- What a reading of `s` cost that consumed `o` characters (`none`: it did not match).  It began nothing, and cost at most `A`; or the text began with
one of `B`, and it consumed something and cost at most `G` and `K` for each other character consumed; or it did so for what is left of the text, but then
nothing that is in `F` comes next. -/
def Cost (K A G : Nat) (B F : Char → Prop) (s : Str) (o : Option Nat) (k : Nat) : Prop :=
  (o = none ∨ o = some 0) ∧ k ≤ A ∨
  (∃ c, s.head? = some c ∧ B c) ∧
    ((∃ n, 1 ≤ n ∧ o = some n ∧ k ≤ K * (n - 1) + G) ∨
      (k ≤ K * (s.length - 1) + G ∧ ∀ n, o = some n → ∃ d, (s.drop n).head? = some d ∧ ¬ F d))

theorem Cost.weaken {K A G A' G' : Nat} {B B' F F' : Char → Prop} {s : Str} {o : Option Nat} {k k' e : Nat} (h : Cost K A G B F s o k)
    (hk : k' ≤ k + e) (hA : A + e ≤ A') (hG : G + e ≤ G') (hB : ∀ c, B c → B' c) (hF : ∀ c, F' c → F c) : Cost K A' G' B' F' s o k' := by
  rcases h with ⟨h1, h2⟩ | ⟨⟨c, h1, h2⟩, ⟨n, h3, h4, h5⟩ | ⟨h3, h4⟩⟩
  · exact .inl ⟨h1, by omega⟩
  · exact .inr ⟨⟨c, h1, hB c h2⟩, .inl ⟨n, h3, h4, by omega⟩⟩
  · exact .inr ⟨⟨c, h1, hB c h2⟩, .inr ⟨by omega, fun n hn => (h4 n hn).imp fun d hd => ⟨hd.1, fun h => hd.2 (hF d h)⟩⟩⟩

/-- where the text does not begin with one of `B`, nothing was begun -/
theorem Cost.quiet {K A G : Nat} {B F : Char → Prop} {s : Str} {o : Option Nat} {k : Nat} (h : Cost K A G B F s o k)
    (hs : ∀ c, s.head? = some c → ¬ B c) : (o = none ∨ o = some 0) ∧ k ≤ A := by
  rcases h with h | ⟨⟨c, h1, h2⟩, _⟩
  · exact h
  · exact absurd h2 (hs c h1)

theorem mul_more (K : Nat) {n m : Nat} (hn : 1 ≤ n) (hm : 1 ≤ m) : K * (n + m - 1) = K * (n - 1) + K * (m - 1) + K := by
  obtain ⟨n, rfl⟩ := Nat.exists_eq_add_of_le' hn
  obtain ⟨m, rfl⟩ := Nat.exists_eq_add_of_le' hm
  rw [show n + 1 + (m + 1) - 1 = n + m + 1 by omega, show n + 1 - 1 = n by omega, show m + 1 - 1 = m by omega, Nat.mul_add, Nat.mul_add]
  omega

theorem head_length {s : Str} {c : Char} (h : s.head? = some c) : 1 ≤ s.length := by
  cases s
  · cases h
  · simp

theorem drop_length {s : Str} {n : Nat} {c : Char} (h : (s.drop n).head? = some c) : n + 1 ≤ s.length := by
  have := head_length h
  simp at this
  omega

/-- one after the other -/
theorem Cost.seq {K A1 G1 A2 G2 A G : Nat} {B1 B2 B F : Char → Prop} {nul1 nul2 : Prop} {s : Str} {n : Nat} {o : Option Nat} {i j k : Nat}
    (h1 : Cost K A1 G1 B1 (fun c => B2 c ∨ nul2 ∧ F c) s (some n) i) (h2 : Cost K A2 G2 B2 F (s.drop n) o j)
    (hl : n ≤ s.length) (hk : k ≤ i + j + 1) (e1 : n = 0 → nul1) (e2 : o = some 0 → nul2)
    (hB : ∀ c, B1 c ∨ nul1 ∧ B2 c → B c) (hA : nul1 → A1 + A2 + 1 ≤ A) (hG : G1 + A2 + 1 ≤ G) (hG' : nul1 → A1 + G2 + 1 ≤ G) (hK : G2 ≤ K) :
    Cost K A G B F s (o.map (n + ·)) k := by
  rcases h1 with ⟨h0, hi⟩ | ⟨⟨c, hc, hb⟩, ⟨n', hn, he, hi⟩ | ⟨hi, hd⟩⟩
  · -- the first consumed nothing
    obtain rfl : n = 0 := by simpa using h0
    have hn := e1 rfl
    have := hA hn
    have := hG' hn
    simp only [List.drop_zero, Nat.zero_add, Option.map_id'] at h2 ⊢
    exact h2.weaken (e := A1 + 1) (by omega) (by omega) (by omega) (fun c h => hB c (.inr ⟨hn, h⟩)) (fun _ h => h)
  · -- it consumed something
    obtain rfl : n = n' := by simpa using he
    refine .inr ⟨⟨c, hc, hB c (.inl hb)⟩, ?_⟩
    rcases h2 with ⟨h0, hj⟩ | ⟨⟨d, hd, _⟩, ⟨m, hm, rfl, hj⟩ | ⟨hj, hf⟩⟩
    · rcases h0 with rfl | rfl
      · refine .inr ⟨?_, by simp⟩
        have := Nat.mul_le_mul_left K (show n - 1 ≤ s.length - 1 by omega)
        omega
      · exact .inl ⟨n, hn, by simp, by omega⟩
    · refine .inl ⟨n + m, by omega, by simp, ?_⟩
      rw [mul_more K hn hm]
      omega
    · refine .inr ⟨?_, ?_⟩
      · have h5 := drop_length hd
        have h6 := mul_more K hn (m := s.length - n) (by omega)
        rw [show n + (s.length - n) - 1 = s.length - 1 by omega] at h6
        simp only [List.length_drop] at hj
        omega
      · intro m hm
        rcases o with _ | m'
        · cases hm
        · cases hm
          obtain ⟨d, h7, h8⟩ := hf m' rfl
          rw [List.drop_drop] at h7
          exact ⟨d, h7, h8⟩
  · -- it did not go on: the second begins nothing
    obtain ⟨d, hd, hnd⟩ := hd n rfl
    obtain ⟨h0, hj⟩ := h2.quiet (fun c h hb => by rw [hd] at h; cases h; exact hnd (.inl hb))
    refine .inr ⟨⟨c, hc, hB c (.inl hb)⟩, .inr ⟨by omega, ?_⟩⟩
    rcases h0 with rfl | rfl
    · simp
    · intro m hm
      obtain rfl : n = m := by simpa using hm
      exact ⟨d, hd, fun h => hnd (.inr ⟨e2 rfl, h⟩)⟩

/-- the second where the first does not match -/
theorem Cost.alt {K A1 G1 A2 G2 A G : Nat} {B1 B2 B F : Char → Prop} {nul2 : Prop} {s : Str} {o : Option Nat} {i j k : Nat}
    (h1 : Cost K A1 G1 B1 F s none i) (h2 : Cost K A2 G2 B2 F s o j) (hk : k ≤ i + j + 1) (e2 : o = some 0 → nul2)
    (hd : ∀ c, B1 c → ¬ (B2 c ∨ nul2 ∧ F c)) (hB : ∀ c, B1 c ∨ B2 c → B c)
    (hA : A1 + A2 + 1 ≤ A) (hG : G1 + A2 + 1 ≤ G) (hG' : A1 + G2 + 1 ≤ G) : Cost K A G B F s o k := by
  rcases h1 with ⟨_, hi⟩ | ⟨⟨c, hc, hb⟩, ⟨n', _, he, _⟩ | ⟨hi, _⟩⟩
  · exact h2.weaken (e := A1 + 1) (by omega) (by omega) (by omega) (fun c h => hB c (.inr h)) (fun _ h => h)
  · cases he
  · obtain ⟨h0, hj⟩ := h2.quiet (fun d h hb' => by rw [hc] at h; cases h; exact hd c hb (.inl hb'))
    refine .inr ⟨⟨c, hc, hB c (.inl hb)⟩, .inr ⟨by omega, ?_⟩⟩
    rcases h0 with rfl | rfl
    · simp
    · intro m hm
      obtain rfl : 0 = m := by simpa using hm
      exact ⟨c, hc, fun h => hd c hb (.inr ⟨e2 rfl, h⟩)⟩

/-- a repetition ends -/
theorem Cost.loopEnd {K A G : Nat} {B F : Char → Prop} {s : Str} {i : Nat} (h : Cost K A G B (fun c => B c ∨ F c) s none i)
    (hd : ∀ c, B c → ¬ F c) : Cost K A (G + A) B F s (some 0) i := by
  rcases h with ⟨_, hi⟩ | ⟨⟨c, hc, hb⟩, ⟨n', _, he, _⟩ | ⟨hi, _⟩⟩
  · exact .inl ⟨.inr rfl, hi⟩
  · cases he
  · refine .inr ⟨⟨c, hc, hb⟩, .inr ⟨by omega, ?_⟩⟩
    rintro m hm
    obtain rfl : 0 = m := by simpa using hm
    exact ⟨c, hc, hd c hb⟩

/-- a repetition goes on -/
theorem Cost.loopMore {K A G : Nat} {B F : Char → Prop} {s : Str} {n m i j : Nat} (h : Cost K A G B (fun c => B c ∨ F c) s (some n) i)
    (h2 : Cost K A (G + A) B F (s.drop n) (some m) j) (hn : n ≠ 0) (hK : G ≤ K) : Cost K A (G + A) B F s (some (n + m)) (i + j) := by
  rcases h with ⟨h0, hi⟩ | ⟨hc, ⟨n', hn1, he, hi⟩ | ⟨hi, hd⟩⟩
  · exact absurd (by simpa using h0) hn
  · obtain rfl : n = n' := by simpa using he
    refine .inr ⟨hc, ?_⟩
    rcases h2 with ⟨h0, hj⟩ | ⟨⟨d, hd, _⟩, ⟨m', hm, he', hj⟩ | ⟨hj, hf⟩⟩
    · obtain rfl : m = 0 := by simpa using h0
      exact .inl ⟨n, hn1, rfl, by omega⟩
    · obtain rfl : m = m' := by simpa using he'
      refine .inl ⟨n + m, by omega, rfl, ?_⟩
      rw [mul_more K hn1 hm]
      omega
    · refine .inr ⟨?_, ?_⟩
      · have h5 := drop_length hd
        have h6 := mul_more K hn1 (m := s.length - n) (by omega)
        rw [show n + (s.length - n) - 1 = s.length - 1 by omega] at h6
        simp only [List.length_drop] at hj
        omega
      · intro m' hm
        cases hm
        obtain ⟨d, h7, h8⟩ := hf m rfl
        rw [List.drop_drop] at h7
        exact ⟨d, h7, h8⟩
  · obtain ⟨d, hd, hnd⟩ := hd n rfl
    obtain ⟨h0, hj⟩ := h2.quiet (fun c h hb => by rw [hd] at h; cases h; exact hnd (.inl hb))
    obtain rfl : m = 0 := by simpa using h0
    refine .inr ⟨hc, .inr ⟨by omega, ?_⟩⟩
    intro m hm
    cases hm
    exact ⟨d, hd, fun h => hnd (.inr h)⟩

theorem Cost.seqNot {K A1 G1 A G : Nat} {B1 B F F1 : Char → Prop} {s : Str} {i k : Nat} (h : Cost K A1 G1 B1 F1 s none i) (hk : k ≤ i + 1)
    (hA : A1 + 1 ≤ A) (hG : G1 + 1 ≤ G) (hB : ∀ c, B1 c → B c) : Cost K A G B F s none k := by
  rcases h with ⟨h1, h2⟩ | ⟨⟨c, h1, h2⟩, ⟨n, h3, h4, h5⟩ | ⟨h3, h4⟩⟩
  · exact .inl ⟨h1, by omega⟩
  · cases h4
  · exact .inr ⟨⟨c, h1, hB c h2⟩, .inr ⟨by omega, by simp⟩⟩

/-! ### the constants -/

open Classical in
/-- `x`, if `e` may match without consuming anything -/
noncomputable def ifEmpty (g : N → Exp N) (e : Exp N) (x : Nat) : Nat := if MayBeEmpty g e then x else 0

theorem ifEmpty_of {e : Exp N} (x : Nat) (h : MayBeEmpty g e) : ifEmpty g e x = x := if_pos h

theorem ifEmpty_congr {e : Exp N} {x y : Nat} (h : MayBeEmpty g e → x = y) : ifEmpty g e x = ifEmpty g e y := by
  unfold ifEmpty
  split
  · exact h ‹_›
  · rfl

/-- what an expression may cost that begins nothing, given this for the rules -/
noncomputable def costA (g : N → Exp N) (A : N → Nat) : Exp N → Nat
  | .empty | .fail | .char _ => 1
  | .text x => x.length + 1
  | .seq a b | .left a b | .right a b => costA g A a + ifEmpty g a (costA g A b) + 1
  | .alt a b => costA g A a + costA g A b + 1
  | .opt a | .act _ a | .star a => costA g A a + 1
  | .plus a => costA g A a + costA g A a + 1
  | .sepBy1 a sep | .sepBy a sep => costA g A a + ifEmpty g a (costA g A sep + ifEmpty g sep (costA g A a) + 1) + 1
  | .between x y a => costA g A x + ifEmpty g x (costA g A a + ifEmpty g a (costA g A y) + 1) + 1
  | .rule n => A n

/-- ... and what it may cost for the first character that it consumes -/
noncomputable def costG (g : N → Exp N) (A G : N → Nat) : Exp N → Nat
  | .empty | .fail => 0
  | .char _ => 1
  | .text x => x.length + 1
  | .seq a b | .left a b | .right a b => costG g A G a + costA g A b + 1 + ifEmpty g a (costA g A a + costG g A G b)
  | .alt a b => costG g A G a + costA g A b + 1 + (costA g A a + costG g A G b)
  | .act _ a => costG g A G a + 1
  | .opt a | .star a => costG g A G a + costA g A a + 1
  | .plus a => costG g A G a + costA g A a + 1 + (costA g A a + (costG g A G a + costA g A a))
  | .sepBy1 a sep | .sepBy a sep =>
    let turnA := costA g A sep + ifEmpty g sep (costA g A a) + 1
    costG g A G a + turnA + 1 + costA g A a +
      ifEmpty g a (costA g A a + (costG g A G sep + costA g A a + 1 + ifEmpty g sep (costA g A sep + costG g A G a) + turnA))
  | .between x y a =>
    costG g A G x + (costA g A a + ifEmpty g a (costA g A y) + 1) + 1 +
      ifEmpty g x (costA g A x + (costG g A G a + costA g A y + 1 + ifEmpty g a (costA g A a + costG g A G y)))
  | .rule n => G n

/-- ... and enough for each other character -/
noncomputable def costK (g : N → Exp N) (A G : N → Nat) : Exp N → Nat
  | .empty | .fail | .char _ | .text _ => 0
  | .seq a b | .left a b | .right a b | .alt a b => costG g A G a + costG g A G b + costK g A G a + costK g A G b
  | .opt a | .act _ a => costK g A G a
  | .star a | .plus a => costG g A G a + costA g A a + costK g A G a
  | .sepBy1 a sep | .sepBy a sep =>
    costG g A G a + costK g A G a + costK g A G sep +
      (costG g A G sep + costA g A a + 1 + ifEmpty g sep (costA g A sep + costG g A G a) + (costA g A sep + ifEmpty g sep (costA g A a) + 1))
  | .between x y a =>
    costK g A G x + costK g A G y + costK g A G a + costG g A G y +
      (costG g A G a + costA g A y + 1 + ifEmpty g a (costA g A a + costG g A G y))
  | .rule _ => 0

theorem costA_congr {A A' : N → Nat} {e : Exp N} (h : ∀ m, MayStartWith g m e → A m = A' m) : costA g A e = costA g A' e := by
  induction e with
  | empty | fail | char | text => rfl
  | seq a b ha hb =>
    simp only [costA]
    rw [ha fun m hm => h m (.seqFirst hm), ifEmpty_congr fun he => hb fun m hm => h m (.seqSecond he hm)]
  | left a b ha hb =>
    simp only [costA]
    rw [ha fun m hm => h m (.leftFirst hm), ifEmpty_congr fun he => hb fun m hm => h m (.leftSecond he hm)]
  | right a b ha hb =>
    simp only [costA]
    rw [ha fun m hm => h m (.rightFirst hm), ifEmpty_congr fun he => hb fun m hm => h m (.rightSecond he hm)]
  | alt a b ha hb =>
    simp only [costA]
    rw [ha fun m hm => h m (.altFirst hm), hb fun m hm => h m (.altSecond hm)]
  | opt a ha => simp only [costA]; rw [ha fun m hm => h m (.opt hm)]
  | act f a ha => simp only [costA]; rw [ha fun m hm => h m (.act hm)]
  | star a ha => simp only [costA]; rw [ha fun m hm => h m (.star hm)]
  | plus a ha => simp only [costA]; rw [ha fun m hm => h m (.plus hm)]
  | sepBy1 a sep ha hs =>
    have h1 := ha fun m hm => h m (.sepBy1First hm)
    simp only [costA]
    rw [h1, ifEmpty_congr fun he => by rw [hs fun m hm => h m (.sepBy1Sep he hm)]]
  | sepBy a sep ha hs =>
    have h1 := ha fun m hm => h m (.sepByFirst hm)
    simp only [costA]
    rw [h1, ifEmpty_congr fun he => by rw [hs fun m hm => h m (.sepBySep he hm)]]
  | between x y a hx hy ha =>
    simp only [costA]
    rw [hx fun m hm => h m (.betweenOpen hm), ifEmpty_congr fun he => by
      rw [ha fun m hm => h m (.betweenBody he hm), ifEmpty_congr fun he' => hy fun m hm => h m (.betweenClose he he' hm)]]
  | rule n => exact h n .rule

theorem costG_congr {A G G' : N → Nat} {e : Exp N} (h : ∀ m, MayStartWith g m e → G m = G' m) : costG g A G e = costG g A G' e := by
  induction e with
  | empty | fail | char | text => rfl
  | seq a b ha hb =>
    simp only [costG]
    rw [ha fun m hm => h m (.seqFirst hm), ifEmpty_congr fun he => by rw [hb fun m hm => h m (.seqSecond he hm)]]
  | left a b ha hb =>
    simp only [costG]
    rw [ha fun m hm => h m (.leftFirst hm), ifEmpty_congr fun he => by rw [hb fun m hm => h m (.leftSecond he hm)]]
  | right a b ha hb =>
    simp only [costG]
    rw [ha fun m hm => h m (.rightFirst hm), ifEmpty_congr fun he => by rw [hb fun m hm => h m (.rightSecond he hm)]]
  | alt a b ha hb =>
    simp only [costG]
    rw [ha fun m hm => h m (.altFirst hm), hb fun m hm => h m (.altSecond hm)]
  | opt a ha => simp only [costG]; rw [ha fun m hm => h m (.opt hm)]
  | act f a ha => simp only [costG]; rw [ha fun m hm => h m (.act hm)]
  | star a ha => simp only [costG]; rw [ha fun m hm => h m (.star hm)]
  | plus a ha => simp only [costG]; rw [ha fun m hm => h m (.plus hm)]
  | sepBy1 a sep ha hs =>
    have h1 := ha fun m hm => h m (.sepBy1First hm)
    simp only [costG]
    rw [h1]
    exact congrArg _ (ifEmpty_congr fun he => by rw [hs fun m hm => h m (.sepBy1Sep he hm)])
  | sepBy a sep ha hs =>
    have h1 := ha fun m hm => h m (.sepByFirst hm)
    simp only [costG]
    rw [h1]
    exact congrArg _ (ifEmpty_congr fun he => by rw [hs fun m hm => h m (.sepBySep he hm)])
  | between x y a hx hy ha =>
    simp only [costG]
    rw [hx fun m hm => h m (.betweenOpen hm)]
    refine congrArg _ (ifEmpty_congr fun he => ?_)
    rw [ha fun m hm => h m (.betweenBody he hm), ifEmpty_congr fun he' => by rw [hy fun m hm => h m (.betweenClose he he' hm)]]
  | rule n => exact h n .rule

open Classical in
/-- no rule starts with itself: there are such constants for the rules -/
theorem constants (wf : WellFounded fun m n => MayStartWith g m (g n)) (f : (N → Nat) → Exp N → Nat)
    (hf : ∀ {A A' : N → Nat} {e : Exp N}, (∀ m, MayStartWith g m e → A m = A' m) → f A e = f A' e) : ∃ A : N → Nat, ∀ n, A n = f A (g n) + 1 := by
  refine ⟨wf.fix fun n rec => f (fun m => if h : MayStartWith g m (g n) then rec m h else 0) (g n) + 1, fun n => ?_⟩
  rw [wf.fix_eq]
  congr 1
  exact hf fun m hm => dif_pos hm

/-! ### all together -/

theorem takes_parses {e : Job N} {s : Str} {o : Option (Tree × Nat)} {k : Nat} (h : Takes g e s o k) :
    match e with
    | .exp e => Parses g e s o
    | .loop a => Parses g (.star a) s o
    | .sepLoop a sep => Parses g (.star (.right sep a)) s o := by
  induction h with
  | empty => exact .empty
  | fail => exact .fail
  | char h => exact .char h
  | charNot h => exact .charNot h
  | text h => exact .text h
  | textNot h => exact .textNot h
  | seq _ _ h1 h2 => exact .seq h1 h2
  | seqFirst _ h => exact .seqFirst h
  | seqSecond _ _ h1 h2 => exact .seqSecond h1 h2
  | left _ _ h1 h2 => exact .left h1 h2
  | leftFirst _ h => exact .leftFirst h
  | leftSecond _ _ h1 h2 => exact .leftSecond h1 h2
  | right _ _ h1 h2 => exact .right h1 h2
  | rightFirst _ h => exact .rightFirst h
  | rightSecond _ _ h1 h2 => exact .rightSecond h1 h2
  | altFirst _ h => exact .altFirst h
  | altSecond _ _ h1 h2 => exact .altSecond h1 h2
  | opt _ h => exact .opt h
  | optNot _ h => exact .optNot h
  | star _ h => exact h
  | plus _ _ h1 h2 => exact .plus h1 h2
  | plusNot _ h => exact .plusNot h
  | sepBy1 _ _ h1 h2 => exact .sepBy1 h1 h2
  | sepBy1Not _ h => exact .sepBy1Not h
  | sepBy _ _ h1 h2 => exact .sepBy h1 h2
  | sepByNot _ h => exact .sepByNot h
  | between _ _ _ h1 h2 h3 => exact .between h1 h2 h3
  | betweenOpen _ h => exact .betweenOpen h
  | betweenBody _ _ h1 h2 => exact .betweenBody h1 h2
  | betweenClose _ _ _ h1 h2 h3 => exact .betweenClose h1 h2 h3
  | act _ h => exact .act h
  | actNot _ h => exact .actNot h
  | rule _ h => exact .rule h
  | loopEnd _ h => exact .starEnd h
  | loopMore _ _ h1 h2 => exact .starMore h1 h2
  | sepEnd _ h => exact .starEnd (.rightFirst h)
  | sepTrailing _ _ h1 h2 => exact .starEnd (.rightSecond h1 h2)
  | sepMore _ _ _ h1 h2 h3 => exact .starMore (.right h1 h2) h3

theorem takes_empty {e : Exp N} {s : Str} {t : Tree} {n k : Nat} (h : Takes g (.exp e) s (some (t, n)) k) (hn : n = 0) : MayBeEmpty g e :=
  parses_empty (takes_parses h) t (by rw [hn])

/-- the next character decides, in an expression or in what is left of a repetition or list -/
def JobDecides (g : N → Exp N) (follow : N → Char → Prop) (F : Char → Prop) : Job N → Prop
  | .exp e => Decides g follow e F
  | .loop a => Decides g follow a (fun c => MayBegin g c a ∨ F c) ∧ ∀ c, MayBegin g c a → ¬ F c
  | .sepLoop a sep => Decides g follow a (fun c => MayBegin g c (.right sep a) ∨ F c) ∧
    Decides g follow sep (Ahead g a fun c => MayBegin g c (.right sep a) ∨ F c) ∧ ∀ c, MayBegin g c (.right sep a) → ¬ F c

def JobK (g : N → Exp N) (A G : N → Nat) (K : Nat) : Job N → Prop
  | .exp e => costK g A G e ≤ K
  | .loop a => costK g A G a ≤ K ∧ costG g A G a ≤ K
  | .sepLoop a sep => costK g A G a ≤ K ∧ costK g A G sep ≤ K ∧ costG g A G a ≤ K ∧ costG g A G (.right sep a) ≤ K

def JobCost (g : N → Exp N) (A G : N → Nat) (K : Nat) (F : Char → Prop) (s : Str) (o : Option Nat) (k : Nat) : Job N → Prop
  | .exp e => Cost K (costA g A e) (costG g A G e) (MayBegin g · e) F s o k
  | .loop a => Cost K (costA g A a) (costG g A G a + costA g A a) (MayBegin g · a) F s o k
  | .sepLoop a sep => Cost K (costA g A (.right sep a)) (costG g A G (.right sep a) + costA g A (.right sep a)) (MayBegin g · (.right sep a)) F s o k

theorem costs {A G : N → Nat} {K : Nat} {follow : N → Char → Prop} (hA : ∀ n, A n = costA g A (g n) + 1) (hG : ∀ n, G n = costG g A G (g n) + 1)
    (hK : ∀ n, costK g A G (g n) ≤ K) (hf : ∀ n, Decides g follow (g n) (follow n)) {e : Job N} {s : Str} {o : Option (Tree × Nat)} {k : Nat}
    (h : Takes g e s o k) : ∀ F, JobDecides g follow F e → JobK g A G K e → JobCost g A G K F s (o.map Prod.snd) k e := by
  induction h with
  | empty => intro F hd hk; exact .inl ⟨.inr rfl, Nat.le_refl _⟩
  | fail => intro F hd hk; exact .inl ⟨.inl rfl, Nat.le_refl _⟩
  | char h => intro F hd hk; exact .inr ⟨⟨_, h, .char⟩, .inl ⟨1, Nat.le_refl _, rfl, by simp [costG]⟩⟩
  | charNot h => intro F hd hk; exact .inl ⟨.inl rfl, Nat.le_refl _⟩
  | @text x s h =>
    intro F hd hk
    have := looked_le x s
    cases x with
    | nil => exact .inl ⟨.inr rfl, by simp [costA, looked]⟩
    | cons c x =>
      obtain ⟨t, rfl⟩ := h
      exact .inr ⟨⟨c, rfl, .text⟩, .inl ⟨_, by simp, rfl, by simp only [costG]; omega⟩⟩
  | @textNot x s h =>
    intro F hd hk
    have := looked_le x s
    exact .inl ⟨.inl rfl, by simp only [costA]; omega⟩
  | seq h1 h2 ha hb =>
    intro F hd hk
    simp only [JobK, costK] at hk
    refine (ha _ hd.1 (by simp only [JobK]; omega)).seq (hb F hd.2 (by simp only [JobK]; omega)) (takes_le h1 _ _ rfl) (Nat.le_refl _) (takes_empty h1)
      (fun h => takes_empty h2 (by simpa using h)) (fun c h => h.elim .seqFirst fun h => .seqSecond h.1 h.2) ?_ ?_ ?_ (by omega)
    all_goals first | (intro h; simp only [costA, costG, ifEmpty_of _ h]; omega) | (simp only [costG]; omega)
  | seqFirst h1 ha =>
    intro F hd hk
    simp only [JobK, costK] at hk
    exact (ha _ hd.1 (by simp only [JobK]; omega)).seqNot (Nat.le_refl _) (by simp only [costA]; omega) (by simp only [costG]; omega) (fun c => .seqFirst)
  | seqSecond h1 h2 ha hb =>
    intro F hd hk
    simp only [JobK, costK] at hk
    refine (ha _ hd.1 (by simp only [JobK]; omega)).seq (hb F hd.2 (by simp only [JobK]; omega)) (takes_le h1 _ _ rfl) (Nat.le_refl _) (takes_empty h1)
      (fun h => by cases h) (fun c h => h.elim .seqFirst fun h => .seqSecond h.1 h.2) ?_ ?_ ?_ (by omega)
    all_goals first | (intro h; simp only [costA, costG, ifEmpty_of _ h]; omega) | (simp only [costG]; omega)
  | left h1 h2 ha hb =>
    intro F hd hk
    simp only [JobK, costK] at hk
    refine (ha _ hd.1 (by simp only [JobK]; omega)).seq (hb F hd.2 (by simp only [JobK]; omega)) (takes_le h1 _ _ rfl) (Nat.le_refl _) (takes_empty h1)
      (fun h => takes_empty h2 (by simpa using h)) (fun c h => h.elim .leftFirst fun h => .leftSecond h.1 h.2) ?_ ?_ ?_ (by omega)
    all_goals first | (intro h; simp only [costA, costG, ifEmpty_of _ h]; omega) | (simp only [costG]; omega)
  | leftFirst h1 ha =>
    intro F hd hk
    simp only [JobK, costK] at hk
    exact (ha _ hd.1 (by simp only [JobK]; omega)).seqNot (Nat.le_refl _) (by simp only [costA]; omega) (by simp only [costG]; omega) (fun c => .leftFirst)
  | leftSecond h1 h2 ha hb =>
    intro F hd hk
    simp only [JobK, costK] at hk
    refine (ha _ hd.1 (by simp only [JobK]; omega)).seq (hb F hd.2 (by simp only [JobK]; omega)) (takes_le h1 _ _ rfl) (Nat.le_refl _) (takes_empty h1)
      (fun h => by cases h) (fun c h => h.elim .leftFirst fun h => .leftSecond h.1 h.2) ?_ ?_ ?_ (by omega)
    all_goals first | (intro h; simp only [costA, costG, ifEmpty_of _ h]; omega) | (simp only [costG]; omega)
  | right h1 h2 ha hb =>
    intro F hd hk
    simp only [JobK, costK] at hk
    refine (ha _ hd.1 (by simp only [JobK]; omega)).seq (hb F hd.2 (by simp only [JobK]; omega)) (takes_le h1 _ _ rfl) (Nat.le_refl _) (takes_empty h1)
      (fun h => takes_empty h2 (by simpa using h)) (fun c h => h.elim .rightFirst fun h => .rightSecond h.1 h.2) ?_ ?_ ?_ (by omega)
    all_goals first | (intro h; simp only [costA, costG, ifEmpty_of _ h]; omega) | (simp only [costG]; omega)
  | rightFirst h1 ha =>
    intro F hd hk
    simp only [JobK, costK] at hk
    exact (ha _ hd.1 (by simp only [JobK]; omega)).seqNot (Nat.le_refl _) (by simp only [costA]; omega) (by simp only [costG]; omega) (fun c => .rightFirst)
  | rightSecond h1 h2 ha hb =>
    intro F hd hk
    simp only [JobK, costK] at hk
    refine (ha _ hd.1 (by simp only [JobK]; omega)).seq (hb F hd.2 (by simp only [JobK]; omega)) (takes_le h1 _ _ rfl) (Nat.le_refl _) (takes_empty h1)
      (fun h => by cases h) (fun c h => h.elim .rightFirst fun h => .rightSecond h.1 h.2) ?_ ?_ ?_ (by omega)
    all_goals first | (intro h; simp only [costA, costG, ifEmpty_of _ h]; omega) | (simp only [costG]; omega)
  | altFirst h1 ha =>
    intro F hd hk
    simp only [JobK, costK] at hk
    exact (ha F hd.1 (by simp only [JobK]; omega)).weaken (e := 1) (Nat.le_refl _) (by simp only [costA]; omega) (by simp only [costG]; omega)
      (fun c => .altFirst) (fun _ h => h)
  | altSecond h1 h2 ha hb =>
    intro F hd hk
    simp only [JobK, costK] at hk
    refine (ha F hd.1 (by simp only [JobK]; omega)).alt (hb F hd.2.1 (by simp only [JobK]; omega)) (Nat.le_refl _)
      (fun h => ?_) hd.2.2 (fun c h => h.elim .altFirst .altSecond) (by simp only [costA]; omega) (by simp only [costG]; omega) (by simp only [costG]; omega)
    obtain ⟨⟨t, n⟩, rfl, hn⟩ := Option.map_eq_some_iff.1 h
    exact takes_empty h2 hn
  | opt h1 ha =>
    intro F hd hk
    exact (ha F hd.1 hk).weaken (e := 1) (Nat.le_refl _) (Nat.le_refl _) (by simp only [costG]; omega) (fun c => .opt) (fun _ h => h)
  | @optNot a s i h1 ha =>
    intro F hd hk
    have h2 : Cost K 0 0 (fun _ => False) F s (some 0) 0 := .inl ⟨.inr rfl, Nat.le_refl _⟩
    exact (ha F hd.1 hk).alt (nul2 := True) h2 (Nat.le_refl _) (fun _ => trivial) (fun c hc h => h.elim id fun h => hd.2 c hc h.2)
      (fun c h => h.elim .opt False.elim) (Nat.le_refl _) (by simp only [costG]; omega) (by simp only [costG]; omega)
  | act h1 ha =>
    intro F hd hk
    exact (ha F hd hk).weaken (e := 1) (Nat.le_refl _) (Nat.le_refl _) (Nat.le_refl _) (fun c => .act) (fun _ h => h)
  | actNot h1 ha =>
    intro F hd hk
    exact (ha F hd hk).weaken (e := 1) (Nat.le_refl _) (Nat.le_refl _) (Nat.le_refl _) (fun c => .act) (fun _ h => h)
  | @rule n s o i h1 ha =>
    intro F hd hk
    exact (ha (follow n) (hf n) (hK n)).weaken (e := 1) (Nat.le_refl _) (by simp only [costA, hA n]; omega) (by simp only [costG, hG n]; omega)
      (fun c => .rule) hd
  | star h1 ha =>
    intro F hd hk
    simp only [JobK, costK] at hk
    exact (ha F hd (by simp only [JobK]; omega)).weaken (e := 1) (Nat.le_refl _) (Nat.le_refl _) (Nat.le_refl _) (fun c => .star) (fun _ h => h)
  | loopEnd h1 ha =>
    intro F hd hk
    exact (ha _ hd.1 hk.1).loopEnd hd.2
  | @loopMore a s t m ts l i j h1 h2 ha hb =>
    intro F hd hk
    refine (ha _ hd.1 hk.1).loopMore (hb F hd hk) ?_ hk.2
    rintro rfl
    have := takes_det (h1.loopMore h2) h2
    have := takes_pos h1
    omega
  | plus h1 h2 ha hb =>
    intro F hd hk
    simp only [JobK, costK] at hk
    have h3 := (ha _ hd.1 (by simp only [JobK]; omega)).weaken (e := 0) (Nat.le_refl _) (Nat.le_refl _) (Nat.le_refl _) (fun _ h => h)
      (F' := fun c => MayBegin g c _ ∨ True ∧ F c) (fun c h => h.imp id And.right)
    refine h3.seq (hb F hd (by simp only [JobK]; omega)) (takes_le h1 _ _ rfl) (Nat.le_refl _) (takes_empty h1)
      (fun _ => trivial) (fun c h => h.elim .plus fun h => .plus h.2) (fun _ => ?_) ?_ (fun _ => ?_) (by omega)
    all_goals simp only [costA, costG]; omega
  | plusNot h1 ha =>
    intro F hd hk
    simp only [JobK, costK] at hk
    exact (ha _ hd.1 (by simp only [JobK]; omega)).seqNot (Nat.le_refl _) (by simp only [costA]; omega) (by simp only [costG]; omega) (fun c => .plus)
  | sepBy1 h1 h2 ha hb =>
    intro F hd hk
    simp only [JobK, costK] at hk
    have h3 := (ha _ hd.1 (by simp only [JobK]; omega)).weaken (e := 0) (Nat.le_refl _) (Nat.le_refl _) (Nat.le_refl _) (fun _ h => h)
      (F' := fun c => MayBegin g c (.right _ _) ∨ True ∧ F c) (fun c h => h.imp id And.right)
    refine h3.seq (hb F hd (by simp only [JobK, costG]; omega)) (takes_le h1 _ _ rfl) (Nat.le_refl _) (takes_empty h1)
      (fun _ => trivial) ?_ (fun h => ?_) ?_ (fun h => ?_) (by simp only [costG, costA]; omega)
    · rintro c (h | ⟨h, h'⟩)
      · exact .sepBy1First h
      · cases h' with
        | rightFirst h' => exact .sepBy1Sep h h'
        | rightSecond _ h' => exact .sepBy1First h'
    · simp only [costA, ifEmpty_of _ h]; omega
    · simp only [costA, costG]; omega
    · simp only [costA, costG, ifEmpty_of _ h]; omega
  | sepBy h1 h2 ha hb =>
    intro F hd hk
    simp only [JobK, costK] at hk
    have h3 := (ha _ hd.1 (by simp only [JobK]; omega)).weaken (e := 0) (Nat.le_refl _) (Nat.le_refl _) (Nat.le_refl _) (fun _ h => h)
      (F' := fun c => MayBegin g c (.right _ _) ∨ True ∧ F c) (fun c h => h.imp id And.right)
    refine h3.seq (hb F ⟨hd.1, hd.2.1, hd.2.2.1⟩ (by simp only [JobK, costG]; omega)) (takes_le h1 _ _ rfl) (Nat.le_refl _) (takes_empty h1)
      (fun _ => trivial) ?_ (fun h => ?_) ?_ (fun h => ?_) (by simp only [costG, costA]; omega)
    · rintro c (h | ⟨h, h'⟩)
      · exact .sepByFirst h
      · cases h' with
        | rightFirst h' => exact .sepBySep h h'
        | rightSecond _ h' => exact .sepByFirst h'
    · simp only [costA, ifEmpty_of _ h]; omega
    · simp only [costA, costG]; omega
    · simp only [costA, costG, ifEmpty_of _ h]; omega
  | sepBy1Not h1 ha =>
    intro F hd hk
    simp only [JobK, costK] at hk
    exact (ha _ hd.1 (by simp only [JobK]; omega)).seqNot (Nat.le_refl _) (by simp only [costA]; omega) (by simp only [costG]; omega) (fun c => .sepBy1First)
  | @sepByNot a sep s i h1 ha =>
    intro F hd hk
    simp only [JobK, costK] at hk
    have h3 := (ha _ hd.1 (by simp only [JobK]; omega)).weaken (e := 0) (Nat.le_refl _) (Nat.le_refl _) (Nat.le_refl _) (fun _ h => h)
      (F' := F) (fun c => .inr)
    have h2 : Cost K 0 0 (fun _ => False) F s (some 0) 0 := .inl ⟨.inr rfl, Nat.le_refl _⟩
    exact h3.alt (nul2 := True) h2 (Nat.le_refl _) (fun _ => trivial) (fun c hc h => h.elim id fun h => hd.2.2.2 c hc h.2)
      (fun c h => h.elim .sepByFirst False.elim) (by simp only [costA]; omega) (by simp only [costG]; omega) (by simp only [costG]; omega)
  | @sepEnd a sep s i h1 ha =>
    intro F hd hk
    have h2 : Cost K _ _ _ (fun c => MayBegin g c (.right sep a) ∨ F c) _ none _ := (ha _ hd.2.1 hk.2.1).seqNot
      (A := costA g A (.right sep a)) (G := costG g A G (.right sep a)) (B := (MayBegin g · (.right sep a))) (Nat.le_succ _)
      (by simp only [costA]; omega) (by simp only [costG]; omega) (fun c => .rightFirst)
    exact h2.loopEnd hd.2.2
  | @sepTrailing a sep s t m i j h1 h2 ha hb =>
    intro F hd hk
    have h3 := (ha _ hd.2.1 hk.2.1).seq (hb _ hd.1 hk.1) (takes_le h1 _ _ rfl) (Nat.le_succ _) (takes_empty h1) (fun h => by cases h)
      (A := costA g A (.right sep a)) (G := costG g A G (.right sep a)) (B := (MayBegin g · (.right sep a)))
      (fun c h => h.elim .rightFirst fun h => .rightSecond h.1 h.2) (fun h => by simp only [costA, ifEmpty_of _ h]; omega)
      (by simp only [costG]; omega) (fun h => by simp only [costG, ifEmpty_of _ h]; omega) hk.2.2.1
    exact h3.loopEnd hd.2.2
  | @sepMore a sep s t m u m' ts l i j k h1 h2 h3 ha hb hc =>
    intro F hd hk
    have h4 := (ha _ hd.2.1 hk.2.1).seq (hb _ hd.1 hk.1) (takes_le h1 _ _ rfl) (Nat.le_succ _) (takes_empty h1)
      (fun h => takes_empty h2 (by simpa using h))
      (A := costA g A (.right sep a)) (G := costG g A G (.right sep a)) (B := (MayBegin g · (.right sep a)))
      (fun c h => h.elim .rightFirst fun h => .rightSecond h.1 h.2) (fun h => by simp only [costA, ifEmpty_of _ h]; omega)
      (by simp only [costG]; omega) (fun h => by simp only [costG, ifEmpty_of _ h]; omega) hk.2.2.1
    refine h4.loopMore (hc F hd hk) ?_ hk.2.2.2
    intro h0
    change m + m' = 0 at h0
    have := takes_det (h1.sepMore h2 h3) (by rw [h0] at h3; exact h3)
    have := takes_pos h1
    omega
  | @between x y a s t n u m v k i j l h1 h2 h3 hx ha hy =>
    intro F hd hk
    simp only [JobK, costK] at hk
    have h4 : Cost K (costA g A (.right a y)) (costG g A G (.right a y)) (MayBegin g · (.right a y)) F (s.drop n) (some (m + k)) (j + l) := by
      have h5 := hy F hd.2.2 (by simp only [JobK]; omega)
      rw [← List.drop_drop] at h5
      exact (ha _ hd.2.1 (by simp only [JobK]; omega)).seq h5 (takes_le h2 _ _ rfl) (Nat.le_succ _) (takes_empty h2)
        (fun h => takes_empty h3 (by simpa using h)) (fun c h => h.elim .rightFirst fun h => .rightSecond h.1 h.2)
        (fun h => by simp only [costA, ifEmpty_of _ h]; omega) (by simp only [costG]; omega) (fun h => by simp only [costG, ifEmpty_of _ h]; omega) (by omega)
    have h6 := (hx _ hd.1 (by simp only [JobK]; omega)).weaken (e := 0) (Nat.le_refl _) (Nat.le_refl _) (Nat.le_refl _) (fun _ h => h)
      (F' := fun c => MayBegin g c (.right a y) ∨ (MayBeEmpty g a ∧ MayBeEmpty g y) ∧ F c) (by
        rintro c (h | ⟨⟨h, h'⟩, h''⟩)
        · cases h with
          | rightFirst h => exact .inl h
          | rightSecond h h' => exact .inr ⟨h, .inl h'⟩
        · exact .inr ⟨h, .inr ⟨h', h''⟩⟩)
    have h7 := h6.seq h4 (takes_le h1 _ _ rfl) (Nat.le_refl _) (takes_empty h1) (fun h => ⟨takes_empty h2 (by simp at h; omega), takes_empty h3 (by simp at h; omega)⟩)
      (A := costA g A (.between x y a)) (G := costG g A G (.between x y a)) (B := (MayBegin g · (.between x y a))) (by
        rintro c (h | ⟨h, h'⟩)
        · exact .betweenOpen h
        · cases h' with
          | rightFirst h' => exact .betweenBody h h'
          | rightSecond h' h'' => exact .betweenClose h h' h'')
      (fun h => by simp only [costA, ifEmpty_of _ h]; omega) (by simp only [costG, costA]; omega) (fun h => by simp only [costG, ifEmpty_of _ h]; omega)
      (by simp only [costG]; omega)
    rw [show i + j + l + 1 = i + (j + l) + 1 by omega]
    simpa [JobCost, Nat.add_assoc] using h7
  | betweenOpen h1 hx =>
    intro F hd hk
    simp only [JobK, costK] at hk
    exact (hx _ hd.1 (by simp only [JobK]; omega)).seqNot (Nat.le_refl _) (by simp only [costA]; omega) (by simp only [costG]; omega) (fun c => .betweenOpen)
  | @betweenBody x y a s t n i j h1 h2 hx ha =>
    intro F hd hk
    simp only [JobK, costK] at hk
    have h4 : Cost K (costA g A (.right a y)) (costG g A G (.right a y)) (MayBegin g · (.right a y)) F (s.drop n) none j :=
      (ha _ hd.2.1 (by simp only [JobK]; omega)).seqNot (Nat.le_succ _) (by simp only [costA]; omega) (by simp only [costG]; omega) (fun c => .rightFirst)
    have h6 := (hx _ hd.1 (by simp only [JobK]; omega)).weaken (e := 0) (Nat.le_refl _) (Nat.le_refl _) (Nat.le_refl _) (fun _ h => h)
      (F' := fun c => MayBegin g c (.right a y) ∨ (MayBeEmpty g a ∧ MayBeEmpty g y) ∧ F c) (by
        rintro c (h | ⟨⟨h, h'⟩, h''⟩)
        · cases h with
          | rightFirst h => exact .inl h
          | rightSecond h h' => exact .inr ⟨h, .inl h'⟩
        · exact .inr ⟨h, .inr ⟨h', h''⟩⟩)
    have h7 := h6.seq h4 (takes_le h1 _ _ rfl) (Nat.le_refl _) (takes_empty h1) (fun h => by cases h)
      (A := costA g A (.between x y a)) (G := costG g A G (.between x y a)) (B := (MayBegin g · (.between x y a))) (by
        rintro c (h | ⟨h, h'⟩)
        · exact .betweenOpen h
        · cases h' with
          | rightFirst h' => exact .betweenBody h h'
          | rightSecond h' h'' => exact .betweenClose h h' h'')
      (fun h => by simp only [costA, ifEmpty_of _ h]; omega) (by simp only [costG, costA]; omega) (fun h => by simp only [costG, ifEmpty_of _ h]; omega)
      (by simp only [costG]; omega)
    exact h7
  | @betweenClose x y a s t n u m i j l h1 h2 h3 hx ha hy =>
    intro F hd hk
    simp only [JobK, costK] at hk
    have h4 : Cost K (costA g A (.right a y)) (costG g A G (.right a y)) (MayBegin g · (.right a y)) F (s.drop n) none (j + l) := by
      have h5 := hy F hd.2.2 (by simp only [JobK]; omega)
      rw [← List.drop_drop] at h5
      exact (ha _ hd.2.1 (by simp only [JobK]; omega)).seq h5 (takes_le h2 _ _ rfl) (Nat.le_succ _) (takes_empty h2)
        (fun h => by cases h) (fun c h => h.elim .rightFirst fun h => .rightSecond h.1 h.2)
        (fun h => by simp only [costA, ifEmpty_of _ h]; omega) (by simp only [costG]; omega) (fun h => by simp only [costG, ifEmpty_of _ h]; omega) (by omega)
    have h6 := (hx _ hd.1 (by simp only [JobK]; omega)).weaken (e := 0) (Nat.le_refl _) (Nat.le_refl _) (Nat.le_refl _) (fun _ h => h)
      (F' := fun c => MayBegin g c (.right a y) ∨ (MayBeEmpty g a ∧ MayBeEmpty g y) ∧ F c) (by
        rintro c (h | ⟨⟨h, h'⟩, h''⟩)
        · cases h with
          | rightFirst h => exact .inl h
          | rightSecond h h' => exact .inr ⟨h, .inl h'⟩
        · exact .inr ⟨h, .inr ⟨h', h''⟩⟩)
    have h7 := h6.seq h4 (takes_le h1 _ _ rfl) (Nat.le_refl _) (takes_empty h1) (fun h => by cases h)
      (A := costA g A (.between x y a)) (G := costG g A G (.between x y a)) (B := (MayBegin g · (.between x y a))) (by
        rintro c (h | ⟨h, h'⟩)
        · exact .betweenOpen h
        · cases h' with
          | rightFirst h' => exact .betweenBody h h'
          | rightSecond h' h'' => exact .betweenClose h h' h'')
      (fun h => by simp only [costA, ifEmpty_of _ h]; omega) (by simp only [costG, costA]; omega) (fun h => by simp only [costG, ifEmpty_of _ h]; omega)
      (by simp only [costG]; omega)
    rw [show i + j + l + 1 = i + (j + l) + 1 by omega]
    exact h7

/-- The number of runs is linear, with constants that depend on the grammar and the expression only. -/
theorem linear (names : List N) (hn : ∀ n, n ∈ names) (wf : WellFounded fun m n => MayStartWith g m (g n)) (e : Exp N) (h : Predictive g e) :
    ∃ c, ∀ s o k, Takes g (.exp e) s o k → k ≤ c * (s.length + 1) := by
  obtain ⟨follow, hf, he⟩ := h
  obtain ⟨A, hA⟩ := constants wf (costA g) (fun h => costA_congr h)
  obtain ⟨G, hG⟩ := constants wf (costG g A) (fun h => costG_congr h)
  obtain ⟨K, hK⟩ : ∃ K, ∀ n, costK g A G (g n) ≤ K := by
    refine ⟨(names.map fun n => costK g A G (g n)).sum, fun n => ?_⟩
    have := hn n
    generalize names = l at this
    induction this with
    | head => simp
    | tail _ _ ih => simp only [List.map_cons, List.sum_cons]; omega
  obtain ⟨L, hL⟩ : ∃ L, L = K + costK g A G e := ⟨_, rfl⟩
  refine ⟨L + costA g A e + costG g A G e, fun s o k ht => ?_⟩
  have hc := costs hA hG (fun n => Nat.le_trans (hK n) (by omega : K ≤ L)) hf ht _ he (by simp only [JobK]; omega)
  have h1 : ∀ n, n ≤ s.length → L * n + (costA g A e + costG g A G e) ≤ (L + costA g A e + costG g A G e) * (s.length + 1) := by
    intro n hn
    have h2 := Nat.mul_le_mul_left L (show n ≤ s.length + 1 by omega)
    have h3 : costA g A e + costG g A G e ≤ (costA g A e + costG g A G e) * (s.length + 1) := Nat.le_mul_of_pos_right _ (Nat.succ_pos _)
    rw [show L + costA g A e + costG g A G e = L + (costA g A e + costG g A G e) by omega, Nat.add_mul]
    omega
  rcases hc with ⟨_, h⟩ | ⟨_, ⟨n, hn, ho, h⟩ | ⟨h, _⟩⟩
  · have := h1 0 (Nat.zero_le _)
    omega
  · obtain ⟨⟨t, m⟩, rfl, rfl⟩ := Option.map_eq_some_iff.1 ho
    have := h1 (m - 1) (by have := takes_le ht _ _ rfl; omega)
    simp only at h
    omega
  · have := h1 (s.length - 1) (by omega)
    omega

end Expression.Lemmas.GrammarLinear
