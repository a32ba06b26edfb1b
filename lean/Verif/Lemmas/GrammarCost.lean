import Verif.Spec.GrammarCost
import Verif.Lemmas.Grammar

/-! How often the parsers of a grammar are run. -/

namespace Expression.Lemmas.GrammarCost

open Expression Expression.Grammar Spec Spec.Grammar PyD Lemmas.Parser Lemmas.Grammar

variable {σ τ N : Type} {α β γ : Type} {g : N → Exp N}

/-! ### readings with their cost -/

/-- what is read: an expression, or what is left of a repetition or list -/
inductive Job (N : Type) where
  | exp (e : Exp N)
  | loop (a : Exp N)
  | sepLoop (a sep : Exp N)

/-- how many characters of `x` are compared with those of a text -/
def looked : Str → Str → Nat
  | [], _ => 0
  | c :: x, s => if s.head? = some c then looked x s.tail + 1 else 1

/-- `Parses`, with the number of runs -/
inductive Takes (g : N → Exp N) : Job N → Str → Option (Tree × Nat) → Nat → Prop
  | empty {s} : Takes g (.exp .empty) s (some (.unit, 0)) 1
  | fail {s} : Takes g (.exp .fail) s none 1
  | char {c s} : s.head? = some c → Takes g (.exp (.char c)) s (some (.text [c], 1)) 1
  | charNot {c s} : s.head? ≠ some c → Takes g (.exp (.char c)) s none 1
  | text {x s} : x <+: s → Takes g (.exp (.text x)) s (some (.text x, x.length)) (looked x s + 1)
  | textNot {x s} : ¬ x <+: s → Takes g (.exp (.text x)) s none (looked x s + 1)
  | seq {a b s t n u m i j} : Takes g (.exp a) s (some (t, n)) i → Takes g (.exp b) (s.drop n) (some (u, m)) j →
      Takes g (.exp (.seq a b)) s (some (.pair t u, n + m)) (i + j + 1)
  | seqFirst {a b s i} : Takes g (.exp a) s none i → Takes g (.exp (.seq a b)) s none (i + 1)
  | seqSecond {a b s t n i j} : Takes g (.exp a) s (some (t, n)) i → Takes g (.exp b) (s.drop n) none j →
      Takes g (.exp (.seq a b)) s none (i + j + 1)
  | left {a b s t n u m i j} : Takes g (.exp a) s (some (t, n)) i → Takes g (.exp b) (s.drop n) (some (u, m)) j →
      Takes g (.exp (.left a b)) s (some (t, n + m)) (i + j + 1)
  | leftFirst {a b s i} : Takes g (.exp a) s none i → Takes g (.exp (.left a b)) s none (i + 1)
  | leftSecond {a b s t n i j} : Takes g (.exp a) s (some (t, n)) i → Takes g (.exp b) (s.drop n) none j →
      Takes g (.exp (.left a b)) s none (i + j + 1)
  | right {a b s t n u m i j} : Takes g (.exp a) s (some (t, n)) i → Takes g (.exp b) (s.drop n) (some (u, m)) j →
      Takes g (.exp (.right a b)) s (some (u, n + m)) (i + j + 1)
  | rightFirst {a b s i} : Takes g (.exp a) s none i → Takes g (.exp (.right a b)) s none (i + 1)
  | rightSecond {a b s t n i j} : Takes g (.exp a) s (some (t, n)) i → Takes g (.exp b) (s.drop n) none j →
      Takes g (.exp (.right a b)) s none (i + j + 1)
  | altFirst {a b s t n i} : Takes g (.exp a) s (some (t, n)) i → Takes g (.exp (.alt a b)) s (some (t, n)) (i + 1)
  | altSecond {a b s o i j} : Takes g (.exp a) s none i → Takes g (.exp b) s o j → Takes g (.exp (.alt a b)) s o (i + j + 1)
  | opt {a s t n i} : Takes g (.exp a) s (some (t, n)) i → Takes g (.exp (.opt a)) s (some (.some t, n)) (i + 1)
  | optNot {a s i} : Takes g (.exp a) s none i → Takes g (.exp (.opt a)) s (some (.none, 0)) (i + 1)
  | star {a s ts m i} : Takes g (.loop a) s (some (.list ts, m)) i → Takes g (.exp (.star a)) s (some (.list ts, m)) (i + 1)
  | plus {a s t n ts m i j} : Takes g (.exp a) s (some (t, n)) i → Takes g (.loop a) (s.drop n) (some (.list ts, m)) j →
      Takes g (.exp (.plus a)) s (some (.list (t :: ts), n + m)) (i + j + 1)
  | plusNot {a s i} : Takes g (.exp a) s none i → Takes g (.exp (.plus a)) s none (i + 1)
  | sepBy1 {a sep s t n ts m i j} : Takes g (.exp a) s (some (t, n)) i → Takes g (.sepLoop a sep) (s.drop n) (some (.list ts, m)) j →
      Takes g (.exp (.sepBy1 a sep)) s (some (.list (t :: ts), n + m)) (i + j + 1)
  | sepBy1Not {a sep s i} : Takes g (.exp a) s none i → Takes g (.exp (.sepBy1 a sep)) s none (i + 1)
  | sepBy {a sep s t n ts m i j} : Takes g (.exp a) s (some (t, n)) i → Takes g (.sepLoop a sep) (s.drop n) (some (.list ts, m)) j →
      Takes g (.exp (.sepBy a sep)) s (some (.list (t :: ts), n + m)) (i + j + 1)
  | sepByNot {a sep s i} : Takes g (.exp a) s none i → Takes g (.exp (.sepBy a sep)) s (some (.list [], 0)) (i + 1)
  | between {x y a s t n u m v k i j l} : Takes g (.exp x) s (some (t, n)) i → Takes g (.exp a) (s.drop n) (some (u, m)) j →
      Takes g (.exp y) (s.drop (n + m)) (some (v, k)) l → Takes g (.exp (.between x y a)) s (some (u, n + m + k)) (i + j + l + 1)
  | betweenOpen {x y a s i} : Takes g (.exp x) s none i → Takes g (.exp (.between x y a)) s none (i + 1)
  | betweenBody {x y a s t n i j} : Takes g (.exp x) s (some (t, n)) i → Takes g (.exp a) (s.drop n) none j →
      Takes g (.exp (.between x y a)) s none (i + j + 1)
  | betweenClose {x y a s t n u m i j l} : Takes g (.exp x) s (some (t, n)) i → Takes g (.exp a) (s.drop n) (some (u, m)) j →
      Takes g (.exp y) (s.drop (n + m)) none l → Takes g (.exp (.between x y a)) s none (i + j + l + 1)
  | act {f a s t n i} : Takes g (.exp a) s (some (t, n)) i → Takes g (.exp (.act f a)) s (some (f t, n)) (i + 1)
  | actNot {f a s i} : Takes g (.exp a) s none i → Takes g (.exp (.act f a)) s none (i + 1)
  | rule {n s o i} : Takes g (.exp (g n)) s o i → Takes g (.exp (.rule n)) s o (i + 1)
  | loopEnd {a s i} : Takes g (.exp a) s none i → Takes g (.loop a) s (some (.list [], 0)) i
  | loopMore {a s t n ts m i j} : Takes g (.exp a) s (some (t, n)) i → Takes g (.loop a) (s.drop n) (some (.list ts, m)) j →
      Takes g (.loop a) s (some (.list (t :: ts), n + m)) (i + j)
  | sepEnd {a sep s i} : Takes g (.exp sep) s none i → Takes g (.sepLoop a sep) s (some (.list [], 0)) i
  | sepTrailing {a sep s t n i j} : Takes g (.exp sep) s (some (t, n)) i → Takes g (.exp a) (s.drop n) none j →
      Takes g (.sepLoop a sep) s (some (.list [], 0)) (i + j)
  | sepMore {a sep s t n u m ts l i j k} : Takes g (.exp sep) s (some (t, n)) i → Takes g (.exp a) (s.drop n) (some (u, m)) j →
      Takes g (.sepLoop a sep) (s.drop (n + m)) (some (.list ts, l)) k → Takes g (.sepLoop a sep) s (some (.list (u :: ts), n + m + l)) (i + j + k)

theorem takes_det {e : Job N} {s : Str} {o o' : Option (Tree × Nat)} {k k' : Nat} (h : Takes g e s o k) (h' : Takes g e s o' k') :
    o = o' ∧ k = k' := by
  induction h generalizing o' k' <;> cases h' <;> grind

theorem takes_pos {e : Exp N} {s : Str} {o : Option (Tree × Nat)} {k : Nat} (h : Takes g (.exp e) s o k) : 0 < k := by
  cases h <;> omega

theorem takes_le {e : Job N} {s : Str} {o : Option (Tree × Nat)} {k : Nat} (h : Takes g e s o k) : ∀ t n, o = some (t, n) → n ≤ s.length := by
  induction h with
  | char h => rename_i s; intro t n hn; cases s <;> simp_all
  | text h => have := h.length_le; grind
  | _ => grind

theorem looked_le (x s : Str) : looked x s ≤ x.length := by
  induction x generalizing s with
  | nil => simp [looked]
  | cons c x ih =>
    unfold looked
    split
    · have := ih s.tail; simp; omega
    · simp

/-! ### without rules -/

/-- no rule is used -/
def Free : Job N → Prop
  | .exp e => RuleFree e
  | .loop a => RuleFree a
  | .sepLoop a sep => RuleFree a ∧ RuleFree sep

/-- what a job may cost, on a text of `len` characters -/
def Cap (len n D k : Nat) : Job N → Prop
  | .exp e => nesting e ≤ D → k ≤ size e * (n + 1) ^ D
  | .loop a => nesting a ≤ D → k ≤ (len + 1) * (size a * (n + 1) ^ D)
  | .sepLoop a sep => max (nesting a) (nesting sep) ≤ D → k ≤ (len + 1) * ((size sep + size a) * (n + 1) ^ D)

theorem one_le_pow (n D : Nat) : 1 ≤ (n + 1) ^ D := Nat.one_le_pow _ _ (Nat.succ_pos _)

/-- a repetition costs what its parts cost, times the length -/
theorem cap_loop {len n E i a : Nat} (hl : len ≤ n) (hi : i ≤ (len + 1) * (a * (n + 1) ^ E)) : i ≤ a * (n + 1) ^ (E + 1) := by
  have h1 : (len + 1) * (a * (n + 1) ^ E) ≤ (n + 1) * (a * (n + 1) ^ E) := Nat.mul_le_mul_right _ (by omega)
  have h2 : (n + 1) * (a * (n + 1) ^ E) = a * (n + 1) ^ (E + 1) := by rw [Nat.pow_succ]; ac_rfl
  omega

theorem cap_more {len len' i j c : Nat} (hl : len' + 1 ≤ len) (hi : i ≤ c) (hj : j ≤ (len' + 1) * c) : i + j ≤ (len + 1) * c := by
  have h1 : (len' + 1) * c ≤ len * c := Nat.mul_le_mul_right _ hl
  rw [Nat.add_mul]
  omega

theorem cap_up {a n E : Nat} : a * (n + 1) ^ E ≤ a * (n + 1) ^ (E + 1) :=
  Nat.mul_le_mul_left _ (Nat.pow_le_pow_right (Nat.succ_pos _) (Nat.le_succ _))

theorem takes_cap {e : Job N} {s : Str} {o : Option (Tree × Nat)} {k : Nat} (h : Takes g e s o k) (hf : Free e) (n D : Nat)
    (hn : s.length ≤ n) : Cap s.length n D k e := by
  induction h generalizing D with
  | empty | fail | char | charNot =>
    intro _
    have := one_le_pow n D
    simp only [size]; omega
  | text | textNot =>
    rename_i x s _
    intro _
    have h1 := looked_le x s
    have h2 : x.length + 1 ≤ (1 + x.length) * (n + 1) ^ D := by
      rw [Nat.add_comm]
      exact Nat.le_mul_of_pos_right _ (one_le_pow n D)
    simp only [size]; omega
  | seq _ _ ha hb | left _ _ ha hb | right _ _ ha hb | seqSecond _ _ ha hb | leftSecond _ _ ha hb | rightSecond _ _ ha hb =>
    intro hd
    simp only [nesting] at hd
    have h1 := ha hf.1 D hn (by omega)
    have h2 := hb hf.2 D (by simp; omega) (by omega)
    have := one_le_pow n D
    simp only [size, Nat.add_mul]; omega
  | seqFirst _ ha | leftFirst _ ha | rightFirst _ ha | altFirst _ ha =>
    intro hd
    simp only [nesting] at hd
    have h1 := ha hf.1 D hn (by omega)
    have := one_le_pow n D
    simp only [size, Nat.add_mul]; omega
  | altSecond _ _ ha hb =>
    intro hd
    simp only [nesting] at hd
    have h1 := ha hf.1 D hn (by omega)
    have h2 := hb hf.2 D hn (by omega)
    have := one_le_pow n D
    simp only [size, Nat.add_mul]; omega
  | opt _ ha | optNot _ ha | act _ ha | actNot _ ha =>
    intro hd
    have h1 := ha hf D hn hd
    have := one_le_pow n D
    simp only [size, Nat.add_mul]; omega
  | star _ ha =>
    intro hd
    obtain ⟨E, rfl⟩ : ∃ E, D = E + 1 := ⟨D - 1, by simp only [nesting] at hd; omega⟩
    have h1 := cap_loop hn (ha hf E hn (by simpa [nesting] using hd))
    have := one_le_pow n (E + 1)
    simp only [size, Nat.add_mul]; omega
  | plus _ _ ha hb =>
    intro hd
    obtain ⟨E, rfl⟩ : ∃ E, D = E + 1 := ⟨D - 1, by simp only [nesting] at hd; omega⟩
    simp only [nesting] at hd
    have h1 := ha hf (E + 1) hn (by omega)
    have h2 := cap_loop (by simp; omega) (hb hf E (by simp; omega) (by omega))
    have := one_le_pow n (E + 1)
    simp only [size, Nat.add_mul]; omega
  | plusNot _ ha =>
    intro hd
    simp only [nesting] at hd
    have h1 := ha hf D hn (by omega)
    have := one_le_pow n D
    simp only [size, Nat.add_mul]; omega
  | sepBy1 _ _ ha hb | sepBy _ _ ha hb =>
    intro hd
    obtain ⟨E, rfl⟩ : ∃ E, D = E + 1 := ⟨D - 1, by simp only [nesting] at hd; omega⟩
    simp only [nesting] at hd
    have h1 := ha hf.1 (E + 1) hn (by omega)
    have h2 := cap_loop (by simp; omega) (hb hf E (by simp; omega) (by omega))
    have := one_le_pow n (E + 1)
    simp only [size, Nat.add_mul] at h2 ⊢; omega
  | sepBy1Not _ ha | sepByNot _ ha =>
    intro hd
    simp only [nesting] at hd
    have h1 := ha hf.1 D hn (by omega)
    have := one_le_pow n D
    simp only [size, Nat.add_mul]; omega
  | between _ _ _ hx ha hy | betweenClose _ _ _ hx ha hy =>
    intro hd
    simp only [nesting] at hd
    have h1 := hx hf.1 D hn (by omega)
    have h2 := ha hf.2.2 D (by simp; omega) (by omega)
    have h3 := hy hf.2.1 D (by simp; omega) (by omega)
    have := one_le_pow n D
    simp only [size, Nat.add_mul]; omega
  | betweenOpen _ hx =>
    intro hd
    simp only [nesting] at hd
    have h1 := hx hf.1 D hn (by omega)
    have := one_le_pow n D
    simp only [size, Nat.add_mul]; omega
  | betweenBody _ _ hx ha =>
    intro hd
    simp only [nesting] at hd
    have h1 := hx hf.1 D hn (by omega)
    have h2 := ha hf.2.2 D (by simp; omega) (by omega)
    have := one_le_pow n D
    simp only [size, Nat.add_mul]; omega
  | rule => exact hf.elim
  | loopEnd _ ha =>
    intro hd
    have h1 := ha hf D hn hd
    exact Nat.le_trans h1 (Nat.le_mul_of_pos_left _ (Nat.succ_pos _))
  | @loopMore a s t m ts l i j h1 h2 ha hb =>
    intro hd
    have h3 := ha hf D hn hd
    have h4 := hb hf D (by simp; omega) hd
    have h5 := takes_le h1 _ _ rfl
    have h6 : m ≠ 0 := by
      rintro rfl
      have := takes_det (h1.loopMore h2) h2
      have := takes_pos h1
      omega
    exact cap_more (by simp; omega) h3 h4
  | sepEnd _ ha =>
    intro hd
    have h1 := ha hf.2 D hn (by omega)
    rw [Nat.add_mul (size _)]
    refine Nat.le_trans ?_ (Nat.le_mul_of_pos_left _ (Nat.succ_pos _))
    omega
  | sepTrailing _ _ ha hb =>
    intro hd
    have h1 := ha hf.2 D hn (by omega)
    have h2 := hb hf.1 D (by simp; omega) (by omega)
    rw [Nat.add_mul (size _)]
    refine Nat.le_trans ?_ (Nat.le_mul_of_pos_left _ (Nat.succ_pos _))
    omega
  | @sepMore a sep s t m u m' ts l i j k h1 h2 h3 ha hb hc =>
    intro hd
    have h4 := ha hf.2 D hn (by omega)
    have h5 := hb hf.1 D (by simp; omega) (by omega)
    have h6 := hc hf D (by simp; omega) hd
    have h7 := takes_le h1 _ _ rfl
    have h8 := takes_le h2 _ _ rfl
    simp only [List.length_drop] at h8
    have h9 : m + m' ≠ 0 := by
      intro h0
      have := takes_det (h1.sepMore h2 h3) (by rw [h0] at h3; exact h3)
      have := takes_pos h1
      omega
    exact cap_more (by simp; omega) (by rw [Nat.add_mul]; omega) h6

/-! ### what the counted parsers do -/

/-- if `p` ends, then with an outcome and a number of runs that `S` allows -/
def Costs (p : Parser Nat α) (S : Str → Option (α × Nat) → Nat → Prop) : Prop :=
  ∀ text pos w r, (p (text, pos)).exec w = some r → ∃ o k, S (text.drop pos) o k ∧ Answer (some r) text pos (w + k) o

theorem Costs.mono {p : Parser Nat α} {S T : Str → Option (α × Nat) → Nat → Prop} (h : Costs p S) (hST : ∀ s o k, S s o k → T s o k) :
    Costs p T := by
  intro text pos w r hr
  obtain ⟨o, k, h1, h2⟩ := h text pos w r hr
  exact ⟨o, k, hST _ _ _ h1, h2⟩

theorem counted_costs {p : Parser Nat α} {S : Str → Option (α × Nat) → Nat → Prop} (h : Costs p S) :
    Costs (counted p) (fun s o k => ∃ i, S s o i ∧ k = i + 1) := by
  intro text pos w r hr
  obtain ⟨o, k, h1, h2⟩ := h text pos (w + 1) r hr
  exact ⟨o, k + 1, ⟨k, h1, rfl⟩, by rw [show w + (k + 1) = w + 1 + k by omega]; exact h2⟩

/-- parsers that run no others -/
theorem means_costs {p : Parser Nat α} {S : Str → Option (α × Nat) → Prop} (h : Means p S) : Costs p (fun s o k => S s o ∧ k = 0) := by
  intro text pos w r hr
  obtain ⟨o, h1, h2⟩ := h text pos w r hr
  exact ⟨o, 0, ⟨h1, rfl⟩, h2⟩

theorem map_costs {p : Parser Nat α} {S : Str → Option (α × Nat) → Nat → Prop} (f : α → β) (h : Costs p S) :
    Costs (Parser.map (fun a => pure (f a)) p) (fun s o k => ∃ o', S s o' k ∧ o = o'.map fun x => (f x.1, x.2)) := by
  intro text pos w r hr
  unfold Parser.map at hr
  rw [exec_bind] at hr
  rcases hp : (p (text, pos)).exec w with _ | r1
  · rw [hp] at hr; cases hr
  · obtain ⟨o, k, h1, h2⟩ := h text pos w r1 hp
    rw [hp] at hr
    refine ⟨_, k, ⟨o, h1, rfl⟩, ?_⟩
    rcases o with _ | ⟨t, n⟩
    · obtain ⟨m, h2⟩ := h2
      cases h2
      exact ⟨m, hr.symm⟩
    · cases h2
      exact hr.symm

theorem andThen_costs {p : Parser Nat α} {q : Parser Nat β} {S : Str → Option (α × Nat) → Nat → Prop} {T : Str → Option (β × Nat) → Nat → Prop}
    (h : Costs p S) (h' : Costs q T) :
    Costs (Parser.andThen p q) (fun s o k =>
      (∃ t n u m i j, S s (some (t, n)) i ∧ T (s.drop n) (some (u, m)) j ∧ o = some ((t, u), n + m) ∧ k = i + j) ∨ (S s none k ∧ o = none) ∨
      (∃ t n i j, S s (some (t, n)) i ∧ T (s.drop n) none j ∧ o = none ∧ k = i + j)) := by
  intro text pos w r hr
  unfold Parser.andThen at hr
  rw [exec_bind] at hr
  rcases hp : (p (text, pos)).exec w with _ | r1
  · rw [hp] at hr; cases hr
  · obtain ⟨o, i, h1, h2⟩ := h text pos w r1 hp
    rw [hp] at hr
    rcases o with _ | ⟨t, n⟩
    · obtain ⟨m, h2⟩ := h2
      cases h2
      exact ⟨none, i, .inr (.inl ⟨h1, rfl⟩), m, hr.symm⟩
    · cases h2
      change ((q (text, pos + n) >>= _).exec (w + i)) = _ at hr
      rw [exec_bind] at hr
      rcases hq : (q (text, pos + n)).exec (w + i) with _ | r2
      · rw [hq] at hr; cases hr
      · obtain ⟨o, j, h3, h4⟩ := h' text (pos + n) (w + i) r2 hq
        rw [← List.drop_drop] at h3
        rw [hq] at hr
        rcases o with _ | ⟨u, m⟩
        · obtain ⟨m, h4⟩ := h4
          cases h4
          refine ⟨none, i + j, .inr (.inr ⟨t, n, i, j, h1, h3, rfl, rfl⟩), m, ?_⟩
          rw [← hr, ← Nat.add_assoc]
          rfl
        · cases h4
          refine ⟨some ((t, u), n + m), i + j, .inl ⟨t, n, u, m, i, j, h1, h3, rfl, rfl⟩, ?_⟩
          show some r = _
          rw [← hr, ← Nat.add_assoc, ← Nat.add_assoc]
          rfl

theorem orElse_costs {p q : Parser Nat α} {S T : Str → Option (α × Nat) → Nat → Prop} (h : Costs p S) (h' : Costs q T) :
    Costs (Parser.orElse p q) (fun s o k => (∃ t n, S s (some (t, n)) k ∧ o = some (t, n)) ∨ (∃ i j, S s none i ∧ T s o j ∧ k = i + j)) := by
  intro text pos w r hr
  unfold Parser.orElse at hr
  rw [exec_bind] at hr
  rcases hp : (p (text, pos)).exec w with _ | r1
  · rw [hp] at hr; cases hr
  · obtain ⟨o, i, h1, h2⟩ := h text pos w r1 hp
    rw [hp] at hr
    rcases o with _ | ⟨t, n⟩
    · obtain ⟨m, h2⟩ := h2
      cases h2
      obtain ⟨o, j, h3, h4⟩ := h' text pos (w + i) r hr
      exact ⟨o, i + j, .inr ⟨i, j, h1, h3, rfl⟩, by rw [← Nat.add_assoc]; exact h4⟩
    · cases h2
      exact ⟨some (t, n), i, .inl ⟨t, n, h1, rfl⟩, hr.symm⟩

/-- a repetition, with what it costs -/
inductive StarCosts (S : Str → Option (α × Nat) → Nat → Prop) : Str → List α → Nat → Nat → Prop
  | stop {s i} : S s none i → StarCosts S s [] 0 i
  | more {s t n ts m i j} : S s (some (t, n)) i → StarCosts S (s.drop n) ts m j → StarCosts S s (t :: ts) (n + m) (i + j)

theorem repeats_costs {p : Parser Nat α} {S : Str → Option (α × Nat) → Nat → Prop} (h : Costs p S) {w w' : Nat} {inp rest : Remaining}
    {vs : List α} (hr : Repeats p w inp vs rest w') :
    ∃ m k, w' = w + k ∧ rest = (inp.1, inp.2 + m) ∧ StarCosts S (inp.1.drop inp.2) vs m k := by
  induction hr with
  | stop hf =>
    obtain ⟨o, k, h1, h2⟩ := h _ _ _ _ hf
    rcases o with _ | ⟨t, n⟩
    · obtain ⟨m, h2⟩ := h2
      cases h2
      exact ⟨0, k, rfl, rfl, .stop h1⟩
    · cases h2
  | more hs _ ih =>
    obtain ⟨o, i, h1, h2⟩ := h _ _ _ _ hs
    rcases o with _ | ⟨t, n⟩
    · obtain ⟨m, h2⟩ := h2
      cases h2
    · cases h2
      obtain ⟨m, j, rfl, rfl, h3⟩ := ih
      refine ⟨n + m, i + j, by omega, by rw [Nat.add_assoc], .more h1 ?_⟩
      rw [List.drop_drop]
      exact h3

theorem not_repeatsRaises {p : Parser Nat α} {S : Str → Option (α × Nat) → Nat → Prop} (h : Costs p S) {w w' : Nat} {inp : Remaining}
    {e : PyErr} : ¬ RepeatsRaises p w inp e w' := by
  intro hr
  induction hr with
  | now hf =>
    obtain ⟨o, _, h1, h2⟩ := h _ _ _ _ hf
    rcases o with _ | ⟨t, n⟩
    · obtain ⟨m, h2⟩ := h2
      cases h2
    · cases h2
  | later _ _ ih => exact ih

theorem many_costs {p : Parser Nat α} {S : Str → Option (α × Nat) → Nat → Prop} (h : Costs p S) :
    Costs (Parser.many p) (fun s o k => ∃ ts m, StarCosts S s ts m k ∧ o = some (⟨ts⟩, m)) := by
  intro text pos w r hr
  rw [many_exec] at hr
  rcases hz : (Parser.parseZeroOrMore p (text, pos)).exec w with _ | r1
  · rw [hz] at hr; cases hr
  · rw [hz] at hr
    rcases zero_inv p _ w r1 hz with ⟨vs, rest, w', h1, rfl⟩ | ⟨e, w', h1, rfl⟩
    · obtain ⟨m, k, rfl, rfl, h2⟩ := repeats_costs h h1
      exact ⟨_, k, ⟨vs, m, h2, rfl⟩, hr.symm⟩
    · exact absurd h1 (not_repeatsRaises h)

theorem many1_costs {p : Parser Nat α} {S : Str → Option (α × Nat) → Nat → Prop} (h : Costs p S) :
    Costs (Parser.many1 p) (fun s o k => (S s none k ∧ o = none) ∨
      ∃ t n ts m i j, S s (some (t, n)) i ∧ StarCosts S (s.drop n) ts m j ∧ o = some (⟨t :: ts⟩, n + m) ∧ k = i + j) := by
  intro text pos w r hr
  unfold Parser.many1 at hr
  rw [exec_bind] at hr
  rcases hp : (p (text, pos)).exec w with _ | r1
  · rw [hp] at hr; cases hr
  · obtain ⟨o, i, h1, h2⟩ := h text pos w r1 hp
    rw [hp] at hr
    rcases o with _ | ⟨t, n⟩
    · obtain ⟨m, h2⟩ := h2
      cases h2
      exact ⟨none, i, .inl ⟨h1, rfl⟩, m, hr.symm⟩
    · cases h2
      change ((Parser.parseZeroOrMore p (text, pos + n) >>= _).exec (w + i)) = _ at hr
      rw [exec_bind] at hr
      rcases hz : (Parser.parseZeroOrMore p (text, pos + n)).exec (w + i) with _ | r2
      · rw [hz] at hr; cases hr
      · rw [hz] at hr
        rcases zero_inv p _ (w + i) r2 hz with ⟨vs, rest, w', h3, rfl⟩ | ⟨e, w', h3, rfl⟩
        · obtain ⟨m, j, rfl, rfl, h4⟩ := repeats_costs h h3
          rw [← List.drop_drop] at h4
          refine ⟨_, i + j, .inr ⟨t, n, vs, m, i, j, h1, h4, rfl, rfl⟩, ?_⟩
          show some r = _
          rw [← hr, ← Nat.add_assoc, ← Nat.add_assoc]
          rfl
        · exact absurd h3 (not_repeatsRaises h)

theorem star_takes {a : Exp N} {s : Str} {ts : List Tree} {m k : Nat} (h : StarCosts (fun s o k => Takes g (.exp a) s o k) s ts m k) :
    Takes g (.loop a) s (some (.list ts, m)) k := by
  induction h with
  | stop h => exact .loopEnd h
  | more h _ ih => exact .loopMore h ih

/-- one turn of a list: the separator and an element -/
def SepTurn (g : N → Exp N) (a sep : Exp N) (s : Str) (o : Option (Tree × Nat)) (k : Nat) : Prop :=
  (∃ t n u m i j, Takes g (.exp sep) s (some (t, n)) i ∧ Takes g (.exp a) (s.drop n) (some (u, m)) j ∧ o = some (u, n + m) ∧ k = i + j) ∨
  (Takes g (.exp sep) s none k ∧ o = none) ∨
  (∃ t n i j, Takes g (.exp sep) s (some (t, n)) i ∧ Takes g (.exp a) (s.drop n) none j ∧ o = none ∧ k = i + j)

theorem sep_takes {a sep : Exp N} {s : Str} {ts : List Tree} {m k : Nat} (h : StarCosts (SepTurn g a sep) s ts m k) :
    Takes g (.sepLoop a sep) s (some (.list ts, m)) k := by
  induction h with
  | stop h =>
    rcases h with ⟨t, n, u, m, i, j, _, _, h, _⟩ | ⟨h, _⟩ | ⟨t, n, i, j, h1, h2, _, rfl⟩
    · cases h
    · exact .sepEnd h
    · exact .sepTrailing h1 h2
  | more h _ ih =>
    rcases h with ⟨t, n, u, m, i, j, h1, h2, h3, rfl⟩ | ⟨_, h⟩ | ⟨t, n, i, j, h1, h2, h3, rfl⟩
    · cases h3
      exact .sepMore h1 h2 ih
    · cases h
    · cases h3

theorem sepTurn_costs {a sep : Exp N} {p q : Parser Nat Tree} (ha : Costs p (Takes g (.exp a))) (hs : Costs q (Takes g (.exp sep))) :
    Costs (Parser.ignoreThen q p) (SepTurn g a sep) := by
  refine (map_costs _ (andThen_costs hs ha)).mono ?_
  rintro s o k ⟨o', ⟨t, n, u, m, i, j, h1, h2, rfl, rfl⟩ | ⟨h, rfl⟩ | ⟨t, n, i, j, h1, h2, rfl, rfl⟩, rfl⟩
  · exact .inl ⟨t, n, u, m, i, j, h1, h2, rfl, rfl⟩
  · exact .inr (.inl ⟨h, rfl⟩)
  · exact .inr (.inr ⟨t, n, i, j, h1, h2, rfl, rfl⟩)

theorem lift2_pure (F : α → β → γ) (p : Parser σ α) (q : Parser σ β) :
    Parser.lift2 (fun a => pure (fun b => pure (F a b))) p q = Parser.map (fun x => pure (F x.1 x.2)) (Parser.andThen p q) := by
  funext inp
  simp only [Parser.lift2, Parser.apply, Parser.map, Parser.andThen, Parser.preturn, pure_bind, bind_assoc]
  refine bind_congr fun o => ?_
  rcases o with ⟨a, mid⟩ | e
  · simp only [pure_bind, bind_assoc]
    refine bind_congr fun o => ?_
    rcases o with ⟨b, rest⟩ | e <;> simp
  · simp

theorem chars_costs (x : Str) : Costs (Parser.sequence (x.map fun c => counted (Parser.pchar [c]))) (fun s o k =>
    k = looked x s ∧ ((x <+: s ∧ o = some (⟨x.map fun c => [c]⟩, x.length)) ∨ (¬ x <+: s ∧ o = none))) := by
  induction x with
  | nil =>
    refine (means_costs (preturn_means _)).mono ?_
    rintro s o k ⟨rfl, rfl⟩
    exact ⟨rfl, .inl ⟨List.nil_prefix, rfl⟩⟩
  | cons c x ih =>
    have h0 : Parser.sequence ((c :: x).map fun c => counted (Parser.pchar [c])) =
        Parser.map (fun y => pure (y.2.cons y.1)) (Parser.andThen (counted (Parser.pchar [c]))
          (Parser.sequence (x.map fun c => counted (Parser.pchar [c])))) := lift2_pure (fun a (b : Block Str) => b.cons a) _ _
    rw [h0]
    refine (map_costs _ (andThen_costs (counted_costs (means_costs (pchar_means c))) ih)).mono ?_
    rintro s o k ⟨o', ⟨t, n, u, m, i, j, ⟨_, ⟨h1, rfl⟩, rfl⟩, ⟨rfl, h2⟩, rfl, rfl⟩ | ⟨⟨_, ⟨h1, rfl⟩, rfl⟩, rfl⟩ |
      ⟨t, n, i, j, ⟨_, ⟨h1, rfl⟩, rfl⟩, ⟨rfl, h2⟩, rfl, rfl⟩, rfl⟩
    · rcases h1 with ⟨h1, h3⟩ | ⟨_, h3⟩
      · cases h3
        rcases h2 with ⟨h2, h3⟩ | ⟨_, h3⟩
        · cases h3
          rcases s with _ | ⟨d, s⟩
          · cases h1
          · cases h1
            refine ⟨by simp [looked]; omega, .inl ⟨by simpa using h2, ?_⟩⟩
            simp [Block.cons, Nat.add_comm]
        · cases h3
      · cases h3
    · rcases h1 with ⟨_, h3⟩ | ⟨h1, _⟩
      · cases h3
      · refine ⟨by simp [looked, h1], .inr ⟨?_, rfl⟩⟩
        rintro ⟨y, rfl⟩
        exact h1 rfl
    · rcases h1 with ⟨h1, h3⟩ | ⟨_, h3⟩
      · cases h3
        rcases h2 with ⟨_, h3⟩ | ⟨h2, _⟩
        · cases h3
        · rcases s with _ | ⟨d, s⟩
          · cases h1
          · cases h1
            refine ⟨by simp [looked]; omega, .inr ⟨by simpa using h2, rfl⟩⟩
      · cases h3

theorem text_costs (x : Str) : Costs (countedText x) (fun s o k =>
    k = looked x s ∧ ((x <+: s ∧ o = some (x, x.length)) ∨ (¬ x <+: s ∧ o = none))) := by
  refine (map_costs _ (chars_costs x)).mono ?_
  rintro s o k ⟨o', ⟨rfl, ⟨h, rfl⟩ | ⟨h, rfl⟩⟩, rfl⟩
  · have h1 : (x.map fun c => [c]).flatten = x := by
      induction x with
      | nil => rfl
      | cons c x _ => simp [List.flatten_cons, ← List.flatMap_def]
    exact ⟨rfl, .inl ⟨h, by simp [h1]⟩⟩
  · exact ⟨rfl, .inr ⟨h, rfl⟩⟩

theorem bind_costs {p : Parser Nat β} {S : Str → Option (β × Nat) → Nat → Prop} (h : Costs p S) (x : α) :
    Costs (Parser.bind (fun _ => pure p) (Parser.preturn x)) S := by
  intro text pos w r hr
  exact h text pos w r hr

theorem make_costs {r : N → Parser Nat Tree} (hr : ∀ n, Costs (r n) (Takes g (.exp (g n)))) (e : Exp N) :
    Costs (makeCounted r e) (Takes g (.exp e)) := by
  induction e with
  | empty =>
    refine (counted_costs (means_costs (preturn_means _))).mono ?_
    rintro s o k ⟨_, ⟨rfl, rfl⟩, rfl⟩
    exact .empty
  | fail =>
    refine (counted_costs (means_costs (fail_means _))).mono ?_
    rintro s o k ⟨_, ⟨rfl, rfl⟩, rfl⟩
    exact .fail
  | char c =>
    refine (counted_costs (map_costs _ (means_costs (pchar_means c)))).mono ?_
    rintro s o k ⟨_, ⟨o', ⟨⟨h, rfl⟩ | ⟨h, rfl⟩, rfl⟩, rfl⟩, rfl⟩
    · exact .char h
    · exact .charNot h
  | text x =>
    refine (counted_costs (map_costs _ (text_costs x))).mono ?_
    rintro s o k ⟨_, ⟨o', ⟨rfl, ⟨h, rfl⟩ | ⟨h, rfl⟩⟩, rfl⟩, rfl⟩
    · exact .text h
    · exact .textNot h
  | seq a b ha hb =>
    refine (counted_costs (map_costs _ (andThen_costs ha hb))).mono ?_
    rintro s o k ⟨_, ⟨o', ⟨t, n, u, m, i, j, h1, h2, rfl, rfl⟩ | ⟨h, rfl⟩ | ⟨t, n, i, j, h1, h2, rfl, rfl⟩, rfl⟩, rfl⟩
    · exact .seq h1 h2
    · exact .seqFirst h
    · exact .seqSecond h1 h2
  | left a b ha hb =>
    refine (counted_costs (map_costs _ (andThen_costs ha hb))).mono ?_
    rintro s o k ⟨_, ⟨o', ⟨t, n, u, m, i, j, h1, h2, rfl, rfl⟩ | ⟨h, rfl⟩ | ⟨t, n, i, j, h1, h2, rfl, rfl⟩, rfl⟩, rfl⟩
    · exact .left h1 h2
    · exact .leftFirst h
    · exact .leftSecond h1 h2
  | right a b ha hb =>
    refine (counted_costs (map_costs _ (andThen_costs ha hb))).mono ?_
    rintro s o k ⟨_, ⟨o', ⟨t, n, u, m, i, j, h1, h2, rfl, rfl⟩ | ⟨h, rfl⟩ | ⟨t, n, i, j, h1, h2, rfl, rfl⟩, rfl⟩, rfl⟩
    · exact .right h1 h2
    · exact .rightFirst h
    · exact .rightSecond h1 h2
  | alt a b ha hb =>
    refine (counted_costs (orElse_costs ha hb)).mono ?_
    rintro s o k ⟨_, ⟨t, n, h1, rfl⟩ | ⟨i, j, h1, h2, rfl⟩, rfl⟩
    · exact .altFirst h1
    · exact .altSecond h1 h2
  | opt a ha =>
    refine (counted_costs (map_costs _ (orElse_costs (map_costs _ ha) (means_costs (preturn_means _))))).mono ?_
    rintro s o k ⟨_, ⟨o', ⟨t, n, ⟨o2, h1, h2⟩, rfl⟩ | ⟨i, j, ⟨o2, h1, h2⟩, ⟨rfl, rfl⟩, rfl⟩, rfl⟩, rfl⟩
    · rcases o2 with _ | ⟨t', n'⟩
      · cases h2
      · cases h2; exact .opt h1
    · rcases o2 with _ | ⟨t', n'⟩
      · exact .optNot h1
      · cases h2
  | star a ha =>
    refine (counted_costs (map_costs _ (many_costs ha))).mono ?_
    rintro s o k ⟨_, ⟨o', ⟨ts, m, h, rfl⟩, rfl⟩, rfl⟩
    exact .star (star_takes h)
  | plus a ha =>
    refine (counted_costs (map_costs _ (many1_costs ha))).mono ?_
    rintro s o k ⟨_, ⟨o', ⟨h, rfl⟩ | ⟨t, n, ts, m, i, j, h1, h2, rfl, rfl⟩, rfl⟩, rfl⟩
    · exact .plusNot h
    · exact .plus h1 (star_takes h2)
  | sepBy1 a sep ha hs =>
    refine (counted_costs (map_costs _ (map_costs _ (andThen_costs ha (many_costs (sepTurn_costs ha hs)))))).mono ?_
    rintro s o k ⟨_, ⟨_, ⟨_, ⟨t, n, u, m, i, j, h1, ⟨ts, m', h2, h3⟩, rfl, rfl⟩ | ⟨h, rfl⟩ |
      ⟨t, n, i, j, h1, ⟨ts, m', h2, h3⟩, rfl, rfl⟩, rfl⟩, rfl⟩, rfl⟩
    · cases h3; exact .sepBy1 h1 (sep_takes h2)
    · exact .sepBy1Not h
    · cases h3
  | sepBy a sep ha hs =>
    refine (counted_costs (map_costs _ (orElse_costs (map_costs _ (andThen_costs ha (many_costs (sepTurn_costs ha hs))))
      (means_costs (preturn_means _))))).mono ?_
    rintro s o k ⟨_, ⟨_, ⟨t0, n0, ⟨_, ⟨t, n, u, m, i, j, h1, ⟨ts, m', h2, h3⟩, rfl, rfl⟩ | ⟨h, rfl⟩ |
        ⟨t, n, i, j, h1, ⟨ts, m', h2, h3⟩, rfl, rfl⟩, h4⟩, rfl⟩ |
      ⟨i0, j0, ⟨_, ⟨t, n, u, m, i, j, h1, ⟨ts, m', h2, h3⟩, rfl, rfl⟩ | ⟨h, rfl⟩ |
        ⟨t, n, i, j, h1, ⟨ts, m', h2, h3⟩, rfl, rfl⟩, h4⟩, ⟨rfl, rfl⟩, rfl⟩, rfl⟩, rfl⟩
    · cases h3; cases h4; exact .sepBy h1 (sep_takes h2)
    · cases h4
    · cases h3
    · cases h4
    · exact .sepByNot h
    · cases h3
  | between x y a hx hy ha =>
    refine (counted_costs (map_costs _ (andThen_costs (map_costs _ (andThen_costs hx ha)) hy))).mono ?_
    rintro s o k ⟨_, ⟨_, ⟨t, n, u, m, i, j, ⟨_, ⟨t1, n1, u1, m1, i1, j1, h1, h2, rfl, rfl⟩ | ⟨h, rfl⟩ |
        ⟨t1, n1, i1, j1, h1, h2, rfl, rfl⟩, h4⟩, h5, rfl, rfl⟩ |
      ⟨⟨_, ⟨t1, n1, u1, m1, i1, j1, h1, h2, rfl, rfl⟩ | ⟨h, rfl⟩ | ⟨t1, n1, i1, j1, h1, h2, rfl, rfl⟩, h4⟩, rfl⟩ |
      ⟨t, n, i, j, ⟨_, ⟨t1, n1, u1, m1, i1, j1, h1, h2, rfl, rfl⟩ | ⟨h, rfl⟩ |
        ⟨t1, n1, i1, j1, h1, h2, rfl, rfl⟩, h4⟩, h5, rfl, rfl⟩, rfl⟩, rfl⟩
    · cases h4; exact .between h1 h2 h5
    · cases h4
    · cases h4
    · cases h4
    · exact .betweenOpen h
    · exact .betweenBody h1 h2
    · cases h4; exact .betweenClose h1 h2 h5
    · cases h4
    · cases h4
  | act f a ha =>
    refine (counted_costs (map_costs _ ha)).mono ?_
    rintro s o k ⟨_, ⟨o', h, rfl⟩, rfl⟩
    rcases o' with _ | ⟨t, n⟩
    · exact .actNot h
    · exact .act h
  | rule n =>
    refine (counted_costs (bind_costs (hr n) ())).mono ?_
    rintro s o k ⟨_, h, rfl⟩
    exact .rule h

theorem rules_costs (n : N) : Costs (rulesCounted g n) (Takes g (.exp (g n))) := by
  intro text pos w r hr
  refine rulesCounted.fixpoint_induct g _ (admissible_post2 (fun n (inp : Remaining) (w : Nat) r =>
    ∃ o k, Takes g (.exp (g n)) (inp.1.drop inp.2) o k ∧ Answer (some r) inp.1 inp.2 (w + k) o)) ?_ n (text, pos) w r hr
  intro F hF n inp w r hr
  exact make_costs (r := F) (fun n text pos w r h => hF n (text, pos) w r h) (g n) inp.1 inp.2 w r hr

theorem parser_costs (e : Exp N) : Costs (parserCounted g e) (Takes g (.exp e)) := make_costs rules_costs e

/-! ### counting changes nothing else -/

/-- whenever `p` ends, so does `q`, in the same way, whatever the worlds -/
def Follows (q : PyD τ α) (p : PyD σ α) : Prop := ∀ w r w', p.exec w = some (r, w') → ∀ v, ∃ v', q.exec v = some (r, v')

theorem Follows.pure (a : α) : Follows (pure a : PyD τ α) (pure a : PyD σ α) := by
  intro w r w' h v
  cases h
  exact ⟨v, rfl⟩

theorem Follows.bind {q : PyD τ α} {p : PyD σ α} {f : α → PyD τ β} {f' : α → PyD σ β} (h : Follows q p) (hf : ∀ a, Follows (f a) (f' a)) :
    Follows (q >>= f) (p >>= f') := by
  intro w r w' hr v
  rw [exec_bind] at hr
  rcases hp : p.exec w with _ | ⟨e | a, w1⟩
  · rw [hp] at hr; cases hr
  · rw [hp] at hr
    cases hr
    obtain ⟨v1, h1⟩ := h _ _ _ hp v
    exact ⟨v1, by rw [exec_bind, h1]⟩
  · rw [hp] at hr
    obtain ⟨v1, h1⟩ := h _ _ _ hp v
    obtain ⟨v2, h2⟩ := hf a _ _ _ hr v1
    exact ⟨v2, by rw [exec_bind, h1]; exact h2⟩

/-- the same for parsers -/
def Alike (q : Parser τ α) (p : Parser σ α) : Prop := ∀ inp, Follows (q inp) (p inp)

theorem alike_preturn (x : α) : Alike (τ := τ) (σ := σ) (Parser.preturn x) (Parser.preturn x) := fun _ => .pure _

theorem alike_fail (e : String) : Alike (τ := τ) (σ := σ) (α := α) (Parser.fail e) (Parser.fail e) := fun _ => .pure _

theorem alike_pchar (c : Str) : Alike (τ := τ) (σ := σ) (Parser.pchar c) (Parser.pchar c) := by
  rintro ⟨text, pos⟩
  unfold Parser.pchar
  dsimp only
  split
  · exact .pure _
  · split <;> exact .pure _

theorem alike_map (f : α → β) {q : Parser τ α} {p : Parser σ α} (h : Alike q p) :
    Alike (Parser.map (fun a => pure (f a)) q) (Parser.map (fun a => pure (f a)) p) := by
  intro inp
  refine (h inp).bind fun o => ?_
  rcases o with ⟨a, rest⟩ | e
  · exact (Follows.pure _).bind fun _ => .pure _
  · exact .pure _

theorem alike_andThen {q : Parser τ α} {p : Parser σ α} {q' : Parser τ β} {p' : Parser σ β} (h : Alike q p) (h' : Alike q' p') :
    Alike (Parser.andThen q q') (Parser.andThen p p') := by
  intro inp
  refine (h inp).bind fun o => ?_
  rcases o with ⟨a, rest⟩ | e
  · refine (h' rest).bind fun o => ?_
    rcases o with ⟨b, rest⟩ | e <;> exact .pure _
  · exact .pure _

theorem alike_orElse {q q' : Parser τ α} {p p' : Parser σ α} (h : Alike q p) (h' : Alike q' p') :
    Alike (Parser.orElse q q') (Parser.orElse p p') := by
  intro inp
  refine (h inp).bind fun o => ?_
  rcases o with ⟨a, rest⟩ | e
  · exact .pure _
  · exact h' inp

theorem alike_zero {q : Parser τ α} {p : Parser σ α} (h : Alike q p) (inp : Remaining) :
    Follows (Parser.parseZeroOrMore q inp) (Parser.parseZeroOrMore p inp) := by
  intro w r w' hr v
  refine Parser.parseZeroOrMore.fixpoint_induct (parser := p) _
    (admissible_post1 (fun (inp : Remaining) (_ : σ) (r : Except PyErr (Block α × Remaining) × σ) =>
      ∀ v, ∃ v', (Parser.parseZeroOrMore q inp).exec v = some (r.1, v'))) ?_ inp w (r, w') hr v
  intro F hF inp w r hr v
  rw [Parser.parseZeroOrMore.eq_1]
  refine Follows.bind (f' := fun o => match o with
    | .ok (a, mid) => do
      let (vs, rest) ← F mid
      pure (vs.cons a, rest)
    | .error _ => pure (Block.empty, inp)) (h inp) (fun o => ?_) w r.1 r.2 ?_ v
  · rcases o with ⟨a, mid⟩ | e
    · refine Follows.bind (fun w r w' h v => hF mid w (r, w') h v) fun x => .pure _
    · exact .pure _
  · exact hr

theorem alike_many {q : Parser τ α} {p : Parser σ α} (h : Alike q p) : Alike (Parser.many q) (Parser.many p) :=
  fun inp => (alike_zero h inp).bind fun _ => .pure _

theorem alike_many1 {q : Parser τ α} {p : Parser σ α} (h : Alike q p) : Alike (Parser.many1 q) (Parser.many1 p) := by
  intro inp
  refine (h inp).bind fun o => ?_
  rcases o with ⟨a, rest⟩ | e
  · exact (alike_zero h rest).bind fun _ => .pure _
  · exact .pure _

theorem alike_counted {q : Parser Nat α} {p : Parser σ α} (h : Alike q p) : Alike (counted q) p :=
  fun inp w r w' hr v => h inp w r w' hr (v + 1)

theorem counted_alike {q : Parser τ α} {p : Parser Nat α} (h : Alike q p) : Alike q (counted p) :=
  fun inp w r w' hr v => h inp (w + 1) r w' hr v

theorem alike_sequence {ι : Type} (x : List ι) (qs : ι → Parser τ α) (ps : ι → Parser σ α) (h : ∀ i, Alike (qs i) (ps i)) :
    Alike (Parser.sequence (x.map qs)) (Parser.sequence (x.map ps)) := by
  induction x with
  | nil => exact alike_preturn _
  | cons i x ih =>
    have h1 := alike_map (fun y : α × Block α => y.2.cons y.1) (alike_andThen (h i) ih)
    rw [← lift2_pure (fun a (b : Block α) => b.cons a), ← lift2_pure (fun a (b : Block α) => b.cons a)] at h1
    exact h1

theorem alike_text (x : Str) : Alike (countedText x) (Parser.pstring (σ := σ) x) :=
  alike_map _ (alike_sequence x _ _ fun c => alike_counted (alike_pchar [c]))

theorem text_alike (x : Str) : Alike (Parser.pstring (σ := σ) x) (countedText x) :=
  alike_map _ (alike_sequence x _ _ fun c => counted_alike (alike_pchar [c]))

theorem make_alike {q : N → Parser Nat Tree} {p : N → Parser σ Tree} (h : ∀ n, Alike (q n) (p n)) (e : Exp N) :
    Alike (makeCounted q e) (make p e) := by
  induction e with
  | empty => exact alike_counted (alike_preturn _)
  | fail => exact alike_counted (alike_fail _)
  | char c => exact alike_counted (alike_map _ (alike_pchar _))
  | text s => exact alike_counted (alike_map _ (alike_text s))
  | seq a b ha hb => exact alike_counted (alike_map _ (alike_andThen ha hb))
  | left a b ha hb => exact alike_counted (alike_map _ (alike_andThen ha hb))
  | right a b ha hb => exact alike_counted (alike_map _ (alike_andThen ha hb))
  | alt a b ha hb => exact alike_counted (alike_orElse ha hb)
  | opt a ha => exact alike_counted (alike_map _ (alike_orElse (alike_map _ ha) (alike_preturn _)))
  | star a ha => exact alike_counted (alike_map _ (alike_many ha))
  | plus a ha => exact alike_counted (alike_map _ (alike_many1 ha))
  | sepBy1 a s ha hs =>
    exact alike_counted (alike_map _ (alike_map (fun y : Tree × Block Tree => y.2.cons y.1)
      (alike_andThen ha (alike_many (alike_map _ (alike_andThen hs ha))))))
  | sepBy a s ha hs =>
    exact alike_counted (alike_map _ (alike_orElse (alike_map (fun y : Tree × Block Tree => y.2.cons y.1)
      (alike_andThen ha (alike_many (alike_map _ (alike_andThen hs ha))))) (alike_preturn _)))
  | between x y a hx hy ha => exact alike_counted (alike_map _ (alike_andThen (alike_map _ (alike_andThen hx ha)) hy))
  | act f a ha => exact alike_counted (alike_map _ ha)
  | rule n => exact alike_counted fun inp => h n inp

theorem alike_make {q : N → Parser τ Tree} {p : N → Parser Nat Tree} (h : ∀ n, Alike (q n) (p n)) (e : Exp N) :
    Alike (make q e) (makeCounted p e) := by
  induction e with
  | empty => exact counted_alike (alike_preturn _)
  | fail => exact counted_alike (alike_fail _)
  | char c => exact counted_alike (alike_map _ (alike_pchar _))
  | text s => exact counted_alike (alike_map _ (text_alike s))
  | seq a b ha hb => exact counted_alike (alike_map _ (alike_andThen ha hb))
  | left a b ha hb => exact counted_alike (alike_map _ (alike_andThen ha hb))
  | right a b ha hb => exact counted_alike (alike_map _ (alike_andThen ha hb))
  | alt a b ha hb => exact counted_alike (alike_orElse ha hb)
  | opt a ha => exact counted_alike (alike_map _ (alike_orElse (alike_map _ ha) (alike_preturn _)))
  | star a ha => exact counted_alike (alike_map _ (alike_many ha))
  | plus a ha => exact counted_alike (alike_map _ (alike_many1 ha))
  | sepBy1 a s ha hs =>
    exact counted_alike (alike_map _ (alike_map (fun y : Tree × Block Tree => y.2.cons y.1)
      (alike_andThen ha (alike_many (alike_map _ (alike_andThen hs ha))))))
  | sepBy a s ha hs =>
    exact counted_alike (alike_map _ (alike_orElse (alike_map (fun y : Tree × Block Tree => y.2.cons y.1)
      (alike_andThen ha (alike_many (alike_map _ (alike_andThen hs ha))))) (alike_preturn _)))
  | between x y a hx hy ha => exact counted_alike (alike_map _ (alike_andThen (alike_map _ (alike_andThen hx ha)) hy))
  | act f a ha => exact counted_alike (alike_map _ ha)
  | rule n => exact counted_alike fun inp => h n inp

theorem rules_alike (n : N) : Alike (rulesCounted g n) (rules (σ := σ) g n) := by
  intro inp w r w' hr v
  refine rules.fixpoint_induct g _ (admissible_post2 (fun n (inp : Remaining) (_ : σ) r =>
    ∀ v, ∃ v', (rulesCounted g n inp).exec v = some (r.1, v'))) ?_ n inp w (r, w') hr v
  intro F hF n inp w r hr v
  rw [rulesCounted.eq_1]
  exact make_alike (p := F) (fun n inp w r w' h v => hF n inp w (r, w') h v) (g n) inp w r.1 r.2 hr v

theorem alike_rules (n : N) : Alike (rules (σ := τ) g n) (rulesCounted g n) := by
  intro inp w r w' hr v
  refine rulesCounted.fixpoint_induct g _ (admissible_post2 (fun n (inp : Remaining) (_ : Nat) r =>
    ∀ v : τ, ∃ v', (rules g n inp).exec v = some (r.1, v'))) ?_ n inp w (r, w') hr v
  intro F hF n inp w r hr v
  rw [rules.eq_1]
  exact alike_make (p := F) (fun n inp w r w' h v => hF n inp w (r, w') h v) (g n) inp w r.1 r.2 hr v

theorem parser_alike (e : Exp N) : Alike (parserCounted g e) (parser (σ := σ) g e) := make_alike rules_alike e

theorem alike_parser (e : Exp N) : Alike (parser (σ := τ) g e) (parserCounted g e) := alike_make alike_rules e

end Expression.Lemmas.GrammarCost
