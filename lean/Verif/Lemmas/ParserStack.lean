import Verif.Spec.ParserStack
import Verif.Lemmas.Parser

/-! Running parsers on a bounded stack. -/

namespace Expression.Lemmas.ParserStack

open Expression Spec PyD

variable {σ ρ α β γ : Type}

/-- `q` does what `p` does, or raises `RecursionError` -/
def OrOverflow (q p : PyD σ α) : Prop := ∀ w, q.exec w = p.exec w ∨ ∃ w', q.exec w = some (.error .recursionError, w')

theorem OrOverflow.refl (p : PyD σ α) : OrOverflow p p := fun _ => .inl rfl

theorem OrOverflow.raise (p : PyD σ α) : OrOverflow (PyD.raise .recursionError) p := fun w => .inr ⟨w, rfl⟩

theorem OrOverflow.bind {q p : PyD σ α} {f g : α → PyD σ β} (h : OrOverflow q p) (hf : ∀ a, OrOverflow (f a) (g a)) :
    OrOverflow (q >>= f) (p >>= g) := by
  intro w
  rw [exec_bind, exec_bind]
  rcases h w with h | ⟨w', h⟩
  · rw [h]
    rcases p.exec w with _ | ⟨_ | a, w1⟩
    · exact .inl rfl
    · exact .inl rfl
    · exact hf a w1
  · rw [h]; exact .inr ⟨w', rfl⟩

/-- on every stack and every input -/
def Faithful (q : FrameParser σ α) (p : Parser σ α) : Prop := ∀ free inp, OrOverflow (q free inp) (p inp)

theorem run_faithful {q : FrameParser σ α} {p : Parser σ α} (h : Faithful q p) (free : Nat) (inp : Remaining) :
    OrOverflow (q.run free inp) (p inp) := by
  match free with
  | 0 => exact OrOverflow.raise _
  | 1 => exact OrOverflow.raise _
  | free + 2 => exact h free inp

theorem andThen_faithful {q : FrameParser σ α} {p : Parser σ α} {q' : FrameParser σ β} {p' : Parser σ β} (h : Faithful q p)
    (h' : Faithful q' p') : Faithful (.andThen q q') (.andThen p p') := by
  intro free inp
  refine OrOverflow.bind (run_faithful h free inp) ?_
  rintro (⟨v, r⟩ | e)
  · refine OrOverflow.bind (run_faithful h' free r) ?_
    rintro (⟨v', r'⟩ | e) <;> exact OrOverflow.refl _
  · exact OrOverflow.refl _

theorem orElse_faithful {q q' : FrameParser σ α} {p p' : Parser σ α} (h : Faithful q p)
    (h' : Faithful q' p') : Faithful (.orElse q q') (.orElse p p') := by
  intro free inp
  refine OrOverflow.bind (run_faithful h free inp) ?_
  rintro (r | e)
  · exact OrOverflow.refl _
  · exact run_faithful h' free inp

theorem map_faithful (f : α → PyD σ β) {q : FrameParser σ α} {p : Parser σ α} (h : Faithful q p) : Faithful (.map f q) (.map f p) := by
  intro free inp
  refine OrOverflow.bind (run_faithful h free inp) ?_
  rintro (⟨v, r⟩ | e) <;> exact OrOverflow.refl _

theorem zero_faithful {q : FrameParser σ α} {p : Parser σ α} (h : Faithful q p) (free : Nat) :
    ∀ inp, OrOverflow (q.parseZeroOrMore free inp) (Parser.parseZeroOrMore p inp) := by
  induction free with
  | zero => intro inp; exact OrOverflow.raise _
  | succ free ih =>
    intro inp
    rw [FrameParser.parseZeroOrMore, Parser.parseZeroOrMore]
    refine OrOverflow.bind (run_faithful h _ inp) ?_
    rintro (⟨v, r⟩ | e)
    · exact OrOverflow.bind (ih r) fun _ => OrOverflow.refl _
    · exact OrOverflow.refl _

theorem many_faithful {q : FrameParser σ α} {p : Parser σ α} (h : Faithful q p) : Faithful (.many q) (.many p) := by
  intro free inp
  cases free with
  | zero => exact OrOverflow.raise _
  | succ free => exact OrOverflow.bind (zero_faithful h free inp) fun _ => OrOverflow.refl _

theorem many1_faithful {q : FrameParser σ α} {p : Parser σ α} (h : Faithful q p) : Faithful (.many1 q) (.many1 p) := by
  intro free inp
  refine OrOverflow.bind (run_faithful h free inp) ?_
  rintro (⟨v, r⟩ | e)
  · cases free with
    | zero => exact OrOverflow.raise _
    | succ free => exact OrOverflow.bind (zero_faithful h free r) fun _ => OrOverflow.refl _
  · exact OrOverflow.refl _

theorem bind_faithful {ι : Type} (f : α → PyD σ ι) (qs : ι → FrameParser σ β) (ps : ι → Parser σ β) {q : FrameParser σ α}
    {p : Parser σ α} (h : Faithful q p) (hi : ∀ i, Faithful (qs i) (ps i)) :
    Faithful (.bind (fun a => do pure (qs (← f a))) q) (.bind (fun a => do pure (ps (← f a))) p) := by
  intro free inp
  refine OrOverflow.bind (run_faithful h free inp) ?_
  rintro (⟨v, r⟩ | e)
  · simp only [bind_assoc, pure_bind]
    exact OrOverflow.bind (OrOverflow.refl _) fun i => run_faithful (hi i) free r
  · exact OrOverflow.refl _

theorem const_faithful (p : Parser σ α) : Faithful (fun _ => p) p := fun _ _ => OrOverflow.refl _

theorem lift2_faithful (f : α → PyD σ (β → PyD σ γ)) {q : FrameParser σ α} {p : Parser σ α} {q' : FrameParser σ β} {p' : Parser σ β}
    (h : Faithful q p) (h' : Faithful q' p') : Faithful (.lift2 f q q') (.lift2 f p p') :=
  map_faithful _ (andThen_faithful (map_faithful _ (andThen_faithful (const_faithful _) h)) h')

theorem sequence_chars_faithful (s : Str) : Faithful (σ := σ) (.sequence (s.map (fun c => .pchar [c]))) (.sequence (s.map (fun c => .pchar [c]))) := by
  induction s with
  | nil => exact const_faithful _
  | cons c s ih => exact lift2_faithful _ (const_faithful _) ih

theorem same_faithful {q : FrameParser σ α} {p : Parser σ α} (h : SameParser q p) : Faithful q p := by
  induction h with
  | pchar | preturn | fail | sequenceNil => exact const_faithful _
  | andThen _ _ h h' => exact andThen_faithful h h'
  | orElse _ _ h h' => exact orElse_faithful h h'
  | map f _ h => exact map_faithful f h
  | starmap f _ h => exact map_faithful _ h
  | apply _ _ h h' => exact map_faithful _ (andThen_faithful h h')
  | lift2 f _ _ h h' => exact lift2_faithful f h h'
  | sequenceCons _ _ h h' => exact lift2_faithful _ h h'
  | pstring s => exact map_faithful _ (sequence_chars_faithful s)
  | many _ h => exact many_faithful h
  | many1 _ h => exact many1_faithful h
  | thenIgnore _ _ h h' => exact map_faithful _ (andThen_faithful h h')
  | ignoreThen _ _ h h' => exact map_faithful _ (andThen_faithful h h')
  | sepBy1 _ _ h h' => exact map_faithful _ (andThen_faithful h (many_faithful (map_faithful _ (andThen_faithful h' h))))
  | sepBy _ _ h h' =>
    exact orElse_faithful (map_faithful _ (andThen_faithful h (many_faithful (map_faithful _ (andThen_faithful h' h))))) (const_faithful _)
  | opt _ h => exact orElse_faithful (map_faithful _ h) (const_faithful _)
  | between _ _ _ h h' h'' => exact map_faithful _ (andThen_faithful (map_faithful _ (andThen_faithful h h'')) h')
  | bind f qs ps _ _ h hi => exact bind_faithful f qs ps h hi
  | ignore _ h => exact map_faithful _ h

/-! ### Frames that suffice -/

theorem run_enough {n : Nat} {q : FrameParser σ α} {p : Parser σ α} (h : EnoughFrames n q p) {free : Nat} (hf : n + 2 ≤ free) :
    q.run free = p := by
  obtain ⟨k, rfl⟩ : ∃ k, free = k + 2 := ⟨free - 2, by omega⟩
  exact h k (by omega)

theorem andThen_enough {n m : Nat} {q : FrameParser σ α} {p : Parser σ α} {q' : FrameParser σ β} {p' : Parser σ β}
    (h : EnoughFrames n q p) (h' : EnoughFrames m q' p') : EnoughFrames (max n m + 2) (.andThen q q') (.andThen p p') := by
  intro free hf
  funext inp
  rw [FrameParser.andThen, run_enough h (by omega), run_enough h' (by omega)]
  rfl

theorem orElse_enough {n m : Nat} {q q' : FrameParser σ α} {p p' : Parser σ α}
    (h : EnoughFrames n q p) (h' : EnoughFrames m q' p') : EnoughFrames (max n m + 2) (.orElse q q') (.orElse p p') := by
  intro free hf
  funext inp
  rw [FrameParser.orElse, run_enough h (by omega), run_enough h' (by omega)]
  rfl

theorem map_enough {n : Nat} (f : α → PyD σ β) {q : FrameParser σ α} {p : Parser σ α} (h : EnoughFrames n q p) :
    EnoughFrames (n + 2) (.map f q) (.map f p) := by
  intro free hf
  funext inp
  rw [FrameParser.map, run_enough h (by omega)]
  rfl

theorem const_enough (p : Parser σ α) : EnoughFrames 0 (fun _ => p) p := fun _ _ => rfl

theorem EnoughFrames.mono {n m : Nat} {q : FrameParser σ α} {p : Parser σ α} (h : EnoughFrames n q p) (hm : n ≤ m) :
    EnoughFrames m q p := fun free hf => h free (Nat.le_trans hm hf)

theorem lift2_enough (f : α → PyD σ (β → PyD σ γ)) {n m : Nat} {q : FrameParser σ α} {p : Parser σ α} {q' : FrameParser σ β} {p' : Parser σ β}
    (h : EnoughFrames n q p) (h' : EnoughFrames m q' p') : EnoughFrames (max (n + 4) m + 4) (.lift2 f q q') (.lift2 f p p') := by
  have h1 : EnoughFrames (n + 4) (FrameParser.apply (FrameParser.preturn f) q) (Parser.apply (Parser.preturn f) p) :=
    EnoughFrames.mono (map_enough _ (andThen_enough (const_enough (Parser.preturn f)) h)) (by omega)
  exact EnoughFrames.mono (map_enough _ (andThen_enough h1 h')) (by omega)

theorem sequence_enough {n : Nat} {qs : List (FrameParser σ α)} {ps : List (Parser σ α)} (hl : qs.length = ps.length)
    (h : ∀ (i : Nat) (q : FrameParser σ α) (p : Parser σ α), qs[i]? = some q → ps[i]? = some p → EnoughFrames n q p) :
    EnoughFrames (n + 4 * qs.length + 4) (.sequence qs) (.sequence ps) := by
  induction qs generalizing ps with
  | nil =>
    cases ps with
    | nil => exact EnoughFrames.mono (const_enough _) (Nat.zero_le _)
    | cons p ps => cases hl
  | cons q qs ih =>
    cases ps with
    | nil => cases hl
    | cons p ps =>
      have h1 := ih (by simpa using hl) (fun i q p hq hp => h (i + 1) q p hq hp)
      have h2 := lift2_enough (fun h => pure (fun t : Block α => pure (t.cons h))) (h 0 q p rfl rfl) h1
      exact EnoughFrames.mono h2 (by simp only [List.length_cons]; omega)

theorem zero_enough {n : Nat} {q : FrameParser σ α} {p : Parser σ α} (h : EnoughFrames n q p) {w w' : σ} {inp rest : Remaining} {vs : List α}
    (hr : Repeats p w inp vs rest w') : ∀ free, n + 2 + vs.length ≤ free →
    (q.parseZeroOrMore free inp).exec w = (Parser.parseZeroOrMore p inp).exec w := by
  induction hr with
  | @stop w inp e w' hf =>
    intro free hfree
    obtain ⟨k, rfl⟩ : ∃ k, free = k + 1 := ⟨free - 1, by simp at hfree; omega⟩
    rw [FrameParser.parseZeroOrMore, Parser.parseZeroOrMore, run_enough h (by simp at hfree; omega)]
    have e1 : (p inp).exec w = _ := hf
    rw [exec_bind, exec_bind, e1]
  | @more w inp v mid w1 vs rest w' hs _ ih =>
    intro free hfree
    obtain ⟨k, rfl⟩ : ∃ k, free = k + 1 := ⟨free - 1, by simp at hfree; omega⟩
    rw [FrameParser.parseZeroOrMore, Parser.parseZeroOrMore, run_enough h (by simp at hfree; omega)]
    have e1 : (p inp).exec w = _ := hs
    rw [exec_bind, exec_bind, e1]
    simp only
    rw [exec_bind, exec_bind, ih k (by simp at hfree; omega)]

/-- each run of the parser that succeeds leaves one frame less -/
theorem zero_overflows {n : Nat} {q : FrameParser σ α} {p : Parser σ α} (h : EnoughFrames n q p)
    (hq : ∀ free inp w, free < n → (q free inp).exec w = some (.error .recursionError, w)) {w w' : σ} {inp rest : Remaining} {vs : List α}
    (hr : Repeats p w inp vs rest w') : ∀ free, free < n + 2 + vs.length →
    ∃ w1, (q.parseZeroOrMore free inp).exec w = some (.error .recursionError, w1) := by
  have small : ∀ free inp w, free < n + 2 → (q.run free inp).exec w = some (.error .recursionError, w) := by
    intro free inp w hf
    match free with
    | 0 => rfl
    | 1 => rfl
    | free + 2 => exact hq free inp w (by omega)
  have first : ∀ free inp w, free < n + 2 → (q.parseZeroOrMore free inp).exec w = some (.error .recursionError, w) := by
    intro free inp w hf
    cases free with
    | zero => rfl
    | succ k => rw [FrameParser.parseZeroOrMore, exec_bind, small _ _ _ hf]
  induction hr with
  | stop hf => intro free hfree; exact ⟨_, first _ _ _ (by simpa using hfree)⟩
  | @more w inp v mid w1 vs rest w' hs _ ih =>
    intro free hfree
    by_cases h2 : free < n + 2
    · exact ⟨_, first _ _ _ h2⟩
    · obtain ⟨k, rfl⟩ : ∃ k, free = k + 1 := ⟨free - 1, by omega⟩
      obtain ⟨w2, e⟩ := ih k (by simp at hfree; omega)
      refine ⟨w2, ?_⟩
      have e1 : (p inp).exec w = _ := hs
      rw [FrameParser.parseZeroOrMore, exec_bind, run_enough h (by omega), e1]
      simp only
      rw [exec_bind, e]

/-! ### Alternatives -/

theorem reduce_orElse (a : FrameParser σ α) (qs : List (FrameParser σ α)) (w : ρ) :
    (FrameParser.choice ⟨a :: qs⟩).exec w = (.ok (qs.foldl FrameParser.orElse a), w) := by
  change (Block.fold (σ := ρ) ⟨qs⟩ (fun a b => pure (FrameParser.orElse a b)) a).exec w = _
  rw [Parser.fold_pure]; rfl

theorem orElse_small (a b : FrameParser σ α) (m : Nat) (h : ∀ free inp w, free < m → Overflows a free inp w w) :
    ∀ free inp w, free < m + 2 → Overflows (.orElse a b) free inp w w := by
  intro free inp w hf
  unfold Overflows
  rw [FrameParser.orElse, exec_bind]
  match free with
  | 0 => rfl
  | 1 => rfl
  | free + 2 => rw [FrameParser.run, show (a free inp).exec w = _ from h free inp w (by omega)]

theorem foldl_small (qs : List (FrameParser σ α)) : ∀ (a : FrameParser σ α) (m : Nat), (∀ free inp w, free < m → Overflows a free inp w w) →
    ∀ free inp w, free < m + 2 * qs.length → Overflows (qs.foldl FrameParser.orElse a) free inp w w := by
  induction qs with
  | nil => intro a m h free inp w hf; exact h free inp w (by simpa using hf)
  | cons b qs ih =>
    intro a m h free inp w hf
    exact ih _ (m + 2) (orElse_small a b m h) free inp w (by simp at hf; omega)

theorem foldl_enough (qs : List (FrameParser σ α)) : ∀ (ps : List (Parser σ α)) (a : FrameParser σ α) (a' : Parser σ α) (n m : Nat),
    qs.length = ps.length → EnoughFrames m a a' → n ≤ m → (∀ (i : Nat) (q : FrameParser σ α) (p : Parser σ α), qs[i]? = some q → ps[i]? = some p → EnoughFrames n q p) →
    EnoughFrames (m + 2 * qs.length) (qs.foldl FrameParser.orElse a) (ps.foldl Parser.orElse a') := by
  induction qs with
  | nil =>
    intro ps a a' n m hl ha _ _
    cases ps with
    | nil => exact ha
    | cons p ps => cases hl
  | cons q qs ih =>
    intro ps a a' n m hl ha hn h
    cases ps with
    | nil => cases hl
    | cons p ps =>
      have h1 := orElse_enough ha (h 0 q p rfl rfl)
      have h2 := ih ps _ _ n (m + 2) (by simpa using hl) (EnoughFrames.mono h1 (by omega)) (by omega) (fun i q p hq hp => h (i + 1) q p hq hp)
      exact EnoughFrames.mono h2 (by simp only [List.length_cons]; omega)

/-! ### Strings -/

theorem lift2_large (f : α → PyD σ (β → PyD σ γ)) (p : Parser σ α) (q' : FrameParser σ β) (k : Nat) :
    FrameParser.lift2 f (fun _ => p) q' (k + 8) = Parser.lift2 f p (q' (k + 4)) := rfl

theorem lift2_small (f : α → PyD σ (β → PyD σ γ)) (q : FrameParser σ α) (q' : FrameParser σ β) {free : Nat} (hf : free < 8)
    (inp : Remaining) (w : σ) : Overflows (.lift2 f q q') free inp w w := by
  unfold Overflows
  match free, hf with
  | 0, _ => rfl
  | 1, _ => rfl
  | 2, _ => rfl
  | 3, _ => rfl
  | 4, _ => rfl
  | 5, _ => rfl
  | 6, _ => rfl
  | 7, _ => rfl

theorem chars_exact (s : Str) : ∀ (c : Char) (free : Nat) (t : Str) (i : Nat) (w : σ),
    (free < 4 * min (agreement (c :: s) t i) s.length + 8 →
      Overflows (.sequence ((c :: s).map (fun c => .pchar [c]))) free (t, i) w w) ∧
    (4 * min (agreement (c :: s) t i) s.length + 8 ≤ free →
      (FrameParser.sequence ((c :: s).map (fun c => .pchar [c])) free (t, i)).exec w =
        (Parser.sequence ((c :: s).map (fun c => .pchar [c])) (t, i)).exec w) := by
  induction s with
  | nil =>
    intro c free t i w
    refine ⟨fun h => lift2_small _ _ _ (by simp at h; omega) _ _, fun h => ?_⟩
    obtain ⟨k, rfl⟩ : ∃ k, free = k + 8 := ⟨free - 8, by simp at h; omega⟩
    rfl
  | cons d s ih =>
    intro c free t i w
    by_cases h8 : free < 8
    · exact ⟨fun _ => lift2_small _ _ _ h8 _ _, fun h => by omega⟩
    · obtain ⟨k, rfl⟩ : ∃ k, free = k + 8 := ⟨free - 8, by omega⟩
      have e : FrameParser.sequence ((c :: d :: s).map (fun c => .pchar [c])) (k + 8) =
          Parser.lift2 (σ := σ) (fun h => pure (fun t => pure (t.cons h))) (.pchar [c])
            (FrameParser.sequence ((d :: s).map (fun c => .pchar [c])) (k + 4)) := rfl
      have e' : Parser.sequence ((c :: d :: s).map (fun c => .pchar [c])) =
          Parser.lift2 (σ := σ) (fun h => pure (fun t => pure (t.cons h))) (.pchar [c])
            (Parser.sequence ((d :: s).map (fun c => .pchar [c]))) := rfl
      by_cases hc : t[i]? = some c
      · have ha : agreement (c :: d :: s) t i = agreement (d :: s) t (i + 1) + 1 := by rw [agreement, if_pos hc]
        have hs : ((Parser.pchar [c] : Parser σ Str) (t, i)) = pure (.ok ([c], (t, i + 1))) := by
          simp only [Parser.pchar, hc, if_true]
        have hl : ∀ r : Parser σ (Block Str), (Parser.lift2 (σ := σ) (fun h => pure (fun t => pure (t.cons h))) (.pchar [c]) r (t, i)).exec w =
            ((do match ← r (t, i + 1) with
                | .ok (v, rest) => pure (.ok (v.cons [c], rest))
                | .error e => pure (.error e)) : PyD σ (Res (Block Str × Remaining) String)).exec w := by
          intro r
          simp only [Parser.lift2, Parser.apply, Parser.map, Parser.andThen, Parser.preturn, pure_bind, hs, bind_assoc]
          congr 2
          funext r
          rcases r with ⟨v, r⟩ | e <;> simp only [pure_bind]
        obtain ⟨i1, i2⟩ := ih d (k + 4) t (i + 1) w
        refine ⟨fun h => ?_, fun h => ?_⟩
        · have := i1 (by rw [ha] at h; simp only [List.length_cons] at h; omega)
          unfold Overflows at this ⊢
          rw [e, hl, exec_bind, this]
        · have := i2 (by rw [ha] at h; simp only [List.length_cons] at h; omega)
          rw [e, e', hl, hl, exec_bind, exec_bind, this]
      · have ha : agreement (c :: d :: s) t i = 0 := by rw [agreement, if_neg hc]
        obtain ⟨er, hs⟩ : ∃ er, (Parser.pchar [c] : Parser σ Str) (t, i) = pure (.error er) := by
          cases ht : t[i]? with
          | none => exact ⟨"no more input", by simp only [Parser.pchar, ht]⟩
          | some x => exact ⟨_, by simp only [Parser.pchar, ht]; rw [if_neg (fun he => hc (by rw [ht, List.head_eq_of_cons_eq he]))]⟩
        have hl : ∀ r : Parser σ (Block Str), (Parser.lift2 (σ := σ) (fun h => pure (fun t => pure (t.cons h))) (.pchar [c]) r (t, i)).exec w =
            some (.ok (.error er), w) := by
          intro r
          simp only [Parser.lift2, Parser.apply, Parser.map, Parser.andThen, Parser.preturn, pure_bind, hs]
          rfl
        refine ⟨fun h => by rw [ha] at h; omega, fun _ => by rw [e, e', hl, hl]⟩

theorem pstring_exact (c : Char) (s : Str) (free : Nat) (t : Str) (i : Nat) (w : σ) :
    (free < 4 * min (agreement (c :: s) t i) s.length + 10 → Overflows (.pstring (c :: s)) free (t, i) w w) ∧
    (4 * min (agreement (c :: s) t i) s.length + 10 ≤ free →
      (FrameParser.pstring (c :: s) free (t, i)).exec w = (Parser.pstring (c :: s) (t, i)).exec w) := by
  refine ⟨fun h => ?_, fun h => ?_⟩
  · match free with
    | 0 => rfl
    | 1 => rfl
    | k + 2 =>
      have := (chars_exact s c k t i w).1 (by omega)
      unfold Overflows at this ⊢
      rw [FrameParser.pstring, FrameParser.map, FrameParser.run, exec_bind, this]
  · obtain ⟨k, rfl⟩ : ∃ k, free = k + 2 := ⟨free - 2, by omega⟩
    have := (chars_exact s c k t i w).2 (by omega)
    rw [FrameParser.pstring, FrameParser.map, FrameParser.run, Parser.pstring, Parser.map, exec_bind, exec_bind, this]
    rfl

/-- the characters of a text of `k` equal ones, read one by one -/
theorem repeats_replicate (c : Char) (k : Nat) (w : σ) : ∀ j ≤ k,
    Repeats (Parser.pchar [c]) w (List.replicate k c, k - j) (List.replicate j [c]) (List.replicate k c, k) w := by
  intro j
  induction j with
  | zero =>
    intro _
    obtain ⟨e, he⟩ := Lemmas.Parser.pchar_fail (σ := σ) (c := c) (t := List.replicate k c) (i := k) w (by simp)
    exact .stop he
  | succ j ih =>
    intro hj
    refine .more (Lemmas.Parser.pchar_succ_iff.2 ⟨?_, rfl, rfl, rfl⟩) ?_
    · rw [List.getElem?_replicate, if_pos (by omega)]
    · have := ih (by omega)
      rwa [show k - j = k - (j + 1) + 1 by omega] at this

theorem agreement_replicate (c : Char) (k n : Nat) : ∀ i, i + k ≤ n → agreement (List.replicate k c) (List.replicate n c) i = k := by
  induction k with
  | zero => intro i _; rfl
  | succ k ih =>
    intro i h
    rw [List.replicate_succ, agreement, if_pos (by rw [List.getElem?_replicate, if_pos (by omega)]), ih (i + 1) (by omega)]

theorem call_overflows {q : FrameParser σ α} {free : Nat} {text : Str} {w w' : σ} (h : Overflows q free (text, 0) w w') :
    (q.call (free + 2) text).exec w = some (.error .recursionError, w') := by
  rw [FrameParser.call, exec_bind, show (q free (text, 0)).exec w = _ from h]

end Expression.Lemmas.ParserStack
