import Verif.Lemmas.CancelInterruptWin

/-! # C147: cancellation and interrupts

`run step init sched = some s`: starting from a new source, the schedule `sched` leads to `s`: any number of calls of `register`, `cancel` and of disposals of
registrations, in any interleaving, each of which may be ended anywhere by an exception from outside, or by a `BaseException` of a listener.
Calls are numbered; `s.pc t` tells how far call `t` has come. -/

namespace Expression.Props

open Threads Expression.CancelInterrupt Spec.CancelInterrupt Lemmas Lemmas.CancelInterrupt

/-- No listener is called twice; and only one whose callback was stored is called, and not before a `cancel` began. -/
theorem C147_at_most_once (sched : List (Nat × Act)) (s : State) (h : run step init sched = some s) (r : Nat) :
    timesCalled r s ≤ 1 ∧ (timesCalled r s = 1 → hasStored (s.pc r) = true ∧ ∃ t, isCancel (s.pc t) = true) := by
  have ha := all_run h
  refine ⟨timesCalled_le ha r, fun h1 => ?_⟩
  obtain ⟨i, hi⟩ := timesCalled_pos.1 (by rw [h1]; exact Nat.one_pos)
  refine ⟨owns_stored (ha.win.known i r hi), ha.win.began ?_⟩
  cases hd : s.isDisposed with
  | true => rfl
  | false => rw [(ha.win.quiet hd).1] at hi; cases hi

/-- Disposing a registration does not raise `KeyError`, whatever was interrupted before. -/
theorem C147_no_key_error (sched : List (Nat × Act)) (s : State) (h : run step init sched = some s) (u r : Nat) : s.pc u ≠ .uKeyError r :=
  (all_run h).ids.fine u r

/-- An interrupt leaves nobody waiting: an open call can go on, or the lock is held by another open call that can; when no call is open, the lock is free. -/
theorem C147_no_deadlock (sched : List (Nat × Act)) (s : State) (h : run step init sched = some s) :
    (∀ t, (s.pc t).isOpen = true → (∃ s', step s (t, .go) = some s') ∨ ∃ u s', s.owner = some u ∧ (s.pc u).isOpen = true ∧ step s (u, .go) = some s') ∧
    ((∀ t, (s.pc t).isOpen = false) → s.owner = none) := by
  have hl : Lock s := (all_run h).lock
  have hgo : ∀ u, (s.pc u).holds = true → ∃ s', step s (u, .go) = some s' := by
    intro u hu
    simp only [step, go]
    cases hp : s.pc u <;> rw [hp] at hu <;> first | cases hu | skip
    all_goals simp only
    all_goals first
      | exact ⟨_, rfl⟩
      | (split <;> exact ⟨_, rfl⟩)
  have hopen : ∀ f : PC, f.holds = true → f.isOpen = true := fun f hf => by cases f <;> first | rfl | cases hf
  refine ⟨fun t ht => ?_, fun hq => ?_⟩
  · cases ho : s.owner with
    | some u =>
      have hu := (hl u).2 ho
      obtain ⟨s', hs'⟩ := hgo u hu
      exact .inr ⟨u, s', rfl, hopen _ hu, hs'⟩
    | none =>
      refine .inl ?_
      simp only [step, go]
      cases hp : s.pc t <;> rw [hp] at ht <;> first | cases ht | skip
      all_goals simp only [ho]
      all_goals first
        | exact ⟨_, rfl⟩
        | (split <;> exact ⟨_, rfl⟩)
        | (rename_i ls; cases ls <;> exact ⟨_, rfl⟩)
  · cases ho : s.owner with
    | none => rfl
    | some u =>
      have := hopen _ ((hl u).2 ho)
      rw [hq u] at this
      cases this

/-- When a `cancel` has returned, a `register` that begins then does not succeed and stores nothing. -/
theorem C147_refused (sched sched' : List (Nat × Act)) (a b : State) (t r : Nat) (ha : run step init sched = some a) (ht : a.pc t = .cDone)
    (hr : a.pc r = .idle) (hb : run step a sched' = some b) : hasStored (b.pc r) = false := by
  have hA := all_run ha
  have hl := from_run (late_step r) hA ⟨hA.win.done t ht, by rw [hr]; simp [owns]⟩ hb
  have h1 := hl.pc.1
  generalize b.pc r = f at h1
  clear hl
  induction f with
  | hit f ih => exact ih h1
  | _ => first | rfl | cases h1

/-- Listeners are called in the order of registration: if the registration of `r` had returned when that of `r'` began, `r'` is not called before `r`. -/
theorem C147_order (sched sched' : List (Nat × Act)) (a b : State) (r r' i : Nat) (ha : run step init sched = some a) (hr : a.pc r = .rDone i)
    (hr' : a.pc r' = .idle) (hb : run step a sched' = some b) (x y z : List Nat) : b.calls.map (·.2) ≠ x ++ r' :: y ++ r :: z := by
  intro he
  have hA := all_run ha
  have hB : All b := all_run (sched := sched ++ sched') (by rw [run_append, ha]; exact hb)
  have h1 := from_run (after_step r' a.id) hA ⟨Nat.le_refl _, fun i h => by rw [hr'] at h; cases h⟩ hb
  have h2 := from_run (P := fun s => s.pc r = .rDone i) (fun s t s' _ h hm => done_mono hm h) hA hr hb
  obtain ⟨l1, l2, e1, e2, e3⟩ := List.map_eq_append_iff.1 he
  obtain ⟨l3, l4, e4, e5, e6⟩ := List.map_eq_append_iff.1 e2
  obtain ⟨⟨k, r1⟩, l5, e7, e8, e9⟩ := List.map_eq_cons_iff.1 e6
  obtain ⟨⟨k', r2⟩, l6, e10, e11, e12⟩ := List.map_eq_cons_iff.1 e3
  simp only at e8 e11
  subst e8 e11 e4 e7 e10
  obtain ⟨w, _, hw, _⟩ := hB.win.win
  have hs := (List.pairwise_append.1 hw).1
  rw [e1] at hs
  have hlt := (List.pairwise_append.1 hs).2.2 (k, r1) (by simp) (k', r2) (by simp)
  have h3 := hB.win.known k r1 (by rw [e1]; simp)
  have h4 := hB.win.known k' r2 (by rw [e1]; simp)
  rw [h2] at h4
  cases h4
  have h5 := h1.key k h3
  have h6 := hA.ids.done r2 i hr
  simp only at hlt
  omega

/-- The claim in full: a listener whose registration returned before any `cancel` began and that nobody disposes has been called exactly once when a `cancel` has
returned and all are over; and one whose registration was disposed before any `cancel` began — a disposal has returned, and all of them are over — is never called. -/
def C147_full_statement : Prop :=
  (∀ (sched sched' : List (Nat × Act)) (a b : State) (r i t : Nat), run step init sched = some a → a.pc r = .rDone i → (∀ u, isCancel (a.pc u) = false) →
    run step a sched' = some b → b.pc t = .cDone → (∀ u, isCancel (b.pc u) = true → (b.pc u).isOpen = false) → (∀ u, disposes r (b.pc u) = false) →
    timesCalled r b = 1) ∧
  (∀ (sched sched' : List (Nat × Act)) (a b : State) (r u : Nat), run step init sched = some a → a.pc u = .uDone r →
    (∀ u, disposes r (a.pc u) = true → (a.pc u).isOpen = false) → (∀ u, isCancel (a.pc u) = false) → run step a sched' = some b → timesCalled r b = 0)

/-- The first part holds exactly for those listeners that no `cancel` still had to call when it was interrupted. -/
theorem C147_called_partial (sched sched' : List (Nat × Act)) (a b : State) (r i t : Nat) (ha : run step init sched = some a) (hr : a.pc r = .rDone i)
    (hc : ∀ u, isCancel (a.pc u) = false) (hb : run step a sched' = some b) (ht : b.pc t = .cDone)
    (hq : ∀ u, isCancel (b.pc u) = true → (b.pc u).isOpen = false) (hu : ∀ u, disposes r (b.pc u) = false) :
    timesCalled r b = 1 ↔ ∀ u, ¬ LostCall r (b.pc u) := by
  have hA := all_run ha
  have hab : run step init (sched ++ sched') = some b := by rw [run_append, ha]; exact hb
  have hB := all_run hab
  have hd : a.isDisposed = false := by
    cases hd : a.isDisposed with
    | false => rfl
    | true => obtain ⟨u, hu⟩ := hA.win.began hd; rw [hc u] at hu; cases hu
  have hk : Keep r i a := by
    refine ⟨hr, ?_⟩
    by_cases hg : r ∈ a.gone
    · exact .inl ((gone_run ha).by_ r hg)
    · exact .inr (.inl ⟨hd, hA.ids.there r i hr hg⟩)
  have hk' := from_run (keep_step r i) hA hk hb
  constructor
  · intro h1 u hl
    obtain ⟨j, hj⟩ := timesCalled_pos.1 (by rw [h1]; exact Nat.one_pos)
    exact lost_not hB hl j hj
  · intro hn
    have hle := timesCalled_le hB r
    rcases hk'.kept with ⟨u, h1⟩ | ⟨h1, _⟩ | h1 | ⟨u, h1⟩ | ⟨u, h1, _⟩
    · rw [hu u] at h1; cases h1
    · rw [hB.win.done t ht] at h1; cases h1
    · have := timesCalled_pos.2 ⟨i, h1⟩
      omega
    · exact absurd (lost_of (hit_run hab) (hq u) (.inl h1)) (hn u)
    · exact absurd (lost_of (i := 0) (hit_run hab) (hq u) (.inr h1)) (hn u)

/-- The second part holds for those registrations of which no disposal was interrupted between its marking the registration and its removing the listener. -/
theorem C147_removed_partial (sched sched' : List (Nat × Act)) (a b : State) (r u : Nat) (ha : run step init sched = some a) (hu : a.pc u = .uDone r)
    (hq : ∀ u, disposes r (a.pc u) = true → (a.pc u).isOpen = false) (hc : ∀ u, isCancel (a.pc u) = false) (hn : ∀ u, ¬ LostRemoval r (a.pc u))
    (hb : run step a sched' = some b) : timesCalled r b = 0 := by
  have hA := all_run ha
  have hG := gone_run ha
  have hd : a.isDisposed = false := by
    cases hd : a.isDisposed with
    | false => rfl
    | true => obtain ⟨u, hu⟩ := hA.win.began hd; rw [hc u] at hu; cases hu
  have hr := hG.over u r hu
  have hs : ∀ i, (i, r) ∉ a.listeners := by
    rcases hG.off r hr with ⟨v, hv⟩ | h
    · exfalso
      unfold halfway at hv
      split at hv
      · rename_i r' i h; rw [beq_iff_eq] at hv; subst hv; have := hq v (by rw [h]; simp [disposes]); rw [h] at this; cases this
      · rename_i r' i h; rw [beq_iff_eq] at hv; subst hv; have := hq v (by rw [h]; simp [disposes]); rw [h] at this; cases this
      · rename_i r' i h; rw [beq_iff_eq] at hv; subst hv; exact hn v ⟨i, .inl h⟩
      · rename_i r' i h; rw [beq_iff_eq] at hv; subst hv; exact hn v ⟨i, .inr h⟩
      · cases hv
    · exact h
  obtain ⟨hq1, hq2⟩ := hA.win.quiet hd
  have ho : Out r a := ⟨hA.ids.gone r hr, hs, fun i h => (by rw [hq1] at h; cases h), fun t i h => (by rw [(hq2 t).2] at h; cases h)⟩
  have ho' := from_run (out_step r) hA ho hb
  cases h0 : timesCalled r b with
  | zero => rfl
  | succ n =>
    obtain ⟨i, hi⟩ := timesCalled_pos.1 (by rw [h0]; exact Nat.succ_pos n)
    exact absurd hi (ho'.uncalled i)

/-- call 0 registers -/
def C147_reg (t : Nat) : List (Nat × Act) := (t, .register) :: List.replicate 7 (t, .go)

/-- call 1 cancels and is interrupted when it has set the flag; call 2 cancels again, and returns -/
def C147_lostCancel : List (Nat × Act) :=
  [(1, .cancel), (1, .go), (1, .go), (1, .go), (1, .interrupt), (2, .cancel), (2, .go), (2, .go), (2, .go), (2, .go)]

/-- The code does not do it: after an interrupted `cancel`, the next one returns without calling anybody. -/
theorem C147_full_statement_false : ¬ C147_full_statement := by
  rintro ⟨h, -⟩
  have := h (C147_reg 0) C147_lostCancel
    ⟨false, none, [(0, 0)], 1, [], _, []⟩ ⟨true, none, [(0, 0)], 1, [], _, []⟩ 0 0 2 rfl rfl ?_ rfl rfl ?_ ?_
  · simp [timesCalled] at this
  · exact fun u => match u with | 0 => rfl | _ + 1 => rfl
  · exact fun u => match u with | 0 => fun h => (by cases h) | 1 => fun _ => rfl | 2 => fun _ => rfl | _ + 3 => fun h => (by cases h)
  · exact fun u => match u with | 0 => rfl | 1 => rfl | 2 => rfl | _ + 3 => rfl

/-- Nor the second part: the disposal 1 is interrupted when it waits for the lock; the disposal 2 returns and does nothing; the listener is called. -/
theorem C147_removal_lost : ∃ a b, run step init (C147_reg 0 ++ [(1, .unregister 0), (1, .go), (1, .interrupt), (2, .unregister 0), (2, .go)]) = some a ∧
    a.pc 2 = .uDone 0 ∧ a.pc 1 = .hit (.uLock 0 0) ∧ run step a ((3, .cancel) :: List.replicate 8 (3, .go)) = some b ∧ b.pc 3 = .cDone ∧ timesCalled 0 b = 1 :=
  ⟨_, _, rfl, rfl, rfl, rfl, rfl, rfl⟩

/-- A callback may be called whose `register` did not return: it was interrupted after it had stored it, and there is no way to dispose it. -/
theorem C147_leaked : ∃ s, run step init ([(0, .register), (0, .go), (0, .go), (0, .go), (0, .go), (0, .interrupt)] ++ (1, .cancel) :: List.replicate 8 (1, .go)) =
    some s ∧ s.pc 0 = .hit (.rIncr 0) ∧ timesCalled 0 s = 1 := ⟨_, rfl, rfl, rfl⟩

/-- But not if another registration comes after it that is stored under the same key: both calls get the key 0. -/
theorem C147_overwritten : ∃ s, run step init ([(0, .register), (0, .go), (0, .go), (0, .go), (0, .go), (0, .interrupt)] ++ C147_reg 1 ++
    (2, .cancel) :: List.replicate 8 (2, .go)) = some s ∧ s.pc 1 = .rDone 0 ∧ timesCalled 0 s = 0 ∧ timesCalled 1 s = 1 ∧ s.pc 2 = .cDone :=
  ⟨_, rfl, rfl, rfl, rfl, rfl⟩

/-- a case of `C147_called_partial` with interrupts: two registrations; the `cancel` 2 is ended by the first listener (a `BaseException`), and has lost the second -/
example : ∃ a b, run step init (C147_reg 0 ++ C147_reg 1) = some a ∧ a.pc 0 = .rDone 0 ∧ a.pc 1 = .rDone 1 ∧
    run step a ([(2, .cancel), (2, .go), (2, .go), (2, .go), (2, .go), (2, .go), (2, .go), (2, .interrupt)] ++ (3, .cancel) :: List.replicate 4 (3, .go)) = some b ∧
    b.pc 3 = .cDone ∧ b.pc 2 = .hit (.inListener [(1, 1)]) ∧ timesCalled 0 b = 1 ∧ timesCalled 1 b = 0 := ⟨_, _, rfl, rfl, rfl, rfl, rfl, rfl, rfl, rfl⟩

/-- a case of `C147_removed_partial` with interrupts: the disposal 1 is interrupted before it has marked the registration, the disposal 3 after it has removed the
listener; a case of `C147_refused`, too: `register` 5 begins when `cancel` 4 has returned -/
example : ∃ a b, run step init (C147_reg 0 ++ [(1, .unregister 0), (1, .interrupt), (3, .unregister 0), (3, .go), (3, .go), (3, .go), (3, .interrupt),
      (2, .unregister 0), (2, .go)]) = some a ∧
    a.pc 2 = .uDone 0 ∧ a.pc 1 = .hit (.uTest 0 0) ∧ a.pc 3 = .hit (.uUnlock 0) ∧
    run step a ((4, .cancel) :: List.replicate 6 (4, .go) ++ [(5, .register), (5, .go)]) = some b ∧ b.pc 4 = .cDone ∧ b.pc 5 = .rRefused ∧ timesCalled 0 b = 0 :=
  ⟨_, _, rfl, rfl, rfl, rfl, rfl, rfl, rfl, rfl⟩

/-- a case of `C147_order`: 0 and 2 register, with an interrupted registration between them -/
example : ∃ a b, run step init (C147_reg 0 ++ [(1, .register), (1, .go), (1, .go), (1, .interrupt)]) = some a ∧ a.pc 0 = .rDone 0 ∧ a.pc 2 = .idle ∧
    run step a (C147_reg 2 ++ (3, .cancel) :: List.replicate 10 (3, .go)) = some b ∧ b.calls.map (·.2) = [0, 2] := ⟨_, _, rfl, rfl, rfl, rfl, rfl⟩

end Expression.Props
