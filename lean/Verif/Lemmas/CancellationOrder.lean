import Verif.Lemmas.CancellationRace

/-! # Invariants of cancellation with many threads: the order of the calls -/

namespace Expression.Lemmas.Race

open Threads Expression.Cancellation.Race

/-- How a step changes what was called and what will be called. -/
inductive Moves (s s' : State) : Prop where
  /-- not at all -/
  | same (log : calls s'.log = calls s.log) (pending : ∀ t, pendAll (s'.stack t) = pendAll (s.stack t))
  /-- the snapshot -/
  | snap (t : Nat) (fs : List Frame) (before : s.stack t = .cSnap :: fs) (after : s'.stack = upd s.stack t (.cUnlock s.listeners :: fs))
      (log : s'.log = s.log) (flag : s'.isDisposed = s.isDisposed)
  /-- a call -/
  | call (t l : Nat) (ls : List Nat) (fs : List Frame) (before : s.stack t = .cLoop (l :: ls) :: fs) (after : s'.stack = upd s.stack t (.inListener ls :: fs))
      (log : s'.log = s.log ++ [.called l]) (flag : s'.isDisposed = s.isDisposed)

theorem moves_step (s : State) (c : Nat × Act) (s' : State) (hc : step s c = some s') : Moves s s' := by
  obtain ⟨t, a⟩ := c
  have keep : ∀ fs, pendAll fs = pendAll (s.stack t) → ∀ t', pendAll (upd s.stack t fs t') = pendAll (s.stack t') := by
    intro fs h t'
    rw [upd_apply]
    split
    · rename_i h'; rw [h, h']
    · rfl
  cases a <;> simp only [step] at hc
  · split at hc <;> cases hc
    exact .same (by simp [State.say, State.at, calls]) (keep _ rfl)
  · split at hc <;> cases hc
    exact .same (by simp [State.say, State.at, calls]) (keep _ rfl)
  · split at hc <;> cases hc
    exact .same (by simp [State.say, State.at, calls]) (keep _ rfl)
  · split at hc
    · cases hc
    all_goals rename_i hs
    all_goals try (split at hc)
    all_goals try (cases hc; done)
    all_goals cases hc
    all_goals first
      | exact .same (by simp [State.say, State.at, calls]) (keep _ (by rw [hs]; rfl))
      | exact .snap t _ hs rfl rfl rfl
      | exact .call t _ _ _ hs rfl rfl rfl

/-- listeners are in order; nobody is called before the snapshot; from then on the calls and those still to come are in order, in one thread -/
structure Order (s : State) : Prop where
  sorted : s.listeners.Pairwise (· < ·)
  quiet1 : s.isDisposed = false → calls s.log = []
  quiet2 : s.isDisposed = false → ∀ t, pendAll (s.stack t) = []
  quiet3 : ∀ t, snapping (s.stack t) = true → calls s.log = []
  quiet4 : ∀ t, snapping (s.stack t) = true → ∀ t', pendAll (s.stack t') = []
  one : ∃ t, (∀ t', t' ≠ t → pendAll (s.stack t') = []) ∧ (calls s.log ++ pendAll (s.stack t)).Pairwise (· < ·)

theorem order_init : Order init where
  sorted := List.Pairwise.nil
  quiet1 _ := rfl
  quiet2 _ _ := rfl
  quiet3 _ _ := rfl
  quiet4 _ _ _ := rfl
  one := ⟨0, fun _ _ => rfl, List.Pairwise.nil⟩

theorem sorted_step (s : State) (c : Nat × Act) (s' : State) (hl : Lock s) (hf : Facts s) (h : s.listeners.Pairwise (· < ·)) (hc : step s c = some s') :
    s'.listeners.Pairwise (· < ·) := by
  obtain ⟨t, a⟩ := c
  cases a <;> simp only [step] at hc
  · split at hc <;> cases hc; exact h
  · split at hc <;> cases hc; exact h
  · split at hc <;> cases hc; exact h
  · split at hc
    · cases hc
    all_goals rename_i hs
    all_goals try (split at hc)
    all_goals try (cases hc; done)
    all_goals cases hc
    all_goals try exact h
    · show (s.listeners ++ [_]).Pairwise (· < ·)
      rw [List.pairwise_append]
      refine ⟨h, List.pairwise_singleton .., ?_⟩
      intro x hx y hy
      rw [List.mem_singleton.1 hy, hf.store _ _ _ hs]
      rcases hf.small x hx with h | ⟨t', fs', h⟩
      · exact h
      · have h1 := (hl.crit t').1 (by rw [h]; rfl)
        have h2 := (hl.crit t).1 (by rw [hs]; rfl)
        rw [h1] at h2; cases h2
        rw [hs] at h; cases h
    · exact h.filter _

/-- the flag and the snapshot point change only so -/
theorem flag_step (s : State) (c : Nat × Act) (s' : State) (hl : Lock s) (hf : Facts s) (hc : step s c = some s') :
    (s'.isDisposed = false → s.isDisposed = false) ∧ (∀ t, snapping (s'.stack t) = true → snapping (s.stack t) = true ∨ s.isDisposed = false) := by
  obtain ⟨t, a⟩ := c
  have keep : ∀ fs, snapping fs = false → ∀ t', snapping (upd s.stack t fs t') = true → snapping (s.stack t') = true ∨ s.isDisposed = false := by
    intro fs h t' h'
    rw [upd_apply] at h'
    split at h'
    · rw [h] at h'; cases h'
    · exact .inl h'
  cases a <;> simp only [step] at hc
  · split at hc <;> cases hc
    exact ⟨id, keep _ rfl⟩
  · split at hc <;> cases hc
    exact ⟨id, keep _ rfl⟩
  · split at hc <;> cases hc
    exact ⟨id, keep _ rfl⟩
  · split at hc
    · cases hc
    all_goals rename_i hs
    all_goals have hp := free_not_snapping (listening_free (hl.below _ _ _ hs))
    all_goals try (split at hc)
    all_goals try (cases hc; done)
    all_goals cases hc
    all_goals first
      | exact ⟨id, keep _ rfl⟩
      | exact ⟨id, keep _ hp⟩
      | exact ⟨fun _ => hf.set _ _ hs, fun _ _ => .inr (hf.set _ _ hs)⟩

theorem order_step (s : State) (c : Nat × Act) (s' : State) (hl : Lock s) (hf : Facts s) (h : Order s) (hc : step s c = some s') : Order s' := by
  have hso := sorted_step s c s' hl hf h.sorted hc
  have hfl := flag_step s c s' hl hf hc
  have hl' := lock_step s c s' hl hc
  obtain ⟨sorted, quiet1, quiet2, quiet3, quiet4, t1, one1, one2⟩ := h
  cases moves_step s c s' hc with
  | same log pending =>
    have key : ∀ t, snapping (s'.stack t) = true → calls s.log = [] ∧ ∀ t', pendAll (s.stack t') = [] := by
      intro t ht
      rcases hfl.2 t ht with h | h
      · exact ⟨quiet3 t h, quiet4 t h⟩
      · exact ⟨quiet1 h, quiet2 h⟩
    refine ⟨hso, fun h => ?_, fun h t => ?_, fun t h => ?_, fun t h t' => ?_, t1, fun t' ht' => ?_, ?_⟩
    · rw [log]; exact quiet1 (hfl.1 h)
    · rw [pending]; exact quiet2 (hfl.1 h) t
    · rw [log]; exact (key t h).1
    · rw [pending]; exact (key t h).2 t'
    · rw [pending]; exact one1 t' ht'
    · rw [log, pending]; exact one2
  | snap t fs before after log flag =>
    have hsn : snapping (s.stack t) = true := by rw [before]; rfl
    have hd := hf.snap t hsn
    have hno : ∀ t', snapping (s'.stack t') = false := by
      intro t'
      refine Bool.eq_false_iff.2 fun h => ?_
      by_cases he : t' = t
      · rw [he, after, upd_same] at h; cases h
      · rw [after, upd_other _ _ he] at h
        have h1 := (hl.crit t').1 (by revert h; cases s.stack t' with | nil => intro h; cases h | cons f _ => cases f <;> first | (intro _; rfl) | (intro h; cases h))
        have h2 := (hl.crit t).1 (by rw [before]; rfl)
        rw [h1] at h2; cases h2; exact he rfl
    refine ⟨hso, fun h => ?_, fun h => ?_, fun t' h => ?_, fun t' h => ?_, t, fun t' ht' => ?_, ?_⟩
    · rw [flag, hd] at h; cases h
    · rw [flag, hd] at h; cases h
    · rw [hno] at h; cases h
    · rw [hno] at h; cases h
    · rw [after, upd_other _ _ ht']; exact quiet4 t hsn t'
    · have hz := quiet4 t hsn t
      rw [before, pendAll_cons] at hz
      rw [log, after, upd_same, pendAll_cons, quiet3 t hsn, (List.append_eq_nil_iff.1 hz).2]
      simpa [pend] using sorted
  | call t l ls fs before after log flag =>
    have hd : s.isDisposed = true := hf.disposed2 _ _ _ before
    have ht : t = t1 := by
      refine Classical.byContradiction fun h => ?_
      have := one1 t h
      rw [before] at this
      cases this
    subst ht
    have hno : ∀ t', snapping (s'.stack t') = false := by
      intro t'
      refine Bool.eq_false_iff.2 fun h => ?_
      by_cases he : t' = t
      · rw [he, after, upd_same] at h; cases h
      · rw [after, upd_other _ _ he] at h
        have := quiet4 t' h t
        rw [before] at this; cases this
    refine ⟨hso, fun h => ?_, fun h => ?_, fun t' h => ?_, fun t' h => ?_, t, fun t' ht' => ?_, ?_⟩
    · rw [flag, hd] at h; cases h
    · rw [flag, hd] at h; cases h
    · rw [hno] at h; cases h
    · rw [hno] at h; cases h
    · rw [after, upd_other _ _ ht']; exact one1 t' ht'
    · rw [log, calls_append, after, upd_same, pendAll_cons]
      rw [before, pendAll_cons] at one2
      simpa [pend, calls] using one2

/-- everything together -/
structure All (s : State) : Prop where
  lock : Lock s
  facts : Facts s
  order : Order s

theorem all_init : All init := ⟨lock_init, facts_init, order_init⟩

theorem all_step (s : State) (c : Nat × Act) (s' : State) (h : All s) (hc : step s c = some s') : All s' :=
  ⟨lock_step s c s' h.lock hc, facts_step s c s' h.lock h.facts hc, order_step s c s' h.lock h.facts h.order hc⟩

theorem all_run {s : State} {sched : List (Nat × Act)} (h : run step init sched = some s) : All s :=
  run_inv All all_step all_init sched h

/-- the log only grows -/
theorem log_step (s : State) (c : Nat × Act) (s' : State) (hc : step s c = some s') : ∃ es, s'.log = s.log ++ es := by
  obtain ⟨t, a⟩ := c
  cases a <;> simp only [step] at hc
  · split at hc <;> cases hc; exact ⟨_, rfl⟩
  · split at hc <;> cases hc; exact ⟨_, rfl⟩
  · split at hc <;> cases hc; exact ⟨_, rfl⟩
  · split at hc
    · cases hc
    all_goals try (split at hc)
    all_goals try (cases hc; done)
    all_goals cases hc
    all_goals first
      | exact ⟨_, rfl⟩
      | exact ⟨[], (List.append_nil _).symm⟩

/-- what becomes of a registered listener that nobody unregisters -/
def Kept (id : Nat) (s : State) : Prop :=
  .unregisterBegan id ∈ s.log ∨ (.registered id ∈ s.log ∧
    (s.isDisposed = false ∨ (∃ t, snapping (s.stack t) = true) ∨ .called id ∈ s.log ∨ ∃ t, id ∈ pendAll (s.stack t)))

/-- the flag is raised only on the way to the snapshot -/
theorem raise_step (s : State) (c : Nat × Act) (s' : State) (hc : step s c = some s') (h : s.isDisposed = false) :
    s'.isDisposed = false ∨ ∃ t, snapping (s'.stack t) = true := by
  obtain ⟨t, a⟩ := c
  cases a <;> simp only [step] at hc
  · split at hc <;> cases hc; exact .inl h
  · split at hc <;> cases hc; exact .inl h
  · split at hc <;> cases hc; exact .inl h
  · split at hc
    · cases hc
    all_goals try (split at hc)
    all_goals try (cases hc; done)
    all_goals cases hc
    all_goals first
      | exact .inl h
      | exact .inr ⟨t, by simp [State.at, upd_same, snapping]⟩

/-- the snapshot point is left only by taking the snapshot -/
theorem leave_step (s : State) (c : Nat × Act) (s' : State) (hc : step s c = some s') (t : Nat) (h : snapping (s.stack t) = true) :
    snapping (s'.stack t) = true ∨ ∃ fs, s'.stack t = .cUnlock s.listeners :: fs := by
  obtain ⟨t', a⟩ := c
  by_cases he : t = t'
  · subst he
    cases hs : s.stack t with
    | nil => rw [hs] at h; cases h
    | cons f fs =>
      rw [hs] at h
      cases f with
      | cSnap =>
        cases a <;> simp only [step, hs, free] at hc <;> first | (cases hc; exact .inr ⟨fs, by simp [State.at, upd_same]⟩) | simp at hc
      | _ => cases h
  · left
    cases a <;> simp only [step] at hc
    · split at hc <;> cases hc; simp only [State.at, State.say]; rwa [upd_other _ _ he]
    · split at hc <;> cases hc; simp only [State.at, State.say]; rwa [upd_other _ _ he]
    · split at hc <;> cases hc; simp only [State.at, State.say]; rwa [upd_other _ _ he]
    · split at hc
      · cases hc
      all_goals try (split at hc)
      all_goals try (cases hc; done)
      all_goals cases hc
      all_goals (simp only [State.at, State.say]; rwa [upd_other _ _ he])

theorem kept_step (id : Nat) (s : State) (c : Nat × Act) (s' : State) (ha : All s) (h : Kept id s) (hc : step s c = some s') : Kept id s' := by
  obtain ⟨es, hlog⟩ := log_step s c s' hc
  have grow : ∀ e, e ∈ s.log → e ∈ s'.log := fun e he => hlog ▸ List.mem_append_left _ he
  rcases h with h | ⟨hr, h⟩
  · exact .inl (grow _ h)
  by_cases hu : .unregisterBegan id ∈ s'.log
  · exact .inl hu
  refine .inr ⟨grow _ hr, ?_⟩
  rcases h with h | ⟨t, h⟩ | h | ⟨t, h⟩
  · rcases raise_step s c s' hc h with h | h
    · exact .inl h
    · exact .inr (.inl h)
  · rcases leave_step s c s' hc t h with h | ⟨fs, h⟩
    · exact .inr (.inl ⟨t, h⟩)
    · refine .inr (.inr (.inr ⟨t, ?_⟩))
      rw [h, pendAll_cons]
      exact List.mem_append_left _ (ha.facts.reg id hr fun h => hu (grow _ h))
  · exact .inr (.inr (.inl (grow _ h)))
  · cases moves_step s c s' hc with
    | same log pending => exact .inr (.inr (.inr ⟨t, by rw [pending]; exact h⟩))
    | snap t' fs before after log flag =>
      have hsn : snapping (s.stack t') = true := by rw [before]; rfl
      rw [ha.order.quiet4 t' hsn t] at h
      cases h
    | call t' l ls fs before after log flag =>
      by_cases he : t = t'
      · subst he
        rw [before, pendAll_cons] at h
        rcases List.mem_append.1 h with h | h
        · rcases List.mem_cons.1 h with rfl | h
          · exact .inr (.inr (.inl (by rw [log]; simp)))
          · exact .inr (.inr (.inr ⟨t, by rw [after, upd_same, pendAll_cons]; exact List.mem_append_left _ h⟩))
        · exact .inr (.inr (.inr ⟨t, by rw [after, upd_same, pendAll_cons]; exact List.mem_append_right _ h⟩))
      · exact .inr (.inr (.inr ⟨t, by rw [after, upd_other _ _ he]; exact h⟩))

theorem kept_run {id : Nat} {a b : State} {sched : List (Nat × Act)} (ha : All a) (hk : Kept id a) (h : run step a sched = some b) : All b ∧ Kept id b :=
  run_inv (fun s => All s ∧ Kept id s) (fun s c s' h hc => ⟨all_step s c s' h.1 hc, kept_step id s c s' h.1 h.2 hc⟩) ⟨ha, hk⟩ sched h

end Expression.Lemmas.Race
