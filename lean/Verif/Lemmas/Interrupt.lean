import Verif.Spec.Interrupt
import Verif.Lemmas.Disposable

/-! # Invariants of disposables with interrupts -/

namespace Expression.Lemmas.Interrupt

open Threads Spec Expression.Disposable Expression.Interrupt Expression.Lemmas

/-- the flag is set, and nobody is going to start the action -/
structure Lost (s : Disposable.State) : Prop where
  crit : ∀ t, critical (s.stack t) = true ↔ s.owner = some t
  below : ∀ t f fs, s.stack t = f :: fs → acts fs
  disposed : s.isDisposed = true
  never : timesRun s.log = 0
  nobody : ∀ t, won (s.stack t) = false
  idle : ∀ t, .action ∉ s.stack t
  set : ∀ t fs, s.stack t ≠ .set :: fs

theorem below_nil {s : Disposable.State} (h : Lost s) {t : Nat} {f : Frame} {fs : List Frame} (hs : s.stack t = f :: fs) : fs = [] := by
  cases fs with
  | nil => rfl
  | cons g gs =>
    have hg := h.below t f _ hs g List.mem_cons_self
    subst hg
    exact absurd (by rw [hs]; simp) (h.idle t)

theorem lost_step (s : Disposable.State) (c : Nat × Disposable.Act) (s' : Disposable.State) (h : Lost s) (hc : Disposable.step s c = some s') : Lost s' := by
  obtain ⟨t, a⟩ := c
  have hn := fun {t f fs} (hs : s.stack t = f :: fs) => below_nil h hs
  obtain ⟨crit, below, disposed, never, nobody, idle, set⟩ := h
  cases a with
  | dispose =>
    simp only [Disposable.step] at hc
    split at hc
    · rename_i hf
      have h1 := free_not_critical hf
      have h2 := free_not_won hf
      have h3 := acts_stack below hf
      cases hc
      constructor <;> simp only [timesRun_append, upd_apply]
      all_goals grind [critical, free, won]
    · cases hc
  | enter =>
    simp only [Disposable.step] at hc
    split at hc
    · cases hc
      constructor <;> simp only [timesRun_append] <;> grind
    · cases hc
  | go =>
    simp only [Disposable.step] at hc
    split at hc
    · cases hc
    · split at hc
      · cases hc
        constructor <;> simp only [upd_apply] <;> grind [critical, won, free]
      · cases hc
    · split at hc <;> cases hc <;> constructor <;> simp only [upd_apply] <;> grind [critical, won, free]
    · rename_i fs hs
      exact absurd hs (set t fs)
    · rename_i d fs hs
      have h0 := hn hs
      have h4 := nobody t
      rw [hs] at h4
      have hd : d = false := by cases d <;> first | rfl | cases h4
      subst hd
      subst h0
      cases hc
      constructor <;> simp only [upd_apply]
      all_goals grind [critical, won, free]
    · rename_i d fs hs
      have h0 := hn hs
      have h4 := nobody t
      rw [hs] at h4
      have hd : d = false := by cases d <;> first | rfl | cases h4
      subst hd
      subst h0
      rw [if_neg (by decide)] at hc
      cases hc
      constructor <;> simp only [timesRun_append, upd_apply]
      all_goals grind [critical, won, free]
    · rename_i fs hs
      exact absurd (by rw [hs]; simp) (idle t)

/-- the invariant -/
structure IInv (s : Interrupt.State) : Prop where
  phase : (DInv s.obj ∧ ¬ HitInBetween s.hits) ∨ (Lost s.obj ∧ HitInBetween s.hits)

theorem iinv_init : IInv Interrupt.init := ⟨.inl ⟨dinv_init, fun ⟨_, h⟩ => by rcases h with h | h <;> cases h⟩⟩

theorem holds_critical (f : Frame) (fs : List Frame) : critical (f :: fs) = holds f := by cases f <;> rfl

theorem interrupt_dinv {s : Disposable.State} (h : DInv s) {t : Nat} {f : Frame} {fs : List Frame} (hs : s.stack t = f :: fs) (hw : won (f :: fs) = false) :
    DInv { s with owner := if holds f then none else s.owner, stack := upd s.stack t fs } := by
  obtain ⟨crit, set, below, fresh, once, ended, gone, began, began', acting⟩ := h
  have hb := below t _ _ hs
  have h1 := acts_free hb
  have k1 : ∀ gs, fs ≠ .set :: gs := fun gs e => by subst e; cases acts_top hb
  have k2 : ∀ d gs, fs ≠ .unlock d :: gs := fun d gs e => by subst e; cases acts_top hb
  have k3 : ∀ d gs, fs ≠ .decide d :: gs := fun d gs e => by subst e; cases acts_top hb
  have k4 : ∀ g gs, fs = g :: gs → acts gs := fun g gs e => by subst e; exact acts_tail hb
  have h2 := free_not_won h1
  have h3 := free_not_critical h1
  have h4 := holds_critical f fs
  have h5 := crit t
  rw [hs, h4] at h5
  have h6 := began t (by rw [hs]; simp)
  constructor <;> simp only [upd_apply]
  case crit =>
    intro t'
    by_cases ht : t' = t
    · subst ht
      rw [if_pos rfl, h3]
      cases hf : holds f
      · rw [hf] at h5; simpa using h5
      · simp
    · rw [if_neg ht, crit t']
      cases hf : holds f
      · simp
      · rw [hf] at h5
        have := h5.mp rfl
        rw [this]
        simp
        exact fun e => ht e.symm
  case once =>
    intro hd
    rcases once hd with ⟨h7, h8⟩ | ⟨h7, t', h8, h9⟩
    · exact .inl ⟨h7, fun t' => by split <;> simp_all⟩
    · refine .inr ⟨h7, t', ?_, fun t'' ht => ?_⟩
      · by_cases ht : t' = t
        · subst ht; rw [hs, hw] at h8; cases h8
        · rw [if_neg ht]; exact h8
      · split
        · exact h2
        · exact h9 t'' ht
  all_goals grind

theorem interrupt_lost {s : Disposable.State} (h : DInv s) {t : Nat} {f : Frame} {fs : List Frame} (hs : s.stack t = f :: fs) (hw : won (f :: fs) = true) :
    Lost { s with owner := if holds f then none else s.owner, stack := upd s.stack t fs } := by
  have hwt : won (s.stack t) = true := by rw [hs]; exact hw
  have hd : s.isDisposed = true := by
    cases hd : s.isDisposed with
    | true => rfl
    | false => rw [(h.fresh hd).2 t] at hwt; cases hwt
  have hall : timesRun s.log = 0 ∧ ∀ t', t' ≠ t → won (s.stack t') = false := by
    rcases h.once hd with ⟨_, h2⟩ | ⟨h1, t', h2, h3⟩
    · rw [h2 t] at hwt; cases hwt
    · by_cases ht : t = t'
      · subst ht; exact ⟨h1, h3⟩
      · rw [h3 t ht] at hwt; cases hwt
  obtain ⟨crit, set, below, fresh, once, ended, gone, began, began', acting⟩ := h
  have hb := below t _ _ hs
  have h1 := acts_free hb
  have k1 : ∀ gs, fs ≠ .set :: gs := fun gs e => by subst e; cases acts_top hb
  have k2 : ∀ d gs, fs ≠ .unlock d :: gs := fun d gs e => by subst e; cases acts_top hb
  have k3 : ∀ d gs, fs ≠ .decide d :: gs := fun d gs e => by subst e; cases acts_top hb
  have k4 : ∀ g gs, fs = g :: gs → acts gs := fun g gs e => by subst e; exact acts_tail hb
  have h2 := free_not_won h1
  have h3 := free_not_critical h1
  have h4 := holds_critical f fs
  have h5 := crit t
  rw [hs, h4] at h5
  have hni : ∀ t', .action ∉ s.stack t' := fun t' hm => by have := acting t' hm; omega
  constructor <;> simp only [upd_apply]
  case crit =>
    intro t'
    by_cases ht : t' = t
    · subst ht
      rw [if_pos rfl, h3]
      cases hf : holds f
      · rw [hf] at h5; simpa using h5
      · simp
    · rw [if_neg ht, crit t']
      cases hf : holds f
      · simp
      · rw [hf] at h5
        have := h5.mp rfl
        rw [this]
        simp
        exact fun e => ht e.symm
  all_goals grind

theorem lost_interrupt {s : Disposable.State} (h : Lost s) {t : Nat} {f : Frame} {fs : List Frame} (hs : s.stack t = f :: fs) :
    Lost { s with owner := if holds f then none else s.owner, stack := upd s.stack t fs } := by
  have h0 := below_nil h hs
  subst h0
  obtain ⟨crit, below, disposed, never, nobody, idle, set⟩ := h
  have h4 := holds_critical f []
  have h5 := crit t
  rw [hs, h4] at h5
  constructor <;> simp only [upd_apply]
  case crit =>
    intro t'
    by_cases ht : t' = t
    · subst ht
      rw [if_pos rfl]
      cases hf : holds f
      · rw [hf] at h5; simpa [critical] using h5
      · simp [critical]
    · rw [if_neg ht, crit t']
      cases hf : holds f
      · simp
      · rw [hf] at h5
        have := h5.mp rfl
        rw [this]
        simp
        exact fun e => ht e.symm
  all_goals grind [acts, won]

theorem iinv_step (s : Interrupt.State) (c : Nat × Interrupt.Act) (s' : Interrupt.State) (h : IInv s) (hc : Interrupt.step s c = some s') : IInv s' := by
  obtain ⟨t, a⟩ := c
  cases a with
  | act a =>
    simp only [Interrupt.step] at hc
    cases ho : Disposable.step s.obj (t, a) with
    | none => rw [ho] at hc; cases hc
    | some o =>
      rw [ho] at hc
      cases hc
      rcases h.phase with ⟨h, hh⟩ | ⟨h, hh⟩
      · exact ⟨.inl ⟨dinv_step _ _ _ h ho, hh⟩⟩
      · exact ⟨.inr ⟨lost_step _ _ _ h ho, hh⟩⟩
  | interrupt =>
    simp only [Interrupt.step] at hc
    split at hc
    · cases hc
    · rename_i f fs hs
      cases hc
      rcases h.phase with ⟨h, hh⟩ | ⟨h, u, hh⟩
      · cases hw : won (f :: fs) with
        | false =>
          refine ⟨.inl ⟨interrupt_dinv h hs hw, fun ⟨u, hu⟩ => ?_⟩⟩
          rcases hu with hu | hu <;> rcases List.mem_append.1 hu with hu | hu
          · exact hh ⟨u, .inl hu⟩
          · rw [List.mem_singleton] at hu; cases hu; cases hw
          · exact hh ⟨u, .inr hu⟩
          · rw [List.mem_singleton] at hu; cases hu; cases hw
        | true =>
          refine ⟨.inr ⟨interrupt_lost h hs hw, t, ?_⟩⟩
          cases f with
          | unlock d => cases d <;> first | exact .inl (List.mem_append_right _ List.mem_cons_self) | cases hw
          | decide d => cases d <;> first | exact .inr (List.mem_append_right _ List.mem_cons_self) | cases hw
          | _ => cases hw
      · exact ⟨.inr ⟨lost_interrupt h hs, u, hh.imp (fun h => List.mem_append_left _ h) (fun h => List.mem_append_left _ h)⟩⟩

theorem iinv_run {sched : List (Nat × Interrupt.Act)} {s : Interrupt.State} (h : run Interrupt.step Interrupt.init sched = some s) : IInv s :=
  run_inv IInv iinv_step iinv_init sched h

theorem disposed_istep (s : Interrupt.State) (c : Nat × Interrupt.Act) (s' : Interrupt.State) (hd : s.obj.isDisposed = true) (hc : Interrupt.step s c = some s') :
    s'.obj.isDisposed = true := by
  obtain ⟨t, a⟩ := c
  cases a with
  | act a =>
    simp only [Interrupt.step] at hc
    cases ho : Disposable.step s.obj (t, a) with
    | none => rw [ho] at hc; cases hc
    | some o =>
      rw [ho] at hc
      cases hc
      obtain ⟨_, _, h2⟩ := disposed_step _ _ _ ho
      exact (h2 hd).1
  | interrupt =>
    simp only [Interrupt.step] at hc
    split at hc
    · cases hc
    · cases hc; exact hd

/-- the lock is held by a thread whose innermost call stands in the block -/
theorem crit_run {sched : List (Nat × Interrupt.Act)} {s : Interrupt.State} (h : run Interrupt.step Interrupt.init sched = some s) (t : Nat) :
    critical (s.obj.stack t) = true ↔ s.obj.owner = some t := by
  rcases (iinv_run h).phase with ⟨h, _⟩ | ⟨h, _⟩ <;> exact h.crit t

theorem can_go {s : Disposable.State} (crit : ∀ t, critical (s.stack t) = true ↔ s.owner = some t) (t : Nat) (ht : s.stack t ≠ []) :
    ∃ u s', s.stack u ≠ [] ∧ Disposable.step s (u, .go) = some s' := by
  cases ho : s.owner with
  | some u =>
    have hc := (crit u).2 ho
    refine ⟨u, ?_⟩
    rcases hs : s.stack u with _ | ⟨f, fs⟩
    · rw [hs] at hc; cases hc
    · cases f with
      | lock => rw [hs] at hc; cases hc
      | action => rw [hs] at hc; cases hc
      | decide d => rw [hs] at hc; cases hc
      | test => cases hd : s.isDisposed <;> exact ⟨_, by simp, by simp only [Disposable.step, hs, hd]; rfl⟩
      | set => exact ⟨_, by simp, by simp only [Disposable.step, hs]; rfl⟩
      | unlock d => exact ⟨_, by simp, by simp only [Disposable.step, hs]; rfl⟩
  | none =>
    refine ⟨t, ?_⟩
    rcases hs : s.stack t with _ | ⟨f, fs⟩
    · exact absurd hs ht
    · cases f with
      | lock => exact ⟨_, by simp, by simp only [Disposable.step, hs, ho]; rfl⟩
      | test => cases hd : s.isDisposed <;> exact ⟨_, by simp, by simp only [Disposable.step, hs, hd]; rfl⟩
      | set => exact ⟨_, by simp, by simp only [Disposable.step, hs]; rfl⟩
      | unlock d => exact ⟨_, by simp, by simp only [Disposable.step, hs]; rfl⟩
      | decide d => cases d <;> exact ⟨_, by simp, by simp only [Disposable.step, hs]; rfl⟩
      | action => exact ⟨_, by simp, by simp only [Disposable.step, hs]; rfl⟩

/-- the flag is set in every state in which some call has ended -/
theorem ended_run {sched : List (Nat × Interrupt.Act)} {s : Interrupt.State} (h : run Interrupt.step Interrupt.init sched = some s) (t : Nat)
    (ht : .ended t ∈ s.obj.log) : s.obj.isDisposed = true := by
  rcases (iinv_run h).phase with ⟨h, _⟩ | ⟨h, _⟩
  · exact h.ended t ht
  · exact h.disposed

theorem lost_run {sched : List (Nat × Interrupt.Act)} {s s' : Interrupt.State} (hl : Lost s.obj) (h : run Interrupt.step s sched = some s') : Lost s'.obj := by
  refine run_inv (step := Interrupt.step) (fun s => Lost s.obj) (fun s c s' h hc => ?_) hl sched h
  obtain ⟨t, a⟩ := c
  cases a with
  | act a =>
    simp only [Interrupt.step] at hc
    cases ho : Disposable.step s.obj (t, a) with
    | none => rw [ho] at hc; cases hc
    | some o => rw [ho] at hc; cases hc; exact lost_step _ _ _ h ho
  | interrupt =>
    simp only [Interrupt.step] at hc
    split at hc
    · cases hc
    · rename_i f fs hs
      cases hc
      exact lost_interrupt h hs

end Expression.Lemmas.Interrupt
