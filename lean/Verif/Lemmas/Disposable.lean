import Verif.Lemmas.Threads
import Verif.Spec.Disposable

/-! # Invariants of disposables -/

namespace Expression.Lemmas

open Threads Spec Expression.Disposable

theorem timesRun_append (l : List Event) (e : Event) : timesRun (l ++ [e]) = timesRun l + (match e with | .ran _ => 1 | _ => 0) := by
  rw [timesRun, List.countP_append]
  cases e <;> rfl

/-- in the `with` block -/
def critical : List Frame → Bool
  | .test :: _ => true
  | .set :: _ => true
  | .unlock _ :: _ => true
  | _ => false

/-- about to start the action -/
def won : List Frame → Bool
  | .unlock true :: _ => true
  | .decide true :: _ => true
  | _ => false

/-- only actions -/
def acts (fs : List Frame) : Prop := ∀ g ∈ fs, g = .action

theorem free_not_critical {fs : List Frame} (h : free fs = true) : critical fs = false := by
  unfold free at h; split at h <;> first | rfl | cases h

theorem free_not_won {fs : List Frame} (h : free fs = true) : won fs = false := by
  unfold free at h; split at h <;> first | rfl | cases h

theorem acts_free {fs : List Frame} (h : acts fs) : free fs = true := by
  cases fs with
  | nil => rfl
  | cons f fs => rw [h f (List.mem_cons_self ..)]; rfl

theorem free_acts {f : Frame} {fs : List Frame} (h : free (f :: fs) = true) (h' : acts fs) : acts (f :: fs) := by
  intro g hg
  rcases List.mem_cons.1 hg with rfl | hg
  · unfold free at h; split at h <;> simp_all
  · exact h' g hg

structure DInv (s : State) : Prop where
  crit : ∀ t, critical (s.stack t) = true ↔ s.owner = some t
  set : ∀ t fs, s.stack t = .set :: fs → s.isDisposed = false
  below : ∀ t f fs, s.stack t = f :: fs → acts fs
  fresh : s.isDisposed = false → timesRun s.log = 0 ∧ ∀ t, won (s.stack t) = false
  once : s.isDisposed = true → (timesRun s.log = 1 ∧ ∀ t, won (s.stack t) = false) ∨
    (timesRun s.log = 0 ∧ ∃ t, won (s.stack t) = true ∧ ∀ t', t' ≠ t → won (s.stack t') = false)
  ended : ∀ t, .ended t ∈ s.log → s.isDisposed = true
  gone : ∀ t fs, s.stack t = .unlock false :: fs ∨ s.stack t = .decide false :: fs ∨ .action ∈ s.stack t → s.isDisposed = true
  began : ∀ t, s.stack t ≠ [] → ∃ t, .began t ∈ s.log
  began' : s.isDisposed = true → ∃ t, .began t ∈ s.log
  acting : ∀ t, .action ∈ s.stack t → timesRun s.log = 1

theorem dinv_init : DInv init where
  crit t := by simp [init, critical]
  set t fs h := by cases h
  below t f fs h := by cases h
  fresh _ := ⟨rfl, fun _ => rfl⟩
  once h := by cases h
  ended t h := by cases h
  gone t fs h := by rcases h with h | h | h <;> cases h
  began t h := absurd rfl h
  began' h := by cases h
  acting t h := by cases h

theorem acts_tail {f : Frame} {fs : List Frame} (h : acts (f :: fs)) : acts fs := fun g hg => h g (List.mem_cons_of_mem _ hg)

theorem acts_stack {s : State} (below : ∀ t f fs, s.stack t = f :: fs → acts fs) {t : Nat} (h : free (s.stack t) = true) : acts (s.stack t) := by
  cases hs : s.stack t with
  | nil => intro g hg; cases hg
  | cons f fs => rw [hs] at h; exact free_acts h (below t f fs hs)

theorem acts_top {f : Frame} {fs : List Frame} (h : acts (f :: fs)) : f = .action := h f (List.mem_cons_self ..)

theorem dinv_step (s : State) (c : Nat × Act) (s' : State) (h : DInv s) (hc : step s c = some s') : DInv s' := by
  obtain ⟨t, a⟩ := c
  obtain ⟨crit, set, below, fresh, once, ended, gone, began, began', acting⟩ := h
  cases a with
  | dispose =>
    simp only [step] at hc
    split at hc
    · rename_i hf
      have h1 := free_not_critical hf
      have h2 := free_not_won hf
      have h3 := acts_stack below hf
      cases hc
      constructor <;> simp only [timesRun_append, upd_apply]
      all_goals grind [critical, free, won]
    · cases hc
  | enter =>
    simp only [step] at hc
    split at hc
    · split at hc <;> cases hc <;> constructor <;> simp only [timesRun_append] <;> grind
    · cases hc
  | go =>
    simp only [step] at hc
    split at hc
    · cases hc
    · split at hc
      · cases hc
        constructor <;> simp only [upd_apply] <;> grind [critical, won, free]
      · cases hc
    · split at hc <;> cases hc <;> constructor <;> simp only [upd_apply] <;> grind [critical, won, free]
    · rename_i fs hs
      have h4 := set t fs hs
      have h5 := fresh h4
      have h6 := began t (by rw [hs]; simp)
      cases hc
      constructor <;> simp only [upd_apply]
      case once =>
        intro _
        exact .inr ⟨h5.1, t, by simp [won], fun t' ht => by simp only [if_neg ht]; exact h5.2 t'⟩
      all_goals grind [critical, won, free]
    · rename_i d fs hs
      have hb := began t (by rw [hs]; simp)
      have hd : won (.decide d :: fs) = won (s.stack t) := by rw [hs]; cases d <;> rfl
      have h6 : (s.stack t).tail = fs := by rw [hs]; rfl
      cases hc
      constructor <;> simp only [upd_apply]
      case once =>
        intro h
        rcases once h with ⟨h1, h2⟩ | ⟨h1, t', h2, h3⟩
        · exact .inl ⟨h1, fun t' => by split <;> grind⟩
        · exact .inr ⟨h1, t', by split <;> grind, fun t'' ht => by split <;> grind⟩
      all_goals grind [critical, won, free]
    · rename_i d fs hs
      have hb := below t _ _ hs
      have h1 := acts_free hb
      have h2 := free_not_won h1
      have h3 := free_not_critical h1
      split at hc
      · rename_i hd
        subst hd
        have hw : won (s.stack t) = true := by rw [hs]; rfl
        have hdisp : s.isDisposed = true := by
          cases h : s.isDisposed with
          | true => rfl
          | false => rw [(fresh h).2 t] at hw; cases hw
        have hall : timesRun s.log = 0 ∧ ∀ t', t' ≠ t → won (s.stack t') = false := by
          rcases once hdisp with ⟨_, h2⟩ | ⟨h1, t', h2, h3⟩
          · rw [h2 t] at hw; cases hw
          · by_cases ht : t = t'
            · subst ht; exact ⟨h1, h3⟩
            · rw [h3 t ht] at hw; cases hw
        cases hc
        constructor <;> simp only [timesRun_append, upd_apply]
        all_goals grind [critical, won, free, acts]
      · rename_i hd
        have hd : d = false := by simpa using hd
        subst hd
        have hg := gone t fs (.inr (.inl hs))
        cases hc
        constructor <;> simp only [timesRun_append, upd_apply]
        all_goals grind [critical, won, free, acts]
    · rename_i fs hs
      have hb := below t _ _ hs
      have h1 := acts_free hb
      have h2 := free_not_won h1
      have h3 := free_not_critical h1
      cases hc
      constructor <;> simp only [timesRun_append, upd_apply]
      all_goals grind [critical, won, free, acts]

theorem dinv_run {sched : List (Nat × Act)} {s : State} (h : run step init sched = some s) : DInv s := run_inv DInv dinv_step dinv_init sched h

/-- the log only grows; once disposed, nobody enters any more, and the object stays disposed -/
theorem disposed_step (s : State) (c : Nat × Act) (s' : State) (h : step s c = some s') :
    ∃ new, s'.log = s.log ++ new ∧ (s.isDisposed = true → s'.isDisposed = true ∧ ∀ t, .entered t ∉ new) := by
  obtain ⟨t, a⟩ := c
  cases a <;> simp only [step] at h
  · split at h
    · cases h; exact ⟨_, rfl, by simp⟩
    · cases h
  · split at h
    · split at h
      · cases h; exact ⟨_, rfl, by simp⟩
      · cases h; exact ⟨_, rfl, by simp_all⟩
    · cases h
  · split at h
    · cases h
    · split at h
      · cases h; exact ⟨[], by simp, by simp⟩
      · cases h
    · split at h <;> cases h <;> exact ⟨[], by simp, by simp⟩
    · cases h; exact ⟨[], by simp, by simp⟩
    · cases h; exact ⟨[], by simp, by simp⟩
    · split at h <;> cases h <;> exact ⟨_, rfl, by simp⟩
    · cases h; exact ⟨_, rfl, by simp⟩

theorem disposed_run {s s' : State} (sched : List (Nat × Act)) (hd : s.isDisposed = true) (h : run step s sched = some s') :
    ∃ new, s'.log = s.log ++ new ∧ ∀ t, .entered t ∉ new := by
  have := run_inv (step := step) (fun x => x.isDisposed = true ∧ ∃ new, x.log = s.log ++ new ∧ ∀ t, .entered t ∉ new) (s := s) (s' := s') ?_
    ⟨hd, [], by simp, by simp⟩ sched h
  · exact this.2
  · rintro x c x' ⟨hx, new, hn, ht⟩ hc
    obtain ⟨new', h1, h2⟩ := disposed_step x c x' hc
    obtain ⟨h3, h4⟩ := h2 hx
    refine ⟨h3, new ++ new', by rw [h1, hn, List.append_assoc], fun t hm => ?_⟩
    rcases List.mem_append.1 hm with hm | hm
    · exact ht t hm
    · exact h4 t hm

/-- how many more moves a call takes at most -/
def Frame.left : Frame → Nat
  | .lock => 6
  | .test => 5
  | .set => 4
  | .unlock _ => 3
  | .decide _ => 2
  | .action => 1

theorem moves_step (t : Nat) (p : List (Nat × Act)) (s : State) (c : Nat × Act) (s' : State)
    (h : movesBy t p + ((s.stack t).map Frame.left).sum ≤ 6 * callsBy t p) (hc : step s c = some s') :
    movesBy t (p ++ [c]) + ((s'.stack t).map Frame.left).sum ≤ 6 * callsBy t (p ++ [c]) := by
  obtain ⟨u, a⟩ := c
  have e1 : movesBy t (p ++ [(u, a)]) = movesBy t p + (if u = t ∧ a = .go then 1 else 0) := by
    rw [movesBy, List.countP_append]
    simp [movesBy, List.countP_cons, Prod.ext_iff]
  have e2 : callsBy t (p ++ [(u, a)]) = callsBy t p + (if u = t ∧ a = .dispose then 1 else 0) := by
    rw [callsBy, List.countP_append]
    simp [callsBy, List.countP_cons, Prod.ext_iff]
  rw [e1, e2]
  by_cases hut : u = t
  · subst hut
    cases a <;> simp only [step] at hc
    · split at hc
      · cases hc
        simp only [upd_same, List.map_cons, List.sum_cons, Frame.left]
        simp; omega
      · cases hc
    · split at hc
      · split at hc <;> cases hc <;> simp <;> omega
      · cases hc
    · split at hc
      · cases hc
      · rename_i hs
        split at hc
        · cases hc; rw [hs] at h; simp only [List.map_cons, List.sum_cons, Frame.left, upd_same] at h ⊢; simp; omega
        · cases hc
      · rename_i hs
        split at hc <;> cases hc <;> rw [hs] at h <;> simp only [List.map_cons, List.sum_cons, Frame.left, upd_same] at h ⊢ <;> simp <;> omega
      · rename_i hs
        cases hc; rw [hs] at h; simp only [List.map_cons, List.sum_cons, Frame.left, upd_same] at h ⊢; simp; omega
      · rename_i hs
        cases hc; rw [hs] at h; simp only [List.map_cons, List.sum_cons, Frame.left, upd_same] at h ⊢; simp; omega
      · rename_i hs
        split at hc <;> cases hc <;> rw [hs] at h <;> simp only [List.map_cons, List.sum_cons, Frame.left, upd_same] at h ⊢ <;> simp <;> omega
      · rename_i hs
        cases hc; rw [hs] at h; simp only [List.map_cons, List.sum_cons, Frame.left, upd_same] at h ⊢; simp; omega
  · have ht : t ≠ u := fun e => hut e.symm
    have hs : s'.stack t = s.stack t := by
      cases a <;> simp only [step] at hc
      · split at hc
        · cases hc; exact upd_other _ _ ht
        · cases hc
      · split at hc
        · split at hc <;> cases hc <;> rfl
        · cases hc
      · split at hc
        · cases hc
        · split at hc
          · cases hc; exact upd_other _ _ ht
          · cases hc
        · split at hc <;> cases hc <;> exact upd_other _ _ ht
        · cases hc; exact upd_other _ _ ht
        · cases hc; exact upd_other _ _ ht
        · split at hc <;> cases hc <;> exact upd_other _ _ ht
        · cases hc; exact upd_other _ _ ht
    rw [hs]; simp only [hut, false_and, if_false]; omega

/-! ## tasks -/

structure ADInv (s : AsyncDisposable.State) : Prop where
  fresh : s.isDisposed = false → timesRun s.log = 0
  once : s.isDisposed = true → timesRun s.log = 1
  ended : ∀ t, .ended t ∈ s.log → s.isDisposed = true
  began : s.isDisposed = true → ∃ t, .began t ∈ s.log
  began' : ∀ t, .began t ∈ s.log → s.isDisposed = true
  busy : ∀ t, s.running t ≠ 0 → s.isDisposed = true

theorem adinv_init : ADInv AsyncDisposable.init where
  fresh _ := rfl
  once h := by cases h
  ended t h := by cases h
  began h := by cases h
  began' t h := by cases h
  busy t h := absurd rfl h

theorem timesRun_append2 (l : List Event) (e e' : Event) : timesRun (l ++ [e, e']) = timesRun l + (match e with | .ran _ => 1 | _ => 0) + (match e' with | .ran _ => 1 | _ => 0) := by
  rw [show l ++ [e, e'] = (l ++ [e]) ++ [e'] by simp, timesRun_append, timesRun_append]

theorem adinv_step (s : AsyncDisposable.State) (c : Nat × Act) (s' : AsyncDisposable.State) (h : ADInv s) (hc : AsyncDisposable.step s c = some s') : ADInv s' := by
  obtain ⟨t, a⟩ := c
  obtain ⟨fresh, once, ended, began, began', busy⟩ := h
  cases a <;> simp only [AsyncDisposable.step] at hc
  · split at hc <;> cases hc <;> constructor <;> simp only [timesRun_append2, upd_apply] <;> grind
  · split at hc <;> cases hc <;> constructor <;> simp only [timesRun_append] <;> grind
  · split at hc
    · cases hc
    · cases hc
      constructor <;> simp only [timesRun_append, upd_apply] <;> grind

theorem adinv_run {sched : List (Nat × Act)} {s : AsyncDisposable.State} (h : run AsyncDisposable.step AsyncDisposable.init sched = some s) : ADInv s :=
  run_inv ADInv adinv_step adinv_init sched h

theorem begun_append (t : Nat) (l : List Event) (e : Event) : begun t (l ++ [e]) = begun t l + if e = .began t then 1 else 0 := by
  simp only [begun, List.countP_append, List.countP_singleton, beq_iff_eq]

theorem finished_append (t : Nat) (l : List Event) (e : Event) : finished t (l ++ [e]) = finished t l + if e = .ended t then 1 else 0 := by
  simp only [finished, List.countP_append, List.countP_singleton, beq_iff_eq]

theorem begun_append2 (t : Nat) (l : List Event) (e e' : Event) :
    begun t (l ++ [e, e']) = begun t l + (if e = .began t then 1 else 0) + if e' = .began t then 1 else 0 := by
  rw [show l ++ [e, e'] = (l ++ [e]) ++ [e'] by simp, begun_append, begun_append]

theorem finished_append2 (t : Nat) (l : List Event) (e e' : Event) :
    finished t (l ++ [e, e']) = finished t l + (if e = .ended t then 1 else 0) + if e' = .ended t then 1 else 0 := by
  rw [show l ++ [e, e'] = (l ++ [e]) ++ [e'] by simp, finished_append, finished_append]

/-- the open calls of a task are those in which it awaits the action -/
theorem acalls_run {sched : List (Nat × Act)} {s : AsyncDisposable.State} (h : run AsyncDisposable.step AsyncDisposable.init sched = some s) (u : Nat) :
    begun u s.log = finished u s.log + s.running u := by
  refine run_inv (step := AsyncDisposable.step) (fun s => begun u s.log = finished u s.log + s.running u) (fun s c s' h hc => ?_) rfl sched h
  obtain ⟨t, a⟩ := c
  cases a <;> simp only [AsyncDisposable.step] at hc
  · split at hc <;> cases hc <;> simp only [begun_append2, finished_append2, upd_apply] <;> grind
  · split at hc <;> cases hc <;> simp only [begun_append, finished_append] <;> grind
  · split at hc
    · cases hc
    · cases hc
      simp only [begun_append, finished_append, upd_apply]
      grind

/-- the open calls of a thread are the frames of its stack -/
theorem calls_run {sched : List (Nat × Act)} {s : State} (h : run step init sched = some s) (u : Nat) :
    begun u s.log = finished u s.log + (s.stack u).length := by
  refine run_inv (step := step) (fun s => begun u s.log = finished u s.log + (s.stack u).length) (fun s c s' h hc => ?_) rfl sched h
  obtain ⟨t, a⟩ := c
  cases a <;> simp only [step] at hc
  · split at hc <;> cases hc
    simp only [begun_append, finished_append, upd_apply]
    grind
  · split at hc
    · split at hc <;> cases hc <;> simp only [begun_append, finished_append] <;> grind
    · cases hc
  · split at hc
    · cases hc
    all_goals try split at hc
    all_goals cases hc
    all_goals simp only [begun_append, finished_append, upd_apply]
    all_goals grind

end Expression.Lemmas
