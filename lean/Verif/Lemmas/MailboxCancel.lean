import Verif.Lemmas.MailboxLoop

/-! # Invariants of the mailbox: after a cancellation; progress -/

namespace Expression.Lemmas.Mailbox

open Threads Spec.Mailbox Expression.Mailbox

/-! ## after a cancellation -/

/-- nobody is past the test of the token -/
structure Shut (old : List Nat) (s : State) : Prop where
  token : s.token = true
  past : ∀ t, past (s.pc t) = false
  same : delivered s.log = old

theorem shut_step (old : List Nat) (s : State) (c : Nat × Act) (s' : State) (h : Shut old s) (hc : step s c = some s') : Shut old s' := by
  obtain ⟨t, a⟩ := c
  obtain ⟨token, hpast, same⟩ := h
  have hp := hpast t
  have keep : ∀ p, past p = false → ∀ t', past (upd s.pc t p t') = false := by
    intro p h t'
    rw [upd_apply]; split
    · exact h
    · exact hpast t'
  cases a <;> simp only [step] at hc
  case go =>
    split at hc
    · cases hc
    all_goals rename_i hs
    all_goals rw [hs] at hp
    all_goals try (cases hp; done)
    all_goals try (rw [if_pos token] at hc)
    all_goals try (split at hc)
    all_goals try (cases hc; done)
    all_goals cases hc
    all_goals exact ⟨token, keep _ rfl, by simpa [State.at, State.say, delivered_append, delivered] using same⟩
  all_goals try (split at hc)
  all_goals try (cases hc; done)
  all_goals cases hc
  all_goals first
    | exact ⟨token, keep _ rfl, by simpa [State.at, State.say, delivered_append, delivered] using same⟩
    | exact ⟨rfl, hpast, by simpa [State.at, State.say, delivered_append, delivered] using same⟩
    | exact ⟨token, hpast, by simpa [State.at, State.say, delivered_append, delivered] using same⟩

/-- the receive in hand, for cancelling -/
def holds : Pc → Option Nat
  | .rSet n => some n
  | .rSetCancel n => some n
  | .cCall c => c
  | _ => none

/-- a waiting receive can be cancelled -/
structure Canc (s : State) : Prop where
  c1 : ∀ n, s.fut n = .pending → s.cancel = some n ∨ holds (s.pc 0) = some n
  c2 : ∀ n, s.pc 0 = .rSetCancel n → s.cont = some n
  c3 : ∀ c, s.pc 0 = .cWrite c → c = s.cancel
  c4 : ∀ c, s.pc 0 = .cCall c → s.cancel = none

theorem canc_init : Canc init where
  c1 n h := by cases h
  c2 n h := by cases h
  c3 n h := by cases h
  c4 n h := by cases h

set_option maxHeartbeats 4000000 in
theorem canc_step (s : State) (c : Nat × Act) (s' : State) (hP : Allowed c) (hl : Loop s) (h : Canc s) (hc : step s c = some s') : Canc s' := by
  obtain ⟨t, a⟩ := c
  obtain ⟨c1, c2, c3, c4⟩ := h
  have pend := hl.pend
  have zero : s.pc t ≠ .idle → s.pc t ≠ .sched → t = 0 := by
    intro h1 h2
    by_cases ht : t = 0
    · exact ht
    · rcases hl.others t ht with h | h
      · exact absurd h h1
      · exact absurd h h2
  clear hl
  simp only [Allowed] at hP
  cases a <;> simp only [step] at hc
  case go =>
    split at hc
    · cases hc
    · rename_i hs
      cases hc
      constructor <;> simp only [State.at, State.say, upd_apply] <;> grind [holds, target]
    all_goals rename_i hs
    all_goals obtain rfl : t = 0 := zero (by rw [hs]; simp) (by rw [hs]; simp)
    all_goals try (split at hc)
    all_goals try (cases hc; done)
    all_goals cases hc
    all_goals constructor <;> simp only [State.at, State.say, upd_apply, if_true] <;> grind [holds, target]
  all_goals try (split at hc)
  all_goals try (cases hc; done)
  all_goals cases hc
  all_goals constructor <;> simp only [State.at, State.say, upd_apply] <;> grind [holds, target]

/-- will cancel the waiting receive -/
def coming : Pc → Bool
  | .rSet _ => true
  | .rSetCancel _ => true
  | .test => true
  | .cRead => true
  | .cWrite _ => true
  | .cCall _ => true
  | _ => false

/-- from a cancellation on: a message posted since then will end the waiting receive -/
structure Aft (k : Nat) (s : State) : Prop where
  token : s.token = true
  notPast : past (s.pc 0) = false
  aft : k < (posted s.log).length → ∀ n, s.fut n = .pending → 0 < s.scheduled ∨ Posting s.pc ∨ coming (s.pc 0) = true

set_option maxHeartbeats 4000000 in
theorem aft_step (k : Nat) (s : State) (c : Nat × Act) (s' : State) (hP : Allowed c) (hl : Loop s) (hk : Canc s) (h : Aft k s) (hc : step s c = some s') : Aft k s' := by
  obtain ⟨t, a⟩ := c
  obtain ⟨token, notPast, aft⟩ := h
  obtain ⟨c1, c2, c3, c4⟩ := hk
  have pend := hl.pend
  have zero : s.pc t ≠ .idle → s.pc t ≠ .sched → t = 0 := by
    intro h1 h2
    by_cases ht : t = 0
    · exact ht
    · rcases hl.others t ht with h | h
      · exact absurd h h1
      · exact absurd h h2
  clear hl
  have new := posting_new s.pc t
  have keep := posting_upd s.pc t
  have u0 : ∀ p, upd s.pc 0 p 0 = p := fun p => upd_same ..
  have u1 : ∀ p, t ≠ 0 → upd s.pc t p 0 = s.pc 0 := fun p h => upd_other _ _ (Ne.symm h)
  simp only [Allowed] at hP
  have lem : ∀ m, (posted (s.log ++ [.posted m])).length = (posted s.log).length + 1 := fun m => by simp [posted_append, posted]
  have lem2 : ∀ e, (∀ m, e ≠ .posted m) → posted (s.log ++ [e]) = posted s.log := fun e h => by
    rw [posted_append]; cases e <;> simp [posted] at h ⊢
  have f0 : ∀ n f, upd s.fut n f n = f := fun n f => upd_same ..
  have f1 : ∀ n n' f, n' ≠ n → upd s.fut n f n' = s.fut n' := fun n n' f h => upd_other _ _ h
  cases a <;> simp only [step] at hc
  case go =>
    split at hc
    · cases hc
    · rename_i hs
      cases hc
      constructor <;> simp only [State.at, State.say] <;> grind [past, coming, holds]
    all_goals rename_i hs
    all_goals obtain rfl : t = 0 := zero (by rw [hs]; simp) (by rw [hs]; simp)
    all_goals try (split at hc)
    all_goals try (cases hc; done)
    all_goals cases hc
    all_goals constructor <;> simp only [State.at, State.say] <;> grind [past, coming, holds]
  all_goals try (split at hc)
  all_goals try (cases hc; done)
  all_goals cases hc
  all_goals constructor <;> simp only [State.at, State.say] <;> grind [past, coming, holds]

/-- all that holds when only the event loop processes events -/
structure LoopAll (s : State) : Prop where
  acc : Acc s
  ord : Ord s
  loop : Loop s
  wake : Wake s
  canc : Canc s

theorem loopAll_init : LoopAll init := ⟨acc_init, ord_init, loop_init, ⟨fun h => absurd rfl h⟩, canc_init⟩

theorem loopAll_step (s : State) (c : Nat × Act) (s' : State) (hP : Allowed c) (h : LoopAll s) (hc : step s c = some s') : LoopAll s' :=
  ⟨acc_step s c s' h.acc hc, ord_step s c s' h.acc h.ord hc, loop_step s c s' hP h.ord h.loop hc, wake_step s c s' hP h.loop h.wake hc,
    canc_step s c s' hP h.loop h.canc hc⟩

theorem loopAll_run {sched : List (Nat × Act)} {s : State} (hs : loopAsks sched) (h : run step init sched = some s) : LoopAll s :=
  run_inv_on Allowed LoopAll loopAll_step loopAll_init sched (allowed_of hs) h

theorem aft_run {k : Nat} {sched : List (Nat × Act)} {a b : State} (hs : loopAsks sched) (hl : LoopAll a) (ha : Aft k a) (h : run step a sched = some b) : Aft k b :=
  (run_inv_on Allowed (fun s => LoopAll s ∧ Aft k s) (fun s c s' hP h hc => ⟨loopAll_step s c s' hP h.1 hc, aft_step k s c s' hP h.1.loop h.1.canc h.2 hc⟩)
    ⟨hl, ha⟩ sched (allowed_of hs) h).2

/-! ## progress -/

theorem can_go {s : State} (ha : Acc s) {t : Nat} (h : s.pc t ≠ .idle) (hw : s.pc t = .lock → s.owner = none) : (step s (t, .go)).isSome = true := by
  simp only [step]
  split
  · rename_i hs; exact absurd hs h
  all_goals rename_i hs
  all_goals try (split)
  all_goals try rfl
  · rename_i ho; exact absurd (hw hs) ho
  · rename_i hq; exact absurd hq (ha.get t hs)

theorem someone_goes {s : State} (ha : Acc s) {t : Nat} (h : s.pc t ≠ .idle) : ∃ u, s.pc u ≠ .idle ∧ (step s (u, .go)).isSome = true := by
  cases ho : s.owner with
  | none => exact ⟨t, h, can_go ha h fun _ => ho⟩
  | some u =>
    have hc := (ha.crit u).2 ho
    have hu : s.pc u ≠ .idle := fun h => by rw [h] at hc; cases hc
    exact ⟨u, hu, can_go ha hu fun hl => by rw [hl] at hc; cases hc⟩

/-- the moves left until the call is over -/
def left : Pc → Nat
  | .idle => 0
  | .sched => 1
  | .rCheck => 12
  | .rSet _ => 11
  | .rSetCancel _ => 10
  | .test => 9
  | .cRead => 3
  | .cWrite _ => 2
  | .cCall _ => 1
  | .check => 8
  | .lock => 7
  | .empty => 6
  | .get => 5
  | .read _ => 4
  | .write _ _ => 3
  | .call _ _ => 2
  | .unlock => 1

theorem left_step (t : Nat) (s : State) (c : Nat × Act) (s' : State) (hc : step s c = some s') :
    (c = (t, .go) → left (s'.pc t) + 1 ≤ left (s.pc t)) ∧
      (c.1 = t → c.2 ≠ .go → left (s'.pc t) ≤ left (s.pc t) + 12) ∧ (c.1 ≠ t → s'.pc t = s.pc t) ∧
      (c.2 = .cancelToken ∨ (∃ n, c.2 = .giveUp n) → s'.pc t = s.pc t) := by
  obtain ⟨u, a⟩ := c
  by_cases hu : u = t
  · subst hu
    cases a <;> simp only [step] at hc
    case go =>
      split at hc
      · cases hc
      all_goals rename_i hs
      all_goals try (split at hc)
      all_goals try (cases hc; done)
      all_goals cases hc
      all_goals simp [State.at, State.say, hs, left]
    all_goals try (split at hc)
    all_goals try (cases hc; done)
    all_goals cases hc
    all_goals simp [State.at, State.say, left]
  · have hne : t ≠ u := fun h => hu h.symm
    cases a <;> simp only [step] at hc
    case go =>
      split at hc
      · cases hc
      all_goals try (split at hc)
      all_goals try (cases hc; done)
      all_goals cases hc
      all_goals simp [State.at, State.say, hu, upd_other _ _ hne]
    all_goals try (split at hc)
    all_goals try (cases hc; done)
    all_goals cases hc
    all_goals simp [State.at, State.say, hu, upd_other _ _ hne]

end Expression.Lemmas.Mailbox
