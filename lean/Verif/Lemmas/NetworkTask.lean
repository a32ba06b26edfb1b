import Verif.Lemmas.NetworkMore

/-! # The task of an agent is where its body is -/

namespace Expression.Lemmas.Network

open Threads Expression.Network

variable {n : Nat} {S M : Type}

/-- the task is where the state of the body says -/
def AtNext (task : Worker.Task) : Worker.Next → Prop
  | .receive within => ∃ k, task = .waiting k within
  | .sleep => task = .sleeping
  | .stop raised => task = .ended raised

structure Placed (b : Body n S M) (a : Worker.State S M) : Prop where
  fits : ∀ st, a.st = some st → AtNext a.task (turn b st).next
  fresh : a.task = .created → a.st = none

theorem placed_turn (b : Body n S M) (a : Worker.State S M) (st : S) : Placed b (Worker.turn a (turn b st)) := by
  have hst : (Worker.turn a (turn b st)).st = some st := (Worker.turn_same a (turn b st)).2.2.2.2.2.2.2.2.2
  have htask : AtNext (Worker.turn a (turn b st)).task (turn b st).next := by
    unfold Worker.turn
    cases (turn b st).next with
    | receive w => exact ⟨_, rfl⟩
    | sleep => rfl
    | stop r => rfl
  refine ⟨fun st' h => ?_, fun h => ?_⟩
  · rw [hst] at h
    cases h
    exact htask
  · rw [h] at htask
    cases hn : (turn b st).next with
    | receive w => rw [hn] at htask; obtain ⟨k, hk⟩ := htask; cases hk
    | sleep => rw [hn] at htask; cases htask
    | stop r => rw [hn] at htask; cases htask

theorem placed_with {b : Body n S M} {a : Worker.State S M} {g : Worker.Got M} (h : a.task ≠ .created) (hp : a.st = none → Placed b a) : Placed b (Worker.resumeWith b.alone a g) := by
  unfold Worker.resumeWith
  cases hs : a.st with
  | none => exact hp hs
  | some st => exact placed_turn b a _

theorem placed_step {b : Body n S M} (a : Worker.State S M) (c : Nat × Worker.Act M) (a' : Worker.State S M) (h : Placed b a) (hc : Worker.step b.alone a c = some a') : Placed b a' := by
  cases hr : Spec.Worker.isResume c with
  | false =>
    obtain ⟨h1, h2, _⟩ := Worker.outside_same hr hc
    exact ⟨fun st hs => by rw [h1]; exact h.fits st (by rw [← h2]; exact hs), fun ht => by rw [h2]; exact h.fresh (by rw [← h1]; exact ht)⟩
  | true =>
    obtain ⟨t, wa⟩ := c
    cases wa <;> first | (cases hr; done) | skip
    rename_i v
    simp only [Worker.step] at hc
    split at hc
    · have keep : ∀ a1 : Worker.State S M, a1.task = a.task → a1.st = a.st → Placed b a1 := fun a1 h1 h2 =>
        ⟨fun st hs => by rw [h1]; exact h.fits st (by rw [← h2]; exact hs), fun ht => by rw [h2]; exact h.fresh (by rw [← h1]; exact ht)⟩
      unfold Worker.resume at hc
      split at hc
      · rename_i ht
        have hst := h.fresh ht
        split at hc
        · cases hc
          exact ⟨fun st hs => (by simp only [hst] at hs; cases hs), fun hs => (by cases hs)⟩
        · cases hc
          exact placed_turn b a _
      · rename_i ht
        split at hc
        · cases hc
          exact placed_with (by simp [ht]) fun _ => keep _ rfl rfl
        · cases hc
          exact placed_with (by simp [ht]) fun _ => keep _ rfl rfl
      · cases hc
      · rename_i k w ht
        split at hc
        · cases hc
          exact placed_with (by simp [ht]) fun _ => keep _ rfl rfl
        · split at hc
          · cases hc
            exact placed_with (by simp [ht]) fun _ => keep _ rfl rfl
          · cases hc
            exact placed_with (by simp [ht]) fun _ => keep _ rfl rfl
          · split at hc
            · cases hc
            · obtain ⟨x, _, rfl⟩ := Option.map_eq_some_iff.1 hc
              exact placed_with (by simp [ht]) fun _ => keep _ rfl rfl
            · cases hc
              exact placed_with (by simp [ht]) fun _ => keep _ rfl rfl
    · cases hc

theorem placed_agent {bs : Fin n → Body n S M} {sched : List (Act n M)} {s : State n S M} (h : run (step bs) init sched = some s) (k : Fin n) : Placed (bs k) (s.agent k) := by
  obtain ⟨ws, hw, _⟩ := alone_run h k
  exact run_inv (Placed (bs k)) placed_step ⟨fun st hs => (by cases hs), fun _ => rfl⟩ ws hw

end Expression.Lemmas.Network
