import Verif.Lemmas.Threads
import Verif.Spec.Mailbox

/-! # What the futures of receives hold -/

namespace Expression.Lemmas.Mailbox

open Threads Expression.Mailbox

/-- what the futures hold and what was logged -/
structure Futs (s : State) : Prop where
  fresh : ∀ n, s.next ≤ n → s.fut n = .unused
  got : ∀ n m, s.fut n = .result m ↔ .got n m ∈ s.log
  began : ∀ n, n < s.next ↔ .began n ∈ s.log
  cancelled : ∀ n, s.fut n = .cancelled ↔ .cancelled n ∈ s.log
  gaveUp : ∀ n, s.fut n = .gaveUp ↔ .gaveUp n ∈ s.log
  used : ∀ n, n < s.next → s.fut n ≠ .unused

theorem futs_init : Futs init := by constructor <;> simp [init]

set_option maxHeartbeats 4000000 in
theorem futs_step (s : State) (c : Nat × Act) (s' : State) (h : Futs s) (hc : step s c = some s') : Futs s' := by
  obtain ⟨t, a⟩ := c
  obtain ⟨fresh, got, began, cancelled, gaveUp, used⟩ := h
  cases a <;> simp only [step] at hc
  case go =>
    split at hc
    · cases hc
    all_goals try (split at hc)
    all_goals try (cases hc; done)
    all_goals cases hc
    all_goals constructor <;>
      simp only [State.at, State.say, upd_apply, List.mem_append, List.mem_singleton] <;>
      grind
  all_goals try (split at hc)
  all_goals try (cases hc; done)
  all_goals cases hc
  all_goals constructor <;>
    simp only [State.at, State.say, upd_apply, List.mem_append, List.mem_singleton] <;>
    grind

theorem futs_run {sched : List (Nat × Act)} {s : State} (h : run step init sched = some s) : Futs s :=
  run_inv Futs futs_step futs_init sched h

end Expression.Lemmas.Mailbox
