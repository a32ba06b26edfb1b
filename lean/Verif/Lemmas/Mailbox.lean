import Verif.Lemmas.Threads
import Verif.Spec.Mailbox

/-! # Invariants of the mailbox -/

namespace Expression.Lemmas.Mailbox

open Threads Spec.Mailbox Expression.Mailbox

theorem posted_append (l l' : List Event) : posted (l ++ l') = posted l ++ posted l' := by
  induction l with
  | nil => rfl
  | cons e l ih => cases e <;> simp [posted, ih]

theorem delivered_append (l l' : List Event) : delivered (l ++ l') = delivered l ++ delivered l' := by
  induction l with
  | nil => rfl
  | cons e l ih => cases e <;> simp [delivered, ih]

theorem returned_append (l l' : List Event) : returned (l ++ l') = returned l ++ returned l' := by
  induction l with
  | nil => rfl
  | cons e l ih => cases e <;> simp [returned, ih]

theorem drops_append (l l' : List Event) : drops (l ++ l') = drops l + drops l' := by
  induction l with
  | nil => simp [drops]
  | cons e l ih => cases e <;> simp [drops, ih] <;> omega

theorem givenUp_append (l l' : List Event) : givenUp (l ++ l') = givenUp l + givenUp l' := by
  induction l with
  | nil => simp [givenUp]
  | cons e l ih => cases e <;> simp [givenUp, ih] <;> omega

/-- the messages that left the queue for good, in order -/
def handled : List Event → List Nat
  | [] => []
  | .got _ m :: es => m :: handled es
  | .dropped m :: es => m :: handled es
  | _ :: es => handled es

theorem handled_append (l l' : List Event) : handled (l ++ l') = handled l ++ handled l' := by
  induction l with
  | nil => rfl
  | cons e l ih => cases e <;> simp [handled, ih]

theorem delivered_sublist_handled (l : List Event) : (delivered l).Sublist (handled l) := by
  induction l with
  | nil => exact .slnil
  | cons e l ih => cases e <;> simp [delivered, handled, ih]

theorem handled_of_drops (l : List Event) (h : drops l = 0) : handled l = delivered l := by
  induction l with
  | nil => rfl
  | cons e l ih => cases e <;> simp [delivered, handled, drops] at h ⊢ <;> exact ih h

theorem handled_length (l : List Event) : (handled l).length = (delivered l).length + drops l := by
  induction l with
  | nil => rfl
  | cons e l ih => cases e <;> simp [delivered, handled, drops, ih] <;> omega

/-- in the `with` block -/
def critical : Pc → Bool
  | .empty => true
  | .get => true
  | .read _ => true
  | .write _ _ => true
  | .call _ _ => true
  | .unlock => true
  | _ => false

/-- the message in hand -/
def hand : Pc → List Nat
  | .read m => [m]
  | .write m _ => [m]
  | .call m _ => [m]
  | _ => []

/-- in a part only the event loop runs -/
def receiving : Pc → Bool
  | .rCheck => true
  | .rSet _ => true
  | .rSetCancel _ => true
  | _ => false

/-- holds for every schedule: the lock, and the account of the messages -/
structure Acc (s : State) : Prop where
  crit : ∀ t, critical (s.pc t) = true ↔ s.owner = some t
  free : s.owner = none → posted s.log = handled s.log ++ s.queue
  held : ∀ t, s.owner = some t → posted s.log = handled s.log ++ (hand (s.pc t) ++ s.queue)
  get : ∀ t, s.pc t = .get → s.queue ≠ []
  loop : ∀ t, receiving (s.pc t) = true → t = 0

theorem acc_init : Acc init where
  crit t := by simp [init, critical]
  free _ := rfl
  held t h := by cases h
  get t h := by cases h
  loop t h := by cases h

set_option maxHeartbeats 4000000 in
theorem acc_step (s : State) (c : Nat × Act) (s' : State) (h : Acc s) (hc : step s c = some s') : Acc s' := by
  obtain ⟨t, a⟩ := c
  obtain ⟨crit, free, held, get, loop⟩ := h
  have crit0 := crit t
  have loop0 := loop t
  cases a <;> simp only [step] at hc
  case go =>
    split at hc
    · cases hc
    all_goals rename_i hs
    all_goals simp only [hs, critical, receiving] at crit0 loop0
    all_goals try (split at hc)
    all_goals try (cases hc; done)
    all_goals cases hc
    all_goals constructor <;>
      simp only [State.at, State.say, upd_apply, posted_append, handled_append, posted, handled, List.append_nil, List.append_assoc, ne_eq, List.append_eq_nil_iff] <;>
      grind [critical, hand, receiving]
  all_goals try (split at hc)
  all_goals try (cases hc; done)
  all_goals cases hc
  all_goals constructor <;>
    simp only [State.at, State.say, upd_apply, posted_append, handled_append, posted, handled, List.append_nil, List.append_assoc, ne_eq, List.append_eq_nil_iff] <;>
    grind [critical, hand, receiving]

/-- holds for every schedule: the order of the receives -/
structure Ord (s : State) : Prop where
  sorted : (returned s.log).Pairwise (· < ·)
  old : ∀ n ∈ returned s.log, n < s.next
  oldSet : ∀ n, s.pc 0 = .rSet n → n < s.next
  oldCont : ∀ n, s.cont = some n → n < s.next
  oldWrite : ∀ t m n, s.pc t = .write m (some n) → n < s.next
  oldCall : ∀ t m n, s.pc t = .call m (some n) → n < s.next
  lateSet : ∀ n, s.pc 0 = .rSet n → ∀ n' ∈ returned s.log, n' < n
  lateCont : ∀ n, s.cont = some n → ∀ n' ∈ returned s.log, n' < n
  lateWrite : ∀ t m n, s.pc t = .write m (some n) → ∀ n' ∈ returned s.log, n' < n
  lateCall : ∀ t m n, s.pc t = .call m (some n) → ∀ n' ∈ returned s.log, n' < n
  setCont : ∀ n, s.pc 0 = .rSet n → ∀ n', s.cont = some n' → n' < n
  setWrite : ∀ n, s.pc 0 = .rSet n → ∀ t m n', s.pc t = .write m (some n') → n' < n
  setCall : ∀ n, s.pc 0 = .rSet n → ∀ t m n', s.pc t = .call m (some n') → n' < n
  contCall : ∀ n, s.cont = some n → ∀ t m n', s.pc t = .call m (some n') → n' < n

theorem ord_init : Ord init where
  sorted := List.Pairwise.nil
  old n h := by cases h
  oldSet n h := by cases h
  oldCont n h := by cases h
  oldWrite t m n h := by cases h
  oldCall t m n h := by cases h
  lateSet n h := by cases h
  lateCont n h := by cases h
  lateWrite t m n h := by cases h
  lateCall t m n h := by cases h
  setCont n h := by cases h
  setWrite n h := by cases h
  setCall n h := by cases h
  contCall n h := by cases h

set_option maxHeartbeats 4000000 in
theorem ord_step (s : State) (c : Nat × Act) (s' : State) (ha : Acc s) (h : Ord s) (hc : step s c = some s') : Ord s' := by
  obtain ⟨t, a⟩ := c
  obtain ⟨sorted, old, oldSet, oldCont, oldWrite, oldCall, lateSet, lateCont, lateWrite, lateCall, setCont, setWrite, setCall, contCall⟩ := h
  have crit := ha.crit
  have crit0 := crit t
  have loop0 := ha.loop t
  clear ha
  cases a <;> simp only [step] at hc
  case go =>
    split at hc
    · cases hc
    all_goals rename_i hs
    all_goals simp only [hs, critical, receiving] at crit0 loop0
    all_goals try (split at hc)
    all_goals try (cases hc; done)
    all_goals cases hc
    all_goals constructor <;>
      simp only [State.at, State.say, upd_apply, returned_append, returned, List.append_nil, List.pairwise_append] <;>
      grind [critical]
  all_goals try (split at hc)
  all_goals try (cases hc; done)
  all_goals cases hc
  all_goals constructor <;>
    simp only [State.at, State.say, upd_apply, returned_append, returned, List.append_nil, List.pairwise_append] <;>
    grind [critical]

end Expression.Lemmas.Mailbox
