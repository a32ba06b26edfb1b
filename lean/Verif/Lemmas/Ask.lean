import Verif.Lemmas.Threads
import Verif.Spec.Mailbox

/-! # Invariants of the reply channel -/

namespace Expression.Lemmas.Ask

open Threads Spec.Ask Expression.Ask

theorem replies_append (l l' : List Event) : replies (l ++ l') = replies l ++ replies l' := by
  induction l with
  | nil => rfl
  | cons e l ih => cases e <;> simp [replies, ih]

theorem outcomes_append (l l' : List Event) : outcomes (l ++ l') = outcomes l ++ outcomes l' := by
  induction l with
  | nil => rfl
  | cons e l ih => cases e <;> simp [outcomes, ih]

/-- on the way to completing the future -/
def checking : Pc → Bool
  | .test1 => true
  | .test2 => true
  | .fetch => true
  | .complete _ => true
  | _ => false

/-- some thread is -/
def Checking (pc : Nat → Pc) : Prop := ∃ t, checking (pc t) = true

theorem checking_new (pc : Nat → Pc) (t : Nat) (p : Pc) (h : checking p = true) : Checking (upd pc t p) := ⟨t, by rw [upd_same]; exact h⟩

theorem checking_upd (pc : Nat → Pc) (t : Nat) (p : Pc) (hn : checking (pc t) = false) (h : Checking pc) : Checking (upd pc t p) := by
  obtain ⟨t', h⟩ := h
  refine ⟨t', ?_⟩
  rw [upd_other _ _ (fun he => ?_)]
  · exact h
  · rw [he, hn] at h; cases h

/-- some thread is about to store its reply -/
def Setting (pc : Nat → Pc) : Prop := ∃ t r, pc t = .set r

theorem setting_new (pc : Nat → Pc) (t : Nat) (r : Option Nat) : Setting (upd pc t (.set r)) := ⟨t, r, upd_same ..⟩

theorem setting_upd (pc : Nat → Pc) (t : Nat) (p : Pc) (hn : ∀ r, pc t ≠ .set r) (h : Setting pc) : Setting (upd pc t p) := by
  obtain ⟨t', r, h⟩ := h
  exact ⟨t', r, by rw [upd_other _ _ (fun he => hn r (by rw [← he]; exact h))]; exact h⟩

structure Inv (s : State) : Prop where
  result : ∀ v, s.result = some v → some v ∈ replies s.log
  setting : ∀ t r, s.pc t = .set r → r ∈ replies s.log
  completing : ∀ t r, s.pc t = .complete r → r ∈ replies s.log
  test2 : ∀ t, s.pc t = .test2 → s.result = none → none ∈ replies s.log
  fetch : ∀ t, s.pc t = .fetch → s.result = none → none ∈ replies s.log
  once1 : s.future = none → outcomes s.log = []
  once2 : ∀ r, s.future = some r → outcomes s.log = [r]
  given : ∀ r, s.future = some r → r ∈ replies s.log
  some1 : replies s.log ≠ [] → none ∈ replies s.log ∨ s.result ≠ none ∨ Setting s.pc
  cont : s.asked = true → s.continuation = true ∨ s.pc 0 = .cont
  test2c : ∀ t, s.pc t = .fetch → s.continuation = true
  wake : none ∉ replies s.log → s.result ≠ none → s.continuation = true → s.future = none → Checking s.pc

theorem inv_init : Inv init where
  result v h := by cases h
  setting t r h := by cases h
  completing t r h := by cases h
  test2 t h := by cases h
  fetch t h := by cases h
  once1 _ := rfl
  once2 r h := by cases h
  given r h := by cases h
  some1 h := absurd rfl h
  cont h := by cases h
  test2c t h := by cases h
  wake _ h := absurd rfl h

set_option maxHeartbeats 4000000 in
theorem inv_step (s : State) (c : Nat × Act) (s' : State) (h : Inv s) (hc : step s c = some s') : Inv s' := by
  obtain ⟨t, a⟩ := c
  obtain ⟨result, setting, completing, test2, fetch, once1, once2, given, some1, cont, test2c, wake⟩ := h
  have new := checking_new s.pc t
  have keep := checking_upd s.pc t
  have new2 := setting_new s.pc t
  have keep2 := setting_upd s.pc t
  have fetched : s.pc t = .fetch → s.result ∈ replies s.log := by
    intro h
    cases hr : s.result with
    | none => exact fetch t h hr
    | some v => exact result v hr
  have u0 : ∀ p, upd s.pc t p t = p := fun p => upd_same ..
  have u1 : ∀ p t', t' ≠ t → upd s.pc t p t' = s.pc t' := fun p t' h => upd_other _ _ h
  cases a <;> simp only [step] at hc
  case go =>
    split at hc
    · cases hc
    all_goals rename_i hs
    all_goals try (split at hc)
    all_goals try (cases hc; done)
    all_goals cases hc
    all_goals constructor <;>
      simp only [State.at, State.say, replies_append, outcomes_append, replies, outcomes, List.append_nil] <;>
      grind [checking]
  all_goals try (split at hc)
  all_goals try (cases hc; done)
  all_goals cases hc
  all_goals constructor <;>
    simp only [State.at, State.say, replies_append, outcomes_append, replies, outcomes, List.append_nil] <;>
    grind [checking]

theorem inv_run {sched : List (Nat × Act)} {s : State} (h : run step init sched = some s) : Inv s := run_inv Inv inv_step inv_init sched h

/-! ## one thread -/

theorem before_snoc (l : List Event) (r : Option Nat) (h : .waiting ∉ l) : repliesBefore (l ++ [.replied r]) = repliesBefore l ++ [r] := by
  induction l with
  | nil => rfl
  | cons e l ih =>
    have h2 : .waiting ∉ l := fun h' => h (List.mem_cons_of_mem _ h')
    cases e <;> simp_all [repliesBefore]

theorem before_append (l l' : List Event) (h : .waiting ∈ l) : repliesBefore (l ++ l') = repliesBefore l := by
  induction l with
  | nil => cases h
  | cons e l ih => cases e <;> simp_all [repliesBefore]

theorem before_quiet (l : List Event) (e : Event) (he : ∀ r, e ≠ .replied r) : repliesBefore (l ++ [e]) = repliesBefore l := by
  induction l with
  | nil => cases e <;> simp_all [repliesBefore]
  | cons e l ih => cases e <;> simp_all [repliesBefore]

theorem after_append (l l' : List Event) (h : .waiting ∈ l) : repliesAfter (l ++ l') = repliesAfter l ++ replies l' := by
  induction l with
  | nil => cases h
  | cons e l ih => cases e <;> simp_all [repliesAfter, replies_append]

theorem after_none (l : List Event) (h : .waiting ∉ l) : repliesAfter l = [] := by
  induction l with
  | nil => rfl
  | cons e l ih => cases e <;> simp_all [repliesAfter]

theorem after_waiting (l : List Event) (h : .waiting ∉ l) : repliesAfter (l ++ [.waiting]) = [] := by
  induction l with
  | nil => rfl
  | cons e l ih => cases e <;> simp_all [repliesAfter]

/-- what the asker will have got, once this reply is processed -/
def value (future : Option (Option Nat)) (r : Option Nat) : List (Option Nat) :=
  match future with
  | some r => [r]
  | none => match r with
    | some v => [some v]
    | none => []

/-- the reply being processed -/
def current (result : Option Nat) : Pc → Option Nat
  | .set r => r
  | .test1 => result
  | .test2 => result
  | .fetch => result
  | .complete _ => result
  | _ => none

theorem sequential_snoc (B A : List (Option Nat)) (r : Option Nat) (future : Option (Option Nat)) (h : sequentialOutcome B A = value future none) :
    sequentialOutcome B (A ++ [r]) = value future r := by
  unfold sequentialOutcome at h ⊢
  split at h
  · cases future with
    | none => cases h
    | some r' => cases h; rfl
  · rw [List.find?_append]
    cases hf : A.find? (·.isSome) with
    | some x =>
      rw [hf] at h
      cases future with
      | none => cases h
      | some r' => cases h; rfl
    | none =>
      rw [hf] at h
      cases future with
      | none => cases r <;> rfl
      | some r' => cases h

theorem sequential_start (B : List (Option Nat)) (r : Option Nat) (h : B.getLast?.join = r) : sequentialOutcome B [] = value none r := by
  subst h
  unfold sequentialOutcome
  cases B.getLast? with
  | none => rfl
  | some x => cases x <;> rfl

/-- everything happens on thread `t`, after the asker began to wait on thread `0` -/
structure One (t : Nat) (s : State) : Prop where
  asked : s.asked = true
  cont : s.continuation = true
  others : ∀ t', t' ≠ t → s.pc t' = .idle
  noCont : s.pc t ≠ .cont
  complete : ∀ r, s.pc t = .complete r → r = s.result ∧ r ≠ none
  fetch : s.pc t = .fetch → s.result ≠ none
  test2 : s.pc t = .test2 → s.result ≠ none
  expected : sequentialOutcome [] (replies s.log) = value s.future (current s.result (s.pc t))

theorem one_step (t : Nat) (s : State) (c : Nat × Act) (s' : State) (hP : ∀ r, c.2 = .reply r → c.1 = t) (h : One t s) (hc : step s c = some s') : One t s' := by
  obtain ⟨u, a⟩ := c
  obtain ⟨asked, cont, others, noCont, complete, fetch, test2, expected⟩ := h
  have go : s.pc u ≠ .idle → u = t := fun h => Classical.byContradiction fun h' => h (others u h')
  have other : ∀ p, ∀ t', t' ≠ t → upd s.pc t p t' = .idle := fun p t' h => by rw [upd_other _ _ h]; exact others t' h
  cases a with
  | reply r =>
    obtain rfl := hP r rfl
    simp only [step] at hc
    split at hc <;> cases hc
    rename_i hi
    rw [hi] at expected
    refine ⟨asked, cont, other _, ?_, ?_, ?_, ?_, ?_⟩ <;> simp [State.at, State.say, replies_append, replies]
    exact sequential_snoc _ _ _ _ expected
  | wait => simp [step, asked] at hc
  | go =>
    simp only [step] at hc
    split at hc
    · cases hc
    all_goals rename_i hs
    all_goals obtain rfl := go (by rw [hs]; simp)
    all_goals rw [hs] at expected
    · cases hc
      refine ⟨asked, cont, other _, ?_, ?_, ?_, ?_, ?_⟩ <;> simp [State.at]
      exact expected
    · exact absurd hs noCont
    · split at hc <;> cases hc
      · rename_i hr
        refine ⟨asked, cont, other _, ?_, ?_, ?_, ?_, ?_⟩ <;> simp [State.at]
        rw [expected]; simp [current, hr]
      · rename_i hr
        refine ⟨asked, cont, other _, ?_, ?_, ?_, ?_, ?_⟩ <;> simp [State.at, hr]
        exact expected
    · rw [if_pos cont] at hc
      cases hc
      have := test2 hs
      refine ⟨asked, cont, other _, ?_, ?_, ?_, ?_, ?_⟩ <;> simp [State.at, this]
      exact expected
    · cases hc
      have := fetch hs
      refine ⟨asked, cont, other _, ?_, ?_, ?_, ?_, ?_⟩ <;> simp [State.at, this]
      exact expected
    · rename_i r
      have := complete _ hs
      split at hc <;> cases hc
      · rename_i hr
        refine ⟨asked, cont, other _, ?_, ?_, ?_, ?_, ?_⟩ <;> simp [State.at, State.say, replies_append, replies]
        rw [expected, hr]
        simp only [current, value, ← this.1]
        cases r with
        | none => exact absurd rfl this.2
        | some v => rfl
      · rename_i hr
        refine ⟨asked, cont, other _, ?_, ?_, ?_, ?_, ?_⟩ <;> simp [State.at]
        rw [expected]
        cases hf : s.future with
        | none => exact absurd hf hr
        | some v => rfl

/-- everything happens on thread `0` -/
structure Sq (s : State) : Prop where
  others : ∀ t', t' ≠ 0 → s.pc t' = .idle
  cont1 : s.continuation = true → s.asked = true ∧ .waiting ∈ s.log ∧ s.pc 0 ≠ .cont
  cont2 : s.continuation = false → .waiting ∉ s.log
  complete : ∀ r, s.pc 0 = .complete r → r = s.result ∧ r ≠ none
  fetch : s.pc 0 = .fetch → s.result ≠ none ∧ s.continuation = true
  test2 : s.pc 0 = .test2 → s.result ≠ none
  cont3 : ∀ r, s.pc 0 = .complete r → s.continuation = true
  early1 : s.continuation = false → s.future = none
  early2 : s.continuation = false → (∀ r, s.pc 0 ≠ .set r) → (repliesBefore s.log).getLast?.join = s.result
  early3 : ∀ r, s.continuation = false → s.pc 0 = .set r → (repliesBefore s.log).getLast?.join = r
  expected : s.continuation = true → sequentialOutcome (repliesBefore s.log) (repliesAfter s.log) = value s.future (current s.result (s.pc 0))
  asked : s.pc 0 = .cont → s.asked = true

theorem sq_init : Sq init where
  others _ _ := rfl
  cont1 h := by cases h
  cont2 _ h := by cases h
  complete r h := by cases h
  fetch h := by cases h
  test2 h := by cases h
  cont3 r h := by cases h
  early1 _ := rfl
  early2 _ _ := rfl
  early3 r _ h := by cases h
  expected h := by cases h
  asked h := by cases h

theorem sq_step (s : State) (c : Nat × Act) (s' : State) (hP : c.1 = 0) (h : Sq s) (hc : step s c = some s') : Sq s' := by
  obtain ⟨u, a⟩ := c
  obtain rfl : u = 0 := hP
  obtain ⟨others, cont1, cont2, complete, fetch, test2, cont3, early1, early2, early3, expected, asked⟩ := h
  have other : ∀ p, ∀ t', t' ≠ 0 → upd s.pc 0 p t' = .idle := fun p t' h => by rw [upd_other _ _ h]; exact others t' h
  cases a with
  | reply r =>
    simp only [step] at hc
    split at hc <;> cases hc
    rename_i hi
    rw [hi] at expected
    refine ⟨other _, fun h => ?_, fun h => ?_, ?_, ?_, ?_, ?_, early1, ?_, ?_, fun h => ?_, ?_⟩ <;> simp [State.at, State.say]
    · exact ⟨(cont1 h).1, (cont1 h).2.1⟩
    · exact cont2 h
    · intro h; rw [before_snoc _ _ (cont2 h)]; simp
    · rw [before_append _ _ (cont1 h).2.1, after_append _ _ (cont1 h).2.1]
      exact sequential_snoc _ _ _ _ (expected h)
  | wait =>
    simp only [step] at hc
    split at hc <;> cases hc
    rename_i hi
    have hf : s.continuation = false := Bool.eq_false_iff.2 fun h => by rw [(cont1 h).1] at hi; cases hi.2.2
    refine ⟨other _, fun h => ?_, fun h => cont2 h, ?_, ?_, ?_, ?_, early1, ?_, ?_, fun h => ?_, ?_⟩ <;> simp [State.at]
    · rw [show s.continuation = true from h] at hf; cases hf
    · intro h; exact early2 h (by rw [hi.2.1]; simp)
    · rw [show s.continuation = true from h] at hf; cases hf
  | go =>
    simp only [step] at hc
    split at hc
    · cases hc
    all_goals rename_i hs
    all_goals rw [hs] at expected
    · rename_i r
      cases hc
      refine ⟨other _, fun h => ⟨(cont1 h).1, (cont1 h).2.1, ?_⟩, cont2, ?_, ?_, ?_, ?_, early1, fun h _ => early3 r h hs, ?_, fun h => ?_, ?_⟩ <;> simp [State.at]
      exact expected h
    · cases hc
      have hf : s.continuation = false := Bool.eq_false_iff.2 fun h => (cont1 h).2.2 hs
      have hw := cont2 hf
      refine ⟨other _, fun _ => ⟨?_, ?_, ?_⟩, ?_, ?_, ?_, ?_, ?_, ?_, ?_, ?_, fun h => ?_, ?_⟩ <;> simp [State.at, State.say]
      · exact asked hs
      · rw [before_quiet _ _ (by simp), after_waiting _ hw, early1 hf]
        exact sequential_start _ _ (early2 hf (by rw [hs]; simp))
    · split at hc <;> cases hc
      · rename_i hr
        refine ⟨other _, fun h => ⟨(cont1 h).1, (cont1 h).2.1, ?_⟩, cont2, ?_, ?_, ?_, ?_, early1, fun h _ => early2 h (by rw [hs]; simp), ?_, fun h => ?_, ?_⟩ <;>
          simp [State.at]
        rw [expected h]; simp [current, hr]
      · rename_i hr
        refine ⟨other _, fun h => ⟨(cont1 h).1, (cont1 h).2.1, ?_⟩, cont2, ?_, ?_, ?_, ?_, early1, fun h _ => early2 h (by rw [hs]; simp), ?_, fun h => ?_, ?_⟩ <;>
          simp [State.at, hr]
        exact expected h
    · have := test2 hs
      split at hc <;> cases hc
      · rename_i hcn
        refine ⟨other _, fun h => ⟨(cont1 h).1, (cont1 h).2.1, ?_⟩, cont2, ?_, ?_, ?_, ?_, early1, fun h _ => early2 h (by rw [hs]; simp), ?_, fun h => ?_, ?_⟩ <;>
          simp [State.at, this, hcn]
        exact expected h
      · rename_i hcn
        refine ⟨other _, fun h => absurd h hcn, cont2, ?_, ?_, ?_, ?_, early1, fun h _ => early2 h (by rw [hs]; simp), ?_, fun h => absurd h hcn, ?_⟩ <;>
          simp [State.at]
    · cases hc
      have := fetch hs
      refine ⟨other _, fun h => ⟨(cont1 h).1, (cont1 h).2.1, ?_⟩, cont2, ?_, ?_, ?_, ?_, early1, fun h _ => early2 h (by rw [hs]; simp), ?_, fun h => ?_, ?_⟩ <;>
        simp [State.at, this]
      exact expected h
    · rename_i r
      have := complete _ hs
      have hcn := cont3 _ hs
      split at hc <;> cases hc
      · rename_i hr
        refine ⟨other _, fun h => ⟨(cont1 h).1, List.mem_append_left _ (cont1 h).2.1, ?_⟩, fun h => ?_, ?_, ?_, ?_, ?_, fun h => ?_, fun h _ => ?_, ?_, fun h => ?_, ?_⟩ <;>
          simp [State.at, State.say]
        · rw [show s.continuation = false from h] at hcn; cases hcn
        · rw [show s.continuation = false from h] at hcn; cases hcn
        · rw [show s.continuation = false from h] at hcn; cases hcn
        · rw [before_quiet _ _ (by simp), after_append _ _ (cont1 hcn).2.1]
          simp only [replies, List.append_nil]
          rw [expected hcn, hr]
          simp only [current, value, ← this.1]
          cases r with
          | none => exact absurd rfl this.2
          | some v => rfl
      · rename_i hr
        refine ⟨other _, fun h => ⟨(cont1 h).1, (cont1 h).2.1, ?_⟩, cont2, ?_, ?_, ?_, ?_, early1, fun h _ => early2 h (by rw [hs]; simp), ?_, fun h => ?_, ?_⟩ <;>
          simp [State.at]
        rw [expected h]
        cases hf : s.future with
        | none => exact absurd hf hr
        | some v => rfl

end Expression.Lemmas.Ask
