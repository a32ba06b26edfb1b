import Verif.Lemmas.Threads
import Verif.Model.Cancellation

/-! # Invariants of cancellation: many threads -/

namespace Expression.Lemmas.Race

open Threads Expression.Cancellation.Race

/-- the listeners called, in order -/
def calls (log : List Event) : List Nat := log.filterMap fun e => match e with | .called i => some i | _ => none

theorem calls_append (l l' : List Event) : calls (l ++ l') = calls l ++ calls l' := List.filterMap_append

theorem mem_calls {log : List Event} {i : Nat} : i ∈ calls log ↔ .called i ∈ log := by
  unfold calls
  rw [List.mem_filterMap]
  constructor
  · rintro ⟨e, he, h⟩
    cases e <;> first | (cases h; exact he) | cases h
  · intro h; exact ⟨_, h, rfl⟩

/-- in a `with` block -/
def critical : List Frame → Bool
  | .rRead :: _ => true
  | .rStore _ :: _ => true
  | .rIncr _ :: _ => true
  | .rUnlock _ :: _ => true
  | .uDel _ :: _ => true
  | .uUnlock :: _ => true
  | .cTest :: _ => true
  | .cSet :: _ => true
  | .cSnap :: _ => true
  | .cUnlock _ :: _ => true
  | _ => false

/-- listeners still to be called from here -/
def pend : Frame → List Nat
  | .cUnlock ls => ls
  | .cLoop ls => ls
  | .inListener ls => ls
  | _ => []

/-- listeners still to be called by a thread -/
def pendAll (fs : List Frame) : List Nat := fs.flatMap pend

theorem pendAll_cons (f : Frame) (fs : List Frame) : pendAll (f :: fs) = pend f ++ pendAll fs := rfl

/-- about to take the snapshot -/
def snapping : List Frame → Bool
  | .cSnap :: _ => true
  | _ => false

/-- only listeners -/
def listening (fs : List Frame) : Prop := ∀ g ∈ fs, ∃ ls, g = .inListener ls

theorem listening_free {fs : List Frame} (h : listening fs) : free fs = true := by
  cases fs with
  | nil => rfl
  | cons f fs => obtain ⟨ls, rfl⟩ := h f (List.mem_cons_self ..); rfl

theorem free_not_critical {fs : List Frame} (h : free fs = true) : critical fs = false := by
  unfold free at h; split at h <;> first | rfl | cases h

theorem free_not_snapping {fs : List Frame} (h : free fs = true) : snapping fs = false := by
  unfold free at h; split at h <;> first | rfl | cases h

theorem listening_of_free {s : State} (below : ∀ t f fs, s.stack t = f :: fs → listening fs) {t : Nat} (h : free (s.stack t) = true) :
    listening (s.stack t) := by
  cases hs : s.stack t with
  | nil => intro g hg; cases hg
  | cons f fs =>
    intro g hg
    rcases List.mem_cons.1 hg with rfl | hg
    · rw [hs] at h
      unfold free at h
      split at h
      · rename_i h'; cases h'
      · rename_i h'; cases h'; exact ⟨_, rfl⟩
      · cases h
    · exact below t f fs hs g hg

/-- the lock, and the shape of the stacks -/
structure Lock (s : State) : Prop where
  crit : ∀ t, critical (s.stack t) = true ↔ s.owner = some t
  below : ∀ t f fs, s.stack t = f :: fs → listening fs

theorem lock_init : Lock init where
  crit t := by simp [init, critical]
  below t f fs h := by cases h

theorem lock_step (s : State) (c : Nat × Act) (s' : State) (h : Lock s) (hc : step s c = some s') : Lock s' := by
  obtain ⟨t, a⟩ := c
  obtain ⟨crit, below⟩ := h
  have push : ∀ f s', free (s.stack t) = true → critical (f :: s.stack t) = false → s'.owner = s.owner → s'.stack = upd s.stack t (f :: s.stack t) → Lock s' := by
    intro f s' hf hcr ho hs
    have h1 := free_not_critical hf
    have h2 := listening_of_free below hf
    constructor <;> rw [hs] <;> simp only [upd_apply] <;> grind
  have swap : ∀ f f' fs s', s.stack t = f :: fs → s'.stack = upd s.stack t (f' :: fs) → critical (f' :: fs) = critical (f :: fs) → s'.owner = s.owner → Lock s' := by
    intro f f' fs s' hf hs hcr ho
    constructor <;> rw [hs] <;> simp only [upd_apply] <;> grind
  have acquire : ∀ f f' fs s', s.stack t = f :: fs → s.owner = none → critical (f' :: fs) = true → s'.owner = some t → s'.stack = upd s.stack t (f' :: fs) → Lock s' := by
    intro f f' fs s' hf ho hcr ho' hs
    constructor <;> rw [hs] <;> simp only [upd_apply] <;> grind
  have release : ∀ f f' fs s', s.stack t = f :: fs → critical (f :: fs) = true → critical (f' :: fs) = false → s'.owner = none → s'.stack = upd s.stack t (f' :: fs) → Lock s' := by
    intro f f' fs s' hf hcr hcr' ho' hs
    constructor <;> rw [hs] <;> simp only [upd_apply] <;> grind
  have pop : ∀ f fs s', s.stack t = f :: fs → critical (f :: fs) = false → s'.owner = s.owner → s'.stack = upd s.stack t fs → Lock s' := by
    intro f fs s' hf hcr ho hs
    have h1 := below t f fs hf
    have h2 := free_not_critical (listening_free h1)
    constructor <;> rw [hs] <;> simp only [upd_apply] <;> grind [listening]
  have popRelease : ∀ f fs s', s.stack t = f :: fs → critical (f :: fs) = true → s'.owner = none → s'.stack = upd s.stack t fs → Lock s' := by
    intro f fs s' hf hcr ho hs
    have h1 := below t f fs hf
    have h2 := free_not_critical (listening_free h1)
    constructor <;> rw [hs] <;> simp only [upd_apply] <;> grind [listening]
  cases a <;> simp only [step] at hc
  · split at hc
    · rename_i hf; cases hc; exact push _ _ hf rfl rfl rfl
    · cases hc
  · split at hc
    · rename_i hf; cases hc; exact push _ _ hf.1 rfl rfl rfl
    · cases hc
  · split at hc
    · rename_i hf; cases hc; exact push _ _ hf rfl rfl rfl
    · cases hc
  · split at hc
    · cases hc
    · rename_i hs
      split at hc <;> cases hc
      · exact pop _ _ _ hs rfl rfl rfl
      · exact swap _ _ _ _ hs rfl rfl rfl
    · rename_i hs
      split at hc
      · rename_i ho; cases hc; exact acquire _ _ _ _ hs ho rfl rfl rfl
      · cases hc
    · rename_i hs; cases hc; exact swap _ _ _ _ hs rfl rfl rfl
    · rename_i hs; cases hc; exact swap _ _ _ _ hs rfl rfl rfl
    · rename_i hs; cases hc; exact swap _ _ _ _ hs rfl rfl rfl
    · rename_i hs; cases hc; exact popRelease _ _ _ hs rfl rfl rfl
    · rename_i hs
      split at hc <;> cases hc
      · exact pop _ _ _ hs rfl rfl rfl
      · exact swap _ _ _ _ hs rfl rfl rfl
    · rename_i hs
      split at hc
      · rename_i ho; cases hc; exact acquire _ _ _ _ hs ho rfl rfl rfl
      · cases hc
    · rename_i hs; cases hc; exact swap _ _ _ _ hs rfl rfl rfl
    · rename_i hs; cases hc; exact popRelease _ _ _ hs rfl rfl rfl
    · rename_i hs
      split at hc
      · rename_i ho; cases hc; exact acquire _ _ _ _ hs ho rfl rfl rfl
      · cases hc
    · rename_i hs
      split at hc <;> cases hc
      · exact swap _ _ _ _ hs rfl rfl rfl
      · exact swap _ _ _ _ hs rfl rfl rfl
    · rename_i hs; cases hc; exact swap _ _ _ _ hs rfl rfl rfl
    · rename_i hs; cases hc; exact swap _ _ _ _ hs rfl rfl rfl
    · rename_i hs; cases hc; exact release _ _ _ _ hs rfl rfl rfl rfl
    · rename_i hs; cases hc; exact pop _ _ _ hs rfl rfl rfl
    · rename_i hs; cases hc; exact swap _ _ _ _ hs rfl rfl rfl
    · rename_i hs; cases hc; exact swap _ _ _ _ hs rfl rfl rfl

/-- what the flag, the log and the frames say about each other -/
structure Facts (s : State) : Prop where
  set : ∀ t fs, s.stack t = .cSet :: fs → s.isDisposed = false
  snap : ∀ t, snapping (s.stack t) = true → s.isDisposed = true
  disposed1 : ∀ t ls fs, s.stack t = .cUnlock ls :: fs → s.isDisposed = true
  disposed2 : ∀ t ls fs, s.stack t = .cLoop ls :: fs → s.isDisposed = true
  disposed3 : ∀ t ls, .inListener ls ∈ s.stack t → s.isDisposed = true
  ended : ∀ t, .cancelEnded t ∈ s.log → s.isDisposed = true
  began : s.isDisposed = true → ∃ t, .cancelBegan t ∈ s.log
  began1 : ∀ t fs, s.stack t = .cLock :: fs → ∃ t, .cancelBegan t ∈ s.log
  began2 : ∀ t fs, s.stack t = .cTest :: fs → ∃ t, .cancelBegan t ∈ s.log
  began3 : ∀ t fs, s.stack t = .cSet :: fs → ∃ t, .cancelBegan t ∈ s.log
  store : ∀ t i fs, s.stack t = .rStore i :: fs → i = s.id
  incr : ∀ t i fs, s.stack t = .rIncr i :: fs → i = s.id ∧ i ∈ s.listeners
  unlock : ∀ t i fs, s.stack t = .rUnlock i :: fs → i < s.id ∧ i ∈ s.listeners
  small : ∀ i ∈ s.listeners, i < s.id ∨ ∃ t fs, s.stack t = .rIncr i :: fs
  un1 : ∀ t i fs, s.stack t = .uTest i :: fs → .unregisterBegan i ∈ s.log
  un2 : ∀ t i fs, s.stack t = .uLock i :: fs → .unregisterBegan i ∈ s.log
  un3 : ∀ t i fs, s.stack t = .uDel i :: fs → .unregisterBegan i ∈ s.log
  reg : ∀ i, .registered i ∈ s.log → .unregisterBegan i ∉ s.log → i ∈ s.listeners

theorem facts_init : Facts init where
  set t fs h := by cases h
  snap t h := by cases h
  disposed1 t fs ls h := by cases h
  disposed2 t fs ls h := by cases h
  disposed3 t ls h := by cases h
  ended t h := by cases h
  began h := by cases h
  began1 t fs h := by cases h
  began2 t fs h := by cases h
  began3 t fs h := by cases h
  store t i fs h := by cases h
  incr t i fs h := by cases h
  unlock t i fs h := by cases h
  small i h := by cases h
  un1 t i fs h := by cases h
  un2 t i fs h := by cases h
  un3 t i fs h := by cases h
  reg i h := by cases h

set_option maxHeartbeats 4000000 in
theorem facts_step (s : State) (c : Nat × Act) (s' : State) (hl : Lock s) (h : Facts s) (hc : step s c = some s') : Facts s' := by
  obtain ⟨t, a⟩ := c
  obtain ⟨crit, below⟩ := hl
  obtain ⟨set, snap, disposed1, disposed2, disposed3, ended, began, began1, began2, began3, store, incr, unlock, small, un1, un2, un3, reg⟩ := h
  have popFacts : ∀ f fs, s.stack t = f :: fs → free fs = true ∧ snapping fs = false ∧ critical fs = false ∧
      (∀ ls, .inListener ls ∈ fs → s.isDisposed = true) ∧ ∀ ls, f = .inListener ls → s.isDisposed = true := fun f fs hs =>
    have h1 := listening_free (below t f fs hs)
    ⟨h1, free_not_snapping h1, free_not_critical h1, fun ls h => disposed3 t ls (hs ▸ List.mem_cons_of_mem _ h),
      fun ls h => disposed3 t ls (by rw [hs, h]; exact List.mem_cons_self ..)⟩
  cases a <;> simp only [step] at hc
  · split at hc
    · rename_i hf; cases hc
      have h1 := free_not_critical hf
      constructor <;> simp only [State.at, State.say, upd_apply] <;> grind [critical, snapping, free]
    · cases hc
  · split at hc
    · rename_i hf; cases hc
      have h1 := free_not_critical hf.1
      constructor <;> simp only [State.at, State.say, upd_apply] <;> grind [critical, snapping, free]
    · cases hc
  · split at hc
    · rename_i hf; cases hc
      have h1 := free_not_critical hf
      constructor <;> simp only [State.at, State.say, upd_apply] <;> grind [critical, snapping, free]
    · cases hc
  · split at hc
    · cases hc
    all_goals
      rename_i hs
      have hpop := popFacts _ _ hs
      have hb := below _ _ _ hs
      simp only [listening] at hb
    all_goals try (split at hc)
    all_goals try (cases hc; done)
    all_goals cases hc
    all_goals constructor <;> simp only [State.at, State.say, upd_apply] <;> first
      | grind [critical, snapping, free]
      | (intro j hj
         rcases List.mem_append.1 hj with hj | hj
         · grind [critical, snapping, free]
         · exact .inr ⟨t, _, by rw [List.mem_singleton.1 hj]; exact if_pos rfl⟩)

end Expression.Lemmas.Race
