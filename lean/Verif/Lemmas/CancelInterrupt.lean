import Verif.Spec.CancelInterrupt
import Verif.Lemmas.Threads

/-! # Invariants of cancellation with interrupts -/

namespace Expression.Lemmas.CancelInterrupt

open Threads Expression.CancelInterrupt Spec.CancelInterrupt

/-- the cases of `step` -/
inductive Move (s : State) (t : Nat) : State → Prop
  | register (h : s.pc t = .idle) : Move s t (s.at t .rCheck)
  | unregister {r i} (h : s.pc t = .idle) (hr : s.pc r = .rDone i) : Move s t (s.at t (.uTest r i))
  | cancel (h : s.pc t = .idle) : Move s t (s.at t .cLock)
  | hitIn (h : (s.pc t).isOpen = true) (hh : (s.pc t).holds = true) : Move s t { s.at t (.hit (s.pc t)) with owner := none }
  | hitOut (h : (s.pc t).isOpen = true) (hh : (s.pc t).holds = false) : Move s t (s.at t (.hit (s.pc t)))
  | refuse (h : s.pc t = .rCheck) (hd : s.isDisposed = true) : Move s t (s.at t .rRefused)
  | check (h : s.pc t = .rCheck) (hd : s.isDisposed = false) : Move s t (s.at t .rLock)
  | rLock (h : s.pc t = .rLock) (ho : s.owner = none) : Move s t { s.at t .rRead with owner := some t }
  | rRead (h : s.pc t = .rRead) : Move s t (s.at t (.rStore s.id))
  | rStore {i} (h : s.pc t = .rStore i) : Move s t { s.at t (.rIncr i) with listeners := store i t s.listeners }
  | rIncr {i} (h : s.pc t = .rIncr i) : Move s t { s.at t (.rUnlock i) with id := s.id + 1 }
  | rUnlock {i} (h : s.pc t = .rUnlock i) : Move s t { s.at t (.rMake i) with owner := none }
  | rMake {i} (h : s.pc t = .rMake i) : Move s t (s.at t (.rDone i))
  | uAgain {r i} (h : s.pc t = .uTest r i) (hg : r ∈ s.gone) : Move s t (s.at t (.uDone r))
  | uFirst {r i} (h : s.pc t = .uTest r i) (hg : r ∉ s.gone) : Move s t { s.at t (.uLock r i) with gone := r :: s.gone }
  | uLock {r i} (h : s.pc t = .uLock r i) (ho : s.owner = none) : Move s t { s.at t (.uDel r i) with owner := some t }
  | uDel {r i l} (h : s.pc t = .uDel r i) (hl : delete i s.listeners = some l) : Move s t { s.at t (.uUnlock r) with listeners := l }
  | uKeyError {r i} (h : s.pc t = .uDel r i) (hl : delete i s.listeners = none) : Move s t { s.at t (.uKeyError r) with owner := none }
  | uUnlock {r} (h : s.pc t = .uUnlock r) : Move s t { s.at t (.uDone r) with owner := none }
  | cLock (h : s.pc t = .cLock) (ho : s.owner = none) : Move s t { s.at t .cTest with owner := some t }
  | cAgain (h : s.pc t = .cTest) (hd : s.isDisposed = true) : Move s t (s.at t (.cUnlock []))
  | cFirst (h : s.pc t = .cTest) (hd : s.isDisposed = false) : Move s t (s.at t .cSet)
  | cSet (h : s.pc t = .cSet) : Move s t { s.at t .cSnap with isDisposed := true }
  | cSnap (h : s.pc t = .cSnap) : Move s t (s.at t (.cUnlock s.listeners))
  | cUnlock {ls} (h : s.pc t = .cUnlock ls) : Move s t { s.at t (.cLoop ls) with owner := none }
  | cEnd (h : s.pc t = .cLoop []) : Move s t (s.at t .cDone)
  | cCall {l ls} (h : s.pc t = .cLoop (l :: ls)) : Move s t { s.at t (.inListener ls) with calls := s.calls ++ [l] }
  | cBack {ls} (h : s.pc t = .inListener ls) : Move s t (s.at t (.cLoop ls))

theorem move {s s' : State} {c : Nat × Act} (hc : step s c = some s') : Move s c.1 s' := by
  obtain ⟨t, a⟩ := c
  cases a with
  | register =>
    simp only [step] at hc
    split at hc <;> cases hc
    exact .register ‹_›
  | unregister r =>
    simp only [step] at hc
    split at hc
    · split at hc <;> cases hc
      exact .unregister ‹_› ‹_›
    · cases hc
  | cancel =>
    simp only [step] at hc
    split at hc <;> cases hc
    exact .cancel ‹_›
  | interrupt =>
    simp only [step] at hc
    split at hc
    · rename_i ho
      cases hc
      cases hh : (s.pc t).holds with
      | true => exact Move.hitIn ho hh
      | false => exact Move.hitOut ho hh
    · cases hc
  | go =>
    simp only [step, go] at hc
    split at hc
    · rename_i h
      split at hc <;> cases hc
      · exact .refuse h ‹_›
      · exact .check h (Bool.eq_false_iff.2 ‹_›)
    · split at hc <;> cases hc
      exact .rLock ‹_› ‹_›
    · cases hc; exact .rRead ‹_›
    · cases hc; exact .rStore ‹_›
    · cases hc; exact .rIncr ‹_›
    · cases hc; exact .rUnlock ‹_›
    · cases hc; exact .rMake ‹_›
    · split at hc <;> cases hc
      · exact .uAgain ‹_› ‹_›
      · exact .uFirst ‹_› ‹_›
    · split at hc <;> cases hc
      exact .uLock ‹_› ‹_›
    · split at hc <;> cases hc
      · exact .uDel ‹_› ‹_›
      · exact .uKeyError ‹_› ‹_›
    · cases hc; exact .uUnlock ‹_›
    · split at hc <;> cases hc
      exact .cLock ‹_› ‹_›
    · split at hc <;> cases hc
      · exact .cAgain ‹_› ‹_›
      · exact .cFirst ‹_› (Bool.eq_false_iff.2 ‹_›)
    · cases hc; exact .cSet ‹_›
    · cases hc; exact .cSnap ‹_›
    · cases hc; exact .cUnlock ‹_›
    · cases hc; exact .cEnd ‹_›
    · cases hc; exact .cCall ‹_›
    · cases hc; exact .cBack ‹_›
    · cases hc

/-! ## the lock -/

/-- exactly the call in the block holds the lock -/
def Lock (s : State) : Prop := ∀ t, (s.pc t).holds = true ↔ s.owner = some t

theorem lock_init : Lock init := fun t => by simp [init, PC.holds]

theorem lock_step (s : State) (c : Nat × Act) (s' : State) (h : Lock s) (hc : step s c = some s') : Lock s' := by
  have hm := move hc
  generalize c.1 = t at hm
  have h' : ∀ t, (s.pc t).holds = true ↔ s.owner = some t := h
  intro u
  have ht := h' t
  have hu := h' u
  cases hm <;> simp only [State.at, upd_apply] <;> (split <;> grind [PC.holds])

theorem lock_run {sched : List (Nat × Act)} {s : State} (h : run step init sched = some s) : Lock s := run_inv Lock lock_step lock_init sched h

/-! ## the dictionary -/

/-- the keys are in order -/
def Sorted (l : List (Nat × Nat)) : Prop := l.Pairwise (fun a b => a.1 < b.1)

theorem mem_store {i cb : Nat} {l : List (Nat × Nat)} (hs : Sorted l) (hi : ∀ e ∈ l, e.1 ≤ i) (e : Nat × Nat) :
    e ∈ store i cb l ↔ e = (i, cb) ∨ (e ∈ l ∧ e.1 ≠ i) := by
  induction l with
  | nil => simp [store]
  | cons x l ih =>
    have hs' := List.pairwise_cons.1 hs
    have ih := ih hs'.2 (fun e he => hi e (List.mem_cons_of_mem _ he))
    have h1 := hi x List.mem_cons_self
    unfold store
    split
    · rename_i hx
      constructor
      · intro h
        rcases List.mem_cons.1 h with h | h
        · exact .inl h
        · have := hs'.1 e h
          exact .inr ⟨List.mem_cons_of_mem _ h, by omega⟩
      · rintro (h | ⟨h, hn⟩)
        · exact List.mem_cons.2 (.inl h)
        · rcases List.mem_cons.1 h with h | h
          · subst h; exact absurd hx hn
          · exact List.mem_cons_of_mem _ h
    · rename_i hx
      rw [List.mem_cons, ih]
      constructor
      · rintro (h | h | ⟨h, hn⟩)
        · subst h; exact .inr ⟨List.mem_cons_self, hx⟩
        · exact .inl h
        · exact .inr ⟨List.mem_cons_of_mem _ h, hn⟩
      · rintro (h | ⟨h, hn⟩)
        · exact .inr (.inl h)
        · rcases List.mem_cons.1 h with h | h
          · exact .inl h
          · exact .inr (.inr ⟨h, hn⟩)

theorem sorted_store {i cb : Nat} {l : List (Nat × Nat)} (hs : Sorted l) (hi : ∀ e ∈ l, e.1 ≤ i) : Sorted (store i cb l) := by
  induction l with
  | nil => simp [store, Sorted]
  | cons x l ih =>
    have hs' := List.pairwise_cons.1 hs
    have hi' := fun e he => hi e (List.mem_cons_of_mem x he)
    have ih := ih hs'.2 hi'
    have h1 := hi x List.mem_cons_self
    unfold store
    split
    · rename_i hx
      refine List.pairwise_cons.2 ⟨fun e he => ?_, hs'.2⟩
      have := hs'.1 e he
      simp only
      omega
    · rename_i hx
      refine List.pairwise_cons.2 ⟨fun e he => ?_, ih⟩
      rcases (mem_store hs'.2 hi' e).1 he with rfl | ⟨he, _⟩
      · simp only
        omega
      · exact hs'.1 e he

theorem sorted_inj {l : List (Nat × Nat)} (hs : Sorted l) {i r r' : Nat} (h : (i, r) ∈ l) (h' : (i, r') ∈ l) : r = r' := by
  induction l with
  | nil => cases h
  | cons x l ih =>
    have hs' := List.pairwise_cons.1 hs
    rcases List.mem_cons.1 h with h | h
    · rcases List.mem_cons.1 h' with h' | h'
      · rw [← h] at h'; cases h'; rfl
      · have := hs'.1 _ h'
        rw [← h] at this
        simp at this
    · rcases List.mem_cons.1 h' with h' | h'
      · have := hs'.1 _ h
        rw [← h'] at this
        simp at this
      · exact ih hs'.2 h h'

theorem delete_some {i : Nat} {l : List (Nat × Nat)} (hs : Sorted l) {r : Nat} (h : (i, r) ∈ l) :
    ∃ l', delete i l = some l' ∧ Sorted l' ∧ ∀ e, e ∈ l' ↔ e ∈ l ∧ e.1 ≠ i := by
  induction l with
  | nil => cases h
  | cons x l ih =>
    have hs' := List.pairwise_cons.1 hs
    unfold delete
    split
    · rename_i hx
      refine ⟨l, rfl, hs'.2, fun e => ⟨fun he => ⟨List.mem_cons_of_mem _ he, ?_⟩, fun ⟨he, hn⟩ => ?_⟩⟩
      · have := hs'.1 e he
        omega
      · rcases List.mem_cons.1 he with rfl | he
        · exact absurd hx hn
        · exact he
    · rename_i hx
      rcases List.mem_cons.1 h with rfl | h
      · exact absurd rfl hx
      · obtain ⟨l', h1, h2, h3⟩ := ih hs'.2 h
        refine ⟨x :: l', by rw [h1]; rfl, List.pairwise_cons.2 ⟨fun e he => hs'.1 e ((h3 e).1 he).1, h2⟩, fun e => ?_⟩
        rw [List.mem_cons, h3, List.mem_cons]
        constructor
        · rintro (rfl | ⟨h4, h5⟩)
          · exact ⟨.inl rfl, hx⟩
          · exact ⟨.inr h4, h5⟩
        · rintro ⟨rfl | h4, h5⟩
          · exact .inl rfl
          · exact .inr ⟨h4, h5⟩

/-! ## the keys -/

/-- the key under which this call has stored its callback -/
def owns : PC → Option Nat
  | .rIncr i => some i
  | .rUnlock i => some i
  | .rMake i => some i
  | .rDone i => some i
  | .hit f => owns f
  | _ => none

/-- this call is disposing the registration of `r`, has marked it, and not yet removed it -/
def removing (r : Nat) : PC → Bool
  | .uLock r' _ => r' == r
  | .uDel r' _ => r' == r
  | _ => false

/-- what the keys tell -/
structure Ids (s : State) : Prop where
  store : ∀ t i, s.pc t = .rStore i → i = s.id
  incr : ∀ t i, s.pc t = .rIncr i → i = s.id ∧ (i, t) ∈ s.listeners
  unlock : ∀ t i, s.pc t = .rUnlock i → i < s.id ∧ (i, t) ∈ s.listeners
  make : ∀ t i, s.pc t = .rMake i → i < s.id ∧ (i, t) ∈ s.listeners
  done : ∀ t i, s.pc t = .rDone i → i < s.id
  un1 : ∀ u r i, s.pc u = .uTest r i → s.pc r = .rDone i
  un2 : ∀ u r i, s.pc u = .uLock r i → s.pc r = .rDone i ∧ r ∈ s.gone ∧ (i, r) ∈ s.listeners
  un3 : ∀ u r i, s.pc u = .uDel r i → s.pc r = .rDone i ∧ r ∈ s.gone ∧ (i, r) ∈ s.listeners
  sorted : Sorted s.listeners
  small : ∀ e ∈ s.listeners, e.1 ≤ s.id
  entry : ∀ i r, (i, r) ∈ s.listeners → owns (s.pc r) = some i
  there : ∀ r i, s.pc r = .rDone i → r ∉ s.gone → (i, r) ∈ s.listeners
  uniq : ∀ r u u', removing r (s.pc u) = true → removing r (s.pc u') = true → u = u'
  gone : ∀ r, r ∈ s.gone → ∃ i, s.pc r = .rDone i
  fine : ∀ u r, s.pc u ≠ .uKeyError r

theorem ids_init : Ids init := by
  constructor <;> simp [init, Sorted, removing]

/-- a call goes somewhere else, and nothing else changes that the keys depend on -/
theorem ids_swap {s s' : State} {t : Nat} (f : PC) (h : Ids s) (hl : s'.listeners = s.listeners) (hi : s'.id = s.id) (hg : s'.gone = s.gone)
    (hp : s'.pc = upd s.pc t f) (hold : ∀ i, s.pc t ≠ .rDone i) (hown : ∀ i, owns (s.pc t) = some i → owns f = some i)
    (hrem : ∀ r, removing r f = true → removing r (s.pc t) = true) (h1 : ∀ i, f = .rStore i → i = s.id)
    (h2 : ∀ i, f = .rIncr i ∨ f = .rUnlock i → False) (h3 : ∀ i, f = .rMake i ∨ f = .rDone i → i < s.id ∧ (i, t) ∈ s.listeners)
    (h4 : ∀ r i, f = .uTest r i → s.pc r = .rDone i) (h5 : ∀ r i, f = .uLock r i ∨ f = .uDel r i → s.pc t = .uLock r i)
    (h6 : ∀ r, f ≠ .uKeyError r) : Ids s' := by
  obtain ⟨store, incr, unlock, make, done, un1, un2, un3, sorted, small, entry, there, uniq, gone, fine⟩ := h
  have hpc : ∀ u, s'.pc u = if u = t then f else s.pc u := fun u => by rw [hp, upd_apply]
  have hr : ∀ r i, s.pc r = .rDone i → s'.pc r = .rDone i := by
    intro r i h
    rw [hpc, if_neg (fun (e : r = t) => hold i (e ▸ h))]; exact h
  have hne : ∀ r i, s.pc r = .rDone i → r ≠ t := fun r i h e => hold i (e ▸ h)
  constructor
  case store => intro u i; rw [hpc, hi]; split <;> grind
  case incr => intro u i; rw [hpc, hi, hl]; split <;> grind
  case unlock => intro u i; rw [hpc, hi, hl]; split <;> grind
  case make => intro u i; rw [hpc, hi, hl]; split <;> grind
  case done => intro u i; rw [hpc, hi]; split <;> grind
  case un1 => intro u r i; rw [hpc]; split <;> grind
  case un2 => intro u r i; rw [hpc, hg, hl]; split <;> grind
  case un3 => intro u r i; rw [hpc, hg, hl]; split <;> grind
  case sorted => rw [hl]; exact sorted
  case small => rw [hl, hi]; exact small
  case entry => intro i r; rw [hpc, hl]; split <;> grind
  case there => intro r i; rw [hpc, hg, hl]; split <;> grind
  case uniq => intro r u u'; rw [hpc, hpc]; split <;> split <;> grind
  case gone => intro r; rw [hg]; intro h; obtain ⟨i, h⟩ := gone r h; exact ⟨i, hr r i h⟩
  case fine => intro u r; rw [hpc]; split <;> grind

theorem owns_hit (f : PC) : owns (.hit f) = owns f := rfl

theorem removing_hit (r : Nat) (f : PC) : removing r (.hit f) = false := rfl

theorem ids_step (s : State) (c : Nat × Act) (s' : State) (hl : Lock s) (h : Ids s) (hc : step s c = some s') : Ids s' := by
  have hm := move hc
  generalize c.1 = t at hm
  have hl' : ∀ t, (s.pc t).holds = true ↔ s.owner = some t := hl
  clear hl hc
  cases hm with
  | rStore h0 =>
    rename_i i
    have hi := h.store t i h0
    have h1 := fun e => mem_store (cb := t) h.sorted (fun e he => hi ▸ h.small e he) e
    have h2 := sorted_store (cb := t) h.sorted (fun e he => hi ▸ h.small e he)
    have h3 : ∀ u, u ≠ t → (s.pc u).holds = false := by
      intro u hu
      have ha := (hl' t).1 (by rw [h0]; rfl)
      cases hh : (s.pc u).holds with
      | false => rfl
      | true => have := (hl' u).1 hh; rw [ha] at this; cases this; exact absurd rfl hu
    obtain ⟨store, incr, unlock, make, done, un1, un2, un3, sorted, small, entry, there, uniq, gone, fine⟩ := h
    have hne : ∀ r i, s.pc r = .rDone i → r ≠ t := fun r i h e => by subst e; rw [h0] at h; cases h
    have old : ∀ j r, j < i → (j, r) ∈ s.listeners → (j, r) ∈ CancelInterrupt.store i t s.listeners := fun j r hj h => (h1 _).2 (.inr ⟨h, by simp only; omega⟩)
    have hd : ∀ j r, (j, r) ∈ s.listeners → s.pc r = .rDone j → (j, r) ∈ CancelInterrupt.store i t s.listeners :=
      fun j r hj h => old j r (hi ▸ done r j h) hj
    constructor <;> simp only [State.at, upd_apply]
    case store => intro u j; split <;> grind [PC.holds]
    case incr =>
      intro u j
      split
      · rintro h; cases h; subst_vars; exact ⟨rfl, (h1 _).2 (.inl rfl)⟩
      · intro h; have := h3 u ‹_›; rw [h] at this; cases this
    case unlock =>
      intro u j
      split
      · rintro h; cases h
      · intro h; have := h3 u ‹_›; rw [h] at this; cases this
    case make =>
      intro u j
      split
      · rintro h; cases h
      · intro h; exact ⟨(make u j h).1, old _ _ (hi ▸ (make u j h).1) (make u j h).2⟩
    case done => intro u j; split <;> grind
    case un1 => intro u r j; split <;> grind
    case un2 => intro u r j; split <;> grind
    case un3 => intro u r j; split <;> grind
    case sorted => exact h2
    case small => intro e he; rcases (h1 e).1 he with rfl | he <;> grind
    case entry => intro j r he; rcases (h1 _).1 he with h | ⟨h, hn⟩ <;> grind [owns]
    case there => intro r j; split <;> grind
    case uniq => intro r u u'; split <;> split <;> grind [removing]
    case gone => intro r hr; obtain ⟨j, h⟩ := gone r hr; exact ⟨j, by rw [if_neg (hne r j h)]; exact h⟩
    case fine => intro u r; split <;> grind
  | rIncr h0 =>
    rename_i i
    obtain ⟨hi, hm⟩ := h.incr t i h0
    have h3 : ∀ u, u ≠ t → (s.pc u).holds = false := by
      intro u hu
      have ha := (hl' t).1 (by rw [h0]; rfl)
      cases hh : (s.pc u).holds with
      | false => rfl
      | true => have := (hl' u).1 hh; rw [ha] at this; cases this; exact absurd rfl hu
    obtain ⟨store, incr, unlock, make, done, un1, un2, un3, sorted, small, entry, there, uniq, gone, fine⟩ := h
    have hne : ∀ r i, s.pc r = .rDone i → r ≠ t := fun r i h e => by subst e; rw [h0] at h; cases h
    constructor <;> simp only [State.at, upd_apply]
    case store => intro u j; split <;> grind [PC.holds]
    case incr => intro u j; split <;> grind [PC.holds]
    case unlock => intro u j; split <;> grind [PC.holds]
    case make => intro u j; split <;> grind
    case done => intro u j; split <;> grind
    case un1 => intro u r j; split <;> grind
    case un2 => intro u r j; split <;> grind
    case un3 => intro u r j; split <;> grind
    case sorted => exact sorted
    case small => intro e he; have := small e he; omega
    case entry => intro j r he; have := entry j r he; split <;> grind [owns]
    case there => intro r j; split <;> grind
    case uniq => intro r u u'; split <;> split <;> grind [removing]
    case gone => intro r hr; obtain ⟨j, h⟩ := gone r hr; exact ⟨j, by rw [if_neg (hne r j h)]; exact h⟩
    case fine => intro u r; split <;> grind
  | uFirst h0 hg =>
    rename_i r0 i
    obtain ⟨store, incr, unlock, make, done, un1, un2, un3, sorted, small, entry, there, uniq, gone, fine⟩ := h
    have hne : ∀ r i, s.pc r = .rDone i → r ≠ t := fun r i h e => by subst e; rw [h0] at h; cases h
    have h1 := un1 t r0 i h0
    have h2 := there r0 i h1 hg
    have h3 : ∀ u, removing r0 (s.pc u) = false := by
      intro u
      cases hr : removing r0 (s.pc u) with
      | false => rfl
      | true =>
        unfold removing at hr
        split at hr
        · rename_i h4; have := (un2 _ _ _ h4).2.1; rw [beq_iff_eq] at hr; subst hr; exact absurd this hg
        · rename_i h4; have := (un3 _ _ _ h4).2.1; rw [beq_iff_eq] at hr; subst hr; exact absurd this hg
        · cases hr
    constructor <;> simp only [State.at, upd_apply]
    case store => intro u j; split <;> grind
    case incr => intro u j; split <;> grind
    case unlock => intro u j; split <;> grind
    case make => intro u j; split <;> grind
    case done => intro u j; split <;> grind
    case un1 => intro u r j; split <;> grind
    case un2 => intro u r j; split <;> grind
    case un3 => intro u r j; split <;> grind
    case sorted => exact sorted
    case small => exact small
    case entry => intro j r he; have := entry j r he; split <;> grind [owns]
    case there => intro r j; split <;> grind
    case uniq => intro r u u'; split <;> split <;> grind [removing]
    case gone => 
      intro r hr
      rcases List.mem_cons.1 hr with rfl | hr
      · exact ⟨i, by rw [if_neg (hne _ _ h1)]; exact h1⟩
      · obtain ⟨j, h⟩ := gone r hr; exact ⟨j, by rw [if_neg (hne r j h)]; exact h⟩
    case fine => intro u r; split <;> grind
  | uDel h0 hd =>
    rename_i r0 i l
    obtain ⟨store, incr, unlock, make, done, un1, un2, un3, sorted, small, entry, there, uniq, gone, fine⟩ := h
    obtain ⟨h1, h2, h3⟩ := un3 t r0 i h0
    obtain ⟨l', h4, h5, h6⟩ := delete_some sorted h3
    rw [hd] at h4
    cases h4
    have hne : ∀ r i, s.pc r = .rDone i → r ≠ t := fun r i h e => by subst e; rw [h0] at h; cases h
    have h7 : ∀ j r, r ≠ r0 → (j, r) ∈ s.listeners → (j, r) ∈ l := fun j r hr h => (h6 _).2 ⟨h, fun e => by
      simp only at e
      subst e
      exact hr (sorted_inj sorted h h3)⟩
    have h8 : ∀ u r j, u ≠ t → s.pc u = .uLock r j ∨ s.pc u = .uDel r j → r ≠ r0 := by
      intro u r j hu h hr
      subst hr
      exact hu (uniq r u t (by rcases h with h | h <;> rw [h] <;> simp [removing]) (by rw [h0]; simp [removing]))
    have h9 : ∀ t, (s.pc t = .rDone i) ∨ t ≠ r0 := fun t => by by_cases h : t = r0; (subst h; exact .inl h1); exact .inr h
    constructor <;> simp only [State.at, upd_apply]
    case store => intro u j; split <;> grind
    case incr => intro u j; split <;> grind
    case unlock => intro u j; split <;> grind
    case make => intro u j; split <;> grind
    case done => intro u j; split <;> grind
    case un1 => intro u r j; split <;> grind
    case un2 => intro u r j; split <;> grind
    case un3 => intro u r j; split <;> grind
    case sorted => exact h5
    case small => intro e he; exact small e ((h6 e).1 he).1
    case entry => intro j r he; have := entry j r ((h6 _).1 he).1; split <;> grind [owns]
    case there => intro r j; split <;> grind
    case uniq => intro r u u'; split <;> split <;> grind [removing]
    case gone => intro r hr; obtain ⟨j, h⟩ := gone r hr; exact ⟨j, by rw [if_neg (hne r j h)]; exact h⟩
    case fine => intro u r; split <;> grind
  | uKeyError h0 hd =>
    rename_i r i
    obtain ⟨h1, h2, h3⟩ := h.un3 t r i h0
    obtain ⟨l', h4, _⟩ := delete_some h.sorted h3
    rw [hd] at h4
    cases h4
  | hitIn h0 =>
    exact ids_swap (.hit (s.pc t)) h rfl rfl rfl rfl (fun i e => by rw [e] at h0; cases h0) (fun i e => e) (fun r e => by cases e)
      (fun i e => by cases e) (fun i e => by rcases e with e | e <;> cases e) (fun i e => by rcases e with e | e <;> cases e) (fun r i e => by cases e)
      (fun r i e => by rcases e with e | e <;> cases e) (fun r e => by cases e)
  | hitOut h0 =>
    exact ids_swap (.hit (s.pc t)) h rfl rfl rfl rfl (fun i e => by rw [e] at h0; cases h0) (fun i e => e) (fun r e => by cases e)
      (fun i e => by cases e) (fun i e => by rcases e with e | e <;> cases e) (fun i e => by rcases e with e | e <;> cases e) (fun r i e => by cases e)
      (fun r i e => by rcases e with e | e <;> cases e) (fun r e => by cases e)
  | rRead h0 =>
    exact ids_swap _ h rfl rfl rfl rfl (by simp [h0]) (by simp [h0, owns]) (by simp [h0, removing]) (by simp) (by simp) (by simp) (by simp) (by simp) (by simp)
  | unregister h0 hr =>
    exact ids_swap _ h rfl rfl rfl rfl (by simp [h0]) (by simp [h0, owns]) (by simp [h0, removing]) (by simp) (by simp) (by simp)
      (fun r i e => by cases e; exact hr) (by simp) (by simp)
  | rUnlock h0 =>
      have := h.unlock _ _ h0
      exact ids_swap _ h rfl rfl rfl rfl (by simp [h0]) (by simp [h0, owns]) (by simp [h0, removing]) (by simp) (by simp) (fun j e => by
        rcases e with e | e <;> cases e; exact this) (by simp) (by simp) (by simp)
  | rMake h0 =>
      have := h.make _ _ h0
      exact ids_swap _ h rfl rfl rfl rfl (by simp [h0]) (by simp [h0, owns]) (by simp [h0, removing]) (by simp) (by simp) (fun j e => by
        rcases e with e | e <;> cases e; exact this) (by simp) (by simp) (by simp)
  | uLock h0 =>
    exact ids_swap _ h rfl rfl rfl rfl (by simp [h0]) (by simp [h0, owns]) (by simp [h0, removing]) (by simp) (by simp) (by simp) (by simp)
      (fun r i e => by rcases e with e | e <;> cases e; exact h0) (by simp)
  | _ h0 =>
    exact ids_swap _ h rfl rfl rfl rfl (by simp [h0]) (by simp [h0, owns]) (by simp [removing]) (by simp) (by simp) (by simp) (by simp) (by simp) (by simp)

end Expression.Lemmas.CancelInterrupt
