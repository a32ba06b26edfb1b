import Verif.Lemmas.CancelInterrupt

/-! # Who calls whom, with interrupts -/

namespace Expression.Lemmas.CancelInterrupt

open Threads Expression.CancelInterrupt Spec.CancelInterrupt

theorem owns_mono {s s' : State} {t : Nat} (hm : Move s t s') {r i : Nat} (h : owns (s.pc r) = some i) : owns (s'.pc r) = some i := by
  cases hm <;> simp only [State.at, upd_apply] <;> (split <;> grind [owns])

theorem cancel_mono {s s' : State} {t : Nat} (hm : Move s t s') {u : Nat} (h : isCancel (s.pc u) = true) : isCancel (s'.pc u) = true := by
  cases hm <;> simp only [State.at, upd_apply] <;> (split <;> grind [isCancel])

theorem disposes_mono {s s' : State} {t : Nat} (hm : Move s t s') {r u : Nat} (h : disposes r (s.pc u) = true) : disposes r (s'.pc u) = true := by
  cases hm <;> simp only [State.at, upd_apply] <;> (split <;> grind [disposes])

theorem done_mono {s s' : State} {t : Nat} (hm : Move s t s') {r i : Nat} (h : s.pc r = .rDone i) : s'.pc r = .rDone i := by
  cases hm <;> simp only [State.at, upd_apply] <;> (split <;> grind [PC.isOpen])

theorem disposed_mono {s s' : State} {t : Nat} (hm : Move s t s') (h : s.isDisposed = true) : s'.isDisposed = true := by
  cases hm <;> first | exact h | rfl

theorem id_mono {s s' : State} {t : Nat} (hm : Move s t s') : s.id ≤ s'.id := by
  cases hm <;> first | exact Nat.le_refl _ | exact Nat.le_succ _

/-- this call has set the flag and not looked at the listeners, or was ended there -/
def snapped : PC → Bool
  | .cSnap => true
  | .hit f => snapped f
  | _ => false

/-- the listeners that this call has still to call, or had when it was ended -/
def owed : PC → List (Nat × Nat)
  | .cUnlock ls => ls
  | .cLoop ls => ls
  | .inListener ls => ls
  | .hit f => owed f
  | _ => []

structure Win (s : State) : Prop where
  quiet : s.isDisposed = false → s.calls = [] ∧ ∀ t, snapped (s.pc t) = false ∧ owed (s.pc t) = []
  set : ∀ t, s.pc t = .cSet → s.isDisposed = false
  done : ∀ t, s.pc t = .cDone → s.isDisposed = true
  loop1 : ∀ t ls, s.pc t = .cUnlock ls → s.isDisposed = true
  loop2 : ∀ t ls, s.pc t = .cLoop ls → s.isDisposed = true
  loop3 : ∀ t ls, s.pc t = .inListener ls → s.isDisposed = true
  win : ∃ w, (∀ t, t ≠ w → snapped (s.pc t) = false ∧ owed (s.pc t) = []) ∧ Sorted (s.calls ++ owed (s.pc w)) ∧ (snapped (s.pc w) = true → s.calls = [])
  known : ∀ i r, (i, r) ∈ s.calls → owns (s.pc r) = some i
  known' : ∀ t i r, (i, r) ∈ owed (s.pc t) → owns (s.pc r) = some i
  began : s.isDisposed = true → ∃ t, isCancel (s.pc t) = true

theorem win_init : Win init := by
  refine ⟨fun _ => ⟨rfl, fun t => ⟨rfl, rfl⟩⟩, ?_, ?_, ?_, ?_, ?_, ⟨0, fun t _ => ⟨rfl, rfl⟩, List.Pairwise.nil, fun h => by cases h⟩, ?_, ?_, fun h => by cases h⟩ <;>
    simp [init, owed]

/-- a call goes somewhere else, and nothing else changes that matters to who is called -/
theorem win_swap {s s' : State} {t : Nat} (f : PC) (h : Win s) (hm : Move s t s') (hc : s'.calls = s.calls) (hd : s'.isDisposed = s.isDisposed)
    (hp : s'.pc = upd s.pc t f) (ho : owed f = owed (s.pc t)) (hn : snapped f = snapped (s.pc t)) (h1 : f = .cSet → s.isDisposed = false)
    (h2 : f = .cDone ∨ (∃ ls, f = .cUnlock ls ∨ f = .cLoop ls ∨ f = .inListener ls) → s.isDisposed = true) : Win s' := by
  obtain ⟨quiet, set, done, loop1, loop2, loop3, ⟨w, hw1, hw2, hw3⟩, known, known', began⟩ := h
  have hpc : ∀ u, s'.pc u = if u = t then f else s.pc u := fun u => by rw [hp, upd_apply]
  have ho' : ∀ u, owed (s'.pc u) = owed (s.pc u) := fun u => by rw [hpc]; split <;> simp_all
  have hn' : ∀ u, snapped (s'.pc u) = snapped (s.pc u) := fun u => by rw [hpc]; split <;> simp_all
  constructor
  case quiet => rw [hd, hc]; intro h; refine ⟨(quiet h).1, fun u => ?_⟩; rw [ho', hn']; exact (quiet h).2 u
  case set => intro u; rw [hpc, hd]; split; exact h1; exact set u
  case done => intro u; rw [hpc, hd]; split; exact fun h => h2 (.inl h); exact done u
  case loop1 => intro u ls; rw [hpc, hd]; split; exact fun h => h2 (.inr ⟨ls, .inl h⟩); exact loop1 u ls
  case loop2 => intro u ls; rw [hpc, hd]; split; exact fun h => h2 (.inr ⟨ls, .inr (.inl h)⟩); exact loop2 u ls
  case loop3 => intro u ls; rw [hpc, hd]; split; exact fun h => h2 (.inr ⟨ls, .inr (.inr h)⟩); exact loop3 u ls
  case win => exact ⟨w, fun u hu => by rw [ho', hn']; exact hw1 u hu, by rw [hc, ho']; exact hw2, by rw [hc, hn']; exact hw3⟩
  case known => intro i r h; rw [hc] at h; exact owns_mono hm (known i r h)
  case known' => intro u i r h; rw [ho'] at h; exact owns_mono hm (known' u i r h)
  case began => intro h; rw [hd] at h; obtain ⟨u, hu⟩ := began h; exact ⟨u, cancel_mono hm hu⟩

theorem win_step (s : State) (c : Nat × Act) (s' : State) (hl : Lock s) (hi : Ids s) (h : Win s) (hc : step s c = some s') : Win s' := by
  have hm := move hc
  generalize c.1 = t at hm
  clear hc
  have hm' := hm
  cases hm with
  | hitIn h0 hh =>
    exact win_swap (.hit (s.pc t)) h hm' rfl rfl rfl rfl rfl (fun e => by cases e) (fun e => by rcases e with e | ⟨ls, e | e | e⟩ <;> cases e)
  | hitOut h0 hh =>
    exact win_swap (.hit (s.pc t)) h hm' rfl rfl rfl rfl rfl (fun e => by cases e) (fun e => by rcases e with e | ⟨ls, e | e | e⟩ <;> cases e)
  | cSet h0 =>
    obtain ⟨quiet, set, done, loop1, loop2, loop3, ⟨w, hw1, hw2, hw3⟩, known, known', began⟩ := h
    have hd := set t h0
    obtain ⟨hq1, hq2⟩ := quiet hd
    constructor
    case quiet => intro h; cases h
    case set =>
      intro u; simp only [State.at, upd_apply]
      split
      · intro h; cases h
      · intro h
        have h1 := (hl u).1 (by rw [h]; rfl)
        have h2 := (hl t).1 (by rw [h0]; rfl)
        rw [h1] at h2
        cases h2
        exact absurd rfl ‹_›
    case done => intros; rfl
    case loop1 => intros; rfl
    case loop2 => intros; rfl
    case loop3 => intros; rfl
    case win =>
      refine ⟨t, fun u hu => ?_, ?_, fun _ => hq1⟩
      · simp only [State.at, upd_apply]; rw [if_neg hu]; exact hq2 u
      · simp only [State.at, upd_apply]; rw [if_pos trivial, hq1]; exact List.Pairwise.nil
    case known => intro i r h; exact owns_mono hm' (known i r h)
    case known' =>
      intro u i r
      simp only [State.at, upd_apply]
      split
      · intro h; cases h
      · intro h; rw [(hq2 u).2] at h; cases h
    case began => exact fun _ => ⟨t, by simp only [State.at, upd_apply]; rw [if_pos trivial]; rfl⟩
  | cSnap h0 =>
    obtain ⟨quiet, set, done, loop1, loop2, loop3, ⟨w, hw1, hw2, hw3⟩, known, known', began⟩ := h
    have htw : t = w := by
      by_cases htw : t = w
      · exact htw
      · have := (hw1 t htw).1; rw [h0] at this; cases this
    subst htw
    have hd : s.isDisposed = true := by
      cases hd : s.isDisposed with
      | true => rfl
      | false => have := ((quiet hd).2 t).1; rw [h0] at this; cases this
    have hcs := hw3 (by rw [h0]; rfl)
    constructor
    case quiet => intro h; rw [show (State.at s t (.cUnlock s.listeners)).isDisposed = s.isDisposed from rfl, hd] at h; cases h
    case set => intro u; simp only [State.at, upd_apply]; split <;> intro h; cases h; exact set u h
    case done => intros; exact hd
    case loop1 => intros; exact hd
    case loop2 => intros; exact hd
    case loop3 => intros; exact hd
    case win =>
      refine ⟨t, fun u hu => ?_, ?_, fun _ => hcs⟩
      · simp only [State.at, upd_apply]; rw [if_neg hu]; exact hw1 u hu
      · simp only [State.at, upd_apply]; rw [if_pos trivial, hcs]; exact hi.sorted
    case known => intro i r h; exact owns_mono hm' (known i r h)
    case known' =>
      intro u i r h
      refine owns_mono hm' ?_
      simp only [State.at, upd_apply] at h
      split at h
      · exact hi.entry i r h
      · exact known' u i r h
    case began => intro h; obtain ⟨u, hu⟩ := began h; exact ⟨u, cancel_mono hm' hu⟩
  | cCall h0 =>
    rename_i l ls
    obtain ⟨quiet, set, done, loop1, loop2, loop3, ⟨w, hw1, hw2, hw3⟩, known, known', began⟩ := h
    have htw : t = w := by
      by_cases htw : t = w
      · exact htw
      · have := (hw1 t htw).2; rw [h0] at this; cases this
    subst htw
    have hd := loop2 t _ h0
    constructor
    case quiet => intro h; rw [show State.isDisposed { State.at s t (.inListener ls) with calls := s.calls ++ [l] } = s.isDisposed from rfl, hd] at h; cases h
    case set => intro u; simp only [State.at, upd_apply]; split <;> intro h; cases h; exact set u h
    case done => intros; exact hd
    case loop1 => intros; exact hd
    case loop2 => intros; exact hd
    case loop3 => intros; exact hd
    case win =>
      refine ⟨t, fun u hu => ?_, ?_, ?_⟩
      · simp only [State.at, upd_apply]; rw [if_neg hu]; exact hw1 u hu
      · simp only [State.at, upd_apply]; rw [if_pos trivial]
        rw [h0] at hw2
        rw [List.append_assoc]; exact hw2
      · simp only [State.at, upd_apply]; rw [if_pos trivial]; intro h; cases h
    case known =>
      intro i r h
      refine owns_mono hm' ?_
      rcases List.mem_append.1 h with h | h
      · exact known i r h
      · rw [List.mem_singleton] at h
        exact known' t i r (by rw [h0, h]; exact List.mem_cons_self)
    case known' =>
      intro u i r h
      refine owns_mono hm' ?_
      simp only [State.at, upd_apply] at h
      split at h
      · exact known' t i r (by rw [h0]; exact List.mem_cons_of_mem _ h)
      · exact known' u i r h
    case began => intro h; obtain ⟨u, hu⟩ := began h; exact ⟨u, cancel_mono hm' hu⟩
  | cAgain h0 hd => exact win_swap _ h hm' rfl rfl rfl (by simp [h0, owed]) (by simp [h0, snapped]) (by simp) (fun _ => hd)
  | cFirst h0 hd => exact win_swap _ h hm' rfl rfl rfl (by simp [h0, owed]) (by simp [h0, snapped]) (fun _ => hd) (by simp)
  | cUnlock h0 => exact win_swap _ h hm' rfl rfl rfl (by simp [h0, owed]) (by simp [h0, snapped]) (by simp) (fun _ => h.loop1 _ _ h0)
  | cEnd h0 => exact win_swap _ h hm' rfl rfl rfl (by simp [h0, owed]) (by simp [h0, snapped]) (by simp) (fun _ => h.loop2 _ _ h0)
  | cBack h0 => exact win_swap _ h hm' rfl rfl rfl (by simp [h0, owed]) (by simp [h0, snapped]) (by simp) (fun _ => h.loop3 _ _ h0)
  | _ h0 => exact win_swap _ h hm' rfl rfl rfl (by simp [h0, owed]) (by simp [h0, snapped]) (by simp) (by simp)

/-! ## all together -/

structure All (s : State) : Prop where
  lock : Lock s
  ids : Ids s
  win : Win s

theorem all_step (s : State) (c : Nat × Act) (s' : State) (h : All s) (hc : step s c = some s') : All s' :=
  ⟨lock_step s c s' h.lock hc, ids_step s c s' h.lock h.ids hc, win_step s c s' h.lock h.ids h.win hc⟩

theorem all_run {sched : List (Nat × Act)} {s : State} (h : run step init sched = some s) : All s :=
  run_inv All all_step ⟨lock_init, ids_init, win_init⟩ sched h

/-- from a state with the invariants on -/
theorem from_run {P : State → Prop} (hs : ∀ s t s', All s → P s → Move s t s' → P s') {a b : State} (ha : All a) (h0 : P a) {sched : List (Nat × Act)}
    (h : run step a sched = some b) : P b :=
  (run_inv (step := step) (fun s => All s ∧ P s) (fun s c s' h hc => ⟨all_step s c s' h.1 hc, hs s c.1 s' h.1 h.2 (move hc)⟩) ⟨ha, h0⟩ sched h).2

/-- the listener of `r` is stored, called, or to be called -/
structure Keep (r i : Nat) (s : State) : Prop where
  mine : s.pc r = .rDone i
  kept : (∃ u, disposes r (s.pc u) = true) ∨ (s.isDisposed = false ∧ (i, r) ∈ s.listeners) ∨ (i, r) ∈ s.calls ∨ (∃ t, (i, r) ∈ owed (s.pc t)) ∨
    ∃ t, snapped (s.pc t) = true ∧ (i, r) ∈ s.listeners

theorem removing_disposes {r i : Nat} {f : PC} (h : f = .uDel r i) : disposes r f = true := by subst h; simp [disposes]

theorem keep_step (r i : Nat) (s : State) (t : Nat) (s' : State) (ha : All s) (h : Keep r i s) (hm : Move s t s') : Keep r i s' := by
  refine ⟨done_mono hm h.mine, ?_⟩
  rcases h.kept with ⟨u, hu⟩ | hk
  · exact .inl ⟨u, disposes_mono hm hu⟩
  have hi := ha.ids.done r i h.mine
  -- the entry stays unless a call disposes it
  have hstay : (i, r) ∈ s.listeners → (∃ u, disposes r (s.pc u) = true) ∨ (i, r) ∈ s'.listeners := by
    intro hin
    cases hm with
    | rStore h0 =>
      rename_i j
      have hj := ha.ids.store t j h0
      exact .inr ((mem_store ha.ids.sorted (fun e he => hj ▸ ha.ids.small e he) _).2 (.inr ⟨hin, by simp only; omega⟩))
    | uDel h0 hd =>
      rename_i r' j l
      obtain ⟨h1, h2, h3⟩ := ha.ids.un3 t r' j h0
      obtain ⟨l', h4, h5, h6⟩ := delete_some ha.ids.sorted h3
      rw [hd] at h4
      cases h4
      by_cases hr : r' = r
      · subst hr; exact .inl ⟨t, removing_disposes h0⟩
      · refine .inr ((h6 _).2 ⟨hin, fun e => hr ?_⟩)
        simp only at e
        subst e
        exact sorted_inj ha.ids.sorted h3 hin
    | _ => exact .inr hin
  have hu : (∃ u, disposes r (s.pc u) = true) → ∃ u, disposes r (s'.pc u) = true := fun ⟨u, h⟩ => ⟨u, disposes_mono hm h⟩
  rcases hk with ⟨hd, hin⟩ | hc | ⟨u, ho⟩ | ⟨u, hs, hin⟩
  · rcases hstay hin with h1 | h1
    · exact .inl (hu h1)
    · cases hm with
      | cSet h0 => exact .inr (.inr (.inr (.inr ⟨t, by simp only [State.at, upd_apply]; rw [if_pos trivial]; rfl, h1⟩)))
      | _ => exact .inr (.inl ⟨hd, h1⟩)
  · refine .inr (.inr (.inl ?_))
    cases hm with
    | cCall h0 => exact List.mem_append_left _ hc
    | _ => exact hc
  · refine .inr (.inr ?_)
    by_cases ht : u = t
    · subst ht
      cases hm with
      | hitIn h0 hh => exact .inr (.inl ⟨u, by simp only [State.at, upd_apply]; rw [if_pos trivial]; exact ho⟩)
      | hitOut h0 hh => exact .inr (.inl ⟨u, by simp only [State.at, upd_apply]; rw [if_pos trivial]; exact ho⟩)
      | cUnlock h0 => exact .inr (.inl ⟨u, by simp only [State.at, upd_apply]; rw [if_pos trivial]; rw [h0] at ho; exact ho⟩)
      | cBack h0 => exact .inr (.inl ⟨u, by simp only [State.at, upd_apply]; rw [if_pos trivial]; rw [h0] at ho; exact ho⟩)
      | cCall h0 =>
        rename_i l ls
        rw [h0] at ho
        rcases List.mem_cons.1 ho with h1 | h1
        · exact .inl (List.mem_append_right _ (List.mem_singleton.2 h1))
        · exact .inr (.inl ⟨u, by simp only [State.at, upd_apply]; rw [if_pos trivial]; exact h1⟩)
      | _ h0 => rw [h0] at ho; cases ho
    · refine .inr (.inl ⟨u, ?_⟩)
      cases hm <;> simp only [State.at, upd_apply] <;> rw [if_neg ht] <;> exact ho
  · rcases hstay hin with h1 | h1
    · exact .inl (hu h1)
    · refine .inr (.inr (.inr ?_))
      by_cases ht : u = t
      · subst ht
        cases hm with
        | hitIn h0 hh => exact .inr ⟨u, by simp only [State.at, upd_apply]; rw [if_pos trivial]; exact hs, h1⟩
        | hitOut h0 hh => exact .inr ⟨u, by simp only [State.at, upd_apply]; rw [if_pos trivial]; exact hs, h1⟩
        | cSnap h0 => exact .inl ⟨u, by simp only [State.at, upd_apply]; rw [if_pos trivial]; exact h1⟩
        | _ h0 => rw [h0] at hs; cases hs
      · refine .inr ⟨u, ?_, h1⟩
        cases hm <;> simp only [State.at, upd_apply] <;> rw [if_neg ht] <;> exact hs

/-- a registration that has returned is stored until a call disposes it -/
theorem registered_stored {s : State} (ha : All s) {r i : Nat} (h : s.pc r = .rDone i) (hn : ∀ u, disposes r (s.pc u) = false)
    (hg : r ∈ s.gone → ∃ u, disposes r (s.pc u) = true) : (i, r) ∈ s.listeners := by
  refine ha.ids.there r i h (fun hr => ?_)
  obtain ⟨u, hu⟩ := hg hr
  rw [hn u] at hu
  cases hu

/-- this call has marked the registration of `r`, and was ended before it removed it, or is about to -/
def halfway (r : Nat) : PC → Bool
  | .uLock r' _ => r' == r
  | .uDel r' _ => r' == r
  | .hit (.uLock r' _) => r' == r
  | .hit (.uDel r' _) => r' == r
  | _ => false

/-- what `gone` means -/
structure Gone (s : State) : Prop where
  by_ : ∀ r, r ∈ s.gone → ∃ u, disposes r (s.pc u) = true
  off : ∀ r, r ∈ s.gone → (∃ u, halfway r (s.pc u) = true) ∨ ∀ i, (i, r) ∉ s.listeners
  un : ∀ u r, s.pc u = .uUnlock r → r ∈ s.gone
  over : ∀ u r, s.pc u = .uDone r → r ∈ s.gone

theorem gone_init : Gone init := by
  constructor <;> simp [init]

theorem gone_step (s : State) (t : Nat) (s' : State) (ha : All s) (h : Gone s) (hm : Move s t s') : Gone s' := by
  have hd : ∀ r, (∃ u, disposes r (s.pc u) = true) → ∃ u, disposes r (s'.pc u) = true := fun r ⟨u, h⟩ => ⟨u, disposes_mono hm h⟩
  have hne : ∀ r, r ∈ s.gone → t ≠ r ∨ ∃ i, s.pc t = .rDone i := fun r hr => by
    by_cases e : t = r
    · subst e; exact .inr (ha.ids.gone t hr)
    · exact .inl e
  -- calls that do not touch what matters
  have swap : ∀ f, s'.pc = upd s.pc t f → s'.gone = s.gone → s'.listeners = s.listeners → (∀ r, halfway r (s.pc t) = true → halfway r f = true) →
      (∀ r, f = .uUnlock r → r ∈ s.gone) → (∀ r, f = .uDone r → r ∈ s.gone) → Gone s' := by
    intro f hp hg hl h1 h2 h3
    have hpc : ∀ u, s'.pc u = if u = t then f else s.pc u := fun u => by rw [hp, upd_apply]
    constructor
    · intro r hr; rw [hg] at hr; exact hd r (h.by_ r hr)
    · intro r hr
      rw [hg] at hr
      rcases h.off r hr with ⟨u, hu⟩ | h4
      · refine .inl ⟨u, ?_⟩
        rw [hpc]
        split
        · subst_vars; exact h1 r hu
        · exact hu
      · rw [hl]; exact .inr h4
    · intro u r
      rw [hpc, hg]
      split
      · exact h2 r
      · exact h.un u r
    · intro u r
      rw [hpc, hg]
      split
      · exact h3 r
      · exact h.over u r
  cases hm with
  | hitIn h0 hh => exact swap (.hit (s.pc t)) rfl rfl rfl (fun r e => by
      cases hf : s.pc t <;> rw [hf] at e <;> first | cases e | exact e | (rw [hf] at h0; cases h0)) (fun r e => by cases e) (fun r e => by cases e)
  | hitOut h0 hh => exact swap (.hit (s.pc t)) rfl rfl rfl (fun r e => by
      cases hf : s.pc t <;> rw [hf] at e <;> first | cases e | exact e | (rw [hf] at h0; cases h0)) (fun r e => by cases e) (fun r e => by cases e)
  | rStore h0 =>
    rename_i i
    have hj := ha.ids.store t i h0
    have hs := fun e => mem_store (cb := t) ha.ids.sorted (fun e he => hj ▸ ha.ids.small e he) e
    constructor
    · exact fun r hr => hd r (h.by_ r hr)
    · intro r hr
      rcases h.off r hr with ⟨u, hu⟩ | h4
      · refine .inl ⟨u, ?_⟩
        simp only [State.at, upd_apply]
        split
        · subst_vars; rw [h0] at hu; cases hu
        · exact hu
      · refine .inr (fun j hin => ?_)
        rcases (hs _).1 hin with h5 | ⟨h5, _⟩
        · cases h5
          obtain ⟨k, hk⟩ := ha.ids.gone t hr
          rw [h0] at hk; cases hk
        · exact h4 j h5
    · intro u r; simp only [State.at, upd_apply]; split; (intro e; cases e); exact h.un u r
    · intro u r; simp only [State.at, upd_apply]; split; (intro e; cases e); exact h.over u r
  | uFirst h0 hg =>
    rename_i r0 i
    constructor
    · intro r hr
      rcases List.mem_cons.1 hr with rfl | hr
      · exact ⟨t, by simp only [State.at, upd_apply]; rw [if_pos trivial]; simp [disposes]⟩
      · exact hd r (h.by_ r hr)
    · intro r hr
      rcases List.mem_cons.1 hr with rfl | hr
      · exact .inl ⟨t, by simp only [State.at, upd_apply]; rw [if_pos trivial]; simp [halfway]⟩
      · rcases h.off r hr with ⟨u, hu⟩ | h4
        · refine .inl ⟨u, ?_⟩
          simp only [State.at, upd_apply]
          split
          · subst_vars; rw [h0] at hu; cases hu
          · exact hu
        · exact .inr h4
    · intro u r; simp only [State.at, upd_apply]; split; (intro e; cases e); exact fun e => List.mem_cons_of_mem _ (h.un u r e)
    · intro u r; simp only [State.at, upd_apply]; split; (intro e; cases e); exact fun e => List.mem_cons_of_mem _ (h.over u r e)
  | uDel h0 hdel =>
    rename_i r0 i l
    obtain ⟨h1, h2, h3⟩ := ha.ids.un3 t r0 i h0
    obtain ⟨l', h4, h5, h6⟩ := delete_some ha.ids.sorted h3
    rw [hdel] at h4
    cases h4
    constructor
    · exact fun r hr => hd r (h.by_ r hr)
    · intro r hr
      by_cases hr0 : r = r0
      · subst hr0
        refine .inr (fun j hin => ?_)
        obtain ⟨h7, h8⟩ := (h6 _).1 hin
        have h9 := ha.ids.entry j r h7
        rw [h1] at h9
        cases h9
        exact h8 rfl
      · rcases h.off r hr with ⟨u, hu⟩ | h4
        · refine .inl ⟨u, ?_⟩
          simp only [State.at, upd_apply]
          split
          · subst_vars; rw [h0] at hu; simp only [halfway, beq_iff_eq] at hu; exact absurd hu.symm hr0
          · exact hu
        · exact .inr (fun j hin => h4 j ((h6 _).1 hin).1)
    · intro u r; simp only [State.at, upd_apply]; split; (intro e; cases e; exact h2); exact h.un u r
    · intro u r; simp only [State.at, upd_apply]; split; (intro e; cases e); exact h.over u r
  | uKeyError h0 hdel =>
    rename_i r i
    obtain ⟨h1, h2, h3⟩ := ha.ids.un3 t r i h0
    obtain ⟨l', h4, _⟩ := delete_some ha.ids.sorted h3
    rw [hdel] at h4
    cases h4
  | uAgain h0 hg => exact swap _ rfl rfl rfl (by simp [h0, halfway]) (by simp) (fun r e => by cases e; exact hg)
  | uUnlock h0 => exact swap _ rfl rfl rfl (by simp [h0, halfway]) (by simp) (fun r e => by cases e; exact h.un _ _ h0)
  | uLock h0 => exact swap _ rfl rfl rfl (by simp [h0, halfway]) (by simp) (by simp)
  | _ h0 => exact swap _ rfl rfl rfl (by simp [h0, halfway]) (by simp) (by simp)

theorem gone_run {sched : List (Nat × Act)} {s : State} (h : run step init sched = some s) : Gone s :=
  from_run (P := Gone) gone_step ⟨lock_init, ids_init, win_init⟩ gone_init h

/-- the listener of `r` is not stored, was not called and is not going to be -/
structure Out (r : Nat) (s : State) : Prop where
  mine : ∃ i, s.pc r = .rDone i
  stored : ∀ i, (i, r) ∉ s.listeners
  uncalled : ∀ i, (i, r) ∉ s.calls
  unowed : ∀ t i, (i, r) ∉ owed (s.pc t)

theorem out_step (r : Nat) (s : State) (t : Nat) (s' : State) (ha : All s) (h : Out r s) (hm : Move s t s') : Out r s' := by
  obtain ⟨⟨k, mine⟩, stored, uncalled, unowed⟩ := h
  refine ⟨⟨k, done_mono hm mine⟩, ?_, ?_, ?_⟩
  · cases hm with
    | rStore h0 =>
      rename_i j
      have hj := ha.ids.store t j h0
      intro i hin
      rcases (mem_store ha.ids.sorted (fun e he => hj ▸ ha.ids.small e he) _).1 hin with h | ⟨h, _⟩
      · cases h; rw [h0] at mine; cases mine
      · exact stored i h
    | uDel h0 hd =>
      rename_i r' j l
      obtain ⟨h1, h2, h3⟩ := ha.ids.un3 t r' j h0
      obtain ⟨l', h4, h5, h6⟩ := delete_some ha.ids.sorted h3
      rw [hd] at h4
      cases h4
      exact fun i hin => stored i ((h6 _).1 hin).1
    | _ => exact stored
  · cases hm with
    | cCall h0 =>
      intro i hin
      rcases List.mem_append.1 hin with h | h
      · exact uncalled i h
      · exact unowed t i (by rw [h0]; rw [List.mem_singleton] at h; rw [h]; exact List.mem_cons_self)
    | _ => exact uncalled
  · intro u i
    by_cases ht : u = t
    · subst ht
      cases hm with
      | hitIn h0 hh => simp only [State.at, upd_apply]; rw [if_pos trivial]; exact unowed u i
      | hitOut h0 hh => simp only [State.at, upd_apply]; rw [if_pos trivial]; exact unowed u i
      | cSnap h0 => simp only [State.at, upd_apply]; rw [if_pos trivial]; exact stored i
      | cUnlock h0 => simp only [State.at, upd_apply]; rw [if_pos trivial]; have := unowed u i; rw [h0] at this; exact this
      | cBack h0 => simp only [State.at, upd_apply]; rw [if_pos trivial]; have := unowed u i; rw [h0] at this; exact this
      | cCall h0 =>
        simp only [State.at, upd_apply]; rw [if_pos trivial]
        have := unowed u i; rw [h0] at this; exact fun h => this (List.mem_cons_of_mem _ h)
      | _ => simp only [State.at, upd_apply]; rw [if_pos trivial]; exact fun h => by cases h
    · cases hm <;> simp only [State.at, upd_apply] <;> rw [if_neg ht] <;> exact unowed u i

/-- a call that begins after the flag was set does not register -/
structure Late (r : Nat) (s : State) : Prop where
  flag : s.isDisposed = true
  pc : owns (s.pc r) = none ∧ s.pc r ≠ .rLock ∧ s.pc r ≠ .rRead ∧ ∀ i, s.pc r ≠ .rStore i

theorem late_step (r : Nat) (s : State) (t : Nat) (s' : State) (_ : All s) (h : Late r s) (hm : Move s t s') : Late r s' := by
  refine ⟨disposed_mono hm h.flag, ?_⟩
  obtain ⟨hf, h1, h2, h3, h4⟩ := h
  cases hm <;> simp only [State.at, upd_apply] <;> (split <;> grind [owns])

/-- a registration that begins later gets a greater key -/
structure After (r n : Nat) (s : State) : Prop where
  id : n ≤ s.id
  key : ∀ i, owns (s.pc r) = some i → n ≤ i

theorem after_step (r n : Nat) (s : State) (t : Nat) (s' : State) (ha : All s) (h : After r n s) (hm : Move s t s') : After r n s' := by
  refine ⟨Nat.le_trans h.id (id_mono hm), ?_⟩
  have h1 := ha.ids.store
  obtain ⟨h2, h3⟩ := h
  cases hm <;> simp only [State.at, upd_apply] <;> (split <;> grind [owns])

/-- only open calls are ended from outside -/
def HitOpen (s : State) : Prop := ∀ t f, s.pc t = .hit f → f.isOpen = true

theorem hit_step (s : State) (t : Nat) (s' : State) (_ : All s) (h : HitOpen s) (hm : Move s t s') : HitOpen s' := by
  intro u f
  have h1 := h u f
  cases hm <;> simp only [State.at, upd_apply] <;> (split <;> grind)

theorem hit_run {sched : List (Nat × Act)} {s : State} (h : run step init sched = some s) : HitOpen s :=
  from_run (P := HitOpen) hit_step ⟨lock_init, ids_init, win_init⟩ (fun t f h => by cases h) h

theorem owns_stored {f : PC} {i : Nat} (h : owns f = some i) : hasStored f = true := by
  induction f with
  | hit f ih => exact ih h
  | _ => first | rfl | cases h

/-- the callbacks that were called are different ones -/
theorem calls_nodup {s : State} (h : All s) : (s.calls.map (·.2)).Nodup := by
  obtain ⟨w, _, hw, _⟩ := h.win.win
  have hs : Sorted s.calls := (List.pairwise_append.1 hw).1
  have hk := h.win.known
  rw [List.nodup_iff_pairwise_ne, List.pairwise_map]
  refine hs.imp_of_mem (fun {x y} hx hy hlt e => ?_)
  have h1 := hk x.1 x.2 hx
  have h2 := hk y.1 y.2 hy
  rw [e, h2] at h1
  have := Option.some.inj h1
  omega

theorem timesCalled_le {s : State} (h : All s) (r : Nat) : timesCalled r s ≤ 1 := List.nodup_iff_count.1 (calls_nodup h) r

theorem timesCalled_pos {s : State} {r : Nat} : 0 < timesCalled r s ↔ ∃ i, (i, r) ∈ s.calls := by
  unfold timesCalled
  rw [List.count_pos_iff, List.mem_map]
  constructor
  · rintro ⟨x, hx, rfl⟩; exact ⟨x.1, hx⟩
  · rintro ⟨i, hi⟩; exact ⟨_, hi, rfl⟩

/-- a call that is lost to `r` -/
theorem lost_of {s : State} (hh : HitOpen s) {u : Nat} (hc : isCancel (s.pc u) = true → (s.pc u).isOpen = false) {r i : Nat}
    (h : (i, r) ∈ owed (s.pc u) ∨ snapped (s.pc u) = true) : LostCall r (s.pc u) := by
  have hit := hh u
  cases hf : s.pc u with
  | hit f =>
    have ho := hit f hf
    rw [hf] at h
    cases f with
    | cSnap => exact .inl rfl
    | cUnlock ls =>
      rcases h with h | h
      · exact .inr ⟨ls, .inl rfl, List.mem_map.2 ⟨_, h, rfl⟩⟩
      · cases h
    | cLoop ls =>
      rcases h with h | h
      · exact .inr ⟨ls, .inr (.inl rfl), List.mem_map.2 ⟨_, h, rfl⟩⟩
      · cases h
    | inListener ls =>
      rcases h with h | h
      · exact .inr ⟨ls, .inr (.inr rfl), List.mem_map.2 ⟨_, h, rfl⟩⟩
      · cases h
    | hit f => cases ho
    | _ => rcases h with h | h <;> cases h
  | _ =>
    rw [hf] at h hc
    first
      | (rcases h with h | h <;> cases h; done)
      | exact absurd (hc rfl) (by simp [PC.isOpen])

/-- who has lost its call is not called -/
theorem lost_not {s : State} (ha : All s) {u r : Nat} (h : LostCall r (s.pc u)) (i : Nat) : (i, r) ∉ s.calls := by
  intro hin
  obtain ⟨w, h1, h2, h3⟩ := ha.win.win
  have hu : snapped (s.pc u) = true ∨ ∃ k, (k, r) ∈ owed (s.pc u) := by
    rcases h with h | ⟨ls, h, hr⟩
    · rw [h]; exact .inl rfl
    · obtain ⟨x, hx, rfl⟩ := List.mem_map.1 hr
      refine .inr ⟨x.1, ?_⟩
      rcases h with h | h | h <;> rw [h] <;> exact hx
  have huw : u = w := by
    by_cases huw : u = w
    · exact huw
    · have := h1 u huw
      rcases hu with hu | ⟨k, hu⟩
      · rw [this.1] at hu; cases hu
      · rw [this.2] at hu; cases hu
  subst huw
  rcases hu with hu | ⟨k, hu⟩
  · rw [h3 hu] at hin; cases hin
  · have h4 := (List.pairwise_append.1 h2).2.2 _ hin _ hu
    have h5 := ha.win.known i r hin
    have h6 := ha.win.known' u k r hu
    rw [h5] at h6
    cases h6
    simp at h4

end Expression.Lemmas.CancelInterrupt
