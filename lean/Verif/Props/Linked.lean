import Verif.Lemmas.LinkedOff
import Verif.Props.Cancellation

/-! # C119, C120: sources and disposables that cancel each other

`step callbacks actions`: any number of threads use `n` sources and `m` disposables; `callbacks i k` is what is registered as number `k` with source `i`, `actions d` the action of
disposable `d`.  A callback is code of a user, or `cancel` of a source or `dispose` of a disposable. -/

namespace Expression.Props

section linked

open Threads Lemmas Spec Spec.Linked Expression.Linked

variable {n m : Nat} {callbacks : Fin n → Nat → Callback n m} {actions : Fin m → Callback n m}

/-! ## C119 cancelling through callbacks -/

/-- the claim: when a `cancel` has returned, everything linked to the source is cancelled -/
def C119_full_statement : Prop :=
  ∀ (n m : Nat) (callbacks : Fin n → Nat → Callback n m) (actions : Fin m → Callback n m) (sched sched' : List (Nat × Act n m)) (a b : State n m) (i : Fin n) (y : Target n m) (t : Nat),
    run (step callbacks actions) init sched = some a → run (step callbacks actions) a sched' = some b → LinkedTo callbacks actions a b (.source i) y →
    .cancelEnded t ∈ (b.source i).log → y.off b = true

/-- source 1 is linked to source 0 -/
def linkedPair : Fin 2 → Nat → Callback 2 0 := fun _ _ => .cancel 1

/-- thread 0 registers `cancel` of source 1 with source 0 -/
def linkedStart : List (Nat × Act 2 0) := (0, .register 0) :: List.replicate 6 (0, .go)

/-- thread 0 cancels source 0, and is about to call the listener; thread 1 cancels source 0 too, and returns -/
def linkedRace : List (Nat × Act 2 0) := (0, .cancel 0) :: List.replicate 5 (0, .go) ++ (1, .cancel 0) :: List.replicate 4 (1, .go)

/-- A second `cancel` returns while the first one is still at its listeners. -/
theorem C119_full_statement_false : ¬ C119_full_statement := by
  intro h
  cases ha : run (step linkedPair Fin.elim0) init linkedStart with
  | none => exact absurd (congrArg Option.isSome ha) (by decide)
  | some a =>
    cases hb : run (step linkedPair Fin.elim0) a linkedRace with
    | none =>
      have : run (step linkedPair Fin.elim0) init (linkedStart ++ linkedRace) = none := by rw [run_append, ha]; exact hb
      exact absurd (congrArg Option.isSome this) (by decide)
    | some b =>
      have hab : run (step linkedPair Fin.elim0) init (linkedStart ++ linkedRace) = some b := by rw [run_append, ha]; exact hb
      have hla : (run (step linkedPair Fin.elim0) init linkedStart).map (fun s => (s.source 0).log) = some [.registerBegan 0, .registered 0] := by decide
      have hlb : (run (step linkedPair Fin.elim0) init (linkedStart ++ linkedRace)).map (fun s => ((s.source 0).log, (s.source 1).isDisposed)) =
          some ([.registerBegan 0, .registered 0, .cancelBegan 0, .cancelBegan 1, .cancelEnded 1], false) := by decide
      rw [ha, Option.map_some, Option.some.injEq] at hla
      rw [hab, Option.map_some, Option.some.injEq, Prod.mk.injEq] at hlb
      have := h 2 0 linkedPair Fin.elim0 linkedStart linkedRace a b 0 (.source 1) 1 ha hb
        ⟨0, by rw [hla]; simp, by rw [hla]; simp, by rw [hlb.1]; simp, rfl⟩ (by rw [hlb.1]; simp)
      simp only [Target.off, hlb.2] at this
      cases this

/-- When a `cancel` of a source has returned, and every `cancel` of it that began has returned, everything linked to it is cancelled.
Missing from the claim: the other `cancel`s of the source may still be at their listeners. -/
theorem C119_linked_partial (sched sched' : List (Nat × Act n m)) (a b : State n m) (i : Fin n) (y : Target n m) (t : Nat) (ha : run (step callbacks actions) init sched = some a)
    (hb : run (step callbacks actions) a sched' = some b) (hl : LinkedTo callbacks actions a b (.source i) y) (he : .cancelEnded t ∈ (b.source i).log)
    (hr : ∀ t, (b.source i).log.count (.cancelBegan t) = (b.source i).log.count (.cancelEnded t)) : y.off b = true := by
  obtain ⟨k, h1, h2, h3, h4⟩ := hl
  have hab : run (step callbacks actions) init (sched ++ sched') = some b := by rw [run_append, ha]; exact hb
  obtain ⟨cs, hcs⟩ := Linked.source_run ha i
  obtain ⟨cs', hcs'⟩ := Linked.source_run hb i
  obtain ⟨cs'', hcs''⟩ := Linked.source_run hab i
  have hcalled := C51_called_partial cs cs' _ _ k t hcs h1 h2 hcs' he hr h3
  have hmem : .called k ∈ (b.source i).log := by
    apply List.count_pos_iff.1
    unfold Race.timesCalled at hcalled
    omega
  have hn : Race.Nobody Race.inCancel (b.source i) := by
    intro u f hf
    have h5 := Lemmas.Race.openCancels_run hcs'' u
    have h6 : ((b.source i).stack u).countP Race.inCancel = 0 := by have := hr u; omega
    simpa using List.countP_eq_zero.1 h6 f hf
  exact Linked.done_off (Linked.source_quiet (Linked.nest_run hab) hn (Linked.fired_under hab (c := .source i) ⟨k, hmem, rfl⟩)) h4

/-- The same of a disposable whose action cancels or disposes something. -/
theorem C119_disposed_partial (sched : List (Nat × Act n m)) (s : State n m) (d : Fin m) (y : Target n m) (t : Nat) (h : run (step callbacks actions) init sched = some s)
    (hl : asks (actions d) y) (he : .ended t ∈ (s.disposable d).log) (hr : ∀ t, (s.disposable d).log.count (.began t) = (s.disposable d).log.count (.ended t)) : y.off s = true := by
  obtain ⟨cs, hcs⟩ := Linked.disposable_run h d
  have hi := (Linked.nest_run h).dinv d
  have hq : ∀ u, (s.disposable d).stack u = [] := by
    intro u
    have h1 := Linked.openDisposes_run hcs u
    have h2 := hr u
    exact List.length_eq_zero_iff.1 (by omega)
  have hran : ∃ u, .ran u ∈ (s.disposable d).log := by
    rcases hi.once (hi.ended t he) with ⟨h1, _⟩ | ⟨_, u, h1, _⟩
    · exact Linked.ran_of_timesRun h1
    · rw [hq u] at h1; cases h1
  obtain ⟨u, hu⟩ := hran
  exact Linked.done_off (Linked.disposable_quiet (Linked.nest_run h) hq (Linked.fired_under h (c := .disposable d) ⟨u, hu, rfl⟩)) hl

/-- When all calls are over, whatever is linked to something cancelled, through any number of others, is cancelled as well: also where the links form cycles. -/
theorem C119_chain_partial (sched sched' : List (Nat × Act n m)) (a b : State n m) (x y : Target n m) (ha : run (step callbacks actions) init sched = some a)
    (hb : run (step callbacks actions) a sched' = some b) (hq : ∀ t, b.calls t = []) (hx : x.off b = true) (hc : Chain callbacks actions a b x y) : y.off b = true := by
  have hab : run (step callbacks actions) init (sched ++ sched') = some b := by rw [run_append, ha]; exact hb
  have hnest := Linked.nest_run hab
  induction hc with
  | here => exact hx
  | next y z _ hl ih =>
    cases y with
    | source i =>
      have hs : ∀ t, (b.source i).stack t = [] := fun t => List.length_eq_zero_iff.1 (by rw [hnest.sources, hq t]; rfl)
      obtain ⟨cs, hcs⟩ := Linked.source_run hab i
      have hcount : ∀ t, (b.source i).log.count (.cancelBegan t) = (b.source i).log.count (.cancelEnded t) := by
        intro t
        have := Lemmas.Race.openCancels_run hcs t
        rw [hs t] at this
        simpa using this
      obtain ⟨t, ht⟩ := (Lemmas.Race.all_run hcs).facts.began ih
      have hended : .cancelEnded t ∈ (b.source i).log := by
        apply List.count_pos_iff.1
        rw [← hcount t]
        exact List.count_pos_iff.2 ht
      exact C119_linked_partial sched sched' a b i z t ha hb hl hended hcount
    | disposable d =>
      have hs : ∀ t, (b.disposable d).stack t = [] := fun t => List.length_eq_zero_iff.1 (by rw [hnest.disposables, hq t]; rfl)
      obtain ⟨cs, hcs⟩ := Linked.disposable_run hab d
      have hcount : ∀ t, (b.disposable d).log.count (.began t) = (b.disposable d).log.count (.ended t) := by
        intro t
        have := Linked.openDisposes_run hcs t
        rw [hs t] at this
        simpa using this
      obtain ⟨t, ht⟩ := (hnest.dinv d).began' ih
      have hended : .ended t ∈ (b.disposable d).log := by
        apply List.count_pos_iff.1
        rw [← hcount t]
        exact List.count_pos_iff.2 ht
      exact C119_disposed_partial (sched ++ sched') b d z t hab hl hended hcount

/-- Nothing else is cancelled: let no thread cancel or dispose any of `A`, and let no callback of another object do so; then none of `A` is cancelled or disposed,
and none of their callbacks called.  So cancelling a source never cancels those it is linked to. -/
theorem C119_only_partial (A : Target n m → Prop) (hcb : ∀ i k y, ¬ A (.source i) → asks (callbacks i k) y → ¬ A y) (hac : ∀ d y, ¬ A (.disposable d) → asks (actions d) y → ¬ A y)
    (sched : List (Nat × Act n m)) (hs : ∀ c ∈ sched, ∀ y, callsOff c.2 y → ¬ A y) (s : State n m) (h : run (step callbacks actions) init sched = some s) :
    (∀ y, A y → y.off s = false) ∧ (∀ i k, A (.source i) → .called k ∉ (s.source i).log) ∧ ∀ d t, A (.disposable d) → .ran t ∉ (s.disposable d).log := by
  have hu := Linked.untouched_run hcb hac hs h
  have hS : ∀ i, A (.source i) → (s.source i).isDisposed = false := by
    intro i hi
    cases hd : (s.source i).isDisposed with
    | false => rfl
    | true =>
      obtain ⟨t, ht⟩ := (Linked.all_sources h i).facts.began hd
      exact absurd ht (hu.source i hi t)
  have hD : ∀ d, A (.disposable d) → (s.disposable d).isDisposed = false := by
    intro d hi
    cases hd : (s.disposable d).isDisposed with
    | false => rfl
    | true =>
      obtain ⟨t, ht⟩ := ((Linked.nest_run h).dinv d).began' hd
      exact absurd ht (hu.disposable d hi t)
  refine ⟨fun y hy => ?_, fun i k hi hk => ?_, fun d t hd ht => ?_⟩
  · cases y with
    | source i => exact hS i hy
    | disposable d => exact hD d hy
  · obtain ⟨cs, hcs⟩ := Linked.source_run h i
    obtain ⟨t, ht⟩ := (C51_called_only_partial cs _ hcs k hk).2
    exact hu.source i hi t ht
  · have h1 := (((Linked.nest_run h).dinv d).fresh (hD d hd)).1
    exact Linked.not_ran h1 t ht

/-- Each source and each disposable goes through what it goes through alone, with callbacks that are a user's: so C49 and C51 hold of each. -/
theorem C119_alone_partial (sched : List (Nat × Act n m)) (s : State n m) (h : run (step callbacks actions) init sched = some s) :
    (∀ i, ∃ cs, run Cancellation.Race.step Cancellation.Race.init cs = some (s.source i)) ∧ ∀ d, ∃ cs, run Disposable.step Disposable.init cs = some (s.disposable d) :=
  ⟨fun i => Linked.source_run h i, fun d => Linked.disposable_run h d⟩

/-! ## C120 the calls return -/

/-- No deadlock: whoever is in a call can go on, or somebody can who is in a call of the same object. -/
theorem C120_no_deadlock (sched : List (Nat × Act n m)) (s : State n m) (h : run (step callbacks actions) init sched = some s) (t : Nat) (ht : s.calls t ≠ []) :
    (∃ s', step callbacks actions s (t, .go) = some s') ∨ ∃ u s', (s.calls u).head? = (s.calls t).head? ∧ step callbacks actions s (u, .go) = some s' := by
  rcases Linked.someone_goes (callbacks := callbacks) (actions := actions) (Linked.nest_run h) ht with h1 | ⟨u, s', _, h2, h3⟩
  · exact .inl h1
  · exact .inr ⟨u, s', h2, h3⟩

/-- However the objects are linked, in cycles too: the moves of all calls together are at most fourteen for each call that a user makes, and eight for each disposable. -/
theorem C120_bounded (sched : List (Nat × Act n m)) (s : State n m) (h : run (step callbacks actions) init sched = some s) :
    sched.countP goesOn ≤ 14 * sched.countP (fun c => !goesOn c) + 8 * m := by
  obtain ⟨N, hN⟩ := Linked.threads_bounded sched
  have := Linked.bound_run hN h
  have h1 : (goesOn : Nat × Act n m → Bool) = Linked.moves := rfl
  rw [h1]
  omega

/-- So all calls return when no thread calls anything more: from every state there is a way to go on to the end, and (by the two above) every way to go on gets there. -/
theorem C120_returns (sched : List (Nat × Act n m)) (s : State n m) (h : run (step callbacks actions) init sched = some s) :
    ∃ rest s', (∀ c ∈ rest, c.2 = .go) ∧ run (step callbacks actions) s rest = some s' ∧ ∀ t, s'.calls t = [] := by
  suffices H : ∀ (b : Nat) (sched : List (Nat × Act n m)) (s : State n m), run (step callbacks actions) init sched = some s →
      14 * sched.countP (fun c => !goesOn c) + 8 * m ≤ sched.countP goesOn + b →
      ∃ rest s', (∀ c ∈ rest, c.2 = .go) ∧ run (step callbacks actions) s rest = some s' ∧ ∀ t, s'.calls t = [] from
    H _ sched s h (Nat.le_add_left _ _)
  intro b
  have hg : ∀ u, goesOn ((u, .go) : Nat × Act n m) = true := fun _ => rfl
  induction b with
  | zero =>
    intro sched s h hb
    by_cases hq : ∀ t, s.calls t = []
    · exact ⟨[], s, by simp, rfl, hq⟩
    · obtain ⟨t, ht⟩ := Classical.not_forall.1 hq
      obtain ⟨u, s', hs'⟩ : ∃ u s', step callbacks actions s (u, .go) = some s' := by
        rcases C120_no_deadlock sched s h t ht with ⟨s', h1⟩ | ⟨u, s', _, h1⟩
        · exact ⟨t, s', h1⟩
        · exact ⟨u, s', h1⟩
      have h1 : run (step callbacks actions) init (sched ++ [(u, .go)]) = some s' := by rw [run_append, h]; exact Linked.run_one hs'
      have h2 := C120_bounded _ _ h1
      simp only [List.countP_append, List.countP_cons, List.countP_nil, hg u, Bool.not_true, Bool.false_eq_true, if_true, if_false] at h2
      omega
  | succ b ih =>
    intro sched s h hb
    by_cases hq : ∀ t, s.calls t = []
    · exact ⟨[], s, by simp, rfl, hq⟩
    · obtain ⟨t, ht⟩ := Classical.not_forall.1 hq
      obtain ⟨u, s', hs'⟩ : ∃ u s', step callbacks actions s (u, .go) = some s' := by
        rcases C120_no_deadlock sched s h t ht with ⟨s', h1⟩ | ⟨u, s', _, h1⟩
        · exact ⟨t, s', h1⟩
        · exact ⟨u, s', h1⟩
      have h1 : run (step callbacks actions) init (sched ++ [(u, .go)]) = some s' := by rw [run_append, h]; exact Linked.run_one hs'
      obtain ⟨rest, s'', h2, h3, h4⟩ := ih (sched ++ [(u, .go)]) s' h1 (by
        simp only [List.countP_append, List.countP_cons, List.countP_nil, hg u, Bool.not_true, Bool.false_eq_true, if_true, if_false]
        omega)
      refine ⟨(u, .go) :: rest, s'', fun c hc => ?_, by simp only [run, hs']; exact h3, h4⟩
      rcases List.mem_cons.1 hc with rfl | hc
      · rfl
      · exact h2 c hc

/-! ## examples -/

/-- one `cancel` of the parent, all the way: the child is cancelled, and every `cancel` has returned -/
example : (run (step linkedPair Fin.elim0) init (linkedStart ++ (0, .cancel 0) :: List.replicate 14 (0, .go))).map (fun s => ((s.source 0).log, (s.source 1).isDisposed)) =
    some ([.registerBegan 0, .registered 0, .cancelBegan 0, .called 0, .cancelEnded 0], true) := by decide +kernel

/-- cancelling the child leaves the parent alone -/
example : (run (step linkedPair Fin.elim0) init (linkedStart ++ (0, .cancel 1) :: List.replicate 6 (0, .go))).map (fun s => ((s.source 0).isDisposed, (s.source 1).isDisposed)) =
    some (false, true) := by decide +kernel

/-- three sources and a disposable: source 0 cancels source 1, source 1 disposes the disposable, that cancels source 0 again; source 2 cancels source 0 -/
def linkedCircle : Fin 3 → Nat → Callback 3 1
  | 0, _ => .cancel 1
  | 1, _ => .dispose 0
  | _, _ => .cancel 0

def linkedActions : Fin 1 → Callback 3 1 := fun _ => .cancel 0

/-- thread 0 registers the three callbacks -/
def linkedSetup : List (Nat × Act 3 1) :=
  (0, .register 0) :: List.replicate 6 (0, .go) ++ (0, .register 1) :: List.replicate 6 (0, .go) ++ (0, .register 2) :: List.replicate 6 (0, .go)

/-- thread 1 cancels source 1 -/
def linkedCancel : List (Nat × Act 3 1) := (1, .cancel 1) :: List.replicate 26 (1, .go)

example : (run (step linkedCircle linkedActions) init (linkedSetup ++ linkedCancel)).map (fun s => (s.calls 0, s.calls 1, (s.source 0).isDisposed, (s.source 1).isDisposed)) = some ([], [], true, true) := by
  decide +kernel
example : (run (step linkedCircle linkedActions) init (linkedSetup ++ linkedCancel)).map (fun s => ((s.source 2).isDisposed, (s.disposable 0).isDisposed)) = some (false, true) := by
  decide +kernel

/-- a listener of source 0, a function of a user, cancels source 1 -/
example : (run (step (fun _ _ => .user : Fin 2 → Nat → Callback 2 0) Fin.elim0) init
      (linkedStart ++ (0, .cancel 0) :: List.replicate 6 (0, .go) ++ (0, .cancel 1) :: List.replicate 9 (0, .go))).map
        (fun s => (s.calls 0, (s.source 0).log.length, (s.source 1).isDisposed)) = some ([], 5, true) := by decide +kernel

/-- source 2 cancels source 0, but nothing cancels source 2 -/
example (sched : List (Nat × Act 3 1)) (hs : ∀ c ∈ sched, ¬ callsOff c.2 (.source 2)) (s : State 3 1) (h : run (step linkedCircle linkedActions) init sched = some s) :
    (s.source 2).isDisposed = false := by
  refine (C119_only_partial (fun y => y = .source 2) (fun i k y _ ha e => ?_) (fun d y _ ha e => ?_) sched (fun c hc y hy e => hs c hc (e ▸ hy)) s h).1 (.source 2) rfl
  · subst e
    match i, ha with
    | 0, ha => exact absurd ha (by simp [linkedCircle, asks])
    | 1, ha => exact absurd ha (by simp [linkedCircle, asks])
    | 2, ha => exact absurd ha (by simp [linkedCircle, asks])
  · subst e
    exact absurd ha (by simp [linkedActions, asks])

end linked

end Expression.Props
