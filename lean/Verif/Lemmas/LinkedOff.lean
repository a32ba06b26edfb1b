import Verif.Lemmas.LinkedChain
import Verif.Spec.Linked

/-! # Nothing is cancelled that nobody asks for -/

namespace Expression.Lemmas.Linked

open Threads Expression.Linked Spec.Linked Spec

variable {n m : Nat} {callbacks : Fin n → Nat → Callback n m} {actions : Fin m → Callback n m}

/-- what a callback asks for has happened -/
def Done (s : State n m) : Callback n m → Prop
  | .user => True
  | .cancel j => (s.source j).isDisposed = true
  | .dispose d => (s.disposable d).isDisposed = true

theorem done_off {s : State n m} {cb : Callback n m} {y : Target n m} (h : Done s cb) (ha : asks cb y) : y.off s = true := by
  cases cb with
  | user => exact ha.elim
  | cancel j => cases ha; exact h
  | dispose d => cases ha; exact h

theorem source_quiet {s : State n m} {i : Fin n} {cb : Callback n m} (h : Nest s) (hn : Spec.Race.Nobody Spec.Race.inCancel (s.source i)) (hu : Under s (.source i) cb) : Done s cb := by
  have inner : ∀ t rest (c : Call n m), s.calls t = c :: .source i :: rest → c ≠ .source i → False := by
    intro t rest c hc hne
    have h1 := h.topS t i (by rw [hc]; simpa using hne)
    have h2 := h.sources t i
    rw [hc] at h2
    cases hs : (s.source i).stack t with
    | nil =>
      rw [hs, List.count_cons_of_ne hne, List.count_cons_self] at h2
      simp at h2
    | cons f fs =>
      have h3 := hn t f (by rw [hs]; simp)
      rw [hs] at h1
      cases f <;> first | (cases h1; done) | cases h3
  cases cb with
  | user => trivial
  | cancel j =>
    rcases hu with hd | ⟨t, rest, hc, he⟩
    · exact hd
    · by_cases hj : j = i
      · subst hj
        cases hs : (s.source j).stack t with
        | nil => rw [hs] at he; cases he
        | cons f fs =>
          have h3 := hn t f (by rw [hs]; simp)
          rw [hs] at he
          cases f <;> first | (cases he; done) | cases h3
      · exact (inner t rest _ hc (by simpa using hj)).elim
  | dispose d =>
    rcases hu with hd | ⟨t, rest, hc, he⟩
    · exact hd
    · exact (inner t rest _ hc (by simp)).elim

theorem disposable_quiet {s : State n m} {d : Fin m} {cb : Callback n m} (h : Nest s) (hn : ∀ t, (s.disposable d).stack t = []) (hu : Under s (.disposable d) cb) : Done s cb := by
  have inner : ∀ t rest (c : Call n m), s.calls t = c :: .disposable d :: rest → False := by
    intro t rest c hc
    have h2 := h.disposables t d
    rw [hc, hn t] at h2
    simp only [List.length_nil, List.count_cons, beq_self_eq_true, if_true] at h2
    omega
  cases cb with
  | user => trivial
  | cancel j =>
    rcases hu with hd | ⟨t, rest, hc, he⟩
    · exact hd
    · exact (inner t rest _ hc).elim
  | dispose d =>
    rcases hu with hd | ⟨t, rest, hc, he⟩
    · exact hd
    · exact (inner t rest _ hc).elim

/-! ## disposables: the calls that began and have not ended are those on the stack -/

theorem openDisposes_run {s : Disposable.State} {sched : List (Nat × Disposable.Act)} (h : run Disposable.step Disposable.init sched = some s) (t : Nat) :
    s.log.count (.began t) = s.log.count (.ended t) + (s.stack t).length := by
  refine run_inv (fun s : Disposable.State => ∀ t, s.log.count (.began t) = s.log.count (.ended t) + (s.stack t).length)
    (fun s c s' h hc u => ?_) (fun _ => rfl) sched h t
  obtain ⟨t, a⟩ := c
  have hu := h u
  cases a <;> simp only [Disposable.step] at hc
  · split at hc
    · cases hc
      by_cases htu : u = t
      · subst htu; simp [List.count_append]; omega
      · simp [List.count_append, upd_other, htu, Ne.symm htu]; omega
    · cases hc
  · split at hc
    · split at hc <;> (cases hc; simp [List.count_append]; omega)
    · cases hc
  · split at hc <;> rename_i hs
    · cases hc
    all_goals first | (split at hc) | skip
    all_goals first | (cases hc; done) | skip
    all_goals
      cases hc
      by_cases htu : u = t
      · subst htu
        rw [hs] at hu
        simp [List.count_append, List.count_cons] at hu ⊢
        omega
      · simp [List.count_append, upd_other, htu, Ne.symm htu]; omega

theorem ran_of_timesRun {log : List Disposable.Event} (h : timesRun log = 1) : ∃ u, .ran u ∈ log := by
  have : 0 < timesRun log := by omega
  obtain ⟨e, he, h1⟩ := List.countP_pos_iff.1 this
  cases e with
  | ran u => exact ⟨u, he⟩
  | _ => cases h1

theorem not_ran {log : List Disposable.Event} (h : timesRun log = 0) (t : Nat) : .ran t ∉ log := by
  intro ht
  exact List.countP_eq_zero.1 h _ ht rfl

/-! ## what nobody asks for -/

/-- nothing in `A` has begun to be cancelled -/
structure Untouched (A : Target n m → Prop) (s : State n m) : Prop where
  source : ∀ i, A (.source i) → ∀ t, .cancelBegan t ∉ (s.source i).log
  disposable : ∀ d, A (.disposable d) → ∀ t, .began t ∉ (s.disposable d).log

theorem untouched_setSource {A : Target n m → Prop} {s : State n m} {i : Fin n} {r : Cancellation.Race.State} (h : Untouched A s)
    (hr : A (.source i) → ∀ t, .cancelBegan t ∈ r.log → .cancelBegan t ∈ (s.source i).log) : Untouched A (s.setSource i r) := by
  refine ⟨fun j hj t ht => ?_, h.disposable⟩
  by_cases e : j = i
  · subst e; exact h.source j hj t (hr hj t (by simpa using ht))
  · rw [setSource_other s r e] at ht; exact h.source j hj t ht

theorem untouched_setDisposable {A : Target n m → Prop} {s : State n m} {d : Fin m} {r : Disposable.State} (h : Untouched A s)
    (hr : A (.disposable d) → ∀ t, .began t ∈ r.log → .began t ∈ (s.disposable d).log) : Untouched A (s.setDisposable d r) := by
  refine ⟨h.source, fun j hj t ht => ?_⟩
  by_cases e : j = d
  · subst e; exact h.disposable j hj t (hr hj t (by simpa using ht))
  · rw [setDisposable_other s r e] at ht; exact h.disposable j hj t ht

theorem untouched_at {A : Target n m → Prop} {s : State n m} {t : Nat} {cs : List (Call n m)} (h : Untouched A s) : Untouched A (s.at t cs) := ⟨h.source, h.disposable⟩

theorem untouched_invoked {A : Target n m → Prop} {t : Nat} {s s' : State n m} {cb : Callback n m} (h : Untouched A s) (hcb : ∀ y, asks cb y → ¬ A y) (hi : Invoked t s cb s') :
    Untouched A s' := by
  cases hi with
  | user => exact untouched_at h
  | cancel j r hr => exact untouched_at (untouched_setSource h fun hA => absurd hA (hcb _ rfl))
  | dispose d r hr => exact untouched_at (untouched_setDisposable h fun hA => absurd hA (hcb _ rfl))

theorem untouched_step {A : Target n m → Prop} (h1 : ∀ i k y, ¬ A (.source i) → asks (callbacks i k) y → ¬ A y) (h2 : ∀ d y, ¬ A (.disposable d) → asks (actions d) y → ¬ A y)
    {s s' : State n m} {c : Nat × Act n m} (hc : ∀ y, callsOff c.2 y → ¬ A y) (hA : ∀ i, Lemmas.Race.All (s.source i)) (hD : ∀ d, DInv (s.disposable d)) (h : Untouched A s)
    (hs : step callbacks actions s c = some s') : Untouched A s' := by
  obtain ⟨t, a⟩ := c
  have hgo : ∀ {i r}, Cancellation.Race.step (s.source i) (t, .go) = some r → ∀ u, .cancelBegan u ∈ r.log → .cancelBegan u ∈ (s.source i).log := by
    intro i r hr u hu
    rcases OfSource.began_new hr hu with h1 | h1
    · exact h1
    · cases h1
  have hgoD : ∀ {d r}, Disposable.step (s.disposable d) (t, .go) = some r → ∀ u, .began u ∈ r.log → .began u ∈ (s.disposable d).log := by
    intro d r hr u hu
    rcases OfDisposable.began_new hr hu with h1 | h1
    · exact h1
    · cases h1
  cases stepped hs with
  | opens i ra r hf hn hnc ha hr =>
    refine untouched_at (untouched_setSource h fun _ u hu => ?_)
    rcases OfSource.began_new hr hu with h1 | h1
    · exact h1
    · exact absurd h1 hnc
  | invokes cb _ hf ha hi =>
    refine untouched_invoked h (fun y hy => hc y ?_) hi
    rcases ha with ⟨i, rfl, rfl⟩ | ⟨d, rfl, rfl⟩ <;> exact hy
  | enters d r hf ha hr =>
    refine untouched_setDisposable h fun _ u hu => ?_
    rcases OfDisposable.began_new hr hu with h1 | h1
    · exact h1
    · cases h1
  | over cs ha hc => exact untouched_at h
  | sourceOver i cs r ha hc hr hlt => exact untouched_at (untouched_setSource h fun _ => hgo hr)
  | sourceGoes i cs r ha hc hr hlt hk => exact untouched_setSource h fun _ => hgo hr
  | sourceCalls i cs r k ks fs _ ha hc hr hk hi =>
    refine untouched_invoked (untouched_setSource h fun _ => hgo hr) (fun y hy => h1 i k y (fun hAi => ?_) hy) hi
    obtain ⟨u, hu⟩ := (hA i).facts.began ((hA i).facts.disposed2 t _ fs hk)
    exact h.source i hAi u hu
  | disposableOver d cs r ha hc hr hlt => exact untouched_at (untouched_setDisposable h fun _ => hgoD hr)
  | disposableGoes d cs r ha hc hr hlt hk => exact untouched_setDisposable h fun _ => hgoD hr
  | disposableCalls d cs r fs _ ha hc hr hk hi =>
    refine untouched_invoked (untouched_setDisposable h fun _ => hgoD hr) (fun y hy => h2 d y (fun hAd => ?_) hy) hi
    obtain ⟨u, hu⟩ := (hD d).began t (by rw [hk]; simp)
    exact h.disposable d hAd u hu

theorem untouched_run {A : Target n m → Prop} (h1 : ∀ i k y, ¬ A (.source i) → asks (callbacks i k) y → ¬ A y) (h2 : ∀ d y, ¬ A (.disposable d) → asks (actions d) y → ¬ A y)
    {sched : List (Nat × Act n m)} (hc : ∀ c ∈ sched, ∀ y, callsOff c.2 y → ¬ A y) {s : State n m} (hs : run (step callbacks actions) init sched = some s) : Untouched A s := by
  have := run_inv_on (step := step callbacks actions) (fun c => ∀ y, callsOff c.2 y → ¬ A y)
    (fun s => ((∀ i, Lemmas.Race.All (s.source i)) ∧ ∀ d, DInv (s.disposable d)) ∧ Untouched A s)
    (fun s c s' hP hI hx => by
      obtain ⟨⟨hA, hD⟩, hU⟩ := hI
      refine ⟨⟨fun i => ?_, fun d => ?_⟩, untouched_step h1 h2 hP hA hD hU hx⟩
      · obtain ⟨cs, hcs⟩ := source_step hx i
        exact run_inv Lemmas.Race.All Lemmas.Race.all_step (hA i) cs hcs
      · obtain ⟨cs, hcs⟩ := disposable_step hx d
        exact run_inv DInv dinv_step (hD d) cs hcs)
    ⟨⟨fun _ => Lemmas.Race.all_init, fun _ => dinv_init⟩, ⟨fun _ _ _ => List.not_mem_nil, fun _ _ _ => List.not_mem_nil⟩⟩ sched hc hs
  exact this.2

end Expression.Lemmas.Linked
