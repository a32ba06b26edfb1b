import Verif.Lemmas.Linked

/-! # How the calls nest, and that some call always goes on -/

namespace Expression.Lemmas.Linked

open Threads Expression.Linked

variable {n m : Nat} {callbacks : Fin n → Nat → Callback n m} {actions : Fin m → Callback n m}

/-- the open calls of the objects are those in the list of the thread, and only the innermost one is not in a callback -/
structure Nest (s : State n m) : Prop where
  lock : ∀ i, Lemmas.Race.Lock (s.source i)
  dinv : ∀ d, DInv (s.disposable d)
  sources : ∀ t i, ((s.source i).stack t).length = (s.calls t).count (.source i)
  disposables : ∀ t d, ((s.disposable d).stack t).length = (s.calls t).count (.disposable d)
  topS : ∀ t i, (s.calls t).head? ≠ some (.source i) → Cancellation.Race.free ((s.source i).stack t) = true
  topD : ∀ t d, (s.calls t).head? ≠ some (.disposable d) → Disposable.free ((s.disposable d).stack t) = true

/-- all calls of the thread are in callbacks -/
structure Idle (s : State n m) (t : Nat) : Prop where
  source : ∀ i, Cancellation.Race.free ((s.source i).stack t) = true
  disposable : ∀ d, Disposable.free ((s.disposable d).stack t) = true

theorem Nest.idle {s : State n m} (h : Nest s) {t : Nat} (hf : free (s.calls t) = true) : Idle s t := by
  refine ⟨fun i => h.topS t i ?_, fun d => h.topD t d ?_⟩ <;>
  · intro e
    cases hc : s.calls t with
    | nil => rw [hc] at e; cases e
    | cons c cs =>
      rw [hc] at e hf
      simp only [List.head?_cons, Option.some.injEq] at e
      subst e
      cases hf

theorem nest_init : Nest (init : State n m) where
  lock _ := Lemmas.Race.lock_init
  dinv _ := dinv_init
  sources t i := by simp [init, Cancellation.Race.init]
  disposables t d := by simp [init, Disposable.init]
  topS t i _ := rfl
  topD t d _ := rfl

/-- a source gets a new innermost call -/
theorem nest_open {s : State n m} {t : Nat} {i : Fin n} {r : Cancellation.Race.State} {ra : Cancellation.Race.Act} (h : Nest s) (hi : Idle s t) (hn : ra ≠ .go)
    (hr : Cancellation.Race.step (s.source i) (t, ra) = some r) : Nest ((s.setSource i r).at t (.source i :: s.calls t)) := by
  obtain ⟨_, f, hs⟩ := OfSource.opens hn hr
  refine ⟨fun j => ?_, h.dinv, fun u j => ?_, fun u d => ?_, fun u j hu => ?_, fun u d hu => ?_⟩
  · by_cases hj : j = i
    · subst hj; simpa using Lemmas.Race.lock_step _ _ _ (h.lock j) hr
    · simpa [setSource_other s r hj] using h.lock j
  · have h1 := h.sources u j
    by_cases hj : j = i
    · subst hj
      by_cases hu : u = t
      · subst hu; simp [hs, h1]
      · simp [hs, upd_other, hu, h1]
    · have : Call.source i ≠ (Call.source j : Call n m) := fun e => hj (by cases e; rfl)
      by_cases hu : u = t
      · subst hu; simp [setSource_other s r hj, this, h1]
      · simp [setSource_other s r hj, upd_other, hu, h1]
  · have h1 := h.disposables u d
    by_cases hu : u = t
    · subst hu; simp [h1]
    · simp [upd_other, hu, h1]
  · by_cases hut : u = t
    · subst hut
      simp only [at_calls, upd_same, List.head?_cons, ne_eq, Option.some.injEq] at hu
      have hj : j ≠ i := fun e => hu (by rw [e])
      simpa [setSource_other s r hj] using hi.source j
    · simp only [at_calls, setSource_calls, upd_other _ _ hut] at hu
      have h1 := h.topS u j hu
      by_cases hj : j = i
      · subst hj; simpa [hs, upd_other _ _ hut] using h1
      · simpa [setSource_other s r hj] using h1
  · by_cases hut : u = t
    · subst hut; simpa using hi.disposable d
    · simp only [at_calls, setSource_calls, upd_other _ _ hut] at hu
      simpa using h.topD u d hu

/-- a disposable gets a new innermost call -/
theorem nest_openD {s : State n m} {t : Nat} {d : Fin m} {r : Disposable.State} (h : Nest s) (hi : Idle s t)
    (hr : Disposable.step (s.disposable d) (t, .dispose) = some r) : Nest ((s.setDisposable d r).at t (.disposable d :: s.calls t)) := by
  obtain ⟨_, f, hs⟩ := OfDisposable.opens hr
  refine ⟨h.lock, fun e => ?_, fun u j => ?_, fun u e => ?_, fun u j hu => ?_, fun u e hu => ?_⟩
  · by_cases hj : e = d
    · subst hj; simpa using dinv_step _ _ _ (h.dinv e) hr
    · simpa [setDisposable_other s r hj] using h.dinv e
  · have h1 := h.sources u j
    by_cases hu : u = t
    · subst hu; simp [h1]
    · simp [upd_other, hu, h1]
  · have h1 := h.disposables u e
    by_cases hj : e = d
    · subst hj
      by_cases hu : u = t
      · subst hu; simp [hs, h1]
      · simp [hs, upd_other, hu, h1]
    · have : Call.disposable d ≠ (Call.disposable e : Call n m) := fun e => hj (by cases e; rfl)
      by_cases hu : u = t
      · subst hu; simp [setDisposable_other s r hj, this, h1]
      · simp [setDisposable_other s r hj, upd_other, hu, h1]
  · by_cases hut : u = t
    · subst hut; simpa using hi.source j
    · simp only [at_calls, setDisposable_calls, upd_other _ _ hut] at hu
      simpa using h.topS u j hu
  · by_cases hut : u = t
    · subst hut
      simp only [at_calls, upd_same, List.head?_cons, ne_eq, Option.some.injEq] at hu
      have hj : e ≠ d := fun e => hu (by rw [e])
      simpa [setDisposable_other s r hj] using hi.disposable e
    · simp only [at_calls, setDisposable_calls, upd_other _ _ hut] at hu
      have h1 := h.topD u e hu
      by_cases hj : e = d
      · subst hj; simpa [hs, upd_other _ _ hut] using h1
      · simpa [setDisposable_other s r hj] using h1

theorem nest_invoked {t : Nat} {s s' : State n m} {cb : Callback n m} (h : Nest s) (hi : Idle s t) (hc : Invoked t s cb s') : Nest s' := by
  cases hc with
  | user =>
    refine ⟨h.lock, h.dinv, fun u i => ?_, fun u d => ?_, fun u i hu => ?_, fun u d hu => ?_⟩
    · have h1 := h.sources u i
      by_cases hu : u = t
      · subst hu; simp [h1]
      · simp [upd_other, hu, h1]
    · have h1 := h.disposables u d
      by_cases hu : u = t
      · subst hu; simp [h1]
      · simp [upd_other, hu, h1]
    · by_cases hut : u = t
      · subst hut; exact hi.source i
      · simp only [at_calls, upd_other _ _ hut] at hu
        exact h.topS u i hu
    · by_cases hut : u = t
      · subst hut; exact hi.disposable d
      · simp only [at_calls, upd_other _ _ hut] at hu
        exact h.topD u d hu
  | cancel j r hr => exact nest_open h hi (by simp) hr
  | dispose d r hr => exact nest_openD h hi hr

/-- the innermost call, of a source, goes on -/
theorem nest_goes {s : State n m} {t : Nat} {i : Fin n} {cs : List (Call n m)} {r : Cancellation.Race.State} (h : Nest s) (hc : s.calls t = .source i :: cs)
    (hr : Cancellation.Race.step (s.source i) (t, .go) = some r) (hl : ¬ (r.stack t).length < ((s.source i).stack t).length) : Nest (s.setSource i r) := by
  obtain ⟨f, fs, h1, h2⟩ := OfSource.go hr
  obtain ⟨f', h2⟩ : ∃ f', r.stack = upd (s.source i).stack t (f' :: fs) := by
    rcases h2 with h2 | h2
    · exact absurd (by rw [h1, h2]; simp) hl
    · exact h2
  refine ⟨fun j => ?_, h.dinv, fun u j => ?_, h.disposables, fun u j hu => ?_, h.topD⟩
  · by_cases hj : j = i
    · subst hj; simpa using Lemmas.Race.lock_step _ _ _ (h.lock j) hr
    · simpa [setSource_other s r hj] using h.lock j
  · have h3 := h.sources u j
    by_cases hj : j = i
    · subst hj
      by_cases hu : u = t
      · subst hu; rw [h1] at h3; simpa [h2] using h3
      · simp [h2, upd_other, hu, h3]
    · simpa [setSource_other s r hj] using h3
  · have h3 := h.topS u j hu
    by_cases hj : j = i
    · subst hj
      have hut : u ≠ t := fun e => hu (by rw [e, setSource_calls, hc]; rfl)
      simpa [h2, upd_other _ _ hut] using h3
    · simpa [setSource_other s r hj] using h3

theorem nest_goesD {s : State n m} {t : Nat} {d : Fin m} {cs : List (Call n m)} {r : Disposable.State} (h : Nest s) (hc : s.calls t = .disposable d :: cs)
    (hr : Disposable.step (s.disposable d) (t, .go) = some r) (hl : ¬ (r.stack t).length < ((s.disposable d).stack t).length) : Nest (s.setDisposable d r) := by
  obtain ⟨f, fs, h1, h2⟩ := OfDisposable.go hr
  obtain ⟨f', h2⟩ : ∃ f', r.stack = upd (s.disposable d).stack t (f' :: fs) := by
    rcases h2 with h2 | h2
    · exact absurd (by rw [h1, h2]; simp) hl
    · exact h2
  refine ⟨h.lock, fun j => ?_, h.sources, fun u j => ?_, h.topS, fun u j hu => ?_⟩
  · by_cases hj : j = d
    · subst hj; simpa using dinv_step _ _ _ (h.dinv j) hr
    · simpa [setDisposable_other s r hj] using h.dinv j
  · have h3 := h.disposables u j
    by_cases hj : j = d
    · subst hj
      by_cases hu : u = t
      · subst hu; rw [h1] at h3; simpa [h2] using h3
      · simp [h2, upd_other, hu, h3]
    · simpa [setDisposable_other s r hj] using h3
  · have h3 := h.topD u j hu
    by_cases hj : j = d
    · subst hj
      have hut : u ≠ t := fun e => hu (by rw [e, setDisposable_calls, hc]; rfl)
      simpa [h2, upd_other _ _ hut] using h3
    · simpa [setDisposable_other s r hj] using h3

/-- a thread whose innermost call is in a callback -/
theorem idle_listener {s : State n m} {t k : Nat} {ks : List Nat} {i : Fin n} {cs : List (Call n m)} {fs : List Cancellation.Race.Frame} {r : Cancellation.Race.State} (h : Nest s)
    (hc : s.calls t = .source i :: cs) (hk : (s.source i).stack t = .cLoop (k :: ks) :: fs) (hr : Cancellation.Race.step (s.source i) (t, .go) = some r) :
    ¬ (r.stack t).length < ((s.source i).stack t).length ∧ Idle (s.setSource i r) t := by
  have h1 := OfSource.calls_listener hk hr
  refine ⟨by rw [h1, hk]; simp [Cancellation.Race.State.at, Cancellation.Race.State.say], fun j => ?_, fun d => ?_⟩
  · by_cases hj : j = i
    · subst hj
      rw [setSource_same, h1]
      simp [Cancellation.Race.State.at, Cancellation.Race.State.say, Cancellation.Race.free]
    · rw [setSource_other s r hj]
      refine h.topS t j ?_
      rw [hc]
      simp only [List.head?_cons, ne_eq, Option.some.injEq, Call.source.injEq]
      exact fun e => hj e.symm
  · exact h.topD t d (by rw [hc]; simp)

theorem idle_action {s : State n m} {t : Nat} {d : Fin m} {cs : List (Call n m)} {fs : List Disposable.Frame} {r : Disposable.State} (h : Nest s)
    (hc : s.calls t = .disposable d :: cs) (hk : (s.disposable d).stack t = .decide true :: fs) (hr : Disposable.step (s.disposable d) (t, .go) = some r) :
    ¬ (r.stack t).length < ((s.disposable d).stack t).length ∧ Idle (s.setDisposable d r) t := by
  have h1 := OfDisposable.calls_action hk hr
  refine ⟨by rw [h1, hk]; simp, fun j => ?_, fun e => ?_⟩
  · exact h.topS t j (by rw [hc]; simp)
  · by_cases hj : e = d
    · subst hj
      rw [setDisposable_same, h1]
      simp [Disposable.free]
    · rw [setDisposable_other s r hj]
      refine h.topD t e ?_
      rw [hc]
      simp only [List.head?_cons, ne_eq, Option.some.injEq, Call.disposable.injEq]
      exact fun e => hj e.symm

theorem nest_step (s : State n m) (c : Nat × Act n m) (s' : State n m) (h : Nest s) (hc : step callbacks actions s c = some s') : Nest s' := by
  obtain ⟨t, a⟩ := c
  cases stepped hc with
  | opens i ra r hf hn hnc ha hr => exact nest_open h (h.idle hf) hn hr
  | invokes cb _ hf ha hi => exact nest_invoked h (h.idle hf) hi
  | enters d r hf ha hr =>
    have hs := OfDisposable.enters hr
    refine ⟨h.lock, fun j => ?_, h.sources, fun u j => ?_, h.topS, fun u j hu => ?_⟩
    · by_cases hj : j = d
      · subst hj; simpa using dinv_step _ _ _ (h.dinv j) hr
      · simpa [setDisposable_other s r hj] using h.dinv j
    · have h3 := h.disposables u j
      by_cases hj : j = d
      · subst hj; simpa [hs] using h3
      · simpa [setDisposable_other s r hj] using h3
    · have h3 := h.topD u j hu
      by_cases hj : j = d
      · subst hj; simpa [hs] using h3
      · simpa [setDisposable_other s r hj] using h3
  | over cs ha hcc =>
    have hid := h.idle (t := t) (by rw [hcc]; rfl)
    refine ⟨h.lock, h.dinv, fun u i => ?_, fun u d => ?_, fun u i hu => ?_, fun u d hu => ?_⟩
    · have h1 := h.sources u i
      by_cases hu : u = t
      · subst hu; rw [hcc] at h1; simpa using h1
      · simp [upd_other, hu, h1]
    · have h1 := h.disposables u d
      by_cases hu : u = t
      · subst hu; rw [hcc] at h1; simpa using h1
      · simp [upd_other, hu, h1]
    · by_cases hut : u = t
      · subst hut; exact hid.source i
      · simp only [at_calls, upd_other _ _ hut] at hu
        exact h.topS u i hu
    · by_cases hut : u = t
      · subst hut; exact hid.disposable d
      · simp only [at_calls, upd_other _ _ hut] at hu
        exact h.topD u d hu
  | sourceOver i cs r ha hcc hr hl =>
    obtain ⟨f, fs, h1, h2⟩ := OfSource.go hr
    have h2 : r.stack = upd (s.source i).stack t fs := by
      rcases h2 with h2 | ⟨f', h2⟩
      · exact h2
      · rw [h1, h2] at hl; simp at hl
    have hfree : Cancellation.Race.free fs = true := Lemmas.Race.listening_free ((h.lock i).below t f fs h1)
    refine ⟨fun j => ?_, h.dinv, fun u j => ?_, fun u d => ?_, fun u j hu => ?_, fun u d hu => ?_⟩
    · by_cases hj : j = i
      · subst hj; simpa using Lemmas.Race.lock_step _ _ _ (h.lock j) hr
      · simpa [setSource_other s r hj] using h.lock j
    · have h3 := h.sources u j
      by_cases hj : j = i
      · subst hj
        by_cases hu : u = t
        · subst hu
          rw [h1, hcc] at h3
          simpa [h2] using h3
        · simp [h2, upd_other, hu, h3]
      · have : Call.source i ≠ (Call.source j : Call n m) := fun e => hj (by cases e; rfl)
        by_cases hu : u = t
        · subst hu
          rw [hcc] at h3
          simpa [setSource_other s r hj, this] using h3
        · simpa [setSource_other s r hj, upd_other, hu] using h3
    · have h3 := h.disposables u d
      by_cases hu : u = t
      · subst hu; rw [hcc] at h3; simpa using h3
      · simpa [upd_other, hu] using h3
    · by_cases hj : j = i
      · subst hj
        by_cases hut : u = t
        · subst hut; simpa [h2] using hfree
        · simp only [at_calls, setSource_calls, upd_other _ _ hut] at hu
          simpa [h2, upd_other _ _ hut] using h.topS u j hu
      · have h4 : (s.calls u).head? ≠ some (.source j) := by
          by_cases hut : u = t
          · subst hut
            rw [hcc]
            simp only [List.head?_cons, ne_eq, Option.some.injEq, Call.source.injEq]
            exact fun e => hj e.symm
          · simpa [upd_other _ _ hut] using hu
        simpa [setSource_other s r hj] using h.topS u j h4
    · have h4 : (s.calls u).head? ≠ some (.disposable d) := by
        by_cases hut : u = t
        · subst hut; rw [hcc]; simp
        · simpa [upd_other _ _ hut] using hu
      simpa using h.topD u d h4
  | sourceGoes i cs r ha hcc hr hl hk => exact nest_goes h hcc hr hl
  | sourceCalls i cs r k ks fs _ ha hcc hr hk hi =>
    obtain ⟨h1, h2⟩ := idle_listener h hcc hk hr
    exact nest_invoked (nest_goes h hcc hr h1) h2 hi
  | disposableOver d cs r ha hcc hr hl =>
    obtain ⟨f, fs, h1, h2⟩ := OfDisposable.go hr
    have h2 : r.stack = upd (s.disposable d).stack t fs := by
      rcases h2 with h2 | ⟨f', h2⟩
      · exact h2
      · rw [h1, h2] at hl; simp at hl
    have hfree : Disposable.free fs = true := acts_free ((h.dinv d).below t f fs h1)
    refine ⟨h.lock, fun j => ?_, fun u j => ?_, fun u e => ?_, fun u j hu => ?_, fun u j hu => ?_⟩
    · by_cases hj : j = d
      · subst hj; simpa using dinv_step _ _ _ (h.dinv j) hr
      · simpa [setDisposable_other s r hj] using h.dinv j
    · have h3 := h.sources u j
      by_cases hu : u = t
      · subst hu; rw [hcc] at h3; simpa using h3
      · simpa [upd_other, hu] using h3
    · have h3 := h.disposables u e
      by_cases hj : e = d
      · subst hj
        by_cases hu : u = t
        · subst hu
          rw [h1, hcc] at h3
          simpa [h2] using h3
        · simp [h2, upd_other, hu, h3]
      · have : Call.disposable d ≠ (Call.disposable e : Call n m) := fun e => hj (by cases e; rfl)
        by_cases hu : u = t
        · subst hu
          rw [hcc] at h3
          simpa [setDisposable_other s r hj, this] using h3
        · simpa [setDisposable_other s r hj, upd_other, hu] using h3
    · have h4 : (s.calls u).head? ≠ some (.source j) := by
        by_cases hut : u = t
        · subst hut; rw [hcc]; simp
        · simpa [upd_other _ _ hut] using hu
      simpa using h.topS u j h4
    · by_cases hj : j = d
      · subst hj
        by_cases hut : u = t
        · subst hut; simpa [h2] using hfree
        · simp only [at_calls, setDisposable_calls, upd_other _ _ hut] at hu
          simpa [h2, upd_other _ _ hut] using h.topD u j hu
      · have h4 : (s.calls u).head? ≠ some (.disposable j) := by
          by_cases hut : u = t
          · subst hut
            rw [hcc]
            simp only [List.head?_cons, ne_eq, Option.some.injEq, Call.disposable.injEq]
            exact fun e => hj e.symm
          · simpa [upd_other _ _ hut] using hu
        simpa [setDisposable_other s r hj] using h.topD u j h4
  | disposableGoes d cs r ha hcc hr hl hk => exact nest_goesD h hcc hr hl
  | disposableCalls d cs r fs _ ha hcc hr hk hi =>
    obtain ⟨h1, h2⟩ := idle_action h hcc hk hr
    exact nest_invoked (nest_goesD h hcc hr h1) h2 hi

theorem nest_run {sched : List (Nat × Act n m)} {s : State n m} (h : run (step callbacks actions) init sched = some s) : Nest s :=
  run_inv Nest nest_step nest_init sched h

/-! ## some call goes on -/

theorem invoke_some {t : Nat} {s : State n m} (hi : Idle s t) (cb : Callback n m) : ∃ s', invoke t s cb = some s' := by
  cases cb with
  | user => exact ⟨_, rfl⟩
  | cancel j => obtain ⟨r, hr⟩ := OfSource.cancels (hi.source j); exact ⟨_, by simp only [invoke, hr, Option.map_some]; rfl⟩
  | dispose d => obtain ⟨r, hr⟩ := OfDisposable.disposes (hi.disposable d); exact ⟨_, by simp only [invoke, hr, Option.map_some]; rfl⟩

theorem source_goes {s : State n m} (h : Nest s) {t : Nat} {i : Fin n} {cs : List (Call n m)} (hc : s.calls t = .source i :: cs) {r : Cancellation.Race.State}
    (hr : Cancellation.Race.step (s.source i) (t, .go) = some r) : ∃ s', step callbacks actions s (t, .go) = some s' := by
  simp only [step, hc, hr, Option.bind_some]
  split
  · exact ⟨_, rfl⟩
  · split
    · rename_i k ks fs hk
      exact invoke_some (idle_listener h hc hk hr).2 _
    · exact ⟨_, rfl⟩

theorem disposable_goes {s : State n m} (h : Nest s) {t : Nat} {d : Fin m} {cs : List (Call n m)} (hc : s.calls t = .disposable d :: cs) {r : Disposable.State}
    (hr : Disposable.step (s.disposable d) (t, .go) = some r) : ∃ s', step callbacks actions s (t, .go) = some s' := by
  simp only [step, hc, hr, Option.bind_some]
  split
  · exact ⟨_, rfl⟩
  · split
    · rename_i fs hk
      exact invoke_some (idle_action h hc hk hr).2 _
    · exact ⟨_, rfl⟩

/-- as long as a thread is in a call, it goes on, or the thread does that has the lock it needs -/
theorem someone_goes {s : State n m} (h : Nest s) {t : Nat} (ht : s.calls t ≠ []) :
    (∃ s', step callbacks actions s (t, .go) = some s') ∨ ∃ u s', s.calls u ≠ [] ∧ (s.calls u).head? = (s.calls t).head? ∧ step callbacks actions s (u, .go) = some s' := by
  cases hc : s.calls t with
  | nil => exact absurd hc ht
  | cons c cs =>
    cases c with
    | user => exact .inl ⟨_, by simp only [step, hc]; rfl⟩
    | source i =>
      have hne : (s.source i).stack t ≠ [] := by
        have := h.sources t i
        rw [hc] at this
        intro e
        rw [e] at this
        simp at this
      rcases OfSource.goes hne with ⟨r, hr⟩ | ho
      · exact .inl (source_goes h hc hr)
      · obtain ⟨u, hu⟩ := Option.ne_none_iff_exists'.1 ho
        have hcrit := ((h.lock i).crit u).2 hu
        obtain ⟨r, hr⟩ := OfSource.critical_goes hcrit
        have hh : (s.calls u).head? = some (.source i) := by
          refine Classical.byContradiction fun hh => ?_
          have := Lemmas.Race.free_not_critical (h.topS u i hh)
          rw [hcrit] at this; cases this
        cases hcu : s.calls u with
        | nil => rw [hcu] at hh; cases hh
        | cons c' cs' =>
          rw [hcu] at hh
          simp only [List.head?_cons, Option.some.injEq] at hh
          subst hh
          obtain ⟨s', hs'⟩ := source_goes (callbacks := callbacks) (actions := actions) h hcu hr
          exact .inr ⟨u, s', by rw [hcu]; simp, by rw [hcu]; rfl, hs'⟩
    | disposable d =>
      have hne : (s.disposable d).stack t ≠ [] := by
        have := h.disposables t d
        rw [hc] at this
        intro e
        rw [e] at this
        simp at this
      rcases OfDisposable.goes hne with ⟨r, hr⟩ | ho
      · exact .inl (disposable_goes h hc hr)
      · obtain ⟨u, hu⟩ := Option.ne_none_iff_exists'.1 ho
        have hcrit := ((h.dinv d).crit u).2 hu
        obtain ⟨r, hr⟩ := OfDisposable.critical_goes hcrit
        have hh : (s.calls u).head? = some (.disposable d) := by
          refine Classical.byContradiction fun hh => ?_
          have := Lemmas.free_not_critical (h.topD u d hh)
          rw [hcrit] at this; cases this
        cases hcu : s.calls u with
        | nil => rw [hcu] at hh; cases hh
        | cons c' cs' =>
          rw [hcu] at hh
          simp only [List.head?_cons, Option.some.injEq] at hh
          subst hh
          obtain ⟨s', hs'⟩ := disposable_goes (callbacks := callbacks) (actions := actions) h hcu hr
          exact .inr ⟨u, s', by rw [hcu]; simp, by rw [hcu]; rfl, hs'⟩

end Expression.Lemmas.Linked
