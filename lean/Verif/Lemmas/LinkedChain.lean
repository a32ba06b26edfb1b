import Verif.Lemmas.LinkedBound

/-! # What is cancelled through callbacks -/

namespace Expression.Lemmas.Linked

open Threads Expression.Linked

variable {n m : Nat} {callbacks : Fin n → Nat → Callback n m} {actions : Fin m → Callback n m}

namespace OfSource

open Cancellation.Race

/-- a `cancel` that has not set the flag -/
def early : List Frame → Bool
  | .cLock :: _ => true
  | .cTest :: _ => true
  | .cSet :: _ => true
  | _ => false

theorem disposed_step (r : Cancellation.Race.State) (c : Nat × Act) (r' : Cancellation.Race.State) (h : r.isDisposed = true)
    (hc : Cancellation.Race.step r c = some r') : r'.isDisposed = true := by
  obtain ⟨t, a⟩ := c
  cases a <;> simp only [Cancellation.Race.step] at hc
  · split at hc
    · cases hc; exact h
    · cases hc
  · split at hc
    · cases hc; exact h
    · cases hc
  · split at hc
    · cases hc; exact h
    · cases hc
  · split at hc
    all_goals first | (split at hc) | skip
    all_goals first | (cases hc; done) | (cases hc; exact h) | (cases hc; rfl)

/-- going on from such a `cancel` sets the flag or stays there -/
theorem early_go {r r' : Cancellation.Race.State} {t : Nat} (h : early (r.stack t) = true) (hc : Cancellation.Race.step r (t, .go) = some r') :
    r'.isDisposed = true ∨ (early (r'.stack t) = true ∧ (r'.stack t).length = (r.stack t).length) := by
  cases hs : r.stack t with
  | nil => rw [hs] at h; cases h
  | cons f fs =>
    rw [hs] at h
    cases f <;> first | (cases h; done) | skip
    · simp only [Cancellation.Race.step, hs] at hc
      split at hc
      · cases hc; exact .inr (by simp [Cancellation.Race.State.at, early])
      · cases hc
    · simp only [Cancellation.Race.step, hs] at hc
      split at hc
      · rename_i hd; cases hc; exact .inl hd
      · cases hc; exact .inr (by simp [Cancellation.Race.State.at, early])
    · simp only [Cancellation.Race.step, hs] at hc
      cases hc; exact .inl rfl

/-- only calling a listener adds to the calls -/
theorem called_new {r r' : Cancellation.Race.State} {t k : Nat} {a : Act} (hc : Cancellation.Race.step r (t, a) = some r') (h : .called k ∈ r'.log) :
    .called k ∈ r.log ∨ (a = .go ∧ ∃ ks fs, r.stack t = .cLoop (k :: ks) :: fs) := by
  cases a <;> simp only [Cancellation.Race.step] at hc
  · split at hc
    · cases hc; simpa [Cancellation.Race.State.say, Cancellation.Race.State.at] using h
    · cases hc
  · split at hc
    · cases hc; simpa [Cancellation.Race.State.say, Cancellation.Race.State.at] using h
    · cases hc
  · split at hc
    · cases hc; simpa [Cancellation.Race.State.say, Cancellation.Race.State.at] using h
    · cases hc
  · split at hc <;> rename_i hs
    all_goals first | (split at hc) | skip
    all_goals first
      | (cases hc; done)
      | (cases hc; left; simpa [Cancellation.Race.State.say, Cancellation.Race.State.at] using h)
      | skip
    cases hc
    simp only [Cancellation.Race.State.say, Cancellation.Race.State.at, List.mem_append, List.mem_singleton, Event.called.injEq] at h
    rcases h with h | rfl
    · exact .inl h
    · exact .inr ⟨rfl, _, _, hs⟩

/-- only calling `cancel` begins one -/
theorem began_new {r r' : Cancellation.Race.State} {t u : Nat} {a : Act} (hc : Cancellation.Race.step r (t, a) = some r') (h : .cancelBegan u ∈ r'.log) :
    .cancelBegan u ∈ r.log ∨ a = .cancel := by
  cases a <;> simp only [Cancellation.Race.step] at hc
  · split at hc
    · cases hc; left; simpa [Cancellation.Race.State.say, Cancellation.Race.State.at] using h
    · cases hc
  · split at hc
    · cases hc; left; simpa [Cancellation.Race.State.say, Cancellation.Race.State.at] using h
    · cases hc
  · exact .inr rfl
  · split at hc
    all_goals first | (split at hc) | skip
    all_goals first
      | (cases hc; done)
      | (cases hc; left; simpa [Cancellation.Race.State.say, Cancellation.Race.State.at] using h)

theorem cancel_early {r r' : Cancellation.Race.State} {t : Nat} (hc : Cancellation.Race.step r (t, .cancel) = some r') : early (r'.stack t) = true := by
  simp only [Cancellation.Race.step] at hc
  split at hc
  · cases hc; simp [Cancellation.Race.State.at, Cancellation.Race.State.say, early]
  · cases hc

end OfSource

namespace OfDisposable

open Disposable

/-- a `dispose` that has not set the flag -/
def early : List Frame → Bool
  | .lock :: _ => true
  | .test :: _ => true
  | .set :: _ => true
  | _ => false

theorem disposed_step (r : Disposable.State) (c : Nat × Act) (r' : Disposable.State) (h : r.isDisposed = true)
    (hc : Disposable.step r c = some r') : r'.isDisposed = true := by
  obtain ⟨t, a⟩ := c
  cases a <;> simp only [Disposable.step] at hc
  · split at hc
    · cases hc; exact h
    · cases hc
  · split at hc
    · simp only [h] at hc; cases hc; rfl
    · cases hc
  · split at hc
    all_goals first | (split at hc) | skip
    all_goals first | (cases hc; done) | (cases hc; exact h) | (cases hc; rfl)

theorem early_go {r r' : Disposable.State} {t : Nat} (h : early (r.stack t) = true) (hc : Disposable.step r (t, .go) = some r') :
    r'.isDisposed = true ∨ (early (r'.stack t) = true ∧ (r'.stack t).length = (r.stack t).length) := by
  cases hs : r.stack t with
  | nil => rw [hs] at h; cases h
  | cons f fs =>
    rw [hs] at h
    cases f <;> first | (cases h; done) | skip
    · simp only [Disposable.step, hs] at hc
      split at hc
      · cases hc; exact .inr (by simp [early])
      · cases hc
    · simp only [Disposable.step, hs] at hc
      split at hc
      · rename_i hd; cases hc; exact .inl hd
      · cases hc; exact .inr (by simp [early])
    · simp only [Disposable.step, hs] at hc
      cases hc; exact .inl rfl

theorem ran_new {r r' : Disposable.State} {t u : Nat} {a : Act} (hc : Disposable.step r (t, a) = some r') (h : .ran u ∈ r'.log) :
    .ran u ∈ r.log ∨ (a = .go ∧ ∃ fs, r.stack t = .decide true :: fs) := by
  cases a <;> simp only [Disposable.step] at hc
  · split at hc
    · cases hc; simpa using h
    · cases hc
  · split at hc
    · split at hc <;> (cases hc; simpa using h)
    · cases hc
  · split at hc <;> rename_i hs
    all_goals first | (split at hc) | skip
    all_goals first
      | (cases hc; done)
      | (cases hc; left; simpa using h)
      | skip
    rename_i hd
    subst hd
    exact .inr ⟨rfl, _, hs⟩

theorem began_new {r r' : Disposable.State} {t u : Nat} {a : Act} (hc : Disposable.step r (t, a) = some r') (h : .began u ∈ r'.log) :
    .began u ∈ r.log ∨ a = .dispose := by
  cases a <;> simp only [Disposable.step] at hc
  · exact .inr rfl
  · split at hc
    · split at hc <;> (cases hc; left; simpa using h)
    · cases hc
  · split at hc
    all_goals first | (split at hc) | skip
    all_goals first
      | (cases hc; done)
      | (cases hc; left; simpa using h)

theorem dispose_early {r r' : Disposable.State} {t : Nat} (hc : Disposable.step r (t, .dispose) = some r') : early (r'.stack t) = true := by
  simp only [Disposable.step] at hc
  split at hc
  · cases hc; simp [early]
  · cases hc

end OfDisposable

/-! ## what a step leaves as it is -/

structure Same (t : Nat) (s s' : State n m) : Prop where
  calls : s'.calls t = s.calls t
  source : ∀ i, (s'.source i).stack t = (s.source i).stack t
  disposable : ∀ d, (s'.disposable d).stack t = (s.disposable d).stack t

theorem Same.refl (t : Nat) (s : State n m) : Same t s s := ⟨rfl, fun _ => rfl, fun _ => rfl⟩

theorem Same.trans {t : Nat} {s s' s'' : State n m} (h : Same t s s') (h' : Same t s' s'') : Same t s s'' :=
  ⟨h'.calls.trans h.calls, fun i => (h'.source i).trans (h.source i), fun d => (h'.disposable d).trans (h.disposable d)⟩

theorem same_setSource {t : Nat} {s : State n m} {i : Fin n} {r : Cancellation.Race.State} (h : r.stack t = (s.source i).stack t) : Same t s (s.setSource i r) := by
  refine ⟨rfl, fun j => ?_, fun _ => rfl⟩
  by_cases hj : j = i
  · subst hj; simpa using h
  · rw [setSource_other s r hj]

theorem same_setDisposable {t : Nat} {s : State n m} {d : Fin m} {r : Disposable.State} (h : r.stack t = (s.disposable d).stack t) : Same t s (s.setDisposable d r) := by
  refine ⟨rfl, fun _ => rfl, fun j => ?_⟩
  by_cases hj : j = d
  · subst hj; simpa using h
  · rw [setDisposable_other s r hj]

theorem same_at {t u : Nat} {s : State n m} {cs : List (Call n m)} (h : t ≠ u) : Same t s (s.at u cs) :=
  ⟨by simp [upd_other, h], fun _ => rfl, fun _ => rfl⟩

theorem race_other {r r' : Cancellation.Race.State} {t u : Nat} {a : Cancellation.Race.Act} (h : t ≠ u) (hc : Cancellation.Race.step r (u, a) = some r') :
    r'.stack t = r.stack t := by
  by_cases ha : a = .go
  · subst ha
    obtain ⟨f, fs, _, h1 | ⟨f', h1⟩⟩ := OfSource.go hc <;> rw [h1, upd_other _ _ h]
  · obtain ⟨_, f, h1⟩ := OfSource.opens ha hc
    rw [h1, upd_other _ _ h]

theorem disposable_other {r r' : Disposable.State} {t u : Nat} {a : Disposable.Act} (h : t ≠ u) (hc : Disposable.step r (u, a) = some r') :
    r'.stack t = r.stack t := by
  cases a with
  | go => obtain ⟨f, fs, _, h1 | ⟨f', h1⟩⟩ := OfDisposable.go hc <;> rw [h1, upd_other _ _ h]
  | dispose =>
    obtain ⟨_, f, h1⟩ := OfDisposable.opens hc
    rw [h1, upd_other _ _ h]
  | enter => rw [OfDisposable.enters hc]

theorem same_invoked {t u : Nat} {s s' : State n m} {cb : Callback n m} (ht : t ≠ u) (h : Invoked u s cb s') : Same t s s' := by
  cases h with
  | user => exact same_at ht
  | cancel j r hr => exact (same_setSource (race_other ht hr)).trans (same_at ht)
  | dispose d r hr => exact (same_setDisposable (disposable_other ht hr)).trans (same_at ht)

theorem same_step {t u : Nat} {s s' : State n m} {a : Act n m} (ht : t ≠ u) (h : step callbacks actions s (u, a) = some s') : Same t s s' := by
  cases stepped h with
  | opens i ra r hf hn hnc ha hr => exact (same_setSource (race_other ht hr)).trans (same_at ht)
  | invokes cb _ hf ha hi => exact same_invoked ht hi
  | enters d r hf ha hr => exact same_setDisposable (disposable_other ht hr)
  | over cs ha hc => exact same_at ht
  | sourceOver i cs r ha hc hr hlt => exact (same_setSource (race_other ht hr)).trans (same_at ht)
  | sourceGoes i cs r ha hc hr hlt hk => exact same_setSource (race_other ht hr)
  | sourceCalls i cs r k ks fs _ ha hc hr hk hi => exact (same_setSource (race_other ht hr)).trans (same_invoked ht hi)
  | disposableOver d cs r ha hc hr hlt => exact (same_setDisposable (disposable_other ht hr)).trans (same_at ht)
  | disposableGoes d cs r ha hc hr hlt hk => exact same_setDisposable (disposable_other ht hr)
  | disposableCalls d cs r fs _ ha hc hr hk hi => exact (same_setDisposable (disposable_other ht hr)).trans (same_invoked ht hi)

/-! ## a callback that was called has done its work, or is at it -/

/-- the object has called this -/
def Fired (callbacks : Fin n → Nat → Callback n m) (actions : Fin m → Callback n m) (s : State n m) : Call n m → Callback n m → Prop
  | .source i, cb => ∃ k, .called k ∈ (s.source i).log ∧ callbacks i k = cb
  | .disposable d, cb => ∃ t, .ran t ∈ (s.disposable d).log ∧ actions d = cb
  | .user, _ => False

/-- what is called is done, or being done by a thread that came from `c` -/
def Under (s : State n m) (c : Call n m) : Callback n m → Prop
  | .user => True
  | .cancel j => (s.source j).isDisposed = true ∨ ∃ t rest, s.calls t = .source j :: c :: rest ∧ OfSource.early ((s.source j).stack t) = true
  | .dispose d => (s.disposable d).isDisposed = true ∨ ∃ t rest, s.calls t = .disposable d :: c :: rest ∧ OfDisposable.early ((s.disposable d).stack t) = true

theorem source_disposed_step {s s' : State n m} {c : Nat × Act n m} (h : step callbacks actions s c = some s') (i : Fin n) (hd : (s.source i).isDisposed = true) :
    (s'.source i).isDisposed = true := by
  obtain ⟨cs, hcs⟩ := source_step h i
  exact run_inv (fun r : Cancellation.Race.State => r.isDisposed = true) OfSource.disposed_step hd cs hcs

theorem disposable_disposed_step {s s' : State n m} {c : Nat × Act n m} (h : step callbacks actions s c = some s') (d : Fin m) (hd : (s.disposable d).isDisposed = true) :
    (s'.disposable d).isDisposed = true := by
  obtain ⟨cs, hcs⟩ := disposable_step h d
  exact run_inv (fun r : Disposable.State => r.isDisposed = true) OfDisposable.disposed_step hd cs hcs

theorem under_step {s s' : State n m} {x : Nat × Act n m} {c : Call n m} {cb : Callback n m} (h : step callbacks actions s x = some s') (hu : Under s c cb) : Under s' c cb := by
  obtain ⟨u, a⟩ := x
  cases cb with
  | user => trivial
  | cancel j =>
    rcases hu with hd | ⟨t, rest, hc, he⟩
    · exact .inl (source_disposed_step h j hd)
    by_cases ht : t = u
    · subst ht
      have hnf : free (s.calls t) = false := by rw [hc]; rfl
      have hst : step callbacks actions s (t, a) = some s' := h
      cases stepped h with
      | opens i ra r hf hn hnc ha hr => rw [hnf] at hf; cases hf
      | invokes cb _ hf ha hi => rw [hnf] at hf; cases hf
      | enters d r hf ha hr => rw [hnf] at hf; cases hf
      | over cs ha hc' => rw [hc] at hc'; cases hc'
      | sourceOver i cs r ha hc' hr hlt =>
        rw [hc] at hc'
        cases hc'
        rcases OfSource.early_go he hr with h1 | ⟨_, h1⟩
        · exact .inl (by simpa using h1)
        · omega
      | sourceGoes i cs r ha hc' hr hlt hk =>
        have hc'' := hc'
        rw [hc] at hc''
        cases hc''
        rcases OfSource.early_go he hr with h1 | ⟨h1, _⟩
        · exact .inl (by simpa using h1)
        · exact .inr ⟨t, rest, hc, by simpa using h1⟩
      | sourceCalls i cs r k ks fs _ ha hc' hr hk hi =>
        rw [hc] at hc'
        cases hc'
        rw [hk] at he
        cases he
      | disposableOver d cs r ha hc' hr hlt => rw [hc] at hc'; cases hc'
      | disposableGoes d cs r ha hc' hr hlt hk => rw [hc] at hc'; cases hc'
      | disposableCalls d cs r fs _ ha hc' hr hk hi => rw [hc] at hc'; cases hc'
    · have hs := same_step ht h
      exact .inr ⟨t, rest, by rw [hs.calls, hc], by rw [hs.source, he]⟩
  | dispose d =>
    rcases hu with hd | ⟨t, rest, hc, he⟩
    · exact .inl (disposable_disposed_step h d hd)
    by_cases ht : t = u
    · subst ht
      have hnf : free (s.calls t) = false := by rw [hc]; rfl
      cases stepped h with
      | opens i ra r hf hn hnc ha hr => rw [hnf] at hf; cases hf
      | invokes cb _ hf ha hi => rw [hnf] at hf; cases hf
      | enters d r hf ha hr => rw [hnf] at hf; cases hf
      | over cs ha hc' => rw [hc] at hc'; cases hc'
      | sourceOver i cs r ha hc' hr hlt => rw [hc] at hc'; cases hc'
      | sourceGoes i cs r ha hc' hr hlt hk => rw [hc] at hc'; cases hc'
      | sourceCalls i cs r k ks fs _ ha hc' hr hk hi => rw [hc] at hc'; cases hc'
      | disposableOver e cs r ha hc' hr hlt =>
        rw [hc] at hc'
        cases hc'
        rcases OfDisposable.early_go he hr with h1 | ⟨_, h1⟩
        · exact .inl (by simpa using h1)
        · omega
      | disposableGoes e cs r ha hc' hr hlt hk =>
        have hc'' := hc'
        rw [hc] at hc''
        cases hc''
        rcases OfDisposable.early_go he hr with h1 | ⟨h1, _⟩
        · exact .inl (by simpa using h1)
        · exact .inr ⟨t, rest, hc, by simpa using h1⟩
      | disposableCalls e cs r fs _ ha hc' hr hk hi =>
        rw [hc] at hc'
        cases hc'
        rw [hk] at he
        cases he
    · have hs := same_step ht h
      exact .inr ⟨t, rest, by rw [hs.calls, hc], by rw [hs.disposable, he]⟩

theorem under_invoked {t : Nat} {s s' : State n m} {cb : Callback n m} {c : Call n m} {cs : List (Call n m)} (h : Invoked t s cb s') (hc : s.calls t = c :: cs) : Under s' c cb := by
  cases h with
  | user => trivial
  | cancel j r hr => exact .inr ⟨t, cs, by simp [hc], by simpa using OfSource.cancel_early hr⟩
  | dispose d r hr => exact .inr ⟨t, cs, by simp [hc], by simpa using OfDisposable.dispose_early hr⟩

/-- changing a source without calling a listener fires nothing -/
theorem fired_setSource {s : State n m} {i : Fin n} {r : Cancellation.Race.State} {c : Call n m} {cb : Callback n m}
    (hr : ∀ k : Nat, .called k ∈ r.log → .called k ∈ (s.source i).log ∨ (c = .source i → callbacks i k = cb → False))
    (h : Fired callbacks actions (s.setSource i r) c cb) : Fired callbacks actions s c cb := by
  cases c with
  | source j =>
    obtain ⟨k, h1, h2⟩ := h
    by_cases hj : j = i
    · subst hj
      rw [setSource_same] at h1
      rcases hr k h1 with h3 | h3
      · exact ⟨k, h3, h2⟩
      · exact (h3 rfl h2).elim
    · rw [setSource_other s r hj] at h1
      exact ⟨k, h1, h2⟩
  | disposable d => exact h
  | user => exact h

theorem fired_setDisposable {s : State n m} {d : Fin m} {r : Disposable.State} {c : Call n m} {cb : Callback n m}
    (hr : ∀ t : Nat, .ran t ∈ r.log → .ran t ∈ (s.disposable d).log ∨ (c = .disposable d → actions d = cb → False))
    (h : Fired callbacks actions (s.setDisposable d r) c cb) : Fired callbacks actions s c cb := by
  cases c with
  | disposable j =>
    obtain ⟨k, h1, h2⟩ := h
    by_cases hj : j = d
    · subst hj
      rw [setDisposable_same] at h1
      rcases hr k h1 with h3 | h3
      · exact ⟨k, h3, h2⟩
      · exact (h3 rfl h2).elim
    · rw [setDisposable_other s r hj] at h1
      exact ⟨k, h1, h2⟩
  | source i => exact h
  | user => exact h

theorem fired_at {t : Nat} {s : State n m} {cs : List (Call n m)} {c : Call n m} {cb : Callback n m} (h : Fired callbacks actions (s.at t cs) c cb) : Fired callbacks actions s c cb := by
  cases c <;> exact h

theorem fired_invoked {t : Nat} {s s' : State n m} {cb cb' : Callback n m} {c : Call n m} (h : Invoked t s cb' s') (hf : Fired callbacks actions s' c cb) : Fired callbacks actions s c cb := by
  cases h with
  | user => exact fired_at hf
  | cancel j r hr =>
    refine fired_setSource (fun k hk => ?_) (fired_at hf)
    rcases OfSource.called_new hr hk with h1 | ⟨h1, _⟩
    · exact .inl h1
    · cases h1
  | dispose d r hr =>
    refine fired_setDisposable (fun k hk => ?_) (fired_at hf)
    rcases OfDisposable.ran_new hr hk with h1 | ⟨h1, _⟩
    · exact .inl h1
    · cases h1

theorem fired_step {s s' : State n m} {x : Nat × Act n m} {c : Call n m} {cb : Callback n m} (h : step callbacks actions s x = some s') (hf : Fired callbacks actions s' c cb) :
    Fired callbacks actions s c cb ∨ Under s' c cb := by
  obtain ⟨t, a⟩ := x
  cases stepped h with
  | opens i ra r hfr hn hnc ha hr =>
    refine .inl (fired_setSource (fun k hk => ?_) (fired_at hf))
    rcases OfSource.called_new hr hk with h1 | ⟨h1, _⟩
    · exact .inl h1
    · exact absurd h1 hn
  | invokes cb _ hfr ha hi => exact .inl (fired_invoked hi hf)
  | enters d r hfr ha hr =>
    refine .inl (fired_setDisposable (fun k hk => ?_) hf)
    rcases OfDisposable.ran_new hr hk with h1 | ⟨h1, _⟩
    · exact .inl h1
    · cases h1
  | over cs ha hc => exact .inl (fired_at hf)
  | sourceOver i cs r ha hc hr hlt =>
    refine .inl (fired_setSource (fun k hk => ?_) (fired_at hf))
    rcases OfSource.called_new hr hk with h1 | ⟨_, ks, fs, h1⟩
    · exact .inl h1
    · rw [OfSource.calls_listener h1 hr, h1] at hlt
      simp [Cancellation.Race.State.at, Cancellation.Race.State.say] at hlt
  | sourceGoes i cs r ha hc hr hlt hk =>
    refine .inl (fired_setSource (fun k hk' => ?_) hf)
    rcases OfSource.called_new hr hk' with h1 | ⟨_, ks, fs, h1⟩
    · exact .inl h1
    · exact absurd h1 (hk k ks fs)
  | sourceCalls i cs r k ks fs _ ha hc hr hk hi =>
    by_cases he : c = .source i ∧ callbacks i k = cb
    · obtain ⟨rfl, rfl⟩ := he
      exact .inr (under_invoked hi hc)
    · refine .inl (fired_setSource (fun k' hk' => ?_) (fired_invoked hi hf))
      rcases OfSource.called_new hr hk' with h1 | ⟨_, ks', fs', h1⟩
      · exact .inl h1
      · rw [hk] at h1
        cases h1
        exact .inr fun h1 h2 => he ⟨h1, h2⟩
  | disposableOver d cs r ha hc hr hlt =>
    refine .inl (fired_setDisposable (fun k hk => ?_) (fired_at hf))
    rcases OfDisposable.ran_new hr hk with h1 | ⟨_, fs, h1⟩
    · exact .inl h1
    · rw [OfDisposable.calls_action h1 hr, h1] at hlt
      simp at hlt
  | disposableGoes d cs r ha hc hr hlt hk =>
    refine .inl (fired_setDisposable (fun k hk' => ?_) hf)
    rcases OfDisposable.ran_new hr hk' with h1 | ⟨_, fs, h1⟩
    · exact .inl h1
    · exact absurd h1 (hk fs)
  | disposableCalls d cs r fs _ ha hc hr hk hi =>
    by_cases he : c = .disposable d ∧ actions d = cb
    · obtain ⟨rfl, rfl⟩ := he
      exact .inr (under_invoked hi hc)
    · exact .inl (fired_setDisposable (fun k' hk' => .inr fun h1 h2 => he ⟨h1, h2⟩) (fired_invoked hi hf))

theorem fired_under {sched : List (Nat × Act n m)} {s : State n m} (h : run (step callbacks actions) init sched = some s) {c : Call n m} {cb : Callback n m}
    (hf : Fired callbacks actions s c cb) : Under s c cb := by
  have key := run_inv (step := step callbacks actions) (fun s : State n m => ∀ c cb, Fired callbacks actions s c cb → Under s c cb)
    (fun s x s' hi hx c cb hf => by
      rcases fired_step hx hf with h1 | h1
      · exact under_step hx (hi c cb h1)
      · exact h1)
    (by
      intro c cb hf
      cases c with
      | source i => obtain ⟨k, h1, _⟩ := hf; cases h1
      | disposable d => obtain ⟨k, h1, _⟩ := hf; cases h1
      | user => exact hf.elim) sched h
  exact key c cb hf

end Expression.Lemmas.Linked
