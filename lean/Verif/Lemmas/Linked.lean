import Verif.Model.Linked
import Verif.Lemmas.CancellationMore
import Verif.Lemmas.CancellationOrder
import Verif.Lemmas.Disposable

/-! # Sources and disposables that call each other: each on its own, and how the calls nest -/

namespace Expression.Lemmas.Linked

open Threads Expression.Linked

variable {n m : Nat}

/-! ## one object -/

namespace OfSource

open Cancellation.Race

/-- going on replaces the innermost call, or ends it -/
theorem go {r r' : Cancellation.Race.State} {t : Nat} (h : Cancellation.Race.step r (t, .go) = some r') :
    ∃ f fs, r.stack t = f :: fs ∧ (r'.stack = upd r.stack t fs ∨ ∃ f', r'.stack = upd r.stack t (f' :: fs)) := by
  simp only [Cancellation.Race.step] at h
  split at h <;> rename_i hs
  · cases h
  all_goals first | (split at h) | skip
  all_goals first | (cases h; done) | (cases h; exact ⟨_, _, hs, .inl rfl⟩) | (cases h; exact ⟨_, _, hs, .inr ⟨_, rfl⟩⟩)

/-- a call is opened where the thread is free -/
theorem opens {r r' : Cancellation.Race.State} {t : Nat} {a : Act} (ha : a ≠ .go) (h : Cancellation.Race.step r (t, a) = some r') :
    Cancellation.Race.free (r.stack t) = true ∧ ∃ f, r'.stack = upd r.stack t (f :: r.stack t) := by
  cases a with
  | go => exact absurd rfl ha
  | register =>
    simp only [Cancellation.Race.step] at h
    split at h
    · rename_i hf; cases h; exact ⟨hf, _, rfl⟩
    · cases h
  | unregister k =>
    simp only [Cancellation.Race.step] at h
    split at h
    · rename_i hf; cases h; exact ⟨hf.1, _, rfl⟩
    · cases h
  | cancel =>
    simp only [Cancellation.Race.step] at h
    split at h
    · rename_i hf; cases h; exact ⟨hf, _, rfl⟩
    · cases h

theorem cancels {r : Cancellation.Race.State} {t : Nat} (h : Cancellation.Race.free (r.stack t) = true) :
    ∃ r', Cancellation.Race.step r (t, .cancel) = some r' := ⟨_, by simp only [Cancellation.Race.step, h, if_true]; rfl⟩

/-- only the lock can hold up a call -/
theorem goes {r : Cancellation.Race.State} {t : Nat} (h : r.stack t ≠ []) : (∃ r', Cancellation.Race.step r (t, .go) = some r') ∨ r.owner ≠ none := by
  cases hs : r.stack t with
  | nil => exact absurd hs h
  | cons f fs =>
    by_cases ho : r.owner = none
    · left
      cases f <;> simp only [Cancellation.Race.step, hs, ho, if_true] <;> first | exact ⟨_, rfl⟩ | skip
      · split <;> exact ⟨_, rfl⟩
      · split <;> exact ⟨_, rfl⟩
      · split <;> exact ⟨_, rfl⟩
      · rename_i ls; cases ls <;> exact ⟨_, rfl⟩
    · exact .inr ho

/-- who has the lock goes on -/
theorem critical_goes {r : Cancellation.Race.State} {t : Nat} (h : Lemmas.Race.critical (r.stack t) = true) : ∃ r', Cancellation.Race.step r (t, .go) = some r' := by
  cases hs : r.stack t with
  | nil => rw [hs] at h; cases h
  | cons f fs =>
    rw [hs] at h
    cases f <;> first | (cases h; done) | skip
    all_goals simp only [Cancellation.Race.step, hs] <;> first | exact ⟨_, rfl⟩ | (split <;> exact ⟨_, rfl⟩)

/-- calling a listener -/
theorem calls_listener {r r' : Cancellation.Race.State} {t k : Nat} {ks : List Nat} {fs : List Frame} (hs : r.stack t = .cLoop (k :: ks) :: fs)
    (h : Cancellation.Race.step r (t, .go) = some r') : r' = (r.at t (.inListener ks :: fs)).say (.called k) := by
  simp only [Cancellation.Race.step, hs] at h
  exact (Option.some.inj h).symm

end OfSource

namespace OfDisposable

open Disposable

theorem go {r r' : Disposable.State} {t : Nat} (h : Disposable.step r (t, .go) = some r') :
    ∃ f fs, r.stack t = f :: fs ∧ (r'.stack = upd r.stack t fs ∨ ∃ f', r'.stack = upd r.stack t (f' :: fs)) := by
  simp only [Disposable.step] at h
  split at h <;> rename_i hs
  · cases h
  all_goals first | (split at h) | skip
  all_goals first | (cases h; done) | (cases h; exact ⟨_, _, hs, .inl rfl⟩) | (cases h; exact ⟨_, _, hs, .inr ⟨_, rfl⟩⟩)

theorem opens {r r' : Disposable.State} {t : Nat} (h : Disposable.step r (t, .dispose) = some r') :
    Disposable.free (r.stack t) = true ∧ ∃ f, r'.stack = upd r.stack t (f :: r.stack t) := by
  simp only [Disposable.step] at h
  split at h
  · rename_i hf; cases h; exact ⟨hf, _, rfl⟩
  · cases h

theorem enters {r r' : Disposable.State} {t : Nat} (h : Disposable.step r (t, .enter) = some r') : r'.stack = r.stack := by
  simp only [Disposable.step] at h
  split at h
  · split at h <;> (cases h; rfl)
  · cases h

theorem disposes {r : Disposable.State} {t : Nat} (h : Disposable.free (r.stack t) = true) :
    ∃ r', Disposable.step r (t, .dispose) = some r' := ⟨_, by simp only [Disposable.step, h, if_true]; rfl⟩

theorem goes {r : Disposable.State} {t : Nat} (h : r.stack t ≠ []) : (∃ r', Disposable.step r (t, .go) = some r') ∨ r.owner ≠ none := by
  cases hs : r.stack t with
  | nil => exact absurd hs h
  | cons f fs =>
    by_cases ho : r.owner = none
    · left
      cases f <;> simp only [Disposable.step, hs, ho, if_true] <;> first | exact ⟨_, rfl⟩ | (split <;> exact ⟨_, rfl⟩)
    · exact .inr ho

theorem critical_goes {r : Disposable.State} {t : Nat} (h : Lemmas.critical (r.stack t) = true) : ∃ r', Disposable.step r (t, .go) = some r' := by
  cases hs : r.stack t with
  | nil => rw [hs] at h; cases h
  | cons f fs =>
    rw [hs] at h
    cases f <;> first | (cases h; done) | skip
    all_goals simp only [Disposable.step, hs] <;> first | exact ⟨_, rfl⟩ | (split <;> exact ⟨_, rfl⟩)

/-- calling the action -/
theorem calls_action {r r' : Disposable.State} {t : Nat} {fs : List Frame} (hs : r.stack t = .decide true :: fs)
    (h : Disposable.step r (t, .go) = some r') : r' = { r with stack := upd r.stack t (.action :: fs), log := r.log ++ [.ran t] } := by
  simp only [Disposable.step, hs, if_true] at h
  exact (Option.some.inj h).symm

end OfDisposable

/-! ## one step -/

variable {callbacks : Fin n → Nat → Callback n m} {actions : Fin m → Callback n m}

@[simp] theorem setSource_same (s : State n m) (i : Fin n) (r : Cancellation.Race.State) : (s.setSource i r).source i = r := by simp [State.setSource]
theorem setSource_other (s : State n m) {i j : Fin n} (r : Cancellation.Race.State) (h : j ≠ i) : (s.setSource i r).source j = s.source j := by simp [State.setSource, h]
@[simp] theorem setSource_disposable (s : State n m) (i : Fin n) (r : Cancellation.Race.State) : (s.setSource i r).disposable = s.disposable := rfl
@[simp] theorem setSource_calls (s : State n m) (i : Fin n) (r : Cancellation.Race.State) : (s.setSource i r).calls = s.calls := rfl
@[simp] theorem setDisposable_same (s : State n m) (d : Fin m) (r : Disposable.State) : (s.setDisposable d r).disposable d = r := by simp [State.setDisposable]
theorem setDisposable_other (s : State n m) {d e : Fin m} (r : Disposable.State) (h : e ≠ d) : (s.setDisposable d r).disposable e = s.disposable e := by
  simp [State.setDisposable, h]
@[simp] theorem setDisposable_source (s : State n m) (d : Fin m) (r : Disposable.State) : (s.setDisposable d r).source = s.source := rfl
@[simp] theorem setDisposable_calls (s : State n m) (d : Fin m) (r : Disposable.State) : (s.setDisposable d r).calls = s.calls := rfl
@[simp] theorem at_source (s : State n m) (t : Nat) (cs : List (Call n m)) : (s.at t cs).source = s.source := rfl
@[simp] theorem at_disposable (s : State n m) (t : Nat) (cs : List (Call n m)) : (s.at t cs).disposable = s.disposable := rfl
@[simp] theorem at_calls (s : State n m) (t : Nat) (cs : List (Call n m)) : (s.at t cs).calls = upd s.calls t cs := rfl

/-- a callback is called -/
inductive Invoked (t : Nat) (s : State n m) : Callback n m → State n m → Prop where
  | user : Invoked t s .user (s.at t (.user :: s.calls t))
  | cancel (j : Fin n) (r : Cancellation.Race.State) (h : Cancellation.Race.step (s.source j) (t, .cancel) = some r) :
      Invoked t s (.cancel j) ((s.setSource j r).at t (.source j :: s.calls t))
  | dispose (d : Fin m) (r : Disposable.State) (h : Disposable.step (s.disposable d) (t, .dispose) = some r) :
      Invoked t s (.dispose d) ((s.setDisposable d r).at t (.disposable d :: s.calls t))

theorem invoked {t : Nat} {s s' : State n m} {cb : Callback n m} (h : invoke t s cb = some s') : Invoked t s cb s' := by
  cases cb with
  | user => cases h; exact .user
  | cancel j => obtain ⟨r, hr, rfl⟩ := Option.map_eq_some_iff.1 h; exact .cancel j r hr
  | dispose d => obtain ⟨r, hr, rfl⟩ := Option.map_eq_some_iff.1 h; exact .dispose d r hr

/-- what an action of thread `t` does -/
inductive Stepped (callbacks : Fin n → Nat → Callback n m) (actions : Fin m → Callback n m) (s : State n m) (t : Nat) (a : Act n m) : State n m → Prop where
  /-- `register` or `unregister` is called -/
  | opens (i : Fin n) (ra : Cancellation.Race.Act) (r : Cancellation.Race.State) (hf : free (s.calls t) = true) (hn : ra ≠ .go) (hnc : ra ≠ .cancel)
      (ha : (a = .register i ∧ ra = .register) ∨ ∃ k, a = .unregister i k ∧ ra = .unregister k)
      (h : Cancellation.Race.step (s.source i) (t, ra) = some r) : Stepped callbacks actions s t a ((s.setSource i r).at t (.source i :: s.calls t))
  /-- `cancel` or `dispose` is called -/
  | invokes (cb : Callback n m) (s' : State n m) (hf : free (s.calls t) = true) (ha : (∃ i, a = .cancel i ∧ cb = .cancel i) ∨ ∃ d, a = .dispose d ∧ cb = .dispose d)
      (h : Invoked t s cb s') : Stepped callbacks actions s t a s'
  | enters (d : Fin m) (r : Disposable.State) (hf : free (s.calls t) = true) (ha : a = .enter d) (h : Disposable.step (s.disposable d) (t, .enter) = some r) :
      Stepped callbacks actions s t a (s.setDisposable d r)
  /-- a callback of the user is over -/
  | over (cs : List (Call n m)) (ha : a = .go) (hc : s.calls t = .user :: cs) : Stepped callbacks actions s t a (s.at t cs)
  | sourceOver (i : Fin n) (cs : List (Call n m)) (r : Cancellation.Race.State) (ha : a = .go) (hc : s.calls t = .source i :: cs)
      (h : Cancellation.Race.step (s.source i) (t, .go) = some r) (hl : (r.stack t).length < ((s.source i).stack t).length) :
      Stepped callbacks actions s t a ((s.setSource i r).at t cs)
  | sourceGoes (i : Fin n) (cs : List (Call n m)) (r : Cancellation.Race.State) (ha : a = .go) (hc : s.calls t = .source i :: cs)
      (h : Cancellation.Race.step (s.source i) (t, .go) = some r) (hl : ¬ (r.stack t).length < ((s.source i).stack t).length)
      (hk : ∀ k ks fs, (s.source i).stack t ≠ .cLoop (k :: ks) :: fs) : Stepped callbacks actions s t a (s.setSource i r)
  | sourceCalls (i : Fin n) (cs : List (Call n m)) (r : Cancellation.Race.State) (k : Nat) (ks : List Nat) (fs : List Cancellation.Race.Frame) (s' : State n m) (ha : a = .go)
      (hc : s.calls t = .source i :: cs) (h : Cancellation.Race.step (s.source i) (t, .go) = some r)
      (hk : (s.source i).stack t = .cLoop (k :: ks) :: fs) (hi : Invoked t (s.setSource i r) (callbacks i k) s') : Stepped callbacks actions s t a s'
  | disposableOver (d : Fin m) (cs : List (Call n m)) (r : Disposable.State) (ha : a = .go) (hc : s.calls t = .disposable d :: cs)
      (h : Disposable.step (s.disposable d) (t, .go) = some r) (hl : (r.stack t).length < ((s.disposable d).stack t).length) :
      Stepped callbacks actions s t a ((s.setDisposable d r).at t cs)
  | disposableGoes (d : Fin m) (cs : List (Call n m)) (r : Disposable.State) (ha : a = .go) (hc : s.calls t = .disposable d :: cs)
      (h : Disposable.step (s.disposable d) (t, .go) = some r) (hl : ¬ (r.stack t).length < ((s.disposable d).stack t).length)
      (hk : ∀ fs, (s.disposable d).stack t ≠ .decide true :: fs) : Stepped callbacks actions s t a (s.setDisposable d r)
  | disposableCalls (d : Fin m) (cs : List (Call n m)) (r : Disposable.State) (fs : List Disposable.Frame) (s' : State n m) (ha : a = .go)
      (hc : s.calls t = .disposable d :: cs) (h : Disposable.step (s.disposable d) (t, .go) = some r)
      (hk : (s.disposable d).stack t = .decide true :: fs) (hi : Invoked t (s.setDisposable d r) (actions d) s') : Stepped callbacks actions s t a s'

theorem stepped {s s' : State n m} {t : Nat} {a : Act n m} (h : step callbacks actions s (t, a) = some s') : Stepped callbacks actions s t a s' := by
  cases a with
  | register i =>
    simp only [step] at h
    split at h
    · rename_i hf
      obtain ⟨r, hr, rfl⟩ := Option.map_eq_some_iff.1 h
      exact .opens i _ r hf (by simp) (by simp) (.inl ⟨rfl, rfl⟩) hr
    · cases h
  | unregister i k =>
    simp only [step] at h
    split at h
    · rename_i hf
      obtain ⟨r, hr, rfl⟩ := Option.map_eq_some_iff.1 h
      exact .opens i _ r hf (by simp) (by simp) (.inr ⟨k, rfl, rfl⟩) hr
    · cases h
  | cancel i =>
    simp only [step] at h
    split at h
    · rename_i hf; exact .invokes _ s' hf (.inl ⟨i, rfl, rfl⟩) (invoked h)
    · cases h
  | dispose d =>
    simp only [step] at h
    split at h
    · rename_i hf; exact .invokes _ s' hf (.inr ⟨d, rfl, rfl⟩) (invoked h)
    · cases h
  | enter d =>
    simp only [step] at h
    split at h
    · rename_i hf
      obtain ⟨r, hr, rfl⟩ := Option.map_eq_some_iff.1 h
      exact .enters d r hf rfl hr
    · cases h
  | go =>
    simp only [step] at h
    split at h
    · cases h
    · rename_i cs hc
      cases h
      exact .over cs rfl hc
    · rename_i i cs hc
      obtain ⟨r, hr, h⟩ := Option.bind_eq_some_iff.1 h
      split at h
      · rename_i hl
        cases h
        exact .sourceOver i cs r rfl hc hr hl
      · rename_i hl
        split at h
        · rename_i k ks fs hk
          exact .sourceCalls i cs r k ks fs s' rfl hc hr hk (invoked h)
        · rename_i hk
          cases h
          exact .sourceGoes i cs r rfl hc hr hl (fun k ks fs e => hk k ks fs e)
    · rename_i d cs hc
      obtain ⟨r, hr, h⟩ := Option.bind_eq_some_iff.1 h
      split at h
      · rename_i hl
        cases h
        exact .disposableOver d cs r rfl hc hr hl
      · rename_i hl
        split at h
        · rename_i fs hk
          exact .disposableCalls d cs r fs s' rfl hc hr hk (invoked h)
        · rename_i hk
          cases h
          exact .disposableGoes d cs r rfl hc hr hl (fun fs e => hk fs e)

/-! ## each object on its own -/

theorem run_one {S C : Type} {f : S → C → Option S} {s s' : S} {c : C} (h : f s c = some s') : run f s [c] = some s' := by simp [run, h]

theorem source_invoked {t : Nat} {s s' : State n m} {cb : Callback n m} (h : Invoked t s cb s') (i : Fin n) :
    s'.source i = s.source i ∨ (cb = .cancel i ∧ Cancellation.Race.step (s.source i) (t, .cancel) = some (s'.source i)) := by
  cases h with
  | user => exact .inl rfl
  | cancel j r hr =>
    by_cases hi : i = j
    · subst hi; exact .inr ⟨rfl, by simpa using hr⟩
    · exact .inl (setSource_other s r hi)
  | dispose d r hr => exact .inl rfl

theorem disposable_invoked {t : Nat} {s s' : State n m} {cb : Callback n m} (h : Invoked t s cb s') (d : Fin m) :
    s'.disposable d = s.disposable d ∨ (cb = .dispose d ∧ Disposable.step (s.disposable d) (t, .dispose) = some (s'.disposable d)) := by
  cases h with
  | user => exact .inl rfl
  | cancel j r hr => exact .inl rfl
  | dispose e r hr =>
    by_cases hi : d = e
    · subst hi; exact .inr ⟨rfl, by simpa using hr⟩
    · exact .inl (setDisposable_other s r hi)

/-- what happens to one source could happen to it alone -/
theorem source_step {s s' : State n m} {c : Nat × Act n m} (h : step callbacks actions s c = some s') (i : Fin n) :
    ∃ cs, run Cancellation.Race.step (s.source i) cs = some (s'.source i) := by
  obtain ⟨t, a⟩ := c
  have hset : ∀ (j : Fin n) ra r, Cancellation.Race.step (s.source j) (t, ra) = some r → ∃ cs, run Cancellation.Race.step (s.source i) cs = some ((s.setSource j r).source i) := by
    intro j ra r hr
    by_cases hi : i = j
    · subst hi; exact ⟨_, by rw [setSource_same]; exact run_one hr⟩
    · exact ⟨[], by rw [setSource_other s r hi]; rfl⟩
  have hinv : ∀ (x : State n m) cb x', (∃ cs, run Cancellation.Race.step (s.source i) cs = some (x.source i)) → Invoked t x cb x' →
      ∃ cs, run Cancellation.Race.step (s.source i) cs = some (x'.source i) := by
    rintro x cb x' ⟨cs, h1⟩ h2
    rcases source_invoked h2 i with h3 | ⟨_, h3⟩
    · exact ⟨cs, by rw [h3]; exact h1⟩
    · exact ⟨cs ++ [(t, .cancel)], by rw [run_append, h1]; exact run_one h3⟩
  cases stepped h with
  | opens j ra r hf hn hnc ha hr => exact hset j ra r hr
  | invokes cb _ hf ha h => exact hinv s cb s' ⟨[], rfl⟩ h
  | enters d r hf ha h => exact ⟨[], rfl⟩
  | over cs ha hc => exact ⟨[], rfl⟩
  | sourceOver j cs r ha hc hr hl => exact hset j _ r hr
  | sourceGoes j cs r ha hc hr hl hk => exact hset j _ r hr
  | sourceCalls j cs r k ks fs _ ha hc hr hk hi => exact hinv _ _ s' (hset j _ r hr) hi
  | disposableOver d cs r ha hc h hl => exact ⟨[], rfl⟩
  | disposableGoes d cs r ha hc h hl hk => exact ⟨[], rfl⟩
  | disposableCalls d cs r fs _ ha hc h hk hi => exact hinv (s.setDisposable d r) _ s' ⟨[], rfl⟩ hi

theorem disposable_step {s s' : State n m} {c : Nat × Act n m} (h : step callbacks actions s c = some s') (d : Fin m) :
    ∃ cs, run Disposable.step (s.disposable d) cs = some (s'.disposable d) := by
  obtain ⟨t, a⟩ := c
  have hset : ∀ (e : Fin m) ra r, Disposable.step (s.disposable e) (t, ra) = some r → ∃ cs, run Disposable.step (s.disposable d) cs = some ((s.setDisposable e r).disposable d) := by
    intro e ra r hr
    by_cases hi : d = e
    · subst hi; exact ⟨_, by rw [setDisposable_same]; exact run_one hr⟩
    · exact ⟨[], by rw [setDisposable_other s r hi]; rfl⟩
  have hinv : ∀ (x : State n m) cb x', (∃ cs, run Disposable.step (s.disposable d) cs = some (x.disposable d)) → Invoked t x cb x' →
      ∃ cs, run Disposable.step (s.disposable d) cs = some (x'.disposable d) := by
    rintro x cb x' ⟨cs, h1⟩ h2
    rcases disposable_invoked h2 d with h3 | ⟨_, h3⟩
    · exact ⟨cs, by rw [h3]; exact h1⟩
    · exact ⟨cs ++ [(t, .dispose)], by rw [run_append, h1]; exact run_one h3⟩
  cases stepped h with
  | opens j ra r hf hn hnc ha h => exact ⟨[], rfl⟩
  | invokes cb _ hf ha h => exact hinv s cb s' ⟨[], rfl⟩ h
  | enters e r hf ha hr => exact hset e _ r hr
  | over cs ha hc => exact ⟨[], rfl⟩
  | sourceOver j cs r ha hc h hl => exact ⟨[], rfl⟩
  | sourceGoes j cs r ha hc h hl hk => exact ⟨[], rfl⟩
  | sourceCalls j cs r k ks fs _ ha hc h hk hi => exact hinv (s.setSource j r) _ s' ⟨[], rfl⟩ hi
  | disposableOver e cs r ha hc hr hl => exact hset e _ r hr
  | disposableGoes e cs r ha hc hr hl hk => exact hset e _ r hr
  | disposableCalls e cs r fs _ ha hc hr hk hi => exact hinv _ _ s' (hset e _ r hr) hi

theorem source_run {sched : List (Nat × Act n m)} {s s' : State n m} (h : run (step callbacks actions) s sched = some s') (i : Fin n) :
    ∃ cs, run Cancellation.Race.step (s.source i) cs = some (s'.source i) := by
  induction sched generalizing s with
  | nil => cases h; exact ⟨[], rfl⟩
  | cons c cs ih =>
    simp only [run] at h
    cases hc : step callbacks actions s c with
    | none => rw [hc] at h; cases h
    | some x =>
      rw [hc] at h
      obtain ⟨c1, h1⟩ := source_step hc i
      obtain ⟨c2, h2⟩ := ih h
      exact ⟨c1 ++ c2, by rw [run_append, h1]; exact h2⟩

theorem disposable_run {sched : List (Nat × Act n m)} {s s' : State n m} (h : run (step callbacks actions) s sched = some s') (d : Fin m) :
    ∃ cs, run Disposable.step (s.disposable d) cs = some (s'.disposable d) := by
  induction sched generalizing s with
  | nil => cases h; exact ⟨[], rfl⟩
  | cons c cs ih =>
    simp only [run] at h
    cases hc : step callbacks actions s c with
    | none => rw [hc] at h; cases h
    | some x =>
      rw [hc] at h
      obtain ⟨c1, h1⟩ := disposable_step hc d
      obtain ⟨c2, h2⟩ := ih h
      exact ⟨c1 ++ c2, by rw [run_append, h1]; exact h2⟩

end Expression.Lemmas.Linked
