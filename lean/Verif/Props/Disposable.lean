import Verif.Lemmas.Disposable
import Verif.Lemmas.Functions

/-! # C49, C64: disposables

`run step init sched = some s`: starting from a new object, the schedule `sched` (any number of threads, any interleaving, any nesting of calls inside the action)
leads to `s`. -/

namespace Expression.Props

open Threads Spec Lemmas Expression.Disposable

/-- Whatever the threads do, the action is started at most once. -/
theorem C49_at_most_once (sched : List (Nat × Act)) (s : State) (h : run step init sched = some s) : timesRun s.log ≤ 1 := by
  have hi := dinv_run h
  cases hd : s.isDisposed with
  | false => rw [(hi.fresh hd).1]; omega
  | true =>
    rcases hi.once hd with ⟨h1, _⟩ | ⟨h1, _⟩ <;> omega

/-- When some `dispose` was called and all calls are over, it has been started exactly once. -/
theorem C49_exactly_once (sched : List (Nat × Act)) (s : State) (h : run step init sched = some s) (hq : ∀ t, s.stack t = [])
    (hb : ∃ t, .ended t ∈ s.log) : timesRun s.log = 1 := by
  have hi := dinv_run h
  obtain ⟨t, ht⟩ := hb
  rcases hi.once (hi.ended t ht) with ⟨h1, _⟩ | ⟨_, t', h2, _⟩
  · exact h1
  · rw [hq t'] at h2; cases h2

/-- Before any `dispose` the action is not started, and entering succeeds. -/
theorem C49_not_before (sched : List (Nat × Act)) (s : State) (h : run step init sched = some s) (hb : ∀ t, .began t ∉ s.log) :
    timesRun s.log = 0 ∧ (∀ t, .refused t ∉ s.log) ∧ ∀ t, ∃ s', step s (t, .enter) = some s' ∧ s'.log = s.log ++ [.entered t] := by
  have hi := dinv_run h
  have hd : s.isDisposed = false := by
    cases hd : s.isDisposed with
    | false => rfl
    | true => obtain ⟨t, ht⟩ := hi.began' hd; exact absurd ht (hb t)
  have hst : ∀ t, s.stack t = [] := by
    intro t
    cases hs : s.stack t with
    | nil => rfl
    | cons f fs => obtain ⟨t', ht⟩ := hi.began t (by rw [hs]; simp); exact absurd ht (hb t')
  refine ⟨(hi.fresh hd).1, fun t hr => ?_, fun t => ⟨{ s with log := s.log ++ [.entered t] }, by simp [step, hst t, free, hd], rfl⟩⟩
  have := run_inv (step := step) (fun s => ∀ t, .refused t ∈ s.log → s.isDisposed = true) ?_ (fun t h => by cases h) sched h t hr
  · rw [hd] at this; cases this
  · rintro x ⟨u, a⟩ x' hx hc t
    cases a <;> simp only [step] at hc
    · split at hc
      · cases hc; simp; exact hx t
      · cases hc
    · split at hc
      · split at hc
        · rename_i h1; cases hc; simp [h1]
        · cases hc; simp; exact hx t
      · cases hc
    · split at hc
      · cases hc
      · split at hc
        · cases hc; exact hx t
        · cases hc
      · split at hc <;> cases hc <;> exact hx t
      · cases hc; exact fun _ => rfl
      · cases hc; exact hx t
      · split at hc <;> cases hc <;> simp <;> exact hx t
      · cases hc; simp; exact hx t

/-- Once a `dispose` has returned nobody enters any more: from then on entering raises. -/
theorem C49_enter_raises (sched : List (Nat × Act)) (s : State) (h : run step init sched = some s) (t : Nat) (he : .ended t ∈ s.log)
    (sched' : List (Nat × Act)) (s' : State) (h' : run step s sched' = some s') :
    (∃ new, s'.log = s.log ++ new ∧ ∀ u, .entered u ∉ new) ∧
      ∀ u s'', step s' (u, .enter) = some s'' → s''.log = s'.log ++ [.refused u] := by
  have hi := dinv_run h
  have hd := hi.ended t he
  refine ⟨disposed_run sched' hd h', fun u s'' hs => ?_⟩
  have hd' : s'.isDisposed = true := by
    refine run_inv (step := step) (fun s => s.isDisposed = true) (fun x c x' hx hc => ?_) hd sched' h'
    obtain ⟨_, _, h2⟩ := disposed_step x c x' hc
    exact (h2 hx).1
  simp only [step, hd', if_true] at hs
  split at hs
  · cases hs; rfl
  · cases hs

/-- No deadlock: as long as a call is open, some open call can go on. -/
theorem C49_no_deadlock (sched : List (Nat × Act)) (s : State) (h : run step init sched = some s) (t : Nat) (ht : s.stack t ≠ []) :
    ∃ u s', s.stack u ≠ [] ∧ step s (u, .go) = some s' := by
  have hi := dinv_run h
  cases ho : s.owner with
  | some u =>
    have hc := (hi.crit u).2 ho
    refine ⟨u, ?_⟩
    rcases hs : s.stack u with _ | ⟨f, fs⟩
    · rw [hs] at hc; cases hc
    · cases f with
      | lock => rw [hs] at hc; cases hc
      | action => rw [hs] at hc; cases hc
      | decide d => rw [hs] at hc; cases hc
      | test => cases hd : s.isDisposed <;> exact ⟨_, by simp, by simp only [step, hs, hd]; rfl⟩
      | set => exact ⟨_, by simp, by simp only [step, hs]; rfl⟩
      | unlock d => exact ⟨_, by simp, by simp only [step, hs]; rfl⟩
  | none =>
    refine ⟨t, ?_⟩
    rcases hs : s.stack t with _ | ⟨f, fs⟩
    · exact absurd hs ht
    · cases f with
      | lock => exact ⟨_, by simp, by simp only [step, hs, ho]; rfl⟩
      | test => cases hd : s.isDisposed <;> exact ⟨_, by simp, by simp only [step, hs, hd]; rfl⟩
      | set => exact ⟨_, by simp, by simp only [step, hs]; rfl⟩
      | unlock d => exact ⟨_, by simp, by simp only [step, hs]; rfl⟩
      | decide d => cases d <;> exact ⟨_, by simp, by simp only [step, hs]; rfl⟩
      | action => exact ⟨_, by simp, by simp only [step, hs]; rfl⟩

/-- Every call of `dispose` takes at most six moves of its thread: with `C49_no_deadlock`, every call ends if the scheduler keeps going (and the action does). -/
theorem C49_bounded (sched : List (Nat × Act)) (s : State) (h : run step init sched = some s) (t : Nat) : movesBy t sched ≤ 6 * callsBy t sched := by
  have := run_inv_sched (step := step) (fun p s => movesBy t p + ((s.stack t).map Frame.left).sum ≤ 6 * callsBy t p)
    (fun p x c x' => moves_step t p x c x') [] (by simp [movesBy, callsBy, init]) sched h
  simp only [List.nil_append] at this
  omega

/-- The async disposable: at most once, and exactly once from the first call on; entering raises from then on. -/
theorem C49_async (sched : List (Nat × Act)) (s : AsyncDisposable.State) (h : run AsyncDisposable.step AsyncDisposable.init sched = some s) :
    ((∃ t, .began t ∈ s.log) → timesRun s.log = 1) ∧ ((¬ ∃ t, .began t ∈ s.log) → timesRun s.log = 0) ∧
      ∀ t s', AsyncDisposable.step s (t, .enter) = some s' →
        ((∃ u, .began u ∈ s.log) → s'.log = s.log ++ [.refused t]) ∧ ((¬ ∃ u, .began u ∈ s.log) → s'.log = s.log ++ [.entered t]) := by
  have hi := adinv_run h
  cases hd : s.isDisposed with
  | true =>
    have hb := hi.began hd
    refine ⟨fun _ => hi.once hd, fun hn => absurd hb hn, fun t s' hs => ⟨fun _ => ?_, fun hn => absurd hb hn⟩⟩
    simp only [AsyncDisposable.step, hd, if_true] at hs
    cases hs; rfl
  | false =>
    have hb : ¬ ∃ t, .began t ∈ s.log := by
      rintro ⟨t, ht⟩
      rw [hi.began' t ht] at hd; cases hd
    refine ⟨fun hy => absurd hy hb, fun _ => hi.fresh hd, fun t s' hs => ⟨fun hy => absurd hy hb, fun _ => ?_⟩⟩
    simp only [AsyncDisposable.step, hd] at hs
    cases hs; rfl

/-- Calls return: each call of `dispose` ends once, and a thread with no call left to go on with has got back as many as it made. -/
theorem C49_returns (sched : List (Nat × Act)) (s : State) (h : run step init sched = some s) (t : Nat) :
    finished t s.log ≤ begun t s.log ∧ (s.stack t = [] ↔ finished t s.log = begun t s.log) := by
  have := calls_run h t
  rw [← List.length_eq_zero_iff]
  omega

/-- The same for tasks; a task has something to wait for only as long as a call of its own has not returned. -/
theorem C49_async_returns (sched : List (Nat × Act)) (s : AsyncDisposable.State) (h : run AsyncDisposable.step AsyncDisposable.init sched = some s)
    (t : Nat) : finished t s.log ≤ begun t s.log ∧
      (AsyncDisposable.step s (t, .go) = none ↔ finished t s.log = begun t s.log) ∧
      ∀ s', AsyncDisposable.step s (t, .go) = some s' → s'.log = s.log ++ [.ended t] := by
  have := acalls_run h t
  refine ⟨by omega, ?_, ?_⟩
  · simp only [AsyncDisposable.step]
    split
    · simp only [true_iff]; omega
    · simp only [reduceCtorEq, false_iff]; omega
  · intro s' hs
    simp only [AsyncDisposable.step] at hs
    split at hs <;> cases hs
    rfl

/-- two threads dispose and interleave; a third one enters before, a fourth one after -/
example : ((run step init [(3, .enter), (1, .dispose), (2, .dispose), (2, .go), (2, .go), (2, .go), (2, .go), (1, .go), (1, .go), (1, .go), (1, .go), (4, .enter),
    (2, .go), (2, .go)]).map (·.log)) =
      some [.entered 3, .began 1, .began 2, .ended 1, .refused 4, .ran 2, .ended 2] := rfl

/-- the action disposes again: nothing happens -/
example : ((run step init [(1, .dispose), (1, .go), (1, .go), (1, .go), (1, .go), (1, .go), (1, .dispose), (1, .go), (1, .go), (1, .go), (1, .go), (1, .go)]).map (·.log)) =
      some [.began 1, .ran 1, .began 1, .ended 1, .ended 1] := rfl

/-! ## C64 composites -/

open AsyncDisposable (composite)

variable {σ : Type}

/-- a part that records that it is disposed -/
def part (n : Nat) (p : PyD σ Unit) : PyD (σ × List Nat) Unit := logged n (fun (_ : Unit) => p) ()

/-- the claim: every part is disposed, also when one raises -/
def C64_full_statement : Prop :=
  ∀ (σ : Type) (ps : List (Nat × PyD σ Unit)) (w : σ) (r : Except PyErr Unit) (w' : σ) (log : List Nat),
    (composite (ps.map fun p => part p.1 p.2)).exec (w, []) = some (r, (w', log)) → log = ps.map (·.1)

theorem C64_full_statement_false : ¬ C64_full_statement := by
  intro h
  have := h Unit [(1, PyD.raise (.user 0)), (2, pure ())] () (.error (.user 0)) () [1] rfl
  cases this

theorem part_exec (n : Nat) (p : PyD σ Unit) (w : σ) (log : List Nat) :
    (part n p).exec (w, log) = (p.exec w).map fun r => (r.1, (r.2, log ++ [n])) := by
  exact logged_exec n (fun (_ : Unit) => p) () w log

/-- When it returns, every part has been disposed exactly once, in order. -/
theorem C64_in_order_partial (ps : List (Nat × PyD σ Unit)) (w w' : σ) (log : List Nat) (h : (composite (ps.map (·.2))).exec w = some (.ok (), w')) :
    (composite (ps.map fun p => part p.1 p.2)).exec (w, log) = some (.ok (), (w', log ++ ps.map (·.1))) := by
  induction ps generalizing w log with
  | nil => cases h; simp only [List.map_nil, List.append_nil]; rfl
  | cons p ps ih =>
    simp only [List.map_cons, composite] at h ⊢
    rw [PyD.exec_bind] at h ⊢
    rcases hf : p.2.exec w with _ | ⟨e | v, w1⟩ <;> rw [hf] at h
    · cases h
    · cases h
    · have hl : (part p.1 p.2).exec (w, log) = some (.ok v, (w1, log ++ [p.1])) := by rw [part_exec, hf]; rfl
      rw [hl]
      have := ih w1 (log ++ [p.1]) h
      simpa using this

/-- When a part raises, the exception propagates; the parts before it have been disposed, and those after it have not.  This is what the claim leaves out. -/
theorem C64_exception_partial (ps qs : List (Nat × PyD σ Unit)) (p : Nat × PyD σ Unit) (w w1 w' : σ) (e : PyErr) (log : List Nat)
    (h : (composite (ps.map (·.2))).exec w = some (.ok (), w1)) (hp : p.2.exec w1 = some (.error e, w')) :
    (composite ((ps ++ p :: qs).map fun p => part p.1 p.2)).exec (w, log) = some (.error e, (w', log ++ ps.map (·.1) ++ [p.1])) := by
  induction ps generalizing w log with
  | nil =>
    obtain rfl : w = w1 := by cases h; rfl
    have hl : (part p.1 p.2).exec (w, log) = some (.error e, (w', log ++ [p.1])) := by rw [part_exec, hp]; rfl
    simp only [List.nil_append, List.map_cons, composite]
    rw [PyD.exec_bind, hl]; simp
  | cons q ps ih =>
    simp only [List.map_cons, composite] at h
    simp only [List.cons_append, List.map_cons, composite]
    rw [PyD.exec_bind] at h ⊢
    rcases hf : q.2.exec w with _ | ⟨e | v, w2⟩ <;> rw [hf] at h
    · cases h
    · cases h
    · have hl : (part q.1 q.2).exec (w, log) = some (.ok v, (w2, log ++ [q.1])) := by rw [part_exec, hf]; rfl
      rw [hl]
      have := ih w2 (log ++ [q.1]) h
      simpa using this

example : (composite ([(1, pure ()), (2, PyD.raise (.user 7)), (3, pure ())].map fun p => part (σ := Unit) p.1 p.2)).exec ((), []) =
    some (.error (.user 7), ((), [1, 2])) := rfl

end Expression.Props
