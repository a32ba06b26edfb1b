import Verif.Lemmas.Cancellation
import Verif.Lemmas.CancellationMore

/-! # C50, C51: cancellation -/

namespace Expression.Props

/-! ## C50 one thread

`run bodies p Source.init`: the program `p` on a new source; callback `cb` runs `bodies cb`, which may itself register, unregister, cancel, and raise. -/

section one

open Spec Lemmas Expression.Cancellation

/-- Every program ends (also when listeners cancel, register and unregister). -/
theorem C50_ends (bodies : Nat → Prog) (p : Prog) : ∃ e s, run bodies p Source.init = some (e, s) := by
  obtain ⟨e, s, h, _⟩ := run_good bodies p _ (cgood_init bodies)
  exact ⟨e, s, h⟩

/-- If no listener raises a `BaseException`: those called are exactly those in force at the first cancel, in the order of registration, each once; and nobody without a cancel. -/
theorem C50_called (bodies : Nat → Prog) (p : Prog) (e : Option Exc) (s : Source) (h : run bodies p Source.init = some (e, s))
    (hb : ∀ cb, onlyExceptions (bodies cb)) : callsIn s.log = shouldCall s.log ∧ ((callsIn s.log).map (·.1)).Nodup := by
  obtain ⟨e', s', h', hg⟩ := run_good bodies p _ (cgood_init bodies)
  rw [h] at h'; cases h'
  have heq : callsIn s.log = shouldCall s.log := by
    cases hd : s.isDisposed with
    | true => exact hg.exact_ hb hd
    | false =>
      have hn : .cancelled ∉ s.log := fun hm => by rw [hg.inv.flag.2 hm] at hd; cases hd
      rw [hg.before hd]; simp [shouldCall, hn]
  refine ⟨heq, ?_⟩
  rw [heq]
  unfold shouldCall
  split
  · have h1 : (live (beforeCancel s.log)).Sublist (s.log.filterMap registration) :=
      List.filter_sublist.trans ((List.takeWhile_sublist _).filterMap _)
    exact (h1.map (·.1)).nodup hg.inv.once
  · simp

/-- Whatever the listeners raise: nobody else is called, and nobody twice; those called are a prefix. -/
theorem C50_called_at_most (bodies : Nat → Prog) (p : Prog) (e : Option Exc) (s : Source) (h : run bodies p Source.init = some (e, s)) :
    callsIn s.log <+: shouldCall s.log := by
  obtain ⟨e', s', h', hg⟩ := run_good bodies p _ (cgood_init bodies)
  rw [h] at h'; cases h'
  cases hd : s.isDisposed with
  | true => exact hg.after hd
  | false => rw [hg.before hd]; exact List.nil_prefix

/-- At every moment: registering raises exactly when cancelled before, the flag tells exactly whether cancelled before, and nobody is called before. -/
theorem C50_moments (bodies : Nat → Prog) (p : Prog) (e : Option Exc) (s : Source) (h : run bodies p Source.init = some (e, s))
    (before : List Event) (now : Event) (after : List Event) (hl : s.log = before ++ now :: after) : Fits before now := by
  obtain ⟨e', s', h', hg⟩ := run_good bodies p _ (cgood_init bodies)
  rw [h] at h'; cases h'
  exact hg.inv.fits before now after hl

/-- Registrations are told apart: no two get the same number. -/
theorem C50_distinct (bodies : Nat → Prog) (p : Prog) (e : Option Exc) (s : Source) (h : run bodies p Source.init = some (e, s)) :
    ((s.log.filterMap registration).map (·.1)).Nodup := by
  obtain ⟨e', s', h', hg⟩ := run_good bodies p _ (cgood_init bodies)
  rw [h] at h'; cases h'
  exact hg.inv.once

/-- A cancel raises nothing if the listeners raise nothing but `Exception`s. -/
theorem C50_cancel_silent (bodies : Nat → Prog) (hb : ∀ cb, onlyExceptions (bodies cb)) (s : Source) (r : Reply) (s' : Source)
    (h : dispose bodies s = some (r, s')) : r = .done := by
  rw [dispose] at h
  exact callAll_silent bodies hb _ _ rfl r s' h

/-- A `BaseException` such as `KeyboardInterrupt` raised by a listener is not swallowed: cancel raises it. -/
theorem C50_cancel_base (bodies : Nat → Prog) (s : Source) (id cb : Nat) (hs : s.isDisposed = false) (hl : (id, cb) ∈ s.listeners)
    (hb : bodies cb = .raise .base) (r : Reply) (s' : Source) (h : dispose bodies s = some (r, s')) : r = .raised .base := by
  rw [dispose, hs] at h
  exact callAll_base bodies id cb hb _ hl _ r s' h

/-- A token of a source: it can be cancelled; it asks for cancellation, throws and refuses to register exactly when the source was cancelled. -/
theorem C50_token (bodies : Nat → Prog) (p : Prog) (e : Option Exc) (s : Source) (h : run bodies p Source.init = some (e, s)) :
    (Token.ofSource s).canBeCanceled = true ∧ ((Token.ofSource s).isCancellationRequested = true ↔ .cancelled ∈ s.log) ∧
      ((Token.ofSource s).throws = true ↔ .cancelled ∈ s.log) ∧ ((Token.ofSource s).registerRaises = true ↔ .cancelled ∈ s.log) := by
  obtain ⟨e', s', h', hg⟩ := run_good bodies p _ (cgood_init bodies)
  rw [h] at h'; cases h'
  have := hg.inv.flag
  simp [Token.ofSource, Token.canBeCanceled, Token.isCancellationRequested, Token.throws, Token.registerRaises, this]

/-- The token `none()`: it cannot be cancelled and never asks for cancellation; but registering with it raises. -/
theorem C50_token_none : Token.none.canBeCanceled = false ∧ Token.none.isCancellationRequested = false ∧ Token.none.throws = false ∧
    Token.none.registerRaises = true := ⟨rfl, rfl, rfl, rfl⟩

/-- callback 1 unregisters the third listener and raises; callback 2 cancels again -/
def exampleBodies : Nat → Prog
  | 1 => .call (.unregister 2) fun _ => .raise .exception
  | 2 => .call .cancel fun _ => .call (.register 1) fun _ => .ret
  | _ => .ret

theorem exampleBodies_only : ∀ cb, onlyExceptions (exampleBodies cb) := by
  intro cb
  match cb with
  | 0 => exact trivial
  | 1 => exact fun _ => rfl
  | 2 => exact fun _ _ => trivial
  | _ + 3 => exact trivial

/-- four registrations, one is disposed, then a cancel: the third is called although the first disposes it meanwhile -/
def exampleProg : Prog :=
  .call (.register 0) fun _ => .call (.register 1) fun _ => .call (.register 2) fun _ => .call (.register 3) fun _ => .call (.unregister 0) fun _ =>
    .call .cancel fun _ => .call .check fun _ => .ret

example : ∃ s, run exampleBodies exampleProg Source.init = some (none, s) ∧ callsIn s.log = [(1, 1), (2, 2), (3, 3)] ∧
    s.log = [.registered 0 0, .registered 1 1, .registered 2 2, .registered 3 3, .unregistered 0, .cancelled, .called 1 1, .unregistered 2,
      .called 2 2, .cancelled, .refused, .called 3 3, .checked true] := by
  refine ⟨⟨true, [(1, 1), (3, 3)], 4, [2, 0], _⟩, ?_, ?_, rfl⟩
  · simp [exampleProg, exampleBodies, run, dispose, callAll, register, unregister, Source.init]
  · rfl

end one

/-! ## C51 many threads

`run step init sched = some s`: from a new source the schedule `sched` leads to `s`; any number of threads, any interleaving of their atomic actions, and listeners may
themselves register, unregister and cancel. -/

section many

open Threads Lemmas Lemmas.Race Spec.Race Expression.Cancellation.Race

/-- the claim: when a cancel has returned and no call is open, every listener whose registration succeeded and that nobody unregistered has been called -/
def C51_full_statement : Prop :=
  ∀ (sched : List (Nat × Act)) (s : State) (t id : Nat), run step init sched = some s → (∀ t, s.stack t = []) → .cancelEnded t ∈ s.log →
    .registered id ∈ s.log → .unregisterBegan id ∉ s.log → .called id ∈ s.log

/-- Thread 1 registers and passes the test; thread 2 cancels; thread 1 finishes: its listener is never called. -/
theorem C51_full_statement_false : ¬ C51_full_statement := by
  intro h
  have h' := h ([(1, .register), (1, .go), (2, .cancel)] ++ List.replicate 6 (2, .go) ++ List.replicate 5 (1, .go))
    ⟨true, none, [0], 1, [], _, [.registerBegan 1, .cancelBegan 2, .cancelEnded 2, .registered 0]⟩ 2 0 rfl ?_ (by simp) (by simp) (by simp)
  · simp at h'
  · intro t
    simp only [State.at, State.say, upd_apply, init]
    split
    · rfl
    · split <;> first | rfl | (simp_all)

/-- No listener is ever called twice, and they are called in the order of registration. -/
theorem C51_at_most_once_partial (sched : List (Nat × Act)) (s : State) (h : run step init sched = some s) :
    (∀ id, timesCalled id s.log ≤ 1) ∧
      ∀ before between after i j, s.log = before ++ .called i :: between ++ .called j :: after → i < j := by
  obtain ⟨t, _, hp⟩ := (all_run h).order.one
  have hp := (List.pairwise_append.1 hp).1
  refine ⟨fun id => ?_, fun before between after i j hl => ?_⟩
  · have hc : timesCalled id s.log = (calls s.log).count id := by
      unfold timesCalled calls
      induction s.log with
      | nil => rfl
      | cons e l ih =>
        cases e with
        | called i => simp [List.count_cons, ih]
        | _ => simp [ih]
    rw [hc]
    exact List.nodup_iff_count.1 (hp.imp fun h => Nat.ne_of_lt h) id
  · have : calls s.log = calls before ++ i :: (calls between ++ j :: calls after) := by
      rw [hl]; simp [calls]
    rw [this] at hp
    have := (List.pairwise_append.1 hp).2.1
    exact (List.pairwise_cons.1 this).1 j (by simp)

/-- The log tells which cancels are open: of the cancels a thread began, those that have not returned are the ones it is in. -/
theorem C51_open_partial (sched : List (Nat × Act)) (s : State) (h : run step init sched = some s) (t : Nat) :
    s.log.count (.cancelBegan t) = s.log.count (.cancelEnded t) + (s.stack t).countP inCancel :=
  openCancels_run h t

/-- A listener whose registration returned before any cancel began, and that nobody unregisters, has been called exactly once when a cancel has returned and every
cancel that began has returned.
Missing from the claim: registrations that overlap with a cancel. -/
theorem C51_called_partial (sched sched' : List (Nat × Act)) (a b : State) (id t : Nat) (ha : run step init sched = some a) (hr : .registered id ∈ a.log)
    (hc : ∀ t, .cancelBegan t ∉ a.log) (hb : run step a sched' = some b) (he : .cancelEnded t ∈ b.log)
    (hr' : ∀ t, b.log.count (.cancelBegan t) = b.log.count (.cancelEnded t)) (hu : .unregisterBegan id ∉ b.log) : timesCalled id b.log = 1 := by
  have hn : Nobody inCancel b := by
    intro u f hf
    have h1 := C51_open_partial (sched ++ sched') b (by rw [run_append, ha]; exact hb) u
    have h2 : (b.stack u).countP inCancel = 0 := by have := hr' u; omega
    have := List.countP_eq_zero.1 h2 f hf
    simpa using this
  have hA := all_run ha
  have hd : a.isDisposed = false := by
    cases hd : a.isDisposed with
    | false => rfl
    | true => obtain ⟨t, ht⟩ := hA.facts.began hd; exact absurd ht (hc t)
  obtain ⟨hB, hk⟩ := kept_run hA (.inr ⟨hr, .inl hd⟩) hb
  have hcall : .called id ∈ b.log := by
    rcases hk with hk | ⟨_, hk⟩
    · exact absurd hk hu
    rcases hk with hk | ⟨u, hk⟩ | hk | ⟨u, hk⟩
    · rw [hB.facts.ended t he] at hk; cases hk
    · cases hs : b.stack u with
      | nil => rw [hs] at hk; cases hk
      | cons f fs =>
        have := hn u f (by rw [hs]; simp)
        rw [hs] at hk
        cases f <;> first | (cases hk; done) | cases this
    · exact hk
    · exfalso
      obtain ⟨f, hf, hm⟩ := List.mem_flatMap.1 hk
      have := hn u f hf
      cases f <;> first | cases hm; done | cases this
  have h1 : 0 < timesCalled id b.log := List.count_pos_iff.2 hcall
  have h2 := (C51_at_most_once_partial (sched ++ sched') b (by rw [run_append, ha]; exact hb)).1 id
  omega

/-- Only listeners whose registration has returned are called, and only once a cancel began. -/
theorem C51_called_only_partial (sched : List (Nat × Act)) (s : State) (h : run step init sched = some s) (id : Nat) (hc : .called id ∈ s.log) :
    .registered id ∈ s.log ∧ ∃ t, .cancelBegan t ∈ s.log := by
  refine ⟨(called_run h).called id (mem_calls.2 hc), ?_⟩
  have hA := all_run h
  refine hA.facts.began ?_
  cases hd : s.isDisposed with
  | true => rfl
  | false =>
    have := hA.order.quiet1 hd
    have hm := mem_calls.2 hc
    rw [this] at hm; cases hm

/-- A listener whose unregistration is over before any cancel began is never called. -/
theorem C51_unregistered_partial (sched sched' : List (Nat × Act)) (a b : State) (id : Nat) (ha : run step init sched = some a)
    (hu : .unregisterBegan id ∈ a.log) (hn : Nobody inUnregister a) (hc : ∀ t, .cancelBegan t ∉ a.log) (hb : run step a sched' = some b) :
    .called id ∉ b.log := by
  have hK := known_run ha
  have hd : a.isDisposed = false := by
    cases hd : a.isDisposed with
    | false => rfl
    | true => obtain ⟨t, ht⟩ := hK.facts.began hd; exact absurd ht (hc t)
  have off : ∀ f, inUnregister f = true → ¬ On a.stack f := by
    rintro f hf ⟨t, ht⟩
    have := hn t f (List.mem_of_head? ht)
    rw [hf] at this; cases this
  have ho : Out id a := by
    refine ⟨fun hm => ?_, hK.book.regId id (hK.book.unReg id hu), ?_, fun t hm => ?_⟩
    · rcases hK.book.gone1 id hu with h | h
      · rcases hK.book.gone2 id h hm with h | h
        · exact off _ rfl h
        · exact off _ rfl h
      · exact off _ rfl h
    · rw [hK.order.quiet1 hd]; simp
    · rw [hK.order.quiet2 hd] at hm; cases hm
  exact fun h => (out_run hK ho hb).uncalled (mem_calls.2 h)

/-- When a cancel has returned and no `register` is open, no registration succeeds any more. -/
theorem C51_refused_partial (sched sched' : List (Nat × Act)) (a b : State) (t id : Nat) (ha : run step init sched = some a)
    (he : .cancelEnded t ∈ a.log) (hn : Nobody inRegister a) (hb : run step a sched' = some b) (hr : .registered id ∈ b.log) : .registered id ∈ a.log := by
  have hA := all_run ha
  refine (closed_run hA.lock ⟨hA.facts.ended t he, fun u f hf => ?_, fun _ h => h⟩ hb).same id hr
  have := hn u f (List.mem_of_head? hf)
  cases f <;> first | rfl | cases this

/-- No deadlock: as long as a call is open, some open call can go on. -/
theorem C51_no_deadlock_partial (sched : List (Nat × Act)) (s : State) (h : run step init sched = some s) (t : Nat) (ht : s.stack t ≠ []) :
    ∃ u s', step s (u, .go) = some s' := by
  obtain ⟨u, hu⟩ := someone_goes (all_run h).lock ht
  exact ⟨u, Option.isSome_iff_exists.1 hu⟩

/-- two registrations, then a cancel racing with an unregistration and another cancel -/
example : (run step init ([(1, .register)] ++ List.replicate 6 (1, .go) ++ [(1, .register)] ++ List.replicate 6 (1, .go) ++
    [(1, .cancel), (2, .cancel), (1, .go), (1, .go), (1, .go), (1, .go), (3, .unregister 1), (3, .go), (1, .go), (3, .go), (3, .go), (3, .go),
      (1, .go), (2, .go), (2, .go), (2, .go), (2, .go), (1, .go), (1, .go), (1, .go), (1, .go)])).map (·.log) =
    some [.registerBegan 1, .registered 0, .registerBegan 1, .registered 1, .cancelBegan 1, .cancelBegan 2, .unregisterBegan 1, .called 0, .cancelEnded 2,
      .called 1, .cancelEnded 1] := rfl

/-- the hypotheses of `C51_called_partial` (listener 1), `C51_unregistered_partial` (listener 0) and, from the end on, `C51_refused_partial`: two
registrations by thread 1, the first taken back by thread 2, then thread 2 cancels and thread 1 tries to register once more -/
example : ∃ a b, run step init ([(1, .register)] ++ List.replicate 6 (1, .go) ++ [(1, .register)] ++ List.replicate 6 (1, .go) ++ [(2, .unregister 0)] ++
      List.replicate 4 (2, .go)) = some a ∧
    run step a ([(2, .cancel)] ++ List.replicate 8 (2, .go) ++ [(1, .register), (1, .go)]) = some b ∧
    .registered 1 ∈ a.log ∧ .unregisterBegan 0 ∈ a.log ∧ (∀ t, .cancelBegan t ∉ a.log) ∧ Nobody inUnregister a ∧ .cancelEnded 2 ∈ b.log ∧
    (∀ t, b.log.count (.cancelBegan t) = b.log.count (.cancelEnded t)) ∧ .unregisterBegan 1 ∉ b.log ∧ Nobody inRegister b ∧
    b.log = [.registerBegan 1, .registered 0, .registerBegan 1, .registered 1, .unregisterBegan 0, .cancelBegan 2, .called 1, .cancelEnded 2,
      .registerBegan 1, .refused 1] := by
  refine ⟨_, _, rfl, rfl, by decide, by decide, fun t h => ?_, fun t f hf => ?_, by decide, fun t => ?_, by decide, fun t f hf => ?_, rfl⟩
  · simp [State.say, State.at, init] at h
  · rcases t with _ | _ | _ | t <;> simp [State.say, State.at, init, upd] at hf
  · rcases t with _ | _ | _ | t <;> simp [State.say, State.at, init]
  · rcases t with _ | _ | _ | t <;> simp [State.say, State.at, init, upd] at hf

end many

end Expression.Props
