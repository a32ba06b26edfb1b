import Verif.Lemmas.Agent

/-! # Replies of an agent, its end, and a measure -/

namespace Expression.Lemmas.Agent

open Threads Lemmas.Mailbox Spec.Mailbox

/-! ## the reply channel, when only the event loop uses it -/

section channel

open Expression.Ask

/-- the asker waits and has got `o` so far, no call is open -/
structure Ready (o : Option Nat) (c : Ask.State) : Prop where
  asked : c.asked = true
  cont : c.continuation = true
  idle : c.pc 0 = .idle
  future : c.future = o.map some
  got : Spec.Ask.outcomes c.log = (o.map some).toList

open Expression.Agent in
theorem ready_wait : Ready none (channelCall Ask.init .wait) := by
  constructor <;> rfl

theorem say_log (s : State) (e : Event) : (s.say e).log = s.log ++ [e] := rfl

open Expression.Agent in
theorem ready_reply {o : Option Nat} {c : Ask.State} (h : Ready o c) (r : Option Nat) : Ready (o.or r) (channelCall c (.reply r)) := by
  obtain ⟨asked, cont, idle, future, got⟩ := h
  cases r with
  | none =>
    simp only [channelCall, settle, Ask.step, idle, Ask.State.at, Ask.State.say, upd_same, if_true]
    refine ⟨asked, cont, by simp, by simpa using future, ?_⟩
    simpa [Lemmas.Ask.outcomes_append, Spec.Ask.outcomes] using got
  | some v =>
    cases o with
    | none =>
      have hf : c.future = none := future
      have hg : Spec.Ask.outcomes c.log = [] := got
      simp only [channelCall, settle, Ask.step, idle, Ask.State.at, Ask.State.say, upd_same, if_true, if_false, cont, hf, reduceCtorEq]
      refine ⟨asked, rfl, by simp, rfl, ?_⟩
      simp [Lemmas.Ask.outcomes_append, Spec.Ask.outcomes, hg]
    | some w =>
      have hf : c.future = some (some w) := future
      simp only [channelCall, settle, Ask.step, idle, Ask.State.at, Ask.State.say, upd_same, if_true, if_false, cont, hf, reduceCtorEq]
      refine ⟨asked, rfl, by simp, rfl, ?_⟩
      simpa [Lemmas.Ask.outcomes_append, Spec.Ask.outcomes] using got

open Expression.Agent in
theorem ready_replies (rs : List (Option Nat)) {o : Option Nat} {c : Ask.State} (h : Ready o c) :
    Ready (o.or (rs.find? (·.isSome)).join) (rs.foldl (fun c r => channelCall c (.reply r)) c) := by
  induction rs generalizing o c with
  | nil => simpa using h
  | cons r rs ih =>
    have := ih (ready_reply h r)
    rw [List.foldl_cons]
    cases r <;> cases o <;> simpa using this

theorem answers_of_ready {rs : List (Option Nat)} {c : Ask.State} (h : Ready (rs.find? (·.isSome)).join c) :
    Spec.Ask.outcomes c.log = (rs.find? (·.isSome)).toList := by
  rw [h.got]
  cases hf : rs.find? (·.isSome) with
  | none => rfl
  | some r =>
    have := List.find?_some hf
    cases r with
    | none => cases this
    | some v => rfl

end channel

open Expression.Agent Spec.Agent

variable {S M : Type}

/-- what the reply channels hold -/
structure Chans (b : Body S M) (s : State S M) : Prop where
  unknown : ∀ k, s.sent.length ≤ k → s.chan k = Ask.init
  posted : ∀ k x, s.sent[k]? = some (x, false) → s.chan k = Ask.init
  open' : ∀ k x, s.sent[k]? = some (x, true) → s.handled.length ≤ k → Ready none (s.chan k)
  done : ∀ k x, s.sent[k]? = some (x, true) → k < s.handled.length → Ready (((b.reply (after b ((messages s).take k)) x).find? (·.isSome)).join) (s.chan k)

theorem chans_init (b : Body S M) : Chans b (init b) := by
  constructor <;> simp [init]

/-- steps that send nothing and handle nothing -/
theorem chans_same {b : Body S M} {s s' : State S M} (h : Chans b s) (h1 : s'.sent = s.sent) (h2 : s'.handled = s.handled) (h3 : s'.chan = s.chan) : Chans b s' := by
  obtain ⟨a1, a2, a3, a4⟩ := h
  refine ⟨by rw [h1, h3]; exact a1, by rw [h1, h3]; exact a2, by rw [h1, h2, h3]; exact a3, ?_⟩
  simp only [messages] at a4 ⊢
  rw [h1, h2, h3]
  exact a4

theorem chans_send {b : Body S M} {s : State S M} (mb : Mailbox.State) (x : M) (r : Bool) (c : Ask.State) (h : Chans b s) (hb : s.handled.length ≤ s.sent.length)
    (hc : c = if r then channelCall Ask.init .wait else Ask.init) : Chans b { s with mb := mb, sent := s.sent ++ [(x, r)], chan := upd s.chan s.sent.length c } := by
  obtain ⟨a1, a2, a3, a4⟩ := h
  have hget : ∀ k y, (s.sent ++ [(x, r)])[k]? = some y → (s.sent[k]? = some y ∧ k ≠ s.sent.length ∧ k < s.sent.length) ∨ (k = s.sent.length ∧ y = (x, r)) := by
    intro k y hk
    rw [List.getElem?_append] at hk
    split at hk
    · rename_i hlt; exact .inl ⟨hk, by omega, hlt⟩
    · rw [List.getElem?_singleton] at hk
      split at hk
      · cases hk; exact .inr ⟨by omega, rfl⟩
      · cases hk
  constructor
  · intro k hk
    simp only [List.length_append, List.length_singleton] at hk
    simp only [upd_other s.chan c (show k ≠ s.sent.length by omega)]
    exact a1 k (by omega)
  · intro k y hk
    rcases hget k _ hk with ⟨h1, h2, _⟩ | ⟨rfl, h2⟩
    · simp only [upd_other s.chan c h2]; exact a2 k y h1
    · cases h2; simp [hc]
  · intro k y hk hle
    rcases hget k _ hk with ⟨h1, h2, _⟩ | ⟨rfl, h2⟩
    · simp only [upd_other s.chan c h2]; exact a3 k y h1 hle
    · cases h2; simp only [upd_same, hc]; exact ready_wait
  · intro k y hk hle
    rcases hget k _ hk with ⟨h1, h2, h3⟩ | ⟨rfl, h2⟩
    · simp only [upd_other s.chan c h2, messages, List.map_append]
      rw [List.take_append_of_le_length (by simp; omega)]
      exact a4 k y h1 hle
    · simp only at hle; omega

theorem chans_handle {b : Body S M} {s : State S M} {m : Nat} (hi : Inv b s) (h : Chans b s) (hm : m = s.handled.length) (hlt : m < s.sent.length) :
    Chans b (handle b s m) := by
  obtain ⟨⟨x, r⟩, hx⟩ : ∃ x, s.sent[m]? = some x := ⟨s.sent[m], List.getElem?_eq_getElem hlt⟩
  obtain ⟨a1, a2, a3, a4⟩ := h
  simp only [handle, hx]
  have hother : ∀ k, k ≠ m → (if r = true then upd s.chan m ((b.reply s.st x).foldl (fun c r => channelCall c (.reply r)) (s.chan m)) else s.chan) k = s.chan k := by
    intro k hk; split
    · exact upd_other _ _ hk
    · rfl
  constructor
  · intro k hk
    exact (hother k (by simp only at hk; omega)).trans (a1 k hk)
  · intro k y hk
    by_cases he : k = m
    · subst he
      simp only at hk
      rw [hx] at hk; cases hk
      exact a2 _ _ hx
    · exact (hother k he).trans (a2 k y hk)
  · intro k y hk hle
    simp only [List.length_append, List.length_singleton] at hle
    show Ready none ((if r = true then _ else s.chan) k)
    rw [hother k (by omega)]
    exact a3 k y hk (by omega)
  · intro k y hk hle
    simp only [List.length_append, List.length_singleton] at hle
    by_cases he : k = m
    · subst he
      simp only at hk
      rw [hx] at hk; cases hk
      have := ready_replies (b.reply s.st x) (a3 k x hx (by omega))
      simp only [if_true, upd_same]
      rw [hi.state, ← hm] at this ⊢
      simpa [messages] using this
    · show Ready _ ((if r = true then _ else s.chan) k)
      rw [hother k he]
      exact a4 k y hk (by omega)

theorem upd_self {A : Type} (f : Nat → A) (k : Nat) : upd f k (f k) = f := by
  funext n
  rw [upd_apply]
  split
  · rename_i h; rw [h]
  · rfl

theorem chans_step (b : Body S M) (s : State S M) (c : Nat × Act M) (s' : State S M) (hi : Inv b s) (h : Chans b s) (hc : step b s c = some s') : Chans b s' := by
  obtain ⟨t, a⟩ := c
  cases a with
  | post x =>
    obtain ⟨mb, hm, rfl⟩ := Option.map_eq_some_iff.1 hc
    have := chans_send mb x false Ask.init h hi.bound rfl
    rwa [show upd s.chan s.sent.length Ask.init = s.chan by rw [← h.unknown _ (Nat.le_refl _)]; exact upd_self _ _] at this
  | ask x =>
    simp only [step] at hc
    split at hc
    · obtain ⟨mb, hm, rfl⟩ := Option.map_eq_some_iff.1 hc
      exact chans_send mb x true _ h hi.bound rfl
    · cases hc
  | go =>
    obtain ⟨mb, hm, rfl⟩ := Option.map_eq_some_iff.1 hc
    exact chans_same h rfl rfl rfl
  | callback =>
    obtain ⟨mb, hm, rfl⟩ := Option.map_eq_some_iff.1 hc
    exact chans_same h rfl rfl rfl
  | resume =>
    have hrec : ∀ s', receive s = some s' → Chans b s' := by
      intro s' hc
      obtain ⟨mb, hm, rfl⟩ := Option.map_eq_some_iff.1 hc
      exact chans_same h rfl rfl rfl
    simp only [step] at hc
    split at hc
    · split at hc
      · split at hc
        · cases hc; exact chans_same h rfl rfl rfl
        · exact hrec _ hc
      · split at hc
        · cases hc; exact chans_same h rfl rfl rfl
        · exact hrec _ hc
      · rename_i n ht
        split at hc
        · cases hc
        · rename_i m hf
          split at hc
          · cases hc; exact chans_same h rfl rfl rfl
          · rename_i hd
            cases hc
            obtain ⟨h1, h2⟩ := next_message hi (by simpa using hd) ht hf
            exact chans_handle hi h h1 h2
        · cases hc; exact chans_same h rfl rfl rfl
        · cases hc; exact chans_same h rfl rfl rfl
      · cases hc
    · cases hc
  | cancel =>
    simp only [step] at hc
    split at hc
    · split at hc <;> cases hc <;> exact chans_same h rfl rfl rfl
    · cases hc

theorem chans_run {b : Body S M} {sched : List (Nat × Act M)} {s : State S M} (h : run (step b) (init b) sched = some s) : Inv b s ∧ Chans b s :=
  run_inv (fun s => Inv b s ∧ Chans b s) (fun s c s' hi hc => ⟨inv_step b s c s' hi.1 hc, chans_step b s c s' hi.1 hi.2 hc⟩) ⟨inv_init b, chans_init b⟩ sched h

/-! ## cancelling -/

open Expression.Mailbox in
/-- only a receive makes a future that waits -/
theorem pending_go {s s' : Mailbox.State} {t : Nat} (hc : Mailbox.step s (t, .go) = some s') (k : Nat) (hk : s'.fut k = .pending) :
    s.fut k = .pending ∨ s.pc t = .rCheck := by
  simp only [Mailbox.step] at hc
  split at hc
  · cases hc
  all_goals try (split at hc)
  all_goals try (cases hc; done)
  all_goals cases hc
  all_goals simp only [State.at, State.say, upd_apply] at hk
  all_goals try (split at hk)
  all_goals first
    | exact .inl hk
    | exact .inr ‹_›
    | cases hk

open Expression.Mailbox in
theorem next_go {s s' : Mailbox.State} {t : Nat} (hc : Mailbox.step s (t, .go) = some s') : s.next ≤ s'.next := by
  simp only [Mailbox.step] at hc
  split at hc
  · cases hc
  all_goals try (split at hc)
  all_goals try (cases hc; done)
  all_goals cases hc
  all_goals simp [State.at, State.say]

/-- holds once the source is cancelled: nothing makes the body wait any more -/
structure Dead (s : State S M) : Prop where
  ok : s.task ≠ .raised
  pend : s.cancelReq = true → ∀ k, s.mb.fut k ≠ .pending
  wait : s.cancelReq = true → ∀ n, s.task = .waiting n → n < s.mb.next
  ended : s.task = .cancelled → s.cancelReq = true

theorem dead_init (b : Body S M) : Dead (init b) := by
  constructor <;> simp [init]

theorem dead_mb {s : State S M} (mb : Mailbox.State) (sent : List (M × Bool)) (chan : Nat → Ask.State) (h : Dead s)
    (h1 : s.cancelReq = true → ∀ k, mb.fut k = .pending → s.mb.fut k = .pending) (h2 : s.mb.next ≤ mb.next) :
    Dead { s with mb := mb, sent := sent, chan := chan } :=
  ⟨h.ok, fun hd k hk => h.pend hd k (h1 hd k hk), fun hd n hn => Nat.lt_of_lt_of_le (h.wait hd n hn) h2, h.ended⟩

theorem dead_step (b : Body S M) (s : State S M) (c : Nat × Act M) (s' : State S M) (hi : Inv b s) (h : Dead s) (hc : step b s c = some s') : Dead s' := by
  obtain ⟨t, a⟩ := c
  have call : ∀ (a : Mailbox.Act) (u : Nat) (mb : Mailbox.State), Mailbox.step s.mb (u, a) = some mb → ((∃ m, a = .post m) ∨ (∃ m, a = .ask m) ∨ a = .callback) →
      mb.fut = s.mb.fut ∧ mb.next = s.mb.next := by
    intro a u mb hm ha
    rcases ha with ⟨m, rfl⟩ | ⟨m, rfl⟩ | rfl
    all_goals
      simp only [Mailbox.step] at hm
      split at hm <;> cases hm
      exact ⟨rfl, rfl⟩
  cases a with
  | post x =>
    obtain ⟨mb, hm, rfl⟩ := Option.map_eq_some_iff.1 hc
    obtain ⟨e1, e2⟩ := call _ _ _ hm (.inl ⟨_, rfl⟩)
    exact dead_mb mb _ _ h (fun _ k hk => by rwa [e1] at hk) (by rw [e2]; exact Nat.le_refl _)
  | ask x =>
    simp only [step] at hc
    split at hc
    · obtain ⟨mb, hm, rfl⟩ := Option.map_eq_some_iff.1 hc
      obtain ⟨e1, e2⟩ := call _ _ _ hm (.inr (.inl ⟨_, rfl⟩))
      exact dead_mb mb _ _ h (fun _ k hk => by rwa [e1] at hk) (by rw [e2]; exact Nat.le_refl _)
    · cases hc
  | go =>
    obtain ⟨mb, hm, rfl⟩ := Option.map_eq_some_iff.1 hc
    refine dead_mb mb _ _ h (fun hd k hk => ?_) (next_go hm)
    rcases pending_go hm k hk with h1 | h1
    · exact h1
    · exfalso
      by_cases ht : t = 0
      · subst ht; exact hi.dead hd h1
      · rcases hi.all.loop.others t ht with h2 | h2 <;> rw [h1] at h2 <;> cases h2
  | callback =>
    obtain ⟨mb, hm, rfl⟩ := Option.map_eq_some_iff.1 hc
    obtain ⟨e1, e2⟩ := call _ _ _ hm (.inr (.inr rfl))
    exact dead_mb mb _ _ h (fun _ k hk => by rwa [e1] at hk) (by rw [e2]; exact Nat.le_refl _)
  | resume =>
    have hrec : ∀ s', s.cancelReq ≠ true → receive s = some s' → Dead s' := by
      intro s' hd hc
      obtain ⟨mb, hm, rfl⟩ := Option.map_eq_some_iff.1 hc
      exact ⟨by simp, fun h' => absurd h' hd, fun h' => absurd h' hd, by simp⟩
    have hend : s.cancelReq = true → Dead { s with task := .cancelled } := fun hd => ⟨by simp, h.pend, by simp, fun _ => hd⟩
    simp only [step] at hc
    split at hc
    · rename_i hidle
      split at hc
      · split at hc
        · rename_i hd; cases hc; exact hend hd
        · rename_i hd; exact hrec _ hd hc
      · split at hc
        · rename_i hd; cases hc; exact hend hd
        · rename_i hd; exact hrec _ hd hc
      · rename_i n ht
        have hused : s.mb.fut n ≠ .unused := by
          refine hi.futs.used n ?_
          cases hd : s.cancelReq with
          | true => exact h.wait hd n ht
          | false =>
            rcases (hi.live hd).wait n ht with ⟨h3, _⟩ | h3
            · rw [hidle.2] at h3; cases h3
            · exact h3
        split at hc
        · cases hc
        · rename_i m hf
          split at hc
          · rename_i hd; cases hc; exact hend hd
          · rename_i hd
            cases hc
            obtain ⟨_, hlt⟩ := next_message hi (by simpa using hd) ht hf
            simp only [handle, List.getElem?_eq_getElem hlt]
            exact ⟨by simp, fun h' => absurd h' hd, fun h' => absurd h' hd, by simp⟩
        · rename_i hf; exact absurd hf hused
        · rename_i h1 h2 h3
          cases hc
          refine hend ?_
          cases hd : s.cancelReq with
          | true => rfl
          | false =>
            exfalso
            have hl := hi.live hd
            have := hl.noGive n
            have := hl.noCanc n
            cases hf : s.mb.fut n <;> simp_all
      · cases hc
    · cases hc
  | cancel =>
    simp only [step] at hc
    split at hc
    · rename_i hidle
      split at hc
      · rename_i n ht
        cases hc
        have hwait : n < s.mb.next := by
          cases hd : s.cancelReq with
          | true => exact h.wait hd n ht
          | false =>
            rcases (hi.live hd).wait n ht with ⟨h3, _⟩ | h3
            · rw [hidle.2] at h3; cases h3
            · exact h3
        have hother : ∀ k, k ≠ n → s.mb.fut k ≠ .pending := by
          intro k hk hp
          cases hd : s.cancelReq with
          | true => exact h.pend hd k hp
          | false =>
            have := (hi.live hd).pend k hp
            rw [ht] at this; cases this
            exact hk rfl
        by_cases hp : s.mb.fut n = .pending
        · simp only [Mailbox.step, hp, hidle.2, and_self, if_true, Option.getD_some]
          refine ⟨by simp [ht], fun _ k hk => ?_, fun _ k hk => ?_, by simp⟩
          · by_cases he : k = n
            · subst he; simp [Mailbox.State.say] at hk
            · refine hother k he ?_
              simpa [Mailbox.State.say, upd_other _ _ he] using hk
          · rw [show s.task = .waiting n from ht] at hk; cases hk
            exact hwait
        · simp only [Mailbox.step, hp, and_false, if_false, Option.getD_none]
          refine ⟨by simp [ht], fun _ k hk => ?_, fun _ k hk => ?_, by simp⟩
          · by_cases he : k = n
            · subst he; exact hp hk
            · exact hother k he hk
          · rw [show s.task = .waiting n from ht] at hk; cases hk
            exact hwait
      · rename_i hn
        cases hc
        refine ⟨h.ok, fun _ k hk => ?_, fun _ n hk => absurd hk (hn n), fun _ => rfl⟩
        cases hd : s.cancelReq with
        | true => exact h.pend hd k hk
        | false => exact hn k ((hi.live hd).pend k hk)
    · cases hc

theorem dead_run {b : Body S M} {sched : List (Nat × Act M)} {s : State S M} (h : run (step b) (init b) sched = some s) : Inv b s ∧ Dead s :=
  run_inv (fun s => Inv b s ∧ Dead s) (fun s c s' hi hc => ⟨inv_step b s c s' hi.1 hc, dead_step b s c s' hi.1 hi.2 hc⟩) ⟨inv_init b, dead_init b⟩ sched h

/-- once cancelled, the source stays so -/
theorem cancelled_step (b : Body S M) (s : State S M) (c : Nat × Act M) (s' : State S M) (h : s.cancelReq = true) (hc : step b s c = some s') :
    s'.cancelReq = true ∧ s'.handled = s.handled ∧ s'.st = s.st := by
  obtain ⟨t, a⟩ := c
  cases a with
  | post x =>
    obtain ⟨mb, hm, rfl⟩ := Option.map_eq_some_iff.1 hc
    exact ⟨h, rfl, rfl⟩
  | ask x =>
    simp only [step] at hc
    split at hc
    · obtain ⟨mb, hm, rfl⟩ := Option.map_eq_some_iff.1 hc
      exact ⟨h, rfl, rfl⟩
    · cases hc
  | go =>
    obtain ⟨mb, hm, rfl⟩ := Option.map_eq_some_iff.1 hc
    exact ⟨h, rfl, rfl⟩
  | callback =>
    obtain ⟨mb, hm, rfl⟩ := Option.map_eq_some_iff.1 hc
    exact ⟨h, rfl, rfl⟩
  | resume =>
    simp only [step, h, if_true] at hc
    split at hc
    · split at hc
      · cases hc; exact ⟨rfl, rfl, rfl⟩
      · cases hc; exact ⟨rfl, rfl, rfl⟩
      · split at hc <;> cases hc <;> exact ⟨rfl, rfl, rfl⟩
      · cases hc
    · cases hc
  | cancel =>
    simp only [step] at hc
    split at hc
    · split at hc <;> cases hc <;> exact ⟨rfl, rfl, rfl⟩
    · cases hc

/-- and nobody gets another answer -/
theorem answers_step (b : Body S M) (s : State S M) (c : Nat × Act M) (s' : State S M) (hu : ∀ k, s.sent.length ≤ k → s.chan k = Ask.init) (h : s.cancelReq = true)
    (hc : step b s c = some s') (k : Nat) : answers s' k = answers s k := by
  obtain ⟨t, a⟩ := c
  cases a with
  | post x =>
    obtain ⟨mb, hm, rfl⟩ := Option.map_eq_some_iff.1 hc
    rfl
  | ask x =>
    simp only [step] at hc
    split at hc
    · obtain ⟨mb, hm, rfl⟩ := Option.map_eq_some_iff.1 hc
      by_cases hk : k = s.sent.length
      · subst hk
        simp only [answers, upd_same, hu _ (Nat.le_refl _)]
        rfl
      · simp only [answers, upd_other _ _ hk]
    · cases hc
  | go =>
    obtain ⟨mb, hm, rfl⟩ := Option.map_eq_some_iff.1 hc
    rfl
  | callback =>
    obtain ⟨mb, hm, rfl⟩ := Option.map_eq_some_iff.1 hc
    rfl
  | resume =>
    simp only [step, h, if_true] at hc
    split at hc
    · split at hc
      · cases hc; rfl
      · cases hc; rfl
      · split at hc <;> cases hc <;> rfl
      · cases hc
    · cases hc
  | cancel =>
    simp only [step] at hc
    split at hc
    · split at hc <;> cases hc <;> rfl
    · cases hc

/-- without `cancel` it never happens -/
theorem uncancelled_step (b : Body S M) (s : State S M) (c : Nat × Act M) (s' : State S M) (hP : ∀ t, c ≠ (t, .cancel)) (h : s.cancelReq = false) (hc : step b s c = some s') :
    s'.cancelReq = false := by
  obtain ⟨t, a⟩ := c
  cases a with
  | post x =>
    obtain ⟨mb, hm, rfl⟩ := Option.map_eq_some_iff.1 hc
    exact h
  | ask x =>
    simp only [step] at hc
    split at hc
    · obtain ⟨mb, hm, rfl⟩ := Option.map_eq_some_iff.1 hc
      exact h
    · cases hc
  | go =>
    obtain ⟨mb, hm, rfl⟩ := Option.map_eq_some_iff.1 hc
    exact h
  | callback =>
    obtain ⟨mb, hm, rfl⟩ := Option.map_eq_some_iff.1 hc
    exact h
  | resume =>
    have hrec : ∀ s', receive s = some s' → s'.cancelReq = false := by
      intro s' hc
      obtain ⟨mb, hm, rfl⟩ := Option.map_eq_some_iff.1 hc
      exact h
    simp only [step, h] at hc
    split at hc
    · split at hc
      · exact hrec _ hc
      · exact hrec _ hc
      · split at hc
        · cases hc
        · cases hc
          simp only [handle]
          split <;> exact h
        · cases hc; rfl
        · cases hc; rfl
      · cases hc
    · cases hc
  | cancel => exact absurd rfl (hP t)

/-! ## nothing is stuck -/

/-- when nothing goes on any more, no call is open and no callback is scheduled -/
theorem stuck_quiescent {b : Body S M} {s : State S M} (hi : Inv b s) (h : Stuck b s) : Quiescent s.mb := by
  have hgo : ∀ t, s.mb.pc t = .idle := by
    intro t
    refine Classical.byContradiction fun hne => ?_
    obtain ⟨u, _, hu⟩ := someone_goes hi.all.acc hne
    have := h (u, .go) rfl
    simp only [step, Option.map_eq_none_iff] at this
    rw [this] at hu; cases hu
  refine ⟨hgo, Classical.byContradiction fun hne => ?_⟩
  have := h (0, .callback) rfl
  simp [step, Mailbox.step, hgo 0, Nat.pos_of_ne_zero hne] at this

/-- and the body waits, or has ended -/
theorem stuck_task {b : Body S M} {s : State S M} (hi : Inv b s) (hd : Dead s) (h : Stuck b s) :
    (s.cancelReq = false ∧ ∃ n, s.task = .waiting n ∧ s.mb.fut n = .pending) ∨ (s.cancelReq = true ∧ s.task = .cancelled) := by
  have hq := stuck_quiescent hi h
  have hr := h (0, .resume) rfl
  have hrec : receive s ≠ none := by simp [receive, Mailbox.step, hq.1 0]
  simp only [step, hq.1 0, and_self, if_true] at hr
  split at hr
  · split at hr
    · cases hr
    · exact absurd hr hrec
  · split at hr
    · cases hr
    · exact absurd hr hrec
  · rename_i n ht
    split at hr
    · rename_i hf
      left
      refine ⟨?_, n, ht, hf⟩
      cases hc : s.cancelReq with
      | false => rfl
      | true => exact absurd hf (hd.pend hc n)
    · split at hr <;> cases hr
    · cases hr
    · cases hr
  · rename_i h1 h2 h3
    right
    cases ht : s.task with
    | created => exact absurd ht h1
    | busy => exact absurd ht h2
    | waiting n => exact absurd ht (h3 n)
    | cancelled => exact ⟨hd.ended ht, rfl⟩
    | raised => exact absurd ht hd.ok

/-- a thread that does nothing is in no call -/
theorem idle_step (b : Body S M) (s : State S M) (c : Nat × Act M) (s' : State S M) (t : Nat) (ht : c.1 ≠ t) (h : s.mb.pc t = .idle) (hc : step b s c = some s') :
    s'.mb.pc t = .idle := by
  obtain ⟨u, a⟩ := c
  have call : ∀ (v : Nat) (a : Mailbox.Act) (mb : Mailbox.State), v ≠ t → Mailbox.step s.mb (v, a) = some mb → mb.pc t = .idle :=
    fun v a mb hv hm => ((left_step t _ _ _ hm).2.2.1 hv).trans h
  cases a with
  | post x =>
    obtain ⟨mb, hm, rfl⟩ := Option.map_eq_some_iff.1 hc
    exact call _ _ _ ht hm
  | ask x =>
    simp only [step] at hc
    split at hc
    · rename_i h0
      obtain ⟨mb, hm, rfl⟩ := Option.map_eq_some_iff.1 hc
      exact call _ _ _ (by rw [← h0]; exact ht) hm
    · cases hc
  | go =>
    obtain ⟨mb, hm, rfl⟩ := Option.map_eq_some_iff.1 hc
    exact call _ _ _ ht hm
  | callback =>
    obtain ⟨mb, hm, rfl⟩ := Option.map_eq_some_iff.1 hc
    exact call _ _ _ ht hm
  | resume =>
    have hrec : ∀ s', (0 : Nat) ≠ t → receive s = some s' → s'.mb.pc t = .idle := by
      intro s' h0 hc
      obtain ⟨mb, hm, rfl⟩ := Option.map_eq_some_iff.1 hc
      exact call _ _ _ h0 hm
    simp only [step] at hc
    split at hc
    · rename_i h0
      have h0' : (0 : Nat) ≠ t := by rw [← h0.1]; exact ht
      split at hc
      · split at hc
        · cases hc; exact h
        · exact hrec _ h0' hc
      · split at hc
        · cases hc; exact h
        · exact hrec _ h0' hc
      · split at hc
        · cases hc
        · split at hc
          · cases hc; exact h
          · cases hc
            simp only [handle]
            split <;> exact h
        · cases hc; exact h
        · cases hc; exact h
      · cases hc
    · cases hc
  | cancel =>
    simp only [step] at hc
    split at hc
    · split at hc
      · cases hc
        simp only [Mailbox.step]
        split <;> exact h
      · cases hc; exact h
    · cases hc

theorem idle_run {b : Body S M} {sched : List (Nat × Act M)} {s : State S M} {t : Nat} (hu : ∀ c ∈ sched, c.1 ≠ t) (h : run (step b) (init b) sched = some s) :
    s.mb.pc t = .idle :=
  run_inv_on (fun c : Nat × Act M => c.1 ≠ t) (fun s => s.mb.pc t = .idle) (fun s c s' hP h hc => idle_step b s c s' t hP h hc) rfl sched hu h

/-- how to see that nothing goes on any more -/
theorem stuck_of {b : Body S M} {s : State S M} (h1 : ∀ t, s.mb.pc t = .idle) (h2 : s.mb.scheduled = 0) (h3 : step b s (0, .resume) = none) : Stuck b s := by
  rintro ⟨t, a⟩ hw
  cases a <;> first | cases hw; done | skip
  · simp [step, Mailbox.step, h1 t]
  · simp [step, Mailbox.step, h2]
  · by_cases ht : t = 0
    · rw [ht]; exact h3
    · simp [step, ht]

/-- all sent messages are handled when nothing goes on any more -/
theorem stuck_handled {b : Body S M} {s : State S M} (hi : Inv b s) (hd : Dead s) (h : Stuck b s) (hc : s.cancelReq = false) : s.handled.length = s.sent.length := by
  have hq := stuck_quiescent hi h
  obtain ⟨_, n, ht, hf⟩ : s.cancelReq = false ∧ ∃ n, s.task = .waiting n ∧ s.mb.fut n = .pending := by
    rcases stuck_task hi hd h with h | h
    · exact h
    · rw [hc] at h; cases h.1
  have hl := hi.live hc
  have hqueue : s.mb.queue = [] := by
    refine Classical.byContradiction fun hne => ?_
    rcases hi.all.loop.pend n hf with hk | hk
    · rcases hi.all.wake.wake (by rw [hk]; simp) hne hl.tok with h | ⟨t, h⟩ | h
      · rw [hq.2] at h; cases h
      · rw [hq.1 t] at h; cases h
      · rw [hq.1 0] at h; cases h
    · rw [hq.1 0] at hk; cases hk
  have hdel : delivered s.mb.log = s.handled := by rw [hl.deliv]; simp [inbox, ht, hf]
  have hfree : s.mb.owner = none := by
    cases ho : s.mb.owner with
    | none => rfl
    | some t =>
      have := (hi.all.acc.crit t).2 ho
      rw [hq.1 t] at this; cases this
  have h1 := hi.all.acc.free hfree
  rw [hqueue, List.append_nil, (delivered_prefix hi hc).1, hdel, hi.num] at h1
  rw [← h1, List.length_range]

theorem uncancelled_run {b : Body S M} {sched : List (Nat × Act M)} {s : State S M} (hu : uncancelled sched) (h : run (step b) (init b) sched = some s) : s.cancelReq = false :=
  run_inv_on (fun c : Nat × Act M => ∀ t, c ≠ (t, .cancel)) (fun s => s.cancelReq = false) (fun s c s' hP h hc => uncancelled_step b s c s' hP h hc) rfl sched hu h

/-! ## a measure -/

/-- the threads about to schedule a callback -/
def Scheduling (pc : Nat → Mailbox.Pc) (l : List Nat) : Prop := l.Nodup ∧ ∀ t, t ∈ l ↔ pc t = .sched

theorem scheduling_add {pc : Nat → Mailbox.Pc} {l : List Nat} {t : Nat} (h : Scheduling pc l) (ht : pc t = .idle) : Scheduling (upd pc t .sched) (t :: l) := by
  refine ⟨List.nodup_cons.2 ⟨fun hm => ?_, h.1⟩, fun u => ?_⟩
  · rw [(h.2 t).1 hm] at ht; cases ht
  · by_cases hu : u = t
    · subst hu; simp
    · simp [hu, upd_other _ _ hu, h.2 u]

theorem scheduling_remove {pc : Nat → Mailbox.Pc} {l : List Nat} {t : Nat} (h : Scheduling pc l) (ht : pc t = .sched) :
    Scheduling (upd pc t .idle) (l.erase t) ∧ (l.erase t).length + 1 = l.length := by
  have hm := (h.2 t).2 ht
  refine ⟨⟨h.1.erase _, fun u => ?_⟩, ?_⟩
  · rw [h.1.mem_erase_iff]
    by_cases hu : u = t
    · subst hu; simp
    · simp [hu, upd_other _ _ hu, h.2 u]
  · rw [List.length_erase_of_mem hm]
    have := List.length_pos_of_mem hm
    omega

theorem scheduling_same {pc : Nat → Mailbox.Pc} {l : List Nat} {t : Nat} {p : Mailbox.Pc} (h : Scheduling pc l) (ht : pc t ≠ .sched) (hp : p ≠ .sched) :
    Scheduling (upd pc t p) l := by
  refine ⟨h.1, fun u => ?_⟩
  by_cases hu : u = t
  · subst hu; simp [hp, h.2 u, ht]
  · simp [upd_other _ _ hu, h.2 u]

/-- what the body will still do by itself -/
def taskLeft : Task → Nat
  | .created => 14
  | .busy => 14
  | .waiting _ => 1
  | _ => 0

/-- what is left to do -/
def todo (s : State S M) (l : List Nat) : Nat :=
  14 * l.length + 13 * s.mb.scheduled + left (s.mb.pc 0) + 20 * (s.sent.length - s.handled.length) + taskLeft s.task

open Expression.Mailbox in
/-- going on with a call -/
theorem go_todo {s s' : Mailbox.State} {t : Nat} {l : List Nat} (hl : LoopAll s) (h : Scheduling s.pc l) (hc : Mailbox.step s (t, .go) = some s') :
    ∃ l', Scheduling s'.pc l' ∧ 14 * l'.length + 13 * s'.scheduled + left (s'.pc 0) + 1 ≤ 14 * l.length + 13 * s.scheduled + left (s.pc 0) := by
  by_cases ht : s.pc t = .sched
  · obtain ⟨h1, h2⟩ := scheduling_remove h ht
    have h3 := left_step 0 s (t, .go) s' hc
    simp only [Mailbox.step, ht] at hc
    cases hc
    refine ⟨l.erase t, h1, ?_⟩
    by_cases h0 : t = 0
    · subst h0
      have := h3.1 rfl
      simp only [State.at] at this ⊢
      omega
    · have := h3.2.2.1 h0
      simp only [State.at] at this ⊢
      rw [this]; omega
  · have h0 : t = 0 := by
      refine Classical.byContradiction fun h0 => ?_
      rcases hl.loop.others t h0 with h1 | h1
      · simp [Mailbox.step, h1] at hc
      · exact ht h1
    subst h0
    have h3 := (left_step 0 s (0, .go) s' hc).1 rfl
    have h4 : s'.scheduled = s.scheduled ∧ ∃ p, p ≠ .sched ∧ s'.pc = upd s.pc 0 p := by
      simp only [Mailbox.step] at hc
      split at hc
      · cases hc
      · rename_i hs; exact absurd hs ht
      all_goals try (split at hc)
      all_goals try (cases hc; done)
      all_goals cases hc
      all_goals exact ⟨rfl, _, by simp, rfl⟩
    obtain ⟨h4, p, h5, h6⟩ := h4
    refine ⟨l, by rw [h6]; exact scheduling_same h ht h5, ?_⟩
    rw [h4]; omega

theorem receive_todo {b : Body S M} {s s' : State S M} {l : List Nat} (h : Scheduling s.mb.pc l) (hi : s.mb.pc 0 = .idle) (ht : taskLeft s.task = 14)
    (hc : receive s = some s') : ∃ l', Scheduling s'.mb.pc l' ∧ todo s' l' + 1 ≤ todo s l := by
  obtain ⟨mb, hm, rfl⟩ := Option.map_eq_some_iff.1 hc
  simp only [Mailbox.step, hi, and_self, if_true] at hm
  cases hm
  refine ⟨l, scheduling_same h (by rw [hi]; simp) (by simp), ?_⟩
  have h1 : taskLeft (.waiting s.mb.next) = 1 := rfl
  simp only [todo, Mailbox.State.at, upd_same, hi, left, ht, h1]
  omega

theorem end_todo {s : State S M} {l : List Nat} (task : Task) (h : Scheduling s.mb.pc l) (ht : taskLeft task + 1 ≤ taskLeft s.task) :
    ∃ l', Scheduling ({ s with task := task }).mb.pc l' ∧ todo { s with task := task } l' + 1 ≤ todo s l := by
  refine ⟨l, h, ?_⟩
  simp only [todo]
  omega

/-- each step that goes on by itself makes it less -/
theorem work_todo (b : Body S M) (s : State S M) (c : Nat × Act M) (s' : State S M) (l : List Nat) (hi : Inv b s) (h : Scheduling s.mb.pc l) (hw : isWork c = true)
    (hc : step b s c = some s') : ∃ l', Scheduling s'.mb.pc l' ∧ todo s' l' + 1 ≤ todo s l := by
  obtain ⟨t, a⟩ := c
  cases a with
  | post x => cases hw
  | ask x => cases hw
  | go =>
    obtain ⟨mb, hm, rfl⟩ := Option.map_eq_some_iff.1 hc
    obtain ⟨l', h1, h2⟩ := go_todo hi.all h hm
    exact ⟨l', h1, by simp only [todo]; omega⟩
  | callback =>
    obtain ⟨mb, hm, rfl⟩ := Option.map_eq_some_iff.1 hc
    simp only [Mailbox.step] at hm
    split at hm <;> cases hm
    rename_i hk
    obtain ⟨rfl, h0, hp⟩ := hk
    refine ⟨l, scheduling_same h (by rw [h0]; simp) (by simp), ?_⟩
    simp only [todo, Mailbox.State.at, upd_same, h0, left]
    omega
  | resume =>
    simp only [step] at hc
    split at hc
    · rename_i hidle
      split at hc
      · rename_i ht
        split at hc
        · cases hc; exact end_todo _ h (by simp [ht, taskLeft])
        · exact receive_todo (b := b) h hidle.2 (by simp [ht, taskLeft]) hc
      · rename_i ht
        split at hc
        · cases hc; exact end_todo _ h (by simp [ht, taskLeft])
        · exact receive_todo (b := b) h hidle.2 (by simp [ht, taskLeft]) hc
      · rename_i n ht
        split at hc
        · cases hc
        · rename_i m hf
          split at hc
          · cases hc; exact end_todo _ h (by simp [ht, taskLeft])
          · rename_i hd
            cases hc
            obtain ⟨h1, h2⟩ := next_message hi (by simpa using hd) ht hf
            refine ⟨l, ?_, ?_⟩
            · simp only [handle, List.getElem?_eq_getElem h2]; exact h
            · simp only [handle, List.getElem?_eq_getElem h2, todo, ht, taskLeft, List.length_append, List.length_singleton]
              omega
        · cases hc; exact end_todo _ h (by simp [ht, taskLeft])
        · cases hc; exact end_todo _ h (by simp [ht, taskLeft])
      · cases hc
    · cases hc
  | cancel => cases hw

/-- the other steps add at most this much -/
theorem call_todo (b : Body S M) (s : State S M) (c : Nat × Act M) (s' : State S M) (l : List Nat) (hi : Inv b s) (h : Scheduling s.mb.pc l) (hw : isWork c = false)
    (hc : step b s c = some s') : ∃ l', Scheduling s'.mb.pc l' ∧ todo s' l' ≤ todo s l + if isPost c then 35 else 0 := by
  have hb := hi.bound
  obtain ⟨t, a⟩ := c
  cases a with
  | post x =>
    obtain ⟨mb, hm, rfl⟩ := Option.map_eq_some_iff.1 hc
    have h1 := left_step 0 _ _ _ hm
    simp only [Mailbox.step] at hm
    split at hm <;> cases hm
    rename_i h0
    refine ⟨t :: l, scheduling_add h h0, ?_⟩
    have h2 : left (upd s.mb.pc t .sched 0) ≤ left (s.mb.pc 0) + 1 := by
      rw [upd_apply]
      split
      · simp [left]
      · omega
    simp only [todo, Mailbox.State.at, Mailbox.State.say, List.length_append, List.length_nil, List.length_cons, isPost, if_true]
    omega
  | ask x =>
    simp only [step] at hc
    split at hc
    · obtain ⟨mb, hm, rfl⟩ := Option.map_eq_some_iff.1 hc
      simp only [Mailbox.step] at hm
      split at hm <;> cases hm
      rename_i h0
      refine ⟨l, scheduling_same h (by rw [h0]; simp) (by simp), ?_⟩
      simp only [todo, Mailbox.State.at, Mailbox.State.say, List.length_append, List.length_singleton, isPost, if_true, upd_same, left]
      omega
    · cases hc
  | go => cases hw
  | callback => cases hw
  | resume => cases hw
  | cancel =>
    simp only [step] at hc
    split at hc
    · rename_i hidle
      split at hc
      · rename_i n ht
        cases hc
        refine ⟨l, ?_, ?_⟩
        · simp only [Mailbox.step]
          split <;> exact h
        · simp only [Mailbox.step, isPost]
          split <;> simp [todo, Mailbox.State.say]
      · cases hc
        exact ⟨l, h, by simp [todo]⟩
    · cases hc

theorem bounded_run {b : Body S M} {sched : List (Nat × Act M)} {s : State S M} (h : run (step b) (init b) sched = some s) :
    ∃ l, sched.countP isWork + todo s l ≤ 35 * sched.countP isPost + 14 := by
  have := run_inv_sched (step := step b) (fun p s => Inv b s ∧ ∃ l, Scheduling s.mb.pc l ∧ p.countP isWork + todo s l ≤ 35 * p.countP isPost + 14)
    (fun p x c x' hi hc => by
      obtain ⟨hi, l, hl, hb⟩ := hi
      refine ⟨inv_step b x c x' hi hc, ?_⟩
      simp only [List.countP_append, List.countP_singleton]
      cases hw : isWork c with
      | true =>
        obtain ⟨l', h1, h2⟩ := work_todo b x c x' l hi hl hw hc
        refine ⟨l', h1, ?_⟩
        simp only [if_true]
        omega
      | false =>
        obtain ⟨l', h1, h2⟩ := call_todo b x c x' l hi hl hw hc
        refine ⟨l', h1, ?_⟩
        simp only [Bool.false_eq_true, if_false]
        split at h2 <;> split <;> simp_all <;> omega)
    [] ⟨inv_init b, [], ⟨List.nodup_nil, by simp [init, Mailbox.init]⟩, by simp [todo, init, Mailbox.init, left, taskLeft]⟩ sched h
  obtain ⟨_, l, _, hl⟩ := this
  exact ⟨l, by simpa using hl⟩

end Expression.Lemmas.Agent
