import Verif.Lemmas.MailboxCancel
import Verif.Lemmas.MailboxFuture
import Verif.Lemmas.Ask
import Verif.Spec.Agent

/-! # Invariants of an agent -/

namespace Expression.Lemmas.Agent

open Threads Lemmas.Mailbox Spec.Mailbox

/-! ## what one step of the mailbox does -/

/-- what a step of the mailbox can do, as far as the body sees it -/
inductive View (s s' : Mailbox.State) : Prop where
  | same (fut : s'.fut = s.fut) (next : s'.next = s.next) (del : delivered s'.log = delivered s.log) (check : s'.pc 0 = .rCheck ↔ s.pc 0 = .rCheck)
      (ref : .refused ∈ s'.log → .refused ∈ s.log)
  | began (check : s.pc 0 = .rCheck) (cont : s.cont = none) (fut : s'.fut = upd s.fut s.next .pending) (next : s'.next = s.next + 1)
      (del : delivered s'.log = delivered s.log) (pc : s'.pc 0 ≠ .rCheck) (ref : .refused ∈ s'.log → .refused ∈ s.log)
  | refused (check : s.pc 0 = .rCheck) (cont : s.cont ≠ none)
  | got (n m : Nat) (pend : s.fut n = .pending) (fut : s'.fut = upd s.fut n (.result m)) (next : s'.next = s.next)
      (del : delivered s'.log = delivered s.log ++ [m]) (check : s'.pc 0 = .rCheck ↔ s.pc 0 = .rCheck) (ref : .refused ∈ s'.log → .refused ∈ s.log)
  | cancelled (tok : s.token = true) (check : s'.pc 0 = .rCheck ↔ s.pc 0 = .rCheck) (ref : .refused ∈ s'.log → .refused ∈ s.log)

open Expression.Mailbox in
theorem go_view {s s' : State} {t : Nat} (hl : LoopAll s) (hc : step s (t, .go) = some s') : View s s' := by
  have zero : s.pc t ≠ .idle → s.pc t ≠ .sched → t = 0 := by
    intro h1 h2
    by_cases ht : t = 0
    · exact ht
    · rcases hl.loop.others t ht with h | h
      · exact absurd h h1
      · exact absurd h h2
  simp only [step] at hc
  split at hc
  · cases hc
  · rename_i hs
    cases hc
    exact .same rfl rfl rfl (by simp only [State.at, upd_apply]; split <;> simp_all) (fun h => h)
  all_goals rename_i hs
  all_goals obtain rfl : t = 0 := zero (by rw [hs]; simp) (by rw [hs]; simp)
  · split at hc <;> cases hc
    · rename_i hn
      exact .began hs hn rfl rfl (by simp [State.at, State.say, delivered_append, delivered]) (by simp [State.at, State.say]) (by simp [State.at, State.say])
    · rename_i hn
      exact .refused hs hn
  all_goals try (split at hc)
  all_goals try (cases hc; done)
  all_goals cases hc
  all_goals first
    | exact .same rfl rfl (by simp [State.at, State.say, delivered_append, delivered]) (by simp [State.at, State.say, hs]) (by simp [State.at, State.say])
    | exact .cancelled (hl.loop.tok (by rw [hs]; rfl)) (by simp [State.at, State.say, hs]) (by simp [State.at, State.say])
    | (rename_i hp
       exact .got _ _ hp rfl rfl (by simp [State.at, State.say, delivered_append, delivered]) (by simp [State.at, State.say, hs]) (by simp [State.at, State.say]))

open Expression.Mailbox in
theorem token_step {s s' : State} {c : Nat × Act} (h : c.2 ≠ .cancelToken) (hc : step s c = some s') : s'.token = s.token := by
  obtain ⟨t, a⟩ := c
  cases a <;> simp only [step] at hc
  case cancelToken => exact absurd rfl h
  case go =>
    split at hc
    · cases hc
    all_goals try (split at hc)
    all_goals try (cases hc; done)
    all_goals cases hc
    all_goals rfl
  all_goals try (split at hc)
  all_goals try (cases hc; done)
  all_goals cases hc
  all_goals rfl

open Expression.Mailbox in
theorem posted_go {s s' : State} {t : Nat} (hc : step s (t, .go) = some s') : posted s'.log = posted s.log := by
  simp only [step] at hc
  split at hc
  · cases hc
  all_goals try (split at hc)
  all_goals try (cases hc; done)
  all_goals cases hc
  all_goals simp [State.at, State.say, posted_append, posted]

/-! ## the invariant -/

open Expression.Agent Spec.Agent

variable {S M : Type}

/-- the message that waits for the body in its future -/
def inbox (task : Task) (fut : Nat → Mailbox.Fut) : List Nat :=
  match task with
  | .waiting n =>
    match fut n with
    | .result m => [m]
    | _ => []
  | _ => []

/-- holds until the source is cancelled -/
structure Live (s : State S M) : Prop where
  tok : s.mb.token = false
  noGive : ∀ k, s.mb.fut k ≠ .gaveUp
  noCanc : ∀ k, s.mb.fut k ≠ .cancelled
  pend : ∀ k, s.mb.fut k = .pending → s.task = .waiting k
  wait : ∀ n, s.task = .waiting n → (s.mb.pc 0 = .rCheck ∧ n = s.mb.next) ∨ n < s.mb.next
  check : s.mb.pc 0 = .rCheck → s.task = .waiting s.mb.next
  deliv : delivered s.mb.log = s.handled ++ inbox s.task s.mb.fut
  goes : s.task ≠ .cancelled ∧ s.task ≠ .raised

/-- holds always -/
structure Inv (b : Body S M) (s : State S M) : Prop where
  all : LoopAll s.mb
  futs : Futs s.mb
  num : posted s.mb.log = List.range s.sent.length
  order : s.handled = List.range s.handled.length
  bound : s.handled.length ≤ s.sent.length
  state : s.st = after b ((messages s).take s.handled.length)
  ref : .refused ∉ s.mb.log
  dead : s.cancelReq = true → s.mb.pc 0 ≠ .rCheck
  deadTok : s.cancelReq = true → s.mb.token = true
  live : s.cancelReq = false → Live s

theorem inv_init (b : Body S M) : Inv b (init b) where
  all := loopAll_init
  futs := futs_init
  num := rfl
  order := rfl
  bound := Nat.le_refl _
  state := rfl
  ref h := by cases h
  dead h := by cases h
  deadTok h := by cases h
  live _ := by
    constructor <;> simp [init, Mailbox.init, inbox, delivered]

theorem inbox_upd_pending {task : Task} {fut : Nat → Mailbox.Fut} {k : Nat} (h : fut k = .unused) : inbox task (upd fut k .pending) = inbox task fut := by
  unfold inbox
  cases task with
  | waiting n =>
    by_cases hn : n = k
    · subst hn; simp [h]
    · simp [upd_other _ _ hn]
  | _ => rfl

/-- a step of the mailbox alone, before the source is cancelled -/
theorem live_view {s : State S M} {mb : Mailbox.State} (hl : LoopAll s.mb) (hf : Futs s.mb) (h : Live s) (hv : View s.mb mb) (ht : mb.token = s.mb.token) :
    Live { s with mb := mb } ∧ (.refused ∈ mb.log → .refused ∈ s.mb.log) := by
  obtain ⟨tok, noGive, noCanc, pend, wait, check, deliv, goes⟩ := h
  have noCont : s.mb.pc 0 = .rCheck → s.mb.cont = none := by
    intro hc
    cases hk : s.mb.cont with
    | none => rfl
    | some k =>
      exfalso
      have hp : s.mb.fut k = .pending := by
        rcases hl.loop.live2 tok k hk with h | h
        · exact h
        · exact absurd h (noGive k)
      have h1 := pend k hp
      rw [check hc] at h1
      cases h1
      rw [hf.fresh _ (Nat.le_refl _)] at hp
      cases hp
  cases hv with
  | same fut next del chk ref =>
    refine ⟨⟨ht.trans tok, by simpa [fut] using noGive, by simpa [fut] using noCanc, by simpa [fut] using pend, ?_, ?_, by simpa [fut, del] using deliv, goes⟩, ref⟩
    · intro n hn
      simp only [next, chk]
      exact wait n hn
    · intro hc; simp only [next]; exact check (chk.1 hc)
  | began chk cont fut next del pc ref =>
    have hu := hf.fresh _ (Nat.le_refl s.mb.next)
    refine ⟨⟨ht.trans tok, ?_, ?_, ?_, ?_, fun hc => absurd hc pc, ?_, goes⟩, ref⟩
    · intro k; simp only [fut, upd_apply]; split
      · simp
      · exact noGive k
    · intro k; simp only [fut, upd_apply]; split
      · simp
      · exact noCanc k
    · intro k hk
      simp only [fut, upd_apply] at hk
      split at hk
      · rename_i he; rw [he]; exact check chk
      · exact pend k hk
    · intro n hn
      have := check chk
      rw [this] at hn; cases hn
      exact .inr (by simp [next])
    · simp only [del, fut, inbox_upd_pending hu]; exact deliv
  | refused chk cont => exact absurd (noCont chk) cont
  | got n m hp fut next del chk ref =>
    have hn := pend n hp
    refine ⟨⟨ht.trans tok, ?_, ?_, ?_, ?_, ?_, ?_, goes⟩, ref⟩
    · intro k; simp only [fut, upd_apply]; split
      · simp
      · exact noGive k
    · intro k; simp only [fut, upd_apply]; split
      · simp
      · exact noCanc k
    · intro k hk
      simp only [fut, upd_apply] at hk
      split at hk
      · cases hk
      · exact pend k hk
    · intro k hk
      simp only [next, chk]
      exact wait k hk
    · intro hc; simp only [next]; exact check (chk.1 hc)
    · simp only [del, fut, deliv, inbox, hn, hp, upd_same, List.append_nil]
  | cancelled tk _ _ => rw [tok] at tk; cases tk

/-- a step of the mailbox: the state of the mailbox stays good -/
theorem all_step {s : Mailbox.State} {c : Nat × Mailbox.Act} {s' : Mailbox.State} (hP : Allowed c) (h : LoopAll s ∧ Futs s) (hc : Mailbox.step s c = some s') :
    LoopAll s' ∧ Futs s' := ⟨loopAll_step s c s' hP h.1 hc, futs_step s c s' h.2 hc⟩

open Expression.Mailbox in
/-- posting, asking and callbacks do nothing that the body sees -/
theorem call_view {s s' : Mailbox.State} {c : Nat × Mailbox.Act} (hk : (∃ m, c.2 = .post m) ∨ (∃ m, c.2 = .ask m) ∨ c.2 = .callback)
    (hc : Mailbox.step s c = some s') : View s s' := by
  obtain ⟨t, a⟩ := c
  have h0 : ∀ p, p ≠ .rCheck → s.pc t = .idle → (upd s.pc t p 0 = .rCheck ↔ s.pc 0 = .rCheck) := by
    intro p hp hi
    rw [upd_apply]
    split
    · rename_i he; subst he; simp [hp, hi]
    · rfl
  cases a <;> simp only [Mailbox.step] at hc <;> simp at hk
  all_goals split at hc
  all_goals try (cases hc; done)
  all_goals cases hc
  all_goals rename_i hi
  · exact .same rfl rfl (by simp [State.at, State.say, delivered_append, delivered]) (h0 _ (by simp) hi) (by simp [State.at, State.say])
  · exact .same rfl rfl (by simp [State.at, State.say, delivered_append, delivered]) (h0 _ (by simp) hi) (by simp [State.at, State.say])
  · exact .same rfl rfl (by simp [State.at, State.say]) (h0 _ (by simp) hi.2.1) (by simp [State.at, State.say])

/-- a step of the mailbox that puts the messages `xs` into the queue -/
theorem inv_mb {b : Body S M} {s : State S M} {c : Nat × Mailbox.Act} {mb : Mailbox.State} (xs : List (M × Bool)) (chan : Nat → Ask.State) (h : Inv b s) (hP : Allowed c)
    (hc : Mailbox.step s.mb c = some mb) (hv : View s.mb mb) (ht : c.2 ≠ .cancelToken) (hnum : posted mb.log = List.range (s.sent ++ xs).length) :
    Inv b { s with mb := mb, sent := s.sent ++ xs, chan := chan } := by
  have htok := token_step ht hc
  obtain ⟨h1, h2⟩ := all_step hP ⟨h.all, h.futs⟩ hc
  have hdead : s.cancelReq = true → (mb.pc 0 ≠ .rCheck) ∧ (.refused ∈ mb.log → .refused ∈ s.mb.log) := by
    intro hd
    have h0 := h.dead hd
    cases hv with
    | same _ _ _ chk ref => exact ⟨fun h => h0 (chk.1 h), ref⟩
    | began chk _ _ _ _ _ _ => exact absurd chk h0
    | refused chk _ => exact absurd chk h0
    | got _ _ _ _ _ _ chk ref => exact ⟨fun h => h0 (chk.1 h), ref⟩
    | cancelled _ chk ref => exact ⟨fun h => h0 (chk.1 h), ref⟩
  refine ⟨h1, h2, hnum, h.order, ?_, ?_, ?_, fun hd => (hdead hd).1, fun hd => htok.trans (h.deadTok hd), fun hd => ?_⟩
  · have := h.bound; simp only [List.length_append]; omega
  · rw [h.state]
    simp only [messages, List.map_append]
    rw [List.take_append_of_le_length (by rw [List.length_map]; exact h.bound)]
  · cases hd : s.cancelReq with
    | false => exact fun hr => h.ref ((live_view h.all h.futs (h.live hd) hv htok).2 hr)
    | true => exact fun hr => h.ref ((hdead hd).2 hr)
  · obtain ⟨a1, a2, a3, a4, a5, a6, a7, a8⟩ := (live_view h.all h.futs (h.live hd) hv htok).1
    exact ⟨a1, a2, a3, a4, a5, a6, a7, a8⟩

/-- the body ends -/
theorem inv_end {b : Body S M} {s : State S M} (h : Inv b s) (hd : s.cancelReq = true) (task : Task) : Inv b { s with task := task } :=
  ⟨h.all, h.futs, h.num, h.order, h.bound, h.state, h.ref, h.dead, h.deadTok, fun h' => by rw [hd] at h'; cases h'⟩

/-- the body calls `receive` -/
theorem inv_receive {b : Body S M} {s s' : State S M} (h : Inv b s) (hi : s.mb.pc 0 = .idle) (hd : s.cancelReq = false) (ht : ∀ n, s.task ≠ .waiting n)
    (hc : receive s = some s') : Inv b s' := by
  obtain ⟨mb, hm, rfl⟩ := Option.map_eq_some_iff.1 hc
  obtain ⟨h1, h2⟩ := all_step (by intro m hm; cases hm) ⟨h.all, h.futs⟩ hm
  have hl := h.live hd
  simp only [Mailbox.step, hi, and_self, if_true] at hm
  cases hm
  refine ⟨h1, h2, h.num, h.order, h.bound, h.state, h.ref, (fun h' => by rw [hd] at h'; cases h'), (fun h' => by rw [hd] at h'; cases h'),
    fun _ => ?_⟩
  refine ⟨hl.tok, hl.noGive, hl.noCanc, fun k hk => absurd (hl.pend k hk) (ht k), ?_, fun _ => rfl, ?_, by simp⟩
  · intro n hn
    cases hn
    exact .inl ⟨by simp [Mailbox.State.at], rfl⟩
  · have hu := h.futs.fresh _ (Nat.le_refl s.mb.next)
    have h0 : inbox s.task s.mb.fut = [] := by
      unfold inbox
      split
      · rename_i n hn; exact absurd hn (ht n)
      · rfl
    have := hl.deliv
    rw [h0] at this
    simpa [inbox, Mailbox.State.at, hu] using this

theorem givenUp_zero (l : List Mailbox.Event) (h : ∀ k, .gaveUp k ∉ l) : givenUp l = 0 := by
  induction l with
  | nil => rfl
  | cons e l ih =>
    have h2 := ih fun k hk => h k (List.mem_cons_of_mem _ hk)
    cases e with
    | gaveUp k => exact absurd (List.mem_cons_self ..) (h k)
    | _ => simpa [givenUp] using h2

/-- before the source is cancelled, what is delivered is a prefix of what was sent, and nothing else left the queue -/
theorem delivered_prefix {b : Body S M} {s : State S M} (h : Inv b s) (hd : s.cancelReq = false) :
    Lemmas.Mailbox.handled s.mb.log = delivered s.mb.log ∧ (delivered s.mb.log) <+: List.range s.sent.length := by
  have hacc := h.all.acc
  have h0 : Lemmas.Mailbox.handled s.mb.log = delivered s.mb.log := by
    apply handled_of_drops
    have h1 := h.all.loop.drops1
    have h2 := givenUp_zero s.mb.log fun k hk => (h.live hd).noGive k ((h.futs.gaveUp k).2 hk)
    omega
  refine ⟨h0, ?_⟩
  rw [← h.num, ← h0]
  cases ho : s.mb.owner with
  | none => rw [hacc.free ho]; exact List.prefix_append _ _
  | some t => rw [hacc.held t ho]; exact List.prefix_append _ _

/-- the next message is the next one -/
theorem next_message {b : Body S M} {s : State S M} {n m : Nat} (h : Inv b s) (hd : s.cancelReq = false) (ht : s.task = .waiting n) (hf : s.mb.fut n = .result m) :
    m = s.handled.length ∧ m < s.sent.length := by
  have hdel : delivered s.mb.log = s.handled ++ [m] := by rw [(h.live hd).deliv]; simp [inbox, ht, hf]
  have hp := (delivered_prefix h hd).2
  rw [hdel] at hp
  have hlen := hp.length_le
  simp only [List.length_append, List.length_singleton, List.length_range] at hlen
  have h1 : (s.handled ++ [m])[s.handled.length]? = some m := by simp
  obtain ⟨r, hr⟩ := hp
  have h2 : (s.handled ++ [m] ++ r)[s.handled.length]? = some m := by simp
  rw [hr, List.getElem?_range (by omega)] at h2
  cases h2
  exact ⟨rfl, by omega⟩

/-- the body handles a message -/
theorem inv_handle {b : Body S M} {s : State S M} {n m : Nat} (h : Inv b s) (hd : s.cancelReq = false) (ht : s.task = .waiting n) (hf : s.mb.fut n = .result m)
    (hi : s.mb.pc 0 = .idle) : Inv b (handle b s m) := by
  obtain ⟨hm, hlt⟩ := next_message h hd ht hf
  have hl := h.live hd
  have hdel : delivered s.mb.log = s.handled ++ [m] := by rw [hl.deliv]; simp [inbox, ht, hf]
  obtain ⟨⟨x, r⟩, hx⟩ : ∃ x, s.sent[m]? = some x := ⟨s.sent[m], List.getElem?_eq_getElem hlt⟩
  simp only [handle, hx]
  refine ⟨h.all, h.futs, h.num, ?_, ?_, ?_, h.ref, fun h' => h.dead h', fun h' => h.deadTok h', fun _ => ?_⟩
  · simp only [List.length_append, List.length_singleton, List.range_succ]
    rw [← h.order, hm]
  · simp only [List.length_append, List.length_singleton]; omega
  · simp only [List.length_append, List.length_singleton, h.state, messages, after]
    rw [List.take_add_one, List.foldl_append]
    simp [← hm, hx]
  · refine ⟨hl.tok, hl.noGive, hl.noCanc, fun k hk => ?_, fun k hk => (by cases hk), fun hk => ?_, ?_, by simp⟩
    · have := hl.pend k hk
      rw [ht] at this
      cases this
      rw [hf] at hk; cases hk
    · rw [hi] at hk; cases hk
    · simpa [inbox] using hdel

/-- cancelling -/
theorem inv_cancel {b : Body S M} {s : State S M} (mb : Mailbox.State) (h : Inv b s) (hi : s.mb.pc 0 = .idle) (h1 : LoopAll mb) (h2 : Futs mb)
    (hp : posted mb.log = posted s.mb.log) (hr : .refused ∈ mb.log → .refused ∈ s.mb.log) (hpc : mb.pc 0 = s.mb.pc 0) (ht : mb.token = true) :
    Inv b { s with mb := mb, cancelReq := true } :=
  ⟨h1, h2, hp.trans h.num, h.order, h.bound, h.state, fun h' => h.ref (hr h'), (fun _ => by rw [hpc, hi]; simp), fun _ => ht, fun h' => by cases h'⟩

theorem inv_step (b : Body S M) (s : State S M) (c : Nat × Act M) (s' : State S M) (h : Inv b s) (hc : step b s c = some s') : Inv b s' := by
  obtain ⟨t, a⟩ := c
  have hsame : ∀ mb : Mailbox.State, { s with mb := mb, sent := s.sent ++ [], chan := s.chan } = { s with mb := mb } := by
    intro mb; simp
  cases a with
  | post x =>
    obtain ⟨mb, hm, rfl⟩ := Option.map_eq_some_iff.1 hc
    refine inv_mb [(x, false)] s.chan h ?_ hm (call_view (.inl ⟨_, rfl⟩) hm) (by simp) ?_
    · intro m hm; cases hm
    · simp only [Mailbox.step] at hm
      split at hm <;> cases hm
      simp [Mailbox.State.at, Mailbox.State.say, posted_append, posted, h.num, List.range_succ]
  | ask x =>
    simp only [step] at hc
    split at hc
    · obtain ⟨mb, hm, rfl⟩ := Option.map_eq_some_iff.1 hc
      refine inv_mb [(x, true)] _ h ?_ hm (call_view (.inr (.inl ⟨_, rfl⟩)) hm) (by simp) ?_
      · intro m hm; rfl
      · simp only [Mailbox.step] at hm
        split at hm <;> cases hm
        simp [Mailbox.State.at, Mailbox.State.say, posted_append, posted, h.num, List.range_succ]
    · cases hc
  | go =>
    obtain ⟨mb, hm, rfl⟩ := Option.map_eq_some_iff.1 hc
    rw [← hsame]
    refine inv_mb [] s.chan h ?_ hm (go_view h.all hm) (by simp) ?_
    · intro m hm; cases hm
    · rw [posted_go hm, h.num]; simp
  | callback =>
    obtain ⟨mb, hm, rfl⟩ := Option.map_eq_some_iff.1 hc
    rw [← hsame]
    refine inv_mb [] s.chan h ?_ hm (call_view (.inr (.inr rfl)) hm) (by simp) ?_
    · intro m hm; cases hm
    · simp only [Mailbox.step] at hm
      split at hm <;> cases hm
      simp [Mailbox.State.at, h.num]
  | resume =>
    simp only [step] at hc
    split at hc
    · rename_i hi
      obtain ⟨rfl, hi⟩ := hi
      split at hc
      · rename_i ht
        split at hc
        · rename_i hd; cases hc; exact inv_end h hd _
        · rename_i hd; exact inv_receive h hi (by simpa using hd) (by rw [ht]; simp) hc
      · rename_i ht
        split at hc
        · rename_i hd; cases hc; exact inv_end h hd _
        · rename_i hd; exact inv_receive h hi (by simpa using hd) (by rw [ht]; simp) hc
      · rename_i n ht
        have hmust : s.mb.fut n ≠ .pending → (∀ m, s.mb.fut n ≠ .result m) → s.cancelReq = true := by
          intro h1 h2
          cases hd : s.cancelReq with
          | true => rfl
          | false =>
            exfalso
            have hl := h.live hd
            rcases hl.wait n ht with ⟨h3, _⟩ | h3
            · rw [hi] at h3; cases h3
            · have := h.futs.used n h3
              have := hl.noGive n
              have := hl.noCanc n
              cases hf : s.mb.fut n <;> simp_all
        split at hc
        · cases hc
        · rename_i m hf
          split at hc
          · rename_i hd; cases hc; exact inv_end h hd _
          · rename_i hd; cases hc; exact inv_handle h (by simpa using hd) ht hf hi
        · rename_i hf; cases hc; exact inv_end h (hmust (by rw [hf]; simp) (by rw [hf]; simp)) _
        · rename_i h1 h2 h3; cases hc; exact inv_end h (hmust h1 h2) _
      · cases hc
    · cases hc
  | cancel =>
    simp only [step] at hc
    split at hc
    · rename_i hi
      obtain ⟨rfl, hi⟩ := hi
      have htok : Mailbox.step s.mb (0, .cancelToken) = some { s.mb with token := true } := rfl
      obtain ⟨h1, h2⟩ := all_step (by intro m hm; cases hm) ⟨h.all, h.futs⟩ htok
      split at hc
      · rename_i n ht
        cases hc
        cases hg : Mailbox.step { s.mb with token := true } (0, .giveUp n) with
        | none => exact inv_cancel _ h hi h1 h2 rfl (fun h => h) rfl rfl
        | some mb =>
          obtain ⟨h3, h4⟩ := all_step (by intro m hm; cases hm) ⟨h1, h2⟩ hg
          simp only [Mailbox.step] at hg
          split at hg <;> cases hg
          exact inv_cancel _ h hi h3 h4 (by simp [Mailbox.State.say, posted_append, posted]) (by simp [Mailbox.State.say]) rfl rfl
      · cases hc; exact inv_cancel _ h hi h1 h2 rfl (fun h => h) rfl rfl
    · cases hc

theorem inv_run {b : Body S M} {sched : List (Nat × Act M)} {s : State S M} (h : run (step b) (init b) sched = some s) : Inv b s :=
  run_inv (Inv b) (inv_step b) (inv_init b) sched h

end Expression.Lemmas.Agent
