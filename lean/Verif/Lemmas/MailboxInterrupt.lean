import Verif.Lemmas.MailboxRace
import Verif.Lemmas.MailboxCancel
import Verif.Spec.MailboxInterrupt

/-! # Invariants of the mailbox with interrupts -/

namespace Expression.Lemmas.MailboxInterrupt

open Threads Spec.Mailbox Expression.Mailbox Lemmas.Mailbox Expression.MailboxInterrupt

abbrev IState := MailboxInterrupt.State
abbrev IAct := MailboxInterrupt.Act

theorem inBlock_critical (p : Pc) : inBlock p = critical p := by cases p <;> rfl

theorem count_posted (l : List Event) : count l = (posted l).length := by
  induction l with
  | nil => rfl
  | cons e l ih => cases e <;> simp [count, posted, ih]

/-- the mailbox after an interrupt -/
def hit (s : Mailbox.State) (t : Nat) : Mailbox.State :=
  { s with owner := if inBlock (s.pc t) then none else s.owner, pc := upd s.pc t .idle, log := s.log ++ inHand (s.pc t) }

theorem istep_cases {s : IState} {c : Nat × IAct} {s' : IState} (hc : MailboxInterrupt.step s c = some s') :
    (∃ a, c.2 = .act a ∧ Mailbox.step s.obj (c.1, a) = some s'.obj ∧ s'.cut = s.cut) ∨
      (c.2 = .interrupt ∧ c.1 ≠ 0 ∧ s.obj.pc c.1 ≠ .idle ∧ s'.obj = hit s.obj c.1) := by
  obtain ⟨t, a⟩ := c
  cases a with
  | act a =>
    simp only [MailboxInterrupt.step, Option.map_eq_some_iff] at hc
    obtain ⟨o, ho, rfl⟩ := hc
    exact .inl ⟨a, rfl, ho, rfl⟩
  | interrupt =>
    simp only [MailboxInterrupt.step] at hc
    split at hc
    · cases hc
    · rename_i hn
      cases hc
      exact .inr ⟨rfl, fun h => hn (.inl h), fun h => hn (.inr h), rfl⟩

theorem acc_hit {s : Mailbox.State} (h : Acc s) (t : Nat) : Acc (hit s t) := by
  obtain ⟨crit, free, held, get, loop⟩ := h
  have crit0 := crit t
  have held0 := held t
  cases hs : s.pc t <;> simp only [hs, critical, hand] at crit0 held0 <;> constructor <;>
    simp only [hit, hs, inBlock, inHand, upd_apply, posted_append, handled_append, posted, handled, List.append_nil, List.append_assoc] <;>
    grind [critical, hand, receiving]

theorem ord_hit {s : Mailbox.State} (h : Ord s) (t : Nat) (ht : t ≠ 0) : Ord (hit s t) := by
  obtain ⟨sorted, old, oldSet, oldCont, oldWrite, oldCall, lateSet, lateCont, lateWrite, lateCall, setCont, setWrite, setCall, contCall⟩ := h
  have e : returned (s.log ++ inHand (s.pc t)) = returned s.log := by
    rw [returned_append]; cases s.pc t <;> simp [inHand, returned]
  constructor <;> simp only [hit, e, upd_apply] <;> grind

theorem base_hit {s : Mailbox.State} (h : Base s) (t : Nat) (ht : t ≠ 0) : Base (hit s t) := by
  obtain ⟨contLive, callLive, canc, tok, oldCancel, oldTarget, oldSetC, setCancel, setTarget, setLive, setNone, noCont, writeCont⟩ := h
  constructor <;> simp only [hit, upd_apply] <;> grind [cancelling, cancelTarget]

theorem futs_hit {s : Mailbox.State} (h : Futs s) (t : Nat) : Futs (hit s t) := by
  obtain ⟨fresh, got, began, cancelled, gaveUp, used⟩ := h
  have e : ∀ x : Event, (∀ m, x ≠ .dropped m) → (x ∈ s.log ++ inHand (s.pc t) ↔ x ∈ s.log) := by
    intro x hx
    rw [List.mem_append]
    cases s.pc t <;> simp [inHand, hx]
  constructor <;> simp only [hit]
  · exact fresh
  · intro n m; rw [e _ (by simp)]; exact got n m
  · intro n; rw [e _ (by simp)]; exact began n
  · intro n; rw [e _ (by simp)]; exact cancelled n
  · intro n; rw [e _ (by simp)]; exact gaveUp n
  · exact used

theorem delta_hit {s : Mailbox.State} (t : Nat) (ht : t ≠ 0) :
    drops (hit s t).log + (doomed (hit s t)).toNat + credit t ((hit s t).pc t) + givenUp s.log ≤
      drops s.log + (doomed s).toNat + credit t (s.pc t) + givenUp (hit s t).log ∧ ∀ u, u ≠ t → (hit s t).pc u = s.pc u := by
  refine ⟨?_, fun u hu => upd_other _ _ hu⟩
  have e : doomed (hit s t) = doomed s := by
    simp only [doomed, hit, upd_other _ _ (Ne.symm ht)]
    rfl
  rw [e]
  cases hs : s.pc t <;> simp only [hit, hs, inHand, drops_append, givenUp_append, drops, givenUp, upd_same, credit, ht, if_false] <;> omega

/-- holds for every schedule -/
structure All (s : Mailbox.State) : Prop where
  acc : Acc s
  ord : Ord s
  base : Base s
  futs : Futs s

theorem all_istep (s : IState) (c : Nat × IAct) (s' : IState) (h : All s.obj) (hc : MailboxInterrupt.step s c = some s') : All s'.obj := by
  rcases istep_cases hc with ⟨a, _, h2, _⟩ | ⟨_, h2, _, h4⟩
  · exact ⟨acc_step _ _ _ h.acc h2, ord_step _ _ _ h.acc h.ord h2, base_step _ _ _ h.acc h.ord h.base h2, futs_step _ _ _ h.futs h2⟩
  · rw [h4]
    exact ⟨acc_hit h.acc _, ord_hit h.ord _ h2, base_hit h.base _ h2, futs_hit h.futs _⟩

theorem all_irun {sched : List (Nat × IAct)} {s : IState} (h : run MailboxInterrupt.step MailboxInterrupt.init sched = some s) : All s.obj :=
  run_inv (fun s : IState => All s.obj) all_istep ⟨acc_init, ord_init, base_init, futs_init⟩ sched h

theorem iaskCount (p : List (Nat × IAct)) (c : Nat × IAct) :
    Spec.MailboxInterrupt.asksElsewhere (p ++ [c]) = Spec.MailboxInterrupt.asksElsewhere p + (Spec.MailboxInterrupt.askElsewhere c).toNat := by
  simp only [Spec.MailboxInterrupt.asksElsewhere, List.countP_append, List.countP_cons, List.countP_nil]
  cases Spec.MailboxInterrupt.askElsewhere c <;> simp

theorem idrops_run {sched : List (Nat × IAct)} {s : IState} (h : run MailboxInterrupt.step MailboxInterrupt.init sched = some s) :
    drops s.obj.log ≤ givenUp s.obj.log + 2 * Spec.MailboxInterrupt.asksElsewhere sched := by
  have hb : ∃ N, ∀ c ∈ sched, c.1 < N := by
    clear h
    induction sched with
    | nil => exact ⟨0, fun c h => by cases h⟩
    | cons c l ih =>
      obtain ⟨N, hN⟩ := ih
      refine ⟨max N (c.1 + 1), fun d hd => ?_⟩
      rcases List.mem_cons.1 hd with rfl | hd
      · omega
      · have := hN d hd; omega
  obtain ⟨N, hN⟩ := hb
  have := run_inv_sched (step := MailboxInterrupt.step)
    (fun p s => (∀ c ∈ p, c.1 < N) →
      All s.obj ∧ drops s.obj.log + (doomed s.obj).toNat + credits N s.obj.pc ≤ givenUp s.obj.log + 2 * Spec.MailboxInterrupt.asksElsewhere p)
    (fun p s c s' hi hc hp => by
      obtain ⟨ha, hi⟩ := hi fun d hd => hp d (List.mem_append_left _ hd)
      refine ⟨all_istep s c s' ha hc, ?_⟩
      have key : drops s'.obj.log + (doomed s'.obj).toNat + credit c.1 (s'.obj.pc c.1) + givenUp s.obj.log ≤
          drops s.obj.log + (doomed s.obj).toNat + credit c.1 (s.obj.pc c.1) + givenUp s'.obj.log +
            2 * (Spec.MailboxInterrupt.askElsewhere c).toNat ∧ ∀ u, u ≠ c.1 → s'.obj.pc u = s.obj.pc u := by
        rcases istep_cases hc with ⟨a, h1, h2, _⟩ | ⟨_, h2, _, h4⟩
        · have e : Spec.MailboxInterrupt.askElsewhere c = Spec.Mailbox.askElsewhere (c.1, a) := by
            obtain ⟨t, b⟩ := c
            subst h1
            cases a <;> rfl
          rw [e]
          exact delta_step _ _ _ ha.acc ha.ord ha.base h2
        · rw [h4]
          obtain ⟨k1, k2⟩ := delta_hit (s := s.obj) c.1 h2
          exact ⟨by omega, k2⟩
      obtain ⟨h1, h2⟩ := key
      have h3 := credits_upd N s.obj.pc s'.obj.pc c.1 h2
      rw [if_pos (hp c (by simp)), if_pos (hp c (by simp))] at h3
      rw [iaskCount]
      omega)
    [] (fun _ => ⟨⟨acc_init, ord_init, base_init, futs_init⟩,
      by simp only [MailboxInterrupt.init]; rw [credits_init]; simp [Mailbox.init, drops, doomed, givenUp]⟩) sched h
  have := (this (by simpa using hN)).2
  simp only [List.nil_append] at this
  omega

theorem loop_hit {s : Mailbox.State} (h : Loop s) (t : Nat) (ht : t ≠ 0) : Loop (hit s t) := by
  have e : inHand (s.pc t) = [] := by rcases h.others t ht with h | h <;> rw [h] <;> rfl
  obtain ⟨others, tok, live1, live2, liveSet, live3, has, write, hasCall, noCont, setNone, fresh, pend, drops1, drops2, drops3⟩ := h
  constructor <;> simp only [hit, e, List.append_nil, upd_other _ _ (Ne.symm ht)]
  case others =>
    intro u hu
    by_cases h : u = t
    · subst h; left; exact upd_same ..
    · rw [upd_other _ _ h]; exact others u hu
  all_goals assumption

/-- a waiting receive and a queued message: the message's `post` was interrupted, or is not over, or somebody will look -/
def Wakes (s : IState) : Prop :=
  s.obj.cont ≠ none → s.obj.token = false → ∀ i, Spec.MailboxInterrupt.Queued s.obj i →
    i ∈ s.cut ∨ (∃ t, s.obj.pc t = .sched ∧ s.num t = i) ∨ 0 < s.obj.scheduled ∨ awake (s.obj.pc 0) = true

theorem queued_same {s s' : Mailbox.State} (h1 : posted s'.log = posted s.log) (h2 : s'.queue = s.queue) {i : Nat} (h : Spec.MailboxInterrupt.Queued s' i) :
    Spec.MailboxInterrupt.Queued s i := by
  simpa only [Spec.MailboxInterrupt.Queued, h1, h2] using h

/-- asks only by the event loop -/
def IAllowed (c : Nat × IAct) : Prop := ∀ m, c.2 = .act (.ask m) → c.1 = 0

set_option maxHeartbeats 4000000 in
theorem wakes_istep (s : IState) (c : Nat × IAct) (s' : IState) (hP : IAllowed c) (hl : Loop s.obj) (h : Wakes s) (hc : MailboxInterrupt.step s c = some s') :
    Wakes s' := by
  obtain ⟨t, a⟩ := c
  have zero : s.obj.pc t ≠ .idle → s.obj.pc t ≠ .sched → t = 0 := by
    intro h1 h2
    by_cases ht : t = 0
    · exact ht
    · rcases hl.others t ht with h | h
      · exact absurd h h1
      · exact absurd h h2
  have noCont := hl.noCont
  have tok := hl.tok
  have others := hl.others t
  simp only [IAllowed] at hP
  clear hl
  simp only [Wakes, Spec.MailboxInterrupt.Queued] at h ⊢
  cases a with
  | interrupt =>
    simp only [MailboxInterrupt.step] at hc
    split at hc
    · cases hc
    · rename_i hn
      have hs : s.obj.pc t = .sched := by
        rcases others (fun h => hn (.inl h)) with h | h
        · exact absurd h (fun h => hn (.inr h))
        · exact h
      have ht : (0 : Nat) ≠ t := fun h => hn (.inl h.symm)
      cases hc
      simp only [hs, inHand, List.append_nil, if_true, upd_other _ _ ht, List.mem_append, List.mem_singleton]
      intro h1 h2 i hi
      rcases h h1 h2 i hi with k | ⟨u, k1, k2⟩ | k | k
      · exact .inl (.inl k)
      · by_cases hu : u = t
        · subst hu; exact .inl (.inr k2.symm)
        · exact .inr (.inl ⟨u, by rw [upd_other _ _ hu]; exact k1, k2⟩)
      · exact .inr (.inr (.inl k))
      · exact .inr (.inr (.inr k))
  | act a =>
    simp only [MailboxInterrupt.step, Option.map_eq_some_iff] at hc
    obtain ⟨o, ho, rfl⟩ := hc
    have keep : ∀ p, s.obj.pc t ≠ .sched → ∀ i, (∃ u, s.obj.pc u = .sched ∧ s.num u = i) → ∃ u, upd s.obj.pc t p u = .sched ∧ s.num u = i := by
      rintro p hn i ⟨u, h1, h2⟩
      exact ⟨u, by rw [upd_other _ _ (fun he => hn (by rw [← he]; exact h1))]; exact h1, h2⟩
    have awake0 : ∀ p, awake (upd s.obj.pc 0 p 0) = awake p := fun p => by rw [upd_same]
    have awakeN : ∀ p, t ≠ 0 → awake (upd s.obj.pc t p 0) = awake (s.obj.pc 0) := fun p h => by rw [upd_other _ _ (Ne.symm h)]
    cases a <;> simp only [Mailbox.step] at ho
    case go =>
      split at ho
      · cases ho
      · cases ho
        exact fun _ _ _ _ => .inr (.inr (.inl (Nat.succ_pos _)))
      all_goals rename_i hs
      all_goals obtain rfl : t = 0 := zero (by rw [hs]; simp) (by rw [hs]; simp)
      all_goals try (split at ho)
      all_goals try (cases ho; done)
      all_goals cases ho
      all_goals simp only [State.at, State.say, posted_append, posted, List.append_nil]
      all_goals have keep0 := fun p => keep p (by rw [hs]; simp)
      all_goals first
        | grind [awake, cancelling]
        | (intro h1 h2 i hi
           rcases h h1 h2 i hi with k | k | k | k
           · exact .inl k
           · exact .inr (.inl (keep0 _ i k))
           · exact .inr (.inr (.inl k))
           · rw [hs] at k; cases k)
    case post m =>
      split at ho
      · rename_i hs
        cases ho
        simp only [State.at, State.say, posted_append, posted, List.length_append, List.length_cons, List.length_nil, count_posted]
        intro h1 h2 i hi
        by_cases hi' : i < (posted s.obj.log).length
        · rcases h h1 h2 i ⟨by omega, hi'⟩ with k | ⟨u, k1, k2⟩ | k | k
          · exact .inl k
          · have hu : u ≠ t := fun e => by subst e; rw [hs] at k1; cases k1
            exact .inr (.inl ⟨u, by rw [upd_other _ _ hu]; exact k1, by rw [upd_other _ _ hu]; exact k2⟩)
          · exact .inr (.inr (.inl k))
          · refine .inr (.inr (.inr ?_))
            have ht : (0 : Nat) ≠ t := fun e => by subst e; rw [hs] at k; cases k
            rw [upd_other _ _ ht]; exact k
        · refine .inr (.inl ⟨t, upd_same .., ?_⟩)
          rw [upd_same]; omega
      · cases ho
    all_goals try (split at ho)
    all_goals try (cases ho; done)
    all_goals cases ho
    all_goals simp only [State.at, State.say, posted_append, posted, List.append_nil, List.length_append, List.length_cons, List.length_nil]
    all_goals first
      | grind [awake, cancelling]
      | (rename_i hs
         obtain ⟨rfl, hs⟩ := hs
         intro h1 h2 i hi
         rcases h h1 h2 i hi with k | k | k | k
         · exact .inl k
         · exact .inr (.inl (keep _ (by rw [hs]; simp) i k))
         · exact .inr (.inr (.inl k))
         · rw [hs] at k; cases k)

theorem iallowed_of {sched : List (Nat × IAct)} (h : Spec.MailboxInterrupt.loopAsks sched) : ∀ c ∈ sched, IAllowed c := by
  rintro ⟨t, a⟩ hc m rfl
  exact h t m hc

theorem wakes_irun {sched : List (Nat × IAct)} {s : IState} (hs : Spec.MailboxInterrupt.loopAsks sched)
    (h : run MailboxInterrupt.step MailboxInterrupt.init sched = some s) : Loop s.obj ∧ Wakes s := by
  have := run_inv_on IAllowed (fun s : IState => All s.obj ∧ Loop s.obj ∧ Wakes s)
    (fun s c s' hP h hc => ⟨all_istep s c s' h.1 hc, by
      rcases istep_cases hc with ⟨a, h1, h2, _⟩ | ⟨_, h2, _, h4⟩
      · exact loop_step _ _ _ (fun m hm => hP m (by rw [h1]; exact congrArg _ hm)) h.1.ord h.2.1 h2
      · rw [h4]; exact loop_hit h.2.1 _ h2, wakes_istep s c s' hP h.2.1 h.2.2 hc⟩)
    ⟨⟨acc_init, ord_init, base_init, futs_init⟩, loop_init, fun h => absurd rfl h⟩ sched (iallowed_of hs) h
  exact this.2

theorem igivenUp_run {sched : List (Nat × IAct)} {s : IState} (hs : Spec.MailboxInterrupt.patient sched)
    (h : run MailboxInterrupt.step MailboxInterrupt.init sched = some s) : givenUp s.obj.log = 0 :=
  run_inv_on (fun c : Nat × IAct => ∀ n, c.2 ≠ .act (.giveUp n)) (fun s : IState => givenUp s.obj.log = 0)
    (fun s c s' hP h hc => by
      rcases istep_cases hc with ⟨a, h1, h2, _⟩ | ⟨_, h2, _, h4⟩
      · exact (givenUp_step _ _ _ (fun n hn => hP n (by rw [h1]; exact congrArg _ hn)) h2).trans h
      · have := (delta_hit (s := s.obj) c.1 h2)
        rw [h4]
        simp only [hit, givenUp_append, h, Nat.zero_add]
        cases s.obj.pc c.1 <;> rfl) rfl sched
    (by rintro ⟨t, a⟩ hc n rfl; exact hs t n hc) h

end Expression.Lemmas.MailboxInterrupt
