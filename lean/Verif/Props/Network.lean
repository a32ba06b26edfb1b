import Verif.Lemmas.NetworkTask

/-! # C117, C118: agents that post to each other and ask each other

`run (step bs) init sched = some s`: from new agents with bodies `bs` the schedule `sched` (any threads, any interleaving of their atomic actions with those of the event loop) leads
to `s`. -/

namespace Expression.Props

open Threads Lemmas Spec.Network Expression.Network Lemmas.Network

variable {n : Nat} {S M : Type}

/-! ## the agents of the examples -/

/-- A message: `none` is a question of its own, `some d` hands on the question `d`. -/
abbrev Note (n : Nat) := Option (Fin n × Nat)

/-- what an agent does with a question: it asks another agent and passes the answer on, hands the question on to another agent, or answers -/
inductive Role (n : Nat) where
  | asks (j : Fin n)
  | passes (j : Fin n)
  | answers (v : Nat)
deriving DecidableEq

inductive Phase (n : Nat) where
  | idle
  | asking (d : Fin n × Nat) (j : Fin n)
  | waiting (d : Fin n × Nat) (j : Fin n) (f : Nat)
  | passing (d : Fin n × Nat) (j : Fin n)
  | replying (d : Fin n × Nat) (v : Nat)
deriving DecidableEq

def desk (self : Fin n) (role : Role n) : Body n (Phase n) (Note n) where
  start := .idle
  next
    | .idle => .receive false
    | .asking _ j => .ask j none
    | .waiting _ j f => .await j f
    | .passing d j => .post j (some d)
    | .replying d v => .reply d.1 d.2 (some v)
  resume
    | .idle, .message k x =>
      match role with
      | .asks j => .asking (x.getD (self, k)) j
      | .passes j => .passing (x.getD (self, k)) j
      | .answers v => .replying (x.getD (self, k)) v
    | .asking d j, .other f => .waiting d j f
    | .waiting d _ _, .other v => .replying d v
    | .passing _ _, .other _ => .idle
    | .replying _ _, .other _ => .idle
    | st, _ => st

/-- they see to all questions -/
def deskManners (self : Fin n) (role : Role n) : Manners Option.isNone Option.toList self (desk self role) where
  live
    | .asking _ j => role = .asks j
    | .waiting _ j _ => role = .asks j
    | .passing _ j => role = .passes j
    | _ => True
  owes
    | .idle => []
    | .asking d _ => [d]
    | .waiting d _ _ => [d]
    | .passing d _ => [d]
    | .replying d _ => [d]
  holds
    | .waiting _ j f => [(j, f)]
    | _ => []
  begins := ⟨trivial, rfl⟩
  listens st w h hn := by
    cases st <;> first | (cases hn; done) | skip
    refine ⟨rfl, fun k x => ?_⟩
    cases role <;> cases x <;> simp [desk, duties]
  minds st v h hn := by
    cases st with
    | idle => exact absurd rfl (hn false)
    | asking d j => exact ⟨h, by simp [desk], by simp [desk, gives]⟩
    | waiting d j f => exact ⟨trivial, by simp [desk], by simp [desk]⟩
    | passing d j => exact ⟨trivial, by simp [desk, settles], by simp [desk]⟩
    | replying d u => exact ⟨trivial, by simp [desk, settles], by simp [desk]⟩
  stays st r h hn := by cases st <;> cases hn
  asks st j x h hn := by
    cases st <;> first | (cases hn; done) | skip
    simp only [desk, Next.ask.injEq] at hn
    rw [← hn.2]; rfl
  waits st j k h hn := by
    cases st <;> first | (cases hn; done) | skip
    simp only [desk, Next.await.injEq] at hn
    simp [hn.1, hn.2]

/-- they keep to the ranks if their roles do -/
theorem desk_layered (rank : Fin n → Nat) (self : Fin n) (role : Role n) (h1 : ∀ j, role = .asks j → rank j < rank self) (h2 : ∀ j, role = .passes j → rank j ≤ rank self) :
    Layered rank (deskManners self role) := by
  intro st hl
  cases st with
  | idle => exact ⟨fun j k hn => (by cases hn), fun j x hn => (by rcases hn with hn | hn <;> cases hn)⟩
  | asking d j => exact ⟨fun j k hn => (by cases hn), fun j x hn hx => (by
      rcases hn with hn | hn
      · cases hn
      · simp only [desk, Next.ask.injEq] at hn
        rw [← hn.2] at hx
        exact absurd rfl hx)⟩
  | waiting d j f => exact ⟨fun j k hn => (by
      simp only [desk, Next.await.injEq] at hn
      rw [← hn.1]; exact h1 _ hl), fun j x hn => (by rcases hn with hn | hn <;> cases hn)⟩
  | passing d j => exact ⟨fun j k hn => (by cases hn), fun j x hn _ => (by
      rcases hn with hn | hn
      · simp only [desk, Next.post.injEq] at hn
        rw [← hn.1]; exact h2 _ hl
      · cases hn)⟩
  | replying d v => exact ⟨fun j k hn => (by cases hn), fun j x hn => (by rcases hn with hn | hn <;> cases hn)⟩

/-- agent `i` goes on in its mailbox, `k` times -/
def goes (i : Fin n) (k : Nat) : List (Act n M) := List.replicate k (.at i (0, .go))

/-- agent `i` begins, and waits for its first message -/
def opens (i : Fin n) : List (Act n M) := .at i (0, .resume 0) :: goes i 8

/-- somebody asks agent `i`, which waits for a message -/
def visitor (i : Fin n) : List (Act n (Note n)) := .at i (0, .ask none) :: goes i 9

/-- three agents: 0 asks 1, which hands the question on to 2, which answers with 7 -/
def officeRole : Fin 3 → Role 3
  | 0 => .asks 1
  | 1 => .passes 2
  | 2 => .answers 7

def office (i : Fin 3) : Body 3 (Phase 3) (Note 3) := desk i (officeRole i)

/-- somebody asks 0: the question goes to 1 and on to 2, the answer back to 0 and to who asked -/
def officeSched : List (Act 3 (Note 3)) :=
  opens 0 ++ opens 1 ++ opens 2 ++ visitor 0 ++ [.at 0 (0, .resume 0), .call] ++ goes 1 9 ++ [.back] ++
    [.at 1 (0, .resume 0), .call, .at 2 (0, .go), .back] ++ goes 1 8 ++ [.at 2 (0, .callback)] ++ goes 2 9 ++
    [.at 2 (0, .resume 0), .call, .back] ++ goes 2 8 ++ [.at 0 (0, .resume 7), .call, .back] ++ goes 0 8

/-! ## C117 -/

/-- What happens to one agent among others could happen to it alone: so C110, C111, C112 and C113 hold of it. -/
theorem C117_alone (bs : Fin n → Body n S M) (sched : List (Act n M)) (s : State n S M) (i : Fin n) (h : run (step bs) init sched = some s) :
    ∃ ws, run (Worker.step (bs i).alone) Worker.init ws = some (s.agent i) ∧
      ∀ t, ((t, .cancel) ∈ ws → Act.at i (t, .cancel) ∈ sched) ∧ ((t, .timeout) ∈ ws → Act.at i (t, .timeout) ∈ sched) := by
  obtain ⟨ws, h1, h2⟩ := alone_run h i
  refine ⟨ws, h1, fun t => ⟨fun hm => ?_, fun hm => ?_⟩⟩
  · rcases h2 _ hm with h3 | h3
    · exact absurd rfl (h3.1 t)
    · exact h3
  · rcases h2 _ hm with h3 | h3
    · cases h3.2
    · exact h3

/-- Each agent receives what is sent to it, by whomever, in the order in which it is sent, each message at most once. -/
theorem C117_in_order (bs : Fin n → Body n S M) (sched : List (Act n M)) (s : State n S M) (i : Fin n) (h : run (step bs) init sched = some s) :
    (s.agent i).received.Pairwise (· < ·) ∧ (∀ m ∈ (s.agent i).received, m < (Spec.Worker.messages (s.agent i)).length) ∧
      (Spec.Worker.receivedMessages (s.agent i)).Sublist (Spec.Worker.messages (s.agent i)) := by
  obtain ⟨ws, h1, _⟩ := alone_run h i
  exact C110_in_order _ ws _ h1

/-- What a body sends reaches the agent it is sent to, as its last message, and no other. -/
theorem C117_sends (bs : Fin n → Body n S M) (s s' : State n S M) (i j : Fin n) (x : M) (hx : Sends bs s i j x) (h : step bs s .call = some s') :
    Spec.Worker.messages (s'.agent j) = Spec.Worker.messages (s.agent j) ++ [x] ∧ ∀ k, k ≠ j → s'.agent k = s.agent k := by
  obtain ⟨h1, st, h2, h3⟩ := hx
  simp only [step, h1, h2, Option.map_some] at h
  rcases h3 with h3 | h3
  · rw [h3] at h
    simp only at h
    obtain ⟨a, ha, rfl⟩ := Option.map_eq_some_iff.1 h
    obtain ⟨mb, _, rfl⟩ := Option.map_eq_some_iff.1 ha
    exact ⟨by simp [set_same, Spec.Worker.messages], fun k hk => set_other s _ hk⟩
  · rw [h3] at h
    simp only at h
    obtain ⟨a, ha, rfl⟩ := Option.map_eq_some_iff.1 h
    simp only [Worker.step, if_true] at ha
    obtain ⟨mb, _, rfl⟩ := Option.map_eq_some_iff.1 ha
    exact ⟨by simp [set_same, Spec.Worker.messages], fun k hk => set_other s _ hk⟩

/-- One agent sends `x`, and later an agent (the same or another) sends `y` to the same receiver: `y` is never received before `x`; and if nothing is cancelled and no timeout passes,
whoever has received `y` has received `x` before. -/
theorem C117_send_order (bs : Fin n → Body n S M) (before between after : List (Act n M)) (s1 s1' s2 s2' s : State n S M) (i i' j : Fin n) (x y : M)
    (h1 : run (step bs) init before = some s1) (hx : Sends bs s1 i j x) (h2 : step bs s1 .call = some s1') (h3 : run (step bs) s1' between = some s2)
    (hy : Sends bs s2 i' j y) (h4 : step bs s2 .call = some s2') (h5 : run (step bs) s2' after = some s) :
    ∃ k l : Nat, (Spec.Worker.messages (s.agent j))[k]? = some x ∧ (Spec.Worker.messages (s.agent j))[l]? = some y ∧
      (∀ a b : Nat, (s.agent j).received[a]? = some k → (s.agent j).received[b]? = some l → a < b) ∧
      (calm (before ++ between ++ after) → l ∈ (s.agent j).received → ∃ a b : Nat, (s.agent j).received[a]? = some k ∧ (s.agent j).received[b]? = some l ∧ a < b) := by
  have e1 := (C117_sends bs s1 s1' i j x hx h2).1
  have e2 := (C117_sends bs s2 s2' i' j y hy h4).1
  have g1 := (grow_agents (bs := bs) h3 j).1.map Prod.fst
  have g2 := (grow_agents (bs := bs) h5 j).1.map Prod.fst
  change Spec.Worker.messages (s1'.agent j) <+: Spec.Worker.messages (s2.agent j) at g1
  change Spec.Worker.messages (s2'.agent j) <+: Spec.Worker.messages (s.agent j) at g2
  have hrun : run (step bs) init (before ++ .call :: (between ++ .call :: after)) = some s := by
    simp only [run_append, h1, Option.bind_some, run, h2, h3, h4, h5]
  have hlen : (Spec.Worker.messages (s1.agent j)).length < (Spec.Worker.messages (s2.agent j)).length := by
    have := g1.length_le
    rw [e1] at this
    simp at this
    omega
  have hk : (Spec.Worker.messages (s.agent j))[(Spec.Worker.messages (s1.agent j)).length]? = some x := by
    obtain ⟨r1, hr1⟩ := g1
    obtain ⟨r2, hr2⟩ := g2
    rw [← hr2, e2, ← hr1, e1]
    simp
  have hl : (Spec.Worker.messages (s.agent j))[(Spec.Worker.messages (s2.agent j)).length]? = some y := by
    obtain ⟨r2, hr2⟩ := g2
    rw [← hr2, e2]
    simp
  have hord := (C117_in_order bs _ s j hrun).1
  have hpos : ∀ a b : Nat, (s.agent j).received[a]? = some (Spec.Worker.messages (s1.agent j)).length →
      (s.agent j).received[b]? = some (Spec.Worker.messages (s2.agent j)).length → a < b := by
    intro a b ha hb
    obtain ⟨ha1, ha2⟩ := List.getElem?_eq_some_iff.1 ha
    obtain ⟨hb1, hb2⟩ := List.getElem?_eq_some_iff.1 hb
    refine Classical.byContradiction fun hab => ?_
    rcases Nat.lt_or_eq_of_le (Nat.le_of_not_lt hab) with hlt | heq
    · have := List.pairwise_iff_getElem.1 hord b a hb1 ha1 hlt
      omega
    · subst heq; omega
  refine ⟨_, _, hk, hl, hpos, fun hq hm => ?_⟩
  have hq' : calm (before ++ .call :: (between ++ .call :: after)) := by
    intro c hc i t
    simp only [List.mem_append, List.mem_cons] at hc
    rcases hc with hc | rfl | hc | rfl | hc
    · exact hq c (by simp [hc]) i t
    · simp
    · exact hq c (by simp [hc]) i t
    · simp
    · exact hq c (by simp [hc]) i t
  obtain ⟨ws, w1, w2, w3⟩ := calm_alone hq' hrun j
  have hpre := (C110_prefix_partial _ ws _ w3 w1).1
  have hm' : (Spec.Worker.messages (s1.agent j)).length ∈ (s.agent j).received := by
    rw [hpre] at hm ⊢
    rw [List.mem_range] at hm ⊢
    omega
  obtain ⟨a, ha⟩ := List.mem_iff_getElem?.1 hm'
  obtain ⟨b, hb⟩ := List.mem_iff_getElem?.1 hm
  exact ⟨a, b, ha, hb, hpos a b ha hb⟩

/-- Nothing is cancelled, no timeout passes, and nothing goes on any more: each agent has ended, or waits for an answer that is not there, or has received all messages sent to it. -/
theorem C117_all_received (bs : Fin n → Body n S M) (sched : List (Act n M)) (s : State n S M) (i : Fin n) (hq : calm sched) (h : run (step bs) init sched = some s)
    (hs : Stuck bs s) :
    (∃ raised, (s.agent i).task = .ended raised) ∨ (∃ j k, awaits bs s i = some (j, k) ∧ Spec.Worker.answers (s.agent j) k = []) ∨
      ∃ k within, (s.agent i).task = .waiting k within ∧ Spec.Worker.receivedMessages (s.agent i) = Spec.Worker.messages (s.agent i) := by
  rcases stuck_agent (inv_agent h) (net_run h) hs i with ⟨j, k, h1, h2⟩ | ⟨_, h1⟩
  · refine .inr (.inl ⟨j, k, h1, ?_⟩)
    have hc := chans_agent h j
    rw [Worker.answers_eq hc]
    split
    · rename_i hk
      cases ho : (Spec.Worker.repliesTo (s.agent j) k).find? (·.isSome) with
      | none => rfl
      | some o =>
        have h3 := List.find?_some ho
        cases o with
        | none => cases h3
        | some v =>
          have : Spec.Worker.answers (s.agent j) k = [some v] := by rw [Worker.answers_eq hc, hk, if_pos rfl, ho]; rfl
          rw [(answer_answers hc k v).2 this] at h2
          cases h2
    · rfl
  · rcases stuck_receives hq h h1 with h2 | h2
    · exact .inl h2
    · exact .inr (.inr h2)

/-- A body that waits for an answer, and is not cancelled, goes on only with that answer. -/
theorem C117_answer (bs : Fin n → Body n S M) (sched : List (Act n M)) (s s' : State n S M) (i j : Fin n) (t k v : Nat) (h : run (step bs) init sched = some s)
    (hq : ∀ t, Act.at i (t, .cancel) ∉ sched) (hw : awaits bs s i = some (j, k)) (hc : step bs s (.at i (t, .resume v)) = some s') :
    Spec.Worker.answers (s.agent j) k = [some v] ∧ ∃ st, (s.agent i).st = some st ∧ (s'.agent i).st = some ((bs i).resume st (.other v)) := by
  obtain ⟨h1, st, h2, h3⟩ := awaits_iff.1 hw
  have hint := uncancelled_run i hq h
  simp only [step] at hc
  split at hc
  · rename_i hg
    have hwk := hg.2.2
    unfold wakes at hwk
    rw [h1, h2] at hwk
    simp only [h3, hint, decide_false, Bool.false_or, decide_eq_true_eq] at hwk
    refine ⟨(answer_answers (chans_agent h j) k v).1 hwk, st, h2, ?_⟩
    obtain ⟨a, ha, rfl⟩ := Option.map_eq_some_iff.1 hc
    rw [show (resumed bs s i a).agent i = a from set_same s i a]
    simp only [Worker.step] at ha
    split at ha
    · simp only [Worker.resume, h1, if_neg hint, Worker.resumeWith, h2, Option.some.injEq] at ha
      rw [← ha, (Worker.turn_same _ _).2.2.2.2.2.2.2.2.2]
      rfl
    · cases ha
  · cases hc

/-- Until it is resumed it waits. -/
theorem C117_waits (bs : Fin n → Body n S M) (sched : List (Act n M)) (s s' : State n S M) (c : Act n M) (i j : Fin n) (k : Nat) (h : run (step bs) init sched = some s)
    (hw : awaits bs s i = some (j, k)) (hc : step bs s c = some s') (hr : ∀ t v, c ≠ .at i (t, .resume v)) : awaits bs s' i = some (j, k) := by
  obtain ⟨h1, st, h2, h3⟩ := awaits_iff.1 hw
  have hcall : calling (bs i) (s.agent i) = false := by simp [calling, h1, h2, h3]
  obtain ⟨a1, a2⟩ := unresumed (net_run h) hcall hc hr
  unfold awaits at hw ⊢
  rw [a1, a2]; exact hw

/-- The task of an agent does what its body says: it waits in a `receive`, with a timeout or without; has ended; waits for something; or is making a call just now, and only then. -/
theorem C117_follows (bs : Fin n → Body n S M) (sched : List (Act n M)) (s : State n S M) (i : Fin n) (st : S) (h : run (step bs) init sched = some s)
    (hst : (s.agent i).st = some st) :
    match (bs i).next st with
    | .receive within => ∃ k, (s.agent i).task = .waiting k within
    | .stop raised => (s.agent i).task = .ended raised
    | .sleep => (s.agent i).task = .sleeping ∧ ∀ o, s.cur ≠ some (i, o)
    | .await _ _ => (s.agent i).task = .sleeping ∧ ∀ o, s.cur ≠ some (i, o)
    | _ => (s.agent i).task = .sleeping ∧ ∃ o, s.cur = some (i, o) := by
  have hp := (placed_agent h i).fits st hst
  have hn := net_run h
  cases hx : (bs i).next st <;> simp only [turn, hx, AtNext] at hp ⊢
  · exact hp
  · refine ⟨hp, fun o ho => ?_⟩
    have := hn.cur i o ho
    simp [calling, hp, hst, hx] at this
  · exact hp
  · exact ⟨hp, hn.all i (by simp [calling, hp, hst, hx])⟩
  · exact ⟨hp, hn.all i (by simp [calling, hp, hst, hx])⟩
  · refine ⟨hp, fun o ho => ?_⟩
    have := hn.cur i o ho
    simp [calling, hp, hst, hx] at this
  · exact ⟨hp, hn.all i (by simp [calling, hp, hst, hx])⟩

/-- A body that is at a call goes on only after the call is made (`C117_sends` says what a call does that sends). -/
theorem C117_calls (bs : Fin n → Body n S M) (s s' : State n S M) (c : Act n M) (i : Fin n) (hi : s.cur = some (i, none)) (hc : step bs s c = some s') (hn : c ≠ .call) :
    s'.cur = some (i, none) ∧ (s'.agent i).st = (s.agent i).st := by
  have key : ∀ j wc a, Spec.Worker.isResume wc = false → Worker.step (bs j).alone (s.agent j) wc = some a →
      (s.set j a).cur = some (i, none) ∧ ((s.set j a).agent i).st = (s.agent i).st := by
    intro j wc a hr hw
    refine ⟨hi, ?_⟩
    by_cases hj : i = j
    · subst hj
      rw [set_same]
      exact (Worker.outside_same hr hw).2.1
    · rw [set_other s a hj]
  cases c with
  | call => exact absurd rfl hn
  | back => simp only [step, hi] at hc; cases hc
  | «at» j wc =>
    obtain ⟨t, act⟩ := wc
    cases act with
    | go =>
      obtain ⟨a, ha, rfl⟩ := Option.map_eq_some_iff.1 hc
      exact key j _ a rfl ha
    | resume v =>
      simp only [step, hi] at hc
      rw [if_neg (by simp)] at hc
      cases hc
    | _ =>
      simp only [step] at hc
      split at hc
      · obtain ⟨a, ha, rfl⟩ := Option.map_eq_some_iff.1 hc
        exact key j _ a rfl ha
      · cases hc

/-- Asking gives the future of just the question that it sends, which has a reply channel. -/
theorem C117_asks (bs : Fin n → Body n S M) (s s' : State n S M) (i j : Fin n) (st : S) (x : M) (hi : s.cur = some (i, none)) (hst : (s.agent i).st = some st)
    (hx : (bs i).next st = .ask j x) (hc : step bs s .call = some s') :
    ∃ k, s'.cur = some (i, some k) ∧ (Spec.Worker.messages (s'.agent j))[k]? = some x ∧ k = (Spec.Worker.messages (s.agent j)).length ∧ Spec.Worker.asked (s'.agent j) k = true := by
  simp only [step, hi, hst, Option.map_some, hx] at hc
  obtain ⟨a, ha, rfl⟩ := Option.map_eq_some_iff.1 hc
  simp only [Worker.step, if_true] at ha
  obtain ⟨mb, _, rfl⟩ := Option.map_eq_some_iff.1 ha
  refine ⟨_, rfl, ?_, ?_, ?_⟩
  · simp [set_same, Spec.Worker.messages]
  · simp [Spec.Worker.messages]
  · simp [set_same, Spec.Worker.asked]

/-- Replying reaches the channel of just that question, of just that agent. -/
theorem C117_replies (bs : Fin n → Body n S M) (s s' : State n S M) (i j : Fin n) (st : S) (k : Nat) (r : Option Nat) (hi : s.cur = some (i, none)) (hst : (s.agent i).st = some st)
    (hx : (bs i).next st = .reply j k r) (hk : Spec.Worker.asked (s.agent j) k = true) (hc : step bs s .call = some s') :
    (s'.agent j).replied = (s.agent j).replied ++ [(k, r)] ∧ Spec.Worker.messages (s'.agent j) = Spec.Worker.messages (s.agent j) ∧ ∀ l, l ≠ j → s'.agent l = s.agent l := by
  simp only [step, hi, hst, Option.map_some, hx] at hc
  obtain ⟨a, ha, rfl⟩ := Option.map_eq_some_iff.1 hc
  simp only [Worker.step] at ha
  split at ha
  · cases ha
    refine ⟨?_, ?_, fun l hl => set_other s _ hl⟩
    · simp only [set_same]
      unfold Worker.reply
      unfold Spec.Worker.asked at hk
      split
      · rfl
      · rename_i h1
        cases h2 : (s.agent j).sent[k]? with
        | none => rw [h2] at hk; cases hk
        | some y =>
          obtain ⟨y, b⟩ := y
          rw [h2] at hk
          simp at hk
          subst hk
          exact absurd h2 (h1 y)
    · simp only [set_same]
      unfold Worker.reply
      split <;> rfl
  · cases ha

/-- A body goes on after a call with what the call gave. -/
theorem C117_back (bs : Fin n → Body n S M) (sched : List (Act n M)) (s s' : State n S M) (i : Fin n) (st : S) (v : Nat) (h : run (step bs) init sched = some s)
    (hq : ∀ t, Act.at i (t, .cancel) ∉ sched) (hi : s.cur = some (i, some v)) (hst : (s.agent i).st = some st) (hc : step bs s .back = some s') :
    (s'.agent i).st = some ((bs i).resume st (.other v)) := by
  have hint := uncancelled_run i hq h
  have hcall := (net_run h).cur i _ hi
  have htask : (s.agent i).task = .sleeping := by
    unfold calling at hcall
    split at hcall
    · assumption
    · cases hcall
  simp only [step, hi] at hc
  split at hc
  · obtain ⟨a, ha, rfl⟩ := Option.map_eq_some_iff.1 hc
    rw [show (resumed bs s i a).agent i = a from set_same s i a]
    simp only [Worker.step] at ha
    split at ha
    · simp only [Worker.resume, htask, if_neg hint, Worker.resumeWith, hst, Option.some.injEq] at ha
      rw [← ha, (Worker.turn_same _ _).2.2.2.2.2.2.2.2.2]
      rfl
    · cases ha
  · cases hc

/-! ### what meets the hypotheses of C117 -/

/-- the question of the one who asked is answered with 7, so is that of agent 0, and agent 2 has received what agent 1 handed on -/
example : ((run (step office) init officeSched).map fun s => ((Spec.Worker.answers (s.agent 0) 0, Spec.Worker.answers (s.agent 1) 0), Spec.Worker.receivedMessages (s.agent 2))) =
    some (([some 7], [some 7]), [some (1, 0)]) := by decide +kernel

/-- agent 0 has asked agent 1, and waits for the answer -/
example : ((run (step office) init (officeSched.take 49)).map fun s => awaits office s 0) = some (some (1, 0)) := by decide +kernel

/-- agent 0 is about to ask agent 1, and, asked again, a second time: that is its second message -/
example : ((run (step office) init (officeSched.take 38)).map fun s => (s.cur, (s.agent 0).st)) = some (some (0, none), some (.asking (0, 0) 1)) ∧
    ((run (step office) init (officeSched ++ visitor 0 ++ [.at 0 (0, .resume 0)])).map fun s => (s.cur, (s.agent 0).st)) = some (some (0, none), some (.asking (0, 1) 1)) ∧
    ((run (step office) init (officeSched ++ visitor 0 ++ [.at 0 (0, .resume 0), .call] ++ goes 1 9 ++ [.back, .at 1 (0, .resume 0)])).map fun s => (s.agent 1).received) =
      some [0, 1] := by decide +kernel

/-! ## C118 -/

/-- Agents that see to all questions, asked and left alone until nothing goes on any more, have answered all questions. -/
def C118_full_statement : Prop :=
  ∀ (n : Nat) (S M : Type) (bs : Fin n → Body n S M) (wants : M → Bool) (carries : M → List (Fin n × Nat)), (∀ i, Nonempty (Manners wants carries i (bs i))) →
    ∀ sched s, calm sched → proper wants sched → run (step bs) init sched = some s → Stuck bs s → Settled s

/-- two agents that ask each other -/
def twins (i : Fin 2) : Body 2 (Phase 2) (Note 2) := desk i (.asks (1 - i))

/-- somebody asks 0, which asks 1, which asks 0 -/
def twinsSched : List (Act 2 (Note 2)) :=
  opens 0 ++ opens 1 ++ visitor 0 ++ [.at 0 (0, .resume 0), .call] ++ goes 1 9 ++ [.back, .at 1 (0, .resume 0), .call] ++ goes 0 2 ++ [.back]

/-- what a schedule is, as a computation: threads 0 and 1, no cancellation, no timeout, questions with their channel -/
def plain : Act n (Note n) → Bool
  | .at _ (t, a) => (t == 0 || t == 1) && (match a with | .cancel => false | .timeout => false | .ask x => x.isNone | _ => true)
  | _ => true

theorem plain_calm {sched : List (Act n (Note n))} (h : ∀ c ∈ sched, plain c = true) :
    calm sched ∧ proper Option.isNone sched ∧ ∀ c ∈ sched, ∀ i wc, c = .at i wc → wc.1 = 0 ∨ wc.1 = 1 := by
  refine ⟨fun c hc i t => ⟨fun e => ?_, fun e => ?_⟩, fun i t x hx => ?_, fun c hc i wc e => ?_⟩
  · have := h c hc
    rw [e] at this
    simp [plain] at this
  · have := h c hc
    rw [e] at this
    simp [plain] at this
  · have := h _ hx
    simp only [plain, Bool.and_eq_true] at this
    exact this.2
  · have := h c hc
    rw [e] at this
    simp only [plain, Bool.and_eq_true, Bool.or_eq_true, beq_iff_eq] at this
    exact this.1

/-- nothing goes on any more, as a computation -/
def still (bs : Fin n → Body n (Phase n) (Note n)) (s : State n (Phase n) (Note n)) : Bool :=
  decide (s.cur = none) && (List.finRange n).all fun i =>
    decide ((s.agent i).mb.pc 0 = .idle) && decide ((s.agent i).mb.pc 1 = .idle) && decide ((s.agent i).mb.scheduled = 0) && rests bs s i

theorem still_stuck {bs : Fin n → Body n (Phase n) (Note n)} {sched : List (Act n (Note n))} {s : State n (Phase n) (Note n)} (hp : ∀ c ∈ sched, plain c = true)
    (h : run (step bs) init sched = some s) (hs : still bs s = true) : Stuck bs s := by
  simp only [still, Bool.and_eq_true, decide_eq_true_eq, List.all_eq_true, List.mem_finRange, forall_const] at hs
  exact stuck_net h (plain_calm hp).2.2 (fun i => (hs.2 i).1.1) (fun i => (hs.2 i).1.2) hs.1 (fun i v => rests_resume (hs.2 i).2 v)

/-- It is false: of two agents that ask each other neither ever answers. -/
theorem C118_full_statement_false : ¬ C118_full_statement := by
  intro H
  have hp : ∀ c ∈ twinsSched, plain c = true := by decide +kernel
  have h : (run (step twins) init twinsSched).map (fun s => (still twins s, Spec.Worker.asked (s.agent 0) 0, Spec.Worker.answers (s.agent 0) 0)) = some (true, true, []) := by
    decide +kernel
  obtain ⟨s, h1, h2⟩ := Option.map_eq_some_iff.1 h
  simp only [Prod.mk.injEq] at h2
  obtain ⟨h2, h3, h4⟩ := h2
  obtain ⟨v, hv⟩ := (H 2 _ _ twins _ _ (fun i => ⟨deskManners i _⟩) twinsSched s (plain_calm hp).1 (plain_calm hp).2.1 h1 (still_stuck hp h1 h2)).2 0 0 h3
  rw [h4] at hv
  cases hv

/-- agent 0 asks agent 1, which hands the question back to it -/
def reboundRole : Fin 2 → Role 2
  | 0 => .asks 1
  | 1 => .passes 0

def rebound (i : Fin 2) : Body 2 (Phase 2) (Note 2) := desk i (reboundRole i)

def reboundSched : List (Act 2 (Note 2)) :=
  opens 0 ++ opens 1 ++ visitor 0 ++ [.at 0 (0, .resume 0), .call] ++ goes 1 9 ++ [.back, .at 1 (0, .resume 0), .call, .at 0 (0, .go), .back] ++ goes 1 8 ++
    [.at 0 (0, .callback)] ++ goes 0 2

/-- Nor does it help that nobody waits for an answer from an agent that is not below it, as long as questions may be handed up. -/
theorem C118_handed_up : ¬ ∀ (n : Nat) (S M : Type) (bs : Fin n → Body n S M) (rank : Fin n → Nat) (wants : M → Bool) (carries : M → List (Fin n × Nat))
    (ms : ∀ i, Manners wants carries i (bs i)), (∀ i st j k, (ms i).live st → (bs i).next st = .await j k → rank j < rank i) →
    ∀ sched s, calm sched → proper wants sched → run (step bs) init sched = some s → Stuck bs s → Settled s := by
  intro H
  have hp : ∀ c ∈ reboundSched, plain c = true := by decide +kernel
  have h : (run (step rebound) init reboundSched).map (fun s => (still rebound s, Spec.Worker.asked (s.agent 0) 0, Spec.Worker.answers (s.agent 0) 0)) = some (true, true, []) := by
    decide +kernel
  obtain ⟨s, h1, h2⟩ := Option.map_eq_some_iff.1 h
  simp only [Prod.mk.injEq] at h2
  obtain ⟨h2, h3, h4⟩ := h2
  have hr : ∀ i st j k, (deskManners i (reboundRole i)).live st → (rebound i).next st = .await j k → (fun i : Fin 2 => 1 - i.val) j < (fun i : Fin 2 => 1 - i.val) i := by
    intro i st j k hl hn
    cases st <;> first | (cases hn; done) | skip
    simp only [rebound, desk, Next.await.injEq] at hn
    rw [hn.1] at hl
    have hl : reboundRole i = .asks j := hl
    unfold reboundRole at hl
    split at hl
    · simp only [Role.asks.injEq] at hl; rw [← hl]; decide
    · cases hl
  obtain ⟨v, hv⟩ := (H 2 _ _ rebound (fun i => 1 - i.val) _ _ (fun i => deskManners i _) hr reboundSched s (plain_calm hp).1 (plain_calm hp).2.1 h1 (still_stuck hp h1 h2)).2 0 0 h3
  rw [h4] at hv
  cases hv

/-- What holds: the agents are ranked, each waits only for answers from below and hands questions on only to agents that are not above it.  Then, whatever the schedule, once nothing
goes on any more all questions, of agents and of others, are answered, each once and not with `None`, and all agents wait for messages, having received all. -/
theorem C118_answered_partial (bs : Fin n → Body n S M) (rank : Fin n → Nat) (wants : M → Bool) (carries : M → List (Fin n × Nat)) (ms : ∀ i, Manners wants carries i (bs i))
    (hl : ∀ i, Layered rank (ms i)) (sched : List (Act n M)) (s : State n S M) (hq : calm sched) (hp : proper wants sched) (h : run (step bs) init sched = some s)
    (hs : Stuck bs s) : Settled s := settled hl hq hp h hs

/-- the three agents of the office are ranked, and nothing goes on after their day -/
example : (∀ i, Layered (fun i : Fin 3 => if i = 0 then 1 else 0) (deskManners i (officeRole i))) ∧ calm officeSched ∧ proper Option.isNone officeSched ∧
    ∃ s, run (step office) init officeSched = some s ∧ Stuck office s ∧ Spec.Worker.asked (s.agent 0) 0 = true := by
  have hp : ∀ c ∈ officeSched, plain c = true := by decide +kernel
  have h : (run (step office) init officeSched).map (fun s => (still office s, Spec.Worker.asked (s.agent 0) 0)) = some (true, true) := by decide +kernel
  obtain ⟨s, h1, h2⟩ := Option.map_eq_some_iff.1 h
  simp only [Prod.mk.injEq] at h2
  refine ⟨fun i => desk_layered _ i _ (fun j hj => ?_) (fun j hj => ?_), (plain_calm hp).1, (plain_calm hp).2.1, s, h1, still_stuck hp h1 h2.1, h2.2⟩
  · unfold officeRole at hj
    split at hj
    · simp only [Role.asks.injEq] at hj; rw [← hj]; decide
    · cases hj
    · cases hj
  · unfold officeRole at hj
    split at hj
    · cases hj
    · simp only [Role.passes.injEq] at hj; rw [← hj]; decide
    · cases hj

/-- Agents each of which waits for the answer of another of them (or its own) wait for ever: whatever is sent to them, whatever others do, short of cancelling them and of answering in
their place. -/
theorem C118_forever (bs : Fin n → Body n S M) (A : Fin n → Prop) (before after : List (Act n M)) (s s' : State n S M) (hb : run (step bs) init before = some s)
    (hno : ∀ i, ¬ A i → ∀ st j k r, (bs i).next st = .reply j k r → ¬ A j) (hq : ∀ i t, A i → Act.at i (t, .cancel) ∉ before ++ after)
    (hr : ∀ i t k r, A i → Act.at i (t, .reply k r) ∉ after)
    (hw : ∀ i, A i → ∃ j k, awaits bs s i = some (j, k) ∧ A j ∧ Spec.Worker.asked (s.agent j) k = true ∧ Spec.Worker.answers (s.agent j) k = [])
    (ha : run (step bs) s after = some s') :
    ∀ i, A i → ∃ j k, awaits bs s i = some (j, k) ∧ awaits bs s' i = some (j, k) ∧ Spec.Worker.answers (s'.agent j) k = [] :=
  circle_run hno hq hr hb ha hw

/-- the two that ask each other -/
example : (∀ c ∈ twinsSched, ∀ i t, c ≠ .at i (t, .cancel)) ∧
    (run (step twins) init twinsSched).map (fun s => (awaits twins s 0, Spec.Worker.asked (s.agent 1) 0, Spec.Worker.answers (s.agent 1) 0)) = some (some (1, 0), true, []) ∧
    (run (step twins) init twinsSched).map (fun s => (awaits twins s 1, Spec.Worker.asked (s.agent 0) 1, Spec.Worker.answers (s.agent 0) 1)) = some (some (0, 1), true, []) :=
  ⟨fun c hc i t => ((plain_calm (sched := twinsSched) (by decide +kernel)).1 c hc i t).1, by decide +kernel, by decide +kernel⟩

/-- one that asks itself -/
example : (run (step fun i : Fin 1 => desk i (.asks 0)) init (opens 0 ++ visitor 0 ++ [.at 0 (0, .resume 0), .call] ++ goes 0 2 ++ [.back])).map (fun s =>
    (awaits (fun i : Fin 1 => desk i (.asks 0)) s 0, Spec.Worker.asked (s.agent 0) 1, Spec.Worker.answers (s.agent 0) 1)) = some (some (0, 1), true, []) := by decide +kernel

end Expression.Props
