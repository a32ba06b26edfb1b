import Verif.Lemmas.Worker

/-! # What an agent with an arbitrary coroutine as body loses, answers and keeps -/

namespace Expression.Lemmas.Worker

open Threads Lemmas.Mailbox Spec.Mailbox Expression.Worker Spec.Worker Lemmas.Agent

variable {S M : Type}

/-! ## losses -/

/-- a step of the mailbox, before the source is cancelled: what is delivered is what waits for the body -/
theorem delivered_inbox {s : State S M} {t : Nat} {mb : Mailbox.State} (h : Inv s) (hc : Mailbox.step s.mb (t, .go) = some mb) (htk : s.mb.token = false) :
    delivered mb.log = delivered s.mb.log ∧ inbox { s with mb := mb } = inbox s ∨
      ∃ m, delivered mb.log = delivered s.mb.log ++ [m] ∧ inbox s = [] ∧ inbox { s with mb := mb } = [m] := by
  cases go_view h.all hc with
  | same fut next del chk ref => exact .inl ⟨del, inbox_congr (s := s) (s' := { s with mb := mb }) rfl rfl fut⟩
  | began chk cont fut next del pc ref =>
    obtain ⟨⟨w, e1⟩, e2⟩ := h.check chk
    refine .inl ⟨del, ?_⟩
    unfold inbox
    simp only [e1, e2, fut, upd_same, h.futs.fresh _ (Nat.le_refl _)]
  | refused chk cont =>
    have hfut : mb.fut = s.mb.fut ∧ delivered mb.log = delivered s.mb.log := by
      simp only [Mailbox.step] at hc
      by_cases hu : t = 0
      · subst hu
        simp only [chk, cont, if_false] at hc
        cases hc
        exact ⟨rfl, by simp [Mailbox.State.at, Mailbox.State.say, delivered_append, delivered]⟩
      · rcases h.all.loop.others t hu with h5 | h5
        · simp [h5] at hc
        · simp only [h5] at hc; cases hc; exact ⟨rfl, rfl⟩
    exact .inl ⟨hfut.2, inbox_congr (s := s) (s' := { s with mb := mb }) rfl rfl hfut.1⟩
  | got n m hp fut next del chk ref =>
    obtain ⟨⟨w, e1⟩, e2⟩ := h.pend n hp
    refine .inr ⟨m, del, ?_, ?_⟩
    · unfold inbox
      simp only [e1, e2, hp]
    · unfold inbox
      simp only [e1, e2, fut, upd_same]
  | cancelled tk _ _ => rw [htk] at tk; cases tk

/-- the same for calls -/
theorem call_inbox {s : State S M} {c : Nat × Mailbox.Act} {mb : Mailbox.State} (sent : List (M × Bool)) (chan : Nat → Ask.State)
    (hk : (∃ m, c.2 = .post m) ∨ (∃ m, c.2 = .ask m) ∨ c.2 = .callback) (hc : Mailbox.step s.mb c = some mb) :
    delivered mb.log = delivered s.mb.log ∧ drops mb.log = drops s.mb.log ∧ givenUp mb.log = givenUp s.mb.log ∧ mb.token = s.mb.token ∧
      inbox { s with mb := mb, sent := sent, chan := chan } = inbox s := by
  obtain ⟨t, a⟩ := c
  simp only at hk
  rcases hk with ⟨m, rfl⟩ | ⟨m, rfl⟩ | rfl
  all_goals
    simp only [Mailbox.step] at hc
    split at hc <;> cases hc
    refine ⟨?_, ?_, ?_, rfl, inbox_congr (s := s) rfl rfl rfl⟩ <;>
      simp [Mailbox.State.at, Mailbox.State.say, delivered_append, delivered, drops_append, drops, givenUp_append, givenUp]

/-- one step, before the source is cancelled: each timeout loses at most one message -/
theorem count_step (b : Body S M) (s : State S M) (c : Nat × Act M) (s' : State S M) (h : Inv s) (htk : s.mb.token = false) (hP : ∀ t, c ≠ (t, .cancel))
    (hc : step b s c = some s') :
    s'.mb.token = false ∧ (delivered s'.mb.log).length + givenUp s'.mb.log + s.received.length + (inbox s).length ≤
      (delivered s.mb.log).length + givenUp s.mb.log + s'.received.length + (inbox s').length + (if isTimeout c then 1 else 0) := by
  obtain ⟨t, a⟩ := c
  cases a with
  | post x =>
    obtain ⟨mb, hm, rfl⟩ := Option.map_eq_some_iff.1 hc
    obtain ⟨e1, _, e2, e3, e4⟩ := call_inbox (s := s) (s.sent ++ [(x, false)]) s.chan (.inl ⟨_, rfl⟩) hm
    exact ⟨e3.trans htk, by simp only [e1, e2, e4]; omega⟩
  | ask x =>
    simp only [step] at hc
    split at hc
    · obtain ⟨mb, hm, rfl⟩ := Option.map_eq_some_iff.1 hc
      obtain ⟨e1, _, e2, e3, e4⟩ := call_inbox (s := s) (s.sent ++ [(x, true)]) (upd s.chan s.sent.length (Agent.channelCall Ask.init .wait)) (.inr (.inl ⟨_, rfl⟩)) hm
      exact ⟨e3.trans htk, by simp only [e1, e2, e4]; omega⟩
    · cases hc
  | reply k r =>
    simp only [step] at hc
    split at hc
    · cases hc
      obtain ⟨a1, a2, a3, a4, a5, a6⟩ := reply_same s k r
      have hin := inbox_congr a3 a4 (by rw [a1])
      rw [hin, a1, a6]
      exact ⟨htk, by omega⟩
    · cases hc
  | go =>
    obtain ⟨mb, hm, rfl⟩ := Option.map_eq_some_iff.1 hc
    have e3 := token_step (by simp) hm
    have e2 := givenUp_step _ _ _ (by simp) hm
    refine ⟨e3.trans htk, ?_⟩
    rcases delivered_inbox h hm htk with ⟨e1, e4⟩ | ⟨m, e1, e4, e5⟩
    · simp only [e1, e2, e4]; omega
    · simp only [e1, e2, e4, e5, List.length_append, List.length_singleton, List.length_nil]; omega
  | callback =>
    obtain ⟨mb, hm, rfl⟩ := Option.map_eq_some_iff.1 hc
    obtain ⟨e1, _, e2, e3, e4⟩ := call_inbox (s := s) s.sent s.chan (.inr (.inr rfl)) hm
    exact ⟨e3.trans htk, by simp only [e1, e2, e4]; omega⟩
  | resume v =>
    simp only [step] at hc
    split at hc
    · rename_i hi
      obtain ⟨_, e1, e2, e3, _, e4⟩ := inv_resume h hi.2 hc
      refine ⟨e3.trans htk, ?_⟩
      rw [e2, e1, e4]
      simp only [List.length_append, List.length_nil]
      omega
    · cases hc
  | timeout =>
    simp only [step] at hc
    split at hc
    · rename_i n hw
      split at hc
      · rename_i hi
        cases hc
        have hle : (inbox s).length ≤ 1 := by unfold inbox; split <;> (try split) <;> simp
        have hin : inbox (interrupt s s.mb .timeout) = [] := by
          refine inbox_intr (i := .timeout) ?_
          simp only [interrupt, hw]
        simp only [hin, List.length_nil, isTimeout, if_true]
        simp only [interrupt, hw]
        cases hg : Mailbox.step s.mb (0, .giveUp n) with
        | none => simp only [Option.getD_none]; exact ⟨htk, by omega⟩
        | some mb' =>
          obtain ⟨g1, g2, g3, g4, g5, g6, g7, g8, g9, g10, g11, _⟩ := giveUp_same hg
          have : inbox s = [] := inbox_no_result (by intro n' w' hn' m hm; rw [hw] at hn'; cases hn'; rw [g9] at hm; cases hm)
          simp only [Option.getD_some, g5, g11, this, List.length_nil]
          exact ⟨g2.trans htk, by omega⟩
      · cases hc
    · cases hc
  | cancel => exact absurd rfl (hP t)

theorem count_run {b : Body S M} {sched : List (Nat × Act M)} {s : State S M} (hu : uncancelled sched) (h : run (step b) init sched = some s) :
    s.mb.token = false ∧ (delivered s.mb.log).length + givenUp s.mb.log ≤ s.received.length + (inbox s).length + sched.countP isTimeout := by
  have := run_inv_sched (step := step b) (fun p s => Inv s ∧ (uncancelled p → s.mb.token = false ∧
      (delivered s.mb.log).length + givenUp s.mb.log ≤ s.received.length + (inbox s).length + p.countP isTimeout))
    (fun p x c x' hi hc => by
      refine ⟨inv_step b x c x' hi.1 hc, fun hu => ?_⟩
      obtain ⟨h1, h2⟩ := hi.2 fun d hd t he => hu d (List.mem_append_left _ hd) t he
      obtain ⟨h3, h4⟩ := count_step b x c x' hi.1 h1 (fun t he => hu c (by simp) t he) hc
      refine ⟨h3, ?_⟩
      simp only [List.countP_append, List.countP_singleton]
      omega)
    [] ⟨inv_init, fun _ => by simp [init, Mailbox.init, delivered, givenUp]⟩ sched h
  simpa using this.2 hu

/-! ## without timeouts -/

/-- what holds as long as no timeout passes -/
structure Whole (s : State S M) : Prop where
  pre : (s.received ++ inbox s) <+: delivered s.mb.log
  drop : drops s.mb.log = 0
  give : s.mb.token = false → givenUp s.mb.log = 0 ∧ s.received ++ inbox s = delivered s.mb.log

theorem drops_go {s : State S M} {t : Nat} {mb : Mailbox.State} (h : Inv s) (hw : Whole s) (hc : Mailbox.step s.mb (t, .go) = some mb) : drops mb.log = 0 := by
  cases htk : s.mb.token with
  | true => rw [(shut_step' _ _ _ h.all h.soon htk hc).2.1]; exact hw.drop
  | false =>
    have h1 := (loopAll_step _ _ _ (by intro m hm; cases hm) h.all hc).loop.drops1
    have h2 := givenUp_step _ _ _ (by simp) hc
    have h3 := (hw.give htk).1
    omega

theorem whole_step (b : Body S M) (s : State S M) (c : Nat × Act M) (s' : State S M) (hP : isTimeout c = false) (h : Inv s) (hw : Whole s)
    (hc : step b s c = some s') : Whole s' := by
  obtain ⟨t, a⟩ := c
  cases a with
  | post x =>
    obtain ⟨mb, hm, rfl⟩ := Option.map_eq_some_iff.1 hc
    obtain ⟨e1, e2, e3, e4, e5⟩ := call_inbox (s := s) (s.sent ++ [(x, false)]) s.chan (.inl ⟨_, rfl⟩) hm
    exact ⟨by rw [e5]; simp only [e1]; exact hw.pre, e2.trans hw.drop, by rw [e5]; simp only [e1, e3, e4]; exact hw.give⟩
  | ask x =>
    simp only [step] at hc
    split at hc
    · obtain ⟨mb, hm, rfl⟩ := Option.map_eq_some_iff.1 hc
      obtain ⟨e1, e2, e3, e4, e5⟩ := call_inbox (s := s) (s.sent ++ [(x, true)]) (upd s.chan s.sent.length (Agent.channelCall Ask.init .wait)) (.inr (.inl ⟨_, rfl⟩)) hm
      exact ⟨by rw [e5]; simp only [e1]; exact hw.pre, e2.trans hw.drop, by rw [e5]; simp only [e1, e3, e4]; exact hw.give⟩
    · cases hc
  | reply k r =>
    simp only [step] at hc
    split at hc
    · cases hc
      obtain ⟨a1, a2, a3, a4, a5, a6⟩ := reply_same s k r
      have hin := inbox_congr a3 a4 (by rw [a1])
      exact ⟨by rw [hin, a1, a6]; exact hw.pre, by rw [a1]; exact hw.drop, by rw [hin, a1, a6]; exact hw.give⟩
    · cases hc
  | go =>
    obtain ⟨mb, hm, rfl⟩ := Option.map_eq_some_iff.1 hc
    have e3 := token_step (by simp) hm
    have e2 := givenUp_step _ _ _ (by simp) hm
    refine ⟨?_, drops_go h hw hm, fun htk => ?_⟩
    · cases htk : s.mb.token with
      | true =>
        have h1 := shut_step' _ _ _ h.all h.soon htk hm
        rw [show inbox { s with mb := mb } = [] from result_token h htk h1.2.2, List.append_nil]
        simp only [h1.1]
        exact (List.prefix_append _ _).trans hw.pre
      | false =>
        have h0 := (hw.give htk).2
        rcases delivered_inbox h hm htk with ⟨e1, e4⟩ | ⟨m, e1, e4, e5⟩
        · rw [e4]; simp only [e1]; exact hw.pre
        · rw [e5]; simp only [e1]; rw [← h0, e4, List.append_nil]; exact List.prefix_rfl
    · have htk' : s.mb.token = false := e3 ▸ htk
      obtain ⟨h1, h0⟩ := hw.give htk'
      refine ⟨e2.trans h1, ?_⟩
      rcases delivered_inbox h hm htk' with ⟨e1, e4⟩ | ⟨m, e1, e4, e5⟩
      · rw [e4]; simp only [e1]; exact h0
      · rw [e5]; simp only [e1]; rw [← h0, e4, List.append_nil]
  | callback =>
    obtain ⟨mb, hm, rfl⟩ := Option.map_eq_some_iff.1 hc
    obtain ⟨e1, e2, e3, e4, e5⟩ := call_inbox (s := s) s.sent s.chan (.inr (.inr rfl)) hm
    exact ⟨by rw [e5]; simp only [e1]; exact hw.pre, e2.trans hw.drop, by rw [e5]; simp only [e1, e3, e4]; exact hw.give⟩
  | resume v =>
    simp only [step] at hc
    split at hc
    · rename_i hi
      obtain ⟨_, e1, e2, e3, _, e4⟩ := inv_resume h hi.2 hc
      exact ⟨by rw [e1, e2, e4, List.append_nil]; exact hw.pre, by rw [e2]; exact hw.drop, by rw [e1, e2, e3, e4, List.append_nil]; exact hw.give⟩
    · cases hc
  | timeout => cases hP
  | cancel =>
    simp only [step] at hc
    split at hc
    · rename_i hi
      split at hc
      · cases hc; exact hw
      · cases hc
        have h0 : (interrupt s { s.mb with token := true } .cancel).received = s.received ∧ delivered (interrupt s { s.mb with token := true } .cancel).mb.log = delivered s.mb.log ∧
            drops (interrupt s { s.mb with token := true } .cancel).mb.log = drops s.mb.log ∧ (interrupt s { s.mb with token := true } .cancel).mb.token = true ∧
            inbox (interrupt s { s.mb with token := true } .cancel) = [] := by
          have hin : inbox (interrupt s { s.mb with token := true } .cancel) = [] := by
            unfold interrupt
            split
            · exact inbox_intr rfl
            · rename_i r hr; exact inbox_not_waiting (by simp [hr])
            · exact inbox_intr rfl
          refine ⟨?_, ?_, ?_, ?_, hin⟩
          · unfold interrupt; split <;> rfl
          all_goals
            unfold interrupt
            split
            · rename_i n w ht
              cases hg : Mailbox.step { s.mb with token := true } (0, .giveUp n) with
              | none => rfl
              | some mb' =>
                obtain ⟨g1, g2, g3, g4, g5, g6, _⟩ := giveUp_same hg
                first | exact g5 | exact g6 | exact g2
            · rfl
            · rfl
        obtain ⟨a1, a2, a3, a4, a5⟩ := h0
        exact ⟨by rw [a1, a2, a5, List.append_nil]; exact (List.prefix_append _ _).trans hw.pre, a3.trans hw.drop, fun h' => by rw [a4] at h'; cases h'⟩
    · cases hc

theorem whole_run {b : Body S M} {sched : List (Nat × Act M)} {s : State S M} (hu : ∀ c ∈ sched, isTimeout c = false) (h : run (step b) init sched = some s) :
    Inv s ∧ Whole s :=
  run_inv_on (fun c : Nat × Act M => isTimeout c = false) (fun s => Inv s ∧ Whole s)
    (fun s c s' hP h hc => ⟨inv_step b s c s' h.1 hc, whole_step b s c s' hP h.1 h.2 hc⟩)
    ⟨inv_init, ⟨by simp [init, Mailbox.init, delivered, inbox], rfl, fun _ => ⟨rfl, rfl⟩⟩⟩ sched hu h

/-! ## replies -/

/-- what the reply channels hold -/
structure Chans (s : State S M) : Prop where
  unknown : ∀ k, s.sent.length ≤ k → s.chan k = Ask.init
  posted : ∀ k x, s.sent[k]? = some (x, false) → s.chan k = Ask.init
  asked : ∀ k x, s.sent[k]? = some (x, true) → Ready ((repliesTo s k).find? (·.isSome)).join (s.chan k)
  known : ∀ c ∈ s.replied, c.1 < s.sent.length

theorem chans_init : Chans (init : State S M) := by
  constructor <;> simp [init]

/-- steps that send nothing and reply nothing -/
theorem chans_same {s s' : State S M} (h : Chans s) (h1 : s'.sent = s.sent) (h2 : s'.replied = s.replied) (h3 : s'.chan = s.chan) : Chans s' := by
  obtain ⟨a1, a2, a3, a4⟩ := h
  simp only [repliesTo] at a3
  refine ⟨by rw [h1, h3]; exact a1, by rw [h1, h3]; exact a2, ?_, by rw [h1, h2]; exact a4⟩
  simp only [repliesTo]
  rw [h1, h2, h3]
  exact a3

theorem chans_send {s : State S M} (mb : Mailbox.State) (x : M) (r : Bool) (c : Ask.State) (h : Chans s) (hc : c = if r then Agent.channelCall Ask.init .wait else Ask.init) :
    Chans { s with mb := mb, sent := s.sent ++ [(x, r)], chan := upd s.chan s.sent.length c } := by
  obtain ⟨a1, a2, a3, a4⟩ := h
  have hget : ∀ k y, (s.sent ++ [(x, r)])[k]? = some y → (s.sent[k]? = some y ∧ k ≠ s.sent.length ∧ k < s.sent.length) ∨ (k = s.sent.length ∧ y = (x, r)) := by
    intro k y hk
    rw [List.getElem?_append] at hk
    split at hk
    · rename_i hlt; exact .inl ⟨hk, by omega, hlt⟩
    · rw [List.getElem?_singleton] at hk
      split at hk
      · cases hk; exact .inr ⟨by omega, rfl⟩
      · cases hk
  constructor
  · intro k hk
    simp only [List.length_append, List.length_singleton] at hk
    simp only [upd_other s.chan c (show k ≠ s.sent.length by omega)]
    exact a1 k (by omega)
  · intro k y hk
    rcases hget k _ hk with ⟨h1, h2, _⟩ | ⟨rfl, h2⟩
    · simp only [upd_other s.chan c h2]; exact a2 k y h1
    · cases h2; simp [hc]
  · intro k y hk
    rcases hget k _ hk with ⟨h1, h2, _⟩ | ⟨rfl, h2⟩
    · simp only [upd_other s.chan c h2]; exact a3 k y h1
    · cases h2
      have h0 : s.replied.filter (fun c => c.1 == s.sent.length) = [] := by
        rw [List.filter_eq_nil_iff]
        intro c hc he
        have := a4 c hc
        simp at he
        omega
      simp only [repliesTo, h0, upd_same, hc]
      exact ready_wait
  · intro c hc
    have := a4 c hc
    simp only [List.length_append, List.length_singleton]
    omega

theorem chans_reply {s : State S M} (h : Chans s) (k : Nat) (r : Option Nat) : Chans (reply s k r) := by
  unfold reply
  split
  · rename_i x hx
    obtain ⟨a1, a2, a3, a4⟩ := h
    have hlt : k < s.sent.length := (List.getElem?_eq_some_iff.1 hx).1
    refine ⟨fun k' hk' => ?_, fun k' y hy => ?_, fun k' y hy => ?_, fun c hc => ?_⟩
    · simp only at hk' ⊢
      rw [upd_other _ _ (by omega)]; exact a1 k' hk'
    · simp only at hy ⊢
      by_cases he : k' = k
      · subst he; rw [hx] at hy; cases hy
      · rw [upd_other _ _ he]; exact a2 k' y hy
    · simp only at hy ⊢
      by_cases he : k' = k
      · subst he
        have := ready_reply (a3 k' x hx) r
        simp only [upd_same, repliesTo, List.filter_append, List.map_append]
        simp only [repliesTo] at this
        simp only [beq_self_eq_true, List.filter_cons_of_pos, List.filter_nil, List.map_cons, List.map_nil, List.find?_append]
        cases ho : (List.map Prod.snd (List.filter (fun c => c.1 == k') s.replied)).find? (·.isSome) with
        | none => rw [ho] at this; cases r <;> simpa using this
        | some o' =>
          have h1 := List.find?_some ho
          rw [ho] at this
          cases o' with
          | none => cases h1
          | some v => simpa using this
      · have h0 : List.filter (fun c => c.1 == k') [(k, r)] = [] := by simp [Ne.symm he]
        simp only [upd_other _ _ he, repliesTo, List.filter_append, h0, List.append_nil]
        exact a3 k' y hy
    · simp only [List.mem_append, List.mem_singleton] at hc
      rcases hc with hc | rfl
      · exact a4 c hc
      · exact hlt
  · exact h

theorem chans_replies (rs : List (Nat × Option Nat)) {s : State S M} (h : Chans s) : Chans (rs.foldl (fun s r => reply s r.1 r.2) s) := by
  induction rs generalizing s with
  | nil => exact h
  | cons r rs ih => exact ih (chans_reply h r.1 r.2)

theorem chans_turn {s : State S M} (h : Chans s) (t : Turn S) : Chans (turn s t) := by
  have := chans_replies t.replies h
  unfold turn
  simp only
  split <;> exact chans_same this rfl rfl rfl

theorem chans_resumeWith {b : Body S M} {s : State S M} (h : Chans s) (g : Got M) : Chans (resumeWith b s g) := by
  unfold resumeWith
  split
  · exact h
  · exact chans_turn h _

theorem chans_interrupt {s : State S M} (h : Chans s) (mb : Mailbox.State) (i : Intr) : Chans (interrupt s mb i) := by
  unfold interrupt
  split <;> exact chans_same h rfl rfl rfl

theorem chans_step (b : Body S M) (s : State S M) (c : Nat × Act M) (s' : State S M) (h : Chans s) (hc : step b s c = some s') : Chans s' := by
  obtain ⟨t, a⟩ := c
  cases a with
  | post x =>
    obtain ⟨mb, hm, rfl⟩ := Option.map_eq_some_iff.1 hc
    have := chans_send mb x false Ask.init h rfl
    rwa [show upd s.chan s.sent.length Ask.init = s.chan by rw [← h.unknown _ (Nat.le_refl _)]; exact upd_self _ _] at this
  | ask x =>
    simp only [step] at hc
    split at hc
    · obtain ⟨mb, hm, rfl⟩ := Option.map_eq_some_iff.1 hc
      exact chans_send mb x true _ h rfl
    · cases hc
  | reply k r =>
    simp only [step] at hc
    split at hc
    · cases hc; exact chans_reply h k r
    · cases hc
  | go =>
    obtain ⟨mb, hm, rfl⟩ := Option.map_eq_some_iff.1 hc
    exact chans_same h rfl rfl rfl
  | callback =>
    obtain ⟨mb, hm, rfl⟩ := Option.map_eq_some_iff.1 hc
    exact chans_same h rfl rfl rfl
  | resume v =>
    have hi : Chans { s with intr := none } := chans_same h rfl rfl rfl
    simp only [step] at hc
    split at hc
    · unfold resume at hc
      split at hc
      · split at hc
        · cases hc; exact chans_same h rfl rfl rfl
        · cases hc; exact chans_turn h _
      · split at hc
        · cases hc; exact chans_resumeWith hi _
        · cases hc; exact chans_resumeWith h _
      · cases hc
      · split at hc
        · cases hc; exact chans_resumeWith h _
        · split at hc
          · cases hc; exact chans_resumeWith hi _
          · cases hc; exact chans_resumeWith hi _
          · split at hc
            · cases hc
            · rename_i m _
              obtain ⟨x, _, rfl⟩ := Option.map_eq_some_iff.1 hc
              exact chans_resumeWith (s := { s with received := s.received ++ [m] }) (chans_same h rfl rfl rfl) _
            · cases hc; exact chans_resumeWith h _
    · cases hc
  | timeout =>
    simp only [step] at hc
    split at hc
    · split at hc
      · cases hc; exact chans_interrupt h _ _
      · cases hc
    · cases hc
  | cancel =>
    simp only [step] at hc
    split at hc
    · split at hc
      · cases hc; exact h
      · cases hc; exact chans_interrupt h _ _
    · cases hc

theorem chans_run {b : Body S M} {sched : List (Nat × Act M)} {s : State S M} (h : run (step b) init sched = some s) : Chans s :=
  run_inv Chans (chans_step b) chans_init sched h

/-! ## once the body has ended, once the source is cancelled -/

/-- a body that has ended does nothing any more -/
theorem ended_step (b : Body S M) (s : State S M) (c : Nat × Act M) (s' : State S M) (r : Bool) (h : s.task = .ended r) (hc : step b s c = some s') :
    s'.task = .ended r ∧ s'.st = s.st ∧ s'.received = s.received := by
  obtain ⟨t, a⟩ := c
  cases a with
  | post x =>
    obtain ⟨mb, hm, rfl⟩ := Option.map_eq_some_iff.1 hc
    exact ⟨h, rfl, rfl⟩
  | ask x =>
    simp only [step] at hc
    split at hc
    · obtain ⟨mb, hm, rfl⟩ := Option.map_eq_some_iff.1 hc
      exact ⟨h, rfl, rfl⟩
    · cases hc
  | reply k r =>
    simp only [step] at hc
    split at hc
    · cases hc
      obtain ⟨a1, a2, a3, a4, a5, a6⟩ := reply_same s k r
      exact ⟨a3.trans h, a5, a6⟩
    · cases hc
  | go =>
    obtain ⟨mb, hm, rfl⟩ := Option.map_eq_some_iff.1 hc
    exact ⟨h, rfl, rfl⟩
  | callback =>
    obtain ⟨mb, hm, rfl⟩ := Option.map_eq_some_iff.1 hc
    exact ⟨h, rfl, rfl⟩
  | resume v =>
    simp only [step, resume, h] at hc
    split at hc <;> cases hc
  | timeout =>
    simp only [step, h] at hc
    cases hc
  | cancel =>
    simp only [step] at hc
    split at hc
    · split at hc
      · cases hc; exact ⟨h, rfl, rfl⟩
      · cases hc
        simp only [interrupt, h]
        exact ⟨trivial, trivial, trivial⟩
    · cases hc

/-- only a call of `reply` answers -/
theorem answers_same {s s' : State S M} (h : Chans s) (h' : Chans s') (hr : s'.replied = s.replied) (k : Nat) (x : M) (hk : s.sent[k]? = some (x, true))
    (hk' : s'.sent[k]? = some (x, true)) : answers s' k = answers s k := by
  unfold answers
  rw [answers_of_ready (h.asked k x hk), answers_of_ready (h'.asked k x hk')]
  simp only [repliesTo, hr]

/-- once the source is cancelled the body receives nothing -/
theorem token_step' (b : Body S M) (s : State S M) (c : Nat × Act M) (s' : State S M) (hi : Inv s) (h : s.mb.token = true) (hc : step b s c = some s') :
    s'.mb.token = true ∧ s'.received = s.received := by
  obtain ⟨t, a⟩ := c
  cases a with
  | post x =>
    obtain ⟨mb, hm, rfl⟩ := Option.map_eq_some_iff.1 hc
    exact ⟨(token_step (by simp) hm).trans h, rfl⟩
  | ask x =>
    simp only [step] at hc
    split at hc
    · obtain ⟨mb, hm, rfl⟩ := Option.map_eq_some_iff.1 hc
      exact ⟨(token_step (by simp) hm).trans h, rfl⟩
    · cases hc
  | reply k r =>
    simp only [step] at hc
    split at hc
    · cases hc
      obtain ⟨a1, a2, a3, a4, a5, a6⟩ := reply_same s k r
      exact ⟨by rw [a1]; exact h, a6⟩
    · cases hc
  | go =>
    obtain ⟨mb, hm, rfl⟩ := Option.map_eq_some_iff.1 hc
    exact ⟨(token_step (by simp) hm).trans h, rfl⟩
  | callback =>
    obtain ⟨mb, hm, rfl⟩ := Option.map_eq_some_iff.1 hc
    exact ⟨(token_step (by simp) hm).trans h, rfl⟩
  | resume v =>
    simp only [step] at hc
    split at hc
    · rename_i h0
      obtain ⟨_, _, _, e3, _, e4⟩ := inv_resume hi h0.2 hc
      exact ⟨e3.trans h, by rw [e4, hi.tok h, List.append_nil]⟩
    · cases hc
  | timeout =>
    simp only [step] at hc
    split at hc
    · rename_i n hw
      split at hc
      · cases hc
        simp only [interrupt, hw]
        cases hg : Mailbox.step s.mb (0, .giveUp n) with
        | none => exact ⟨h, trivial⟩
        | some mb' => exact ⟨(giveUp_same hg).2.1.trans h, trivial⟩
      · cases hc
    · cases hc
  | cancel =>
    simp only [step, h, if_true] at hc
    split at hc
    · cases hc; exact ⟨h, rfl⟩
    · cases hc

/-! ## nothing is stuck -/

/-- when nothing goes on any more, no call is open and no callback is scheduled -/
theorem stuck_quiescent {b : Body S M} {s : State S M} (hi : Inv s) (h : Stuck b s) : Quiescent s.mb := by
  have hgo : ∀ t, s.mb.pc t = .idle := by
    intro t
    refine Classical.byContradiction fun hne => ?_
    obtain ⟨u, _, hu⟩ := someone_goes hi.all.acc hne
    have := h (u, .go) rfl
    simp only [step, Option.map_eq_none_iff] at this
    rw [this] at hu; cases hu
  refine ⟨hgo, Classical.byContradiction fun hne => ?_⟩
  have := h (0, .callback) rfl
  simp [step, Mailbox.step, hgo 0, Nat.pos_of_ne_zero hne] at this

/-- messages that were delivered were sent -/
theorem delivered_sent {s : State S M} (hi : Inv s) : ∀ m ∈ delivered s.mb.log, m < s.sent.length := by
  intro m hm
  have h1 : m ∈ Lemmas.Mailbox.handled s.mb.log := (delivered_sublist_handled _).subset hm
  have h2 : m ∈ posted s.mb.log := by
    cases ho : s.mb.owner with
    | none => rw [hi.all.acc.free ho]; exact List.mem_append_left _ h1
    | some t => rw [hi.all.acc.held t ho]; exact List.mem_append_left _ h1
  rw [hi.num] at h2
  exact List.mem_range.1 h2

/-- and the body waits for a message, or has ended -/
theorem stuck_task {b : Body S M} {s : State S M} (hi : Inv s) (h : Stuck b s) :
    (∃ n w, s.task = .waiting n w ∧ s.mb.fut n = .pending ∧ s.intr = none ∧ s.mb.token = false) ∨ ∃ r, s.task = .ended r := by
  have hq := stuck_quiescent hi h
  have hr := h (0, .resume 0) rfl
  simp only [step, hq.1 0, and_self, if_true] at hr
  unfold resume at hr
  split at hr
  · split at hr <;> cases hr
  · split at hr <;> cases hr
  · rename_i r ht; exact .inr ⟨r, ht⟩
  · rename_i n w ht
    split at hr
    · cases hr
    · split at hr
      · cases hr
      · cases hr
      · rename_i hn
        split at hr
        · rename_i hf
          refine .inl ⟨n, w, ht, hf, hn, ?_⟩
          cases htk : s.mb.token with
          | false => rfl
          | true =>
            have := hi.soon.pend htk n hf
            rw [hq.1 0] at this; cases this
        · rename_i m hf
          exfalso
          have hmem : m ∈ delivered s.mb.log := hi.sub.subset (by
            have : inbox s = [m] := by unfold inbox; simp only [ht, hn, hf]
            simp [this])
          have := delivered_sent hi m hmem
          rw [List.getElem?_eq_getElem this] at hr
          cases hr
        · cases hr

/-- a body that waits when nothing goes on any more has an empty queue -/
theorem stuck_queue {b : Body S M} {s : State S M} {n : Nat} (hi : Inv s) (h : Stuck b s) (hf : s.mb.fut n = .pending) (htk : s.mb.token = false) : s.mb.queue = [] := by
  have hq := stuck_quiescent hi h
  refine Classical.byContradiction fun hne => ?_
  rcases hi.all.loop.pend n hf with hk | hk
  · rcases hi.all.wake.wake (by rw [hk]; simp) hne htk with h | ⟨t, h⟩ | h
    · rw [hq.2] at h; cases h
    · rw [hq.1 t] at h; cases h
    · rw [hq.1 0] at h; cases h
  · rw [hq.1 0] at hk; cases hk

/-- the account of the messages when nothing goes on -/
theorem stuck_account {b : Body S M} {s : State S M} (hi : Inv s) (h : Stuck b s) : List.range s.sent.length = Lemmas.Mailbox.handled s.mb.log ++ s.mb.queue := by
  have hq := stuck_quiescent hi h
  have hfree : s.mb.owner = none := by
    cases ho : s.mb.owner with
    | none => rfl
    | some t =>
      have := (hi.all.acc.crit t).2 ho
      rw [hq.1 t] at this; cases this
  rw [← hi.num]
  exact hi.all.acc.free hfree

/-! ## what the body received -/

theorem received_sublist {s : State S M} (hi : Inv s) : s.received.Sublist (List.range s.sent.length) := by
  refine ((List.sublist_append_left _ _).trans hi.sub).trans ((delivered_sublist_handled _).trans ?_)
  rw [← hi.num]
  cases ho : s.mb.owner with
  | none => rw [hi.all.acc.free ho]; exact List.sublist_append_left _ _
  | some t => rw [hi.all.acc.held t ho]; exact List.sublist_append_left _ _

theorem received_prefix {s : State S M} (hi : Inv s) (hw : Whole s) : s.received <+: List.range s.sent.length := by
  refine ((List.prefix_append _ _).trans hw.pre).trans ?_
  rw [← handled_of_drops _ hw.drop, ← hi.num]
  cases ho : s.mb.owner with
  | none => rw [hi.all.acc.free ho]; exact List.prefix_append _ _
  | some t => rw [hi.all.acc.held t ho]; exact List.prefix_append _ _

theorem filterMap_range (xs : List (M × Bool)) : (List.range xs.length).filterMap (fun k => (xs[k]?).map Prod.fst) = xs.map Prod.fst := by
  apply List.ext_getElem?
  intro i
  have key : ∀ n, n ≤ xs.length → (List.range n).filterMap (fun k => (xs[k]?).map Prod.fst) = (xs.map Prod.fst).take n := by
    intro n hn
    induction n with
    | zero => simp
    | succ n ih =>
      rw [List.range_succ, List.filterMap_append, ih (by omega), List.take_add_one]
      simp [List.getElem?_eq_getElem (show n < xs.length by omega)]
  rw [key _ (Nat.le_refl _)]
  rw [show xs.length = (xs.map Prod.fst).length by simp, List.take_length]

theorem received_length {s : State S M} (hi : Inv s) : (receivedMessages s).length = s.received.length := by
  have key : ∀ l : List Nat, (∀ m ∈ l, m < s.sent.length) → (l.filterMap fun k => (s.sent[k]?).map Prod.fst).length = l.length := by
    intro l
    induction l with
    | nil => simp
    | cons a l ih =>
      intro hl
      have ha := hl a (List.mem_cons_self ..)
      rw [List.filterMap_cons, List.getElem?_eq_getElem ha]
      simp only [Option.map_some, List.length_cons]
      rw [ih fun m hm => hl m (List.mem_cons_of_mem _ hm)]
  exact key _ fun m hm => List.mem_range.1 ((received_sublist hi).subset hm)

theorem no_timeouts {sched : List (Nat × Act M)} (h : sched.countP isTimeout = 0) : ∀ c ∈ sched, isTimeout c = false := by
  rw [List.countP_eq_zero] at h
  intro c hc
  simpa using h c hc

/-! ## what the body is resumed with -/

theorem replies_replied (rs : List (Nat × Option Nat)) (s : State S M) :
    (rs.foldl (fun s r => reply s r.1 r.2) s).replied = s.replied ++ rs.filter (fun r => asked s r.1) := by
  induction rs generalizing s with
  | nil => simp
  | cons r rs ih =>
    have h1 : asked (reply s r.1 r.2) = asked s := by
      funext k
      unfold asked
      rw [(reply_same s r.1 r.2).2.1]
    rw [List.foldl_cons, ih, h1, List.filter_cons]
    have h2 : (reply s r.1 r.2).replied = s.replied ++ (if asked s r.1 = true then [r] else []) := by
      unfold reply asked
      rcases hx : s.sent[r.1]? with _ | ⟨x, _ | _⟩ <;> simp
    rw [h2]
    split <;> simp

theorem turn_replied (s : State S M) (t : Turn S) : (turn s t).replied = s.replied ++ t.replies.filter (fun r => asked s r.1) := by
  rw [← replies_replied]
  unfold turn
  simp only
  split <;> rfl

/-- a body that runs -/
theorem resumed_turn {b : Body S M} {s x : State S M} {st : S} (g : Got M) (hs : s.st = some st) (hx : x.st = s.st) (h1 : x.sent = s.sent) (h2 : x.replied = s.replied)
    (h3 : match g with
      | .message m y => (messages s)[m]? = some y ∧ x.received = s.received ++ [m]
      | _ => x.received = s.received) : ResumedWith b s (resumeWith b x g) g := by
  refine ⟨st, hs, ?_⟩
  simp only [resumeWith, hx, hs]
  obtain ⟨c1, c2, c3, c4, c5, c6, c7, _, _, c8⟩ := turn_same x (b.resume st g)
  have ha : asked x = asked s := by
    funext k; unfold asked; rw [h1]
  refine ⟨c8, by rw [turn_replied, h2, ha], ?_⟩
  rw [c3]
  exact h3

theorem turn_not_created (s : State S M) (t : Turn S) : (turn s t).task ≠ .created := by
  unfold turn
  simp only
  split <;> simp

theorem resume_not_created {b : Body S M} {s s' : State S M} {v : Nat} (hi : Inv s) (hc : resume b s v = some s') : s'.task ≠ .created := by
  have hw : ∀ (x : State S M) g, x.st ≠ none → (resumeWith b x g).task ≠ .created := by
    intro x g hx
    unfold resumeWith
    split
    · exact absurd ‹_› hx
    · exact turn_not_created _ _
  have hst : s.task ≠ .created → (∀ r, s.task ≠ .ended r) → s.st ≠ none := by
    intro h1 h2 h3
    rcases hi.runs h3 with h4 | ⟨r, h4⟩
    · exact h1 h4
    · exact h2 r h4
  unfold resume at hc
  split at hc
  · split at hc
    · cases hc; simp
    · cases hc; exact turn_not_created _ _
  · rename_i ht
    have hx := hst (by rw [ht]; simp) (by rw [ht]; simp)
    split at hc <;> cases hc <;> exact hw _ _ hx
  · cases hc
  · rename_i n w ht
    have hx := hst (by rw [ht]; simp) (by rw [ht]; simp)
    split at hc
    · cases hc; exact hw _ _ hx
    · split at hc
      · cases hc; exact hw _ _ hx
      · cases hc; exact hw _ _ hx
      · split at hc
        · cases hc
        · obtain ⟨x, _, rfl⟩ := Option.map_eq_some_iff.1 hc; exact hw _ _ hx
        · cases hc; exact hw _ _ hx

/-- a body that has not run has no state -/
theorem fresh_step (b : Body S M) (s : State S M) (c : Nat × Act M) (s' : State S M) (h : Inv s ∧ (s.task = .created → s.st = none)) (hc : step b s c = some s') :
    Inv s' ∧ (s'.task = .created → s'.st = none) := by
  refine ⟨(inv_step b s c s' h.1 hc), ?_⟩
  replace h := h
  obtain ⟨t, a⟩ := c
  have hint : ∀ mb i, (interrupt s mb i).task = .created → (interrupt s mb i).st = none := by
    intro mb i
    unfold interrupt
    split <;> exact h.2
  cases a with
  | post x => obtain ⟨mb, hm, rfl⟩ := Option.map_eq_some_iff.1 hc; exact h.2
  | ask x =>
    simp only [step] at hc
    split at hc
    · obtain ⟨mb, hm, rfl⟩ := Option.map_eq_some_iff.1 hc; exact h.2
    · cases hc
  | reply k r =>
    simp only [step] at hc
    split at hc
    · cases hc
      obtain ⟨a1, a2, a3, a4, a5, a6⟩ := reply_same s k r
      rw [a3, a5]; exact h.2
    · cases hc
  | go => obtain ⟨mb, hm, rfl⟩ := Option.map_eq_some_iff.1 hc; exact h.2
  | callback => obtain ⟨mb, hm, rfl⟩ := Option.map_eq_some_iff.1 hc; exact h.2
  | resume v =>
    simp only [step] at hc
    split at hc
    · exact fun he => absurd he (resume_not_created h.1 hc)
    · cases hc
  | timeout =>
    simp only [step] at hc
    split at hc
    · split at hc
      · cases hc; exact hint _ _
      · cases hc
    · cases hc
  | cancel =>
    simp only [step] at hc
    split at hc
    · split at hc
      · cases hc; exact h.2
      · cases hc; exact hint _ _
    · cases hc

theorem fresh_run {b : Body S M} {sched : List (Nat × Act M)} {s : State S M} (h : run (step b) init sched = some s) : s.task = .created → s.st = none :=
  (run_inv (fun s => Inv s ∧ (s.task = .created → s.st = none)) (fresh_step b) ⟨inv_init, fun _ => rfl⟩ sched h).2

/-- every resumption; once the source is cancelled it is no message -/
theorem resumed_with {b : Body S M} {s s' : State S M} {v : Nat} (hi : Inv s) (hf : s.task = .created → s.st = none) (hst : s.st ≠ none) (hc : resume b s v = some s') :
    ∃ g, ResumedWith b s s' g ∧ (s.mb.token = true → ∀ m x, g ≠ .message m x) ∧ (s.intr = some .cancel → g = .cancelled) ∧
      ((∃ n w, s.task = .waiting n w) → ∀ u, g ≠ .other u) := by
  obtain ⟨st, hst'⟩ : ∃ st, s.st = some st := by
    cases h : s.st with
    | none => exact absurd h hst
    | some st => exact ⟨st, rfl⟩
  unfold resume at hc
  split at hc
  · exact absurd (hf ‹_›) hst
  · rename_i ht
    split at hc
    · cases hc
      exact ⟨.cancelled, resumed_turn (x := { s with intr := none }) .cancelled hst' rfl rfl rfl rfl, by simp, by simp, by simp⟩
    · rename_i hn
      cases hc
      exact ⟨.other v, resumed_turn (x := s) (.other v) hst' rfl rfl rfl rfl, by simp, fun h => absurd h hn, by rw [ht]; simp⟩
  · cases hc
  · rename_i n w ht
    split at hc
    · rename_i hf
      cases hc
      exact ⟨.refused, resumed_turn (x := s) .refused hst' rfl rfl rfl rfl, by simp, by rw [hi.quiet n w ht hf]; simp, by simp⟩
    · split at hc
      · cases hc
        exact ⟨.cancelled, resumed_turn (x := { s with intr := none }) .cancelled hst' rfl rfl rfl rfl, by simp, by simp, by simp⟩
      · rename_i hi'
        cases hc
        exact ⟨.timedOut, resumed_turn (x := { s with intr := none }) .timedOut hst' rfl rfl rfl rfl, by simp, by rw [hi']; simp, by simp⟩
      · rename_i hi'
        split at hc
        · cases hc
        · rename_i m hf
          obtain ⟨x, hx, rfl⟩ := Option.map_eq_some_iff.1 hc
          refine ⟨.message m x.1, resumed_turn (x := { s with received := s.received ++ [m] }) (.message m x.1) hst' rfl rfl rfl ⟨?_, rfl⟩, ?_, by rw [hi']; simp, by simp⟩
          · rw [messages, List.getElem?_map, hx]; rfl
          · intro htk
            have hin : inbox s = [m] := by unfold inbox; simp only [ht, hi', hf]
            rw [hi.tok htk] at hin; cases hin
        · cases hc
          exact ⟨.cancelled, resumed_turn (x := s) .cancelled hst' rfl rfl rfl rfl, by simp, by simp, by simp⟩

/-- the exception waits for the task -/
theorem told_step {b : Body S M} {s s' : State S M} {c : Nat × Act M} (h : s.intr = some .cancel) (ht : s.mb.token = true) (hr : isResume c = false) (hc : step b s c = some s') :
    s'.intr = some .cancel ∧ s'.st = s.st ∧ s'.task = s.task ∧ s'.mb.token = true := by
  obtain ⟨t, a⟩ := c
  cases a with
  | post x =>
    obtain ⟨mb, hm, rfl⟩ := Option.map_eq_some_iff.1 hc
    exact ⟨h, rfl, rfl, (token_step (by simp) hm).trans ht⟩
  | ask x =>
    simp only [step] at hc
    split at hc
    · obtain ⟨mb, hm, rfl⟩ := Option.map_eq_some_iff.1 hc
      exact ⟨h, rfl, rfl, (token_step (by simp) hm).trans ht⟩
    · cases hc
  | reply k r =>
    simp only [step] at hc
    split at hc
    · cases hc
      obtain ⟨a1, a2, a3, a4, a5, a6⟩ := reply_same s k r
      exact ⟨a4.trans h, a5, a3, by rw [a1]; exact ht⟩
    · cases hc
  | go =>
    obtain ⟨mb, hm, rfl⟩ := Option.map_eq_some_iff.1 hc
    exact ⟨h, rfl, rfl, (token_step (by simp) hm).trans ht⟩
  | callback =>
    obtain ⟨mb, hm, rfl⟩ := Option.map_eq_some_iff.1 hc
    exact ⟨h, rfl, rfl, (token_step (by simp) hm).trans ht⟩
  | resume v => cases hr
  | timeout =>
    simp only [step, h] at hc
    split at hc
    · split at hc
      · rename_i h1; cases h1.2.2.1
      · cases hc
    · cases hc
  | cancel =>
    simp only [step, ht, if_true] at hc
    split at hc
    · cases hc; exact ⟨h, rfl, rfl, ht⟩
    · cases hc

theorem told_run {b : Body S M} {sched : List (Nat × Act M)} {s s' : State S M} (h : s.intr = some .cancel) (ht : s.mb.token = true) (hr : ∀ c ∈ sched, isResume c = false)
    (hc : run (step b) s sched = some s') : s'.intr = some .cancel ∧ s'.st = s.st ∧ s'.task = s.task ∧ s'.mb.token = true := by
  induction sched generalizing s with
  | nil => cases hc; exact ⟨h, rfl, rfl, ht⟩
  | cons c sched ih =>
    simp only [run] at hc
    split at hc
    · cases hc
    rename_i s1 h1
    obtain ⟨a1, a2, a3, a4⟩ := told_step h ht (hr c (List.mem_cons_self ..)) h1
    obtain ⟨b1, b2, b3, b4⟩ := ih a1 a4 (fun c hc => hr c (List.mem_cons_of_mem _ hc)) hc
    exact ⟨b1, b2.trans a2, b3.trans a3, b4⟩

/-- cancelling -/
theorem cancel_step {b : Body S M} {s s' : State S M} {t : Nat} (h : s.mb.token = false) (hne : ∀ r, s.task ≠ .ended r) (hc : step b s (t, .cancel) = some s') :
    s'.intr = some .cancel ∧ s'.mb.token = true ∧ s'.st = s.st ∧ s'.task = s.task ∧ s'.received = s.received := by
  simp only [step, h] at hc
  split at hc
  · simp only [Bool.false_eq_true, if_false, Option.some.injEq] at hc
    subst hc
    unfold interrupt
    split
    · rename_i n w hw
      cases hg : Mailbox.step { s.mb with token := true } (0, .giveUp n) with
      | none => exact ⟨rfl, rfl, rfl, rfl, rfl⟩
      | some mb' => exact ⟨rfl, (giveUp_same hg).2.1, rfl, rfl, rfl⟩
    · rename_i r hr; exact absurd hr (hne r)
    · exact ⟨rfl, rfl, rfl, rfl, rfl⟩
  · cases hc

/-! ## what a step adds -/

theorem turn_sent (s : State S M) (t : Turn S) : (turn s t).sent = s.sent := (turn_same s t).1

theorem resumeWith_grow {b : Body S M} (x : State S M) (g : Got M) : (resumeWith b x g).sent = x.sent ∧ x.replied <+: (resumeWith b x g).replied := by
  unfold resumeWith
  split
  · exact ⟨rfl, List.prefix_refl _⟩
  · exact ⟨turn_sent _ _, by rw [turn_replied]; exact List.prefix_append _ _⟩

theorem reply_replied (s : State S M) (k : Nat) (r : Option Nat) : (reply s k r).replied = if asked s k then s.replied ++ [(k, r)] else s.replied := by
  unfold reply asked
  rcases s.sent[k]? with _ | ⟨x, _ | _⟩ <;> simp

/-- what is sent and replied stays -/
theorem grow_step (b : Body S M) (s : State S M) (c : Nat × Act M) (s' : State S M) (hc : step b s c = some s') : s.sent <+: s'.sent ∧ s.replied <+: s'.replied := by
  obtain ⟨t, a⟩ := c
  have hint : ∀ mb i, s.sent <+: (interrupt s mb i).sent ∧ s.replied <+: (interrupt s mb i).replied := by
    intro mb i
    unfold interrupt
    split <;> exact ⟨List.prefix_refl _, List.prefix_refl _⟩
  have hres : ∀ (x : State S M) (g : Got M), x.sent = s.sent → x.replied = s.replied → s.sent <+: (resumeWith b x g).sent ∧ s.replied <+: (resumeWith b x g).replied := by
    intro x g h1 h2
    obtain ⟨h3, h4⟩ := resumeWith_grow (b := b) x g
    rw [h3, h1]
    rw [h2] at h4
    exact ⟨List.prefix_refl _, h4⟩
  cases a with
  | post x =>
    obtain ⟨mb, hm, rfl⟩ := Option.map_eq_some_iff.1 hc
    exact ⟨List.prefix_append _ _, List.prefix_refl _⟩
  | ask x =>
    simp only [step] at hc
    split at hc
    · obtain ⟨mb, hm, rfl⟩ := Option.map_eq_some_iff.1 hc
      exact ⟨List.prefix_append _ _, List.prefix_refl _⟩
    · cases hc
  | reply k r =>
    simp only [step] at hc
    split at hc
    · cases hc
      refine ⟨by rw [(reply_same s k r).2.1]; exact List.prefix_refl _, ?_⟩
      rw [reply_replied]
      split
      · exact List.prefix_append _ _
      · exact List.prefix_refl _
    · cases hc
  | go => obtain ⟨mb, hm, rfl⟩ := Option.map_eq_some_iff.1 hc; exact ⟨List.prefix_refl _, List.prefix_refl _⟩
  | callback => obtain ⟨mb, hm, rfl⟩ := Option.map_eq_some_iff.1 hc; exact ⟨List.prefix_refl _, List.prefix_refl _⟩
  | resume v =>
    simp only [step] at hc
    split at hc
    · unfold resume at hc
      split at hc
      · split at hc
        · cases hc; exact ⟨List.prefix_refl _, List.prefix_refl _⟩
        · cases hc; exact ⟨by rw [turn_sent]; exact List.prefix_refl _, by rw [turn_replied]; exact List.prefix_append _ _⟩
      · split at hc <;> cases hc <;> exact hres _ _ rfl rfl
      · cases hc
      · split at hc
        · cases hc; exact hres _ _ rfl rfl
        · split at hc
          · cases hc; exact hres _ _ rfl rfl
          · cases hc; exact hres _ _ rfl rfl
          · split at hc
            · cases hc
            · obtain ⟨x, _, rfl⟩ := Option.map_eq_some_iff.1 hc; exact hres _ _ rfl rfl
            · cases hc; exact hres _ _ rfl rfl
    · cases hc
  | timeout =>
    simp only [step] at hc
    split at hc
    · split at hc
      · cases hc; exact hint _ _
      · cases hc
    · cases hc
  | cancel =>
    simp only [step] at hc
    split at hc
    · split at hc
      · cases hc; exact ⟨List.prefix_refl _, List.prefix_refl _⟩
      · cases hc; exact hint _ _
    · cases hc

/-- who replies: the body, and those who call `reply` -/
theorem replied_step {b : Body S M} {s : State S M} {c : Nat × Act M} {s' : State S M} (hr : isResume c = false) (hc : step b s c = some s') :
    s'.replied = s.replied ∨ ∃ t k r, c = (t, .reply k r) ∧ s'.replied = if asked s k then s.replied ++ [(k, r)] else s.replied := by
  obtain ⟨t, a⟩ := c
  have hint : ∀ mb i, (interrupt s mb i).replied = s.replied := by
    intro mb i
    unfold interrupt
    split <;> rfl
  cases a with
  | post x => obtain ⟨mb, hm, rfl⟩ := Option.map_eq_some_iff.1 hc; exact .inl rfl
  | ask x =>
    simp only [step] at hc
    split at hc
    · obtain ⟨mb, hm, rfl⟩ := Option.map_eq_some_iff.1 hc; exact .inl rfl
    · cases hc
  | reply k r =>
    simp only [step] at hc
    split at hc
    · cases hc; exact .inr ⟨t, k, r, rfl, reply_replied _ _ _⟩
    · cases hc
  | go => obtain ⟨mb, hm, rfl⟩ := Option.map_eq_some_iff.1 hc; exact .inl rfl
  | callback => obtain ⟨mb, hm, rfl⟩ := Option.map_eq_some_iff.1 hc; exact .inl rfl
  | resume v => cases hr
  | timeout =>
    simp only [step] at hc
    split at hc
    · split at hc
      · cases hc; exact .inl (hint _ _)
      · cases hc
    · cases hc
  | cancel =>
    simp only [step] at hc
    split at hc
    · split at hc
      · cases hc; exact .inl rfl
      · cases hc; exact .inl (hint _ _)
    · cases hc

theorem grow_run {b : Body S M} {sched : List (Nat × Act M)} {s s' : State S M} (hc : run (step b) s sched = some s') : s.sent <+: s'.sent ∧ s.replied <+: s'.replied :=
  run_inv (fun x => s.sent <+: x.sent ∧ s.replied <+: x.replied)
    (fun x c x' h hx => ⟨h.1.trans (grow_step b x c x' hx).1, h.2.trans (grow_step b x c x' hx).2⟩) ⟨List.prefix_refl _, List.prefix_refl _⟩ sched hc

/-- what the asker got -/
theorem answers_eq {s : State S M} (h : Chans s) (k : Nat) : answers s k = if asked s k then ((repliesTo s k).find? (·.isSome)).toList else [] := by
  unfold answers asked
  split
  · rename_i x r hk
    cases r with
    | false => rw [h.posted k x hk]; rfl
    | true =>
      rw [answers_of_ready (h.asked k x hk)]
      simp only [if_true]
  · rename_i hk
    rw [h.unknown k (List.getElem?_eq_none_iff.1 hk)]; rfl

theorem ended_run {b : Body S M} {sched : List (Nat × Act M)} {s s' : State S M} {r : Bool} (h : s.task = .ended r) (hc : run (step b) s sched = some s') :
    s'.task = .ended r ∧ s'.st = s.st ∧ s'.received = s.received :=
  run_inv (fun x => x.task = .ended r ∧ x.st = s.st ∧ x.received = s.received)
    (fun x c x' h hx => by
      obtain ⟨a1, a2, a3⟩ := ended_step b x c x' r h.1 hx
      exact ⟨a1, a2.trans h.2.1, a3.trans h.2.2⟩) ⟨h, rfl, rfl⟩ sched hc

/-- after the end of the body only others reply -/
theorem ended_replies {b : Body S M} {sched : List (Nat × Act M)} {s s' : State S M} {r : Bool} (k : Nat) (h : s.task = .ended r)
    (hno : ∀ c ∈ sched, ∀ t o, c ≠ (t, .reply k o)) (hc : run (step b) s sched = some s') : repliesTo s' k = repliesTo s k := by
  induction sched generalizing s with
  | nil => cases hc; rfl
  | cons c sched ih =>
    simp only [run] at hc
    split at hc
    · cases hc
    rename_i s1 h1
    rw [ih (ended_step b s c s1 r h h1).1 (fun c hc => hno c (List.mem_cons_of_mem _ hc)) hc]
    have hres : isResume c = false := by
      obtain ⟨t, a⟩ := c
      cases a <;> try rfl
      simp only [step, resume, h] at h1
      split at h1 <;> cases h1
    rcases replied_step hres h1 with h2 | ⟨t, k', o, rfl, h2⟩
    · unfold repliesTo; rw [h2]
    · have hk : k' ≠ k := fun he => hno _ (List.mem_cons_self ..) t o (by rw [he])
      unfold repliesTo
      rw [h2]
      split
      · simp [List.filter_append, hk]
      · rfl

theorem asked_grow {s s' : State S M} (h : s.sent <+: s'.sent) {k : Nat} (hk : k < s.sent.length) : asked s' k = asked s k := by
  obtain ⟨r, hr⟩ := h
  unfold asked
  rw [← hr, List.getElem?_append_left hk]

theorem asked_lt {s : State S M} {k : Nat} (h : asked s k = true) : k < s.sent.length := by
  unfold asked at h
  split at h
  · rename_i hk; exact (List.getElem?_eq_some_iff.1 hk).1
  · cases h

theorem repliesTo_unknown {s : State S M} (h : Chans s) {k : Nat} (hk : s.sent.length ≤ k) : repliesTo s k = [] := by
  unfold repliesTo
  rw [List.map_eq_nil_iff, List.filter_eq_nil_iff]
  intro c hc he
  have := h.known c hc
  simp at he
  omega

theorem token_run {b : Body S M} {sched : List (Nat × Act M)} {s s' : State S M} (hi : Inv s) (h : s.mb.token = true) (hc : run (step b) s sched = some s') :
    Inv s' ∧ s'.mb.token = true ∧ s'.received = s.received :=
  run_inv (fun x => Inv x ∧ x.mb.token = true ∧ x.received = s.received)
    (fun x c x' h hx => ⟨inv_step b x c x' h.1 hx, (token_step' b x c x' h.1 h.2.1 hx).1, (token_step' b x c x' h.1 h.2.1 hx).2.trans h.2.2⟩) ⟨hi, h, rfl⟩ sched hc

/-- before the body has run, and cancelling -/
structure Early (s : State S M) : Prop where
  inv : Inv s
  fresh : s.task = .created → s.st = none
  none : s.st = none → s.received = []
  tok : s.intr = some .cancel → s.mb.token = true

theorem early_step (b : Body S M) (s : State S M) (c : Nat × Act M) (s' : State S M) (h : Early s) (hc : step b s c = some s') : Early s' := by
  obtain ⟨hi, hf⟩ := fresh_step b s c s' ⟨h.inv, h.fresh⟩ hc
  refine ⟨hi, hf, ?_, ?_⟩ <;> obtain ⟨t, a⟩ := c
  · cases hst : s.st with
    | none =>
      intro _
      have hin : inbox s = [] := inbox_not_waiting (by
        intro n w hw
        rcases h.inv.runs hst with h4 | ⟨r, h4⟩ <;> rw [hw] at h4 <;> cases h4)
      have hr := h.none hst
      cases a with
      | post x => obtain ⟨mb, hm, rfl⟩ := Option.map_eq_some_iff.1 hc; exact hr
      | ask x =>
        simp only [step] at hc
        split at hc
        · obtain ⟨mb, hm, rfl⟩ := Option.map_eq_some_iff.1 hc; exact hr
        · cases hc
      | reply k r =>
        simp only [step] at hc
        split at hc
        · cases hc; exact (reply_same s k r).2.2.2.2.2.trans hr
        · cases hc
      | go => obtain ⟨mb, hm, rfl⟩ := Option.map_eq_some_iff.1 hc; exact hr
      | callback => obtain ⟨mb, hm, rfl⟩ := Option.map_eq_some_iff.1 hc; exact hr
      | resume v =>
        simp only [step] at hc
        split at hc
        · rename_i h0
          rw [(inv_resume h.inv h0.2 hc).2.2.2.2.2, hin, hr]; rfl
        · cases hc
      | timeout =>
        simp only [step] at hc
        split at hc
        · split at hc
          · cases hc; unfold interrupt; split <;> exact hr
          · cases hc
        · cases hc
      | cancel =>
        simp only [step] at hc
        split at hc
        · split at hc
          · cases hc; exact hr
          · cases hc; unfold interrupt; split <;> exact hr
        · cases hc
    | some st =>
      intro hn
      exfalso
      have hx : s.st ≠ Option.none := by rw [hst]; simp
      have same : s'.st = s.st → False := fun he => hx (he.symm.trans hn)
      cases a with
      | post x => obtain ⟨mb, hm, rfl⟩ := Option.map_eq_some_iff.1 hc; exact same rfl
      | ask x =>
        simp only [step] at hc
        split at hc
        · obtain ⟨mb, hm, rfl⟩ := Option.map_eq_some_iff.1 hc; exact same rfl
        · cases hc
      | reply k r =>
        simp only [step] at hc
        split at hc
        · cases hc; exact same (reply_same s k r).2.2.2.2.1
        · cases hc
      | go => obtain ⟨mb, hm, rfl⟩ := Option.map_eq_some_iff.1 hc; exact same rfl
      | callback => obtain ⟨mb, hm, rfl⟩ := Option.map_eq_some_iff.1 hc; exact same rfl
      | resume v =>
        simp only [step] at hc
        split at hc
        · obtain ⟨g, ⟨st', _, h1, _⟩, _⟩ := resumed_with h.inv h.fresh hx hc
          rw [hn] at h1; cases h1
        · cases hc
      | timeout =>
        simp only [step] at hc
        split at hc
        · split at hc
          · cases hc; exact same (by unfold interrupt; split <;> rfl)
          · cases hc
        · cases hc
      | cancel =>
        simp only [step] at hc
        split at hc
        · split at hc
          · cases hc; exact same rfl
          · cases hc; exact same (by unfold interrupt; split <;> rfl)
        · cases hc
  · intro hn
    have tokn : s.mb.token = true → s'.mb.token = true := fun ht => (token_step' b s (t, a) s' h.inv ht hc).1
    cases a with
    | post x => obtain ⟨mb, hm, rfl⟩ := Option.map_eq_some_iff.1 hc; exact tokn (h.tok hn)
    | ask x =>
      simp only [step] at hc
      split at hc
      · obtain ⟨mb, hm, rfl⟩ := Option.map_eq_some_iff.1 hc; exact tokn (h.tok hn)
      · cases hc
    | reply k r =>
      simp only [step] at hc
      split at hc
      · cases hc; exact tokn (h.tok ((reply_same s k r).2.2.2.1.symm.trans hn))
      · cases hc
    | go => obtain ⟨mb, hm, rfl⟩ := Option.map_eq_some_iff.1 hc; exact tokn (h.tok hn)
    | callback => obtain ⟨mb, hm, rfl⟩ := Option.map_eq_some_iff.1 hc; exact tokn (h.tok hn)
    | resume v =>
      simp only [step] at hc
      split at hc
      · refine tokn (h.tok ?_)
        have hw : ∀ (x : State S M) g, x.st = s.st → (resumeWith b x g).intr = some .cancel → x.intr = some .cancel := by
          intro x g _ hx
          unfold resumeWith at hx
          split at hx
          · exact hx
          · rw [(turn_same _ _).2.1] at hx; exact hx
        unfold resume at hc
        split at hc
        · split at hc
          · cases hc; cases hn
          · cases hc; rw [(turn_same _ _).2.1] at hn; exact hn
        · split at hc
          · assumption
          · cases hc; exact hw _ _ rfl hn
        · cases hc
        · split at hc
          · cases hc; exact hw _ _ rfl hn
          · split at hc
            · assumption
            · cases hc
              have := hw { s with intr := none } _ rfl hn
              cases this
            · split at hc
              · cases hc
              · rename_i m _
                obtain ⟨x, _, rfl⟩ := Option.map_eq_some_iff.1 hc
                exact hw { s with received := s.received ++ [m] } _ rfl hn
              · cases hc; exact hw _ _ rfl hn
      · cases hc
    | timeout =>
      simp only [step] at hc
      split at hc
      · rename_i n hw
        split at hc
        · cases hc; simp only [interrupt, hw] at hn; cases hn
        · cases hc
      · cases hc
    | cancel =>
      simp only [step] at hc
      split at hc
      · split at hc
        · cases hc; exact h.tok hn
        · rename_i ht
          cases hc
          unfold interrupt
          split
          · rename_i n w hw
            cases hg : Mailbox.step { s.mb with token := true } (0, .giveUp n) with
            | none => rfl
            | some mb' => exact (giveUp_same hg).2.1
          · rfl
          · rfl
      · cases hc

theorem early_run {b : Body S M} {sched : List (Nat × Act M)} {s : State S M} (h : run (step b) init sched = some s) : Early s :=
  run_inv Early (early_step b) ⟨inv_init, fun _ => rfl, fun _ => rfl, by simp [init]⟩ sched h

theorem begins_step {b : Body S M} {sched : List (Nat × Act M)} {s s' : State S M} {t v : Nat} (h : run (step b) init sched = some s) (hst : s.st = none)
    (hc : step b s (t, .resume v) = some s') :
    s'.received = [] ∧ ((s'.st = some b.start.state ∧ s'.replied = s.replied ++ b.start.replies.filter (fun r => asked s r.1)) ∨
      (s.mb.token = true ∧ s'.st = none ∧ s'.task = .ended true ∧ s'.replied = s.replied)) := by
  have he := early_run h
  simp only [step] at hc
  split at hc
  · rcases he.inv.runs hst with h4 | ⟨r, h4⟩
    · simp only [resume, h4] at hc
      split at hc
      · cases hc
        exact ⟨he.none hst, .inr ⟨he.tok ‹_›, hst, rfl, rfl⟩⟩
      · cases hc
        exact ⟨(turn_same s b.start).2.2.1.trans (he.none hst), .inl ⟨(turn_same s b.start).2.2.2.2.2.2.2.2.2, turn_replied _ _⟩⟩
    · simp only [resume, h4] at hc
      cases hc
  · cases hc

/-- a task that was cancelled before it ran -/
theorem never_step (b : Body S M) (s : State S M) (c : Nat × Act M) (s' : State S M)
    (h : Early s ∧ s.st = none ∧ ((s.task = .created ∧ s.intr = some .cancel ∧ s.mb.token = true) ∨ ∃ r, s.task = .ended r)) (hc : step b s c = some s') :
    Early s' ∧ s'.st = none ∧ ((s'.task = .created ∧ s'.intr = some .cancel ∧ s'.mb.token = true) ∨ ∃ r, s'.task = .ended r) := by
  refine ⟨early_step b s c s' h.1 hc, ?_⟩
  obtain ⟨_, hst, ⟨h1, h2, h3⟩ | ⟨r, h1⟩⟩ := h
  · cases hr : isResume c with
    | false =>
      obtain ⟨a1, a2, a3, a4⟩ := told_step h2 h3 hr hc
      exact ⟨a2.trans hst, .inl ⟨a3.trans h1, a1, a4⟩⟩
    | true =>
      obtain ⟨t, a⟩ := c
      cases a <;> first | cases hr; done | skip
      simp only [step, resume, h1, h2, if_true] at hc
      split at hc
      · cases hc; exact ⟨hst, .inr ⟨true, rfl⟩⟩
      · cases hc
  · obtain ⟨a1, a2, _⟩ := ended_step b s c s' r h1 hc
    exact ⟨a2.trans hst, .inr ⟨r, a1⟩⟩

/-! ## concrete cases -/

/-- a thread that does nothing is in no call -/
theorem idle_step (b : Body S M) (s : State S M) (c : Nat × Act M) (s' : State S M) (t : Nat) (ht : c.1 ≠ t) (h0 : t ≠ 0) (h : s.mb.pc t = .idle) (hc : step b s c = some s') :
    s'.mb.pc t = .idle := by
  obtain ⟨u, a⟩ := c
  have call : ∀ (mb0 : Mailbox.State) (v : Nat) (a : Mailbox.Act) (mb : Mailbox.State), mb0.pc t = .idle → v ≠ t → Mailbox.step mb0 (v, a) = some mb → mb.pc t = .idle :=
    fun mb0 v a mb h hv hm => ((left_step t _ _ _ hm).2.2.1 hv).trans h
  have getD : ∀ (mb0 : Mailbox.State) (a : Mailbox.Act), mb0.pc t = .idle → ((Mailbox.step mb0 (0, a)).getD mb0).pc t = .idle := by
    intro mb0 a h
    cases hm : Mailbox.step mb0 (0, a) with
    | none => exact h
    | some mb => exact call _ _ _ _ h (Ne.symm h0) hm
  have hint : ∀ mb i, mb.pc t = .idle → (interrupt s mb i).mb.pc t = .idle := by
    intro mb i h
    unfold interrupt
    split
    · exact getD _ _ h
    · exact h
    · exact h
  have hturn : ∀ (x : State S M) (tn : Turn S), x.mb.pc t = .idle → (turn x tn).mb.pc t = .idle := by
    intro x tn hx
    obtain ⟨b1, _⟩ := replies_same tn.replies x
    unfold turn
    simp only
    split
    · exact getD _ _ hx
    · simp only [b1]; exact hx
    · simp only [b1]; exact hx
  have hres : ∀ (x : State S M) g, x.mb = s.mb → (resumeWith b x g).mb.pc t = .idle := by
    intro x g hx
    unfold resumeWith
    split
    · rw [hx]; exact h
    · exact hturn _ _ (by rw [hx]; exact h)
  cases a with
  | post x =>
    obtain ⟨mb, hm, rfl⟩ := Option.map_eq_some_iff.1 hc
    exact call _ _ _ _ h ht hm
  | ask x =>
    simp only [step] at hc
    split at hc
    · obtain ⟨mb, hm, rfl⟩ := Option.map_eq_some_iff.1 hc
      exact call _ _ _ _ h (Ne.symm h0) hm
    · cases hc
  | reply k r =>
    simp only [step] at hc
    split at hc
    · cases hc; rw [(reply_same s k r).1]; exact h
    · cases hc
  | go =>
    obtain ⟨mb, hm, rfl⟩ := Option.map_eq_some_iff.1 hc
    exact call _ _ _ _ h ht hm
  | callback =>
    obtain ⟨mb, hm, rfl⟩ := Option.map_eq_some_iff.1 hc
    exact call _ _ _ _ h ht hm
  | resume v =>
    simp only [step] at hc
    split at hc
    · unfold resume at hc
      split at hc
      · split at hc
        · cases hc; exact h
        · cases hc; exact hturn _ _ h
      · split at hc <;> cases hc <;> exact hres _ _ rfl
      · cases hc
      · split at hc
        · cases hc; exact hres _ _ rfl
        · split at hc
          · cases hc; exact hres _ _ rfl
          · cases hc; exact hres _ _ rfl
          · split at hc
            · cases hc
            · obtain ⟨x, _, rfl⟩ := Option.map_eq_some_iff.1 hc; exact hres _ _ rfl
            · cases hc; exact hres _ _ rfl
    · cases hc
  | timeout =>
    simp only [step] at hc
    split at hc
    · split at hc
      · cases hc; exact hint _ _ h
      · cases hc
    · cases hc
  | cancel =>
    simp only [step] at hc
    split at hc
    · split at hc
      · cases hc; exact h
      · cases hc; exact hint _ _ h
    · cases hc

/-- how to see that nothing goes on any more -/
theorem stuck_of {b : Body S M} {sched : List (Nat × Act M)} {s : State S M} (h : run (step b) init sched = some s) (hs : ∀ c ∈ sched, c.1 = 0 ∨ c.1 = 1)
    (h0 : s.mb.pc 0 = .idle) (h1 : s.mb.pc 1 = .idle) (h2 : s.mb.scheduled = 0) (h3 : ∀ v, resume b s v = none) : Stuck b s := by
  have hall : ∀ t, s.mb.pc t = .idle := by
    intro t
    by_cases e0 : t = 0
    · rw [e0]; exact h0
    by_cases e1 : t = 1
    · rw [e1]; exact h1
    refine run_inv_on (fun c : Nat × Act M => c.1 ≠ t) (fun s => s.mb.pc t = .idle) (fun s c s' hP h hc => idle_step b s c s' t hP e0 h hc) rfl sched ?_ h
    intro c hc he
    rcases hs c hc with h | h <;> omega
  rintro ⟨t, a⟩ hw
  cases a <;> first | cases hw; done | skip
  · simp [step, Mailbox.step, hall t]
  · simp [step, Mailbox.step, h2]
  · simp only [step, h3, ite_self]

end Expression.Lemmas.Worker
