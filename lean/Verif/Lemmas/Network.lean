import Verif.Lemmas.WorkerCalm
import Verif.Spec.Network

/-! # Agents that post to each other and ask each other -/

namespace Expression.Lemmas.Network

open Threads Expression.Network Spec.Network

variable {n : Nat} {S M : Type}

theorem set_same (s : State n S M) (i : Fin n) (a : Worker.State S M) : (s.set i a).agent i = a := by simp [State.set]

theorem set_other (s : State n S M) {i j : Fin n} (a : Worker.State S M) (h : j ≠ i) : (s.set i a).agent j = s.agent j := by simp [State.set, h]

theorem set_agent (s : State n S M) (i j : Fin n) (a : Worker.State S M) : (s.set i a).agent j = if j = i then a else s.agent j := rfl

theorem set_cur (s : State n S M) (i : Fin n) (a : Worker.State S M) : (s.set i a).cur = s.cur := rfl

/-- the call that a body makes, as an action on the agent it is made on, and what it gives -/
inductive Calls (s : State n S M) : Next n M → Fin n → Worker.Act M → Nat → Prop where
  | post (j : Fin n) (x : M) : Calls s (.post j x) j (.post x) 0
  | ask (j : Fin n) (x : M) : Calls s (.ask j x) j (.ask x) (s.agent j).sent.length
  | reply (j : Fin n) (k : Nat) (r : Option Nat) : Calls s (.reply j k r) j (.reply k r) 0

/-- the kinds of actions -/
inductive Stepped (bs : Fin n → Body n S M) (s s' : State n S M) (c : Act n M) : Prop where
  | outside (i : Fin n) (wc : Nat × Worker.Act M) (a : Worker.State S M) (hc : c = .at i wc) (hr : Spec.Worker.isResume wc = false)
      (hw : Worker.step (bs i).alone (s.agent i) wc = some a) (h : s' = s.set i a)
  | resumes (i : Fin n) (v : Nat) (a : Worker.State S M) (hc : (s.cur = none ∧ wakes bs s i v = true) ∨ s.cur = some (i, some v)) (hf : free s 0 = true)
      (hw : Worker.step (bs i).alone (s.agent i) (0, .resume v) = some a) (h : s' = resumed bs s i a)
  | calls (i : Fin n) (st : S) (j : Fin n) (wc : Worker.Act M) (v : Nat) (a : Worker.State S M) (hcur : s.cur = some (i, none)) (hs : (s.agent i).st = some st)
      (hc : Calls s ((bs i).next st) j wc v) (hw : Worker.step (bs j).alone (s.agent j) (0, wc) = some a) (h : s' = { s.set j a with cur := some (i, some v) })

theorem stepped {bs : Fin n → Body n S M} {s s' : State n S M} {c : Act n M} (h : step bs s c = some s') : Stepped bs s s' c := by
  unfold step at h
  split at h
  · obtain ⟨a, ha, rfl⟩ := Option.map_eq_some_iff.1 h
    exact .outside _ _ a rfl rfl ha rfl
  · rename_i i t v
    split at h
    · rename_i hg
      obtain ⟨a, ha, rfl⟩ := Option.map_eq_some_iff.1 h
      have ht : t = 0 := by
        simp only [Worker.step] at ha
        split at ha
        · rename_i h0; exact h0.1
        · cases ha
      subst ht
      exact .resumes i v a (.inl ⟨hg.1, hg.2.2⟩) hg.2.1 ha rfl
    · cases h
  · rename_i i t wc h1 h2
    split at h
    · obtain ⟨a, ha, rfl⟩ := Option.map_eq_some_iff.1 h
      refine .outside i (t, wc) a rfl ?_ ha rfl
      cases wc <;> first | rfl | exact absurd rfl (h2 _)
    · cases h
  · split at h
    · rename_i i hcur
      cases hst : (s.agent i).st with
      | none => rw [hst] at h; cases h
      | some st =>
        rw [hst] at h
        simp only [Option.map_some] at h
        split at h
        · rename_i j x hn
          obtain ⟨a, ha, rfl⟩ := Option.map_eq_some_iff.1 h
          simp only [Option.some.injEq] at hn
          exact .calls i st j _ _ a hcur hst (by rw [hn]; exact .post j x) ha rfl
        · rename_i j x hn
          obtain ⟨a, ha, rfl⟩ := Option.map_eq_some_iff.1 h
          simp only [Option.some.injEq] at hn
          exact .calls i st j _ _ a hcur hst (by rw [hn]; exact .ask j x) ha rfl
        · rename_i j k r hn
          obtain ⟨a, ha, rfl⟩ := Option.map_eq_some_iff.1 h
          simp only [Option.some.injEq] at hn
          exact .calls i st j _ _ a hcur hst (by rw [hn]; exact .reply j k r) ha rfl
        · cases h
    · cases h
  · split at h
    · rename_i i v hcur
      split at h
      · rename_i hf
        obtain ⟨a, ha, rfl⟩ := Option.map_eq_some_iff.1 h
        exact .resumes i v a (.inr hcur) hf ha rfl
      · cases h
    · cases h

/-! ## each agent on its own -/

/-- an action on one agent is one that it could see alone, and cancellations and timeouts are those of the schedule -/
theorem alone_step {bs : Fin n → Body n S M} {s s' : State n S M} {c : Act n M} (h : step bs s c = some s') (k : Fin n) :
    s'.agent k = s.agent k ∨ ∃ wc, Worker.step (bs k).alone (s.agent k) wc = some (s'.agent k) ∧
      ((∀ t, wc ≠ (t, .cancel)) ∧ Spec.Worker.isTimeout wc = false ∧ wc.1 = 0 ∨ c = .at k wc) := by
  cases stepped h with
  | outside i wc a hc hr hw h =>
    subst h
    by_cases hk : k = i
    · subst hk
      exact .inr ⟨wc, by rw [set_same]; exact hw, .inr hc⟩
    · exact .inl (set_other s a hk)
  | resumes i v a hc hf hw h =>
    subst h
    by_cases hk : k = i
    · subst hk
      refine .inr ⟨(0, .resume v), ?_, (.inl ⟨by simp, rfl, rfl⟩)⟩
      rw [show (resumed bs s k a).agent k = a from set_same s k a]; exact hw
    · exact .inl (set_other s a hk)
  | calls i st j wc v a hcur hs hc hw h =>
    subst h
    by_cases hk : k = j
    · subst hk
      refine .inr ⟨(0, wc), ?_, .inl ?_⟩
      · rw [show ({ s.set k a with cur := some (i, some v) } : State n S M).agent k = a from set_same s k a]; exact hw
      · generalize (bs i).next st = nx at hc
        cases hc <;> exact ⟨by simp, rfl, rfl⟩
    · exact .inl (set_other s a hk)

/-- what happens to one agent in a network could happen to it alone -/
theorem alone_run {bs : Fin n → Body n S M} {sched : List (Act n M)} {s : State n S M} (h : run (step bs) init sched = some s) (k : Fin n) :
    ∃ ws, run (Worker.step (bs k).alone) Worker.init ws = some (s.agent k) ∧
      ∀ wc ∈ ws, ((∀ t, wc ≠ (t, .cancel)) ∧ Spec.Worker.isTimeout wc = false) ∨ Act.at k wc ∈ sched := by
  have := run_inv_sched (step := step bs) (fun p (s : State n S M) => ∃ ws, run (Worker.step (bs k).alone) Worker.init ws = some (s.agent k) ∧
      ∀ wc ∈ ws, ((∀ t, wc ≠ (t, .cancel)) ∧ Spec.Worker.isTimeout wc = false) ∨ Act.at k wc ∈ p)
    (fun p s c s' ⟨ws, h1, h2⟩ hc => by
      rcases alone_step hc k with he | ⟨wc, hw, hk⟩
      · exact ⟨ws, by rw [he]; exact h1, fun wc hwc => (h2 wc hwc).imp_right (List.mem_append_left _)⟩
      · refine ⟨ws ++ [wc], ?_, ?_⟩
        · rw [run_append, h1]
          simp only [Option.bind_some, run, hw]
        · intro c' hc'
          rcases List.mem_append.1 hc' with hc' | hc'
          · exact (h2 c' hc').imp_right (List.mem_append_left _)
          · rw [List.mem_singleton.1 hc']
            rcases hk with hk | hk
            · exact .inl ⟨hk.1, hk.2.1⟩
            · exact .inr (List.mem_append_right _ (by rw [hk]; exact List.mem_singleton_self _)))
    [] ⟨[], rfl, by simp⟩ sched h
  simpa using this

/-- nothing is cancelled and no timeout passes -/
theorem calm_alone {bs : Fin n → Body n S M} {sched : List (Act n M)} {s : State n S M} (hq : calm sched) (h : run (step bs) init sched = some s) (k : Fin n) :
    ∃ ws, run (Worker.step (bs k).alone) Worker.init ws = some (s.agent k) ∧ Spec.Worker.uncancelled ws ∧ ws.countP Spec.Worker.isTimeout = 0 := by
  obtain ⟨ws, h1, h2⟩ := alone_run h k
  have key : ∀ wc ∈ ws, (∀ t, wc ≠ (t, .cancel)) ∧ Spec.Worker.isTimeout wc = false := by
    intro wc hwc
    rcases h2 wc hwc with h3 | h3
    · exact h3
    · have := hq _ h3 k
      refine ⟨fun t he => (this t).1 (by rw [he]), ?_⟩
      obtain ⟨t, a⟩ := wc
      cases a <;> first | rfl | exact absurd rfl (this t).2
  refine ⟨ws, h1, fun c hc t => (key c hc).1 t, ?_⟩
  rw [List.countP_eq_zero]
  intro c hc
  rw [(key c hc).2]
  simp

theorem inv_agent {bs : Fin n → Body n S M} {sched : List (Act n M)} {s : State n S M} (h : run (step bs) init sched = some s) (k : Fin n) : Worker.Inv (s.agent k) := by
  obtain ⟨ws, h1, _⟩ := alone_run h k
  exact Worker.inv_run h1

theorem chans_agent {bs : Fin n → Body n S M} {sched : List (Act n M)} {s : State n S M} (h : run (step bs) init sched = some s) (k : Fin n) : Worker.Chans (s.agent k) := by
  obtain ⟨ws, h1, _⟩ := alone_run h k
  exact Worker.chans_run h1

theorem grow_agents {bs : Fin n → Body n S M} {sched : List (Act n M)} {s s' : State n S M} (h : run (step bs) s sched = some s') (k : Fin n) :
    (s.agent k).sent <+: (s'.agent k).sent ∧ (s.agent k).replied <+: (s'.agent k).replied :=
  run_inv (step := step bs) (fun x : State n S M => (s.agent k).sent <+: (x.agent k).sent ∧ (s.agent k).replied <+: (x.agent k).replied)
    (fun x c x' hx hc => by
      rcases alone_step hc k with he | ⟨wc, hw, _⟩
      · rw [he]; exact hx
      · have := Worker.grow_step _ _ _ _ hw
        exact ⟨hx.1.trans this.1, hx.2.trans this.2⟩)
    ⟨List.prefix_refl _, List.prefix_refl _⟩ sched h

/-! ## answers -/

/-- the future of a question holds the answer -/
theorem answer_answers {a : Worker.State S M} (h : Worker.Chans a) (k : Nat) (v : Nat) : answer a k = some v ↔ Spec.Worker.answers a k = [some v] := by
  rw [Worker.answers_eq h]
  unfold answer Spec.Worker.asked
  split
  · rename_i x r hk
    cases r with
    | false => rw [h.posted k x hk]; simp [Ask.init]
    | true =>
      have h1 := h.asked k x hk
      rw [h1.future]
      simp only [if_true]
      cases ho : (Spec.Worker.repliesTo a k).find? (·.isSome) with
      | none => simp
      | some o =>
        have := List.find?_some ho
        cases o with
        | none => cases this
        | some w => simp
  · rename_i hk
    rw [h.unknown k (List.getElem?_eq_none_iff.1 hk)]
    simp [Ask.init]

/-- a reply that is not `None` is an answer, the first of them -/
theorem replied_answers {a : Worker.State S M} (h : Worker.Chans a) {k v : Nat} (hr : (k, some v) ∈ a.replied) (hk : Spec.Worker.asked a k = true) :
    ∃ w, Spec.Worker.answers a k = [some w] := by
  rw [Worker.answers_eq h, hk, if_pos rfl]
  have hm : some v ∈ Spec.Worker.repliesTo a k := by
    unfold Spec.Worker.repliesTo
    rw [List.mem_map]
    exact ⟨(k, some v), List.mem_filter.2 ⟨hr, by simp⟩, rfl⟩
  cases ho : (Spec.Worker.repliesTo a k).find? (·.isSome) with
  | none => have := List.find?_eq_none.1 ho _ hm; simp at this
  | some o =>
    have := List.find?_some ho
    cases o with
    | none => cases this
    | some w => exact ⟨w, rfl⟩

/-! ## who runs -/

/-- the body that runs is the one that is at a call -/
structure Net (bs : Fin n → Body n S M) (s : State n S M) : Prop where
  cur : ∀ i o, s.cur = some (i, o) → calling (bs i) (s.agent i) = true
  all : ∀ i, calling (bs i) (s.agent i) = true → ∃ o, s.cur = some (i, o)

theorem calling_congr {b : Body n S M} {a a' : Worker.State S M} (h1 : a'.task = a.task) (h2 : a'.st = a.st) : calling b a' = calling b a := by
  unfold calling
  rw [h1, h2]

theorem calls_not_resume {s : State n S M} {nx : Next n M} {j : Fin n} {wc : Worker.Act M} {v : Nat} (h : Calls s nx j wc v) :
    Spec.Worker.isResume (0, wc) = false ∧ (∀ t, ((0, wc) : Nat × Worker.Act M) ≠ (t, .cancel)) ∧ Spec.Worker.isTimeout (0, wc) = false := by
  cases h <;> exact ⟨rfl, by simp, rfl⟩

theorem net_step {bs : Fin n → Body n S M} (s : State n S M) (c : Act n M) (s' : State n S M) (h : Net bs s) (hc : step bs s c = some s') : Net bs s' := by
  cases stepped hc with
  | outside i wc a hq hr hw he =>
    subst he
    have hs : ∀ k, calling (bs k) ((s.set i a).agent k) = calling (bs k) (s.agent k) := by
      intro k
      by_cases hk : k = i
      · subst hk
        obtain ⟨a1, a2, _⟩ := Worker.outside_same hr hw
        rw [set_same]
        exact calling_congr a1 a2
      · rw [set_other s a hk]
    exact ⟨fun k o hk => by rw [hs]; exact h.cur k o hk, fun k hk => h.all k (by rw [← hs]; exact hk)⟩
  | resumes i v a hq hf hw he =>
    subst he
    refine ⟨fun k o hk => ?_, fun k hk => ?_⟩
    · simp only [resumed] at hk ⊢
      split at hk
      · rename_i hca
        cases hk
        simp only [set_same]
        exact hca
      · cases hk
    · by_cases he : k = i
      · subst he
        simp only [resumed, set_same] at hk ⊢
        rw [hk]
        exact ⟨none, rfl⟩
      · simp only [resumed, set_other s a he] at hk
        obtain ⟨o, ho⟩ := h.all k hk
        rcases hq with ⟨hq, _⟩ | hq
        · rw [hq] at ho; cases ho
        · rw [hq] at ho; cases ho; exact absurd rfl he
  | calls i st j wc v a hcur hs hq hw he =>
    subst he
    have hs : ∀ k, calling (bs k) ((s.set j a).agent k) = calling (bs k) (s.agent k) := by
      intro k
      by_cases hk : k = j
      · subst hk
        obtain ⟨a1, a2, _⟩ := Worker.outside_same (calls_not_resume hq).1 hw
        rw [set_same]
        exact calling_congr a1 a2
      · rw [set_other s a hk]
    refine ⟨fun k o hk => ?_, fun k hk => ?_⟩
    · cases hk
      simp only [hs]
      exact h.cur i none hcur
    · simp only [hs] at hk
      obtain ⟨o, ho⟩ := h.all k hk
      rw [hcur] at ho
      cases ho
      exact ⟨some v, rfl⟩

theorem net_run {bs : Fin n → Body n S M} {sched : List (Act n M)} {s : State n S M} (h : run (step bs) init sched = some s) : Net bs s :=
  run_inv (Net bs) net_step ⟨fun i o h => (by cases h), fun i h => (by cases h)⟩ sched h

/-! ## when nothing goes on -/

theorem stuck_free {bs : Fin n → Body n S M} {s : State n S M} (hi : ∀ k, Worker.Inv (s.agent k)) (h : Stuck bs s) (k : Fin n) (t : Nat) : (s.agent k).mb.pc t = .idle := by
  refine Classical.byContradiction fun hne => ?_
  obtain ⟨u, _, hu⟩ := Lemmas.Mailbox.someone_goes (hi k).all.acc hne
  have := h (.at k (u, .go)) rfl
  simp only [step, Worker.step, Option.map_eq_none_iff] at this
  rw [this] at hu; cases hu

theorem resume_sleeping {b : Worker.Body S M} {a : Worker.State S M} (h0 : a.mb.pc 0 = .idle) (ht : a.task = .sleeping) (v : Nat) :
    ∃ a', Worker.step b a (0, .resume v) = some a' := by
  simp only [Worker.step, h0, Worker.resume, ht, and_self, if_true]
  split
  · exact ⟨_, rfl⟩
  · exact ⟨_, rfl⟩

theorem calling_iff {b : Body n S M} {a : Worker.State S M} (h : calling b a = true) :
    a.task = .sleeping ∧ ∃ st, a.st = some st ∧ ((∃ j x, b.next st = .post j x) ∨ (∃ j x, b.next st = .ask j x) ∨ ∃ j k r, b.next st = .reply j k r) := by
  unfold calling at h
  split at h
  · rename_i st h1 h2
    refine ⟨h1, st, h2, ?_⟩
    split at h
    · exact .inl ⟨_, _, ‹_›⟩
    · exact .inr (.inl ⟨_, _, ‹_›⟩)
    · exact .inr (.inr ⟨_, _, _, ‹_›⟩)
    · cases h
  · cases h

theorem stuck_cur {bs : Fin n → Body n S M} {s : State n S M} (hi : ∀ k, Worker.Inv (s.agent k)) (hn : Net bs s) (h : Stuck bs s) : s.cur = none := by
  have hfree := stuck_free hi h
  cases hc : s.cur with
  | none => rfl
  | some c =>
    exfalso
    obtain ⟨i, o⟩ := c
    obtain ⟨ht, st, hst, hnx⟩ := calling_iff (hn.cur i o hc)
    cases o with
    | some v =>
      have h1 := h .back rfl
      obtain ⟨a, ha⟩ := resume_sleeping (b := (bs i).alone) (hfree i 0) ht v
      have hf : free s 0 = true := by simp only [free, decide_eq_true_eq]; exact fun j => hfree j 0
      simp only [step, hc, hf, ha] at h1
      cases h1
    | none =>
      have h1 := h .call rfl
      simp only [step, hc, hst, Option.map_some] at h1
      rcases hnx with ⟨j, x, hx⟩ | ⟨j, x, hx⟩ | ⟨j, k, r, hx⟩
      · rw [hx] at h1
        simp [Worker.step, Mailbox.step, hfree j 0] at h1
      · rw [hx] at h1
        simp [Worker.step, Mailbox.step, hfree j 0] at h1
      · rw [hx] at h1
        simp [Worker.step, hfree j 0] at h1

/-- each agent waits for an answer that is not there, or nothing goes on in it -/
theorem stuck_agent {bs : Fin n → Body n S M} {s : State n S M} (hi : ∀ k, Worker.Inv (s.agent k)) (hn : Net bs s) (h : Stuck bs s) (i : Fin n) :
    (∃ j k, awaits bs s i = some (j, k) ∧ answer (s.agent j) k = none) ∨ (awaits bs s i = none ∧ Spec.Worker.Stuck (bs i).alone (s.agent i)) := by
  have hfree := stuck_free hi h
  have hcur := stuck_cur hi hn h
  have hf : ∀ t, free s t = true := fun t => by simp only [free, decide_eq_true_eq]; exact fun j => hfree j t
  cases hw : awaits bs s i with
  | some jk =>
    obtain ⟨j, k⟩ := jk
    refine .inl ⟨j, k, rfl, ?_⟩
    cases ha : answer (s.agent j) k with
    | none => rfl
    | some v =>
      exfalso
      unfold awaits at hw
      split at hw
      · rename_i st h1 h2
        split at hw
        · rename_i j' k' hx
          cases hw
          have hwk : wakes bs s i v = true := by
            unfold wakes
            rw [h1, h2]
            simp only [hx, ha, decide_true, Bool.or_true]
          have h3 := h (.at i (0, .resume v)) rfl
          obtain ⟨a, ha⟩ := resume_sleeping (b := (bs i).alone) (hfree i 0) h1 v
          simp only [step, hcur, hf 0, hwk, ha, and_self, if_true] at h3
          cases h3
        · cases hw
      · cases hw
  | none =>
    refine .inr ⟨rfl, ?_⟩
    rintro ⟨t, a⟩ hwork
    cases a with
    | go => exact Option.map_eq_none_iff.1 (h (.at i (t, .go)) rfl)
    | callback =>
      have := h (.at i (t, .callback)) rfl
      simp only [step, hf t, hcur, implies_true, and_self, if_true] at this
      exact Option.map_eq_none_iff.1 this
    | resume v =>
      have hwk : wakes bs s i v = true := by
        unfold wakes
        unfold awaits at hw
        split
        · rename_i st h1 h2
          rw [h1, h2] at hw
          simp only at hw
          split
          · rename_i j k hx
            rw [hx] at hw
            cases hw
          · rfl
        · rfl
      have := h (.at i (t, .resume v)) rfl
      simp only [step, hf 0, hcur, hwk, and_self, if_true] at this
      exact Option.map_eq_none_iff.1 this
    | _ => cases hwork

end Expression.Lemmas.Network
