import Verif.Lemmas.Network
import Verif.Props.Worker

/-! # Agents that see to all questions -/

namespace Expression.Lemmas.Network

open Threads Expression.Network Spec.Network

variable {n : Nat} {S M : Type} {wants : M → Bool} {carries : M → List (Fin n × Nat)} {bs : Fin n → Body n S M}

/-- agent `h` has to see to the question, or the message with which it comes waits for `h` -/
def Has (ms : ∀ i, Manners wants carries i (bs i)) (s : State n S M) (h : Fin n) (d : Fin n × Nat) : Prop :=
  (∃ st, (s.agent h).st = some st ∧ d ∈ (ms h).owes st ∧ ∀ v, s.cur = some (h, some v) → d ∉ settles carries ((bs h).next st)) ∨
    ∃ m x r, (s.agent h).sent[m]? = some (x, r) ∧ m ∉ (s.agent h).received ∧ d ∈ duties wants carries h m x

/-- holds as long as nothing is cancelled and no timeout passes -/
structure Good (rank : Fin n → Nat) (ms : ∀ i, Manners wants carries i (bs i)) (s : State n S M) : Prop where
  inv : ∀ i, Worker.Inv (s.agent i)
  net : Net bs s
  calm : ∀ i, Worker.Calm (s.agent i)
  begun : ∀ i st, (s.agent i).st = some st → (ms i).live st ∧ Worker.TaskOf (turn (bs i) st).next (s.agent i).task
  fresh : ∀ i, (s.agent i).st = none → (s.agent i).task = .created
  holds : ∀ i st p q, (s.agent i).st = some st → (p, q) ∈ (ms i).holds st → Spec.Worker.asked (s.agent p) q = true
  mid : ∀ i v st j x, s.cur = some (i, some v) → (s.agent i).st = some st → (bs i).next st = .ask j x → Spec.Worker.asked (s.agent j) v = true
  held : ∀ p q, Spec.Worker.asked (s.agent p) q = true → (∃ v, (q, some v) ∈ (s.agent p).replied) ∨ ∃ h, rank h ≤ rank p ∧ Has ms s h (p, q)

variable {ms : ∀ i, Manners wants carries i (bs i)} {rank : Fin n → Nat}

theorem good_init : Good rank ms (init : State n S M) where
  inv _ := Worker.inv_init
  net := ⟨fun i o h => (by cases h), fun i h => (by cases h)⟩
  calm _ := Worker.calm_init
  begun i st h := by cases h
  fresh i _ := rfl
  holds i st p q h := by cases h
  mid i v st j x h := by cases h
  held p q h := by cases h

/-- the new states of the agents, seen from the old ones, when something is done to one that is not resumed -/
structure Outside (s s' : State n S M) : Prop where
  task : ∀ k, (s'.agent k).task = (s.agent k).task
  st : ∀ k, (s'.agent k).st = (s.agent k).st
  received : ∀ k, (s'.agent k).received = (s.agent k).received
  sent : ∀ k, (s.agent k).sent <+: (s'.agent k).sent
  replied : ∀ k, (s.agent k).replied <+: (s'.agent k).replied

theorem outside_set {s : State n S M} {i : Fin n} {wc : Nat × Worker.Act M} {a : Worker.State S M} (hr : Spec.Worker.isResume wc = false)
    (hw : Worker.step (bs i).alone (s.agent i) wc = some a) (cur : Option (Fin n × Option Nat)) : Outside s { s.set i a with cur := cur } := by
  obtain ⟨a1, a2, a3⟩ := Worker.outside_same hr hw
  obtain ⟨b1, b2⟩ := Worker.grow_step _ _ _ _ hw
  constructor <;> intro k <;> by_cases hk : k = i
  all_goals first
    | (subst hk; simp only [set_same]; assumption)
    | (simp only [set_other s a hk]; done)
    | (simp only [set_other s a hk]; exact List.prefix_refl _)

theorem asked_mono {a a' : Worker.State S M} (h : a.sent <+: a'.sent) {q : Nat} (hq : Spec.Worker.asked a q = true) : Spec.Worker.asked a' q = true := by
  rw [Worker.asked_grow h (Worker.asked_lt hq)]; exact hq

/-- a question of afterwards was there before, or is the last message -/
theorem asked_new {b : Worker.Body S M} {a a' : Worker.State S M} {wc : Nat × Worker.Act M} (hw : Worker.step b a wc = some a') {q : Nat}
    (hq : Spec.Worker.asked a' q = true) : Spec.Worker.asked a q = true ∨ ∃ t x, wc = (t, .ask x) ∧ q = a.sent.length ∧ a'.sent[q]? = some (x, true) := by
  rcases Worker.sent_step hw with h | ⟨t, x, rfl, h⟩ | ⟨t, x, rfl, h⟩
  · left; unfold Spec.Worker.asked at hq ⊢; rwa [h] at hq
  all_goals
    unfold Spec.Worker.asked at hq
    split at hq
    · rename_i y r hy
      rw [h, List.getElem?_append] at hy
      split at hy
      · left; unfold Spec.Worker.asked; rw [hy]; exact hq
      · rename_i hlt
        rw [List.getElem?_singleton] at hy
        split at hy
        · cases hy
          first
            | (cases hq; done)
            | (right
               have he : q = a.sent.length := by omega
               refine ⟨t, x, rfl, he, ?_⟩
               rw [h, he]; simp)
        · cases hy
    · cases hq

theorem sent_get {a a' : Worker.State S M} (h : a.sent <+: a'.sent) {m : Nat} {x : M × Bool} (hm : a.sent[m]? = some x) : a'.sent[m]? = some x := by
  obtain ⟨r, hr⟩ := h
  rw [← hr, List.getElem?_append_left (List.getElem?_eq_some_iff.1 hm).1]
  exact hm

/-- the last message has not been received yet -/
theorem not_received {a : Worker.State S M} (hi : Worker.Inv a) {m : Nat} (hm : a.sent.length ≤ m) : m ∉ a.received := by
  intro h
  have := List.mem_range.1 ((Worker.received_sublist hi).subset h)
  omega

/-- all but the questions, when something is done that resumes no body -/
theorem good_outside {s s' : State n S M} (h : Good rank ms s) (ho : Outside s s') (hi : ∀ i, Worker.Inv (s'.agent i)) (hn : Net bs s') (hc : ∀ i, Worker.Calm (s'.agent i))
    (hm : ∀ i v st j x, s'.cur = some (i, some v) → (s'.agent i).st = some st → (bs i).next st = .ask j x → Spec.Worker.asked (s'.agent j) v = true)
    (hh : ∀ p q, Spec.Worker.asked (s'.agent p) q = true → (∃ v, (q, some v) ∈ (s'.agent p).replied) ∨ ∃ h, rank h ≤ rank p ∧ Has ms s' h (p, q)) : Good rank ms s' where
  inv := hi
  net := hn
  calm := hc
  begun i st hs := by rw [ho.task]; exact h.begun i st (by rw [← ho.st]; exact hs)
  fresh i hs := by rw [ho.task]; exact h.fresh i (by rw [← ho.st]; exact hs)
  holds i st p q hs hp := asked_mono (ho.sent p) (h.holds i st p q (by rw [← ho.st]; exact hs) hp)
  mid := hm
  held := hh

theorem has_unreceived {s : State n S M} {h : Fin n} {d : Fin n × Nat} {m : Nat} {x : M} {r : Bool} (h1 : (s.agent h).sent[m]? = some (x, r)) (h2 : m ∉ (s.agent h).received)
    (h3 : d ∈ duties wants carries h m x) : Has ms s h d := .inr ⟨m, x, r, h1, h2, h3⟩

theorem good_step (hl : ∀ i, Layered rank (ms i)) (s : State n S M) (c : Act n M) (s' : State n S M) (hq : ∀ i t, c ≠ .at i (t, .cancel) ∧ c ≠ .at i (t, .timeout))
    (hp : ∀ i t x, c = .at i (t, .ask x) → wants x = true) (h : Good rank ms s) (hc : step bs s c = some s') : Good rank ms s' := by
  have hn := net_step s c s' h.net hc
  have hinv : ∀ i, Worker.Inv (s'.agent i) := by
    intro i
    rcases alone_step hc i with he | ⟨wc, hw, _⟩
    · rw [he]; exact h.inv i
    · exact Worker.inv_step _ _ _ _ (h.inv i) hw
  have hcalm : ∀ i, Worker.Calm (s'.agent i) := by
    intro i
    rcases alone_step hc i with he | ⟨wc, hw, hk⟩
    · rw [he]; exact h.calm i
    · have : (∀ t, wc ≠ (t, .cancel)) ∧ Spec.Worker.isTimeout wc = false := by
        rcases hk with hk | hk
        · exact ⟨hk.1, hk.2.1⟩
        · refine ⟨fun t he => (hq i t).1 (by rw [hk, he]), ?_⟩
          obtain ⟨t, a⟩ := wc
          cases a <;> first | rfl | exact absurd hk (hq i t).2
      exact Worker.calm_step _ _ _ _ this.1 this.2 (h.inv i) (h.calm i) hw
  cases stepped hc with
  | outside i wc a hci hr hw he =>
    have ho : Outside s s' := by rw [he]; exact outside_set hr hw s.cur
    have hcur : s'.cur = s.cur := by rw [he]; rfl
    refine good_outside h ho hinv hn hcalm (fun k v st j x h1 h2 h3 => ?_) (fun p q hpq => ?_)
    · exact asked_mono (ho.sent j) (h.mid k v st j x (by rw [← hcur]; exact h1) (by rw [← ho.st]; exact h2) h3)
    · have hold : Spec.Worker.asked (s.agent p) q = true → (∃ v, (q, some v) ∈ (s'.agent p).replied) ∨ ∃ h, rank h ≤ rank p ∧ Has ms s' h (p, q) := by
        intro hpq
        rcases h.held p q hpq with ⟨v, hv⟩ | ⟨k, hk, hh⟩
        · exact .inl ⟨v, (ho.replied p).subset hv⟩
        · refine .inr ⟨k, hk, ?_⟩
          rcases hh with ⟨st, h1, h2, h3⟩ | ⟨m, x, r, h1, h2, h3⟩
          · exact .inl ⟨st, by rw [ho.st]; exact h1, h2, by rw [hcur]; exact h3⟩
          · exact .inr ⟨m, x, r, sent_get (ho.sent k) h1, by rw [ho.received]; exact h2, h3⟩
      by_cases hpi : p = i
      · subst hpi
        have ha : s'.agent p = a := by rw [he]; exact set_same s p a
        rw [ha] at hpq
        rcases asked_new hw hpq with h1 | ⟨t, x, h1, h2, h3⟩
        · exact hold h1
        · refine .inr ⟨p, Nat.le_refl _, has_unreceived (by rw [ha]; exact h3) (by rw [ho.received]; exact not_received (h.inv p) (by omega)) ?_⟩
          have := hp p t x (by rw [hci, h1])
          simp [duties, this]
      · have ha : s'.agent p = s.agent p := by rw [he]; exact set_other s a hpi
        rw [ha] at hpq
        exact hold hpq
  | calls i st j wc v a hcur hst hcl hw he =>
    have ho : Outside s s' := by rw [he]; exact outside_set (calls_not_resume hcl).1 hw _
    have hcur' : s'.cur = some (i, some v) := by rw [he]
    have haj : s'.agent j = a := by rw [he]; exact set_same s j a
    have hlive := (h.begun i st hst).1
    -- what the call settles is settled
    have hset : ∀ p q, (p, q) ∈ settles carries ((bs i).next st) → Spec.Worker.asked (s.agent p) q = true → rank i ≤ rank p →
        (∃ v, (q, some v) ∈ (s'.agent p).replied) ∨ ∃ h, rank h ≤ rank p ∧ Has ms s' h (p, q) := by
      intro p q hpq hk hrk
      have hsend : ∀ x r, ((bs i).next st = .post j x ∨ (bs i).next st = .ask j x) → a.sent = (s.agent j).sent ++ [(x, r)] → (p, q) ∈ carries x →
          (∃ v, (q, some v) ∈ (s'.agent p).replied) ∨ ∃ h, rank h ≤ rank p ∧ Has ms s' h (p, q) := by
        intro x r hx hsent hin
        have hrj := (hl i st hlive).2 j x hx (List.ne_nil_of_mem hin)
        refine .inr ⟨j, Nat.le_trans hrj hrk, has_unreceived (m := (s.agent j).sent.length) (x := x) (r := r) (by rw [haj, hsent]; simp) ?_ ?_⟩
        · rw [ho.received]; exact not_received (h.inv j) (Nat.le_refl _)
        · exact List.mem_append_right _ hin
      cases hnx : (bs i).next st with
      | post j' x =>
        rw [hnx] at hcl hpq
        cases hcl
        rcases Worker.sent_step hw with h1 | ⟨t, y, h1, h2⟩ | ⟨t, y, h1, h2⟩
        · obtain ⟨mb, _, rfl⟩ := Option.map_eq_some_iff.1 hw; simp at h1
        · cases h1; exact hsend x false (.inl hnx) h2 hpq
        · cases h1
      | ask j' x =>
        rw [hnx] at hcl hpq
        cases hcl
        rcases Worker.sent_step hw with h1 | ⟨t, y, h1, h2⟩ | ⟨t, y, h1, h2⟩
        · simp only [Worker.step, if_true] at hw
          obtain ⟨mb, _, rfl⟩ := Option.map_eq_some_iff.1 hw; simp at h1
        · cases h1
        · cases h1; exact hsend x true (.inr hnx) h2 hpq
      | reply j' k r =>
        rw [hnx] at hcl hpq
        cases hcl
        cases r with
        | none => cases hpq
        | some w =>
          simp only [settles, List.mem_singleton] at hpq
          cases hpq
          refine .inl ⟨w, ?_⟩
          rw [haj]
          simp only [Worker.step] at hw
          split at hw
          · cases hw
            rw [Worker.reply_replied, hk]
            simp
          · cases hw
      | _ => rw [hnx] at hpq; cases hpq
    refine good_outside h ho hinv hn hcalm (fun k v' st' j' x h1 h2 h3 => ?_) (fun p q hpq => ?_)
    · rw [hcur'] at h1
      cases h1
      rw [ho.st, hst] at h2
      cases h2
      rw [h3] at hcl
      cases hcl
      rw [haj]
      simp only [Worker.step, if_true] at hw
      obtain ⟨mb, _, rfl⟩ := Option.map_eq_some_iff.1 hw
      simp [Spec.Worker.asked]
    · have hold : Spec.Worker.asked (s.agent p) q = true → (∃ v, (q, some v) ∈ (s'.agent p).replied) ∨ ∃ h, rank h ≤ rank p ∧ Has ms s' h (p, q) := by
        intro hpq
        rcases h.held p q hpq with ⟨v, hv⟩ | ⟨k, hk, hh⟩
        · exact .inl ⟨v, (ho.replied p).subset hv⟩
        · rcases hh with ⟨st', h1, h2, h3⟩ | ⟨m, x, r, h1, h2, h3⟩
          · by_cases hki : k = i
            · subst hki
              rw [hst] at h1
              cases h1
              by_cases hin : (p, q) ∈ settles carries ((bs k).next st)
              · exact hset p q hin hpq hk
              · exact .inr ⟨k, hk, .inl ⟨st, by rw [ho.st]; exact hst, h2, fun _ _ => hin⟩⟩
            · refine .inr ⟨k, hk, .inl ⟨st', by rw [ho.st]; exact h1, h2, fun u hu => ?_⟩⟩
              rw [hcur'] at hu
              cases hu
              exact absurd rfl hki
          · exact .inr ⟨k, hk, .inr ⟨m, x, r, sent_get (ho.sent k) h1, by rw [ho.received]; exact h2, h3⟩⟩
      by_cases hpj : p = j
      · subst hpj
        rw [haj] at hpq
        rcases asked_new hw hpq with h1 | ⟨t, x, h1, h2, h3⟩
        · exact hold h1
        · refine .inr ⟨p, Nat.le_refl _, has_unreceived (by rw [haj]; exact h3) (by rw [ho.received]; exact not_received (h.inv p) (by omega)) ?_⟩
          have hx : wants x = true := by
            refine (ms i).asks st p x hlive ?_
            cases h1
            generalize (bs i).next st = nx at hcl
            cases hcl
            rfl
          simp [duties, hx]
      · have ha : s'.agent p = s.agent p := by rw [he]; exact set_other s a hpj
        rw [ha] at hpq
        exact hold hpq
  | resumes i v a hci hf hw he =>
    have h0 : (s.agent i).mb.pc 0 = .idle := by
      simp only [free, decide_eq_true_eq] at hf
      exact hf i
    have hother : ∀ k, k ≠ i → s'.agent k = s.agent k := fun k hk => by rw [he]; exact set_other s a hk
    have hai : s'.agent i = a := by rw [he]; exact set_same s i a
    have hcur' : ∀ k v, s'.cur ≠ some (k, some v) := by
      intro k v
      rw [he]
      simp only [resumed]
      split <;> simp
    have hnocall : s.cur = none → calling (bs i) (s.agent i) = false := by
      intro hcn
      cases hca : calling (bs i) (s.agent i) with
      | false => rfl
      | true =>
        obtain ⟨o, ho⟩ := h.net.all i hca
        rw [hcn] at ho; cases ho
    simp only [Worker.step, h0, and_self, if_true] at hw
    have hres := Worker.calm_resumes (h.inv i) (h.calm i) h0 hw
    -- what all three cases need
    have key : ∀ (y : Worker.State S M) (st' : S), a = Worker.turn y (turn (bs i) st') → y.sent = (s.agent i).sent → y.replied = (s.agent i).replied →
        y.received = a.received → (ms i).live st' →
        (∀ p q, (p, q) ∈ (ms i).holds st' → Spec.Worker.asked (s.agent p) q = true) →
        (∀ d, Has ms s i d → d ∈ (ms i).owes st' ∨ ∃ m x r, (s.agent i).sent[m]? = some (x, r) ∧ m ∉ a.received ∧ d ∈ duties wants carries i m x) → Good rank ms s' := by
      intro y st' hay hys hyr hrec hlive hholds hhas
      obtain ⟨c1, _, c3, _, _, _, _, _, _, c8⟩ := Worker.turn_same y (turn (bs i) st')
      have hsent : a.sent = (s.agent i).sent := by rw [hay, c1, hys]
      have hst' : a.st = some st' := by rw [hay, c8]; rfl
      have hrepl : a.replied = (s.agent i).replied := by rw [hay, Worker.turn_replied, hyr]; simp [turn]
      have hasked : ∀ p q, Spec.Worker.asked (s'.agent p) q = Spec.Worker.asked (s.agent p) q := by
        intro p q
        by_cases hp : p = i
        · subst hp; unfold Spec.Worker.asked; rw [hai, hsent]
        · rw [hother p hp]
      refine ⟨hinv, hn, hcalm, fun k st hs => ?_, fun k hs => ?_, fun k st p q hs hin => ?_, fun k u st j x h1 => absurd h1 (hcur' k u), fun p q hpq => ?_⟩
      · by_cases hk : k = i
        · subst hk
          rw [hai, hst'] at hs
          cases hs
          rw [hai, hay]
          exact ⟨hlive, Worker.turn_task _ _⟩
        · rw [hother k hk] at hs ⊢
          exact h.begun k st hs
      · by_cases hk : k = i
        · subst hk; rw [hai, hst'] at hs; cases hs
        · rw [hother k hk] at hs ⊢
          exact h.fresh k hs
      · rw [hasked]
        by_cases hk : k = i
        · subst hk
          rw [hai, hst'] at hs
          cases hs
          exact hholds p q hin
        · rw [hother k hk] at hs
          exact h.holds k st p q hs hin
      · rw [hasked] at hpq
        have hrp : (s'.agent p).replied = (s.agent p).replied := by
          by_cases hk : p = i
          · subst hk; rw [hai, hrepl]
          · rw [hother p hk]
        rcases h.held p q hpq with ⟨u, hu⟩ | ⟨k, hk, hh⟩
        · exact .inl ⟨u, by rw [hrp]; exact hu⟩
        · refine .inr ⟨k, hk, ?_⟩
          by_cases hki : k = i
          · subst hki
            rcases hhas _ hh with h1 | ⟨m, x, r, h1, h2, h3⟩
            · exact .inl ⟨st', by rw [hai]; exact hst', h1, fun u hu => absurd hu (hcur' k u)⟩
            · exact .inr ⟨m, x, r, by rw [hai, hsent]; exact h1, by rw [hai]; exact h2, h3⟩
          · rcases hh with ⟨st, h1, h2, h3⟩ | ⟨m, x, r, h1, h2, h3⟩
            · exact .inl ⟨st, by rw [hother k hki]; exact h1, h2, fun u hu => absurd hu (hcur' k u)⟩
            · exact .inr ⟨m, x, r, by rw [hother k hki]; exact h1, by rw [hother k hki]; exact h2, h3⟩
    have hrec : ∀ (y : Worker.State S M) t, a = Worker.turn y t → y.received = a.received := fun y t hy => by
      rw [hy]; exact (Worker.turn_same y t).2.2.1.symm
    cases hres with
    | created ht ha =>
      have hnone : (s.agent i).st = none := by
        cases hs : (s.agent i).st with
        | none => rfl
        | some st =>
          have := (h.begun i st hs).2
          rw [ht] at this
          unfold Worker.TaskOf at this
          split at this <;> simp at this
      refine key _ (bs i).start ha rfl rfl (hrec _ _ ha) (ms i).begins.1 (fun p q hin => ?_) (fun d hd => ?_)
      · rw [(ms i).begins.2] at hin; cases hin
      · rcases hd with ⟨st, h1, _⟩ | ⟨m, x, r, h1, h2, h3⟩
        · rw [hnone] at h1; cases h1
        · exact .inr ⟨m, x, r, h1, by rw [← hrec _ _ ha]; exact h2, h3⟩
    | sleeping st ht hs ha =>
      obtain ⟨hlive, htask⟩ := h.begun i st hs
      have hnr : ∀ w, (bs i).next st ≠ .receive w := by
        intro w hx
        rw [ht] at htask
        simp only [Worker.TaskOf, turn, hx] at htask
        obtain ⟨_, h1⟩ := htask
        cases h1
      obtain ⟨m1, m2, m3⟩ := (ms i).minds st v hlive hnr
      have hsuspended : s.cur = none → settles carries ((bs i).next st) = [] ∧ gives ((bs i).next st) v = [] := by
        intro hcn
        have := hnocall hcn
        unfold calling at this
        rw [ht, hs] at this
        simp only at this
        cases hx : (bs i).next st <;> rw [hx] at this <;> first | (cases this; done) | exact ⟨rfl, rfl⟩
      refine key _ _ ha rfl rfl (hrec _ _ ha) m1 (fun p q hin => ?_) (fun d hd => ?_)
      · rcases List.mem_append.1 (m3 hin) with h1 | h1
        · rcases hci with ⟨hcn, _⟩ | hcs
          · rw [(hsuspended hcn).2] at h1; cases h1
          · cases hx : (bs i).next st with
            | ask j x =>
              rw [hx] at h1
              simp only [gives, List.mem_singleton] at h1
              cases h1
              exact h.mid i v st p x hcs hs hx
            | _ => rw [hx] at h1; cases h1
        · exact h.holds i st p q hs h1
      · rcases hd with ⟨st', h1, h2, h3⟩ | ⟨m, x, r, h1, h2, h3⟩
        · rw [hs] at h1
          cases h1
          rcases List.mem_append.1 (m2 h2) with h4 | h4
          · rcases hci with ⟨hcn, _⟩ | hcs
            · rw [(hsuspended hcn).1] at h4; cases h4
            · exact absurd h4 (h3 v hcs)
          · exact .inl h4
        · exact .inr ⟨m, x, r, h1, by rw [← hrec _ _ ha]; exact h2, h3⟩
    | message st k w m x ht hf' hm hs ha =>
      obtain ⟨hlive, htask⟩ := h.begun i st hs
      obtain ⟨w', hx⟩ : ∃ w, (bs i).next st = .receive w := by
        rw [ht] at htask
        cases hx : (bs i).next st <;> simp [Worker.TaskOf, turn, hx] at htask
        exact ⟨_, rfl⟩
      obtain ⟨l1, l2⟩ := (ms i).listens st w' hlive hx
      obtain ⟨m1, m2, m3⟩ := l2 m x.1
      refine key _ _ ha rfl rfl (hrec _ _ ha) m1 (fun p q hin => h.holds i st p q hs (m3 hin)) (fun d hd => ?_)
      rcases hd with ⟨st', h1, h2, _⟩ | ⟨m', x', r, h1, h2, h3⟩
      · rw [hs] at h1
        cases h1
        rw [l1] at h2; cases h2
      · by_cases hmm : m' = m
        · subst hmm
          rw [hm] at h1
          cases h1
          exact .inl (m2 h3)
        · refine .inr ⟨m', x', r, h1, ?_, h3⟩
          rw [← hrec _ _ ha]
          simp only [List.mem_append, List.mem_singleton, not_or]
          exact ⟨h2, hmm⟩

theorem good_run (hl : ∀ i, Layered rank (ms i)) {sched : List (Act n M)} {s : State n S M} (hq : calm sched) (hp : proper wants sched)
    (h : run (step bs) init sched = some s) : Good rank ms s :=
  run_inv_on (fun c => (∀ i t, c ≠ .at i (t, .cancel) ∧ c ≠ .at i (t, .timeout)) ∧ ∀ i t x, c = .at i (t, .ask x) → wants x = true) (Good rank ms)
    (fun s c s' hc h hs => good_step hl s c s' hc.1 hc.2 h hs) good_init sched (fun c hc => ⟨hq c hc, fun i t x he => hp i t x (he ▸ hc)⟩) h

theorem awaits_iff {s : State n S M} {i j : Fin n} {k : Nat} :
    awaits bs s i = some (j, k) ↔ (s.agent i).task = .sleeping ∧ ∃ st, (s.agent i).st = some st ∧ (bs i).next st = .await j k := by
  unfold awaits
  split
  · rename_i st h1 h2
    rw [h1, h2]
    cases hx : (bs i).next st <;> simp [hx]
  · rename_i h
    simp only [reduceCtorEq, false_iff, not_and, not_exists]
    exact fun h1 st h2 => absurd h2 (h st h1)

/-- when nothing goes on, an agent that waits for a message has received all -/
theorem stuck_receives {sched : List (Act n M)} {s : State n S M} (hq : calm sched) (h : run (step bs) init sched = some s) {i : Fin n}
    (hs : Spec.Worker.Stuck (bs i).alone (s.agent i)) :
    (∃ r, (s.agent i).task = .ended r) ∨
      ∃ k w, (s.agent i).task = .waiting k w ∧ Spec.Worker.receivedMessages (s.agent i) = Spec.Worker.messages (s.agent i) := by
  obtain ⟨ws, h1, h2, h3⟩ := calm_alone hq h i
  exact Props.C110_all_partial (bs i).alone ws (s.agent i) h2 h3 h1 hs

theorem received_all {a : Worker.State S M} (hi : Worker.Inv a) (h : Spec.Worker.receivedMessages a = Spec.Worker.messages a) {m : Nat} {x : M × Bool} (hm : a.sent[m]? = some x) :
    m ∈ a.received := by
  have h1 := Worker.received_length hi
  have h2 : a.received.length = (List.range a.sent.length).length := by
    rw [← h1, h, Spec.Worker.messages, List.length_map, List.length_range]
  rw [(Worker.received_sublist hi).eq_of_length h2]
  exact List.mem_range.2 (List.getElem?_eq_some_iff.1 hm).1

theorem settled (hl : ∀ i, Layered rank (ms i)) {sched : List (Act n M)} {s : State n S M} (hq : calm sched) (hp : proper wants sched)
    (h : run (step bs) init sched = some s) (hs : Stuck bs s) : Settled s := by
  have hg := good_run hl hq hp h
  have hagent := stuck_agent hg.inv hg.net hs
  -- an agent in which nothing goes on has nothing to see to
  have hnone : ∀ i, awaits bs s i = none → ((∃ k w, (s.agent i).task = .waiting k w) ∧ Spec.Worker.receivedMessages (s.agent i) = Spec.Worker.messages (s.agent i)) ∧
      ∀ d, ¬ Has ms s i d := by
    intro i hi
    rcases hagent i with ⟨j, k, h1, _⟩ | ⟨_, h1⟩
    · rw [hi] at h1; cases h1
    have hst : ∀ st, (s.agent i).st = some st → ∀ r, (s.agent i).task ≠ .ended r := by
      intro st h2 r h3
      obtain ⟨h4, h5⟩ := hg.begun i st h2
      rw [h3] at h5
      cases hx : (bs i).next st <;> simp [Worker.TaskOf, turn, hx] at h5
      exact (ms i).stays st _ h4 hx
    rcases stuck_receives hq h h1 with ⟨r, h2⟩ | ⟨k, w, h2, h3⟩
    · exfalso
      cases h4 : (s.agent i).st with
      | none => have := hg.fresh i h4; rw [h2] at this; cases this
      | some st => exact hst st h4 r h2
    · refine ⟨⟨⟨k, w, h2⟩, h3⟩, fun d hd => ?_⟩
      rcases hd with ⟨st, h4, h5, _⟩ | ⟨m, x, r, h4, h5, _⟩
      · obtain ⟨h6, h7⟩ := hg.begun i st h4
        rw [h2] at h7
        obtain ⟨w', hx⟩ : ∃ w, (bs i).next st = .receive w := by
          cases hx : (bs i).next st <;> simp [Worker.TaskOf, turn, hx] at h7
          exact ⟨_, rfl⟩
        rw [((ms i).listens st w' h6 hx).1] at h5
        cases h5
      · exact h5 (received_all (hg.inv i) h3 h4)
  -- nobody waits for an answer: by induction on the rank
  have hno : ∀ r i, rank i ≤ r → awaits bs s i = none := by
    intro r
    induction r with
    | zero | succ r ih =>
      intro i hi
      rcases hagent i with ⟨j, k, h1, h2⟩ | ⟨h1, _⟩
      · exfalso
        obtain ⟨_, st, h3, h4⟩ := awaits_iff.1 h1
        have hlive := (hg.begun i st h3).1
        have hrank := (hl i st hlive).1 j k h4
        first
          | (omega; done)
          | (have hask := hg.holds i st j k h3 ((ms i).waits st j k hlive h4)
             rcases hg.held j k hask with ⟨v, hv⟩ | ⟨p, hp1, hp2⟩
             · obtain ⟨u, hu⟩ := replied_answers (chans_agent h j) hv hask
               rw [(answer_answers (chans_agent h j) k u).2 hu] at h2
               cases h2
             · exact (hnone p (ih p (by omega))).2 _ hp2)
      · exact h1
  have hall : ∀ i, awaits bs s i = none := fun i => hno (rank i) i (Nat.le_refl _)
  refine ⟨fun i => (hnone i (hall i)).1, fun j k hk => ?_⟩
  rcases hg.held j k hk with ⟨v, hv⟩ | ⟨p, _, hp2⟩
  · exact replied_answers (chans_agent h j) hv hk
  · exact absurd hp2 ((hnone p (hall p)).2 _)

/-! ## waiting for each other -/

theorem uncancelled_step {b : Worker.Body S M} {a a' : Worker.State S M} {wc : Nat × Worker.Act M} (hc : ∀ t, wc ≠ (t, .cancel)) (h : a.intr ≠ some .cancel)
    (hw : Worker.step b a wc = some a') : a'.intr ≠ some .cancel := by
  cases hr : Spec.Worker.isResume wc with
  | false =>
    cases ht : Spec.Worker.isTimeout wc with
    | false => rw [(Worker.outside_step hc ht hr hw).2.2.2]; exact h
    | true =>
      obtain ⟨t, x⟩ := wc
      cases x <;> first | cases ht; done | skip
      simp only [Worker.step] at hw
      split at hw
      · split at hw
        · cases hw
          unfold Worker.interrupt
          split <;> simp [h]
        · cases hw
      · cases hw
  | true =>
    obtain ⟨t, x⟩ := wc
    cases x <;> first | cases hr; done | skip
    have hres : ∀ (y : Worker.State S M) g, y.intr ≠ some .cancel → (Worker.resumeWith b y g).intr ≠ some .cancel := by
      intro y g hy
      unfold Worker.resumeWith
      split
      · exact hy
      · rw [(Worker.turn_same _ _).2.1]; exact hy
    simp only [Worker.step] at hw
    split at hw
    · unfold Worker.resume at hw
      split at hw
      · split at hw <;> cases hw
        · simp
        · rw [(Worker.turn_same _ _).2.1]; exact h
      · split at hw <;> cases hw <;> exact hres _ _ (by first | exact h | simp)
      · cases hw
      · split at hw
        · cases hw; exact hres _ _ h
        · split at hw
          · cases hw; exact hres _ _ (by simp)
          · cases hw; exact hres _ _ (by simp)
          · split at hw
            · cases hw
            · obtain ⟨x, _, rfl⟩ := Option.map_eq_some_iff.1 hw; exact hres _ _ h
            · cases hw; exact hres _ _ h
    · cases hw

theorem uncancelled_run {sched : List (Act n M)} {s : State n S M} (i : Fin n) (hq : ∀ t, Act.at i (t, .cancel) ∉ sched) (h : run (step bs) init sched = some s) :
    (s.agent i).intr ≠ some .cancel := by
  obtain ⟨ws, h1, h2⟩ := alone_run h i
  refine run_inv_on (fun wc : Nat × Worker.Act M => ∀ t, wc ≠ (t, .cancel)) (fun a => a.intr ≠ some .cancel) (fun a wc a' hP h hw => uncancelled_step hP h hw) (by simp [Worker.init]) ws ?_ h1
  intro wc hwc
  rcases h2 wc hwc with h3 | h3
  · exact h3.1
  · intro t he; exact hq t (he ▸ h3)

/-- no answer has been given -/
theorem unanswered_replied {a : Worker.State S M} (h : Worker.Chans a) {k : Nat} (hk : Spec.Worker.asked a k = true) :
    Spec.Worker.answers a k = [] ↔ ∀ v, (k, some v) ∉ a.replied := by
  constructor
  · intro h1 v hv
    obtain ⟨w, hw⟩ := replied_answers h hv hk
    rw [h1] at hw; cases hw
  · intro h1
    rw [Worker.answers_eq h, hk, if_pos rfl]
    cases ho : (Spec.Worker.repliesTo a k).find? (·.isSome) with
    | none => rfl
    | some o =>
      have h2 := List.find?_some ho
      have h3 := List.mem_of_find?_eq_some ho
      cases o with
      | none => cases h2
      | some v =>
        unfold Spec.Worker.repliesTo at h3
        obtain ⟨c, hc, he⟩ := List.mem_map.1 h3
        obtain ⟨hc1, hc2⟩ := List.mem_filter.1 hc
        obtain ⟨k', r⟩ := c
        simp only at he hc2
        simp only [beq_iff_eq] at hc2
        subst hc2 he
        exact absurd hc1 (h1 v)

/-- an agent whose body makes no call stays where it is until it is resumed -/
theorem unresumed {s s' : State n S M} {c : Act n M} {i : Fin n} (hn : Net bs s) (hcall : calling (bs i) (s.agent i) = false) (hc : step bs s c = some s')
    (hr : ∀ t v, c ≠ .at i (t, .resume v)) : (s'.agent i).task = (s.agent i).task ∧ (s'.agent i).st = (s.agent i).st := by
  have hset : ∀ j wc a, Spec.Worker.isResume wc = false → Worker.step (bs j).alone (s.agent j) wc = some a →
      ((s.set j a).agent i).task = (s.agent i).task ∧ ((s.set j a).agent i).st = (s.agent i).st := by
    intro j wc a h1 h2
    by_cases hi : i = j
    · subst hi
      obtain ⟨a1, a2, _⟩ := Worker.outside_same h1 h2
      rw [set_same]; exact ⟨a1, a2⟩
    · rw [set_other s a hi]; exact ⟨rfl, rfl⟩
  have hresumed : ∀ j a, i ≠ j → ((resumed bs s j a).agent i).task = (s.agent i).task ∧ ((resumed bs s j a).agent i).st = (s.agent i).st := by
    intro j a hi
    rw [show (resumed bs s j a).agent i = s.agent i from set_other s a hi]; exact ⟨rfl, rfl⟩
  unfold step at hc
  split at hc
  · obtain ⟨a, ha, rfl⟩ := Option.map_eq_some_iff.1 hc
    exact hset _ _ a rfl ha
  · rename_i j t v
    split at hc
    · obtain ⟨a, ha, rfl⟩ := Option.map_eq_some_iff.1 hc
      exact hresumed j a (fun e => hr t v (by rw [e]))
    · cases hc
  · rename_i j t wc h1 h2
    split at hc
    · obtain ⟨a, ha, rfl⟩ := Option.map_eq_some_iff.1 hc
      refine hset j (t, wc) a ?_ ha
      cases wc <;> first | rfl | exact absurd rfl (h2 _)
    · cases hc
  · split at hc
    · split at hc
      · obtain ⟨a, ha, rfl⟩ := Option.map_eq_some_iff.1 hc
        exact hset _ _ a rfl ha
      · obtain ⟨a, ha, rfl⟩ := Option.map_eq_some_iff.1 hc
        exact hset _ _ a rfl ha
      · obtain ⟨a, ha, rfl⟩ := Option.map_eq_some_iff.1 hc
        exact hset _ _ a rfl ha
      · cases hc
    · cases hc
  · split at hc
    · rename_i j v hcur
      split at hc
      · obtain ⟨a, ha, rfl⟩ := Option.map_eq_some_iff.1 hc
        refine hresumed j a (fun e => ?_)
        have := hn.cur j _ hcur
        rw [← e, hcall] at this
        cases this
      · cases hc
    · cases hc

/-- one step of agents of which each waits for another of them -/
theorem circle_step {A : Fin n → Prop} {s : State n S M} {c : Act n M} {s' : State n S M} {k : Nat} (hno : ∀ i, ¬ A i → ∀ st j k r, (bs i).next st = .reply j k r → ¬ A j)
    (hn : Net bs s) (hchan : ∀ i, Worker.Chans (s.agent i)) (hint : ∀ i, A i → (s.agent i).intr ≠ some .cancel)
    (hr : ∀ i t k r, A i → c ≠ .at i (t, .reply k r))
    (hw : ∀ i, A i → ∃ j k, awaits bs s i = some (j, k) ∧ A j ∧ Spec.Worker.asked (s.agent j) k = true ∧ ∀ v, (k, some v) ∉ (s.agent j).replied)
    (hc : step bs s c = some s') : (∀ i, A i → awaits bs s' i = awaits bs s i) ∧ ∀ j, A j → ∀ v, (k, some v) ∉ (s.agent j).replied → (k, some v) ∉ (s'.agent j).replied := by
  have hresumed : ∀ i v a, A i → (s.cur = none ∧ wakes bs s i v = true) ∨ s.cur = some (i, some v) → Worker.step (bs i).alone (s.agent i) (0, .resume v) = some a → False := by
    intro i v a hi h1 _
    obtain ⟨j, k, h2, _, h3, h4⟩ := hw i hi
    obtain ⟨h5, st, h6, h7⟩ := awaits_iff.1 h2
    rcases h1 with ⟨_, h1⟩ | h1
    · unfold wakes at h1
      rw [h5, h6] at h1
      simp only [h7, Bool.or_eq_true, decide_eq_true_eq] at h1
      rcases h1 with h1 | h1
      · exact hint i hi h1
      · rw [answer_answers (hchan j), (unanswered_replied (hchan j) h3).2 h4] at h1
        cases h1
    · have := hn.cur i _ h1
      unfold calling at this
      rw [h5, h6] at this
      simp only [h7] at this
      cases this
  have hcongr : ∀ i, (s'.agent i).task = (s.agent i).task → (s'.agent i).st = (s.agent i).st → awaits bs s' i = awaits bs s i := by
    intro i h1 h2
    unfold awaits
    rw [h1, h2]
  cases stepped hc with
  | outside i wc a hci hrr hwk he =>
    obtain ⟨a1, a2, _⟩ := Worker.outside_same hrr hwk
    refine ⟨fun k hk => ?_, fun j hj v hv => ?_⟩
    · by_cases hki : k = i
      · subst hki
        exact hcongr k (by rw [he, set_same, a1]) (by rw [he, set_same, a2])
      · exact hcongr k (by rw [he, set_other s a hki]) (by rw [he, set_other s a hki])
    · by_cases hki : j = i
      · subst hki
        rw [he, set_same]
        rcases Worker.replied_step hrr hwk with h1 | ⟨t, k', r, h1, _⟩
        · rw [h1]; exact hv
        · exact absurd (by rw [hci, h1]) (hr j t k' r hj)
      · rw [he, set_other s a hki]; exact hv
  | resumes i v a hci hf hwk he =>
    have hni : ¬ A i := fun hi => hresumed i v a hi hci hwk
    have hother : ∀ k, A k → s'.agent k = s.agent k := fun k hk => by
      rw [he]; exact set_other s a (fun e => hni (e ▸ hk))
    exact ⟨fun k hk => hcongr k (by rw [hother k hk]) (by rw [hother k hk]), fun j hj v hv => by rw [hother j hj]; exact hv⟩
  | calls i st j wc v a hcur hst hcl hwk he =>
    obtain ⟨a1, a2, _⟩ := Worker.outside_same (calls_not_resume hcl).1 hwk
    have hni : ¬ A i := by
      intro hi
      obtain ⟨j, k, h2, _⟩ := hw i hi
      obtain ⟨h5, st, h6, h7⟩ := awaits_iff.1 h2
      have := hn.cur i _ hcur
      unfold calling at this
      rw [h5, h6] at this
      simp only [h7] at this
      cases this
    refine ⟨fun k hk => ?_, fun p hp u hu => ?_⟩
    · by_cases hki : k = j
      · subst hki
        exact hcongr k (by rw [he]; simp only [set_same, a1]) (by rw [he]; simp only [set_same, a2])
      · exact hcongr k (by rw [he]; simp only [set_other s a hki]) (by rw [he]; simp only [set_other s a hki])
    · by_cases hki : p = j
      · subst hki
        rw [he]
        simp only [set_same]
        rcases Worker.replied_step (calls_not_resume hcl).1 hwk with h1 | ⟨t, k', r, h1, _⟩
        · rw [h1]; exact hu
        · exfalso
          cases h1
          generalize hx : (bs i).next st = nx at hcl
          cases hcl
          exact hno i hni st p _ _ hx hp
      · rw [he]; simp only [set_other s a hki]; exact hu

theorem circle_run {A : Fin n → Prop} {before after : List (Act n M)} {s s' : State n S M} (hno : ∀ i, ¬ A i → ∀ st j k r, (bs i).next st = .reply j k r → ¬ A j)
    (hq : ∀ i t, A i → Act.at i (t, .cancel) ∉ before ++ after) (hr : ∀ i t k r, A i → Act.at i (t, .reply k r) ∉ after)
    (hb : run (step bs) init before = some s) (ha : run (step bs) s after = some s')
    (hw : ∀ i, A i → ∃ j k, awaits bs s i = some (j, k) ∧ A j ∧ Spec.Worker.asked (s.agent j) k = true ∧ Spec.Worker.answers (s.agent j) k = []) :
    ∀ i, A i → ∃ j k, awaits bs s i = some (j, k) ∧ awaits bs s' i = some (j, k) ∧ Spec.Worker.answers (s'.agent j) k = [] := by
  induction after generalizing before s with
  | nil => cases ha; exact fun i hi => (hw i hi).imp fun j h => h.imp fun k h => ⟨h.1, h.1, h.2.2.2⟩
  | cons c cs ih =>
    simp only [run] at ha
    cases hc : step bs s c with
    | none => rw [hc] at ha; cases ha
    | some x =>
      rw [hc] at ha
      have hbx : run (step bs) init (before ++ [c]) = some x := by
        rw [run_append, hb]; simp only [Option.bind_some, run, hc]
      have hstep := fun k => circle_step (k := k) hno (net_run hb) (chans_agent hb)
        (fun i hi => uncancelled_run i (fun t hm => hq i t hi (List.mem_append_left _ hm)) hb)
        (fun i t k r hi he => hr i t k r hi (by rw [he]; exact List.mem_cons_self ..))
        (fun i hi => by
          obtain ⟨j, k, h1, h2, h3, h4⟩ := hw i hi
          exact ⟨j, k, h1, h2, h3, (unanswered_replied (chans_agent hb j) h3).1 h4⟩) hc
      have hx : ∀ i, A i → ∃ j k, awaits bs x i = some (j, k) ∧ A j ∧ Spec.Worker.asked (x.agent j) k = true ∧ Spec.Worker.answers (x.agent j) k = [] := by
        intro i hi
        obtain ⟨j, k, h1, h2, h3, h4⟩ := hw i hi
        have hg := (grow_agents (bs := bs) (sched := [c]) (s := s) (s' := x) (by simp [run, hc]) j).1
        have h5 := asked_mono hg h3
        refine ⟨j, k, ((hstep k).1 i hi).trans h1, h2, h5, (unanswered_replied (chans_agent hbx j) h5).2 fun v => ?_⟩
        exact (hstep k).2 j h2 v ((unanswered_replied (chans_agent hb j) h3).1 h4 v)
      have := ih (before := before ++ [c]) (by simpa using hq) (fun i t k r hi hm => hr i t k r hi (List.mem_cons_of_mem _ hm)) hbx ha hx
      intro i hi
      obtain ⟨j, k, h1, h2⟩ := this i hi
      exact ⟨j, k, ((hstep k).1 i hi).symm.trans h1, h2⟩

/-! ## how to see that nothing goes on any more -/

/-- the agent waits for a message or for an answer, and nothing is there; or it has ended -/
def rests (bs : Fin n → Body n S M) (s : State n S M) (i : Fin n) : Bool :=
  match (s.agent i).task with
  | .waiting k _ => decide ((s.agent i).mb.fut k = .pending) && decide ((s.agent i).intr = none)
  | .sleeping =>
    match awaits bs s i with
    | some (j, k) => decide (answer (s.agent j) k = none) && decide ((s.agent i).intr = none)
    | none => false
  | .ended _ => true
  | .created => false

theorem rests_resume {s : State n S M} {i : Fin n} (h : rests bs s i = true) (v : Nat) : wakes bs s i v = false ∨ Worker.resume (bs i).alone (s.agent i) v = none := by
  unfold rests at h
  split at h
  · rename_i k w ht
    simp only [Bool.and_eq_true, decide_eq_true_eq] at h
    right
    simp [Worker.resume, ht, h.1, h.2]
  · rename_i ht
    split at h
    · rename_i j k hw
      simp only [Bool.and_eq_true, decide_eq_true_eq] at h
      obtain ⟨_, st, h2, h3⟩ := awaits_iff.1 hw
      left
      simp [wakes, ht, h2, h3, h.1, h.2]
    · cases h
  · rename_i r ht
    right
    simp [Worker.resume, ht]
  · cases h

theorem stuck_net {sched : List (Act n M)} {s : State n S M} (h : run (step bs) init sched = some s) (hs : ∀ c ∈ sched, ∀ i wc, c = .at i wc → wc.1 = 0 ∨ wc.1 = 1)
    (h0 : ∀ i, (s.agent i).mb.pc 0 = .idle ∧ (s.agent i).mb.pc 1 = .idle) (h2 : ∀ i, (s.agent i).mb.scheduled = 0) (h3 : s.cur = none)
    (h4 : ∀ i v, wakes bs s i v = false ∨ Worker.resume (bs i).alone (s.agent i) v = none) : Stuck bs s := by
  have hall : ∀ i t, (s.agent i).mb.pc t = .idle := by
    intro i t
    by_cases e0 : t = 0
    · rw [e0]; exact (h0 i).1
    by_cases e1 : t = 1
    · rw [e1]; exact (h0 i).2
    refine run_inv_on (step := step bs) (fun c => ∀ i wc, c = Act.at i wc → wc.1 = 0 ∨ wc.1 = 1) (fun s => (s.agent i).mb.pc t = .idle) (fun s c s' hP h hc => ?_) rfl sched hs h
    rcases alone_step hc i with he | ⟨wc, hw, hk⟩
    · rw [he]; exact h
    · refine Worker.idle_step _ _ _ _ t ?_ e0 h hw
      rcases hk with ⟨_, _, hk⟩ | hk
      · omega
      · rcases hP i wc hk with h | h <;> omega
  rintro c hw
  cases c with
  | call => simp [step, h3]
  | back => simp [step, h3]
  | «at» i wc =>
    obtain ⟨t, a⟩ := wc
    cases a <;> first | cases hw; done | skip
    · simp [step, Worker.step, Mailbox.step, hall i t]
    · simp [step, Worker.step, Mailbox.step, h2 i]
    · rename_i v
      rcases h4 i v with h5 | h5
      · simp [step, h5]
      · simp [step, Worker.step, h5]

end Expression.Lemmas.Network
