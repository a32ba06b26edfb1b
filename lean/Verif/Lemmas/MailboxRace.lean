import Verif.Lemmas.MailboxLoop
import Verif.Lemmas.MailboxFuture

/-! # Invariants of the mailbox when other threads process events too -/

namespace Expression.Lemmas.Mailbox

open Threads Spec.Mailbox Expression.Mailbox

/-- the receive in hand while cancelling -/
def cancelTarget : Pc → Option Nat
  | .cWrite c => c
  | .cCall c => c
  | _ => none

/-- holds for every schedule: whose futures can still be completed -/
structure Base (s : State) : Prop where
  contLive : ∀ n, s.cont = some n → s.fut n = .pending ∨ s.fut n = .gaveUp ∨ s.fut n = .cancelled
  callLive : ∀ t m n, s.pc t = .call m (some n) → s.fut n = .pending ∨ s.fut n = .gaveUp ∨ s.fut n = .cancelled
  canc : ∀ n, s.fut n = .cancelled → s.token = true
  tok : ∀ t, cancelling (s.pc t) = true → s.token = true
  oldCancel : ∀ n, s.cancel = some n → n < s.next
  oldTarget : ∀ t n, cancelTarget (s.pc t) = some n → n < s.next
  oldSetC : ∀ n, s.pc 0 = .rSetCancel n → n < s.next
  setCancel : ∀ n, s.pc 0 = .rSet n → ∀ n', s.cancel = some n' → n' < n
  setTarget : ∀ n, s.pc 0 = .rSet n → ∀ t n', cancelTarget (s.pc t) = some n' → n' < n
  setLive : ∀ n, s.pc 0 = .rSet n → s.fut n = .pending
  setNone : ∀ n, s.pc 0 = .rSet n → s.cont = none
  noCont : ∀ m c, s.pc 0 = .call m c → s.cont = none
  writeCont : ∀ t m n, s.pc t = .write m (some n) → s.cont = some n

theorem base_init : Base init := by constructor <;> simp [init, cancelling, cancelTarget]

set_option maxHeartbeats 4000000 in
theorem base_step (s : State) (c : Nat × Act) (s' : State) (ha : Acc s) (ho : Ord s) (h : Base s) (hc : step s c = some s') : Base s' := by
  obtain ⟨t, a⟩ := c
  obtain ⟨contLive, callLive, canc, tok, oldCancel, oldTarget, oldSetC, setCancel, setTarget, setLive, setNone, noCont, writeCont⟩ := h
  have crit := ha.crit
  have crit0 := crit t
  have loop0 := ha.loop t
  have oldCont := ho.oldCont
  have oldCall := ho.oldCall
  have oldSet := ho.oldSet
  have contCall := ho.contCall
  have setCall := ho.setCall
  clear ha ho
  cases a <;> simp only [step] at hc
  case go =>
    split at hc
    · cases hc
    all_goals rename_i hs
    all_goals simp only [hs, critical, receiving] at crit0 loop0
    all_goals try (split at hc)
    all_goals try (cases hc; done)
    all_goals cases hc
    all_goals constructor <;>
      simp only [State.at, State.say, upd_apply] <;>
      grind [critical, cancelling, cancelTarget]
  all_goals try (split at hc)
  all_goals try (cases hc; done)
  all_goals cases hc
  all_goals constructor <;>
    simp only [State.at, State.say, upd_apply] <;>
    grind [critical, cancelling, cancelTarget]

/-- a message handed to this continuation is lost -/
def loses (s : State) : Option Nat → Bool
  | none => true
  | some n => s.fut n != .pending

/-- whether the message the event loop is about to take (or has in hand) will be lost, as things stand -/
def doomed (s : State) : Bool :=
  match s.pc 0 with
  | .check => s.cont != none && loses s s.cont
  | .lock => loses s s.cont
  | .empty => loses s s.cont
  | .get => loses s s.cont
  | .read _ => loses s s.cont
  | .write _ c => loses s c
  | .call _ c => loses s c
  | _ => match s.cont with
    | none => false
    | some n => s.fut n == .gaveUp

/-- what a thread other than the event loop may still spoil in its call: taking away a continuation, losing a message -/
def credit (t : Nat) (p : Pc) : Nat :=
  if t = 0 then 0 else
    match p with
    | .idle => 0
    | .sched => 0
    | .unlock => 0
    | .call _ _ => 1
    | _ => 2

set_option maxHeartbeats 4000000 in
theorem delta_step (s : State) (c : Nat × Act) (s' : State) (ha : Acc s) (ho : Ord s) (h : Base s) (hc : step s c = some s') :
    drops s'.log + (doomed s').toNat + credit c.1 (s'.pc c.1) + givenUp s.log ≤
      drops s.log + (doomed s).toNat + credit c.1 (s.pc c.1) + givenUp s'.log + 2 * (askElsewhere c).toNat ∧
    ∀ u, u ≠ c.1 → s'.pc u = s.pc u := by
  obtain ⟨t, a⟩ := c
  obtain ⟨contLive, callLive, canc, tok, oldCancel, oldTarget, oldSetC, setCancel, setTarget, setLive, setNone, noCont, writeCont⟩ := h
  have crit := ha.crit
  have crit0 := crit t
  have loop0 := ha.loop t
  have contCall := ho.contCall
  clear ha ho
  have fut0 : ∀ n, s.cont = some n → s.token = false → s.fut n = .pending ∨ s.fut n = .gaveUp := by grind
  refine ⟨?_, ?_⟩
  · cases a <;> simp only [step] at hc
    case go =>
      split at hc
      · cases hc
      all_goals rename_i hs
      all_goals simp only [hs, critical, receiving] at crit0 loop0
      all_goals try (split at hc)
      all_goals try (cases hc; done)
      all_goals cases hc
      all_goals simp only [State.at, State.say, drops_append, givenUp_append, drops, givenUp, askElsewhere, credit, hs, doomed, loses, Lemmas.upd_same]
      all_goals by_cases h0 : t = 0
      all_goals first
        | (subst h0; simp only [Lemmas.upd_same, hs, if_true])
        | (simp only [upd_other _ _ (Ne.symm h0), h0, if_false]; cases hp : s.pc 0)
      all_goals try grind [loses, upd_apply, critical]
    all_goals try (split at hc)
    all_goals try (cases hc; done)
    all_goals cases hc
    all_goals simp only [State.at, State.say, drops_append, givenUp_append, drops, givenUp, askElsewhere, credit, doomed, loses, Lemmas.upd_same]
    all_goals by_cases h0 : t = 0
    all_goals first
      | (subst h0; simp only [Lemmas.upd_same, if_true]; cases hp : s.pc 0)
      | (simp only [upd_other _ _ (Ne.symm h0), h0, if_false]; cases hp : s.pc 0)
      | cases hp : s.pc 0
    all_goals try grind [loses, upd_apply, critical]
  · intro u hu
    cases a <;> simp only [step] at hc
    case go =>
      split at hc
      · cases hc
      all_goals try (split at hc)
      all_goals try (cases hc; done)
      all_goals cases hc
      all_goals exact upd_other _ _ hu
    all_goals try (split at hc)
    all_goals try (cases hc; done)
    all_goals cases hc
    all_goals first | rfl | exact upd_other _ _ hu

/-- what all other threads may still spoil -/
def credits (N : Nat) (pc : Nat → Pc) : Nat := ((List.range N).map fun u => credit u (pc u)).sum

theorem credits_upd (N : Nat) (pc pc' : Nat → Pc) (t : Nat) (h : ∀ u, u ≠ t → pc' u = pc u) :
    credits N pc' + (if t < N then credit t (pc t) else 0) = credits N pc + (if t < N then credit t (pc' t) else 0) := by
  induction N with
  | zero => simp [credits]
  | succ N ih =>
    simp only [credits, List.range_succ, List.map_append, List.sum_append, List.map_cons, List.map_nil, List.sum_cons, List.sum_nil] at ih ⊢
    by_cases ht : t = N
    · subst ht
      simp only [Nat.lt_irrefl, if_false, Nat.lt_succ_self, if_true] at ih ⊢
      omega
    · rw [h N (fun he => ht he.symm)]
      by_cases hl : t < N
      · rw [if_pos hl, if_pos hl] at ih
        rw [if_pos (by omega), if_pos (by omega)]
        omega
      · rw [if_neg hl, if_neg hl] at ih
        rw [if_neg (by omega), if_neg (by omega)]
        omega

theorem credits_init (N : Nat) : credits N init.pc = 0 := by
  induction N with
  | zero => rfl
  | succ N ih =>
    simp only [credits, List.range_succ, List.map_append, List.sum_append, List.map_cons, List.map_nil, List.sum_cons, List.sum_nil] at ih ⊢
    rw [ih]; simp [credit, init]

theorem askCount (p : List (Nat × Act)) (c : Nat × Act) : asksElsewhere (p ++ [c]) = asksElsewhere p + (askElsewhere c).toNat := by
  simp only [asksElsewhere, List.countP_append, List.countP_cons, List.countP_nil]
  cases askElsewhere c <;> simp

theorem base_run {sched : List (Nat × Act)} {s : State} (h : run step init sched = some s) : Acc s ∧ Ord s ∧ Base s :=
  run_inv (fun s => Acc s ∧ Ord s ∧ Base s)
    (fun s c s' h hc => ⟨acc_step s c s' h.1 hc, ord_step s c s' h.1 h.2.1 hc, base_step s c s' h.1 h.2.1 h.2.2 hc⟩)
    ⟨acc_init, ord_init, base_init⟩ sched h

/-- every message lost is paid for: by a receive given up, or by an ask of another thread, which pays for two -/
theorem drops_run {sched : List (Nat × Act)} {s : State} (h : run step init sched = some s) :
    drops s.log ≤ givenUp s.log + 2 * asksElsewhere sched := by
  have hb : ∃ N, ∀ c ∈ sched, c.1 < N := by
    clear h
    induction sched with
    | nil => exact ⟨0, fun c h => by cases h⟩
    | cons c l ih =>
      obtain ⟨N, hN⟩ := ih
      refine ⟨max N (c.1 + 1), fun d hd => ?_⟩
      rcases List.mem_cons.1 hd with rfl | hd
      · omega
      · have := hN d hd; omega
  obtain ⟨N, hN⟩ := hb
  have := run_inv_sched (step := step)
    (fun p s => (∀ c ∈ p, c.1 < N) → (Acc s ∧ Ord s ∧ Base s) ∧ drops s.log + (doomed s).toNat + credits N s.pc ≤ givenUp s.log + 2 * asksElsewhere p)
    (fun p s c s' hi hc hp => by
      obtain ⟨⟨ha, ho, hb⟩, hi⟩ := hi fun d hd => hp d (List.mem_append_left _ hd)
      refine ⟨⟨acc_step s c s' ha hc, ord_step s c s' ha ho hc, base_step s c s' ha ho hb hc⟩, ?_⟩
      obtain ⟨h1, h2⟩ := delta_step s c s' ha ho hb hc
      have h3 := credits_upd N s.pc s'.pc c.1 h2
      rw [if_pos (hp c (by simp)), if_pos (hp c (by simp))] at h3
      rw [askCount]
      omega)
    [] (fun _ => ⟨⟨acc_init, ord_init, base_init⟩, by rw [credits_init]; simp [init, drops, doomed, givenUp]⟩) sched h
  have := (this (by simpa using hN)).2
  simp only [List.nil_append] at this
  omega

/-- receive number `n` has begun, and nobody has its continuation -/
structure Abandoned (n : Nat) (s : State) : Prop where
  old : n < s.next
  cont : s.cont ≠ some n
  set : s.pc 0 ≠ .rSet n
  write : ∀ t m, s.pc t ≠ .write m (some n)
  call : ∀ t m, s.pc t ≠ .call m (some n)

theorem abandoned_step (n : Nat) (s : State) (c : Nat × Act) (s' : State) (ha : Acc s) (h : Abandoned n s) (hc : step s c = some s') :
    Abandoned n s' ∧ ∀ m, s'.fut n = .result m → s.fut n = .result m := by
  obtain ⟨t, a⟩ := c
  obtain ⟨old, cont, set, write, call⟩ := h
  have loop0 := ha.loop t
  clear ha
  cases a <;> simp only [step] at hc
  case go =>
    split at hc
    · cases hc
    all_goals rename_i hs
    all_goals simp only [hs, receiving] at loop0
    all_goals try (split at hc)
    all_goals try (cases hc; done)
    all_goals cases hc
    all_goals refine ⟨?_, ?_⟩
    all_goals try constructor
    all_goals simp only [State.at, State.say, upd_apply]
    all_goals grind
  all_goals try (split at hc)
  all_goals try (cases hc; done)
  all_goals cases hc
  all_goals refine ⟨?_, ?_⟩
  all_goals try constructor
  all_goals simp only [State.at, State.say, upd_apply]
  all_goals grind

theorem abandoned_run {n : Nat} {s s' : State} (ha : Acc s) (h : Abandoned n s) (sched : List (Nat × Act)) (hr : run step s sched = some s') (m : Nat)
    (hm : s'.fut n = .result m) : s.fut n = .result m :=
  (run_inv (step := step) (fun x => Acc x ∧ Abandoned n x ∧ ∀ m, x.fut n = .result m → s.fut n = .result m)
    (fun x c x' hx hc => by
      obtain ⟨h1, h2⟩ := abandoned_step n x c x' hx.1 hx.2.1 hc
      exact ⟨acc_step x c x' hx.1 hc, h1, fun m hm => hx.2.2 m (h2 m hm)⟩)
    ⟨ha, h, fun _ h => h⟩ sched hr).2.2 m hm

end Expression.Lemmas.Mailbox
