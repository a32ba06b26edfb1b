import Verif.Spec.Aio

/-!
# Helper lemmas: started computations
-/

namespace Expression.Lemmas

open Aio Spec

variable {V : Type}

theorem call_done (f : Future V) (c : Call V) (h : f ≠ .pending) : call f c = f := by
  cases f <;> first | exact absurd rfl h | (cases c <;> rfl)

theorem calls_done (f : Future V) (cs : List (Call V)) (h : f ≠ .pending) : cs.foldl call f = f := by
  induction cs with
  | nil => rfl
  | cons c cs ih => rw [List.foldl_cons, call_done f c h, ih]

theorem calls_first (cs : List (Call V)) : cs.foldl call .pending = firstOutcome cs := by
  cases cs with
  | nil => rfl
  | cons c cs =>
    rw [List.foldl_cons, calls_done _ _ (by cases c <;> simp [call, Future.done])]
    cases c <;> rfl

theorem started_append (es fs : List (Event V)) : started (es ++ fs) = started es ++ started fs := by
  induction es with
  | nil => rfl
  | cons e es ih => cases e <;> simp [started, ih]

theorem effectsOf_append (i : Nat) (l m : List (Nat × Nat)) : effectsOf i (l ++ m) = effectsOf i l ++ effectsOf i m := by
  simp [effectsOf]

theorem effectsOf_single (i j e : Nat) : effectsOf i [(j, e)] = if j = i then [e] else [] := by
  by_cases h : j = i <;> simp [effectsOf, h]

theorem effectsOf_new (i : Nat) (l : List (Nat × Nat)) (h : ∀ p ∈ l, p.1 < i) : effectsOf i l = [] := by
  simp only [effectsOf, List.map_eq_nil_iff, List.filter_eq_nil_iff]
  intro p hp
  have := h p hp
  simp; omega

/-- `Reach c bs c' es`: after the awaits `bs`, `c` has come to `c'` and had the effects `es` (before those of `c'`) -/
inductive Reach : Comp V → List Bool → Comp V → List Nat → Prop
  | refl {c} : Reach c [] c []
  | next {c bs e n k es} : Reach c bs (.step e n k) es → Reach c (bs ++ [false]) n (es ++ [e])
  | onCancel {c bs e n k es} : Reach c bs (.step e n k) es → Reach c (bs ++ [true]) k (es ++ [e])

theorem follow_reach {c c' : Comp V} {bs es} (h : Reach c bs c' es) (bs' : List Bool) :
    follow c (bs ++ bs') = (es ++ (follow c' bs').1, (follow c' bs').2) := by
  induction h generalizing bs' with
  | refl => simp
  | next h ih =>
    rw [List.append_assoc, ih]
    simp [follow]
  | onCancel h ih =>
    rw [List.append_assoc, ih]
    simp [follow]

theorem follow_ended (c : Comp V) (bs bs' : List Bool) (o : Outcome V) (h : (follow c bs).2 = some o) :
    follow c (bs ++ bs') = follow c bs := by
  induction bs generalizing c with
  | nil =>
    cases c with
    | step e n k => simp [follow] at h
    | _ => cases bs' <;> rfl
  | cons b bs ih =>
    cases c with
    | step e n k =>
      simp only [follow] at h
      simp only [List.cons_append, follow, ih _ h]
    | _ => rfl

/-- what is known of a task that runs `c` and has had the effects `es`, given what was watched -/
structure TaskInv (c : Comp V) (s : Watch) (es : List Nat) (t : TaskState V) : Prop where
  alone : (es, t.outcome) = runAlone c s.flags
  fresh : s.flags = [] → t.resumed = false ∧ t.comp = c
  reach : ∀ bs, s.flags = false :: bs → t.outcome = none → t.resumed = true ∧ ∃ es', Reach c bs t.comp es'
  pending : t.outcome = none → t.cancelRequested = s.pending

structure AioInv (ss : List (Comp V × Tok)) (w : World V) : Prop where
  len : w.tasks.length = ss.length
  running : ∀ i, i ∈ w.running ↔ ∃ t, w.tasks[i]? = some t ∧ ∀ v, t.outcome ≠ some (.returned v)
  nodup : w.running.Nodup
  log : ∀ p ∈ w.log, p.1 < w.tasks.length
  listeners : ∀ i ∈ w.listeners, i.2 < w.tasks.length

/-- `s` watches task `i` of `w` -/
structure WatchInv (ss : List (Comp V × Tok)) (w : World V) (i : Nat) (s : Watch) : Prop where
  count : s.count = w.tasks.length
  cancelled : ∀ k, k ∈ s.cancelled ↔ k ∈ w.cancelled
  registered : ∀ k, s.registered = some k ↔ (k, i) ∈ w.listeners
  early : s.count ≤ i → s.pending = false ∧ s.flags = []
  task : ∀ t c b, w.tasks[i]? = some t → ss[i]? = some (c, b) → TaskInv c s (effectsOf i w.log) t

theorem aioInv_init : AioInv ([] : List (Comp V × Tok)) .init where
  len := rfl
  running i := by simp [World.init]
  nodup := List.nodup_nil
  log p h := by simp [World.init] at h
  listeners i h := by simp [World.init] at h

theorem watchInv_init (i : Nat) : WatchInv ([] : List (Comp V × Tok)) .init i {} where
  count := rfl
  cancelled k := by simp [World.init]
  registered := by simp [World.init]
  early _ := ⟨rfl, rfl⟩
  task t c b h := by simp [World.init] at h

theorem tokenSource_congr {ks ls : List Nat} (h : ∀ k, k ∈ ks ↔ k ∈ ls) (b : Tok) : tokenSource ks b = tokenSource ls b := by
  cases b with
  | of k => simp only [tokenSource, h]
  | _ => rfl

theorem start_eq (w : World V) (c : Comp V) (b : Tok) : (start w c b).2 =
    ⟨w.tasks ++ [⟨c, false, false, none⟩], w.running ++ [w.tasks.length], w.cancelled,
      match tokenSource w.cancelled b with
      | some k => w.listeners ++ [(k, w.tasks.length)]
      | none => w.listeners, w.log⟩ := by
  cases b with
  | without => rfl
  | never => rfl
  | of k =>
    by_cases hk : k ∈ w.cancelled <;> simp [start, tokenSource, hk]

theorem aioInv_start {ss : List (Comp V × Tok)} {w : World V} (h : AioInv ss w) (c : Comp V) (b : Tok) :
    AioInv (ss ++ [(c, b)]) (start w c b).2 := by
  have e : (start w c b).2 = ⟨w.tasks ++ [⟨c, false, false, none⟩], w.running ++ [w.tasks.length], w.cancelled,
      match tokenSource w.cancelled b with
      | some k => w.listeners ++ [(k, w.tasks.length)]
      | none => w.listeners, w.log⟩ := start_eq w c b
  rw [e]
  refine ⟨by simp [h.len], ?_, ?_, ?_, ?_⟩
  · intro i
    simp only [List.mem_append, List.mem_singleton, h.running]
    constructor
    · rintro (⟨t, h1, h2⟩ | rfl)
      · have : i < w.tasks.length := (List.getElem?_eq_some_iff.1 h1).1
        exact ⟨t, by rw [List.getElem?_append_left this]; exact h1, h2⟩
      · exact ⟨⟨c, false, false, none⟩, by simp, by simp⟩
    · rintro ⟨t, h1, h2⟩
      rcases Nat.lt_trichotomy i w.tasks.length with hi | hi | hi
      · rw [List.getElem?_append_left hi] at h1
        exact .inl ⟨t, h1, h2⟩
      · exact .inr hi
      · rw [List.getElem?_eq_none (by simp; omega)] at h1
        cases h1
  · refine List.nodup_append.2 ⟨h.nodup, by simp, ?_⟩
    intro a ha b hb e
    rw [List.mem_singleton] at hb
    obtain ⟨t, ht, _⟩ := (h.running a).1 ha
    have := (List.getElem?_eq_some_iff.1 ht).1
    omega
  · intro p hp
    have := h.log p hp
    simp; omega
  · intro i hi
    simp only [List.length_append, List.length_singleton]
    simp only at hi
    split at hi
    · rcases List.mem_append.1 hi with hi | hi
      · have := h.listeners i hi; omega
      · rw [List.mem_singleton] at hi; subst hi; exact Nat.lt_succ_self _
    · have := h.listeners i hi; omega

theorem watchInv_start {ss : List (Comp V × Tok)} {w : World V} (h : AioInv ss w) {i : Nat} {s : Watch}
    (hs : WatchInv ss w i s) (c : Comp V) (b : Tok) :
    WatchInv (ss ++ [(c, b)]) (start w c b).2 i (watch i s (.start c b)) := by
  have e : (start w c b).2 = ⟨w.tasks ++ [⟨c, false, false, none⟩], w.running ++ [w.tasks.length], w.cancelled,
      match tokenSource w.cancelled b with
      | some k => w.listeners ++ [(k, w.tasks.length)]
      | none => w.listeners, w.log⟩ := start_eq w c b
  rw [e]
  refine ⟨by simp [watch, hs.count], hs.cancelled, ?_, ?_, ?_⟩
  · intro k
    simp only [watch, hs.count, tokenSource_congr hs.cancelled]
    by_cases hi : w.tasks.length = i
    · rw [if_pos hi]
      have hn : ∀ k, (k, i) ∉ w.listeners := fun k hm => by have := h.listeners _ hm; simp only at this; omega
      cases hr : tokenSource w.cancelled b with
      | none => simp [hn k]
      | some k' => simp [hn k, hi, eq_comm]
    · rw [if_neg hi, hs.registered]
      cases hr : tokenSource w.cancelled b with
      | none => rfl
      | some k' => simp [Ne.symm hi]
  · intro hle
    simp only [watch] at hle ⊢
    exact hs.early (by omega)
  · intro t c' b' h1 h2
    simp only at h1
    rcases Nat.lt_trichotomy i w.tasks.length with hi | hi | hi
    · rw [List.getElem?_append_left hi] at h1
      rw [List.getElem?_append_left (by rw [← h.len]; exact hi)] at h2
      obtain ⟨a1, a2, a3, a4⟩ := hs.task t c' b' h1 h2
      exact ⟨a1, a2, a3, a4⟩
    · subst hi
      rw [h.len] at h2
      simp at h1 h2
      obtain ⟨rfl, rfl⟩ := h2
      subst h1
      obtain ⟨e1, e2⟩ := hs.early (by rw [hs.count]; omega)
      refine ⟨?_, fun _ => ⟨rfl, rfl⟩, ?_, fun _ => e1.symm⟩
      · simp only [watch, e2, runAlone, effectsOf_new _ _ h.log]
      · intro bs hb
        simp only [watch, e2] at hb
        cases hb
    · rw [List.getElem?_eq_none (by simp; omega)] at h1
      cases h1

theorem requestCancel_outcome (t : TaskState V) : (requestCancel t).outcome = t.outcome := by
  unfold requestCancel; split <;> rfl

theorem cancel_tasks (w : World V) (k i : Nat) :
    (cancel w k).tasks[i]? = (w.tasks[i]?).map (fun t => if k ∉ w.cancelled ∧ (k, i) ∈ w.listeners then requestCancel t else t) := by
  unfold cancel
  split
  · rename_i hw
    simp [hw]
  · rename_i hw
    simp only [List.getElem?_mapIdx]
    simp only [hw, not_false_eq_true, true_and]

theorem cancel_rest (w : World V) (k : Nat) : (cancel w k).running = w.running ∧ (cancel w k).log = w.log ∧
    (cancel w k).listeners = w.listeners ∧ (∀ j, j ∈ (cancel w k).cancelled ↔ j = k ∨ j ∈ w.cancelled) ∧
    (cancel w k).tasks.length = w.tasks.length := by
  unfold cancel
  split
  · rename_i hw
    exact ⟨rfl, rfl, rfl, fun j => ⟨.inr, fun h => h.elim (fun h => h ▸ hw) id⟩, rfl⟩
  · exact ⟨rfl, rfl, rfl, fun j => List.mem_cons, by simp⟩

theorem aioInv_cancel {ss : List (Comp V × Tok)} {w : World V} (h : AioInv ss w) (k : Nat) : AioInv ss (cancel w k) := by
  obtain ⟨e1, e2, e3, _, e5⟩ := cancel_rest w k
  refine ⟨by rw [e5]; exact h.len, ?_, by rw [e1]; exact h.nodup, by rw [e2, e5]; exact h.log,
    by rw [e3, e5]; exact h.listeners⟩
  intro i
  rw [e1, h.running, cancel_tasks]
  constructor
  · rintro ⟨t, h1, h2⟩
    refine ⟨_, by rw [h1]; rfl, ?_⟩
    split
    · rw [requestCancel_outcome]; exact h2
    · exact h2
  · rintro ⟨t, h1, h2⟩
    cases ht : w.tasks[i]? with
    | none => rw [ht] at h1; cases h1
    | some t' =>
      rw [ht] at h1
      simp only [Option.map_some, Option.some.injEq] at h1
      refine ⟨t', rfl, ?_⟩
      subst h1
      split at h2
      · rw [requestCancel_outcome] at h2; exact h2
      · exact h2

theorem watchInv_cancel {ss : List (Comp V × Tok)} {w : World V} (h : AioInv ss w) {i : Nat} {s : Watch}
    (hs : WatchInv ss w i s) (k : Nat) : WatchInv ss (cancel w k) i (watch i s (.cancel k : Event V)) := by
  obtain ⟨e1, e2, e3, e4, e5⟩ := cancel_rest w k
  refine ⟨by rw [e5]; exact hs.count, ?_, by rw [e3]; exact hs.registered, ?_, ?_⟩
  · intro j
    rw [e4]
    simp only [watch, List.mem_cons, hs.cancelled]
  · intro hle
    obtain ⟨a1, a2⟩ := hs.early hle
    have : s.registered = none := by
      cases hr : s.registered with
      | none => rfl
      | some j =>
        have := h.listeners _ ((hs.registered j).1 hr)
        simp only [watch] at hle
        rw [hs.count] at hle
        simp only at this
        omega
    exact ⟨by simp [watch, a1, this], a2⟩
  · intro t c b h1 h2
    rw [cancel_tasks] at h1
    rw [e2]
    cases ht : w.tasks[i]? with
    | none => rw [ht] at h1; cases h1
    | some t' =>
      rw [ht] at h1
      simp only [Option.map_some, Option.some.injEq] at h1
      obtain ⟨a1, a2, a3, a4⟩ := hs.task t' c b ht h2
      have hp : (watch i s (.cancel k : Event V)).flags = s.flags := rfl
      subst h1
      by_cases hc : k ∉ w.cancelled ∧ (k, i) ∈ w.listeners
      · rw [if_pos hc]
        have hreg := (hs.registered k).2 hc.2
        have hk : k ∉ s.cancelled := fun hm => hc.1 ((hs.cancelled k).1 hm)
        unfold requestCancel
        cases ho : t'.outcome with
        | some o =>
          simp only [Option.isNone_some, Bool.false_eq_true, if_false]
          rw [ho] at a3
          refine ⟨a1, a2, ?_, ?_⟩
          · rw [ho]; exact a3
          · rw [ho]; intro h; cases h
        | none =>
          simp only [Option.isNone_none, if_true]
          refine ⟨?_, a2, fun bs hb _ => a3 bs hb ho, fun _ => ?_⟩
          · rw [hp, ← a1, ho]
          · simp [watch, hreg, hk]
      · rw [if_neg hc]
        refine ⟨a1, a2, a3, fun ho => ?_⟩
        rw [a4 ho]
        simp only [watch]
        by_cases hr : s.registered = some k
        · have hk : k ∈ s.cancelled := (hs.cancelled k).2 (Classical.byContradiction fun hn => hc ⟨hn, (hs.registered k).1 hr⟩)
          simp [hk]
        · simp [hr]

open Classical in
/-- replacing the unfinished task `i` and appending effects of it -/
theorem aioInv_set {ss : List (Comp V × Tok)} {w : World V} (h : AioInv ss w) (i : Nat) (t t' : TaskState V)
    (ht : w.tasks[i]? = some t) (ho : t.outcome = none) (run' : List Nat) (es : List Nat)
    (hrun : run' = if (∃ v, t'.outcome = some (.returned v)) then w.running.erase i else w.running) :
    AioInv ss { w with tasks := w.tasks.set i t', running := run', log := w.log ++ es.map (fun e => (i, e)) } := by
  have hi : i < w.tasks.length := (List.getElem?_eq_some_iff.1 ht).1
  have hmem : i ∈ w.running := (h.running i).2 ⟨t, ht, by rw [ho]; simp⟩
  refine ⟨by simpa using h.len, ?_, ?_, ?_, by simpa using h.listeners⟩
  · intro j
    simp only
    by_cases hj : i = j
    · subst hj
      rw [List.getElem?_set_self hi]
      rw [hrun]
      split
      · rename_i hv
        obtain ⟨v, hv⟩ := hv
        constructor
        · intro hm
          exact absurd hm (by rw [List.Nodup.mem_erase_iff h.nodup]; simp)
        · rintro ⟨t2, h1, h2⟩
          cases h1
          exact absurd hv (h2 v)
      · rename_i hv
        exact ⟨fun _ => ⟨t', rfl, fun v hv' => hv ⟨v, hv'⟩⟩, fun _ => hmem⟩
    · rw [List.getElem?_set_ne hj, ← h.running, hrun]
      split
      · rw [List.Nodup.mem_erase_iff h.nodup]
        simp [Ne.symm hj]
      · rfl
  · simp only [hrun]
    split
    · exact h.nodup.erase i
    · exact h.nodup
  · intro p hp
    simp only [List.length_set]
    rcases List.mem_append.1 hp with hp | hp
    · exact h.log p hp
    · obtain ⟨e, _, rfl⟩ := List.mem_map.1 hp
      exact hi

/-- what the loop does to an unfinished task: the new task, its effects, and what is left of the running set -/
theorem finish_eq (w : World V) (i : Nat) (t : TaskState V) (ho : t.outcome = none) :
    finish w i t = { w with
      tasks := w.tasks.set i { t with outcome := (follow t.comp []).2 }
      running := match t.comp with
        | .ret _ => w.running.erase i
        | _ => w.running
      log := w.log ++ (follow t.comp []).1.map (fun e => (i, e)) } := by
  unfold finish
  cases hc : t.comp with
  | step e n k =>
    obtain ⟨c', r, q, o⟩ := t
    simp only at ho hc
    subst ho hc
    rfl
  | _ => simp only [follow, List.map_nil, List.append_nil]

theorem aioInv_finish {ss : List (Comp V × Tok)} {w : World V} (h : AioInv ss w) (i : Nat) (t t' : TaskState V)
    (ht : w.tasks[i]? = some t) (ho : t.outcome = none) (ho' : t'.outcome = none) :
    AioInv ss (finish w i t') := by
  rw [finish_eq w i t' ho']
  refine aioInv_set h i t _ ht ho _ _ ?_
  cases hc : t'.comp with
  | ret v => exact (if_pos ⟨v, rfl⟩).symm
  | _ => exact (if_neg (by simp [follow])).symm

/-- The watched task after it was replaced: another one is as before, this one satisfies the given invariant. -/
theorem watchInv_set {ss : List (Comp V × Tok)} {w : World V} {i j : Nat} {s : Watch} (h : WatchInv ss w i s)
    (t' : TaskState V) (hj : j < w.tasks.length) (run' : List Nat) (es : List Nat) (s' : Watch)
    (hs : s' = if j = i ∧ i < s.count then { s with pending := false, flags := s.flags ++ [s.pending] } else s)
    (hT : j = i → ∀ c b, ss[i]? = some (c, b) → TaskInv c s' (effectsOf i w.log ++ es) t') :
    WatchInv ss { w with tasks := w.tasks.set j t', running := run', log := w.log ++ es.map (fun e => (j, e)) } i s' := by
  have hc : s'.count = s.count ∧ s'.cancelled = s.cancelled ∧ s'.registered = s.registered := by
    rw [hs]; split <;> exact ⟨rfl, rfl, rfl⟩
  refine ⟨by rw [hc.1, h.count]; simp, by rw [hc.2.1]; exact h.cancelled, by rw [hc.2.2]; exact h.registered, ?_, ?_⟩
  · intro hle
    rw [hc.1] at hle
    rw [hs, if_neg (by omega)]
    exact h.early hle
  · intro t c b h1 h2
    simp only [effectsOf_append] at h1 ⊢
    by_cases hji : j = i
    · subst hji
      rw [List.getElem?_set_self hj] at h1
      cases h1
      have : effectsOf j (es.map (fun e => (j, e))) = es := by
        simp [effectsOf, List.filter_map, Function.comp_def]
      rw [this]
      exact hT rfl c b h2
    · rw [List.getElem?_set_ne hji] at h1
      have : effectsOf i (es.map (fun e => (j, e))) = [] := by
        simp [effectsOf, List.filter_map, Function.comp_def, hji]
      rw [this, List.append_nil, hs, if_neg (by simp [hji])]
      exact h.task t c b h1 h2

theorem resume_inv {ss : List (Comp V × Tok)} {w : World V} (h : AioInv ss w) (j : Nat) :
    AioInv ss (resume w j) ∧
      ∀ i s, WatchInv ss w i s → WatchInv ss (resume w j) i (watch i s (.resume j : Event V)) := by
  have skip : ∀ i s, WatchInv ss w i s → (∀ t c b, j = i → i < s.count → w.tasks[i]? = some t → ss[i]? = some (c, b) →
      TaskInv c s (effectsOf i w.log) t → TaskInv c { s with pending := false, flags := s.flags ++ [s.pending] }
        (effectsOf i w.log) t) → WatchInv ss w i (watch i s (.resume j : Event V)) := by
    intro i s hs hT
    simp only [watch]
    split
    · rename_i hc
      refine ⟨hs.count, hs.cancelled, hs.registered, ?_, ?_⟩
      · intro hle
        simp only at hle
        omega
      · intro t c b h1 h2
        exact hT t c b hc.1 hc.2 h1 h2 (hs.task t c b h1 h2)
    · exact hs
  cases ht : w.tasks[j]? with
  | none =>
    have e : resume w j = w := by unfold resume; rw [ht]
    rw [e]
    refine ⟨h, fun i s hs => skip i s hs ?_⟩
    intro t c b hji hlt h1
    subst hji
    rw [ht] at h1
    cases h1
  | some t =>
    have hj : j < w.tasks.length := (List.getElem?_eq_some_iff.1 ht).1
    cases ho : t.outcome with
    | some o =>
      have e : resume w j = w := by unfold resume; rw [ht]; simp [ho]
      rw [e]
      refine ⟨h, fun i s hs => skip i s hs ?_⟩
      intro t' c b hji hlt h1 h2 hT
      subst hji
      rw [ht] at h1
      cases h1
      obtain ⟨a1, a2, a3, a4⟩ := hT
      refine ⟨?_, by simp, fun _ _ hn => (by rw [ho] at hn; cases hn), fun hn => (by rw [ho] at hn; cases hn)⟩
      cases hf : s.flags with
      | nil => rw [hf, ho] at a1; simp [runAlone] at a1
      | cons b bs =>
        rw [hf] at a1
        cases b with
        | true => exact a1
        | false =>
          simp only [runAlone] at a1
          simp only [List.cons_append, runAlone]
          rw [follow_ended c bs _ o (by rw [← a1]; exact ho)]
          exact a1
    | none =>
      cases hr : t.resumed with
      | false =>
        cases hq : t.cancelRequested with
        | true =>
          have e : resume w j = { w with
              tasks := w.tasks.set j ⟨t.comp, true, false, some .cancelled⟩
              running := w.running
              log := w.log ++ ([] : List Nat).map (fun e => (j, e)) } := by
            unfold resume; rw [ht]; simp [ho, hr, hq]
          rw [e]
          refine ⟨aioInv_set h j t _ ht ho _ [] (by rw [if_neg (by simp)]), fun i s hs => ?_⟩
          refine watchInv_set hs _ hj _ [] _ (by rfl) ?_
          rintro rfl c b hc
          obtain ⟨a1, a2, a3, a4⟩ := hs.task t c b ht hc
          have hfl : s.flags = [] := by
            cases hf : s.flags with
            | nil => rfl
            | cons b bs =>
              cases b with
              | true => rw [hf, ho] at a1; simp [runAlone] at a1
              | false => have := (a3 bs hf ho).1; rw [hr] at this; cases this
          rw [hfl] at a1
          simp only [runAlone, Prod.mk.injEq] at a1
          have hp : s.pending = true := by rw [← a4 ho]; exact hq
          simp only [watch, hs.count, hj, and_self, if_true, hp, hfl]
          exact ⟨by rw [a1.1]; rfl, by simp, by simp, by simp⟩
        | false =>
          have e : resume w j = finish w j ⟨t.comp, true, false, none⟩ := by
            unfold resume; rw [ht]; simp [ho, hr, hq]
          rw [e]
          refine ⟨aioInv_finish h j t _ ht ho rfl, fun i s hs => ?_⟩
          rw [finish_eq _ _ _ rfl]
          refine watchInv_set hs _ hj _ _ _ (by rfl) ?_
          rintro rfl c b hc
          obtain ⟨a1, a2, a3, a4⟩ := hs.task t c b ht hc
          have hfl : s.flags = [] := by
            cases hf : s.flags with
            | nil => rfl
            | cons b bs =>
              cases b with
              | true => rw [hf, ho] at a1; simp [runAlone] at a1
              | false => have := (a3 bs hf ho).1; rw [hr] at this; cases this
          have hcomp := (a2 hfl).2
          rw [hfl] at a1
          simp only [runAlone, Prod.mk.injEq] at a1
          have hp : s.pending = false := by rw [← a4 ho]; exact hq
          simp only [watch, hs.count, hj, and_self, if_true, hp, hfl, hcomp]
          refine ⟨by rw [a1.1]; rfl, by simp, ?_, fun _ => rfl⟩
          intro bs hb _
          simp only [List.nil_append, List.cons.injEq, true_and] at hb
          subst hb
          exact ⟨rfl, [], .refl⟩
      | true =>
        have hst : ∀ e n k, t.comp = .step e n k → ∀ s c b, WatchInv ss w j s → ss[j]? = some (c, b) →
            ∃ bs es', s.flags = false :: bs ∧ Reach c bs (.step e n k) es' ∧ effectsOf j w.log = es' ++ [e] ∧
              s.pending = t.cancelRequested := by
          intro e n k hcomp s c b hs hc
          obtain ⟨a1, a2, a3, a4⟩ := hs.task t c b ht hc
          cases hf : s.flags with
          | nil => have := (a2 hf).1; rw [hr] at this; cases this
          | cons b' bs =>
            cases b' with
            | true => rw [hf, ho] at a1; simp [runAlone] at a1
            | false =>
              obtain ⟨_, es', hR⟩ := a3 bs hf ho
              rw [hcomp] at hR
              refine ⟨bs, es', rfl, hR, ?_, (a4 ho).symm⟩
              have := follow_reach hR []
              rw [List.append_nil] at this
              rw [hf] at a1
              simp only [runAlone] at a1
              rw [this] at a1
              simp only [follow, Prod.mk.injEq] at a1
              exact a1.1
        cases hcomp : t.comp with
        | step e n k =>
          cases hq : t.cancelRequested with
          | true =>
            have e' : resume w j = finish w j ⟨k, true, false, none⟩ := by
              unfold resume; rw [ht]; simp [ho, hr, hq, hcomp]
            rw [e']
            refine ⟨aioInv_finish h j t _ ht ho rfl, fun i s hs => ?_⟩
            rw [finish_eq _ _ _ rfl]
            refine watchInv_set hs _ hj _ _ _ (by rfl) ?_
            rintro rfl c b hc
            obtain ⟨bs, es', f1, f2, f3, f4⟩ := hst e n k hcomp s c b hs hc
            have hR := Reach.onCancel f2
            rw [hq] at f4
            simp only [watch, hs.count, hj, and_self, if_true, f1, f4]
            refine ⟨?_, by simp, ?_, fun _ => rfl⟩
            · simp only [List.cons_append, runAlone]
              have := follow_reach hR []
              rw [List.append_nil] at this
              rw [this, f3]
            · intro bs' hb _
              simp only [List.cons_append, List.cons.injEq, true_and] at hb
              subst hb
              exact ⟨rfl, _, hR⟩
          | false =>
            have e' : resume w j = finish w j ⟨n, true, false, none⟩ := by
              unfold resume; rw [ht]; simp [ho, hr, hq, hcomp]
            rw [e']
            refine ⟨aioInv_finish h j t _ ht ho rfl, fun i s hs => ?_⟩
            rw [finish_eq _ _ _ rfl]
            refine watchInv_set hs _ hj _ _ _ (by rfl) ?_
            rintro rfl c b hc
            obtain ⟨bs, es', f1, f2, f3, f4⟩ := hst e n k hcomp s c b hs hc
            have hR := Reach.next f2
            rw [hq] at f4
            simp only [watch, hs.count, hj, and_self, if_true, f1, f4]
            refine ⟨?_, by simp, ?_, fun _ => rfl⟩
            · simp only [List.cons_append, runAlone]
              have := follow_reach hR []
              rw [List.append_nil] at this
              rw [this, f3]
            · intro bs' hb _
              simp only [List.cons_append, List.cons.injEq, true_and] at hb
              subst hb
              exact ⟨rfl, _, hR⟩
        | _ =>
          have e : resume w j = w := by unfold resume; rw [ht]; simp [ho, hr, hcomp]
          rw [e]
          refine ⟨h, fun i s hs => skip i s hs ?_⟩
          intro t' c b hji hlt h1 h2 hT
          subst hji
          rw [ht] at h1
          cases h1
          obtain ⟨a1, a2, a3, a4⟩ := hT
          exfalso
          cases hf : s.flags with
          | nil => have := (a2 hf).1; rw [hr] at this; cases this
          | cons b' bs =>
            cases b' with
            | true => rw [hf, ho] at a1; simp [runAlone] at a1
            | false =>
              obtain ⟨_, es', hR⟩ := a3 bs hf ho
              have := follow_reach hR []
              rw [hcomp, List.append_nil] at this
              rw [hf, ho] at a1
              simp only [runAlone] at a1
              rw [this] at a1
              simp [follow] at a1

theorem inv_run (es : List (Event V)) (i : Nat) :
    AioInv (started es) (run es) ∧ WatchInv (started es) (run es) i (es.foldl (watch i) {}) := by
  unfold run
  suffices ∀ (es pre : List (Event V)) (w : World V) (s : Watch), AioInv (started pre) w → WatchInv (started pre) w i s →
      AioInv (started (pre ++ es)) (es.foldl step w) ∧
        WatchInv (started (pre ++ es)) (es.foldl step w) i (es.foldl (watch i) s) by
    simpa using this es [] .init {} aioInv_init (watchInv_init i)
  intro es
  induction es with
  | nil => intro pre w s h hs; simpa using ⟨h, hs⟩
  | cons e es ih =>
    intro pre w s h hs
    rw [List.foldl_cons, List.foldl_cons, show pre ++ e :: es = (pre ++ [e]) ++ es by simp]
    have key : AioInv (started (pre ++ [e])) (step w e) ∧ WatchInv (started (pre ++ [e])) (step w e) i (watch i s e) := by
      rw [started_append]
      cases e with
      | start c b => exact ⟨aioInv_start h c b, watchInv_start h hs c b⟩
      | cancel k => simpa [started, step] using ⟨aioInv_cancel h k, watchInv_cancel h hs k⟩
      | resume j => simpa [started, step] using ⟨(resume_inv h j).1, (resume_inv h j).2 i s hs⟩
    exact ih (pre ++ [e]) _ _ key.1 key.2

/-- the source with whose token task `i` was registered, and that was cancelled -/
def hit (s : Watch) : Bool := s.registered.any (· ∈ s.cancelled)

theorem watch_once (es : List (Event V)) (i : Nat) :
    (flagsOf i es).countP id ≤ 1 ∧
    (true ∈ flagsOf i es → ∃ pre k post, es = pre ++ .cancel k :: post ∧ ∃ c, (started pre)[i]? = some (c, .of k)) := by
  unfold flagsOf
  suffices ∀ (es pre : List (Event V)) (s : Watch), s.count = (started pre).length →
      (∀ k, s.registered = some k → ∃ c, (started pre)[i]? = some (c, .of k)) →
      s.flags.countP id + (if s.pending then 1 else 0) ≤ (if hit s then 1 else 0) →
      ((true ∈ s.flags ∨ s.pending = true) → ∃ p k q, pre = p ++ .cancel k :: q ∧ ∃ c, (started p)[i]? = some (c, .of k)) →
      ((es.foldl (watch i) s).flags.countP id ≤ 1 ∧
        (true ∈ (es.foldl (watch i) s).flags →
          ∃ p k q, pre ++ es = p ++ .cancel k :: q ∧ ∃ c, (started p)[i]? = some (c, .of k))) by
    exact this es [] {} rfl (by simp) (by simp) (by simp)
  intro es
  induction es with
  | nil =>
    intro pre s _ _ h3 h4
    refine ⟨?_, fun h => ?_⟩
    · rw [List.foldl_nil]
      split at h3 <;> split at h3 <;> omega
    · rw [List.append_nil]
      exact h4 (.inl h)
  | cons e es ih =>
    intro pre s h1 h2 h3 h4
    rw [List.foldl_cons, show pre ++ e :: es = (pre ++ [e]) ++ es by simp]
    have grow : (∃ p k q, pre = p ++ .cancel k :: q ∧ ∃ c, (started p)[i]? = some (c, .of k)) →
        ∃ p k q, pre ++ [e] = p ++ .cancel k :: q ∧ ∃ c, (started p)[i]? = some (c, .of k) := by
      rintro ⟨p, k, q, rfl, hc⟩
      exact ⟨p, k, q ++ [e], by simp, hc⟩
    cases e with
    | start c b =>
      refine ih (pre ++ [.start c b]) (watch i s (.start c b)) (by simp [watch, started_append, started, h1]) ?_ ?_
        (fun h => grow (h4 h))
      · intro k hr
        rw [started_append]
        simp only [watch] at hr
        split at hr
        · rename_i hi
          refine ⟨c, ?_⟩
          rw [← hi, h1]
          cases b with
          | of k' =>
            simp only [tokenSource] at hr
            split at hr
            · cases hr
            · cases hr; simp [started]
          | _ => cases hr
        · obtain ⟨c', hc'⟩ := h2 k hr
          exact ⟨c', by rw [List.getElem?_append_left (List.getElem?_eq_some_iff.1 hc').1]; exact hc'⟩
      · by_cases hi : s.count = i
        · have hn : s.registered = none := by
            cases hr : s.registered with
            | none => rfl
            | some k =>
              obtain ⟨c', hc'⟩ := h2 k hr
              have := (List.getElem?_eq_some_iff.1 hc').1
              omega
          have : hit s = false := by simp [hit, hn]
          rw [this] at h3
          have hz : s.flags.countP id + (if s.pending then 1 else 0) = 0 := by simpa using h3
          show s.flags.countP id + (if s.pending then 1 else 0) ≤ _
          rw [hz]; exact Nat.zero_le _
        · have : hit (watch i s (.start c b : Event V)) = hit s := by simp [hit, watch, hi]
          rw [this]; exact h3
    | cancel k =>
      refine ih (pre ++ [.cancel k]) (watch i s (.cancel k : Event V)) (by simp [watch, started_append, started, h1])
        (by simpa [watch, started_append, started] using h2) ?_ ?_
      · by_cases hc : hit s = true
        · have hh : hit (watch i s (.cancel k : Event V)) = true := by
            cases hr : s.registered with
            | none => simp [hit, hr] at hc
            | some j => simp [hit, hr] at hc; simp [hit, watch, hr, hc]
          have hp : (s.pending || (decide (s.registered = some k) && decide (k ∉ s.cancelled))) = s.pending := by
            cases hr : s.registered with
            | none => simp
            | some j =>
              simp [hit, hr] at hc
              by_cases hj : j = k
              · subst hj; simp [hc]
              · simp [hj]
          rw [if_pos hh]
          rw [if_pos hc] at h3
          simp only [watch, hp]
          exact h3
        · rw [if_neg hc] at h3
          have hf : s.flags.countP id = 0 := by omega
          have hp : s.pending = false := by
            cases hp : s.pending with
            | false => rfl
            | true => simp [hp] at h3
          by_cases hr : s.registered = some k
          · have hh : hit (watch i s (.cancel k : Event V)) = true := by simp [hit, watch, hr]
            rw [if_pos hh]
            have : ∀ b : Bool, 0 + (if b = true then 1 else 0) ≤ 1 := by decide
            simp only [watch, hf]
            exact this _
          · simp [watch, hf, hp, hr]
      · intro h
        simp only [watch] at h
        by_cases ho : true ∈ s.flags ∨ s.pending = true
        · exact grow (h4 ho)
        · have hr : s.registered = some k := by
            rcases h with h | h
            · exact absurd (.inl h) ho
            · cases hp : s.pending with
              | true => exact absurd (.inr hp) ho
              | false => simp [hp] at h; exact h.1
          exact ⟨pre, k, [], rfl, h2 k hr⟩
    | resume j =>
      refine ih (pre ++ [.resume j]) (watch i s (.resume j : Event V)) ?_ ?_ ?_ ?_
      · simp only [watch]; split <;> simp [started_append, started, h1]
      · simp only [watch]; split <;> simpa [started_append, started] using h2
      · have hh : hit (watch i s (.resume j : Event V)) = hit s := by
          simp only [watch]; split <;> rfl
        rw [hh]
        simp only [watch]
        split
        · cases hp : s.pending <;> simp [hp] at h3 ⊢ <;> omega
        · exact h3
      · intro h
        apply grow
        apply h4
        simp only [watch] at h
        split at h
        · simp only [List.mem_append, List.mem_singleton, Bool.false_eq_true, or_false] at h
          rcases h with h | h
          · exact .inl h
          · exact .inr h.symm
        · exact h

theorem cancelled_step (w : World V) (e : Event V) (k : Nat) :
    k ∈ (step w e).cancelled ↔ k ∈ w.cancelled ∨ e = .cancel k := by
  cases e with
  | start c b => rw [step, start_eq]; simp
  | cancel j => rw [step, (cancel_rest w j).2.2.2.1]; simp [or_comm, eq_comm]
  | resume j =>
    have hf : ∀ t, (finish w j t).cancelled = w.cancelled := by
      intro t; unfold finish; split <;> rfl
    have : (resume w j).cancelled = w.cancelled := by
      unfold resume
      split
      · rfl
      · split
        · rfl
        · split
          · split
            · rfl
            · exact hf _
          · split
            · split <;> exact hf _
            · rfl
    simp [step, this]

theorem cancelled_iff (es : List (Event V)) (k : Nat) : k ∈ (run es).cancelled ↔ Event.cancel k ∈ es := by
  unfold run
  suffices ∀ (w : World V), k ∈ (es.foldl step w).cancelled ↔ (k ∈ w.cancelled ∨ Event.cancel k ∈ es) by
    simpa [World.init] using this .init
  induction es with
  | nil => intro w; simp
  | cons e es ih =>
    intro w
    rw [List.foldl_cons, ih, cancelled_step, List.mem_cons, or_assoc]
    exact or_congr_right (or_congr_left eq_comm)

/-- the history without the cancellations of other sources than `k` -/
def onlySource (k : Nat) : List (Event V) → List (Event V) :=
  List.filter (fun e => match e with | .cancel j => j == k | _ => true)

theorem started_onlySource (k : Nat) (es : List (Event V)) : started (onlySource k es) = started es := by
  induction es with
  | nil => rfl
  | cons e es ih =>
    cases e with
    | cancel j =>
      by_cases hj : j = k
      · subst hj
        simp only [onlySource, List.filter_cons, beq_self_eq_true, if_true, started] at ih ⊢
        exact ih
      · simp only [onlySource, List.filter_cons, started] at ih ⊢
        rw [if_neg (by simpa using hj)]
        exact ih
    | _ =>
      simp only [onlySource, List.filter_cons, if_true, started] at ih ⊢
      rw [ih]

/-- what was watched in two histories is the same up to other sources than `k` -/
structure Alike (k : Nat) (s s' : Watch) : Prop where
  count : s.count = s'.count
  cancelled : k ∈ s.cancelled ↔ k ∈ s'.cancelled
  registered : s.registered = s'.registered
  own : s.registered = none ∨ s.registered = some k
  pending : s.pending = s'.pending
  flags : s.flags = s'.flags

theorem watch_only (k i : Nat) (es pre : List (Event V)) (s s' : Watch) (hlen : s.count = (started pre).length) (ha : Alike k s s')
    (hk : ∀ c b, (started (pre ++ es))[i]? = some (c, b) → b = .of k) :
    (es.foldl (watch i) s).flags = ((onlySource k es).foldl (watch i) s').flags := by
  induction es generalizing pre s s' with
  | nil => exact ha.flags
  | cons e es ih =>
    have hk' : ∀ c b, (started ((pre ++ [e]) ++ es))[i]? = some (c, b) → b = .of k := by simpa using hk
    cases e with
    | start c b =>
      have e1 : onlySource k (.start c b :: es : List (Event V)) = .start c b :: onlySource k es := by
        simp [onlySource]
      rw [e1, List.foldl_cons, List.foldl_cons]
      refine ih (pre ++ [.start c b]) _ _ (by simp [watch, started_append, started, hlen]) ?_ hk'
      have key : s.count = i → tokenSource s.cancelled b = tokenSource s'.cancelled b ∧
          (tokenSource s.cancelled b = none ∨ tokenSource s.cancelled b = some k) := by
        intro hi
        have hb : b = .of k := hk c b (by rw [← hi, hlen, started_append]; simp [started])
        subst hb
        simp only [tokenSource, ha.cancelled, true_and]
        split
        · exact .inl rfl
        · exact .inr rfl
      refine ⟨by simp [watch, ha.count], ha.cancelled, ?_, ?_, ha.pending, ha.flags⟩
      · simp only [watch, ← ha.count]
        split
        · rename_i hi; exact (key hi).1
        · exact ha.registered
      · simp only [watch]
        split
        · rename_i hi; exact (key hi).2
        · exact ha.own
    | cancel j =>
      by_cases hj : j = k
      · subst hj
        have e1 : onlySource j (.cancel j :: es : List (Event V)) = .cancel j :: onlySource j es := by simp [onlySource]
        rw [e1, List.foldl_cons, List.foldl_cons]
        refine ih (pre ++ [.cancel j]) _ _ (by simpa [watch, started_append, started] using hlen) ?_ hk'
        refine ⟨ha.count, by simp [watch], ha.registered, ha.own, ?_, ha.flags⟩
        simp only [watch, ha.pending, ha.registered, ha.cancelled]
      · have e1 : onlySource k (.cancel j :: es : List (Event V)) = onlySource k es := by simp [onlySource, hj]
        rw [e1, List.foldl_cons]
        refine ih (pre ++ [.cancel j]) _ _ (by simpa [watch, started_append, started] using hlen) ?_ hk'
        refine ⟨ha.count, by simp [watch, Ne.symm hj, ha.cancelled], ha.registered, ha.own, ?_, ha.flags⟩
        have : s.registered ≠ some j := by
          rcases ha.own with h | h <;> simp [h, Ne.symm hj]
        simp [watch, ha.pending, this]
    | resume j =>
      have e1 : onlySource k (.resume j :: es : List (Event V)) = .resume j :: onlySource k es := by
        simp [onlySource]
      rw [e1, List.foldl_cons, List.foldl_cons]
      refine ih (pre ++ [.resume j]) _ _ ?_ ?_ hk'
      · simp only [watch]; split <;> simpa [started_append, started] using hlen
      · simp only [watch, ← ha.count]
        split
        · exact ⟨rfl, ha.cancelled, ha.registered, ha.own, rfl, by simp [ha.flags, ha.pending]⟩
        · exact ha

theorem flags_count (i : Nat) (es : List (Event V)) (s : Watch) (h : i < s.count) :
    ((es.foldl (watch i) s).flags).length = s.flags.length + es.countP (fun e => match e with | .resume j => j == i | _ => false) := by
  induction es generalizing s with
  | nil => rfl
  | cons e es ih =>
    rw [List.foldl_cons]
    cases e with
    | start c b =>
      rw [ih _ (by simp only [watch]; omega)]
      simp [watch]
    | cancel k =>
      rw [ih _ (by simpa only [watch] using h)]
      simp [watch]
    | resume j =>
      rw [ih _ (by simp only [watch]; split <;> exact h), List.countP_cons]
      by_cases hj : j = i
      · subst hj
        simp [watch, h]; omega
      · simp [watch, hj]

theorem flags_count_new (es fs : List (Event V)) (c : Comp V) (b : Tok) :
    (flagsOf (started es).length (es ++ .start c b :: fs)).length =
      fs.countP (fun e => match e with | .resume i => i == (started es).length | _ => false) := by
  have hw := (inv_run es (started es).length).2
  have hl := (inv_run es (started es).length).1.len
  unfold flagsOf
  rw [List.foldl_append, List.foldl_cons, flags_count]
  · have : (es.foldl (watch (started es).length) {}).flags = [] := (hw.early (by rw [hw.count, hl]; exact Nat.le_refl _)).2
    simp [watch, this]
  · simp only [watch, hw.count, hl]; omega

end Expression.Lemmas
