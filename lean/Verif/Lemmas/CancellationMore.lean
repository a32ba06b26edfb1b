import Verif.Spec.Cancellation
import Verif.Lemmas.CancellationOrder

/-! # Invariants of cancellation with many threads: after a cancel, and after unregistering -/

namespace Expression.Lemmas.Race

open Threads Expression.Cancellation.Race

/-- some thread stands here -/
def On (stack : Nat → List Frame) (f : Frame) : Prop := ∃ t, (stack t).head? = some f

theorem on_new (stack : Nat → List Frame) (t : Nat) (f : Frame) (fs : List Frame) : On (upd stack t (f :: fs)) f := ⟨t, by simp⟩

theorem on_upd (stack : Nat → List Frame) (t : Nat) (f : Frame) (fs : List Frame) (hn : (stack t).head? ≠ some f) (h : On stack f) : On (upd stack t fs) f := by
  obtain ⟨t', h⟩ := h
  exact ⟨t', by rw [upd_other _ _ (fun he => hn (by rw [← he]; exact h))]; exact h⟩

theorem free_head {fs : List Frame} (h : free fs = true) (f : Frame) (hf : ∀ ls, f ≠ .inListener ls) : fs.head? ≠ some f := by
  unfold free at h
  split at h
  · simp
  · simpa using (hf _).symm
  · cases h

/-- what registering and unregistering leave behind -/
structure Book (s : State) : Prop where
  regId : ∀ i, .registered i ∈ s.log → i < s.id
  unReg : ∀ i, .unregisterBegan i ∈ s.log → .registered i ∈ s.log
  gone1 : ∀ i, .unregisterBegan i ∈ s.log → i ∈ s.gone ∨ On s.stack (.uTest i)
  gone2 : ∀ i ∈ s.gone, i ∈ s.listeners → On s.stack (.uLock i) ∨ On s.stack (.uDel i)
  gone3 : ∀ i ∈ s.gone, .registered i ∈ s.log
  listed : ∀ i ∈ s.listeners, .registered i ∈ s.log ∨ On s.stack (.rIncr i) ∨ On s.stack (.rUnlock i)

theorem book_init : Book init where
  regId i h := by cases h
  unReg i h := by cases h
  gone1 i h := by cases h
  gone2 i h := by cases h
  gone3 i h := by cases h
  listed i h := by cases h

set_option maxHeartbeats 4000000 in
theorem book_step (s : State) (c : Nat × Act) (s' : State) (ha : All s) (h : Book s) (hc : step s c = some s') : Book s' := by
  obtain ⟨t, a⟩ := c
  obtain ⟨regId, unReg, gone1, gone2, gone3, listed⟩ := h
  have un1 := ha.facts.un1 t
  have store := ha.facts.store t
  have unlock := ha.facts.unlock t
  have incr := ha.facts.incr t
  have new := on_new s.stack t
  have keep := on_upd s.stack t
  have push := fun h => @free_head (s.stack t) h
  cases a <;> simp only [step] at hc
  · split at hc
    · rename_i hf; cases hc
      constructor <;> simp only [State.at, State.say] <;> grind
    · cases hc
  · split at hc
    · rename_i hf; cases hc
      constructor <;> simp only [State.at, State.say] <;> grind
    · cases hc
  · split at hc
    · rename_i hf; cases hc
      constructor <;> simp only [State.at, State.say] <;> grind
    · cases hc
  · split at hc
    · cases hc
    all_goals rename_i hs
    all_goals have hh := congrArg List.head? hs
    all_goals simp only [List.head?_cons] at hh
    all_goals try (split at hc)
    all_goals try (cases hc; done)
    all_goals cases hc
    all_goals constructor <;> simp only [State.at, State.say] <;> grind

/-- all of it -/
structure Known (s : State) : Prop extends All s where
  book : Book s

theorem known_init : Known init := ⟨all_init, book_init⟩

theorem known_step (s : State) (c : Nat × Act) (s' : State) (h : Known s) (hc : step s c = some s') : Known s' :=
  ⟨all_step s c s' h.toAll hc, book_step s c s' h.toAll h.book hc⟩

theorem known_run {s : State} {sched : List (Nat × Act)} (h : run step init sched = some s) : Known s :=
  run_inv Known known_step known_init sched h

/-- only registered listeners are called -/
structure Called (s : State) : Prop where
  called : ∀ i ∈ calls s.log, .registered i ∈ s.log
  pending : ∀ t, ∀ i ∈ pendAll (s.stack t), .registered i ∈ s.log

theorem on_lock {s : State} (hl : Lock s) {t : Nat} {f : Frame} (hf : ∀ fs, critical (f :: fs) = true) (ht : critical (s.stack t) = true) (h : On s.stack f) :
    (s.stack t).head? = some f := by
  obtain ⟨t', h⟩ := h
  have h1 : critical (s.stack t') = true := by
    cases hs : s.stack t' with
    | nil => rw [hs] at h; cases h
    | cons g fs => rw [hs] at h; cases h; exact hf fs
  have h2 := (hl.crit t').1 h1
  have h3 := (hl.crit t).1 ht
  rw [h2] at h3; cases h3; exact h

theorem called_step (s : State) (c : Nat × Act) (s' : State) (hk : Known s) (h : Called s) (hc : step s c = some s') : Called s' := by
  obtain ⟨es, hlog⟩ := log_step s c s' hc
  have grow : ∀ e, e ∈ s.log → e ∈ s'.log := fun e he => hlog ▸ List.mem_append_left _ he
  cases moves_step s c s' hc with
  | same log pending => exact ⟨fun i hi => grow _ (h.called i (log ▸ hi)), fun t i hi => grow _ (h.pending t i (pending t ▸ hi))⟩
  | snap t fs before after log flag =>
    refine ⟨fun i hi => grow _ (h.called i (log ▸ hi)), fun t' i hi => ?_⟩
    rw [after, upd_apply] at hi
    split at hi
    · rw [pendAll_cons] at hi
      rcases List.mem_append.1 hi with hi | hi
      · rcases hk.book.listed i hi with h | h | h
        · exact grow _ h
        · have := on_lock hk.lock (t := t) (fun _ => rfl) (by rw [before]; rfl) h
          rw [before] at this; cases this
        · have := on_lock hk.lock (t := t) (fun _ => rfl) (by rw [before]; rfl) h
          rw [before] at this; cases this
      · exact grow _ (h.pending t i (by rw [before, pendAll_cons]; exact List.mem_append_right _ hi))
    · exact grow _ (h.pending t' i hi)
  | call t l ls fs before after log flag =>
    have hp : ∀ i ∈ l :: ls ++ pendAll fs, .registered i ∈ s'.log := fun i hi => grow _ (h.pending t i (by rw [before, pendAll_cons]; exact hi))
    refine ⟨fun i hi => ?_, fun t' i hi => ?_⟩
    · rw [log, calls_append] at hi
      rcases List.mem_append.1 hi with hi | hi
      · exact grow _ (h.called i hi)
      · have : i = l := by simpa [calls] using hi
        exact hp i (by simp [this])
    · rw [after, upd_apply] at hi
      split at hi
      · exact hp i (List.mem_cons_of_mem _ hi)
      · exact grow _ (h.pending t' i hi)

theorem called_run {s : State} {sched : List (Nat × Act)} (h : run step init sched = some s) : Called s :=
  (run_inv (fun s => Known s ∧ Called s) (fun s c s' h hc => ⟨known_step s c s' h.1 hc, called_step s c s' h.1 h.2 hc⟩)
    ⟨known_init, (fun _ h => by cases h), (fun _ _ h => by cases h)⟩ sched h).2

/-- a listener out of the list stays out -/
structure Out (i : Nat) (s : State) : Prop where
  out : i ∉ s.listeners
  old : i < s.id
  uncalled : i ∉ calls s.log
  never : ∀ t, i ∉ pendAll (s.stack t)

theorem listeners_step (s : State) (c : Nat × Act) (s' : State) (hf : Facts s) (hc : step s c = some s') :
    s.id ≤ s'.id ∧ ∀ i ∈ s'.listeners, i ∈ s.listeners ∨ i = s.id := by
  obtain ⟨t, a⟩ := c
  cases a <;> simp only [step] at hc
  · split at hc <;> cases hc; exact ⟨Nat.le_refl _, fun _ => .inl⟩
  · split at hc <;> cases hc; exact ⟨Nat.le_refl _, fun _ => .inl⟩
  · split at hc <;> cases hc; exact ⟨Nat.le_refl _, fun _ => .inl⟩
  · split at hc
    · cases hc
    all_goals rename_i hs
    all_goals try (split at hc)
    all_goals try (cases hc; done)
    all_goals cases hc
    all_goals try exact ⟨Nat.le_refl _, fun _ => .inl⟩
    · refine ⟨Nat.le_refl _, fun j hj => ?_⟩
      rcases List.mem_append.1 hj with h | h
      · exact .inl h
      · exact .inr ((List.mem_singleton.1 h).trans (hf.store _ _ _ hs))
    · exact ⟨Nat.le_succ _, fun _ => .inl⟩
    · exact ⟨Nat.le_refl _, fun _ h => .inl (List.mem_filter.1 h).1⟩

theorem out_step (i : Nat) (s : State) (c : Nat × Act) (s' : State) (hk : Known s) (h : Out i s) (hc : step s c = some s') : Out i s' := by
  obtain ⟨out, old, uncalled, never⟩ := h
  obtain ⟨h1, h2⟩ := listeners_step s c s' hk.facts hc
  have out' : i ∉ s'.listeners := fun h => (h2 i h).elim out (fun h => Nat.ne_of_lt old h)
  have old' := Nat.lt_of_lt_of_le old h1
  cases moves_step s c s' hc with
  | same log pending => exact ⟨out', old', log ▸ uncalled, fun t h => never t (pending t ▸ h)⟩
  | snap t fs before after log flag =>
    refine ⟨out', old', log ▸ uncalled, fun t' h => ?_⟩
    rw [after, upd_apply] at h
    split at h
    · rw [pendAll_cons] at h
      rcases List.mem_append.1 h with h | h
      · exact out h
      · exact never t (by rw [before, pendAll_cons]; exact List.mem_append_right _ h)
    · exact never t' h
  | call t l ls fs before after log flag =>
    have hp : i ∉ l :: ls ++ pendAll fs := by
      have := never t
      rwa [before, pendAll_cons] at this
    refine ⟨out', old', fun h => ?_, fun t' h => ?_⟩
    · rw [log, calls_append] at h
      rcases List.mem_append.1 h with h | h
      · exact uncalled h
      · have : i = l := by simpa [calls] using h
        exact hp (by simp [this])
    · rw [after, upd_apply] at h
      split at h
      · exact hp (List.mem_cons_of_mem _ h)
      · exact never t' h

theorem out_run {i : Nat} {a b : State} {sched : List (Nat × Act)} (hk : Known a) (ho : Out i a) (h : run step a sched = some b) : Out i b :=
  (run_inv (fun s => Known s ∧ Out i s) (fun s c s' h hc => ⟨known_step s c s' h.1 hc, out_step i s c s' h.1 h.2 hc⟩) ⟨hk, ho⟩ sched h).2

/-- registering past the test -/
def late : Frame → Bool
  | .rLock => true
  | .rRead => true
  | .rStore _ => true
  | .rIncr _ => true
  | .rUnlock _ => true
  | _ => false

/-- once cancelled and with nobody past the test, no new registrations -/
structure Closed (old : List Event) (s : State) : Prop where
  flag : s.isDisposed = true
  none : ∀ t f, (s.stack t).head? = some f → late f = false
  same : ∀ i, .registered i ∈ s.log → .registered i ∈ old

theorem free_late {fs : List Frame} (h : free fs = true) (f : Frame) (hf : fs.head? = some f) : late f = false := by
  unfold free at h
  split at h
  · cases hf
  · cases hf; rfl
  · cases h

set_option maxHeartbeats 4000000 in
theorem closed_step (old : List Event) (s : State) (c : Nat × Act) (s' : State) (hl : Lock s) (h : Closed old s) (hc : step s c = some s') : Closed old s' := by
  obtain ⟨t, a⟩ := c
  obtain ⟨flag, none, same⟩ := h
  have hpop : ∀ f fs, s.stack t = f :: fs → ∀ f', fs.head? = some f' → late f' = false := fun f fs h f' h' => free_late (listening_free (hl.below t f fs h)) f' h'
  cases a <;> simp only [step] at hc
  · split at hc
    · rename_i hf; cases hc
      constructor <;> simp only [State.at, State.say, upd_apply] <;> grind [late]
    · cases hc
  · split at hc
    · rename_i hf; cases hc
      constructor <;> simp only [State.at, State.say, upd_apply] <;> grind [late]
    · cases hc
  · split at hc
    · rename_i hf; cases hc
      constructor <;> simp only [State.at, State.say, upd_apply] <;> grind [late]
    · cases hc
  · split at hc
    · cases hc
    all_goals rename_i hs
    all_goals have hh := none t
    all_goals have hp := hpop _ _ hs
    all_goals simp only [hs, List.head?_cons] at hh
    all_goals try (split at hc)
    all_goals try (cases hc; done)
    all_goals cases hc
    all_goals constructor <;> simp only [State.at, State.say, upd_apply] <;> grind [late]

theorem closed_run {old : List Event} {a b : State} {sched : List (Nat × Act)} (hl : Lock a) (hk : Closed old a) (h : run step a sched = some b) : Closed old b :=
  (run_inv (fun s => Lock s ∧ Closed old s) (fun s c s' h hc => ⟨lock_step s c s' h.1 hc, closed_step old s c s' h.1 h.2 hc⟩) ⟨hl, hk⟩ sched h).2

/-- whoever may wait for the lock -/
def waits : Frame → Bool
  | .rLock => true
  | .uLock _ => true
  | .cLock => true
  | _ => false

theorem can_go {s : State} {t : Nat} {f : Frame} {fs : List Frame} (h : s.stack t = f :: fs) (hw : waits f = true → s.owner = none) :
    (step s (t, .go)).isSome = true := by
  simp only [step, h]
  cases f with
  | rLock => simp [hw rfl]
  | uLock i => simp [hw rfl]
  | cLock => simp [hw rfl]
  | rCheck => simp only; split <;> rfl
  | uTest i => simp only; split <;> rfl
  | cTest => simp only; split <;> rfl
  | cLoop ls => cases ls <;> rfl
  | _ => rfl

theorem someone_goes {s : State} (hl : Lock s) {t : Nat} (h : s.stack t ≠ []) : ∃ t', (step s (t', .go)).isSome = true := by
  cases ho : s.owner with
  | none =>
    cases hs : s.stack t with
    | nil => exact absurd hs h
    | cons f fs => exact ⟨t, can_go hs fun _ => ho⟩
  | some t' =>
    have hc := (hl.crit t').2 ho
    cases hs : s.stack t' with
    | nil => rw [hs] at hc; cases hc
    | cons f fs =>
      refine ⟨t', can_go hs fun hw => ?_⟩
      rw [hs] at hc
      cases f <;> first | (cases hw; done) | (cases hc; done)

/-- the cancels that began and have not ended are those on the stack -/
theorem openCancels_run {s : State} {sched : List (Nat × Act)} (h : run step init sched = some s) (t : Nat) :
    s.log.count (.cancelBegan t) = s.log.count (.cancelEnded t) + (s.stack t).countP Spec.Race.inCancel := by
  refine run_inv (fun s => ∀ t, s.log.count (.cancelBegan t) = s.log.count (.cancelEnded t) + (s.stack t).countP Spec.Race.inCancel)
    (fun s c s' h hc u => ?_) (fun _ => rfl) sched h t
  obtain ⟨t, a⟩ := c
  have hu := h u
  have key : ∀ (fs : List Frame) (es : List Event), (s.log ++ es).count (.cancelBegan u) = (s.log ++ es).count (.cancelEnded u) + (upd s.stack t fs u).countP Spec.Race.inCancel ↔
      es.count (.cancelBegan u) + (s.stack u).countP Spec.Race.inCancel = es.count (.cancelEnded u) + (upd s.stack t fs u).countP Spec.Race.inCancel := by
    intro fs es
    rw [List.count_append, List.count_append]
    omega
  have key0 : ∀ (fs : List Frame), s.log.count (.cancelBegan u) = s.log.count (.cancelEnded u) + (upd s.stack t fs u).countP Spec.Race.inCancel ↔
      (s.stack u).countP Spec.Race.inCancel = (upd s.stack t fs u).countP Spec.Race.inCancel := by
    intro fs
    omega
  cases a <;> simp only [step] at hc
  iterate 3
    split at hc <;> cases hc
    refine (key _ _).2 ?_
    by_cases e : u = t
    · subst e
      rw [upd_same]
      simp [List.countP_cons, Spec.Race.inCancel, Nat.add_comm]
    · rw [upd_other _ _ e]
      simp [Ne.symm e]
  split at hc
  · cases hc
  all_goals rename_i hs
  all_goals try (split at hc)
  all_goals cases hc
  all_goals first | refine (key _ _).2 ?_ | refine (key0 _).2 ?_
  all_goals
    by_cases e : u = t
    · subst e
      rw [upd_same, hs]
      simp [List.countP_cons, Spec.Race.inCancel, Nat.add_comm]
    · rw [upd_other _ _ e]
      try simp [Ne.symm e]

end Expression.Lemmas.Race
