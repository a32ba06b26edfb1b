import Verif.Spec.Composite
import Verif.Lemmas.Threads
import Mathlib.Data.List.Nodup

/-! # Asynchronous disposables in several tasks -/

namespace Expression.Lemmas.Composite

open Expression.Composite Lemmas Spec.Composite
open Threads (upd)
open Aio (Comp Outcome)

/-- what holds of the parts -/
structure Glob (w : World) : Prop where
  once : (w.begun.map (·.1)).Nodup
  disposed : ∀ k, w.isDisposed k = true ↔ k ∈ w.begun.map (·.1)
  begun : ∀ k ∈ w.returned, k ∈ w.begun.map (·.1)
  returnedOnce : w.returned.Nodup

/-- task `i` has come to part `k` and not beyond; it began the action of `k`, which has not returned -/
def Stuck (w : World) (i : Nat) (parts : List Nat) (k : Nat) (rest : List Nat) : Prop :=
  ∃ pre, parts = pre ++ k :: rest ∧ (∀ j ∈ pre, w.isDisposed j = true) ∧ (k, i) ∈ w.begun ∧ k ∉ w.returned ∧
    ∀ j, (j, i) ∈ w.begun → j = k ∨ (j ∈ w.returned ∧ j ∈ pre)

/-- however `c` ends, the action of part `k` may end -/
def Leads (actions : Nat → Comp Unit) (C : Nat → Prop) (i k : Nat) (c : Comp Unit) : Prop := ∀ o, CanEnd (C i) c o → CanEnd (C i) (actions k) o

/-- what holds of a task; `C i`: task `i` is cancelled at some time -/
def TaskInv (actions : Nat → Comp Unit) (C : Nat → Prop) (w : World) (i : Nat) (t : Task) : Prop :=
  match t.phase with
  | .fresh => t.rest = t.disposable.parts ∧ ∀ j, (j, i) ∉ w.begun
  | .awaiting k next onCancel => Stuck w i t.disposable.parts k t.rest ∧ Leads actions C i k next ∧ (C i → Leads actions C i k onCancel)
  | .over (.returned _) => (∀ j ∈ t.disposable.parts, w.isDisposed j = true) ∧
      ∀ j, (j, i) ∈ w.begun → j ∈ w.returned ∧ j ∈ t.disposable.parts
  | .over o => (o = .cancelled ∧ C i ∧ ∀ j, (j, i) ∉ w.begun) ∨ ∃ k, Stuck w i t.disposable.parts k t.rest ∧ CanEnd (C i) (actions k) o

section
variable {actions : Nat → Comp Unit} {C : Nat → Prop}

/-- how a task may change the parts -/
structure Ext (i : Nat) (w w' : World) : Prop where
  tasks : w'.tasks = w.tasks
  mono : ∀ k, w.isDisposed k = true → w'.isDisposed k = true
  others : ∀ j i', i' ≠ i → ((j, i') ∈ w'.begun ↔ (j, i') ∈ w.begun)
  returned : ∀ k ∈ w.returned, k ∈ w'.returned
  own : ∀ k ∈ w'.returned, k ∈ w.returned ∨ (k, i) ∈ w'.begun
  kept : ∀ b ∈ w.begun, b ∈ w'.begun

theorem Ext.refl (i : Nat) (w : World) : Ext i w w := ⟨rfl, fun _ h => h, fun _ _ _ => .rfl, fun _ h => h, fun _ h => .inl h, fun _ h => h⟩

theorem Ext.trans {i : Nat} {w w' w'' : World} (h : Ext i w w') (h' : Ext i w' w'') : Ext i w w'' :=
  ⟨h'.tasks.trans h.tasks, fun k hk => h'.mono k (h.mono k hk), fun j i' hi => (h'.others j i' hi).trans (h.others j i' hi),
    fun k hk => h'.returned k (h.returned k hk),
    fun k hk => (h'.own k hk).elim (fun h1 => (h.own k h1).imp id (h'.kept _)) .inr, fun b hb => h'.kept b (h.kept b hb)⟩

theorem owner_unique {w : World} (h : Glob w) {k i j : Nat} (h1 : (k, i) ∈ w.begun) (h2 : (k, j) ∈ w.begun) : i = j := by
  have := List.inj_on_of_nodup_map h.once h1 h2 rfl
  exact (Prod.mk.inj this).2

theorem stuck_ext {i i' : Nat} {w w' : World} (hi : i' ≠ i) (h : Ext i w w') (hg : Glob w') {parts : List Nat} {k : Nat} {rest : List Nat}
    (hs : Stuck w i' parts k rest) : Stuck w' i' parts k rest := by
  obtain ⟨pre, h1, h2, h3, h4, h5⟩ := hs
  refine ⟨pre, h1, fun j hj => h.mono j (h2 j hj), (h.others k i' hi).2 h3, fun hk => ?_, fun j hj => ?_⟩
  · rcases h.own k hk with h6 | h6
    · exact h4 h6
    · exact hi (owner_unique hg ((h.others k i' hi).2 h3) h6)
  · exact (h5 j ((h.others j i' hi).1 hj)).imp id fun h7 => ⟨h.returned j h7.1, h7.2⟩

theorem taskInv_ext {i i' : Nat} {w w' : World} (hi : i' ≠ i) (h : Ext i w w') (hg : Glob w') {t : Task} (ht : TaskInv actions C w i' t) :
    TaskInv actions C w' i' t := by
  unfold TaskInv at ht ⊢
  split
  · rename_i hp
    rw [hp] at ht
    exact ⟨ht.1, fun j hj => ht.2 j ((h.others j i' hi).1 hj)⟩
  · rename_i hp
    rw [hp] at ht
    exact ⟨stuck_ext hi h hg ht.1, ht.2⟩
  · rename_i hp
    rw [hp] at ht
    exact ⟨fun j hj => h.mono j (ht.1 j hj), fun j hj => ⟨h.returned j (ht.2 j ((h.others j i' hi).1 hj)).1, (ht.2 j ((h.others j i' hi).1 hj)).2⟩⟩
  · rename_i hn hp
    rw [hp] at ht
    rename_i o
    cases o with
    | returned v => exact absurd rfl (hn v)
    | failed e => exact ht.imp (fun h1 => ⟨h1.1, h1.2.1, fun j hj => h1.2.2 j ((h.others j i' hi).1 hj)⟩) (fun ⟨k, hk⟩ => ⟨k, stuck_ext hi h hg hk.1, hk.2⟩)
    | cancelled => exact ht.imp (fun h1 => ⟨h1.1, h1.2.1, fun j hj => h1.2.2 j ((h.others j i' hi).1 hj)⟩) (fun ⟨k, hk⟩ => ⟨k, stuck_ext hi h hg hk.1, hk.2⟩)

/-- `_is_disposed = True`, and the action begins -/
def mark (w : World) (k i : Nat) : World := { w with isDisposed := upd w.isDisposed k true, begun := w.begun ++ [(k, i)] }

/-- the action has returned -/
def note (w : World) (k : Nat) : World := { w with returned := w.returned ++ [k] }

theorem glob_mark {w : World} (h : Glob w) (k i : Nat) (hk : w.isDisposed k = false) : Glob (mark w k i) := by
  have hn : k ∉ w.begun.map (·.1) := fun hm => by rw [(h.disposed k).2 hm] at hk; cases hk
  refine ⟨?_, fun j => ?_, fun j hj => ?_, h.returnedOnce⟩
  · simp only [mark, List.map_append, List.map_cons, List.map_nil]
    exact List.nodup_append.2 ⟨h.once, by simp, fun a ha b hb => by simp at hb; subst hb; exact fun he => hn (he ▸ ha)⟩
  · simp only [mark, upd_apply, List.map_append, List.map_cons, List.map_nil, List.mem_append, List.mem_singleton, ← h.disposed]
    by_cases hj : j = k <;> simp [hj]
  · simp only [mark, List.map_append, List.mem_append]
    exact .inl (h.begun j hj)

theorem glob_note {w : World} (h : Glob w) (k i : Nat) (hb : (k, i) ∈ w.begun) (hk : k ∉ w.returned) : Glob (note w k) := by
  refine ⟨h.once, h.disposed, fun j hj => ?_, ?_⟩
  · rcases List.mem_append.1 hj with h1 | h1
    · exact h.begun j h1
    · simp at h1
      subst h1
      exact List.mem_map.2 ⟨_, hb, rfl⟩
  · exact List.nodup_append.2 ⟨h.returnedOnce, by simp, fun a ha b hb => by simp at hb; subst hb; exact fun he => hk (he ▸ ha)⟩

theorem ext_mark (w : World) (k i : Nat) : Ext i w (mark w k i) := by
  refine ⟨rfl, fun j hj => ?_, fun j i' hi => ?_, fun _ h => h, fun _ h => .inl h, fun b hb => by simp [mark, hb]⟩
  · simp only [mark, upd_apply]; split <;> simp [hj]
  · simp [mark, hi]

theorem ext_note (w : World) (k i : Nat) (hb : (k, i) ∈ w.begun) : Ext i w (note w k) := by
  refine ⟨rfl, fun _ h => h, fun _ _ _ => .rfl, fun j hj => by simp [note, hj], fun j hj => ?_, fun _ h => h⟩
  rcases List.mem_append.1 hj with h1 | h1
  · exact .inl h1
  · simp at h1; subst h1; exact .inr hb

/-- the task has done with the parts `pre` -/
def Upto (w : World) (i : Nat) (pre : List Nat) : Prop :=
  (∀ j ∈ pre, w.isDisposed j = true) ∧ ∀ j, (j, i) ∈ w.begun → j ∈ w.returned ∧ j ∈ pre

/-- what a stretch of task `i` leads to -/
def Good (actions : Nat → Comp Unit) (C : Nat → Prop) (i : Nat) (parts : List Nat) (w : World) (r : World × Phase × List Nat) : Prop :=
  Glob r.1 ∧ Ext i w r.1 ∧ ∀ d b, d.parts = parts → TaskInv actions C r.1 i ⟨d, r.2.2, r.2.1, b⟩

theorem upto_mark {w : World} {i : Nat} {pre rest : List Nat} (k : Nat) (hg : Glob w) (h : Upto w i pre) (hk : w.isDisposed k = false) :
    Stuck (mark w k i) i (pre ++ k :: rest) k rest := by
  have hn : k ∉ w.returned := fun hm => by
    rw [(hg.disposed k).2 (hg.begun k hm)] at hk; cases hk
  refine ⟨pre, rfl, fun j hj => (ext_mark w k i).mono j (h.1 j hj), by simp [mark], hn, fun j hj => ?_⟩
  simp only [mark, List.mem_append, List.mem_singleton, Prod.mk.injEq, and_true] at hj
  exact hj.elim (fun h1 => .inr (h.2 j h1)) .inl

theorem stuck_note {w : World} {i : Nat} {parts rest : List Nat} {k : Nat} (hg : Glob w) (h : Stuck w i parts k rest) :
    ∃ pre, parts = pre ++ rest ∧ Upto (note w k) i pre := by
  obtain ⟨pre, h1, h2, h3, h4, h5⟩ := h
  refine ⟨pre ++ [k], by simp [h1], fun j hj => ?_, fun j hj => ?_⟩
  · rcases List.mem_append.1 hj with h6 | h6
    · exact h2 j h6
    · simp at h6
      subst h6
      exact (hg.disposed j).2 (List.mem_map.2 ⟨_, h3, rfl⟩)
  · rcases h5 j hj with h6 | h6
    · simp [note, h6]
    · simp [note, h6]

theorem advance_good (i : Nat) (rest pre : List Nat) (w : World) (hg : Glob w) (h : Upto w i pre) :
    Good actions C i (pre ++ rest) w (advance actions i rest w) := by
  induction rest generalizing pre w with
  | nil =>
    refine ⟨hg, .refl i w, fun d b hd => ?_⟩
    simp only [advance, TaskInv, hd, List.append_nil]
    exact h
  | cons k rest ih =>
    rw [advance]
    by_cases hk : w.isDisposed k = true
    · rw [if_pos hk]
      have := ih (pre ++ [k]) w hg ⟨fun j hj => ?_, fun j hj => ?_⟩
      · simpa using this
      · rcases List.mem_append.1 hj with h1 | h1
        · exact h.1 j h1
        · simp at h1; subst h1; exact hk
      · exact ⟨(h.2 j hj).1, by simp [(h.2 j hj).2]⟩
    · rw [if_neg hk]
      have hk' : w.isDisposed k = false := by simpa using hk
      have hgm := glob_mark hg k i hk'
      have hst := upto_mark (rest := rest) k hg h hk'
      have hem := ext_mark w k i
      change Good actions C i _ w (match actions k with
        | .ret _ => advance actions i rest (note (mark w k i) k)
        | .fail e => (mark w k i, .over (.failed e), rest)
        | .cancelled => (mark w k i, .over .cancelled, rest)
        | .step _ next onCancel => (mark w k i, .awaiting k next onCancel, rest))
      cases ha : actions k with
      | ret v =>
        obtain ⟨pre', h1, h2⟩ := stuck_note hgm hst
        have hb : (k, i) ∈ (mark w k i).begun := by simp [mark]
        obtain ⟨g1, g2, g3⟩ := ih pre' (note (mark w k i) k) (glob_note hgm k i hb (by obtain ⟨_, _, _, _, h4, _⟩ := hst; exact h4)) h2
        exact ⟨g1, hem.trans ((ext_note _ k i hb).trans g2), fun d b hd => g3 d b (hd.trans h1)⟩
      | fail e => exact ⟨hgm, hem, fun d b hd => .inr ⟨k, by rw [hd]; exact hst, by rw [ha]; exact .fail⟩⟩
      | cancelled => exact ⟨hgm, hem, fun d b hd => .inr ⟨k, by rw [hd]; exact hst, by rw [ha]; exact .cancelled⟩⟩
      | step e n c => exact ⟨hgm, hem, fun d b hd => ⟨by rw [hd]; exact hst, fun o ho => by rw [ha]; exact .next ho, fun hc o ho => by rw [ha]; exact .onCancel hc ho⟩⟩

theorem goOn_good (i k : Nat) (c : Comp Unit) (hl : Leads actions C i k c) (parts rest : List Nat) (w : World) (hg : Glob w)
    (h : Stuck w i parts k rest) : Good actions C i parts w (goOn actions i k c rest w) := by
  cases c with
  | ret v =>
    obtain ⟨pre', h1, h2⟩ := stuck_note hg h
    obtain ⟨_, _, _, h3, h4, _⟩ := h
    obtain ⟨g1, g2, g3⟩ := advance_good i rest pre' (note w k) (glob_note hg k i h3 h4) h2
    exact ⟨g1, (ext_note _ k i h3).trans g2, fun d b hd => g3 d b (hd.trans h1)⟩
  | fail e => exact ⟨hg, .refl i w, fun d b hd => .inr ⟨k, by rw [hd]; exact h, hl _ .fail⟩⟩
  | cancelled => exact ⟨hg, .refl i w, fun d b hd => .inr ⟨k, by rw [hd]; exact h, hl _ .cancelled⟩⟩
  | step e n c => exact ⟨hg, .refl i w, fun d b hd => ⟨by rw [hd]; exact h, fun o ho => hl o (.next ho), fun hc o ho => hl o (.onCancel hc ho)⟩⟩

structure Inv (actions : Nat → Comp Unit) (C : Nat → Prop) (w : World) : Prop where
  glob : Glob w
  task : ∀ i t, w.tasks[i]? = some t → TaskInv actions C w i t
  asked : ∀ i t, w.tasks[i]? = some t → t.cancelRequested = true → C i
  there : ∀ b ∈ w.begun, b.2 < w.tasks.length

theorem inv_store {w : World} (h : Inv actions C w) (i : Nat) (t : Task) (ht : w.tasks[i]? = some t) (r : World × Phase × List Nat)
    (hr : Good actions C i t.disposable.parts w r) : Inv actions C (store i t r) := by
  obtain ⟨h1, h2, h3⟩ := hr
  have hl : i < w.tasks.length := (List.getElem?_eq_some_iff.1 ht).1
  refine ⟨⟨h1.once, h1.disposed, h1.begun, h1.returnedOnce⟩, fun i' t' hi => ?_, fun i' t' hi hc => ?_, fun b hb => ?_⟩
  · simp only [store, h2.tasks] at hi
    by_cases hii : i = i'
    · subst hii
      rw [List.getElem?_set_self hl] at hi
      cases hi
      exact h3 t.disposable false rfl
    · rw [List.getElem?_set_ne hii] at hi
      exact taskInv_ext (Ne.symm hii) h2 h1 (h.task i' t' hi)
  · simp only [store, h2.tasks] at hi
    by_cases hii : i = i'
    · subst hii
      rw [List.getElem?_set_self hl] at hi
      cases hi
      cases hc
    · rw [List.getElem?_set_ne hii] at hi
      exact h.asked i' t' hi hc
  · simp only [store, List.length_set, h2.tasks]
    by_cases hb2 : b.2 = i
    · rw [hb2]; exact hl
    · exact h.there b ((h2.others b.1 b.2 hb2).1 hb)

theorem inv_step {w : World} (h : Inv actions C w) (e : Event) (he : ∀ i, e = .cancel i → C i) : Inv actions C (step actions w e) := by
  cases e with
  | dispose d =>
    refine ⟨⟨h.glob.once, h.glob.disposed, h.glob.begun, h.glob.returnedOnce⟩, fun i t hi => ?_, fun i t hi hc => ?_, fun b hb => ?_⟩
    · simp only [step] at hi
      by_cases hil : i < w.tasks.length
      · rw [List.getElem?_append_left hil] at hi
        exact h.task i t hi
      · have hie : i = w.tasks.length := by
          have := (List.getElem?_eq_some_iff.1 hi).1
          simp at this
          omega
        subst hie
        simp at hi
        subst hi
        exact ⟨rfl, fun j hj => absurd (h.there _ hj) (Nat.lt_irrefl _)⟩
    · simp only [step] at hi
      by_cases hil : i < w.tasks.length
      · rw [List.getElem?_append_left hil] at hi
        exact h.asked i t hi hc
      · have hie : i = w.tasks.length := by
          have := (List.getElem?_eq_some_iff.1 hi).1
          simp at this
          omega
        subst hie
        simp at hi
        subst hi
        cases hc
    · have := h.there b hb
      simp [step]; omega
  | cancel i =>
    simp only [step]
    split
    · exact h
    · rename_i t ht
      have hl : i < w.tasks.length := (List.getElem?_eq_some_iff.1 ht).1
      refine ⟨⟨h.glob.once, h.glob.disposed, h.glob.begun, h.glob.returnedOnce⟩, fun i' t' hi => ?_, fun i' t' hi hc => ?_,
        fun b hb => by simpa using h.there b hb⟩
      · simp only at hi
        by_cases hii : i = i'
        · subst hii
          rw [List.getElem?_set_self hl] at hi
          cases hi
          exact h.task i t ht
        · rw [List.getElem?_set_ne hii] at hi
          exact h.task i' t' hi
      · simp only at hi
        by_cases hii : i = i'
        · exact hii ▸ he i rfl
        · rw [List.getElem?_set_ne hii] at hi
          exact h.asked i' t' hi hc
  | resume i =>
    simp only [step, resume]
    split
    · exact h
    · rename_i t ht
      have hti := h.task i t ht
      unfold TaskInv at hti
      split
      · rename_i hp
        rw [hp] at hti
        split
        · rename_i hc
          exact inv_store h i t ht _ ⟨h.glob, .refl i w, fun d b hd => .inl ⟨rfl, h.asked i t ht hc, hti.2⟩⟩
        · refine inv_store h i t ht _ ?_
          have := advance_good (actions := actions) (C := C) i t.rest [] w h.glob ⟨fun j hj => by simp at hj, fun j hj => absurd hj (hti.2 j)⟩
          rw [hti.1] at this ⊢
          exact this
      · rename_i k n c hp
        rw [hp] at hti
        have hl : Leads actions C i k (if t.cancelRequested = true then c else n) := by
          split
          · rename_i hc
            exact hti.2.2 (h.asked i t ht hc)
          · exact hti.2.1
        exact inv_store h i t ht _ (goOn_good i k _ hl _ _ w h.glob hti.1)
      · exact h

theorem inv_run (actions : Nat → Comp Unit) (es : List Event) : Inv actions (fun i => .cancel i ∈ es) (run actions es) := by
  have key : ∀ (C : Nat → Prop) (es : List Event), (∀ i, .cancel i ∈ es → C i) → ∀ w, Inv actions C w → Inv actions C (es.foldl (step actions) w) := by
    intro C es
    induction es with
    | nil => exact fun _ w h => h
    | cons e es ih => exact fun hc w h => ih (fun i hi => hc i (.tail _ hi)) _ (inv_step h e fun i hi => hc i (hi ▸ .head _))
  refine key _ es (fun _ h => h) _ ⟨⟨by simp [World.init], fun k => by simp [World.init], by simp [World.init], by simp [World.init]⟩,
    fun i t h => by simp [World.init] at h, fun i t h => by simp [World.init] at h, by simp [World.init]⟩

end

theorem store_disposable {w : World} {i : Nat} {t : Task} (ht : w.tasks[i]? = some t) {r : World × Phase × List Nat}
    (hr : r.1.tasks = w.tasks) : (store i t r).tasks.map (·.disposable) = w.tasks.map (·.disposable) := by
  simp only [store, hr]
  apply List.ext_getElem?
  intro j
  simp only [List.getElem?_map, List.getElem?_set]
  by_cases hj : i = j
  · subst hj
    obtain ⟨hl, rfl⟩ := List.getElem?_eq_some_iff.1 ht
    simp [hl]
  · simp [hj]

theorem advance_tasks (actions : Nat → Comp Unit) (i : Nat) (rest : List Nat) (w : World) :
    (advance actions i rest w).1.tasks = w.tasks := by
  induction rest generalizing w with
  | nil => rfl
  | cons k rest ih =>
    rw [advance]
    split
    · exact ih w
    · cases actions k with
      | ret v => exact ih _
      | fail e => rfl
      | cancelled => rfl
      | step e n c => rfl

theorem goOn_tasks (actions : Nat → Comp Unit) (i k : Nat) (c : Comp Unit) (rest : List Nat) (w : World) :
    (goOn actions i k c rest w).1.tasks = w.tasks := by
  cases c with
  | ret v => exact advance_tasks actions i rest _
  | fail e => rfl
  | cancelled => rfl
  | step e n c => rfl

theorem step_disposables (actions : Nat → Comp Unit) (w : World) (e : Event) :
    (step actions w e).tasks.map (·.disposable) = w.tasks.map (·.disposable) ++ calls [e] := by
  cases e with
  | dispose d => simp [step, calls]
  | cancel i =>
    simp only [step, calls, List.filterMap_cons, List.filterMap_nil, List.append_nil]
    split
    · rfl
    · rename_i t ht
      apply List.ext_getElem?
      intro j
      simp only [List.getElem?_map, List.getElem?_set]
      by_cases hj : i = j
      · subst hj
        obtain ⟨hl, rfl⟩ := List.getElem?_eq_some_iff.1 ht
        simp [hl]
      · simp [hj]
  | resume i =>
    simp only [step, resume, calls, List.filterMap_cons, List.filterMap_nil, List.append_nil]
    split
    · rfl
    · rename_i t ht
      split
      · split
        · exact store_disposable ht rfl
        · exact store_disposable ht (advance_tasks actions i _ _)
      · exact store_disposable ht (goOn_tasks actions i _ _ _ _)
      · rfl

theorem run_disposables (actions : Nat → Comp Unit) (es : List Event) :
    (run actions es).tasks.map (·.disposable) = calls es := by
  have key : ∀ w, (es.foldl (step actions) w).tasks.map (·.disposable) = w.tasks.map (·.disposable) ++ calls es := by
    induction es with
    | nil => intro w; simp [calls]
    | cons e es ih =>
      intro w
      rw [List.foldl_cons, ih, step_disposables, List.append_assoc]
      congr 1
      simp only [calls, ← List.filterMap_append, List.singleton_append]
  exact key .init

theorem ended_task (actions : Nat → Comp Unit) (es : List Event) (i : Nat) (d : Tree) (o : Outcome Unit) (hd : (calls es)[i]? = some d)
    (ho : Ended (run actions es) i o) : ∃ t, (run actions es).tasks[i]? = some t ∧ t.disposable = d ∧ t.phase = .over o ∧
      TaskInv actions (fun i => .cancel i ∈ es) (run actions es) i t := by
  obtain ⟨t, ht, hp⟩ := ho
  refine ⟨t, ht, ?_, hp, (inv_run actions es).task i t ht⟩
  rw [← run_disposables actions es, List.getElem?_map, ht] at hd
  simpa using hd

end Expression.Lemmas.Composite
