import Verif.Lemmas.Composite
import Mathlib.Data.List.Perm.Subperm

/-!
# C115: composites of asynchronous disposables, disposed by several tasks
-/

namespace Expression.Props

open Expression.Composite Spec.Composite Lemmas.Composite
open Aio (Comp Outcome)

/-- The parts of a composite, in order: those of its first disposable, then those of its second, and so on. -/
theorem C115_parts (k : Nat) (ds : List Tree) : (Tree.part k).parts = [k] ∧ (Tree.composite ds).parts = ds.flatMap Tree.parts := by
  refine ⟨rfl, ?_⟩
  show Tree.allParts ds = _
  induction ds with
  | nil => rfl
  | cons d ds ih => rw [Tree.allParts, ih, List.flatMap_cons]

/-- Whatever composites are disposed by however many tasks, in whatever interleaving, with actions that fail and tasks that are
cancelled anywhere: the action of each part is begun at most once, and returns at most once, after it was begun. -/
theorem C115_at_most_once (actions : Nat → Comp Unit) (es : List Event) :
    ((run actions es).begun.map (·.1)).Nodup ∧ (run actions es).returned.Nodup ∧
    ∀ k ∈ (run actions es).returned, k ∈ (run actions es).begun.map (·.1) :=
  ⟨(inv_run actions es).glob.once, (inv_run actions es).glob.returnedOnce, (inv_run actions es).glob.begun⟩

/-- The full property: when `dispose_async()` has returned, the action of every part has returned. -/
def C115_full_statement : Prop :=
  ∀ (actions : Nat → Comp Unit) (es : List Event) (i : Nat) (d : Tree), (calls es)[i]? = some d →
    Ended (run actions es) i (.returned ()) → ∀ k ∈ d.parts, k ∈ (run actions es).returned

/-- It is false: a second task that disposes the same object returns at once, while the action is still running in the first. -/
theorem C115_full_statement_false : ¬ C115_full_statement := by
  intro h
  have := h (fun _ => .step 0 (.ret ()) .cancelled)
    [.dispose (.composite [.part 0]), .resume 0, .dispose (.composite [.part 0]), .resume 1] 1 (.composite [.part 0]) rfl
    ⟨_, rfl, rfl⟩ 0 (by decide)
  exact absurd this (by decide)

/-- Proved: when `dispose_async()` of `d` has returned, every part of `d` is disposed. Its action was begun by some task `j` and has
returned, or else `j` is another task, which has not returned itself: it is still running the action, or ended with an exception. -/
theorem C115_returned_partial (actions : Nat → Comp Unit) (es : List Event) (i : Nat) (d : Tree) (hd : (calls es)[i]? = some d)
    (ho : Ended (run actions es) i (.returned ())) : ∀ k ∈ d.parts, (run actions es).isDisposed k = true ∧
      ∃ j, (k, j) ∈ (run actions es).begun ∧
        (k ∈ (run actions es).returned ∨ (j ≠ i ∧ ¬ Ended (run actions es) j (.returned ()))) := by
  intro k hk
  have hi := inv_run actions es
  obtain ⟨t, ht, rfl, hp, hinv⟩ := ended_task actions es i d _ hd ho
  rw [TaskInv, hp] at hinv
  have hdis := hinv.1 k hk
  obtain ⟨⟨k', j⟩, hb, rfl⟩ := List.mem_map.1 ((hi.glob.disposed k).1 hdis)
  refine ⟨hdis, j, hb, ?_⟩
  by_cases hji : j = i
  · subst hji
    exact .inl (hinv.2 _ hb).1
  · by_cases hr : Ended (run actions es) j (.returned ())
    · obtain ⟨t', ht', hp'⟩ := hr
      have := hi.task j t' ht'
      rw [TaskInv, hp'] at this
      exact .inl (this.2 _ hb).1
    · exact .inr ⟨hji, hr⟩

/-- When nobody else ever disposes anything, all the actions have returned. -/
theorem C115_alone_partial (actions : Nat → Comp Unit) (es : List Event) (d : Tree) (hd : calls es = [d])
    (ho : Ended (run actions es) 0 (.returned ())) : ∀ k ∈ d.parts, k ∈ (run actions es).returned := by
  intro k hk
  obtain ⟨_, j, hb, h | ⟨hj, _⟩⟩ := C115_returned_partial actions es 0 d (by rw [hd]; rfl) ho k hk
  · exact h
  · have := (inv_run actions es).there _ hb
    have hl := congrArg List.length (run_disposables actions es)
    rw [hd] at hl
    simp at hl this
    omega

/-- When `dispose_async()` of `d` has ended otherwise: either it was cancelled before it ran, and has begun nothing; or it came to
some part `k`, whose action it began and which did not return, but ended in the way in which the call did. All the parts before `k` are disposed; of those after `k` it began none. -/
theorem C115_failed_partial (actions : Nat → Comp Unit) (es : List Event) (i : Nat) (d : Tree) (o : Outcome Unit)
    (hd : (calls es)[i]? = some d) (ho : Ended (run actions es) i o) (hn : o ≠ .returned ()) :
    (o = .cancelled ∧ .cancel i ∈ es ∧ ∀ k, (k, i) ∉ (run actions es).begun) ∨
    ∃ pre k rest, CanEnd (.cancel i ∈ es) (actions k) o ∧ d.parts = pre ++ k :: rest ∧ (∀ j ∈ pre, (run actions es).isDisposed j = true) ∧
      (k, i) ∈ (run actions es).begun ∧ k ∉ (run actions es).returned ∧
      ∀ j, (j, i) ∈ (run actions es).begun → j = k ∨ (j ∈ (run actions es).returned ∧ j ∈ pre) := by
  obtain ⟨t, ht, rfl, hp, hinv⟩ := ended_task actions es i d _ hd ho
  rw [TaskInv, hp] at hinv
  cases o with
  | returned v => exact absurd rfl hn
  | failed e => exact hinv.imp id fun ⟨k, ⟨pre, h⟩, hk⟩ => ⟨pre, k, t.rest, hk, h⟩
  | cancelled => exact hinv.imp id fun ⟨k, ⟨pre, h⟩, hk⟩ => ⟨pre, k, t.rest, hk, h⟩

/-- Disposing again after a failure goes on behind the part that failed, so it cannot fail for ever: over any history, no more calls
fail than there are parts whose action was begun and did not return. -/
theorem C115_failures_bounded_partial (actions : Nat → Comp Unit) (es : List Event) :
    ((List.range (run actions es).tasks.length).filter (failed (run actions es))).length ≤
      ((run actions es).begun.filter (fun b => b.1 ∉ (run actions es).returned)).length := by
  have hi := inv_run actions es
  rw [← List.length_map (f := fun b : Nat × Nat => b.2) (as := (run actions es).begun.filter _)]
  apply List.Subperm.length_le
  apply List.Nodup.subperm
  · exact List.Nodup.filter _ List.nodup_range
  · intro i hm
    rw [List.mem_filter] at hm
    have hf := hm.2
    simp only [failed, Bool.and_eq_true, List.any_eq_true, beq_iff_eq] at hf
    obtain ⟨h1, b, hb, rfl⟩ := hf
    have key : ∀ t o, (run actions es).tasks[b.2]? = some t → ((o = .cancelled ∧ .cancel b.2 ∈ es ∧ ∀ j, (j, b.2) ∉ (run actions es).begun) ∨
        ∃ k, Stuck (run actions es) b.2 t.disposable.parts k t.rest ∧ CanEnd (.cancel b.2 ∈ es) (actions k) o) →
        b.2 ∈ ((run actions es).begun.filter (fun b => b.1 ∉ (run actions es).returned)).map (·.2) := by
      intro t _ _ h
      rcases h with h | ⟨k, ⟨pre, _, _, h3, h4, _⟩, _⟩
      · exact absurd hb (h.2.2 b.1)
      · exact List.mem_map.2 ⟨(k, b.2), List.mem_filter.2 ⟨h3, by simpa using h4⟩, rfl⟩
    cases ht : (run actions es).tasks[b.2]? with
    | none => rw [ht] at h1; cases h1
    | some t =>
      have hinv := hi.task _ t ht
      rw [ht] at h1
      simp only [Option.map_some] at h1
      rw [TaskInv] at hinv
      cases hp : t.phase with
      | fresh => rw [hp] at h1; cases h1
      | awaiting k n c => rw [hp] at h1; cases h1
      | over o =>
        rw [hp] at h1 hinv
        cases o with
        | returned v => cases h1
        | failed e => exact key t _ ht hinv
        | cancelled => exact key t _ ht hinv

/-- Two composites with part 1 in common. The action of part 0 awaits once, that of part 1 raises; the first task is cancelled inside
the action of part 0, the second disposes part 2 and fails at part 1, and the third then finds only part 3 to dispose. -/
example :
    let actions : Nat → Comp Unit := fun k => if k = 0 then .step 0 (.ret ()) .cancelled else if k = 1 then .fail (.user 1) else .ret ()
    let a : Tree := .composite [.part 0, .composite [.part 1, .part 3]]
    let b : Tree := .composite [.part 2, .part 1]
    let es : List Event := [.dispose a, .resume 0, .dispose b, .cancel 0, .resume 1, .resume 0, .dispose a, .resume 2]
    (run actions es).begun = [(0, 0), (2, 1), (1, 1), (3, 2)] ∧ (run actions es).returned = [2, 3] ∧
      Ended (run actions es) 0 .cancelled ∧ Ended (run actions es) 1 (.failed (.user 1)) ∧ Ended (run actions es) 2 (.returned ()) := by
  refine ⟨by decide, by decide, ⟨_, rfl, rfl⟩, ⟨_, rfl, rfl⟩, ⟨_, rfl, rfl⟩⟩

/-- A cancellation is delivered once: an action that goes on in spite of it is not cancelled again when its task runs on. -/
theorem C115_cancelled_once (actions : Nat → Comp Unit) (es : List Event) (i : Nat) (d : Tree) (rest : List Nat) (k : Nat) (next onCancel : Comp Unit) (c : Bool)
    (h : (run actions (es ++ [.resume i])).tasks[i]? = some ⟨d, rest, .awaiting k next onCancel, c⟩) :
    ((run actions (es ++ [.resume i, .resume i])).tasks[i]?).map (·.phase) =
      some (goOn actions i k next rest (run actions (es ++ [.resume i]))).2.1 := by
  have hrun : ∀ xs : List Event, run actions (es ++ .resume i :: xs) = xs.foldl (step actions) (run actions (es ++ [.resume i])) := by
    intro xs; simp [run]
  have hc : c = false := by
    have he : run actions (es ++ [.resume i]) = resume actions (run actions es) i := by simp [run, step]
    rw [he, resume] at h
    have key : ∀ (t : Task) (r : World × Phase × List Nat), (store i t r).tasks[i]? = some ⟨d, rest, .awaiting k next onCancel, c⟩ → c = false := by
      intro t r hs
      simp only [store, List.getElem?_set_self'] at hs
      cases ht : r.1.tasks[i]? with
      | none => rw [ht] at hs; cases hs
      | some t' =>
        rw [ht] at hs
        exact (congrArg (·.cancelRequested) (Option.some.inj hs)).symm
    split at h
    · rename_i hn; rw [hn] at h; cases h
    · rename_i t ht
      split at h
      · split at h <;> exact key _ _ h
      · exact key _ _ h
      · rename_i hp; rw [ht] at h; cases h; cases hp
  subst hc
  rw [hrun [.resume i]]
  simp only [List.foldl_cons, List.foldl_nil, step, resume, h, Bool.false_eq_true, if_false]
  have hl : i < (run actions (es ++ [.resume i])).tasks.length := (List.getElem?_eq_some_iff.1 h).1
  simp [store, goOn_tasks, hl]

/-- the action of part 0 awaits twice and takes no notice of being cancelled: one `cancel`, and it returns -/
example : let act : Comp Unit := .step 0 (.ret ()) (.step 0 (.ret ()) .cancelled)
    (run (fun _ => act) [.dispose (.part 0), .resume 0, .cancel 0, .resume 0]).tasks.map (·.phase) = [.awaiting 0 (.ret ()) .cancelled] ∧
    (run (fun _ => act) [.dispose (.part 0), .resume 0, .cancel 0, .resume 0, .resume 0]).tasks.map (·.phase) = [.over (.returned ())] := ⟨rfl, rfl⟩

end Expression.Props
