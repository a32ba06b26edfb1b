import Verif.Model.With
import Verif.Lemmas.PyD

/-! # Property C97: the `with` statement on disposables -/

namespace Expression.Props

open Expression With

variable {σ α : Type}

/-- The object is new, or has been disposed once. -/
def C97.Sound (s : State σ) : Prop := s.runs = if s.isDisposed then 1 else 0

/-- **C97.** `with d: body` on an object already disposed raises `ObjectDisposedException` and runs nothing. Otherwise the body
runs, and when it is over — returned or raised — the action runs unless the body has disposed `d` itself; the outcome is the body's,
unless the action raises. -/
theorem C97_block (action : PyD σ Unit) (body : Prog σ) (s : State σ) :
    ((Prog.block body).run action).exec s =
      if s.isDisposed then some (.error .objectDisposed, s)
      else match (body.run action).exec s with
        | none => none
        | some (r, s1) =>
          if s1.isDisposed then some (r, s1)
          else match action.exec s1.world with
            | none => none
            | some (.ok _, w) => some (r, ⟨w, true, s1.runs + 1⟩)
            | some (.error e, w) => some (.error e, ⟨w, true, s1.runs + 1⟩) := by
  simp only [Prog.run, PyD.exec, withStmt, enter, exit, dispose]
  cases hd : s.isDisposed
  · simp only [Bool.false_eq_true, if_false]
    rcases body.run action s with _ | ⟨r, s1⟩
    · rfl
    · dsimp only
      cases h1 : s1.isDisposed
      · simp only [Bool.false_eq_true, if_false]
        rcases action s1.world with _ | ⟨_ | _, w⟩ <;> rfl
      · rfl
  · rfl

/-- Whatever code uses the object, with blocks, `dispose`, exceptions and handlers nested in any way: from a new object on, the
action is started at most once, and exactly once if the object is disposed in the end; once disposed it stays so. -/
theorem C97_once (action : PyD σ Unit) (p : Prog σ) (s : State σ) (hs : C97.Sound s) (r : Except PyErr Unit) (s' : State σ)
    (h : (p.run action).exec s = some (r, s')) :
    C97.Sound s' ∧ (s.isDisposed = true → s'.isDisposed = true) := by
  induction p generalizing s r s' with
  | act p =>
    simp only [Prog.run, PyD.exec, Option.map_eq_some_iff] at h
    obtain ⟨⟨a, w⟩, _, h⟩ := h
    cases h
    exact ⟨hs, id⟩
  | dispose =>
    simp only [Prog.run, PyD.exec, With.dispose] at h
    split at h
    · cases h; exact ⟨hs, id⟩
    · rename_i hd
      rcases ha : action s.world with _ | ⟨r', w⟩ <;> rw [ha] at h
      · cases h
      · cases h
        unfold C97.Sound at hs ⊢
        rw [if_neg hd] at hs
        simp [hs]
  | seq p q ihp ihq =>
    change ((p.run action >>= fun _ => q.run action).exec s) = _ at h
    rw [PyD.exec_bind] at h
    rcases hp : (p.run action).exec s with _ | ⟨_ | _, s1⟩
    · rw [hp] at h; cases h
    · rw [hp] at h; cases h; exact ihp _ hs _ _ hp
    · rw [hp] at h
      obtain ⟨h1, h2⟩ := ihp _ hs _ _ hp
      obtain ⟨h3, h4⟩ := ihq _ h1 _ _ h
      exact ⟨h3, fun hd => h4 (h2 hd)⟩
  | block body ih =>
    rw [C97_block] at h
    split at h
    · cases h; exact ⟨hs, id⟩
    · rename_i hd
      rcases hb : (body.run action).exec s with _ | ⟨rb, s1⟩
      · rw [hb] at h; cases h
      · rw [hb] at h
        obtain ⟨h1, _⟩ := ih _ hs _ _ hb
        dsimp only at h
        split at h
        · cases h; exact ⟨h1, fun h => absurd h hd⟩
        · rename_i hd1
          unfold C97.Sound at h1 ⊢
          rw [if_neg hd1] at h1
          rcases ha : action.exec s1.world with _ | ⟨_ | _, w⟩ <;> rw [ha] at h <;> cases h <;> simp [h1]
  | attempt p q ihp ihq =>
    simp only [Prog.run] at h
    change (match (p.run action).exec s with
      | some (.error _, s') => (q.run action).exec s'
      | r => r) = _ at h
    rcases hp : (p.run action).exec s with _ | ⟨_ | _, s1⟩
    · rw [hp] at h; cases h
    · rw [hp] at h
      obtain ⟨h1, h2⟩ := ihp _ hs _ _ hp
      obtain ⟨h3, h4⟩ := ihq _ h1 _ _ h
      exact ⟨h3, fun hd => h4 (h2 hd)⟩
    · rw [hp] at h; cases h; exact ihp _ hs _ _ hp

/-- After a `with d` block — left normally, by an exception, or refused — `d` is disposed and its action has been started exactly
once. -/
theorem C97_disposed_after (action : PyD σ Unit) (body : Prog σ) (s : State σ) (hs : C97.Sound s) (r : Except PyErr Unit) (s' : State σ)
    (h : ((Prog.block body).run action).exec s = some (r, s')) : s'.isDisposed = true ∧ s'.runs = 1 := by
  have hd : s'.isDisposed = true := by
    rw [C97_block] at h
    split at h
    · cases h; assumption
    · rcases hb : (body.run action).exec s with _ | ⟨rb, s1⟩ <;> rw [hb] at h
      · cases h
      · dsimp only at h
        split at h
        · cases h; assumption
        · rcases ha : action.exec s1.world with _ | ⟨_ | _, w⟩ <;> rw [ha] at h <;> cases h <;> rfl
  have h2 := (C97_once action _ s hs r s' h).1
  unfold C97.Sound at h2
  rw [hd] at h2
  exact ⟨hd, h2⟩

/-- A composite is entered however often it was disposed; when the block is left the parts are disposed in order. -/
theorem C97_composite (ds : List (PyD σ Unit)) (body : PyD σ α) (s : σ) :
    (withStmt compositeEnter (AsyncDisposable.composite ds) body).exec s =
      match body.exec s with
      | none => none
      | some (r, s1) => match (AsyncDisposable.composite ds).exec s1 with
        | none => none
        | some (.ok _, s2) => some (r, s2)
        | some (.error e, s2) => some (.error e, s2) := by
  simp only [PyD.exec, withStmt, compositeEnter]
  change (match body s with | none => none | some (r, s2) => _) = _
  rcases body s with _ | ⟨r, s1⟩
  · rfl
  · dsimp only
    rcases AsyncDisposable.composite ds s1 with _ | ⟨_ | _, s2⟩ <;> rfl

/-- A new object, used in a block that uses it in another block and then raises: the action (append 1) has run once, in the middle, and
the exception (7) came out; entering again is refused. -/
example :
    let action : PyD (List Nat) Unit := fun w => some (.ok (), w ++ [1])
    let say (n : Nat) : Prog (List Nat) := .act (fun w => some (.ok (), w ++ [n]))
    let p : Prog (List Nat) := .block (.seq (say 10) (.seq (.block (say 20)) (.act (fun w => some (.error (.user 7), w ++ [30])))))
    ((p.run action).exec ⟨[], false, 0⟩ = some (.error (.user 7), ⟨[10, 20, 1, 30], true, 1⟩)) ∧
    C97.Sound (⟨[], false, 0⟩ : State (List Nat)) ∧
    (((Prog.block (say 40)).run action).exec ⟨[10, 20, 1, 30], true, 1⟩ = some (.error .objectDisposed, ⟨[10, 20, 1, 30], true, 1⟩)) :=
  ⟨rfl, rfl, rfl⟩

end Expression.Props
