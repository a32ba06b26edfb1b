import Verif.Lemmas.PyD
import Verif.Spec.Builder

/-! # C93: the operations of the builders -/

namespace Expression.Props

open Spec PyD

variable {σ α ε : Type}

/-- `bind(return_(x), f)` is `f(x)`. -/
theorem C93_left_unit (l : Lib) (x : Obj α) (f : Obj α → PyD σ (Eff α ε)) (hf : Delivers l f) :
    l.builder.bind (l.builder.return_ x) f = f x := by
  cases l <;> try rfl
  refine PyD.ext fun w => ?_
  change exec (seqBindFrom f [x] >>= fun ys => pure (.seq ys)) w = exec (f x) w
  rw [seqBindFrom, seqBindFrom, exec_bind, exec_bind]
  rcases h : (f x).exec w with _ | ⟨e | m, w'⟩
  · rfl
  · rfl
  · obtain ⟨xs, rfl⟩ := hf x w m w' h
    simp only [Eff.iterate, pure_bind, List.append_nil]
    rfl

/-- `bind(m, return_)` is `m`. -/
theorem C93_right_unit (l : Lib) (m : Eff α ε) (hm : l.Own m) :
    (l.builder.bind m (fun x => pure (l.builder.return_ x)) : PyD σ (Eff α ε)) = pure m := by
  cases l
  · obtain ⟨_ | v, rfl⟩ := hm <;> rfl
  · obtain ⟨_ | v, rfl⟩ := hm <;> rfl
  · obtain ⟨xs, rfl⟩ := hm
    have key : ∀ xs : List (Obj α), (seqBindFrom (fun x => pure (.seq [x] : Eff α ε)) xs : PyD σ _) = pure xs := by
      intro xs
      induction xs with
      | nil => rfl
      | cons x xs ih => simp only [seqBindFrom, pure_bind, Eff.iterate, ih, List.singleton_append]
    change (seqBindFrom (fun x => pure (.seq [x] : Eff α ε)) xs >>= fun ys => pure (Eff.seq ys) : PyD σ _) = _
    rw [key, pure_bind]
  · obtain ⟨_ | v, rfl⟩ := hm <;> rfl
  · obtain ⟨_ | v, rfl⟩ := hm <;> rfl

/-- `bind(m, lambda x: bind(f(x), g))` is `bind(bind(m, f), g)`, effects included, for options and results. -/
theorem C93_assoc (l : Lib) (hl : l ≠ .seq) (m : Eff α ε) (hm : l.Own m) (f g : Obj α → PyD σ (Eff α ε)) :
    l.builder.bind m (fun x => f x >>= fun n => l.builder.bind n g) = (l.builder.bind m f >>= fun n => l.builder.bind n g) := by
  cases l
  · obtain ⟨_ | v, rfl⟩ := hm <;> rfl
  · obtain ⟨_ | v, rfl⟩ := hm <;> rfl
  · exact absurd rfl hl
  · obtain ⟨_ | v, rfl⟩ := hm <;> rfl
  · obtain ⟨_ | v, rfl⟩ := hm <;> rfl

/-- For sequences, if the first function has no effects: `g` then is called in the same order on both sides. -/
theorem C93_assoc_seq_partial (xs : List (Obj α)) (f : Obj α → List (Obj α)) (g : Obj α → PyD σ (Eff α ε)) :
    seqBuilder.bind (.seq xs) (fun x => seqBuilder.bind (.seq (f x)) g) =
      (seqBuilder.bind (.seq xs) (fun x => pure (.seq (f x))) >>= fun n => seqBuilder.bind n g) := by
  have hf : ∀ xs : List (Obj α), (seqBindFrom (fun x => pure (.seq (f x) : Eff α ε)) xs : PyD σ _) = pure (xs.flatMap f) := by
    intro xs
    induction xs with
    | nil => rfl
    | cons x xs ih => simp only [seqBindFrom, pure_bind, Eff.iterate, ih, List.flatMap_cons]
  have happ : ∀ xs ys : List (Obj α), seqBindFrom g (xs ++ ys) =
      (seqBindFrom g xs >>= fun a => seqBindFrom g ys >>= fun b => pure (a ++ b)) := by
    intro xs ys
    induction xs with
    | nil => simp [seqBindFrom]
    | cons x xs ih =>
      simp only [List.cons_append, seqBindFrom, bind_assoc, ih]
      congr 1
      funext m
      rcases m.iterate with e | zs
      · refine PyD.ext fun w => ?_
        rw [exec_bind]; rfl
      · simp only [bind_assoc, pure_bind, List.append_assoc]
  have key : ∀ xs : List (Obj α), seqBindFrom (fun x => seqBindFrom g (f x) >>= fun ys => pure (Eff.seq ys : Eff α ε)) xs =
      seqBindFrom g (xs.flatMap f) := by
    intro xs
    induction xs with
    | nil => rfl
    | cons x xs ih =>
      rw [List.flatMap_cons, happ]
      simp only [seqBindFrom, bind_assoc, pure_bind, Eff.iterate, ih]
  change (seqBindFrom (fun x => seqBindFrom g (f x) >>= fun ys => pure (Eff.seq ys)) xs >>= fun ys => pure (Eff.seq ys)) =
    ((seqBindFrom (fun x => pure (.seq (f x))) xs >>= fun ys => pure (Eff.seq ys)) >>= fun n => seqBuilder.bind n g)
  rw [key, hf]
  simp only [pure_bind]
  rfl

/-- What the property says of sequences: that this holds for all functions. -/
def C93_full_statement : Prop :=
  ∀ (σ : Type) (xs : List (Obj Nat)) (f g : Obj Nat → PyD σ (Eff Nat Empty)), Delivers .seq f → Delivers .seq g →
    seqBuilder.bind (.seq xs) (fun x => f x >>= fun n => seqBuilder.bind n g) =
      (seqBuilder.bind (.seq xs) f >>= fun n => seqBuilder.bind n g)

/-- The code violates it: the right side calls `f` on all elements before it calls `g`, the left side alternates. -/
theorem C93_full_statement_false : ¬ C93_full_statement := by
  intro h
  have := congrArg (fun p => (p.exec []).map Prod.snd) (h (List Nat) [.none, .none]
    (fun x => fun w => some (.ok (.seq [x]), w ++ [1])) (fun x => fun w => some (.ok (.seq [x]), w ++ [2]))
    (fun x w m w' h => by cases h; exact ⟨_, rfl⟩) (fun x w m w' h => by cases h; exact ⟨_, rfl⟩))
  revert this
  decide

/-- `bind` on a value without a value in it gives it back and does not call the function. -/
theorem C93_short_circuit (l : Lib) (m : Eff α ε) (hm : l.Own m) (h : NoValue m) (f : Obj α → PyD σ (Eff α ε)) :
    l.builder.bind m f = pure m := by
  cases l <;> obtain ⟨o, rfl⟩ := hm
  · cases (h : o = none); rfl
  · obtain ⟨e, rfl⟩ := h; rfl
  · cases (h : o = []); rfl
  · cases (h : o = none); rfl
  · obtain ⟨e, rfl⟩ := h; rfl

/-- `combine(m, n)`: for options and results `n`, unless `m` has no value; for sequences one after the other. -/
theorem C93_combine (l : Lib) (m n : Eff α ε) (hm : l.Own m) (hn : l.Own n) :
    (l ≠ .seq → NoValue m → l.builder.combine m n = .ok m) ∧
    (l ≠ .seq → ¬ NoValue m → l.builder.combine m n = .ok n) ∧
    (∀ xs ys, m = .seq xs → n = .seq ys → l.builder.combine m n = .ok (.seq (xs ++ ys))) := by
  cases l <;> obtain ⟨o, rfl⟩ := hm <;> obtain ⟨p, rfl⟩ := hn
  · refine ⟨fun _ h => ?_, fun _ h => ?_, fun _ _ h => by cases h⟩
    · cases (h : o = none); rfl
    · cases o
      · exact absurd rfl h
      · rfl
  · refine ⟨fun _ h => ?_, fun _ h => ?_, fun _ _ h => by cases h⟩
    · obtain ⟨e, rfl⟩ := h; rfl
    · cases o
      · rfl
      · exact absurd ⟨_, rfl⟩ h
  · refine ⟨fun h => absurd rfl h, fun h => absurd rfl h, fun xs ys h1 h2 => ?_⟩
    cases h1; cases h2; rfl
  · refine ⟨fun _ h => ?_, fun _ h => ?_, fun _ _ h => by cases h⟩
    · cases (h : o = none); rfl
    · cases o
      · exact absurd rfl h
      · rfl
  · refine ⟨fun _ h => ?_, fun _ h => ?_, fun _ _ h => by cases h⟩
    · obtain ⟨e, rfl⟩ := h; rfl
    · cases o
      · rfl
      · exact absurd ⟨_, rfl⟩ h

/-- `return_` and `zero` make values of the builder's own class, `return_` with a value in it; `return_from` changes nothing. -/
theorem C93_return (l : Lib) (x : Obj α) (m : Eff α ε) :
    l.Own (l.builder.return_ x : Eff α ε) ∧ ¬ NoValue (l.builder.return_ x : Eff α ε) ∧ l.Own (l.builder.zero : Eff α ε) ∧
    l.builder.returnFrom m = m := by
  cases l
  · exact ⟨⟨_, rfl⟩, fun h => (by cases h), ⟨_, rfl⟩, rfl⟩
  · exact ⟨⟨_, rfl⟩, fun h => (by obtain ⟨e, he⟩ := h; cases he), ⟨_, rfl⟩, rfl⟩
  · exact ⟨⟨_, rfl⟩, fun h => (by cases h), ⟨_, rfl⟩, rfl⟩
  · exact ⟨⟨_, rfl⟩, fun h => (by cases h), ⟨_, rfl⟩, rfl⟩
  · exact ⟨⟨_, rfl⟩, fun h => (by obtain ⟨e, he⟩ := h; cases he), ⟨_, rfl⟩, rfl⟩

/-- The zero of sequences is neutral for `combine`, that of results (`Ok(None)`) on the left; that of options is `Nothing`. -/
theorem C93_zero (m : Eff α ε) :
    (Lib.seq.Own m → seqBuilder.combine seqBuilder.zero m = .ok m ∧ seqBuilder.combine m seqBuilder.zero = .ok m) ∧
    (Lib.result.Own m → resultBuilder.combine resultBuilder.zero m = .ok m ∧ asyncResultBuilder.combine asyncResultBuilder.zero m = .ok m) ∧
    NoValue (optionBuilder.zero : Eff α ε) ∧ NoValue (asyncOptionBuilder.zero : Eff α ε) := by
  refine ⟨?_, ?_, rfl, rfl⟩
  · rintro ⟨xs, rfl⟩
    refine ⟨rfl, ?_⟩
    change Except.ok (Eff.seq (xs ++ [])) = _
    rw [List.append_nil]
  · rintro ⟨r, rfl⟩
    exact ⟨rfl, rfl⟩

example : Lib.asyncResult.Own (.res (.error 7) : Eff Nat Nat) ∧ NoValue (.res (.error 7) : Eff Nat Nat) ∧
    Delivers Lib.option (fun x => (pure (.opt (some x)) : PyD Unit (Eff Nat Nat))) :=
  ⟨⟨_, rfl⟩, ⟨_, rfl⟩, fun x w m w' h => by cases h; exact ⟨_, rfl⟩⟩

end Expression.Props
