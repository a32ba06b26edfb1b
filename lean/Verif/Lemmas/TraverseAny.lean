import Verif.Lemmas.Functions
import Verif.Spec.TraverseAny

/-! # `traverse` with any function -/

namespace Expression.Lemmas.TraverseAny

open Expression PyD Expression.TraverseAny Spec Spec.TraverseAny

variable {σ α β ε : Type}

/-- what `folder` makes of the answer for the head and of the outcome for the tail -/
def cons (r : Except (Failure ε) (Obj β)) (t : Except (Failure ε) (List (Obj β))) : Except (Failure ε) (List (Obj β)) :=
  match r, t with
  | .error f, _ => .error f
  | .ok _, .error f => .error f
  | .ok v, .ok vs => .ok (v :: vs)

/-- how `effect.result` finishes -/
abbrev fin : List (Obj (Traverse.TVal β)) × End (Traverse.TVal β) ε → PyD σ (Eff (Traverse.TVal β) ε) :=
  finish resultBuilder .ok (fun ys => .res (.ok (lastOr ys)))

theorem from_head (fn : α → PyD σ (Answer β ε)) (head : α) (t : Except (Failure ε) (List (Obj β))) (v : Obj β) (w : σ) :
    (echoFrom (folderGen fn head (returned t)) .head (Traverse.ofElem v) [Traverse.ofElem v] >>= fin).exec w =
      some (.ok (returned (cons (.ok v) t)), w) := by
  rw [exec_bind]
  rcases t with (_ | e) | vs
  · rw [echoFrom_effect (m := .opt none) (w' := w) _ rfl]; rfl
  · rw [echoFrom_effect (m := .res (.error e)) (w' := w) _ rfl]; rfl
  · rw [echoFrom_yield (y := .val (.block ⟨vs⟩)) (s' := .tail (Traverse.ofElem v)) (w' := w) _ rfl]
    rcases v with _ | b
    · rw [echoFrom_returned (y := .val (.block ⟨.none :: vs⟩)) (w' := w) _ rfl]; rfl
    · rw [echoFrom_returned (y := .val (.block ⟨.val b :: vs⟩)) (w' := w) _ rfl]; rfl

theorem next_start (fn : α → PyD σ (Answer β ε)) (head : α) (tail : Eff (Traverse.TVal β) ε) (w : σ) :
    ((folderGen fn head tail).next .start .none).exec w = match (attempt (fn head)).exec w with
      | none => none
      | some (.error e, w') => some (.error e, w')
      | some (.ok (.error f), w') => some (.ok (.effect f.toEff), w')
      | some (.ok (.ok v), w') => some (.ok (.yielded (Traverse.ofElem v) .head), w') := by
  have e1 : (folderGen fn head tail).resume .start .none = (do
      match ← fn head with
      | .raised f => pure (.effect f.toEff)
      | .opt none => yieldFrom (.opt none) .head
      | .opt (some v) => yieldFrom (.opt (some (Traverse.ofElem v))) .head
      | .res (.ok v) => yieldFrom (.res (.ok (Traverse.ofElem v))) .head
      | .res (.error e) => yieldFrom (.res (.error e)) .head) := rfl
  have e3 : (attempt (fn head)).exec w = match (fn head).exec w with
      | none => none
      | some (.ok a, w') => some (.ok (meaning a), w')
      | some (.error .effectError, w') => some (.ok (.error .nothing), w')
      | some (.error .stopIteration, w') => some (.error (.failwith "generator raised StopIteration"), w')
      | some (.error e, w') => some (.error e, w') := rfl
  have e4 := exec_bind (fn head) (fun a : Answer β ε => match a with
      | .raised f => pure (.effect f.toEff)
      | .opt none => yieldFrom (.opt none) .head
      | .opt (some v) => yieldFrom (.opt (some (Traverse.ofElem v))) .head
      | .res (.ok v) => yieldFrom (.res (.ok (Traverse.ofElem v))) .head
      | .res (.error e) => yieldFrom (.res (.error e)) .head) w
  rw [← e1] at e4
  rw [e3]
  rcases hf : (fn head).exec w with _ | ⟨e | a, w1⟩ <;> rw [hf] at e4
  · simp only [Gen.next, exec] at e4 ⊢; rw [e4]
  · simp only [Gen.next, exec] at e4 ⊢; rw [e4]; cases e <;> rfl
  · rcases a with (v | e) | (_ | v) | (_ | e) <;> simp only [Gen.next, exec] at e4 ⊢ <;> rw [e4] <;> rfl

theorem folder_eq (fn : α → PyD σ (Answer β ε)) (head : α) (t : Except (Failure ε) (List (Obj β))) :
    folder fn head (returned t) = (do let r ← attempt (fn head); pure (returned (cons r t))) := by
  apply PyD.ext
  intro w
  have hd : folder fn head (returned t) = echo (folderGen fn head (returned t)) >>= fin :=
    drive_eq good_result (sends_send resultBuilder (fun _ => rfl) _)
  have hn := next_start fn head (returned t) w
  rw [hd, echo, exec_bind, exec_bind]
  rw [show (folderGen fn head (returned t)).start = .start from rfl]
  rcases ha : (attempt (fn head)).exec w with _ | ⟨e | (f | v), w1⟩ <;> rw [ha] at hn
  · rw [echoFrom.eq_1, exec_bind, hn]
  · rw [echoFrom.eq_1, exec_bind, hn]
  · rw [echoFrom_effect [] hn]
    cases f <;> rfl
  · rw [echoFrom_yield [] hn, List.nil_append, ← exec_bind]
    exact from_head fn head t v w1

theorem cons_firstFailure (r : Except (Failure ε) (Obj β)) (rs : List (Except (Failure ε) (Obj β))) :
    cons r (firstFailure rs) = firstFailure (r :: rs) := by
  rcases r with f | v
  · rfl
  · rw [firstFailure]
    cases firstFailure rs <;> rfl

theorem traverse_eq (fn : α → PyD σ (Answer β ε)) (xs : List α) :
    traverse fn ⟨xs⟩ = (do let rs ← attempts fn xs; pure (returned (firstFailure rs))) := by
  rw [traverse, foldBack_eq, toList_ofList, pure_bind]
  induction xs with
  | nil => rfl
  | cons x xs ih =>
    rw [foldRight, ih, attempts]
    simp only [bind_assoc, pure_bind]
    refine bind_congr fun rs => ?_
    rw [folder_eq]
    refine bind_congr fun r => ?_
    rw [cons_firstFailure]

/-- the failures in a list of outcomes -/
theorem firstFailure_error {rs : List (Except (Failure ε) (Obj β))} {f : Failure ε} :
    firstFailure rs = .error f ↔ ∃ (vs : List (Obj β)) (rest : _), rs = vs.map .ok ++ .error f :: rest := by
  induction rs with
  | nil => simp [firstFailure]
  | cons r rs ih =>
    rcases r with g | v
    · rw [firstFailure]
      constructor
      · rintro h; cases h; exact ⟨[], rs, rfl⟩
      · rintro ⟨_ | ⟨v, vs⟩, rest, h⟩
        · cases h; rfl
        · cases h
    · rw [firstFailure]
      constructor
      · intro h
        rcases hr : firstFailure rs with g | ws <;> rw [hr] at h <;> cases h
        obtain ⟨vs, rest, rfl⟩ := ih.1 hr
        exact ⟨v :: vs, rest, rfl⟩
      · rintro ⟨_ | ⟨v', vs⟩, rest, h⟩
        · cases h
        · cases h
          rw [ih.2 ⟨vs, rest, rfl⟩]

theorem firstFailure_ok {rs : List (Except (Failure ε) (Obj β))} {vs : List (Obj β)} :
    firstFailure rs = .ok vs ↔ rs = vs.map .ok := by
  induction rs generalizing vs with
  | nil => cases vs <;> simp [firstFailure]
  | cons r rs ih =>
    rcases r with g | v
    · rw [firstFailure]
      constructor
      · rintro h; cases h
      · cases vs <;> intro h <;> cases h
    · rw [firstFailure]
      constructor
      · intro h
        rcases hr : firstFailure rs with g | ws <;> rw [hr] at h <;> cases h
        rw [ih.1 hr]; rfl
      · rcases vs with _ | ⟨v', vs⟩
        · intro h; cases h
        · intro h; cases h
          rw [ih.2 rfl]

end Expression.Lemmas.TraverseAny
