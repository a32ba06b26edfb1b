import Mathlib.Data.List.Induction
import Verif.Spec.AsyncShared
import Verif.Lemmas.AsyncSeq
import Verif.Lemmas.Threads

/-! Lemmas about one asynchronous sequence with several askers. -/

namespace Expression.AsyncShared

open AsyncSeq Spec Threads Lemmas

variable {α β C : Type}

theorem loopOver_append (body : C → α → Except PyErr (Act C β)) (c c' : C) (xs ys : List α) (h : (loopOver body c xs).2 = .goesOn c') :
    loopOver body c (xs ++ ys) = ((loopOver body c xs).1 ++ (loopOver body c' ys).1, (loopOver body c' ys).2) := by
  induction xs generalizing c with
  | nil => cases h; rfl
  | cons x xs ih =>
    rw [List.cons_append, loopOver, loopOver] at *
    rcases hb : body c x with e | a
    · rw [hb] at h; cases h
    · rw [hb] at h
      cases a with
      | emit y c1 => simp only [ih c1 h, List.cons_append]
      | skip c1 => exact ih c1 h
      | stop => cases h

theorem loopOver_goesOn {body : C → α → Except PyErr (Act C β)} {c c' : C} {xs ys : List α} (h : (loopOver body c (xs ++ ys)).2 = .goesOn c') :
    ∃ d, (loopOver body c xs).2 = .goesOn d := by
  induction xs generalizing c with
  | nil => exact ⟨c, rfl⟩
  | cons x xs ih =>
    rw [List.cons_append, loopOver] at h
    rw [loopOver]
    rcases hb : body c x with e | a
    · rw [hb] at h; cases h
    · rw [hb] at h
      cases a with
      | emit y c1 => exact ih h
      | skip c1 => exact ih h
      | stop => cases h

theorem elementsOf_append (es fs : List (Event α)) : elementsOf (es ++ fs) = elementsOf es ++ elementsOf fs := by
  induction es with
  | nil => rfl
  | cons e es ih => cases e <;> simp [elementsOf, ih]

theorem requestsOf_append (who : Nat) (es fs : List (Event α)) : requestsOf who (es ++ fs) = requestsOf who es + requestsOf who fs := by
  induction es with
  | nil => simp [requestsOf]
  | cons e es ih => cases e <;> simp [requestsOf, ih, Nat.add_assoc]

theorem valuesIn_append (l m : List (Nat × Outcome β)) : valuesIn (l ++ m) = valuesIn l ++ valuesIn m := by
  induction l with
  | nil => rfl
  | cons e es ih => obtain ⟨_, o⟩ := e; cases o <;> simp [valuesIn, ih]

theorem answersTo_append (who : Nat) (l m : List (Nat × Outcome β)) : answersTo who (l ++ m) = answersTo who l + answersTo who m := by
  induction l with
  | nil => simp [answersTo]
  | cons e es ih => simp [answersTo, ih, Nat.add_assoc]

/-- the loop stands as the phase says -/
def Stands (body : C → α → Except PyErr (Act C β)) (c0 : C) (es : List (Event α)) : Phase C → Prop
  | .idle c => (loopOver body c0 (elementsOf es)).2 = .goesOn c
  | .busy _ c => (loopOver body c0 (elementsOf es)).2 = .goesOn c
  | .over => True

/-- the history so far and the state -/
structure Inv (body : C → α → Except PyErr (Act C β)) (c0 : C) (es : List (Event α)) (s : State C β) : Prop where
  values : valuesIn s.log = (loopOver body c0 (elementsOf es)).1
  stands : Stands body c0 es s.phase
  counts : ∀ who, requestsOf who es = answersTo who s.log + waiting who s.phase

theorem inv_step (body : C → α → Except PyErr (Act C β)) (c0 : C) (es : List (Event α)) (s : State C β) (ev : Event α) (s' : State C β)
    (h : Inv body c0 es s) (hs : step body s ev = some s') : Inv body c0 (es ++ [ev]) s' := by
  obtain ⟨ph, log⟩ := s
  obtain ⟨hv, hst, hc⟩ := h
  cases ev with
  | ask who =>
    have he : elementsOf (es ++ [Event.ask (α := α) who]) = elementsOf es := by rw [elementsOf_append]; simp [elementsOf]
    cases ph with
    | idle c =>
      cases hs
      refine ⟨by rw [he]; exact hv, by simp only [Stands, he]; exact hst, fun w => ?_⟩
      have := hc w
      rw [requestsOf_append]
      simp only [requestsOf, waiting] at this ⊢
      omega
    | busy w0 c =>
      cases hs
      refine ⟨by rw [he, valuesIn_append, ← hv]; simp [valuesIn], by simp only [Stands, he]; exact hst, fun w => ?_⟩
      have := hc w
      rw [requestsOf_append, answersTo_append]
      simp only [requestsOf, answersTo, waiting] at this ⊢
      omega
    | over =>
      cases hs
      refine ⟨by rw [he, valuesIn_append, ← hv]; simp [valuesIn], trivial, fun w => ?_⟩
      have := hc w
      rw [requestsOf_append, answersTo_append]
      simp only [requestsOf, answersTo, waiting] at this ⊢
      omega
  | element x =>
    cases ph with
    | idle c => cases hs
    | over => cases hs
    | busy who c =>
      have hst' : (loopOver body c0 (elementsOf es)).2 = .goesOn c := hst
      have he : loopOver body c0 (elementsOf (es ++ [Event.element x])) =
          ((loopOver body c0 (elementsOf es)).1 ++ (loopOver body c [x]).1, (loopOver body c [x]).2) := by
        rw [elementsOf_append]
        exact loopOver_append body c0 c _ _ hst'
      have hcc : ∀ w, requestsOf w (es ++ [Event.element x]) = answersTo w log + (if who = w then 1 else 0) := by
        intro w
        have := hc w
        rw [requestsOf_append]
        simpa only [requestsOf, Nat.add_zero, waiting] using this
      simp only [step, State.process] at hs
      simp only at hv
      rcases hb : body c x with e | a
      · simp only [hb] at hs
        cases hs
        refine ⟨?_, trivial, fun w => ?_⟩
        · rw [he, loopOver, hb]; simp [State.answer, valuesIn_append, hv, valuesIn]
        · rw [hcc]; simp [State.answer, answersTo_append, answersTo, waiting]
      · simp only [hb] at hs
        cases a with
        | emit y c' =>
          cases hs
          refine ⟨?_, ?_, fun w => ?_⟩
          · rw [he, loopOver, hb]; simp [State.answer, valuesIn_append, hv, valuesIn, loopOver]
          · simp only [State.answer, Stands]
            rw [he, loopOver, hb]; rfl
          · rw [hcc]; simp [State.answer, answersTo_append, answersTo, waiting]
        | skip c' =>
          cases hs
          refine ⟨?_, ?_, fun w => ?_⟩
          · rw [he, loopOver, hb, ← hv]
            simp [loopOver]
          · simp only [Stands]
            rw [he, loopOver, hb]; rfl
          · rw [hcc]; simp [waiting]
        | stop =>
          cases hs
          refine ⟨?_, trivial, fun w => ?_⟩
          · rw [he, loopOver, hb]; simp [State.answer, valuesIn_append, hv, valuesIn, loopOver]
          · rw [hcc]; simp [State.answer, answersTo_append, answersTo, waiting]
  | exhausted =>
    cases ph with
    | idle c => cases hs
    | over => cases hs
    | busy who c =>
      cases hs
      refine ⟨?_, trivial, fun w => ?_⟩
      · rw [elementsOf_append, State.answer, valuesIn_append]; simpa [valuesIn, elementsOf] using hv
      · have := hc w
        rw [requestsOf_append, State.answer, answersTo_append]
        simp only [requestsOf, answersTo, waiting] at this ⊢
        omega
  | failed e =>
    cases ph with
    | idle c => cases hs
    | over => cases hs
    | busy who c =>
      cases hs
      refine ⟨?_, trivial, fun w => ?_⟩
      · rw [elementsOf_append, State.answer, valuesIn_append]; simpa [valuesIn, elementsOf] using hv
      · have := hc w
        rw [requestsOf_append, State.answer, answersTo_append]
        simp only [requestsOf, answersTo, waiting] at this ⊢
        omega
  | cancel =>
    cases ph with
    | idle c => cases hs
    | over => cases hs
    | busy who c =>
      cases hs
      refine ⟨?_, trivial, fun w => ?_⟩
      · rw [elementsOf_append, State.answer, valuesIn_append]; simpa [valuesIn, elementsOf] using hv
      · have := hc w
        rw [requestsOf_append, State.answer, answersTo_append]
        simp only [requestsOf, answersTo, waiting] at this ⊢
        omega

theorem inv_run {body : C → α → Except PyErr (Act C β)} {c0 : C} {es : List (Event α)} {s : State C β}
    (h : run (step body) (start c0) es = some s) : Inv body c0 es s := by
  have := run_inv_sched (step := step body) (Inv body c0) (fun p s c s' => inv_step body c0 p s c s') (s := start c0) []
    ⟨rfl, rfl, fun _ => rfl⟩ es h
  simpa using this

/-- once over, nothing but the end is handed out -/
theorem over_run {body : C → α → Except PyErr (Act C β)} {s s' : State C β} (ho : s.phase = .over) (es : List (Event α))
    (h : run (step body) s es = some s') :
    s'.phase = .over ∧ s'.log = s.log ++ es.filterMap (fun e => match e with
      | .ask who => some (who, .ended)
      | _ => none) ∧ ∀ e ∈ es, ∃ who, e = .ask who := by
  induction es generalizing s with
  | nil => cases h; exact ⟨ho, by simp, by simp⟩
  | cons e es ih =>
    obtain ⟨ph, log⟩ := s
    simp only at ho
    subst ho
    simp only [run] at h
    cases e with
    | ask who =>
      have h' : run (step body) ⟨.over, log ++ [(who, .ended)]⟩ es = some s' := h
      obtain ⟨h1, h2, h3⟩ := ih rfl h'
      refine ⟨h1, by rw [h2]; simp, fun e he => ?_⟩
      rcases List.mem_cons.mp he with rfl | he
      · exact ⟨who, rfl⟩
      · exact h3 e he
    | element x => cases h
    | exhausted => cases h
    | failed e => cases h
    | cancel => cases h

/-! ## the loop alone -/

section alone

open Iterable PyD

variable {σ : Type}

theorem ofExcept_bind (e : Except PyErr α) (k : α → Except PyErr β) :
    (ofPy (Py.ofExcept (e >>= k)) : PyD σ β) = ofPy (Py.ofExcept e) >>= fun a => ofPy (Py.ofExcept (k a)) := by
  cases e <;> rfl

/-- the loop of the generator and of `[x async for x in xs]` together -/
theorem loop_collects (body : C → α → Except PyErr (Act C β)) (ys xs : List α) (c : C) (acc : List β) :
    Prod.snd <$> (ofList ys : Iterable σ α _).loop (genBody (fun c x => ofPy (Py.ofExcept (body c x))) (fun acc x => pure (.next (acc ++ [x])))) xs
      (c, acc) = match (loopOver body c xs).2 with
      | .raised e => raise e
      | _ => pure (acc ++ (loopOver body c xs).1) := by
  induction xs generalizing c acc with
  | nil => rw [loop_ofList_nil]; simp [loopOver]
  | cons x xs ih =>
    rw [loop_ofList_cons, loopOver, genBody]
    rcases hb : body c x with e | a
    · rfl
    · have hp : (ofPy (Py.ofExcept (.ok a)) : PyD σ (Act C β)) = pure a := rfl
      simp only [hp, pure_bind]
      cases a with
      | emit y c' =>
        simp only [after, pure_bind, Flow.map, cont_next]
        rw [ih c' (acc ++ [y])]
        simp
      | skip c' =>
        simp only [after, pure_bind, cont_next]
        exact ih c' acc
      | stop => simp [after]

theorem toList_alone (body : C → α → Except PyErr (Act C β)) (c0 : C) (xs : List α) :
    (generator c0 (fun c x => ofPy (Py.ofExcept (body c x))) (ofList xs : Iterable σ α _)).toList =
      match (loopOver body c0 xs).2 with
      | .raised e => raise e
      | _ => pure (loopOver body c0 xs).1 := by
  rw [toList, generator_forLoop, forLoop]
  refine (congrArg (Prod.snd <$> ·) (pure_bind xs _)).trans ?_
  exact loop_collects body xs xs c0 []

end alone

theorem loopOver_map (f : α → β) (xs : List α) : loopOver (mapAct (fun x => .ok (f x))) () xs = (xs.map f, .goesOn ()) := by
  induction xs with
  | nil => rfl
  | cons x xs ih =>
    have h : mapAct (fun x => .ok (f x)) () x = .ok (.emit (f x) ()) := rfl
    rw [loopOver, h]; simp only [ih]; rfl

theorem loopOver_filter (p : α → Bool) (xs : List α) : loopOver (filterAct (fun x => .ok (p x))) () xs = (xs.filter p, .goesOn ()) := by
  induction xs with
  | nil => rfl
  | cons x xs ih =>
    have h : filterAct (fun x => .ok (p x)) () x = .ok (if p x then .emit x () else .skip ()) := rfl
    rw [loopOver, h]
    cases hx : p x
    · simp only [Bool.false_eq_true, if_false, ih, List.filter_cons, hx]
    · simp only [if_true, ih, List.filter_cons, hx]

theorem loopOver_choose (g : α → Option β) (xs : List α) : loopOver (chooseAct (fun x => .ok (g x))) () xs = (xs.filterMap g, .goesOn ()) := by
  induction xs with
  | nil => rfl
  | cons x xs ih =>
    rw [loopOver, List.filterMap_cons]
    cases hx : g x with
    | none =>
      have h : chooseAct (fun x => .ok (g x)) () x = .ok (.skip ()) := by simp only [chooseAct]; rw [hx]; rfl
      rw [h]; simp only [ih]
    | some y =>
      have h : chooseAct (fun x => .ok (g x)) () x = .ok (.emit y ()) := by simp only [chooseAct]; rw [hx]; rfl
      rw [h]; simp only [ih]

theorem loopOver_take (n : Int) (i : Nat) (xs : List α) : (loopOver (takeAct n) i xs).1 = xs.take (n - i).toNat := by
  induction xs generalizing i with
  | nil => simp [loopOver]
  | cons x xs ih =>
    rw [loopOver, takeAct]
    by_cases h : (i : Int) ≥ n
    · have : (n - i).toNat = 0 := by omega
      simp only [if_pos h, this, List.take_zero]; rfl
    · have e : (n - i).toNat = (n - (i + 1 : Nat)).toNat + 1 := by omega
      rw [e, List.take_succ_cons, ← ih]
      simp only [if_neg h]; rfl

theorem loopOver_skip (n : Int) (i : Nat) (xs : List α) : (loopOver (skipAct n) i xs).1 = xs.drop (n - i).toNat := by
  induction xs generalizing i with
  | nil => simp [loopOver]
  | cons x xs ih =>
    rw [loopOver, skipAct]
    by_cases h : (i : Int) ≥ n
    · have e0 : (n - i).toNat = 0 := by omega
      have e1 : (n - (i + 1 : Nat)).toNat = 0 := by omega
      have := ih (i + 1)
      rw [e1, List.drop_zero] at this
      rw [e0, List.drop_zero]
      simp only [if_pos h]
      exact congrArg (x :: ·) this
    · have e : (n - i).toNat = (n - (i + 1 : Nat)).toNat + 1 := by omega
      rw [e, List.drop_succ_cons, ← ih]
      simp only [if_neg h]; rfl

theorem loopOver_tail (xs : List α) : (loopOver tailAct true xs).1 = xs.tail := by
  have h : ∀ ys : List α, (loopOver tailAct false ys).1 = ys := by
    intro ys
    induction ys with
    | nil => rfl
    | cons y ys ih => rw [loopOver]; exact congrArg (y :: ·) ih
  cases xs with
  | nil => rfl
  | cons x xs => rw [loopOver]; exact h xs

/-! ## the end, and alive -/

/-- what ends the sequence -/
theorem ends {body : C → α → Except PyErr (Act C β)} {c0 : C} {es : List (Event α)} {s s1 : State C β} {ev : Event α}
    (h : run (step body) (start c0) es = some s) (he : step body s ev = some s1)
    (hend : ev = .exhausted ∨ (∃ e, ev = .failed e) ∨ ev = .cancel ∨
      ∃ x c, ev = .element x ∧ (loopOver body c0 (elementsOf es)).2 = .goesOn c ∧ ((∃ e, body c x = .error e) ∨ body c x = .ok .stop)) :
    s1.phase = .over := by
  have hst := (inv_run h).stands
  obtain ⟨ph, log⟩ := s
  rcases hend with rfl | ⟨e, rfl⟩ | rfl | ⟨x, c, rfl, hg, hb⟩
  · cases ph <;> cases he; rfl
  · cases ph <;> cases he; rfl
  · cases ph <;> cases he; rfl
  · cases ph with
    | idle => cases he
    | over => cases he
    | busy who c' =>
      have hst' : (loopOver body c0 (elementsOf es)).2 = .goesOn c' := hst
      rw [hg] at hst'
      cases hst'
      simp only [step, State.process] at he
      rcases hb with ⟨e, hb⟩ | hb <;> simp only [hb] at he <;> cases he <;> rfl

/-- exceptions that somebody was told of -/
structure Told (body : C → α → Except PyErr (Act C β)) (c0 : C) (es : List (Event α)) (s : State C β) : Prop where
  inv : Inv body c0 es s
  source : ∀ e, .failed e ∈ es → ∃ who, (who, .raised (leaving e)) ∈ s.log
  callback : ∀ e, (loopOver body c0 (elementsOf es)).2 = .raised e → ∃ who, (who, .raised (leaving e)) ∈ s.log
  cancelled : .cancel ∈ es → ∃ who, (who, .raised cancelledError) ∈ s.log

theorem step_keeps {body : C → α → Except PyErr (Act C β)} {s s' : State C β} {ev : Event α} (hs : step body s ev = some s')
    {r : Nat × Outcome β} (hr : r ∈ s.log) : r ∈ s'.log := by
  obtain ⟨ph, log⟩ := s
  cases ph with
  | idle c => cases ev <;> cases hs; exact hr
  | over => cases ev <;> cases hs; exact List.mem_append_left _ hr
  | busy w c =>
    cases ev with
    | element x =>
      simp only [step, State.process] at hs
      rcases hb : body c x with e | a
      · simp only [hb] at hs; cases hs; exact List.mem_append_left _ hr
      · simp only [hb] at hs
        cases a <;> cases hs
        · exact List.mem_append_left _ hr
        · exact hr
        · exact List.mem_append_left _ hr
    | ask who => cases hs; exact List.mem_append_left _ hr
    | exhausted => cases hs; exact List.mem_append_left _ hr
    | failed e => cases hs; exact List.mem_append_left _ hr
    | cancel => cases hs; exact List.mem_append_left _ hr

theorem told_step (body : C → α → Except PyErr (Act C β)) (c0 : C) (es : List (Event α)) (s : State C β) (ev : Event α) (s' : State C β)
    (h : Told body c0 es s) (hs : step body s ev = some s') : Told body c0 (es ++ [ev]) s' := by
  refine ⟨inv_step body c0 es s ev s' h.inv hs, ?_, ?_, ?_⟩
  all_goals
    obtain ⟨⟨-, hst, -⟩, h1, h2, h3⟩ := h
    obtain ⟨ph, log⟩ := s
    simp only at h1 h2 h3
    have keep : ∀ {o : Outcome β}, (∃ who, (who, o) ∈ log) → ∃ who, (who, o) ∈ s'.log := fun ⟨who, hm⟩ => ⟨who, step_keeps hs hm⟩
  · intro e he
    rcases List.mem_append.mp he with he | he
    · exact keep (h1 e he)
    · cases List.mem_singleton.mp he
      cases ph <;> cases hs
      exact ⟨_, List.mem_append_right _ (List.mem_singleton.mpr rfl)⟩
  · intro e he
    rw [elementsOf_append] at he
    cases ev with
    | element x =>
      cases ph with
      | idle => cases hs
      | over => cases hs
      | busy who c =>
        have hst' : (loopOver body c0 (elementsOf es)).2 = .goesOn c := hst
        have e1 : elementsOf [Event.element x] = [x] := rfl
        rw [e1, loopOver_append body c0 c _ _ hst', loopOver] at he
        simp only [step, State.process] at hs
        rcases hb : body c x with e' | a
        · simp only [hb] at hs he
          cases he; cases hs
          exact ⟨who, by simp [State.answer]⟩
        · simp only [hb] at hs he
          cases a <;> cases he
    | ask who => exact keep (h2 e (by simpa [elementsOf] using he))
    | exhausted => exact keep (h2 e (by simpa [elementsOf] using he))
    | failed e' => exact keep (h2 e (by simpa [elementsOf] using he))
    | cancel => exact keep (h2 e (by simpa [elementsOf] using he))
  · intro he
    rcases List.mem_append.mp he with he | he
    · exact keep (h3 he)
    · cases List.mem_singleton.mp he
      cases ph <;> cases hs
      exact ⟨_, List.mem_append_right _ (List.mem_singleton.mpr rfl)⟩

theorem told_run {body : C → α → Except PyErr (Act C β)} {c0 : C} {es : List (Event α)} {s : State C β}
    (h : run (step body) (start c0) es = some s) : Told body c0 es s := by
  have := run_inv_sched (step := step body) (Told body c0) (fun p s c s' => told_step body c0 p s c s') (s := start c0) []
    ⟨⟨rfl, rfl, fun _ => rfl⟩, nofun, nofun, nofun⟩ es h
  simpa using this

/-- what is handed out while the sequence goes on -/
def Fine (s : State C β) : Prop := ∀ who o, (who, o) ∈ s.log → (∃ y, o = .value y) ∨ o = .raised alreadyRunning

theorem alive_run {body : C → α → Except PyErr (Act C β)} {c0 : C} {es : List (Event α)} {s : State C β}
    (h : run (step body) (start c0) es = some s) (hc : .cancel ∉ es) (hx : .exhausted ∉ es) (hf : ∀ e, .failed e ∉ es)
    (hg : ∃ c, (loopOver body c0 (elementsOf es)).2 = .goesOn c) : s.phase ≠ .over ∧ Fine s := by
  induction es using List.reverseRecOn generalizing s with
  | nil => cases h; exact ⟨nofun, nofun⟩
  | append_singleton es ev ih =>
    rw [run_append] at h
    rcases hr : run (step body) (start c0) es with _ | s0
    · rw [hr] at h; cases h
    rw [hr] at h
    have hs : step body s0 ev = some s := by
      rw [Option.bind_some, run] at h
      rcases h1 : step body s0 ev with _ | s1
      · rw [h1] at h; cases h
      · rw [h1] at h; exact h
    have hg0 : ∃ c, (loopOver body c0 (elementsOf es)).2 = .goesOn c := by
      obtain ⟨c, hg⟩ := hg
      rw [elementsOf_append] at hg
      exact loopOver_goesOn hg
    obtain ⟨ho, hfine⟩ := ih hr (by simp_all) (by simp_all) (by simp_all) hg0
    have hst := (inv_run hr).stands
    obtain ⟨ph, log⟩ := s0
    cases ph with
    | over => exact absurd rfl ho
    | idle c =>
      cases ev <;> cases hs
      exact ⟨nofun, hfine⟩
    | busy w c =>
      cases ev with
      | ask who =>
        cases hs
        refine ⟨nofun, fun w o hm => ?_⟩
        rcases List.mem_append.mp hm with hm | hm
        · exact hfine w o hm
        · cases List.mem_singleton.mp hm; exact .inr rfl
      | exhausted => simp at hx
      | cancel => simp at hc
      | failed e => exact absurd (by simp) (hf e)
      | element x =>
        have hst' : (loopOver body c0 (elementsOf es)).2 = .goesOn c := hst
        obtain ⟨c1, hg⟩ := hg
        rw [elementsOf_append] at hg
        have e1 : elementsOf [Event.element x] = [x] := rfl
        rw [e1, loopOver_append body c0 c _ _ hst', loopOver] at hg
        simp only [step, State.process] at hs
        rcases hb : body c x with e | a
        · simp only [hb] at hg; cases hg
        · simp only [hb] at hs hg
          cases a with
          | stop => cases hg
          | skip c' => cases hs; exact ⟨nofun, hfine⟩
          | emit y c' =>
            cases hs
            refine ⟨nofun, fun w o hm => ?_⟩
            rcases List.mem_append.mp hm with hm | hm
            · exact hfine w o hm
            · cases List.mem_singleton.mp hm; exact .inl ⟨y, rfl⟩

end Expression.AsyncShared
