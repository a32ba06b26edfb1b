import Verif.Lemmas.AsyncStop
import Verif.Spec.StopIter

/-! # C151: callbacks of asynchronous sequences that raise `StopIteration` or `StopAsyncIteration` -/

namespace Expression.Props

section asyncStop

open AsyncStop Spec.AsyncStop Lemmas.AsyncStop
open Spec (NoStopIteration)

variable {σ α β γ S T C : Type}

/-- **C151.** For every source, callback and consumer: the loop over the result of `map`, `filter`, `choose`, `collect` and `scan` is the loop
over the source in which both exceptions that could be taken for an end are replaced by `RuntimeError` at every call of the callback. -/
theorem C151_loops (src : AsyncIterable σ α S) (c : C) :
    (∀ (f : α → PyA σ β) (body : C → β → PyA σ (Flow C)), forLoop (map f src) body c = forLoop (guarded src) (mapBody f body) c) ∧
    (∀ (p : α → PyA σ Bool) (body : C → α → PyA σ (Flow C)), forLoop (filter p src) body c = forLoop (guarded src) (filterBody p body) c) ∧
    (∀ (f : α → PyA σ (Option β)) (body : C → β → PyA σ (Flow C)), forLoop (choose f src) body c = forLoop (guarded src) (chooseBody f body) c) ∧
    (∀ (m : α → PyA σ (AsyncIterable σ β T)) (body : C → β → PyA σ (Flow C)),
      forLoop (collect m src) body c = forLoop (guarded src) (collectBody m body) c) ∧
    (∀ (f : γ → α → PyA σ γ) (z : γ) (body : C → γ → PyA σ (Flow C)), forLoop (scan f z src) body c = (do
      match ← body c z with
      | .stop c' => pure c'
      | .next c' => Prod.fst <$> forLoop (guarded src) (scanBody f body) (c', z))) :=
  ⟨fun f body => Lemmas.AsyncStop.map_forLoop f src body c, fun p body => Lemmas.AsyncStop.filter_forLoop p src body c,
    fun f body => Lemmas.AsyncStop.choose_forLoop f src body c, fun m body => Lemmas.AsyncStop.collect_forLoop m src body c,
    fun f z body => Lemmas.AsyncStop.scan_forLoop f z src body c⟩

/-- **C151 (never cut short).** When the callback has returned for `xs` and raises for the next element, whatever it raises and whatever the
rest of the source, a loop over the result does not end as if the sequence ended there: an exception comes out. -/
theorem C151_never_cut (xs rest : List α) (x : α) (w w' w'' : σ) (r : Raised) :
    (∀ (f : α → PyA σ β) ys, CallsReturn f w xs ys w' → Raises (f x) w' r w'' →
      Raises (toList (map f (listSource (xs ++ x :: rest)))) w (.other (outOfGenerator r)) w'') ∧
    (∀ (p : α → PyA σ Bool) bs, CallsReturn p w xs bs w' → Raises (p x) w' r w'' →
      Raises (toList (filter p (listSource (xs ++ x :: rest)))) w (.other (outOfGenerator r)) w'') ∧
    (∀ (f : α → PyA σ (Option β)) os, CallsReturn f w xs os w' → Raises (f x) w' r w'' →
      Raises (toList (choose f (listSource (xs ++ x :: rest)))) w (.other (outOfGenerator r)) w'') ∧
    (∀ (m : α → PyA σ (AsyncIterable σ β (List β))) (yss : List (List β)), CallsReturn m w xs (yss.map listSource) w' → Raises (m x) w' r w'' →
      Raises (toList (collect m (listSource (xs ++ x :: rest)))) w (.other (outOfGenerator r)) w'') ∧
    (∀ (f : γ → α → PyA σ γ) z z', StateCalls f w z xs z' w' → Raises (f z' x) w' r w'' →
      Raises (toList (scan f z (listSource (xs ++ x :: rest)))) w (.other (outOfGenerator r)) w'') := by
  refine ⟨fun f ys h hx => ?_, fun p bs h hx => ?_, fun f os h hx => ?_, fun m yss h hx => ?_, fun f z z' h hx => ?_⟩
  · rw [toList, Lemmas.AsyncStop.map_forLoop]
    exact forLoop_raises (lists_guarded _) (map_steps h []) (guard_raises hx _)
  · rw [toList, Lemmas.AsyncStop.filter_forLoop]
    obtain ⟨a, ha⟩ := filter_steps h []
    exact forLoop_raises (lists_guarded _) ha (guard_raises hx _)
  · rw [toList, Lemmas.AsyncStop.choose_forLoop]
    obtain ⟨a, ha⟩ := choose_steps h []
    exact forLoop_raises (lists_guarded _) ha (guard_raises hx _)
  · rw [toList, Lemmas.AsyncStop.collect_forLoop]
    obtain ⟨a, ha⟩ := collect_steps h (fun it hi => by
      obtain ⟨ys, _, rfl⟩ := List.mem_map.mp hi
      exact ⟨ys, rfl⟩) []
    exact forLoop_raises (lists_guarded _) ha (guard_raises hx _)
  · rw [toList, Lemmas.AsyncStop.scan_forLoop, pure_bind]
    obtain ⟨a, ha⟩ := scan_steps h ([] ++ [z])
    have := forLoop_raises (lists_guarded (xs ++ x :: rest)) ha (guard_raises hx _)
    exact bind_raises this _

/-- **C151 (`fold` and `fold_back`).** The same for the two coroutines; `StopAsyncIteration` comes out of them unchanged. -/
theorem C151_fold (xs rest : List α) (x : α) (w w' w'' : σ) (r : Raised) :
    (∀ (f : β → α → PyA σ β) z z', StateCalls f w z xs z' w' → Raises (f z' x) w' r w'' →
      Raises (fold f z (listSource (xs ++ x :: rest))) w (outOfCoroutine r) w'') ∧
    (∀ (f : α → β → PyA σ β) z z', StateCalls (fun z x => f x z) w z xs z' w' → Raises (f x z') w' r w'' →
      Raises (foldBack f z (listSource (rest ++ x :: xs.reverse))) w (outOfCoroutine r) w'') := by
  refine ⟨fun f z z' h hx => coroutine_raises (forLoop_raises (lists_listSource _) (fold_steps h) (bind_raises hx _)), fun f z z' h hx => coroutine_raises ?_⟩
  have := forList_raises h hx rest.reverse
  have hr : (rest ++ x :: xs.reverse).reverse = xs ++ x :: rest.reverse := by simp
  cases r <;> (simp only [Raises] at this ⊢; rw [run_bind, PyD.exec_bind, toList_listSource]; simp only [orNone, hr]; exact this)

/-- **C151 (everything else).** With callbacks and sources that raise neither of the two exceptions, these are the functions of the other
properties about asynchronous sequences, for every consumer: any other exception comes out as it is. -/
theorem C151_agrees (src : Iterable σ α S) (hs : Plain src) (c : C) :
    (∀ (f : α → PyD σ β) (body : C → β → PyD σ (Flow C)), NoStopIteration f →
      (forLoop (map (fun x => OptionT.lift (f x)) (ofIterable src)) (fun c y => OptionT.lift (body c y)) c).run = some <$> (AsyncSeq.map f src).forLoop body c) ∧
    (∀ (p : α → PyD σ Bool) (body : C → α → PyD σ (Flow C)), NoStopIteration p →
      (forLoop (filter (fun x => OptionT.lift (p x)) (ofIterable src)) (fun c y => OptionT.lift (body c y)) c).run =
        some <$> (AsyncSeq.filter p src).forLoop body c) ∧
    (∀ (f : α → PyD σ (Option β)) (body : C → β → PyD σ (Flow C)), NoStopIteration f →
      (forLoop (choose (fun x => OptionT.lift (f x)) (ofIterable src)) (fun c y => OptionT.lift (body c y)) c).run =
        some <$> (AsyncSeq.choose f src).forLoop body c) ∧
    (∀ (m : α → PyD σ (Iterable σ β T)) (body : C → β → PyD σ (Flow C)), NoStopIteration m →
      (∀ x w it w', (m x).exec w = some (.ok it, w') → Plain it) →
      (forLoop (collect (fun x => OptionT.lift (ofIterable <$> m x)) (ofIterable src)) (fun c y => OptionT.lift (body c y)) c).run =
        some <$> (AsyncSeq.collect m src).forLoop body c) ∧
    (∀ (f : γ → α → PyD σ γ) (z : γ) (body : C → γ → PyD σ (Flow C)), (∀ r, NoStopIteration (f r)) →
      (forLoop (scan (fun r x => OptionT.lift (f r x)) z (ofIterable src)) (fun c y => OptionT.lift (body c y)) c).run =
        some <$> (AsyncSeq.scan f z src).forLoop body c) ∧
    (∀ (f : β → α → PyD σ β) (z : β), (∀ r, NoStopIteration (f r)) →
      (fold (fun r x => OptionT.lift (f r x)) z (ofIterable src)).run = some <$> AsyncSeq.fold f z src) := by
  refine ⟨fun f body hf => map_agrees hs hf body c, fun p body hp => filter_agrees hs hp body c, fun f body hf => choose_agrees hs hf body c,
    fun m body hm hi => collect_agrees hs hm hi body c, fun f z body hf => scan_agrees hs hf z body c, fun f z hf => fold_agrees hs hf z⟩

/-- a callback that counts its calls and multiplies by ten, or raises: `StopAsyncIteration` for `7`, `StopIteration` for `8`, another exception for `9` -/
def moody (x : Nat) : PyA Nat Nat := OptionT.mk fun w =>
  match x with
  | 7 => some (.ok none, w + 1)
  | 8 => some (.error .stopIteration, w + 1)
  | 9 => some (.error (.user 3), w + 1)
  | _ => some (.ok (some (10 * x)), w + 1)

/-- the hypotheses of `C151_never_cut`, with every kind of exception, and `C151_fold` -/
example : CallsReturn moody 0 [1, 2] [10, 20] 2 ∧ Raises (moody 7) 2 .stopAsyncIteration 3 ∧ Raises (moody 8) 2 (.other .stopIteration) 3 ∧
    Raises (moody 9) 2 (.other (.user 3)) 3 ∧ StateCalls (fun z x => (z + ·) <$> moody x) 0 5 [1, 2] 35 2 ∧
    Raises (toList (map moody (listSource [1, 2, 7, 4]))) 0 (.other (.failwith "async generator raised StopAsyncIteration")) 3 ∧
    Raises (toList (map moody (listSource [1, 2, 8, 4]))) 0 (.other (.failwith "async generator raised StopIteration")) 3 ∧
    Raises (fold (fun z x => (z + ·) <$> moody x) 5 (listSource [1, 2, 7, 4])) 0 .stopAsyncIteration 3 := by
  have h : CallsReturn moody 0 [1, 2] [10, 20] 2 := .cons rfl (.cons rfl .nil)
  have hf : StateCalls (fun z x => (z + ·) <$> moody x) 0 5 [1, 2] 35 2 := .cons rfl (.cons rfl .nil)
  exact ⟨h, rfl, rfl, rfl, hf, (C151_never_cut (γ := Nat) [1, 2] [4] 7 0 2 3 .stopAsyncIteration).1 moody _ h rfl,
    (C151_never_cut (γ := Nat) [1, 2] [4] 8 0 2 3 (.other .stopIteration)).1 moody _ h rfl,
    (C151_fold [1, 2] [4] 7 0 2 3 .stopAsyncIteration).1 _ _ _ hf rfl⟩

/-- the hypotheses of `C151_agrees` -/
example : Plain (Iterable.ofList [1, 2, 3] : Iterable Nat Nat _) ∧
    NoStopIteration (fun x : Nat => if x = 2 then (PyD.raise (.user 3) : PyD Nat Nat) else pure x) := by
  refine ⟨⟨(fun _ w w' h => by cases h), fun s w w' h => ?_⟩, fun x w w' h => ?_⟩
  · cases s <;> cases h
  · by_cases hx : x = 2
    · simp only [if_pos hx] at h; cases h
    · simp only [if_neg hx] at h; cases h

end asyncStop

end Expression.Props
