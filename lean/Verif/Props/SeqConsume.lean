import Verif.Lemmas.SeqConsume

/-!
# C156: functions that run through a sequence, on a bounded stack
-/

namespace Expression.Props

open Expression Spec PyD Lemmas.SeqStack Lemmas.SeqConsume

variable {σ α β S T : Type}

/-- **C156 (never a wrong answer).** `head`, `max` (`min`), `length`, `fold`, `fold_back`, `iter` and `sum` do on a stack with any number of free frames
what they do on an unbounded stack, or raise `RecursionError`: for every sequence made by the functions of the library, and all callbacks of which this is
true. -/
theorem C156_same_or_overflow {S' : Type} {q : FrameSeq σ α S} {it : Iterable σ α S'} (h : SameSeq q it) (free : Nat) :
    OrRecursionError (FrameSeq.head q free) (Seq.head it) ∧
    (∀ gt, OrRecursionError (FrameSeq.max gt q free) (Seq.max gt it)) ∧
    OrRecursionError (FrameSeq.length q free) (Seq.length it) ∧
    (∀ (F : Nat → β → α → PyD σ β) f s, (∀ free c x, OrRecursionError (F free c x) (f c x)) →
      OrRecursionError (FrameSeq.fold F s q free) (Seq.fold f s it)) ∧
    (∀ (F : Nat → α → β → PyD σ β) f s, (∀ free x c, OrRecursionError (F free x c) (f x c)) →
      OrRecursionError (FrameSeq.foldBack F q s free) (Seq.foldBack f it s)) ∧
    (∀ (F : Nat → α → PyD σ Unit) f, (∀ free x, OrRecursionError (F free x) (f x)) →
      OrRecursionError (FrameSeq.iter F q free) (Seq.iter f it)) ∧
    (∀ (F : Nat → α → α → PyD σ α) f z, (∀ free x y, OrRecursionError (F free x y) (f x y)) →
      OrRecursionError (FrameSeq.sum F z q free) (Seq.sum f z it)) := by
  have hg : ∀ free, Both Eq (Seq.length (FrameSeq.generator (pure ()) q free)) (Seq.length it) := by
    obtain ⟨R, h⟩ := (same_of h).generator
    exact fun free => Lemmas.AsyncStack.bodies_forLoop (h free) (fun _ _ => .refl _) 0
  obtain ⟨R, h⟩ := same_of h
  refine ⟨?_, fun gt => ?_, ?_, fun F f s hf => ?_, fun F f s hf => ?_, fun F f hf => ?_, fun F f z hf => ?_⟩
  · refine Lemmas.AsyncStack.coroutine_or (fun free => (Lemmas.AsyncStack.bodies_forLoop (h free) (fun _ _ => .refl _) none).bind ?_) free
    rintro a _ rfl
    exact .refl _
  · refine Lemmas.AsyncStack.coroutine_or (fun free => (Lemmas.AsyncStack.bodies_forLoop (h free) (fun _ _ => .refl _) none).bind ?_) free
    rintro a _ rfl
    exact .refl _
  · exact Lemmas.AsyncStack.coroutine_or hg free
  · refine curried_or (fun free => Lemmas.AsyncStack.bodies_forLoop (h free) (fun c x => (Both.of_or (hf free c x)).bind ?_) s) free
    rintro a _ rfl
    exact .refl _
  · refine Lemmas.AsyncStack.coroutine_or
      (fun free => (Lemmas.AsyncStack.bodies_forLoop (h free) (fun _ _ => .refl _) []).bind ?_) free
    rintro items _ rfl
    have hi : Follows (σ := σ) Eq Eq (Iterable.ofList items.reverse) (Iterable.ofList items.reverse) := by
      refine ⟨.refl _, ?_⟩
      rintro l _ rfl
      exact (Both.refl _).mono (by rintro a _ rfl; exact Nexts.refl a)
    refine Lemmas.AsyncStack.bodies_forLoop hi (fun c x =>
      (or_both (Lemmas.AsyncStack.coroutine_or fun free => Both.of_or (hf free x c)) free).bind ?_) s
    rintro a _ rfl
    exact .refl _
  · refine curried_or (fun free => Lemmas.AsyncStack.bodies_forLoop (h free) (fun c x => (Both.of_or (hf free x)).bind ?_) ()) free
    rintro a _ rfl
    exact .refl _
  · refine Lemmas.AsyncStack.coroutine_or (fun free => Lemmas.AsyncStack.then_returns
      (Lemmas.AsyncStack.bodies_forLoop (h free) (fun c x => (Both.of_or (hf free c x)).bind ?_) z) free) free
    rintro a _ rfl
    exact .refl _

/-- **C156 (what suffices).** If `n` frames are enough for the sequence and `m` for the callbacks: `n + 1` for `head` and `max`, `n + 2` for `length`; for
`fold` and `iter` three more than for both; for `fold_back` one more than for the sequence and two more than for the folder; for `sum` one more than for
both, and two in any case. -/
theorem C156_frames {n m : Nat} {q : FrameSeq σ α S} {it : Iterable σ α S} (h : EnoughForSeq n q it) (free : Nat) :
    (n + 1 ≤ free → FrameSeq.head q free = Seq.head it) ∧
    (∀ gt, n + 1 ≤ free → FrameSeq.max gt q free = Seq.max gt it) ∧
    (n + 2 ≤ free → FrameSeq.length q free = Seq.length it) ∧
    (∀ (F : Nat → β → α → PyD σ β) f s, (∀ free, m ≤ free → F free = f) → max n m + 3 ≤ free → FrameSeq.fold F s q free = Seq.fold f s it) ∧
    (∀ (F : Nat → α → β → PyD σ β) f s, (∀ free, m ≤ free → F free = f) → max n (m + 1) + 1 ≤ free →
      FrameSeq.foldBack F q s free = Seq.foldBack f it s) ∧
    (∀ (F : Nat → α → PyD σ Unit) f, (∀ free, m ≤ free → F free = f) → max n m + 3 ≤ free → FrameSeq.iter F q free = Seq.iter f it) ∧
    (∀ (F : Nat → α → α → PyD σ α) f z, (∀ free, m ≤ free → F free = f) → max (max n m) 1 + 1 ≤ free →
      FrameSeq.sum F z q free = Seq.sum f z it) := by
  refine ⟨fun hn => ?_, fun gt hn => ?_, fun hn => ?_, fun F f s hF hn => ?_, fun F f s hF hn => ?_, fun F f hF hn => ?_, fun F f z hF hn => ?_⟩
  · obtain ⟨k, rfl⟩ : ∃ k, free = k + 1 := ⟨free - 1, by omega⟩
    rw [FrameSeq.head, FrameAsync.coroutine, h k (by omega)]
  · obtain ⟨k, rfl⟩ : ∃ k, free = k + 1 := ⟨free - 1, by omega⟩
    rw [FrameSeq.max, FrameAsync.coroutine, h k (by omega)]
  · obtain ⟨k, rfl⟩ : ∃ k, free = k + 2 := ⟨free - 2, by omega⟩
    have e : FrameSeq.generator (pure ()) q (k + 1) = it := by
      rw [← h k (by omega)]
      rfl
    rw [FrameSeq.length, FrameAsync.coroutine, e]
  · obtain ⟨k, rfl⟩ : ∃ k, free = k + 3 := ⟨free - 3, by omega⟩
    rw [FrameSeq.fold, FrameSeq.curried, FrameAsync.coroutine, FrameAsync.coroutine, FrameAsync.coroutine, h k (by omega), hF k (by omega)]
  · obtain ⟨k, rfl⟩ : ∃ k, free = k + 2 := ⟨free - 2, by omega⟩
    rw [FrameSeq.foldBack, FrameAsync.coroutine, h (k + 1) (by omega)]
    simp only [FrameAsync.coroutine, hF k (by omega)]
  · obtain ⟨k, rfl⟩ : ∃ k, free = k + 3 := ⟨free - 3, by omega⟩
    rw [FrameSeq.iter, FrameSeq.curried, FrameAsync.coroutine, FrameAsync.coroutine, FrameAsync.coroutine, h k (by omega), hF k (by omega)]
  · obtain ⟨k, rfl⟩ : ∃ k, free = k + 2 := ⟨free - 2, by omega⟩
    rw [FrameSeq.sum, FrameAsync.coroutine, h (k + 1) (by omega), hF (k + 1) (by omega)]
    exact bind_pure _

/-- **C156 (what is needed).** If with fewer than `n` frames not even the first element of the sequence can be obtained, `RecursionError` is raised with
fewer than `n + 1` by `head`, `max`, `fold_back` and `sum`, with fewer than `n + 2` by `length`, and with fewer than `n + 3` by `fold` and `iter`. -/
theorem C156_needs {n : Nat} {q : FrameSeq σ α S} (h : ∀ free, free < n → NoFirst (q free)) (free : Nat) (w : σ) :
    (free < n + 1 → (FrameSeq.head q free).exec w = some (.error .recursionError, w)) ∧
    (∀ gt, free < n + 1 → (FrameSeq.max gt q free).exec w = some (.error .recursionError, w)) ∧
    (free < n + 2 → (FrameSeq.length q free).exec w = some (.error .recursionError, w)) ∧
    (∀ (F : Nat → β → α → PyD σ β) s, free < n + 3 → (FrameSeq.fold F s q free).exec w = some (.error .recursionError, w)) ∧
    (∀ (F : Nat → α → β → PyD σ β) s, free < n + 1 → (FrameSeq.foldBack F q s free).exec w = some (.error .recursionError, w)) ∧
    (∀ (F : Nat → α → PyD σ Unit), free < n + 3 → (FrameSeq.iter F q free).exec w = some (.error .recursionError, w)) ∧
    (∀ (F : Nat → α → α → PyD σ α) z, free < n + 1 → (FrameSeq.sum F z q free).exec w = some (.error .recursionError, w)) := by
  refine ⟨fun hn => ?_, fun gt hn => ?_, fun hn => ?_, fun F s hn => ?_, fun F s hn => ?_, fun F hn => ?_, fun F z hn => ?_⟩
  · match free with
    | 0 => rfl
    | free + 1 =>
      rw [FrameSeq.head, FrameAsync.coroutine, Seq.head, exec_bind, Lemmas.AsyncStack.fails_forLoop (h free (by omega))]
  · match free with
    | 0 => rfl
    | free + 1 =>
      rw [FrameSeq.max, FrameAsync.coroutine, Seq.max, exec_bind, Lemmas.AsyncStack.fails_forLoop (h free (by omega))]
  · match free with
    | 0 => rfl
    | 1 => rfl
    | free + 2 =>
      have e : FrameSeq.generator (pure ()) q (free + 1) = q free := rfl
      rw [FrameSeq.length, FrameAsync.coroutine, e]
      exact Lemmas.AsyncStack.fails_forLoop (h free (by omega)) _ _ w
  · match free with
    | 0 => rfl
    | 1 => rfl
    | 2 => rfl
    | free + 3 => exact Lemmas.AsyncStack.fails_forLoop (h free (by omega)) _ _ w
  · match free with
    | 0 => rfl
    | free + 1 =>
      rw [FrameSeq.foldBack, FrameAsync.coroutine, Seq.foldBack, exec_bind, fails_toList (h free (by omega))]
  · match free with
    | 0 => rfl
    | 1 => rfl
    | 2 => rfl
    | free + 3 => exact Lemmas.AsyncStack.fails_forLoop (h free (by omega)) _ _ w
  · match free with
    | 0 => rfl
    | free + 1 =>
      rw [FrameSeq.sum, FrameAsync.coroutine, exec_bind, Seq.sum, Seq.fold, Lemmas.AsyncStack.fails_forLoop (h free (by omega))]

/-- **C156 (calls of the library's own).** With one free frame, which they occupy themselves, `fold_back` of a sequence that has an element and `sum` raise
`RecursionError` when they have run through the sequence, even if this and the callbacks need no frames: `fold_back` calls its folder from a `lambda`, and
`sum` calls `cast`. -/
theorem C156_own_calls {q : FrameSeq σ α S} (w w' : σ) :
    (∀ (F : Nat → α → β → PyD σ β) s x xs, (q 0).toList.exec w = some (.ok (x :: xs), w') →
      (FrameSeq.foldBack F q s 1).exec w = some (.error .recursionError, w')) ∧
    (∀ (F : Nat → α → α → PyD σ α) z r, (Seq.sum (F 0) z (q 0)).exec w = some (.ok r, w') →
      (FrameSeq.sum F z q 1).exec w = some (.error .recursionError, w')) := by
  refine ⟨fun F s x xs h => ?_, fun F z r h => ?_⟩
  · rw [FrameSeq.foldBack, FrameAsync.coroutine, Seq.foldBack, exec_bind, h]
    simp only
    obtain ⟨y, ys, e⟩ : ∃ y ys, (x :: xs).reverse = y :: ys := by
      cases hr : (x :: xs).reverse with
      | nil => simp at hr
      | cons y ys => exact ⟨y, ys, rfl⟩
    rw [e, Iterable.forLoop, exec_bind]
    show exec (Iterable.loop _ _ (y :: ys) s) w' = _
    rw [Iterable.loop_eq, exec_bind]
    rfl
  · rw [FrameSeq.sum, FrameAsync.coroutine, exec_bind, h]
    rfl

/-- **C156 (`max_by`, `min_by`, `sum_by`, `try_pick` and `mapi`).** They, too, do what they do on an unbounded stack or raise `RecursionError`. -/
theorem C156_same_or_overflow_more {S' : Type} {q : FrameSeq σ α S} {it : Iterable σ α S'} (h : SameSeq q it) (free : Nat) :
    (∀ gt (F : Nat → α → PyD σ β) f, (∀ free x, OrRecursionError (F free x) (f x)) →
      OrRecursionError (FrameSeq.maxBy gt F q free) (Seq.maxBy gt f it)) ∧
    (∀ (P : Nat → β → β → PyD σ β) p z (F : Nat → α → PyD σ β) f, (∀ free x y, OrRecursionError (P free x y) (p x y)) →
      (∀ free x, OrRecursionError (F free x) (f x)) → OrRecursionError (FrameSeq.sumBy P z F q free) (Seq.sumBy p z f it)) ∧
    (∀ (F : Nat → α → PyD σ (Option β)) f, (∀ free x, OrRecursionError (F free x) (f x)) →
      OrRecursionError (FrameSeq.tryPick F q free) (Seq.tryPick f it)) ∧
    (∀ (F : Nat → Nat → α → PyD σ β) f, (∀ free i x, OrRecursionError (F free i x) (f i x)) →
      OrRecursionError (FrameSeq.mapi F q free) (Seq.mapi f it)) := by
  have hs := same_of h
  refine ⟨fun gt F f hf => ?_, fun P p z F f hp hf => ?_, fun F f hf => ?_, fun F f hf => ?_⟩
  · obtain ⟨R, h⟩ := same_genexpr hf hs
    refine curried_or (fun free => (Lemmas.AsyncStack.bodies_forLoop (h free) (fun _ _ => .refl _) none).bind ?_) free
    rintro a _ rfl
    exact .refl _
  · obtain ⟨R, h⟩ := same_genexpr hf hs
    refine curried_or (fun free => or_both (Lemmas.AsyncStack.coroutine_or (fun free => Lemmas.AsyncStack.then_returns
      (Lemmas.AsyncStack.bodies_forLoop (h free) (fun c x => (Both.of_or (hp free c x)).bind ?_) z) free)) free) free
    rintro a _ rfl
    exact .refl _
  · obtain ⟨R, h⟩ := hs
    refine curried_or (fun free => Lemmas.AsyncStack.bodies_forLoop (h free)
      (fun c x => (Lemmas.AsyncStack.then_returns (Both.of_or (hf free x)) free).bind ?_) none) free
    rintro a _ rfl
    exact .refl _
  · obtain ⟨R, h⟩ := hs
    refine curried_or (fun free => (Lemmas.AsyncStack.bodies_forLoop (h free) (fun (c : Nat × List β) x => (Both.of_or (hf free c.1 x)).bind ?_) _).bind ?_) free
    · rintro a _ rfl
      exact .refl _
    · rintro a _ rfl
      exact .refl _

/-- **C156 (the same, what suffices).** Four frames more than for the sequence and the projection for `max_by` and `min_by`, five for `sum_by`, three
for `try_pick` and `mapi`; four in any case for `try_pick`, which asks whether the answer of the chooser is `Some`. -/
theorem C156_frames_more {n m : Nat} {q : FrameSeq σ α S} {it : Iterable σ α S} (h : EnoughForSeq n q it) (free : Nat) :
    (∀ gt (F : Nat → α → PyD σ β) f, (∀ free, m ≤ free → F free = f) → max n m + 4 ≤ free →
      FrameSeq.maxBy gt F q free = Seq.maxBy gt f it) ∧
    (∀ (P : Nat → β → β → PyD σ β) p z (F : Nat → α → PyD σ β) f, (∀ free, m + 1 ≤ free → P free = p) → (∀ free, m ≤ free → F free = f) →
      max n m + 5 ≤ free → FrameSeq.sumBy P z F q free = Seq.sumBy p z f it) ∧
    (∀ (F : Nat → α → PyD σ (Option β)) f, (∀ free, m ≤ free → F free = f) → max (max n m) 1 + 3 ≤ free →
      FrameSeq.tryPick F q free = Seq.tryPick f it) ∧
    (∀ (F : Nat → Nat → α → PyD σ β) f, (∀ free, m ≤ free → F free = f) → max n m + 3 ≤ free →
      FrameSeq.mapi F q free = Seq.mapi f it) := by
  have hg : ∀ (F : Nat → α → PyD σ β) f, (∀ free, m ≤ free → F free = f) → ∀ k, max n m ≤ k → FrameSeq.genexpr F q (k + 1) = Seq.map f it := by
    intro F f hF k hk
    rw [← h k (by omega), ← hF k (by omega)]
    rfl
  refine ⟨fun gt F f hF hn => ?_, fun P p z F f hP hF hn => ?_, fun F f hF hn => ?_, fun F f hF hn => ?_⟩
  · obtain ⟨k, rfl⟩ : ∃ k, free = k + 1 + 3 := ⟨free - 4, by omega⟩
    rw [FrameSeq.maxBy, FrameSeq.curried, FrameAsync.coroutine, FrameAsync.coroutine, FrameAsync.coroutine, hg F f hF k (by omega)]
    rfl
  · obtain ⟨k, rfl⟩ : ∃ k, free = k + 1 + 1 + 3 := ⟨free - 5, by omega⟩
    rw [FrameSeq.sumBy, FrameSeq.curried, FrameAsync.coroutine, FrameAsync.coroutine, FrameAsync.coroutine, FrameSeq.sum, FrameAsync.coroutine,
      hg F f hF k (by omega), hP (k + 1) (by omega)]
    exact bind_pure _
  · obtain ⟨k, rfl⟩ : ∃ k, free = k + 1 + 3 := ⟨free - 4, by omega⟩
    rw [FrameSeq.tryPick, FrameSeq.curried, FrameAsync.coroutine, FrameAsync.coroutine, FrameAsync.coroutine, h (k + 1) (by omega),
      hF (k + 1) (by omega), Lemmas.AsyncStack.returns_eq (k + 1) (by omega)]
    simp only [bind_pure]
  · obtain ⟨k, rfl⟩ : ∃ k, free = k + 3 := ⟨free - 3, by omega⟩
    rw [FrameSeq.mapi, FrameSeq.curried, FrameAsync.coroutine, FrameAsync.coroutine, FrameAsync.coroutine, h k (by omega), hF k (by omega)]

/-- **C156 (the same, what is needed).** If with fewer than `n` frames not even the first element of the sequence can be obtained, `RecursionError` is
raised with fewer than `n + 4` by `max_by` and `min_by`, with fewer than `n + 5` by `sum_by`, and with fewer than `n + 3` by `try_pick` and `mapi`. -/
theorem C156_needs_more {n : Nat} {q : FrameSeq σ α S} (h : ∀ free, free < n → NoFirst (q free)) (free : Nat) (w : σ) :
    (∀ gt (F : Nat → α → PyD σ β), free < n + 4 → (FrameSeq.maxBy gt F q free).exec w = some (.error .recursionError, w)) ∧
    (∀ (P : Nat → β → β → PyD σ β) z (F : Nat → α → PyD σ β), free < n + 5 →
      (FrameSeq.sumBy P z F q free).exec w = some (.error .recursionError, w)) ∧
    (∀ (F : Nat → α → PyD σ (Option β)), free < n + 3 → (FrameSeq.tryPick F q free).exec w = some (.error .recursionError, w)) ∧
    (∀ (F : Nat → Nat → α → PyD σ β), free < n + 3 → (FrameSeq.mapi F q free).exec w = some (.error .recursionError, w)) := by
  have hc : ∀ {γ : Type} (code : Nat → PyD σ γ), (∀ k, free = k + 3 → (code k).exec w = some (.error .recursionError, w)) →
      (FrameSeq.curried code free).exec w = some (.error .recursionError, w) := by
    intro γ code hk
    match free with
    | 0 => rfl
    | 1 => rfl
    | 2 => rfl
    | free + 3 => exact hk free rfl
  refine ⟨fun gt F hn => hc _ fun k e => ?_, fun P z F hn => hc _ fun k e => ?_, fun F hn => hc _ fun k e => ?_, fun F hn => hc _ fun k e => ?_⟩
  · rw [Seq.max, exec_bind, Lemmas.AsyncStack.fails_forLoop (noFirst_genexpr h F k (by omega))]
  · exact (C156_needs (β := β) (n := n + 1) (noFirst_genexpr h F) k w).2.2.2.2.2.2 P z (by omega)
  · exact Lemmas.AsyncStack.fails_forLoop (h k (by omega)) _ _ w
  · rw [Seq.mapi, exec_bind, Lemmas.AsyncStack.fails_forLoop (h k (by omega))]

/-- **C156 (the frames callbacks have).** What a callback raises on the first element, called with `free` free frames, comes out of a function that was
called with three more (`fold`, `iter`, `try_pick`, `mapi`), one more (`sum`), four more (`max_by`, `min_by`) or five more
(`sum_by`).  So with a callback that needs `m` frames, calls with fewer than `m` and those three, one, four or five raise `RecursionError`. -/
theorem C156_callbacks {q : FrameSeq σ α S} {free : Nat} {w w' w'' : σ} {x : α} {s : S} {e : PyErr}
    (h : ((q free).iter >>= (q free).next).exec w = some (.ok (some (x, s)), w')) :
    (∀ (F : Nat → β → α → PyD σ β) c, (F free c x).exec w' = some (.error e, w'') →
      (FrameSeq.fold F c q (free + 3)).exec w = some (.error e, w'')) ∧
    (∀ (F : Nat → α → PyD σ Unit), (F free x).exec w' = some (.error e, w'') → (FrameSeq.iter F q (free + 3)).exec w = some (.error e, w'')) ∧
    (∀ (F : Nat → α → PyD σ (Option β)), (F free x).exec w' = some (.error e, w'') →
      (FrameSeq.tryPick F q (free + 3)).exec w = some (.error e, w'')) ∧
    (∀ (F : Nat → Nat → α → PyD σ β), (F free 0 x).exec w' = some (.error e, w'') →
      (FrameSeq.mapi F q (free + 3)).exec w = some (.error e, w'')) ∧
    (∀ (F : Nat → α → α → PyD σ α) z, (F free z x).exec w' = some (.error e, w'') →
      (FrameSeq.sum F z q (free + 1)).exec w = some (.error e, w'')) ∧
    (∀ gt (F : Nat → α → PyD σ β), (F free x).exec w' = some (.error e, w'') → (FrameSeq.maxBy gt F q (free + 4)).exec w = some (.error e, w'')) ∧
    (∀ (P : Nat → β → β → PyD σ β) z (F : Nat → α → PyD σ β), (F free x).exec w' = some (.error e, w'') →
      (FrameSeq.sumBy P z F q (free + 5)).exec w = some (.error e, w'')) := by
  refine ⟨fun F c hF => ?_, fun F hF => ?_, fun F hF => ?_, fun F hF => ?_, fun F z hF => ?_, fun gt F hF => ?_, fun P z F hF => ?_⟩
  · refine Lemmas.AsyncStack.first_raises h _ c ?_
    rw [exec_bind, hF]
  · refine Lemmas.AsyncStack.first_raises h _ () ?_
    rw [exec_bind, hF]
  · refine Lemmas.AsyncStack.first_raises h _ none ?_
    rw [exec_bind, exec_bind, hF]
  · show exec (Seq.mapi (F free) (q free)) w = _
    rw [Seq.mapi, exec_bind, Lemmas.AsyncStack.first_raises h _ _ (by rw [exec_bind, hF])]
  · rw [FrameSeq.sum, FrameAsync.coroutine, exec_bind, Seq.sum, Seq.fold, Lemmas.AsyncStack.first_raises h _ _ (by rw [exec_bind, hF])]
  · show exec (Seq.max gt (FrameSeq.genexpr F q (free + 1))) w = _
    rw [Seq.max, exec_bind, loop_raises (genexpr_raises h hF)]
  · show exec (FrameSeq.sum P z (FrameSeq.genexpr F q) (free + 1 + 1)) w = _
    rw [FrameSeq.sum, FrameAsync.coroutine, exec_bind, Seq.sum, Seq.fold, loop_raises (genexpr_raises h hF)]

/-- **C156 (the frames a folder of `fold_back` has).** Two fewer than `fold_back`; it is called first on the last element. -/
theorem C156_callback_back {q : FrameSeq σ α S} {free : Nat} {w w' w'' : σ} {xs : List α} {x : α} {e : PyErr}
    (h : (q (free + 1)).toList.exec w = some (.ok (xs ++ [x]), w')) (F : Nat → α → β → PyD σ β) (c : β)
    (hF : (F free x c).exec w' = some (.error e, w'')) : (FrameSeq.foldBack F q c (free + 2)).exec w = some (.error e, w'') := by
  rw [FrameSeq.foldBack, FrameAsync.coroutine, Seq.foldBack, exec_bind, h]
  simp only [List.reverse_append, List.reverse_cons, List.reverse_nil, List.nil_append, List.singleton_append]
  refine Lemmas.AsyncStack.first_raises (x := x) (s := xs.reverse) rfl _ c ?_
  rw [exec_bind, FrameAsync.coroutine, hF]

/-- **C156 (calls of the library's own, `try_pick`).** With three free frames, `try_pick` of a sequence that has an element raises `RecursionError` when the
chooser has returned, even if the sequence and the chooser need no frames: it asks the answer whether it is `Some`. -/
theorem C156_own_call_pick {q : FrameSeq σ α S} {w w' w'' : σ} {x : α} {s : S} {r : Option β}
    (h : ((q 0).iter >>= (q 0).next).exec w = some (.ok (some (x, s)), w')) (F : Nat → α → PyD σ (Option β))
    (hF : (F 0 x).exec w' = some (.ok r, w'')) : (FrameSeq.tryPick F q 3).exec w = some (.error .recursionError, w'') := by
  refine Lemmas.AsyncStack.first_raises h _ none ?_
  rw [exec_bind, exec_bind, hF]
  rfl

/-- `try_pick` of a list, with three free frames -/
example (w : σ) : (FrameSeq.tryPick (σ := σ) (fun _ x => pure (some x)) (FrameSeq.ofList [1, 2]) 3).exec w = some (.error .recursionError, w) :=
  C156_own_call_pick (q := FrameSeq.ofList [1, 2]) (x := 1) (s := [2]) rfl (fun _ x => pure (some x)) rfl

/-- C156 is not vacuous: `fold(f, 0)(Seq([1, 2, 3]))` needs four frames -/
example (f : Nat → Nat → PyD σ Nat) (w : σ) :
    FrameSeq.fold (fun _ => f) 0 (FrameSeq.seq (pure ()) (FrameSeq.ofList [1, 2, 3])) 4 = Seq.fold f 0 (Iterable.ofList [1, 2, 3]) ∧
    (FrameSeq.fold (fun _ => f) 0 (FrameSeq.seq (pure ()) (FrameSeq.ofList [1, 2, 3])) 3).exec w = some (.error .recursionError, w) := by
  have h : EnoughForSeq (σ := σ) 1 (FrameSeq.seq (pure ()) (FrameSeq.ofList [1, 2, 3])) (Iterable.ofList [1, 2, 3]) := by
    intro free hf
    obtain ⟨k, rfl⟩ : ∃ k, free = k + 1 := ⟨free - 1, by omega⟩
    rfl
  refine ⟨(C156_frames (m := 0) h 4).2.2.2.1 (fun _ => f) f 0 (fun _ _ => rfl) (by decide), ?_⟩
  refine (C156_needs (β := Nat) (n := 1) (fun free hf => ?_) 3 w).2.2.2.1 _ _ (by decide)
  obtain rfl : free = 0 := by omega
  exact fun _ => rfl

/-- the elements of a mapped sequence, folded from the end, with any number of free frames -/
example (g : Nat → PyD σ Nat) (f : Nat → Nat → PyD σ Nat) (free : Nat) :
    OrRecursionError (FrameSeq.foldBack (fun _ => f) (FrameSeq.map (pure ()) (fun _ => g) (FrameSeq.ofList [1, 2, 3])) 0 free)
      (Seq.foldBack f (Seq.map g (Iterable.ofList [1, 2, 3])) 0) :=
  (C156_same_or_overflow (SameSeq.map (F := fun _ => g) (f := g) (fun _ _ _ => .inl rfl) (.ofList _)) free).2.2.2.2.1 _ _ _ (fun _ _ _ _ => .inl rfl)

/-- `fold_back` of a list of two, with one free frame -/
example (f : Nat → Nat → PyD σ Nat) (w : σ) : (FrameSeq.foldBack (fun _ => f) (FrameSeq.ofList [1, 2]) 0 1).exec w = some (.error .recursionError, w) := by
  refine (C156_own_calls (q := FrameSeq.ofList [1, 2]) w w).1 _ _ 1 [2] ?_
  rw [Iterable.toList, Iterable.forLoop]
  show exec (Iterable.loop _ _ [1, 2] []) w = _
  rw [Iterable.loop_eq]
  show exec (Iterable.loop _ _ [2] [1]) w = _
  rw [Iterable.loop_eq]
  show exec (Iterable.loop _ _ [] [1, 2]) w = _
  rw [Iterable.loop_eq]
  rfl

/-- an action that needs two frames, called with one -/
example (w : σ) : (FrameSeq.iter (σ := σ) (fun free (_ : Nat) => if free < 2 then PyD.raise .recursionError else pure ()) (FrameSeq.ofList [1, 2]) 4).exec w =
    some (.error .recursionError, w) :=
  (C156_callbacks (β := Nat) (q := FrameSeq.ofList [1, 2]) (free := 1) (w := w) (w' := w) (w'' := w) (x := 1) (s := [2]) rfl).2.1 _ rfl

/-- `sum_by` of `Seq([1, 2, 3])` needs six frames -/
example (f : Nat → PyD σ Nat) (w : σ) :
    FrameSeq.sumBy (fun _ x y => pure (x + y)) 0 (fun _ => f) (FrameSeq.seq (pure ()) (FrameSeq.ofList [1, 2, 3])) 6 =
      Seq.sumBy (fun x y => pure (x + y)) 0 f (Iterable.ofList [1, 2, 3]) ∧
    (FrameSeq.sumBy (fun _ x y => pure (x + y)) 0 (fun _ => f) (FrameSeq.seq (pure ()) (FrameSeq.ofList [1, 2, 3])) 5).exec w =
      some (.error .recursionError, w) := by
  have h : EnoughForSeq (σ := σ) 1 (FrameSeq.seq (pure ()) (FrameSeq.ofList [1, 2, 3])) (Iterable.ofList [1, 2, 3]) := by
    intro free hf
    obtain ⟨k, rfl⟩ : ∃ k, free = k + 1 := ⟨free - 1, by omega⟩
    rfl
  refine ⟨(C156_frames_more (m := 0) h 6).2.1 _ _ 0 _ f (fun _ _ => rfl) (fun _ _ => rfl) (by decide), ?_⟩
  refine (C156_needs_more (β := Nat) (n := 1) (fun free hf => ?_) 5 w).2.1 _ _ _ (by decide)
  obtain rfl : free = 0 := by omega
  exact fun _ => rfl

/-! ## C139 -/

/-- **C139 (the frames callbacks have).** What a callback raises on the first element, called with `free` free frames, comes out of asking for the first
element of a `map` or `collect` with two more, of an `unfold` with one more, and of a `filter` or (second element) `scan` with as many. -/
theorem C139_callbacks {q : FrameSeq σ α S} {free : Nat} {w w' w'' : σ} {x : α} {s : S} {e : PyErr}
    (h : ((q free).iter >>= (q free).next).exec w = some (.ok (some (x, s)), w')) :
    (∀ (F : Nat → α → PyD σ β), (F free x).exec w' = some (.error e, w'') →
      ((FrameSeq.map (pure ()) F q (free + 2)).iter >>= (FrameSeq.map (pure ()) F q (free + 2)).next).exec w = some (.error e, w'')) ∧
    (∀ (F : Nat → α → PyD σ (FrameSeq σ β T)), (F free x).exec w' = some (.error e, w'') →
      ((FrameSeq.collect (pure ()) F q (free + 2)).iter >>= (FrameSeq.collect (pure ()) F q (free + 2)).next).exec w = some (.error e, w'')) ∧
    (∀ (F : Nat → T → PyD σ (Option (β × T))) t, (F free t).exec w = some (.error e, w'') →
      ((FrameSeq.unfold (pure ()) F t (free + 1)).iter >>= (FrameSeq.unfold (pure ()) F t (free + 1)).next).exec w = some (.error e, w'')) ∧
    (∀ (F : Nat → α → PyD σ Bool), (F free x).exec w' = some (.error e, w'') →
      ((FrameSeq.filter F q free).iter >>= (FrameSeq.filter F q free).next).exec w = some (.error e, w'')) ∧
    (∀ (F : Nat → β → α → PyD σ β) c, (F free c x).exec w' = some (.error e, w'') →
      (FrameSeq.scan F c q free).toList.exec w = some (.error e, w'')) := by
  refine ⟨fun F hF => ?_, fun F hF => ?_, fun F t hF => ?_, fun F hF => ?_, fun F c hF => ?_⟩
  · show exec (pure none >>= (Seq.map (F free) (q free)).next) w = _
    rw [pure_bind]
    show exec ((q free).iter >>= fun s => (q free).next s >>= _) w = _
    rw [← bind_assoc, exec_bind, h]
    simp only
    rw [exec_bind, hF]
  · refine Lemmas.AsyncStack.mapping_raises h _ ?_
    rw [exec_bind, hF]
  · exact hF
  · show exec ((q free).iter >>= Seq.filterNext (F free) (q free)) w = _
    rw [exec_bind] at h ⊢
    rcases hx : (q free).iter.exec w with _ | ⟨e | s0, w1⟩ <;> rw [hx] at h
    · cases h
    · cases h
    · simp only at h ⊢
      rw [Seq.filterNext.eq_1, exec_bind, h]
      simp only
      rw [exec_bind, hF]
  · rw [Iterable.toList, Iterable.forLoop]
    show exec (((q free).iter >>= fun s => pure (Seq.ScanState.initial s)) >>= _) w = _
    rw [bind_assoc]
    rw [exec_bind] at h ⊢
    rcases hx : (q free).iter.exec w with _ | ⟨e | s0, w1⟩ <;> rw [hx] at h
    · cases h
    · cases h
    · simp only at h ⊢
      show exec (Iterable.loop _ _ (Seq.ScanState.initial s0) []) w1 = _
      rw [Iterable.loop_eq]
      show exec (Iterable.loop _ _ (Seq.ScanState.running s0 c) [c]) w1 = _
      rw [Iterable.loop_eq]
      have e1 : ((FrameSeq.scan F c q free).next (.running s0 c)).exec w1 = some (.error e, w'') := by
        show exec ((q free).next s0 >>= _) w1 = _
        rw [exec_bind, h]
        simp only
        rw [exec_bind, hF]
      rw [exec_bind, e1]

/-- a mapper that needs two frames, called with one -/
example (w : σ) : ((FrameSeq.map (σ := σ) (pure ()) (fun free (x : Nat) => if free < 2 then PyD.raise .recursionError else pure x) (FrameSeq.ofList [1, 2]) 3).iter >>=
    (FrameSeq.map (pure ()) (fun free x => if free < 2 then PyD.raise .recursionError else pure x) (FrameSeq.ofList [1, 2]) 3).next).exec w =
    some (.error .recursionError, w) :=
  (C139_callbacks (T := Nat) (q := FrameSeq.ofList [1, 2]) (free := 1) (x := 1) (s := [2]) rfl).1 _ rfl

end Expression.Props
