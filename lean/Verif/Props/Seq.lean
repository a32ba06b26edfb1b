import Verif.Lemmas.Const

/-!
# C22-C25, C59: lazy sequences

`Iterable.forLoop it body c` is `for x in it: body`, where `body` may have effects, raise, loop for ever, and break; so equal
`forLoop`s mean that no consumer can tell two sequences apart.
-/

namespace Expression.Props

open Iterable PyD Spec Lemmas

variable {σ α β γ S T C : Type}

/-! ## C22 laziness: a loop over a pipeline is the loop over its source -/

/-- `for y in map(f, src): body` is `for x in src: y = f(x); body`. -/
theorem C22_map (f : α → PyD σ β) (src : Iterable σ α S) (body : C → β → PyD σ (Flow C)) (c : C) :
    (Seq.map f src).forLoop body c = src.forLoop (mapBody f body) c := map_forLoop f src body c

/-- `for x in filter(p, src): body` is `for x in src: if p(x): body`. -/
theorem C22_filter (p : α → PyD σ Bool) (src : Iterable σ α S) (body : C → α → PyD σ (Flow C)) (c : C) :
    (Seq.filter p src).forLoop body c = src.forLoop (filterBody p body) c := filter_forLoop p src body c

/-- `for y in choose(f, src): body` is `for x in src: o = f(x)`, and `body` with `y` if `o` is `Some(y)`. -/
theorem C22_choose (f : α → PyD σ (Option β)) (src : Iterable σ α S) (body : C → β → PyD σ (Flow C)) (c : C) :
    (Seq.choose f src).forLoop body c = src.forLoop (chooseBody f body) c := choose_forLoop f src body c

/-- `for y in collect(m, src): body` is `for x in src: for y in m(x): body`. -/
theorem C22_collect (m : α → PyD σ (Iterable σ β T)) (src : Iterable σ α S) (body : C → β → PyD σ (Flow C)) (c : C) :
    (Seq.collect m src).forLoop body c = src.forLoop (collectBody m body) c := collect_forLoop m src body c

/-- `for y in scan(f, z, src): body` is `body` with `z` and then, for each `x`, `total = f(total, x)` and `body` with `total`. -/
theorem C22_scan (f : γ → α → PyD σ γ) (z : γ) (src : Iterable σ α S) (body : C → γ → PyD σ (Flow C)) (c : C) :
    (Seq.scan f z src).forLoop body c = (do
      let it ← src.iter
      match ← body c z with
      | .stop c' => pure c'
      | .next c' => Prod.fst <$> src.loop (scanBody f body) it (c', z)) := scan_forLoop f z src body c

/-- `for x in skip(n, src): body` is `for i, x in enumerate(src): if i >= n: body`. -/
theorem C22_skip (n : Int) (src : Iterable σ α S) (body : C → α → PyD σ (Flow C)) (c : C) :
    (Seq.skip n src).forLoop body c = Prod.snd <$> src.forLoop (skipBody n body) (0, c) := skip_forLoop n src body c

/-- `for x in take(n, src): body` is `for x in src: body`, broken off right after the `n`-th element. -/
theorem C22_take (n : Nat) (hn : 0 < n) (src : Iterable σ α S) (body : C → α → PyD σ (Flow C)) (c : C) :
    (Seq.take n src).forLoop body c = Prod.snd <$> src.forLoop (takeBody n body) (0, c) := take_forLoop n hn src body c

/-- Taking no elements does not even start the source. -/
theorem C22_take_none (n : Int) (hn : n ≤ 0) (src : Iterable σ α S) (body : C → α → PyD σ (Flow C)) (c : C) :
    (Seq.take n src).forLoop body c = pure c := take_zero_forLoop n hn src body c

/-- `for xy in zip(src1, src2): body` is `for x in src1`, pulling one element of `src2` right after `x`. -/
theorem C22_zip (src1 : Iterable σ α S) (src2 : Iterable σ β T) (body : C → α × β → PyD σ (Flow C)) (c : C) :
    (Seq.zip src1 src2).forLoop body c = (do
      let it1 ← src1.iter
      let it2 ← src2.iter
      Prod.fst <$> src1.loop (zipBody src2 body) it1 (c, it2)) := zip_forLoop src1 src2 body c

/-- `for xy in pairwise(src): body` is `for x in src`, with `body` on the previous and the current element. -/
theorem C22_pairwise (src : Iterable σ α S) (body : C → α × α → PyD σ (Flow C)) (c : C) :
    (Seq.pairwise src).forLoop body c = Prod.fst <$> src.forLoop (pairBody body) (c, none) := pairwise_forLoop src body c

/-- `for x in delay(g): body` calls `g` when the loop starts. -/
theorem C22_delay (g : PyD σ (Iterable σ α T)) (body : C → α → PyD σ (Flow C)) (c : C) :
    (Seq.delay g).forLoop body c = (do
      let it ← g
      it.forLoop body c) := delay_forLoop g body c

/-- Number of times `list(take(n, src))` asks the source for an element: never more than `n`, whatever happens; and when it
returns `ys`, either `n` elements were there and it asked `n` times, or fewer were and it asked once more to find that out. -/
theorem C22_take_pulls (n : Nat) (src : Iterable σ α S) (w w' : σ) (k k' : Nat) (r : Except PyErr (List α))
    (h : (toList (Seq.take n (counted src))).exec (w, k) = some (r, (w', k'))) :
    k' ≤ k + n ∧ ∀ ys, r = .ok ys →
      (ys.length = n ∧ k' = k + n) ∨ (ys.length < n ∧ k' = k + ys.length + 1) := take_count n src w w' k k' r h

/-- two elements of an infinite sequence: the callback runs twice, interleaved with the consumer -/
example : (toList (Seq.take 2 (Seq.map (fun x => (do modify (· ++ [x]); pure (x * x) : PyD (List Nat) Nat))
    (Seq.initInfinite (fun i => pure (i + 3)))))).exec [] = some (.ok [9, 16], [3, 4]) := by
  rw [toList, show (2 : Int) = ((2 : Nat) : Int) from rfl, take_forLoop 2 (by decide), map_forLoop]
  simp only [forLoop]
  change exec (Prod.snd <$> loop _ _ 0 _) _ = _
  rw [loop_eq]
  change exec (Prod.snd <$> loop (Seq.initInfinite (fun i => pure (i + 3))) _ 1 _) [3] = _
  rw [loop_eq]
  rfl

/-- the source of the first example, counted: the hypothesis of `C22_take_pulls` holds -/
example : (toList (Seq.take 3 (counted (ofList [7, 8] : Iterable Unit Nat _)))).exec ((), 0) =
    some (.ok [7, 8], ((), 3)) := by
  rw [toList, show (3 : Int) = ((3 : Nat) : Int) from rfl, take_forLoop 3 (by decide)]
  change exec (Prod.snd <$> loop _ _ [7, 8] _) _ = _
  rw [loop_eq]
  change exec (Prod.snd <$> loop (counted (ofList [7, 8])) _ [8] (1, [7])) ((), 1) = _
  rw [loop_eq]
  change exec (Prod.snd <$> loop (counted (ofList [7, 8])) _ [] (2, [7, 8])) ((), 2) = _
  rw [loop_eq]
  rfl

/-! ## C23 searching -/

/-- `head` starts the source, pulls one element and returns it, or raises `ValueError`. -/
theorem C23_head (src : Iterable σ α S) :
    Seq.head src = (do
      let it ← src.iter
      match ← src.next it with
      | some (x, _) => pure x
      | none => PyD.raise (.valueError "Sequence contains no elements")) := by
  rw [Seq.head, forLoop, bind_assoc]
  refine bind_congr fun s => ?_
  rw [loop_eq, bind_assoc]
  refine bind_congr fun o => ?_
  rcases o with _ | ⟨x, s'⟩ <;> rfl

/-- `try_find_index` ends exactly in these ways: after `n` misses, each tested right after it was pulled, the source raised; or it
was exhausted, and the answer is `Nothing`; or the predicate raised; or the predicate said yes, and the answer is `Some(n)` with
nothing evaluated after that. -/
theorem C23_try_find_index (p : α → PyD σ Bool) (src : Iterable σ α S) (w w0 : σ) (s : S) (r : Except PyErr (Option Nat))
    (w' : σ) (hs : src.iter.exec w = some (.ok s, w0)) :
    (Seq.tryFindIndex p src).exec w = some (r, w') ↔
      ∃ n s1 w1, Skips src (fun x v v' => (p x).exec v = some (.ok false, v')) s w0 n s1 w1 ∧
        ((∃ e, (src.next s1).exec w1 = some (.error e, w') ∧ r = .error e) ∨
         ((src.next s1).exec w1 = some (.ok none, w') ∧ r = .ok none) ∨
         (∃ x s2 w2, (src.next s1).exec w1 = some (.ok (some (x, s2)), w2) ∧
           ((∃ e, (p x).exec w2 = some (.error e, w') ∧ r = .error e) ∨
            ((p x).exec w2 = some (.ok true, w') ∧ r = .ok (some n))))) :=
  tryFindIndex_iff p src w w0 s r w' hs

/-- The same for `try_pick`. -/
theorem C23_try_pick (f : α → PyD σ (Option β)) (src : Iterable σ α S) (w w0 : σ) (s : S) (r : Except PyErr (Option β))
    (w' : σ) (hs : src.iter.exec w = some (.ok s, w0)) :
    (Seq.tryPick f src).exec w = some (r, w') ↔
      ∃ n s1 w1, Skips src (fun x v v' => (f x).exec v = some (.ok none, v')) s w0 n s1 w1 ∧
        ((∃ e, (src.next s1).exec w1 = some (.error e, w') ∧ r = .error e) ∨
         ((src.next s1).exec w1 = some (.ok none, w') ∧ r = .ok none) ∨
         (∃ x s2 w2, (src.next s1).exec w1 = some (.ok (some (x, s2)), w2) ∧
           ((∃ e, (f x).exec w2 = some (.error e, w') ∧ r = .error e) ∨
            (∃ y, (f x).exec w2 = some (.ok (some y), w') ∧ r = .ok (some y))))) :=
  tryPick_iff f src w w0 s r w' hs

/-- The result on an infinite sequence: the first number from 5 up whose square exceeds 40 is at index 2. -/
example : (Seq.tryFindIndex (fun x => (pure (decide (x * x > 40)) : PyD Unit Bool))
    (Seq.initInfinite (fun i => pure (i + 5)))).exec () = some (.ok (some 2), ()) :=
  (C23_try_find_index _ _ () () 0 _ () rfl).2
    ⟨2, 2, (), .succ (x := 5) (s1 := 1) rfl rfl (.succ (x := 6) (s1 := 2) rfl rfl .zero),
      .inr (.inr ⟨7, 3, (), rfl, .inr ⟨rfl, rfl⟩⟩)⟩

/-! ## C24 iterating again -/

/-- An object such as `filter`, `scan`, `zip` or `unfold` return, over the source `it` started in state `s`: the elements that
two consecutive `list(...)` give. -/
def listTwice (it : Iterable σ α S) : PyD (σ × Option S) (List α × List α) := do
  let xs ← (Seq.oneShot it).toList
  let ys ← (Seq.oneShot it).toList
  pure (xs, ys)

/-- The full property for `filter` over a list: the second time gives what the first did. -/
def C24_full_statement : Prop :=
  ∀ (p : Nat → Bool) (xs first second : List Nat) (w' : Unit × Option (List Nat)),
    (listTwice (Seq.filter (fun x => (pure (p x) : PyD Unit Bool)) (ofList xs))).exec ((), some xs) =
      some (.ok (first, second), w') → first = second

/-- Whatever a one-shot object is made of: once `list(...)` of it has returned, the next one gives the empty list. -/
theorem C24_oneshot_second_empty (it : Iterable σ α S) (w w' : σ × Option S) (first second : List α)
    (h : (listTwice it).exec w = some (.ok (first, second), w')) : second = [] := by
  rcases exec_bind_some h with ⟨e, _, h2⟩ | ⟨xs, w1, h1, h2⟩
  · cases h2
  · have hn := oneShot_loop_none it [] w _ (by
      change exec (pure () >>= fun s => loop (Seq.oneShot it) _ s []) w = _ at h1
      rw [pure_bind] at h1; exact h1)
    rcases w1 with ⟨w1, o⟩
    simp only at hn
    subst hn
    rw [exec_bind, oneShot_exhausted] at h2
    simp only [exec_pure, Option.some.injEq, Prod.mk.injEq, Except.ok.injEq] at h2
    exact h2.1.2.symm

/-- It is false: `filter` returns an iterator (so do `scan`, `zip` and `unfold`). -/
theorem C24_full_statement_false : ¬ C24_full_statement := by
  intro h
  have h1 : (listTwice (Seq.filter (fun x => (pure (decide (x = 1)) : PyD Unit Bool)) (ofList [1]))).exec ((), some [1]) =
      some (.ok ([1], []), ((), none)) := by
    have e1 : (Seq.oneShot (Seq.filter (fun x => (pure (decide (x = 1)) : PyD Unit Bool)) (ofList [1]))).toList.exec
        ((), some [1]) = some (.ok [1], ((), none)) := by
      rw [toList, forLoop]
      change exec (loop _ _ () _) _ = _
      rw [loop_eq, exec_bind, oneShot_next]
      simp only [Seq.filter]
      rw [Seq.filterNext]
      change exec (loop _ _ () [1]) ((), some []) = _
      rw [loop_eq, exec_bind, oneShot_next]
      simp only
      rw [Seq.filterNext]
      rfl
    rw [listTwice, exec_bind, e1]
    simp only
    rw [exec_bind, oneShot_exhausted]
    rfl
  exact absurd (h (fun x => decide (x = 1)) [1] [1] [] _ h1) (by decide)

/-- Proved: the other combinators, with callbacks that depend on nothing else, turn re-iterable sources into re-iterable
sequences; and so does every composition of them. -/
theorem C24_reiterable_partial :
    (∀ xs : List α, Repeatable (ofList xs : Iterable σ α _)) ∧
    (∀ f : Nat → PyD σ α, (∀ i, Const (f i)) → Repeatable (Seq.initInfinite f)) ∧
    (∀ (f : α → PyD σ β) (src : Iterable σ α S), (∀ x, Const (f x)) → Repeatable src → Repeatable (Seq.map f src)) ∧
    (∀ (f : α → PyD σ (Option β)) (src : Iterable σ α S), (∀ x, Const (f x)) → Repeatable src →
      Repeatable (Seq.choose f src)) ∧
    (∀ (m : α → PyD σ (Iterable σ β T)) (src : Iterable σ α S), (∀ x, Const (m x)) →
      (∀ x w it w', (m x).exec w = some (.ok it, w') → Repeatable it) → Repeatable src → Repeatable (Seq.collect m src)) ∧
    (∀ its : List (Iterable σ α T), (∀ it ∈ its, Repeatable it) → Repeatable (Seq.concat its)) ∧
    (∀ (n : Int) (src : Iterable σ α S), Repeatable src → Repeatable (Seq.skip n src)) ∧
    (∀ (n : Int) (src : Iterable σ α S), Repeatable src → Repeatable (Seq.take n src)) ∧
    (∀ src : Iterable σ α S, Repeatable src → Repeatable (Seq.pairwise src)) ∧
    (∀ g : PyD σ (Iterable σ α T), Const g → (∀ w it w', g.exec w = some (.ok it, w') → Repeatable it) →
      Repeatable (Seq.delay g)) :=
  ⟨repeatable_ofList, fun _ => repeatable_initInfinite, fun _ _ hf hs => repeatable_map hf hs,
    fun _ _ hf hs => repeatable_choose hf hs, fun _ _ h1 h2 hs => repeatable_collect h1 h2 hs,
    fun _ => repeatable_concat, fun n _ => repeatable_skip n, fun n _ => repeatable_take n,
    fun _ => repeatable_pairwise, fun _ h1 h2 => repeatable_delay h1 h2⟩

/-- What re-iterable means for `list(...)`: two in a row give the same elements, and change nothing. -/
theorem C24_same_elements_partial (it : Iterable σ α S) (hit : Repeatable it) (w w' : σ) (xs : List α)
    (h : it.toList.exec w = some (.ok xs, w')) : w' = w ∧ it.toList.exec w' = some (.ok xs, w') := by
  obtain ⟨h1, h2⟩ := (hit _ _ _ (fun c x => Const.pure _) : Const it.toList).apply h
  exact ⟨h1, h2 w'⟩

/-- a composition over a list -/
example : Repeatable (Seq.take 3 (Seq.skip 1 (Seq.map (fun x => (pure (x + 1) : PyD Nat Nat)) (ofList [1, 2, 3])))) :=
  repeatable_take 3 (repeatable_skip 1 (repeatable_map (fun _ => Const.pure _) (repeatable_ofList _)))

/-! ## C25 scan and folds -/

/-- `list(scan(f, z, xs))` is `z` and the state after each element, `f` having its effects in order. -/
theorem C25_scan_states (f : γ → α → PyD σ γ) (z : γ) (xs : List α) :
    (Seq.scan f z (ofList xs)).toList = foldStates f z xs := scan_list f z xs

/-- The last element of the scan of any sequence is its fold: same value, same effects, same exceptions. -/
theorem C25_scan_last (f : γ → α → PyD σ γ) (z : γ) (src : Iterable σ α S) :
    List.getLast? <$> (Seq.scan f z src).toList = some <$> Seq.fold f z src := scan_fold f z src

/-- The scan of any sequence has one element more than the sequence: it has as many as `f` was called, plus one. -/
theorem C25_scan_length (f : γ → α → PyD σ γ) (z : γ) (src : Iterable σ α S) :
    (fun ys : List γ => (ys.getLast?, ys.length)) <$> (Seq.scan f z src).toList =
      (fun t : γ × Nat => (some t.1, t.2)) <$> Seq.fold (fun t x => do pure (← f t.1 x, t.2 + 1)) (z, 1) src :=
  scan_fold_count f z src

/-- `fold` combines the elements from the left, `fold_back` from the right. -/
theorem C25_folds (f : β → α → PyD σ β) (g : α → β → PyD σ β) (s : β) (xs : List α) (src : Iterable σ α S) :
    Seq.fold f s (ofList xs) = foldLeftD f s xs ∧
    Seq.foldBack g src s = (do let xs ← src.toList; foldRight g xs s) :=
  ⟨fold_list f s xs, foldBack_eq g src s⟩

/-- `fold_back(f, s)` is `fold` of the flipped function over the reversed sequence. -/
theorem C25_fold_back_reversed (g : α → β → PyD σ β) (s : β) (xs : List α) :
    Seq.foldBack g (ofList xs) s = Seq.fold (fun acc x => g x acc) s (ofList xs.reverse) := by
  rw [foldBack_eq, toList_ofList, pure_bind, fold_list, foldRight_reverse]

example : (Seq.scan (fun a x => (pure (a + x) : PyD Unit Nat)) 0 (ofList [1, 2, 3])).toList.exec () =
    some (.ok [0, 1, 3, 6], ()) := by
  rw [C25_scan_states]; rfl

example : (Seq.foldBack (fun x a => (pure (x - a) : PyD Unit Int)) (ofList [10, 3, 1]) 0).exec () = some (.ok 8, ()) := by
  rw [foldBack_eq, toList_ofList]; rfl

/-! ## C59 the method `Seq.collect` -/

/-- The full property: `xs.collect(m)` can replace `seq.collect(m)(xs)`. -/
def C59_full_statement : Prop :=
  ∀ (m : Nat → PyD Unit (Iterable Unit Nat (List Nat))) (src : Iterable Unit Nat Nat) (body : Nat → Nat → PyD Unit (Flow Nat))
    (c : Nat), (Seq.collectMethod m src >>= fun it => it.forLoop body c) = (Seq.collect m src).forLoop body c

/-- It is false: the method consumes its whole source before it returns. -/
theorem C59_full_statement_false : ¬ C59_full_statement := by
  intro h
  have h1 := h (fun x => pure (ofList [x])) (Seq.initInfinite (fun i => pure i)) (fun _ x => pure (.stop x)) 7
  have h2 : ((Seq.collect (fun x => (pure (ofList [x]) : PyD Unit (Iterable Unit Nat (List Nat))))
      (Seq.initInfinite (fun i => pure i))).forLoop (fun _ x => pure (.stop x)) 7).exec () = some (.ok 0, ()) := by
    rw [collect_forLoop]
    change exec (loop (Seq.initInfinite fun i => pure i) _ 0 7) () = _
    rw [loop_eq]
    simp only [Seq.initInfinite, pure_bind, step_some, collectBody, nested_eq, ofList]
    rw [loop_eq]
    rfl
  rw [← h1, exec_bind] at h2
  have h3 : exec (Seq.collectMethod (fun x => (pure (ofList [x]) : PyD Unit (Iterable Unit Nat (List Nat))))
      (Seq.initInfinite (fun i => pure i))) () = none := by
    rw [Seq.collectMethod, exec_bind]
    rw [show exec (toList (Seq.map (fun x => (pure (ofList [x]) : PyD Unit (Iterable Unit Nat (List Nat))))
      (Seq.initInfinite (fun i => pure i)))) () = none from ?_]
    rw [toList, map_forLoop]
    change exec (loop _ _ 0 []) () = none
    exact loop_infinite (fun i => i) _ (fun c x => ⟨_, rfl⟩) 0 [] ()
  rw [h3] at h2
  cases h2

/-- Proved: it can on a finite collection, with callbacks that have no effects. -/
theorem C59_collect_method_partial (g : α → Iterable σ β T) (xs : List α) (body : C → β → PyD σ (Flow C)) (c : C) :
    (Seq.collectMethod (fun x => pure (g x)) (ofList xs) >>= fun it => it.forLoop body c) =
      (Seq.collect (fun x => pure (g x)) (ofList xs)).forLoop body c := by
  rw [Seq.collectMethod, map_list_pure, pure_bind, pure_bind, Seq.concat, collect_forLoop, collect_forLoop]
  change (loop (ofList (xs.map g)) _ (xs.map g) c) = loop (ofList xs) _ xs c
  exact loop_list_map g _ xs xs _ _ (fun c x => by simp [collectBody]) c

/-- Exactly what the method does, for every source and callback: first it goes through the whole source and calls the function on every element, then the consumer loops over
the results one after the other. -/
theorem C59_eager_partial (m : α → PyD σ (Iterable σ β T)) (src : Iterable σ α S) (body : C → β → PyD σ (Flow C)) (c : C) :
    (Seq.collectMethod m src >>= fun it => it.forLoop body c) = (do
      let its ← src.forLoop (fun got x => do pure (.next (got ++ [← m x]))) []
      (ofList its).forLoop (fun c it => nested it body c) c) := by
  rw [Seq.collectMethod, toList, map_forLoop, bind_assoc]
  refine bind_congr fun its => ?_
  rw [pure_bind, Seq.concat, collect_forLoop]
  congr 1

example : (Seq.collectMethod (fun x => (pure (ofList [x, x]) : PyD Unit _)) (ofList [1, 2]) >>=
    fun it => it.forLoop (fun n x => pure (.next (n + x))) 0).exec () = some (.ok 6, ()) := by
  rw [C59_collect_method_partial, collect_forLoop]
  change exec (loop _ _ [1, 2] 0) () = _
  rw [loop_ofList_cons, collectBody, pure_bind, nested_eq]
  change exec (loop _ _ [1, 1] _ >>= _) () = _
  rw [loop_ofList_cons]
  simp only [nestedBody, pure_bind, cont_next, Flow.get, loop_ofList_cons, loop_ofList_nil, collectBody, nested_eq]
  change exec (loop _ _ [2, 2] _ >>= _) () = _
  simp only [nestedBody, pure_bind, cont_next, Flow.get, loop_ofList_cons, loop_ofList_nil]
  rfl

end Expression.Props
