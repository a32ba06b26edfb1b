import Verif.Lemmas.AsyncSeq2
import Verif.Props.Seq

/-!
# C57, C58, C73, C74: asynchronous sequences

`forLoop it body c` is `async for x in it: body`; `toList` is `[x async for x in it]`.
-/

namespace Expression.Props

open Iterable PyD Spec Lemmas

variable {σ α β γ S T C : Type}

/-! ## C57 the operations are the list operations -/

/-- For every source, whatever effects it has: the elements of the result are those of the list operation, applied to the
elements of the source.  The source may also raise, or go on for ever; then so does the result. -/
theorem C57_elements (f : α → β) (p : α → Bool) (g : α → Option β) (m : α → List β) (n : Int) (src : Iterable σ α S) :
    (AsyncSeq.map (fun x => pure (f x)) src).toList = List.map f <$> src.toList ∧
    (AsyncSeq.filter (fun x => pure (p x)) src).toList = List.filter p <$> src.toList ∧
    (AsyncSeq.choose (fun x => pure (g x)) src).toList = List.filterMap g <$> src.toList ∧
    (AsyncSeq.collect (fun x => pure (ofList (m x))) src).toList = List.flatMap m <$> src.toList ∧
    (AsyncSeq.skip n src).toList = List.drop n.toNat <$> src.toList ∧
    (AsyncSeq.tail src).toList = List.tail <$> src.toList ∧
    AsyncSeq.length src = List.length <$> src.toList :=
  ⟨amap_toList f src, afilter_toList p src, achoose_toList g src, acollect_toList m src, askip_toList n src, atail_toList src,
    length_eq src⟩

/-- `append`: the elements of the source, then those of the other, which is started when the source is used up. -/
theorem C57_append (other : Iterable σ α T) (src : Iterable σ α S) :
    (AsyncSeq.append other src).toList = (do
      let xs ← src.toList
      let ys ← other.toList
      pure (xs ++ ys)) := append_toList other src

/-- `take` and `concat`; `take` need not run the source to its end, so the source is a list here (`C57_take` has all sources). -/
theorem C57_take_concat (n : Int) (xs : List α) (its : List (List α)) :
    (AsyncSeq.take n (ofList xs : Iterable σ α _)).toList = pure (xs.take n.toNat) ∧
    (AsyncSeq.concat (ofList (its.map (fun xs => (ofList xs : Iterable σ α _))))).toList = pure its.flatten :=
  ⟨atake_list n xs, concat_toList its⟩

/-- The folds, with functions that may have effects and raise. -/
theorem C57_folds (f : β → α → PyD σ β) (g : α → β → PyD σ β) (plus : α → α → PyD σ α) (zero : α) (s : β) (xs : List α)
    (src : Iterable σ α S) :
    AsyncSeq.fold f s (ofList xs) = foldLeftD f s xs ∧
    AsyncSeq.foldBack g s src = (do let xs ← src.toList; foldRight g xs s) ∧
    AsyncSeq.sum plus zero (ofList xs) = foldLeftD plus zero xs ∧
    (AsyncSeq.scan f s (ofList xs)).toList = foldStates f s xs ∧
    List.getLast? <$> (AsyncSeq.scan f s src).toList = some <$> AsyncSeq.fold f s src :=
  ⟨fold_list f s xs, foldBack_eq g src s, fold_list plus zero xs, ascan_list f s xs, by
    rw [ascan_seq, fold_seq, scan_fold]⟩

/-- For every source, a fold with a function that only computes is the fold of the list of its elements. -/
theorem C57_fold_elements (f : β → α → β) (s : β) (src : Iterable σ α S) :
    AsyncSeq.fold (fun acc x => pure (f acc x)) s src = (fun xs => xs.foldl f s) <$> src.toList := by
  rw [AsyncSeq.fold, forLoop_pure' f _ (fun c x => by simp)]

/-- `max` and `min`: `ValueError` when there are no elements, otherwise the first of the greatest or smallest ones. -/
theorem C57_max_min [PyOrd α] [LawfulPyOrd α] (src : Iterable σ α S) (w w' : σ) (xs : List α)
    (h : src.toList.exec w = some (.ok xs, w')) :
    (xs = [] → (AsyncSeq.max (fun x y => PyOrd.lt y x) src).exec w =
        some (.error (.valueError "Sequence contains no elements"), w') ∧
      (AsyncSeq.max PyOrd.lt src).exec w = some (.error (.valueError "Sequence contains no elements"), w')) ∧
    (xs ≠ [] → (∃ m, (AsyncSeq.max (fun x y => PyOrd.lt y x) src).exec w = some (.ok m, w') ∧
        FirstGreatest (fun x y => PyOrd.lt y x) xs m) ∧
      ∃ m, (AsyncSeq.max PyOrd.lt src).exec w = some (.ok m, w') ∧ FirstGreatest PyOrd.lt xs m) := by
  rw [AsyncSeq.max, AsyncSeq.max, exec_bind, exec_bind, h]
  cases xs with
  | nil => exact ⟨fun _ => ⟨rfl, rfl⟩, fun h => absurd rfl h⟩
  | cons x xs =>
    refine ⟨fun h => (by cases h), fun _ => ⟨⟨_, rfl, ?_⟩, ⟨_, rfl, ?_⟩⟩⟩
    · exact builtinsMax_spec _ (fun a b h => pyLt_asymm b a h) (fun a b c h1 h2 => pyLt_neg c b a h2 h1) x xs
    · exact builtinsMax_spec _ (fun a b h => pyLt_asymm a b h) (fun a b c h1 h2 => pyLt_neg a b c h1 h2) x xs

/-- `head` starts the source, takes one element and returns it, or raises `ValueError`. -/
theorem C57_head (src : Iterable σ α S) :
    AsyncSeq.head src = (do
      let it ← src.iter
      match ← src.next it with
      | some (x, _) => pure x
      | none => PyD.raise (.valueError "Sequence contains no elements")) := C23_head src

/-- Nothing is computed ahead of the consumer, and the callbacks may have effects: a loop over the result is this loop over the
source. -/
theorem C57_lazy (f : α → PyD σ β) (p : α → PyD σ Bool) (g : α → PyD σ (Option β)) (m : α → PyD σ (Iterable σ β T)) (n : Int)
    (src : Iterable σ α S) (body : C → β → PyD σ (Flow C)) (bodyA : C → α → PyD σ (Flow C)) (c : C) :
    (AsyncSeq.map f src).forLoop body c = src.forLoop (mapBody f body) c ∧
    (AsyncSeq.filter p src).forLoop bodyA c = src.forLoop (filterBody p bodyA) c ∧
    (AsyncSeq.choose g src).forLoop body c = src.forLoop (chooseBody g body) c ∧
    (AsyncSeq.collect m src).forLoop body c = src.forLoop (collectBody m body) c ∧
    (AsyncSeq.skip n src).forLoop bodyA c = Prod.snd <$> src.forLoop (skipBody n bodyA) (0, c) :=
  ⟨amap_forLoop f src body c, afilter_forLoop p src bodyA c, achoose_forLoop g src body c, acollect_forLoop m src body c,
    askip_forLoop n src bodyA c⟩

/-- The same for `take`. -/
theorem C57_take (n : Int) (src : Iterable σ α S) (body : C → α → PyD σ (Flow C)) (c : C) :
    (AsyncSeq.take n src).forLoop body c = Prod.snd <$> src.forLoop (takeLateBody n body) (0, c) := atake_forLoop n src body c

/-- The same for `scan`: the initial state is delivered before the source is started. -/
theorem C57_scan (f : γ → α → PyD σ γ) (z : γ) (src : Iterable σ α S) (body : C → γ → PyD σ (Flow C)) (c : C) :
    (AsyncSeq.scan f z src).forLoop body c = (do
      match ← body c z with
      | .stop c' => pure c'
      | .next c' => Prod.fst <$> src.forLoop (scanBody f body) (c', z)) := ascan_forLoop f z src body c

/-- The same for `append`: a loop over the source and, unless that was left by `break`, a loop over the other. -/
theorem C57_append_lazy (other : Iterable σ α T) (src : Iterable σ α S) (body : C → α → PyD σ (Flow C)) (c : C) :
    (AsyncSeq.append other src).forLoop body c = (do
      match ← nested src body c with
      | .stop c' => pure c'
      | .next c' => other.forLoop body c') := by
  rw [append_forLoop]
  refine bind_congr fun fl => ?_
  cases fl <;> rfl

example : (AsyncSeq.skip 1 (AsyncSeq.filter (fun x => pure (decide (x > 2))) (ofList [1, 5, 2, 7, 3] : Iterable Unit Nat _))
    ).toList = pure [7, 3] := by
  rw [askip_toList, afilter_toList, toList_ofList]; rfl

example : FirstGreatest (fun x y => PyOrd.lt y x) [2, 7, 1, 7] (7 : Int) :=
  ⟨[2], [1, 7], rfl, by decide, by decide⟩

/-! ## C58 take and its source -/

/-- The full property: `take(n)` asks its source for at most `n` elements. -/
def C58_full_statement : Prop :=
  ∀ (n : Nat) (xs ys : List Nat) (k k' : Nat),
    (toList (AsyncSeq.take n (counted (ofList xs : Iterable Unit Nat _)))).exec ((), k) = some (.ok ys, ((), k')) → k' ≤ k + n

/-- It asks for `n + 1`. -/
theorem C58_full_statement_false : ¬ C58_full_statement := by
  intro h
  refine absurd (h 2 [7, 8, 9] [7, 8] 0 3 ?_) (by decide)
  rw [toList, atake_forLoop]
  change exec (Prod.snd <$> loop _ _ [7, 8, 9] _) _ = _
  rw [loop_eq]
  change exec (Prod.snd <$> loop (counted (ofList [7, 8, 9])) _ [8, 9] (1, [7])) ((), 1) = _
  rw [loop_eq]
  change exec (Prod.snd <$> loop (counted (ofList [7, 8, 9])) _ [9] (2, [7, 8])) ((), 2) = _
  rw [loop_eq]
  rfl

/-- Proved: it delivers at most `n` elements and never asks for more than `n + 1`; when it comes to its end it has asked exactly
once more than it delivered. -/
theorem C58_take_pulls_partial (n : Nat) (src : Iterable σ α S) (w w' : σ) (k k' : Nat) (r : Except PyErr (List α))
    (h : (toList (AsyncSeq.take n (counted src))).exec (w, k) = some (r, (w', k'))) :
    k' ≤ k + n + 1 ∧ ∀ ys, r = .ok ys → ys.length ≤ n ∧ k' = k + ys.length + 1 := atake_count n src w w' k k' r h

/-- Even `take(0)` waits for an element. -/
theorem C58_take_zero (src : Iterable σ α S) (body : C → α → PyD σ (Flow C)) (c : C) :
    (AsyncSeq.take 0 src).forLoop body c = (do
      let it ← src.iter
      let _ ← src.next it
      pure c) := by
  rw [atake_forLoop, forLoop, map_bind]
  refine bind_congr fun s => ?_
  rw [loop_eq, map_bind]
  refine bind_congr fun o => ?_
  rcases o with _ | ⟨x, s'⟩
  · simp
  · simp [takeLateBody]

/-- two elements of three are taken, and all three are asked for -/
example : (toList (AsyncSeq.take 2 (counted (ofList [7, 8, 9] : Iterable Unit Nat _)))).exec ((), 0) = some (.ok [7, 8], ((), 3)) := by
  rw [toList, atake_forLoop]
  change exec (Prod.snd <$> loop _ _ [7, 8, 9] _) _ = _
  rw [loop_eq]
  change exec (Prod.snd <$> loop (counted (ofList [7, 8, 9])) _ [8, 9] (1, [7])) ((), 1) = _
  rw [loop_eq]
  change exec (Prod.snd <$> loop (counted (ofList [7, 8, 9])) _ [9] (2, [7, 8])) ((), 2) = _
  rw [loop_eq]
  rfl

/-! ## C73 sources -/

/-- The full property of `repeat`: `times` copies, and any number of copies when `times` is left out. -/
def C73_full_statement : Prop :=
  ∀ (v : Nat) (n : Nat),
    (AsyncSeq.repeat v (some n) : Iterable Unit Nat _).toList = pure (List.replicate n v) ∧
    (AsyncSeq.take n (AsyncSeq.repeat v none : Iterable Unit Nat _)).toList = pure (List.replicate n v)

/-- Without `times` there is nothing. -/
theorem C73_full_statement_false : ¬ C73_full_statement := by
  intro h
  have := (h 7 1).2
  rw [AsyncSeq.repeat, atake_list] at this
  have e := congrArg (fun p => exec p ()) this
  exact absurd e (by decide)

/-- Proved: `times` copies; none when `times` is negative or left out; `range` has the elements of the builtin, and raises what
it raises when the loop starts; `empty` has none. -/
theorem C73_sources_partial (v : α) (n : Int) (start stop step : Int) (body : C → Int → PyD σ (Flow C)) (c : C) :
    (AsyncSeq.repeat v (some n) : Iterable σ α _).toList = pure (List.replicate n.toNat v) ∧
    (AsyncSeq.repeat v none : Iterable σ α _).toList = pure [] ∧
    (AsyncSeq.empty : Iterable σ α _).toList = pure [] ∧
    (step = 0 → (AsyncSeq.range start stop step).forLoop body c =
      raise (.valueError "range() arg 3 must not be zero")) ∧
    (step ≠ 0 → ∃ ys, RangeElements start stop step ys ∧
      (AsyncSeq.range start stop step).forLoop body c = (ofList ys).forLoop body c) := by
  refine ⟨toList_ofList _, toList_ofList _, toList_ofList _, ?_, ?_⟩
  · rintro rfl
    rw [arange_forLoop, Builtins.range, if_pos rfl]
  · intro hs
    obtain ⟨ys, h1, h2⟩ := range_elements start stop step hs
    refine ⟨ys, h2, ?_⟩
    rw [arange_forLoop, h1]

example : RangeElements 10 3 (-3) [10, 7, 4] := by
  obtain ⟨ys, h1, h2⟩ := range_elements 10 3 (-3) (by decide)
  have : Builtins.range 10 3 (-3) = .ok [10, 7, 4] := by decide
  rw [this] at h1
  cases h1
  exact h2

/-! ## C74 iterating again -/

/-- The full property, for `repeat`: the second loop sees what the first one saw. -/
def C74_full_statement : Prop :=
  ∀ (v n : Nat) (first second : List Nat) (w' : Unit × Option (List Nat)),
    (listTwice (AsyncSeq.repeat v (some (n : Int)))).exec ((), some (List.replicate n v)) = some (.ok (first, second), w') →
      first = second

/-- All the operations and sources give generator objects: whatever the sequence, once it has been run to its end a second loop
sees nothing. -/
theorem C74_second_empty (it : Iterable σ α S) (w w' : σ × Option S) (first second : List α)
    (h : (listTwice it).exec w = some (.ok (first, second), w')) : second = [] := C24_oneshot_second_empty it w w' first second h

theorem C74_full_statement_false : ¬ C74_full_statement := by
  intro h
  have h1 : (listTwice (AsyncSeq.repeat 5 (some ((1 : Nat) : Int)))).exec ((), some [5]) =
      some (.ok ([5], []), ((), none)) := by
    have e1 : (Seq.oneShot (AsyncSeq.repeat 5 (some ((1 : Nat) : Int)) : Iterable Unit Nat _)).toList.exec
        ((), some [5]) = some (.ok [5], ((), none)) := by
      rw [toList, forLoop]
      change exec (loop _ _ () _) _ = _
      rw [loop_eq]
      change exec (loop _ _ () [5]) ((), some []) = _
      rw [loop_eq]
      rfl
    rw [listTwice, exec_bind, e1]
    simp only
    rw [exec_bind, oneShot_exhausted]
    rfl
  exact absurd (h 5 1 [5] [] _ h1) (by decide)

/-- Proved: `AsyncSeq(xs)` of a re-iterable `xs` is re-iterable, as `__aiter__` asks `xs` anew; so its folds give the same
whenever they are run, and change nothing. -/
theorem C74_reiterable_partial (it : Iterable σ α S) (hit : Repeatable it) (f : β → α → PyD σ β) (hf : ∀ s x, Const (f s x))
    (g : α → β → PyD σ β) (hg : ∀ s x, Const (g s x)) (s : β) :
    Const (AsyncSeq.fold f s it) ∧ Const (AsyncSeq.foldBack g s it) ∧ Const (AsyncSeq.length it) ∧
      Const (AsyncSeq.head it) ∧ (∀ gt, Const (AsyncSeq.max gt it)) := by
  have hl : Const it.toList := hit _ _ _ (fun c x => Const.pure _)
  refine ⟨hit _ _ _ (fun c x => (hf c x).bind fun _ => Const.pure _), ?_, hit _ _ _ (fun c x => Const.pure _), ?_, ?_⟩
  · refine hl.bind fun xs => ?_
    exact repeatable_ofList _ _ _ _ (fun c x => (hg x c).bind fun _ => Const.pure _)
  · refine (hit _ _ _ (fun c x => Const.pure _)).bind fun o => ?_
    cases o
    · exact Const.raise _
    · exact Const.pure _
  · intro gt
    refine hl.bind fun xs => ?_
    cases xs
    · exact Const.raise _
    · exact Const.pure _

example : Const (AsyncSeq.length (ofList [1, 2, 3] : Iterable Nat Nat _)) :=
  (C74_reiterable_partial (β := Nat) _ (repeatable_ofList _) (fun _ _ => pure 0) (fun _ _ => Const.pure _) (fun _ _ => pure 0)
    (fun _ _ => Const.pure _) 0).2.2.1

end Expression.Props
