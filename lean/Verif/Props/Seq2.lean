import Verif.Lemmas.Seq3
import Verif.Props.Seq

/-!
# C77, C78 (and a part of C21): consumers of sequences
-/

namespace Expression.Props

open Iterable PyD Spec Lemmas

variable {σ α β γ S T C : Type}

/-- `Block.unfold(g, s)` is the block of what `seq.unfold(g, s)` generates: the two end, raise and diverge together. -/
theorem C21_block_unfold_is_seq_unfold (g : S → Py σ (Option (α × S))) (s : S) (w : σ) :
    Block.unfold g s w = ((Seq.unfold (fun s => PyD.ofPy (g s)) s).toList.exec w).map (fun r => (r.1.map Block.mk, r.2)) :=
  seq_unfold_eq g s w

/-- `for x in concat(its...): body` is `for it in its: for x in it: body`. -/
theorem C22_concat (its : List (Iterable σ α T)) (body : C → α → PyD σ (Flow C)) (c : C) :
    (Seq.concat its).forLoop body c = (ofList its).forLoop (fun c it => nested it body c) c := by
  rw [Seq.concat, collect_forLoop]
  congr 1

/-- The first `n` elements of `init_infinite(f)` are `f(0)`, ..., `f(n-1)`, called in that order and no further. -/
theorem C22_init_infinite (f : Nat → PyD σ α) (n : Nat) :
    (Seq.take n (Seq.initInfinite f)).toList = foldLeftD (fun ys j => (do
      let y ← f j
      pure (ys ++ [y]))) [] (List.range n) := infinite_take f n

example : (Seq.take 3 (Seq.initInfinite (fun i => (pure (i * i) : PyD Unit Nat)))).toList.exec () =
    some (.ok [0, 1, 4], ()) := by
  rw [show (3 : Int) = ((3 : Nat) : Int) from rfl, C22_init_infinite]; rfl

/-! ## C77 whole-sequence consumers -/

/-- `max` and `min` consume the source; `ValueError` when it is empty, otherwise the first of the greatest (smallest) ones. -/
theorem C77_max_min [PyOrd α] [LawfulPyOrd α] (src : Iterable σ α S) (w w' : σ) (xs : List α)
    (h : src.toList.exec w = some (.ok xs, w')) :
    (xs = [] → (∃ m, (Seq.max (fun x y => PyOrd.lt y x) src).exec w = some (.error (.valueError m), w')) ∧
      ∃ m, (Seq.max PyOrd.lt src).exec w = some (.error (.valueError m), w')) ∧
    (xs ≠ [] → (∃ m, (Seq.max (fun x y => PyOrd.lt y x) src).exec w = some (.ok m, w') ∧
        FirstGreatest (fun x y => PyOrd.lt y x) xs m) ∧
      ∃ m, (Seq.max PyOrd.lt src).exec w = some (.ok m, w') ∧ FirstGreatest PyOrd.lt xs m) := by
  rw [seq_max_eq, seq_max_eq, exec_bind, exec_bind, h]
  cases xs with
  | nil => exact ⟨fun _ => ⟨⟨_, rfl⟩, ⟨_, rfl⟩⟩, fun h => absurd rfl h⟩
  | cons x xs =>
    refine ⟨fun h => (by cases h), fun _ => ⟨⟨_, rfl, ?_⟩, ⟨_, rfl, ?_⟩⟩⟩
    · exact builtinsMax_spec _ (fun a b h => pyLt_asymm b a h) (fun a b c h1 h2 => pyLt_neg c b a h2 h1) x xs
    · exact builtinsMax_spec _ (fun a b h => pyLt_asymm a b h) (fun a b c h1 h2 => pyLt_neg a b c h1 h2) x xs

/-- When the source raises or never ends, so do `max` and `min`. -/
theorem C77_max_min_source (gt : α → α → Bool) (src : Iterable σ α S) (w : σ) :
    (src.toList.exec w = none → (Seq.max gt src).exec w = none) ∧
    ∀ e w', src.toList.exec w = some (.error e, w') → (Seq.max gt src).exec w = some (.error e, w') := by
  rw [seq_max_eq, exec_bind]
  exact ⟨fun h => by rw [h], fun e w' h => by rw [h]⟩

/-- `max_by(f)` (and `min_by`) is the `max` of the projections, `f` being called once on each element right after it was pulled:
the list of projections is what the plain loop collects. -/
theorem C77_max_by (gt : β → β → Bool) (f : α → PyD σ β) (src : Iterable σ α S) :
    Seq.maxBy gt f src = (do
      let ys ← src.forLoop (fun (ys : List β) x => (do
        let y ← f x
        pure (.next (ys ++ [y])))) []
      match ys with
      | [] => PyD.raise (.valueError "iterable argument is empty")
      | y :: rest => pure (rest.foldl (fun best y => if gt y best then y else best) y)) := by
  rw [Seq.maxBy, seq_max_eq, toList, map_forLoop]
  have hb : (mapBody f (fun (acc : List β) x => (pure (.next (acc ++ [x])) : PyD σ _))) =
      fun (ys : List β) x => (do
        let y ← f x
        pure (.next (ys ++ [y]))) := rfl
  rw [hb]
  refine bind_congr fun ys => ?_
  cases ys with
  | nil => rfl
  | cons y ys =>
    have : ∀ b, AsyncSeq.builtinsMax gt b ys = ys.foldl (fun best y => if gt y best then y else best) b := by
      induction ys with
      | nil => intro b; rfl
      | cons z zs ih =>
        intro b
        simp only [AsyncSeq.builtinsMax, List.foldl_cons]
        split <;> rw [ih]
    simp only [this]

/-- `sum` adds the elements to 0 from left to right; `sum_by(f)` adds `f(x)` right after pulling `x`. -/
theorem C77_sum (plus : β → β → PyD σ β) (zero : β) (f : α → PyD σ β) (src : Iterable σ α S) (xs : List β) :
    Seq.sum plus zero (ofList xs) = foldLeftD plus zero xs ∧
    Seq.sumBy plus zero f src = src.forLoop (fun acc x => do
      let y ← f x
      let acc' ← plus acc y
      pure (.next acc')) zero := by
  refine ⟨fold_list plus zero xs, ?_⟩
  rw [Seq.sumBy, Seq.sum, Seq.fold, map_forLoop]
  rfl

/-- `length` counts the elements that `list(src)` would hold, with the same effects, exceptions and divergence. -/
theorem C77_length (src : Iterable σ α S) : Seq.length src = List.length <$> src.toList := seq_length_eq src

/-- `iter(action)` runs the action once on each element, in order, each right after it was pulled. -/
theorem C77_iter (action : α → PyD σ Unit) (xs : List α) :
    Seq.iter action (ofList xs) = foldLeftD (fun _ x => action x) () xs := by
  rw [← fold_list]
  rw [Seq.iter, Seq.fold]

/-- `mapi(f)` calls `f(0, x0)`, `f(1, x1)`, ... in order and returns the results in that order. -/
theorem C77_mapi (f : Nat → α → PyD σ β) (xs : List α) :
    Seq.mapi f (ofList xs) = foldLeftD (fun (ys : List β) (p : α × Nat) => do pure (ys ++ [← f p.2 p.1])) [] xs.zipIdx := by
  have key : ∀ (base xs : List α) (n : Nat) (acc : List β),
      (Prod.snd <$> (ofList base : Iterable σ α _).loop (fun (c : Nat × List β) x => do
        let y ← f c.1 x
        pure (.next (c.1 + 1, c.2 ++ [y]))) xs (n, acc)) =
      foldLeftD (fun (ys : List β) (p : α × Nat) => do pure (ys ++ [← f p.2 p.1])) acc (xs.zipIdx n) := by
    intro base xs
    induction xs with
    | nil => intro n acc; rw [loop_ofList_nil]; rfl
    | cons x xs ih =>
      intro n acc
      rw [loop_ofList_cons, bind_assoc, map_bind]
      simp only [List.zipIdx_cons, foldLeftD, bind_assoc, pure_bind, cont_next]
      exact bind_congr fun y => ih (n + 1) (acc ++ [y])
  rw [← key xs xs 0 []]
  rw [Seq.mapi, map_eq_pure_bind]
  rfl

/-- `append(others)(src)` loops over `src` and then over each of the others; `break` leaves all of them. -/
theorem C77_append (others : List (Iterable σ α T)) (src : Iterable σ α T) (body : C → α → PyD σ (Flow C)) (c : C) :
    (Seq.append others src).forLoop body c =
      (ofList (src :: others)).forLoop (fun c it => nested it body c) c := by
  rw [Seq.append, Seq.concat, collect_forLoop]
  congr 1

/-- `tail` loops over all elements but the first, which it pulls and drops. -/
theorem C77_tail (src : Iterable σ α S) (body : C → α → PyD σ (Flow C)) (c : C) :
    (Seq.tail src).forLoop body c = Prod.snd <$> src.forLoop (skipBody 1 body) (0, c) := skip_forLoop 1 src body c

/-- `starmap(f)` (`map2`) is `map` with the pair unpacked. -/
theorem C77_starmap (f : α → β → PyD σ γ) (src : Iterable σ (α × β) S) (body : C → γ → PyD σ (Flow C)) (c : C) :
    (Seq.starmap f src).forLoop body c = src.forLoop (fun c p => do
      let y ← f p.1 p.2
      body c y) c := map_forLoop _ src body c

/-- `range(start, stop, step)` is a re-iterable sequence of the numbers that the builtin gives, and raises its `ValueError`. -/
theorem C77_range (start stop step : Int) :
    (step ≠ 0 → ∃ ys, RangeElements start stop step ys ∧ Seq.range (σ := σ) start stop step = .ok (ofList ys) ∧
      (ofList ys : Iterable σ Int _).toList = pure ys) ∧
    (step = 0 → ∃ m, Seq.range (σ := σ) start stop step = .error (.valueError m)) := by
  constructor
  · intro h
    obtain ⟨ys, e, hy⟩ := range_elements start stop step h
    exact ⟨ys, hy, by simp only [Seq.range, e]; rfl, toList_ofList ys⟩
  · rintro rfl
    exact ⟨_, rfl⟩

/-- `singleton(x)` gives `x` and nothing else. -/
theorem C77_singleton (x : α) : (Seq.singleton x : Iterable σ α _).toList = pure [x] := toList_ofList [x]

example : (Seq.max (fun x y : Nat × Nat => decide (y.1 < x.1)) (ofList [(1, 0), (3, 1), (3, 2), (2, 3)])).exec () =
    some (.ok (3, 1), ()) := by
  rw [seq_max_eq, toList_ofList]; rfl

example : (Seq.mapi (fun i x => (pure (i * 10 + x) : PyD Unit Nat)) (ofList [7, 8])).exec () = some (.ok [7, 18], ()) := by
  rw [C77_mapi]; rfl

/-! ## C78 printing a sequence -/

/-- The text of a sequence: its first 100 elements, and "; ..." if there are more. -/
theorem C78_repr (s : α → String) (xs : List α) :
    (Seq.repr (fun x => pure (s x)) (ofList xs) : PyD σ String) =
      pure ("[" ++ "; ".intercalate ((xs.take 100).map s) ++ (if 100 < xs.length then "; ..." else "") ++ "]") :=
  repr_list s xs

/-- Printing pulls at most 101 elements, whatever the sequence and however printing an element ends. -/
theorem C78_repr_pulls (str : α → PyD (σ × Nat) String) (hstr : ∀ x w r, (str x).exec w = some r → r.2.2 = w.2)
    (src : Iterable σ α S) (w w' : σ) (k k' : Nat) (r : Except PyErr String)
    (h : (Seq.repr str (counted src)).exec (w, k) = some (r, (w', k'))) : k' ≤ k + 101 :=
  repr_count str hstr src (w, k) _ h

/-- So printing ends also for an infinite sequence, as long as each element does come and can be printed. -/
theorem C78_repr_ends (str : α → PyD σ String) (src : Iterable σ α S) (hiter : ∀ w, (src.iter.exec w).isSome)
    (hnext : ∀ s w, ((src.next s).exec w).isSome) (hstr : ∀ x w, ((str x).exec w).isSome) (w : σ) :
    ((Seq.repr str src).exec w).isSome := repr_ends str src hiter hnext hstr w

/-- an infinite sequence of numbers meets the hypotheses -/
example : ((Seq.repr (fun n : Nat => (pure (toString n) : PyD Unit String)) (Seq.initInfinite pure)).exec ()).isSome :=
  C78_repr_ends _ _ (fun _ => rfl) (fun _ _ => rfl) (fun _ _ => rfl) ()

example : (Seq.repr (fun n : Nat => (pure (toString n) : PyD Unit String)) (ofList [1, 2, 3])).exec () =
    some (.ok "[1; 2; 3]", ()) := by
  rw [C78_repr]; rfl

end Expression.Props
