import Verif.Lemmas.AsyncSeq2
import Verif.Lemmas.Block

/-! # Lemmas: consumers of sequences -/

namespace Expression.Lemmas

open Iterable PyD Spec

variable {σ α β γ S T C : Type}

theorem seq_max_eq (gt : α → α → Bool) (src : Iterable σ α S) :
    Seq.max gt src = (do
      match ← src.toList with
      | [] => PyD.raise (.valueError "iterable argument is empty")
      | x :: rest => pure (AsyncSeq.builtinsMax gt x rest)) := by
  rw [Seq.max, forLoop_pure' (fun (best : Option α) x => match best with
    | none => some x
    | some b => some (if gt x b then x else b)) _ (fun c x => by cases c <;> rfl)]
  rw [map_eq_pure_bind, bind_assoc]
  refine bind_congr fun xs => ?_
  rw [pure_bind]
  cases xs with
  | nil => rfl
  | cons x xs =>
    have : ∀ (b : α), xs.foldl (fun (best : Option α) x => match best with
        | none => some x
        | some b => some (if gt x b then x else b)) (some b) = some (AsyncSeq.builtinsMax gt b xs) := by
      induction xs with
      | nil => intro b; rfl
      | cons y ys ih =>
        intro b
        rw [List.foldl_cons]
        simp only [AsyncSeq.builtinsMax]
        rw [ih]
        split <;> rfl
    rw [List.foldl_cons]
    simp only
    rw [this x]

theorem seq_length_eq (src : Iterable σ α S) : Seq.length src = List.length <$> src.toList := by
  rw [Seq.length, forLoop_pure' (fun n _ => n + 1) _ (fun _ _ => rfl)]
  congr 1
  funext xs
  have : ∀ n : Nat, xs.foldl (fun c _ => c + 1) n = n + xs.length := by
    induction xs with
    | nil => simp
    | cons y ys ih => intro n; simp only [List.foldl_cons, ih, List.length_cons]; omega
  simp [this 0]

/-! ## repr -/

/-- the body of the loop in `repr` -/
def reprBody (str : α → PyD σ String) (c : Nat × String) (x : α) : PyD σ (Flow (Nat × String)) :=
  if c.1 = 0 then do pure (.next (c.1 + 1, c.2 ++ (← str x)))
  else if c.1 = 100 then pure (.stop (c.1, c.2 ++ "; ..."))
  else do pure (.next (c.1 + 1, c.2 ++ ("; " ++ (← str x))))

theorem repr_eq (str : α → PyD σ String) (src : Iterable σ α S) :
    Seq.repr str src = (fun r : Nat × String => r.2 ++ "]") <$> src.forLoop (reprBody str) (0, "[") := by
  rw [map_eq_pure_bind]; rfl

theorem repr_loop_list (base : List α) (s : α → String) (xs : List α) (n : Nat) (acc : String) (hn : 0 < n) (h100 : n ≤ 100) :
    ∃ k, (ofList base : Iterable σ α _).loop (reprBody (fun x => pure (s x))) xs (n, acc) =
      pure (k, acc ++ (String.join ((xs.take (100 - n)).map (fun x => "; " ++ s x)) ++
        if 100 - n < xs.length then "; ..." else "")) := by
  induction xs generalizing n acc with
  | nil => exact ⟨n, by rw [loop_ofList_nil]; simp⟩
  | cons x xs ih =>
    rw [loop_ofList_cons]
    by_cases h : n = 100
    · subst h
      exact ⟨100, by simp [reprBody]⟩
    · obtain ⟨k, hk⟩ := ih (n + 1) (acc ++ ("; " ++ s x)) (by omega) (by omega)
      refine ⟨k, ?_⟩
      rw [reprBody, if_neg (by simp only; omega), if_neg (by simpa using h), pure_bind, pure_bind, cont_next, hk]
      have e : 100 - n = (100 - (n + 1)) + 1 := by omega
      rw [e, List.take_succ_cons, List.map_cons, String.join_cons, List.length_cons]
      simp only [Nat.add_lt_add_iff_right, String.append_assoc]

theorem join_intercalate (s : α → String) (x : α) (xs : List α) :
    s x ++ String.join (xs.map (fun x => "; " ++ s x)) = "; ".intercalate ((x :: xs).map s) := by
  induction xs generalizing x with
  | nil => simp
  | cons y ys ih =>
    rw [List.map_cons, String.join_cons, String.append_assoc, ih y]
    simp [String.append_assoc]

theorem repr_list (s : α → String) (xs : List α) :
    (Seq.repr (fun x => pure (s x)) (ofList xs) : PyD σ String) =
      pure ("[" ++ "; ".intercalate ((xs.take 100).map s) ++ (if 100 < xs.length then "; ..." else "") ++ "]") := by
  rw [repr_eq, forLoop]
  change _ <$> (loop (ofList xs) _ xs _) = _
  cases xs with
  | nil => rw [loop_ofList_nil]; simp
  | cons x xs =>
    rw [loop_ofList_cons, reprBody, if_pos rfl, pure_bind, pure_bind, cont_next]
    obtain ⟨k, hk⟩ := repr_loop_list (σ := σ) (x :: xs) s xs 1 ("[" ++ s x) (by omega) (by omega)
    rw [hk, map_pure]
    have e : (100 : Nat) = 99 + 1 := rfl
    rw [e, List.take_succ_cons, ← join_intercalate, List.length_cons]
    simp only [Nat.add_one_sub_one, Nat.add_lt_add_iff_right, String.append_assoc]

theorem repr_count_loop (str : α → PyD (σ × Nat) String) (hstr : ∀ x w r, (str x).exec w = some r → r.2.2 = w.2)
    (src : Iterable σ α S) (s : S) (c : Nat × String)
    (w : σ × Nat) (r : Except PyErr (Nat × String) × (σ × Nat))
    (h : ((counted src).loop (reprBody str) s c).exec w = some r) : c.1 ≤ 100 → r.2.2 ≤ w.2 + (101 - c.1) := by
  refine loop_post (counted src) (reprBody str) (fun s c w r => c.1 ≤ 100 → r.2.2 ≤ w.2 + (101 - c.1)) ?_ s c w r h
  intro F hF s c w r hr hlt
  rcases exec_bind_some hr with ⟨e, h1, h2⟩ | ⟨o, w1, h1, h2⟩
  · have := counted_next h1
    simp only at this; omega
  · have hc := counted_next h1
    simp only at hc
    rcases o with _ | ⟨x, s'⟩
    · simp only [step_none, exec_pure, Option.some.injEq] at h2
      subst h2
      simp only; omega
    · have key : ∀ (g : String → String) (r : Except PyErr (Nat × String) × (σ × Nat)), c.1 < 100 →
          exec ((do pure (Flow.next (c.1 + 1, g (← str x))) : PyD _ _) >>= cont F s') w1 = some r →
            r.2.2 ≤ w.2 + (101 - c.1) := by
        intro g r hlt hr
        rw [bind_assoc] at hr
        rcases exec_bind_some hr with ⟨e, h3, h4⟩ | ⟨t, w2, h3, h4⟩
        · have := hstr _ _ _ h3
          simp only at this; omega
        · have h5 := hstr _ _ _ h3
          rw [pure_bind, cont_next] at h4
          have := hF _ _ _ _ h4 (by simp only; omega)
          simp only at this h5; omega
      simp only [step_some, reprBody] at h2
      by_cases h0 : c.1 = 0
      · rw [if_pos h0] at h2
        exact key (fun t => c.2 ++ t) r (by omega) h2
      · rw [if_neg h0] at h2
        by_cases hn : c.1 = 100
        · rw [if_pos hn, pure_bind, cont_stop, exec_pure] at h2
          cases h2
          simp only; omega
        · rw [if_neg hn] at h2
          exact key (fun t => c.2 ++ ("; " ++ t)) r (by omega) h2

theorem repr_count (str : α → PyD (σ × Nat) String) (hstr : ∀ x w r, (str x).exec w = some r → r.2.2 = w.2)
    (src : Iterable σ α S) (w : σ × Nat) (r : Except PyErr String × (σ × Nat))
    (h : (Seq.repr str (counted src)).exec w = some r) : r.2.2 ≤ w.2 + 101 := by
  rw [repr_eq, exec_map] at h
  rcases hq : exec ((counted src).forLoop (reprBody str) (0, "[")) w with _ | ⟨r0, w0⟩ <;> rw [hq] at h <;>
    simp only [Option.map_none, Option.map_some, reduceCtorEq, Option.some.injEq] at h
  subst h
  rcases exec_bind_some hq with ⟨e, h2, h3⟩ | ⟨s, w1, h2, h3⟩
  · have := counted_iter h2
    simp only at this ⊢
    omega
  · have hc := counted_iter h2
    have := repr_count_loop str hstr src s (0, "[") w1 _ h3 (by simp)
    simp only at hc this ⊢
    omega

theorem repr_ends_loop (str : α → PyD σ String) (src : Iterable σ α S) (hnext : ∀ s w, ((src.next s).exec w).isSome)
    (hstr : ∀ x w, ((str x).exec w).isSome) (d n : Nat) (hd : n + d = 100) (s : S) (acc : String) (w : σ) :
    ((src.loop (reprBody str) s (n, acc)).exec w).isSome := by
  induction d generalizing n s acc w with
  | zero =>
    have hn : n = 100 := by omega
    subst hn
    rw [loop_eq, exec_bind]
    have := hnext s w
    rcases h : (src.next s).exec w with _ | ⟨_ | (_ | ⟨x, s'⟩), w'⟩
    · rw [h] at this; exact this
    · rfl
    · rfl
    · simp [reprBody, exec_pure]
  | succ d ih =>
    rw [loop_eq, exec_bind]
    have := hnext s w
    rcases h : (src.next s).exec w with _ | ⟨_ | (_ | ⟨x, s'⟩), w'⟩
    · rw [h] at this; exact this
    · rfl
    · rfl
    · have key : ∀ g : String → String,
          (exec ((do pure (Flow.next (n + 1, g (← str x))) : PyD _ _) >>= cont (src.loop (reprBody str)) s') w').isSome := by
        intro g
        rw [bind_assoc, exec_bind]
        have := hstr x w'
        rcases h2 : (str x).exec w' with _ | ⟨_ | t, w2⟩
        · rw [h2] at this; exact this
        · rfl
        · simp only [pure_bind, cont_next]
          exact ih (n + 1) (by omega) s' _ w2
      simp only [step_some, reprBody]
      by_cases h0 : n = 0
      · rw [if_pos h0]; exact key (fun t => acc ++ t)
      · rw [if_neg h0, if_neg (by omega)]; exact key (fun t => acc ++ ("; " ++ t))

theorem repr_ends (str : α → PyD σ String) (src : Iterable σ α S) (hiter : ∀ w, (src.iter.exec w).isSome)
    (hnext : ∀ s w, ((src.next s).exec w).isSome) (hstr : ∀ x w, ((str x).exec w).isSome) (w : σ) :
    ((Seq.repr str src).exec w).isSome := by
  rw [repr_eq, exec_map, Option.isSome_map, forLoop, exec_bind]
  have := hiter w
  rcases h : src.iter.exec w with _ | ⟨_ | s, w'⟩
  · rw [h] at this; exact this
  · rfl
  · exact repr_ends_loop str src hnext hstr 100 0 rfl s _ w'

/-! ## unfold -/

/-- what `list` of the generator returns, as a block -/
def asBlock (r : Except PyErr (List α) × σ) : Except PyErr (Block α) × σ := (r.1.map Block.mk, r.2)

theorem seq_unfold_next (g : S → Py σ (Option (α × S))) (s0 s : S) (acc : List α) (F : S → List α → PyD σ (List α)) (w : σ) :
    exec ((Seq.unfold (fun s => PyD.ofPy (g s)) s0).next s >>= step (fun acc x => pure (.next (acc ++ [x]))) F acc) w =
      match (g s).exec w with
      | (.error e, w') => some (.error e, w')
      | (.ok none, w') => some (.ok acc, w')
      | (.ok (some (x, s')), w') => exec (F s' (acc ++ [x])) w' := by
  rw [exec_bind]
  have e : exec ((Seq.unfold (fun s => PyD.ofPy (g s)) s0).next s) w = some ((g s).exec w) := rfl
  rw [e]
  rcases (g s).exec w with ⟨_ | (_ | ⟨x, s'⟩), w'⟩ <;> rfl

theorem seq_unfold_ge (g : S → Py σ (Option (α × S))) (s0 s : S) (acc : List α) (w : σ) (res : Except PyErr (Block α) × σ)
    (h : Block.unfoldLoop g s acc w = some res) :
    ∃ r, exec ((Seq.unfold (fun s => PyD.ofPy (g s)) s0).loop (fun acc x => pure (.next (acc ++ [x]))) s acc) w = some r ∧
      asBlock r = res := by
  refine Block.unfoldLoop.partial_correctness g (fun s acc w res => ∃ r,
    exec ((Seq.unfold (fun s => PyD.ofPy (g s)) s0).loop (fun acc x => pure (.next (acc ++ [x]))) s acc) w = some r ∧
      asBlock r = res) ?_ s acc w res h
  intro f ih s acc w res hres
  rw [loop_eq, seq_unfold_next]
  rcases hg : (g s).exec w with ⟨e | (_ | ⟨x, s'⟩), w'⟩ <;> rw [hg] at hres <;> simp only at hres ⊢
  · cases hres; exact ⟨_, rfl, rfl⟩
  · cases hres; exact ⟨_, rfl, rfl⟩
  · exact ih s' (acc ++ [x]) w' res hres

theorem seq_unfold_le (g : S → Py σ (Option (α × S))) (s0 s : S) (acc : List α) (w : σ) (r : Except PyErr (List α) × σ)
    (h : exec ((Seq.unfold (fun s => PyD.ofPy (g s)) s0).loop (fun acc x => pure (.next (acc ++ [x]))) s acc) w = some r) :
    Block.unfoldLoop g s acc w = some (asBlock r) := by
  refine loop_post _ _ (fun s acc w r => Block.unfoldLoop g s acc w = some (asBlock r)) ?_ s acc w r h
  intro F hF s acc w r hr
  rw [seq_unfold_next] at hr
  rw [Block.unfoldLoop]
  rcases hg : (g s).exec w with ⟨e | (_ | ⟨x, s'⟩), w'⟩ <;> rw [hg] at hr <;> simp only at hr ⊢
  · cases hr; rfl
  · cases hr; rfl
  · exact hF _ _ _ _ hr

theorem seq_unfold_eq (g : S → Py σ (Option (α × S))) (s : S) (w : σ) :
    Block.unfold g s w = ((Seq.unfold (fun s => PyD.ofPy (g s)) s).toList.exec w).map asBlock := by
  change Block.unfoldLoop g s [] w = (exec ((Seq.unfold (fun s => PyD.ofPy (g s)) s).loop _ s []) w).map asBlock
  cases h : exec ((Seq.unfold (fun s => PyD.ofPy (g s)) s).loop (fun acc x => pure (.next (acc ++ [x]))) s []) w with
  | some r => exact seq_unfold_le g s s [] w r h
  | none =>
    cases h2 : Block.unfoldLoop g s [] w with
    | none => rfl
    | some res =>
      obtain ⟨r, h3, _⟩ := seq_unfold_ge g s s [] w res h2
      rw [h3] at h; cases h

end Expression.Lemmas

namespace Expression.Lemmas
open Iterable PyD Spec

theorem infinite_take_loop {σ α : Type} (f : Nat → PyD σ α) (k i : Nat) (acc : List α) :
    Prod.snd <$> (Seq.initInfinite f).loop (takeBody (i + k + 1) (fun (ys : List α) x => (pure (.next (ys ++ [x])) : PyD σ _)))
      i (i, acc) = foldLeftD (fun ys j => do pure (ys ++ [← f j])) acc (List.range' i (k + 1)) := by
  induction k generalizing i acc with
  | zero =>
    rw [loop_eq]
    simp only [Seq.initInfinite, bind_assoc, pure_bind, step_some, takeBody, map_bind, List.range'_succ, List.range'_zero,
      foldLeftD]
    refine bind_congr fun y => ?_
    simp only [Nat.add_zero, if_true, pure_bind, cont_stop, map_pure]
  | succ k ih =>
    rw [loop_eq, List.range'_succ, foldLeftD]
    simp only [Seq.initInfinite, bind_assoc, pure_bind, step_some, takeBody, map_bind]
    refine bind_congr fun y => ?_
    rw [if_neg (by omega), pure_bind, cont_next, ← ih, show i + (k + 1) + 1 = i + 1 + k + 1 by omega]
    rfl

theorem infinite_take {σ α : Type} (f : Nat → PyD σ α) (n : Nat) :
    (Seq.take n (Seq.initInfinite f)).toList = foldLeftD (fun ys j => do pure (ys ++ [← f j])) [] (List.range n) := by
  cases n with
  | zero => rw [toList, take_zero_forLoop _ (by simp)]; rfl
  | succ n =>
    rw [toList, take_forLoop _ (by omega), List.range_eq_range', ← infinite_take_loop]
    simp only [Nat.zero_add]
    rfl

end Expression.Lemmas
