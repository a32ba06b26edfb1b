import Verif.Lemmas.AsyncSeq
import Verif.Spec.AsyncSeq

namespace Expression.Lemmas

open Iterable PyD Spec AsyncSeq

variable {σ α β γ S T C K : Type}

/-- a loop whose body only computes: collect the elements first, compute then -/
theorem loop_pure (step : C → α → C) (src : Iterable σ α S) (s : S) (xs : List α) (c : C) :
    src.loop (fun c x => pure (.next (step c x))) s (xs.foldl step c) =
      (fun ys : List α => ys.foldl step c) <$> src.loop (fun acc x => pure (.next (acc ++ [x]))) s xs := by
  apply Refines.antisymm
  · rw [← bind_pure (src.loop (fun c x => pure (.next (step c x))) s (xs.foldl step c))]
    refine loop_bind_le src (fun c x => pure (.next (step c x))) (fun i : S × List α => i.1)
      (fun i => i.2.foldl step c) (fun _ => pure)
      (fun i => (fun ys : List α => ys.foldl step c) <$> src.loop (fun acc x => pure (.next (acc ++ [x]))) i.1 i.2) ?_ (s, xs)
    rintro F hF ⟨s, xs⟩
    simp only
    rw [loop_eq]
    simp only [map_bind, bind_assoc]
    refine Refines.bind_right fun o => ?_
    rcases o with _ | ⟨x, s'⟩
    · exact Refines.of_eq (by simp)
    · simp only [step_some, pure_bind, cont_next]
      have := hF (s', xs ++ [x])
      simpa only [List.foldl_append, List.foldl_cons, List.foldl_nil] using this
  · refine loop_map_le (fun ys : List α => ys.foldl step c) src _
      (fun s xs => src.loop (fun c x => pure (.next (step c x))) s (xs.foldl step c)) ?_ s xs
    intro F hF s xs
    rw [loop_eq]
    simp only [map_bind]
    refine Refines.bind_right fun o => ?_
    rcases o with _ | ⟨x, s'⟩
    · exact Refines.of_eq (by simp)
    · simp only [step_some, pure_bind, cont_next]
      have := hF s' (xs ++ [x])
      simpa only [List.foldl_append, List.foldl_cons, List.foldl_nil] using this

theorem forLoop_pure (step : C → α → C) (src : Iterable σ α S) (c : C) :
    src.forLoop (fun c x => pure (.next (step c x))) c = (fun ys : List α => ys.foldl step c) <$> src.toList := by
  rw [toList, forLoop, forLoop, map_bind]
  exact bind_congr fun s => loop_pure step src s [] c

/-- the same, when the body is given in another form -/
theorem forLoop_pure' (step : C → α → C) (body : C → α → PyD σ (Flow C)) (h : ∀ c x, body c x = pure (.next (step c x)))
    (src : Iterable σ α S) (c : C) : src.forLoop body c = (fun ys : List α => ys.foldl step c) <$> src.toList := by
  have : body = fun c x => pure (.next (step c x)) := funext fun c => funext fun x => h c x
  rw [this, forLoop_pure]

theorem foldl_snoc (acc : List α) (xs : List α) : xs.foldl (fun acc x => acc ++ [x]) acc = acc ++ xs := by
  induction xs generalizing acc with
  | nil => simp
  | cons x xs ih => simp [ih]

theorem amap_toList (f : α → β) (src : Iterable σ α S) :
    (AsyncSeq.map (fun x => pure (f x)) src).toList = List.map f <$> src.toList := by
  rw [toList, amap_forLoop, forLoop_pure' (fun acc x => acc ++ [f x])]
  · congr 1
    funext ys
    have : ∀ acc : List β, ys.foldl (fun acc x => acc ++ [f x]) acc = acc ++ ys.map f := by
      induction ys with
      | nil => simp
      | cons y ys ih => intro acc; simp [ih]
    simpa using this []
  · intro c x; simp [mapBody]

theorem afilter_toList (p : α → Bool) (src : Iterable σ α S) :
    (AsyncSeq.filter (fun x => pure (p x)) src).toList = List.filter p <$> src.toList := by
  rw [toList, afilter_forLoop, forLoop_pure' (fun acc x => if p x then acc ++ [x] else acc)]
  · congr 1
    funext ys
    have : ∀ acc : List α, ys.foldl (fun acc x => if p x then acc ++ [x] else acc) acc = acc ++ ys.filter p := by
      induction ys with
      | nil => simp
      | cons y ys ih =>
        intro acc
        by_cases h : p y <;> simp [ih, h]
    simpa using this []
  · intro c x; by_cases h : p x <;> simp [filterBody, h]

theorem achoose_toList (f : α → Option β) (src : Iterable σ α S) :
    (AsyncSeq.choose (fun x => pure (f x)) src).toList = List.filterMap f <$> src.toList := by
  rw [toList, achoose_forLoop, forLoop_pure' (fun acc x => acc ++ (f x).toList)]
  · congr 1
    funext ys
    have : ∀ acc : List β, ys.foldl (fun acc x => acc ++ (f x).toList) acc = acc ++ ys.filterMap f := by
      induction ys with
      | nil => simp
      | cons y ys ih =>
        intro acc
        cases h : f y <;> simp [ih, h]
    simpa using this []
  · intro c x; cases h : f x <;> simp [chooseBody, h]

theorem acollect_toList (m : α → List β) (src : Iterable σ α S) :
    (AsyncSeq.collect (fun x => pure (ofList (m x))) src).toList = List.flatMap m <$> src.toList := by
  rw [toList, acollect_forLoop, forLoop_pure' (fun acc x => acc ++ m x)]
  · congr 1
    funext ys
    have : ∀ acc : List β, ys.foldl (fun acc x => acc ++ m x) acc = acc ++ ys.flatMap m := by
      induction ys with
      | nil => simp
      | cons y ys ih => intro acc; simp [ih]
    simpa using this []
  · intro c x
    simp only [collectBody, pure_bind]
    rw [nested_eq]
    change (pure (m x) >>= fun t => (ofList (m x)).loop (nestedBody _) t (Flow.next c)) = _
    rw [pure_bind]
    have : ∀ (base ys : List β) (acc : List β), (ofList base : Iterable σ β _).loop
        (nestedBody (fun acc x => pure (.next (acc ++ [x])))) ys (.next acc) = pure (.next (acc ++ ys)) := by
      intro base ys
      induction ys with
      | nil => intro acc; rw [loop_ofList_nil]; simp
      | cons y ys ih =>
        intro acc
        rw [loop_ofList_cons]
        simp only [nestedBody, Flow.get, pure_bind, cont_next]
        rw [ih]; simp
    exact this _ _ _

theorem askip_toList (n : Int) (src : Iterable σ α S) : (AsyncSeq.skip n src).toList = List.drop n.toNat <$> src.toList := by
  rw [toList, askip_forLoop,
    forLoop_pure' (fun (ic : Nat × List α) x => if (ic.1 : Int) < n then (ic.1 + 1, ic.2) else (ic.1 + 1, ic.2 ++ [x]))]
  · rw [← comp_map]
    congr 1
    funext ys
    have : ∀ (i : Nat) (acc : List α), (ys.foldl (fun (ic : Nat × List α) x =>
        if (ic.1 : Int) < n then (ic.1 + 1, ic.2) else (ic.1 + 1, ic.2 ++ [x])) (i, acc)).2 =
          acc ++ ys.drop (n - i).toNat := by
      induction ys with
      | nil => simp
      | cons y ys ih =>
        intro i acc
        by_cases h : (i : Int) < n
        · have e : (n - i).toNat = (n - ((i + 1 : Nat) : Int)).toNat + 1 := by omega
          simp only [List.foldl_cons, if_pos h, ih, e, List.drop_succ_cons]
        · have e : (n - i).toNat = 0 := by omega
          have e' : (n - ((i + 1 : Nat) : Int)).toNat = 0 := by omega
          simp only [List.foldl_cons, if_neg h, ih, e, e', List.drop_zero]
          simp
    simpa using this 0 []
  · intro c x; by_cases h : (c.1 : Int) < n <;> simp [skipBody, h, Flow.map]

theorem atail_toList (src : Iterable σ α S) : (AsyncSeq.tail src).toList = List.tail <$> src.toList := by
  rw [toList, AsyncSeq.tail, generator_forLoop,
    forLoop_pure' (fun (ic : Bool × List α) x => if ic.1 then (false, ic.2) else (false, ic.2 ++ [x]))]
  · rw [← comp_map]
    congr 1
    funext ys
    have : ∀ (ys acc : List α), (ys.foldl (fun (ic : Bool × List α) x =>
        if ic.1 then (false, ic.2) else (false, ic.2 ++ [x])) (false, acc)).2 = acc ++ ys := by
      intro ys
      induction ys with
      | nil => simp
      | cons y ys ih => intro acc; simp [ih]
    cases ys with
    | nil => rfl
    | cons y ys => exact this ys []
  · intro c x; cases h : c.1 <;> simp [genBody, after, h, Flow.map]

theorem atake_forLoop (n : Int) (src : Iterable σ α S) (body : C → α → PyD σ (Flow C)) (c : C) :
    (AsyncSeq.take n src).forLoop body c = Prod.snd <$> src.forLoop (takeLateBody n body) (0, c) := by
  rw [AsyncSeq.take, generator_forLoop]
  congr 2
  funext ic x
  simp only [genBody, takeLateBody, pure_bind]
  by_cases h : n ≤ (ic.1 : Int)
  · rw [if_pos h, if_pos h]; rfl
  · rw [if_neg h, if_neg h]; rfl

theorem atake_list (n : Int) (xs : List α) :
    (AsyncSeq.take n (ofList xs : Iterable σ α _)).toList = pure (xs.take n.toNat) := by
  rw [toList, atake_forLoop]
  change (Prod.snd <$> (pure xs >>= fun s => (ofList xs).loop _ s _)) = _
  rw [pure_bind]
  have : ∀ (base xs : List α) (i : Nat) (acc : List α), (Prod.snd <$> (ofList base : Iterable σ α _).loop
      (takeLateBody n (fun acc x => pure (.next (acc ++ [x])))) xs (i, acc)) = pure (acc ++ xs.take (n - i).toNat) := by
    intro base xs
    induction xs with
    | nil => intro i acc; rw [loop_ofList_nil]; simp
    | cons x xs ih =>
      intro i acc
      rw [loop_ofList_cons, takeLateBody]
      by_cases h : n ≤ (i : Int)
      · have e : (n - i).toNat = 0 := by omega
        simp [h, e]
      · have e : (n - i).toNat = (n - ((i + 1 : Nat) : Int)).toNat + 1 := by omega
        simp only [if_neg h, pure_bind, Flow.map, cont_next, ih, e, List.take_succ_cons]
        simp
  simpa using this xs xs 0 []

theorem append_toList (other : Iterable σ α T) (src : Iterable σ α S) :
    (append other src).toList = (do
      let xs ← src.toList
      let ys ← other.toList
      pure (xs ++ ys)) := by
  rw [toList, append_forLoop]
  have h1 : ∀ (it : Iterable σ α S), nested it (fun acc x => pure (.next (acc ++ [x]))) ([] : List α) =
      Flow.next <$> it.toList := by
    intro it
    rw [nested, forLoop_pure' (fun (fc : Flow (List α)) x => .next (fc.get ++ [x])) _ (fun c x => by simp)]
    congr 1
    funext ys
    have : ∀ acc : List α, ys.foldl (fun (fc : Flow (List α)) x => .next (fc.get ++ [x])) (.next acc) =
        .next (acc ++ ys) := by
      induction ys with
      | nil => simp
      | cons y ys ih =>
        intro acc
        rw [List.foldl_cons, Flow.get, ih]
        simp
    simpa using this []
  rw [h1]
  simp only [bind_map_left, thenLoop]
  refine bind_congr fun xs => ?_
  rw [forLoop_pure]
  simp only [foldl_snoc]
  rw [map_eq_pure_bind]

theorem length_eq (src : Iterable σ α S) : AsyncSeq.length src = List.length <$> src.toList := by
  rw [AsyncSeq.length, forLoop_pure]
  congr 1
  funext ys
  have : ∀ n : Nat, ys.foldl (fun c _ => c + 1) n = n + ys.length := by
    induction ys with
    | nil => simp
    | cons y ys ih => intro n; simp only [List.foldl_cons, ih, List.length_cons]; omega
  simp [this 0]

theorem ascan_list (f : γ → α → PyD σ γ) (z : γ) (xs : List α) :
    (AsyncSeq.scan f z (ofList xs)).toList = foldStates f z xs := by
  rw [← scan_list f z xs, toList, toList, ascan_forLoop, scan_forLoop]
  change _ = (pure xs >>= _)
  rw [pure_bind]
  rfl

theorem ascan_seq (f : γ → α → PyD σ γ) (z : γ) (src : Iterable σ α S) :
    (AsyncSeq.scan f z src).toList = (Seq.scan f z src).toList := by
  rw [toList, toList, ascan_forLoop, scan_forLoop]
  simp only [pure_bind, forLoop, map_bind]

theorem fold_seq (f : β → α → PyD σ β) (s : β) (src : Iterable σ α S) : AsyncSeq.fold f s src = Seq.fold f s src := rfl

theorem foldBack_seq (f : α → β → PyD σ β) (s : β) (src : Iterable σ α S) :
    AsyncSeq.foldBack f s src = Seq.foldBack f src s := rfl

theorem concat_toList (its : List (List α)) :
    (AsyncSeq.concat (ofList (its.map (fun xs => (ofList xs : Iterable σ α _))))).toList = pure its.flatten := by
  rw [AsyncSeq.concat, toList, acollect_forLoop]
  have : (ofList (its.map (fun xs => (ofList xs : Iterable σ α _)))).forLoop
      (collectBody (fun value => pure value) (fun acc x => pure (.next (acc ++ [x])))) [] =
      (ofList its).forLoop (collectBody (fun xs => pure (ofList xs)) (fun acc x => pure (.next (acc ++ [x])))) [] := by
    refine loop_list_map (fun xs => (ofList xs : Iterable σ α _)) _ its its _ _ ?_ []
    intro c x
    simp [collectBody]
  rw [this, ← acollect_forLoop, ← toList]
  have e : (AsyncSeq.collect (fun xs => pure (ofList xs)) (ofList its : Iterable σ (List α) _)).toList =
      pure (its.flatMap id) := by
    rw [show (fun xs : List α => (pure (ofList xs) : PyD σ (Iterable σ α _))) = fun xs => pure (ofList (id xs)) from rfl,
      acollect_toList, toList_ofList]
    rfl
  rw [e]; simp

/-! ## take and the source -/

theorem atake_count_loop (n : Nat) (src : Iterable σ α S) (s : S) (c : Nat × List α) (w : σ × Nat)
    (r : Except PyErr (Nat × List α) × (σ × Nat))
    (h : ((counted src).loop (takeLateBody n (fun acc x => pure (.next (acc ++ [x])))) s c).exec w = some r) :
    c.1 ≤ n → r.2.2 ≤ w.2 + (n - c.1) + 1 ∧ ∀ i' acc', r.1 = .ok (i', acc') → ∃ d, acc'.length = c.2.length + d ∧
      c.1 + d ≤ n ∧ r.2.2 = w.2 + d + 1 := by
  refine loop_post (counted src) (takeLateBody n (fun acc x => pure (.next (acc ++ [x]))))
    (fun s c w r => c.1 ≤ n → r.2.2 ≤ w.2 + (n - c.1) + 1 ∧ ∀ i' acc', r.1 = .ok (i', acc') →
      ∃ d, acc'.length = c.2.length + d ∧ c.1 + d ≤ n ∧ r.2.2 = w.2 + d + 1) ?_ s c w r h
  intro F hF s c w r hr hle
  rcases exec_bind_some hr with ⟨e, h1, h2⟩ | ⟨o, w1, h1, h2⟩
  · have := counted_next h1
    refine ⟨by simp only at this; omega, ?_⟩
    intro i' acc' hh
    rw [h2] at hh; cases hh
  · have hc := counted_next h1
    simp only at hc
    rcases o with _ | ⟨x, s'⟩
    · simp only [step_none, exec_pure, Option.some.injEq] at h2
      subst h2
      refine ⟨by simp only; omega, ?_⟩
      intro i' acc' hh
      simp only [Except.ok.injEq] at hh
      subst hh
      exact ⟨0, rfl, hle, hc⟩
    · simp only [step_some, takeLateBody] at h2
      by_cases hn : (n : Int) ≤ (c.1 : Int)
      · rw [if_pos hn, pure_bind, cont_stop, exec_pure] at h2
        cases h2
        refine ⟨by simp only; omega, ?_⟩
        intro i' acc' hh
        simp only [Except.ok.injEq] at hh
        subst hh
        exact ⟨0, rfl, hle, hc⟩
      · rw [if_neg hn] at h2
        simp only [pure_bind, Flow.map, cont_next] at h2
        have ih := hF _ _ _ _ h2 (by simp only; omega)
        simp only at ih
        refine ⟨by omega, ?_⟩
        intro i' acc' hh
        obtain ⟨d, hd1, hd2, hd3⟩ := ih.2 i' acc' hh
        refine ⟨d + 1, by rw [hd1]; simp; omega, by omega, by omega⟩

theorem atake_count (n : Nat) (src : Iterable σ α S) (w w' : σ) (k k' : Nat) (r : Except PyErr (List α))
    (h : (toList (AsyncSeq.take n (counted src))).exec (w, k) = some (r, (w', k'))) :
    k' ≤ k + n + 1 ∧ ∀ ys, r = .ok ys → ys.length ≤ n ∧ k' = k + ys.length + 1 := by
  rw [toList, atake_forLoop, exec_map] at h
  rcases hq : exec ((counted src).forLoop (takeLateBody n fun acc x => pure (.next (acc ++ [x]))) (0, [])) (w, k) with
    _ | ⟨r0, w0⟩ <;> rw [hq] at h <;> simp only [Option.map_none, Option.map_some, reduceCtorEq, Option.some.injEq,
      Prod.mk.injEq] at h
  obtain ⟨h1, rfl⟩ := h
  rcases exec_bind_some hq with ⟨e, h2, h3⟩ | ⟨s, w1, h2, h3⟩
  · have := counted_iter h2
    simp only at this h3
    subst h3
    refine ⟨by omega, ?_⟩
    intro ys hh
    rw [← h1] at hh
    cases hh
  · have hc := counted_iter h2
    obtain ⟨q1, q2⟩ := atake_count_loop n src s (0, []) w1 _ h3 (Nat.zero_le n)
    simp only at hc q1 q2
    refine ⟨by omega, ?_⟩
    intro ys hh
    rw [← h1] at hh
    rcases r0 with e | ⟨i', acc'⟩
    · cases hh
    · simp only [Except.map, Except.ok.injEq] at hh
      obtain ⟨d, e1, e2, e3⟩ := q2 i' acc' rfl
      subst hh
      simp only [List.length_nil] at e1
      omega

/-! ## max and min -/

theorem builtinsMax_cases (gt : α → α → Bool) (asymm : ∀ a b, gt a b = true → gt b a = false)
    (neg : ∀ a b c, gt a b = false → gt b c = false → gt a c = false) (xs : List α) (best : α) :
    (builtinsMax gt best xs = best ∧ ∀ x ∈ xs, gt x best = false) ∨
    (gt (builtinsMax gt best xs) best = true ∧ ∃ before behind, xs = before ++ builtinsMax gt best xs :: behind ∧
      (∀ x ∈ before, gt (builtinsMax gt best xs) x = true) ∧ ∀ x ∈ xs, gt x (builtinsMax gt best xs) = false) := by
  have irrefl : ∀ a, gt a a = false := fun a => by
    cases h : gt a a
    · rfl
    · rw [← asymm a a h, h]
  induction xs generalizing best with
  | nil => exact .inl ⟨rfl, fun _ h => by cases h⟩
  | cons x rest ih =>
    cases hx : gt x best with
    | true =>
      have e : builtinsMax gt best (x :: rest) = builtinsMax gt x rest := by simp [builtinsMax, hx]
      rw [e]
      right
      rcases ih x with ⟨h1, h2⟩ | ⟨h1, before, behind, h2, h3, h4⟩
      · rw [h1]
        refine ⟨hx, [], rest, rfl, (fun _ h => by cases h), ?_⟩
        intro y hy
        rcases List.mem_cons.1 hy with rfl | hy
        · exact irrefl _
        · exact h2 y hy
      · refine ⟨?_, x :: before, behind, congrArg (x :: ·) h2, ?_, ?_⟩
        · cases h : gt (builtinsMax gt x rest) best
          · rw [neg _ _ _ h (asymm _ _ hx)] at h1; cases h1
          · rfl
        · intro y hy
          rcases List.mem_cons.1 hy with rfl | hy
          · exact h1
          · exact h3 y hy
        · intro y hy
          rcases List.mem_cons.1 hy with rfl | hy
          · exact asymm _ _ h1
          · exact h4 y hy
    | false =>
      have e : builtinsMax gt best (x :: rest) = builtinsMax gt best rest := by simp [builtinsMax, hx]
      rw [e]
      rcases ih best with ⟨h1, h2⟩ | ⟨h1, before, behind, h2, h3, h4⟩
      · left
        refine ⟨h1, ?_⟩
        intro y hy
        rcases List.mem_cons.1 hy with rfl | hy
        · exact hx
        · exact h2 y hy
      · right
        have hmx : gt (builtinsMax gt best rest) x = true := by
          cases h : gt (builtinsMax gt best rest) x
          · rw [neg _ _ _ h hx] at h1; cases h1
          · rfl
        refine ⟨h1, x :: before, behind, congrArg (x :: ·) h2, ?_, ?_⟩
        · intro y hy
          rcases List.mem_cons.1 hy with rfl | hy
          · exact hmx
          · exact h3 y hy
        · intro y hy
          rcases List.mem_cons.1 hy with rfl | hy
          · exact asymm _ _ hmx
          · exact h4 y hy

theorem builtinsMax_spec (gt : α → α → Bool) (asymm : ∀ a b, gt a b = true → gt b a = false)
    (neg : ∀ a b c, gt a b = false → gt b c = false → gt a c = false) (best : α) (xs : List α) :
    FirstGreatest gt (best :: xs) (builtinsMax gt best xs) := by
  have irrefl : ∀ a, gt a a = false := fun a => by
    cases h : gt a a
    · rfl
    · rw [← asymm a a h, h]
  rcases builtinsMax_cases gt asymm neg xs best with ⟨h1, h2⟩ | ⟨h1, before, behind, h2, h3, h4⟩
  · rw [h1]
    refine ⟨[], xs, rfl, (fun _ h => by cases h), ?_⟩
    intro y hy
    rcases List.mem_cons.1 hy with rfl | hy
    · exact irrefl _
    · exact h2 y hy
  · refine ⟨best :: before, behind, congrArg (best :: ·) h2, ?_, ?_⟩
    · intro y hy
      rcases List.mem_cons.1 hy with rfl | hy
      · exact h1
      · exact h3 y hy
    · intro y hy
      rcases List.mem_cons.1 hy with rfl | hy
      · exact asymm _ _ h1
      · exact h4 y hy

theorem pyLt_asymm [PyOrd α] [LawfulPyOrd α] (a b : α) (h : PyOrd.lt a b = true) : PyOrd.lt b a = false := by
  cases h' : PyOrd.lt b a
  · rfl
  · rw [← LawfulPyOrd.irrefl a, LawfulPyOrd.trans a b a h h']

theorem pyLt_neg [PyOrd α] [LawfulPyOrd α] (a b c : α) (h1 : PyOrd.lt a b = false) (h2 : PyOrd.lt b c = false) :
    PyOrd.lt a c = false := by
  cases h : PyOrd.lt a c
  · rfl
  · have hba : PyOrd.lt b a = false := by
      cases h' : PyOrd.lt b a
      · rfl
      · rw [LawfulPyOrd.trans b a c h' h] at h2; cases h2
    have hcb : PyOrd.lt c b = false := by
      cases h' : PyOrd.lt c b
      · rfl
      · rw [LawfulPyOrd.trans a c b h h'] at h1; cases h1
    have := LawfulPyOrd.eq_trans a b c ((LawfulPyOrd.eq_iff a b).2 ⟨h1, hba⟩) ((LawfulPyOrd.eq_iff b c).2 ⟨h2, hcb⟩)
    rw [((LawfulPyOrd.eq_iff a c).1 this).1] at h
    cases h

/-! ## range -/

theorem rangeLen_spec (start stop step : Int) (hs : step ≠ 0) (i : Nat) :
    i < Builtins.rangeLen start stop step ↔
      (if 0 < step then start + step * i < stop else stop < start + step * i) := by
  rw [Builtins.rangeLen]
  by_cases h : 0 < step
  · rw [if_pos h, if_pos h, Int.lt_toNat]
    constructor
    · intro hi
      have h2 := (Int.le_ediv_iff_mul_le h).1 (show (i : Int) + 1 ≤ _ from hi)
      have : ((i : Int) + 1) * step = step * i + step := by rw [Int.add_mul, Int.one_mul, Int.mul_comm]
      omega
    · intro hi
      have : ((i : Int) + 1) * step = step * i + step := by rw [Int.add_mul, Int.one_mul, Int.mul_comm]
      exact (Int.le_ediv_iff_mul_le h).2 (by omega)
  · have h' : 0 < -step := by omega
    rw [if_neg h, if_neg h, Int.lt_toNat]
    have : ((i : Int) + 1) * -step = -(step * i) + -step := by
      rw [Int.add_mul, Int.one_mul, Int.mul_comm, Int.neg_mul]
    constructor
    · intro hi
      have h2 := (Int.le_ediv_iff_mul_le h').1 (show (i : Int) + 1 ≤ _ from hi)
      omega
    · intro hi
      exact (Int.le_ediv_iff_mul_le h').2 (by omega)

theorem range_elements (start stop step : Int) (hs : step ≠ 0) : ∃ ys, Builtins.range start stop step = .ok ys ∧
    RangeElements start stop step ys := by
  refine ⟨_, by rw [Builtins.range, if_neg hs], ?_⟩
  intro i v
  rw [List.getElem?_map]
  by_cases h : i < Builtins.rangeLen start stop step
  · rw [List.getElem?_range h]
    have := (rangeLen_spec start stop step hs i).1 h
    constructor
    · intro e
      simp only [Option.map_some, Option.some.injEq] at e
      subst e
      exact ⟨rfl, this⟩
    · rintro ⟨rfl, _⟩; rfl
  · rw [List.getElem?_eq_none (by simpa using h)]
    constructor
    · intro e; cases e
    · rintro ⟨rfl, e⟩
      exact absurd ((rangeLen_spec start stop step hs i).2 e) h

theorem arange_loop (start stop step : Int) (xs : List Int) (body : C → Int → PyD σ (Flow C)) (c : C) :
    (AsyncSeq.range start stop step : Iterable σ Int _).loop body (some xs) c = (ofList xs).loop body xs c := by
  have : ∀ base : List Int, (AsyncSeq.range start stop step : Iterable σ Int _).loop body (some xs) c =
      (ofList base).loop body xs c := by
    intro base
    induction xs generalizing c with
    | nil => rw [loop_ofList_nil, loop_eq]; rfl
    | cons x xs ih =>
      rw [loop_ofList_cons, loop_eq]
      change (pure (some (x, some xs)) >>= Iterable.step body _ c) = _
      rw [pure_bind, step_some]
      refine bind_congr fun fl => ?_
      cases fl with
      | stop c' => rfl
      | next c' => exact ih c'
  exact this xs

theorem arange_forLoop (start stop step : Int) (body : C → Int → PyD σ (Flow C)) (c : C) :
    (AsyncSeq.range start stop step : Iterable σ Int _).forLoop body c = (match Builtins.range start stop step with
      | .error e => raise e
      | .ok xs => (ofList xs).forLoop body c) := by
  change (pure none >>= fun s => (AsyncSeq.range start stop step : Iterable σ Int _).loop body s c) = _
  rw [pure_bind]
  rcases h : Builtins.range start stop step with e | xs
  · rw [loop_eq]
    simp only [AsyncSeq.range, h]
    rfl
  · simp only [forLoop]
    change _ = (pure xs >>= fun s => (ofList xs).loop body s c)
    rw [pure_bind, ← arange_loop start stop step, loop_eq, loop_eq]
    cases xs <;> simp only [AsyncSeq.range, h]

end Expression.Lemmas
