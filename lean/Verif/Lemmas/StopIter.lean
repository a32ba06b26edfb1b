import Verif.Lemmas.Seq
import Verif.Model.StopIter
import Verif.Spec.StopIter

/-! Lemmas about callbacks that raise `StopIteration`. -/

namespace Expression.StopIter

open PyD Spec Iterable MapSource

variable {σ α β γ S T C : Type}

theorem orBreak_eq (p : PyD σ α) (c : C) (k : α → PyD σ (Flow C)) :
    orBreak p c k = unlessStopIteration p >>= fun o => match o with
      | none => pure (.stop c)
      | some x => k x := by
  apply PyD.ext
  intro w
  rw [exec_bind]
  simp only [orBreak, unlessStopIteration, PyD.exec]
  rcases h : p w with _ | ⟨e | x, w'⟩ <;> simp only [caught]
  cases e <;> rfl

theorem orBreak_map (p : PyD σ α) (g : α → β) (c : C) (k : β → PyD σ (Flow C)) :
    orBreak (p >>= fun a => pure (g a)) c k = orBreak p c (fun a => k (g a)) := by
  funext w
  unfold orBreak
  rw [exec_bind]
  rcases p.exec w with _ | ⟨_ | _, _⟩ <;> rfl

theorem asRuntimeError_map (p : PyD σ α) (g : α → β) :
    asRuntimeError (p >>= fun a => pure (g a)) = asRuntimeError p >>= fun a => pure (g a) := by
  apply PyD.ext
  intro w
  rw [exec_bind]
  change asRuntimeError _ w = match asRuntimeError p w with | none => _ | some (.error e, w') => _ | some (.ok a, w') => _
  unfold asRuntimeError
  rw [exec_bind]
  rcases p.exec w with _ | ⟨_ | _, _⟩ <;> rfl

theorem inGenerator_eq (p : PyD σ α) : inGenerator p = asRuntimeError p := by
  apply PyD.ext
  intro w
  simp only [inGenerator, asRuntimeError, PyD.exec]
  rcases p w with _ | ⟨e | x, w'⟩ <;> simp only [framed]
  cases e <;> rfl

theorem source_loop (src : Iterable σ α S) (body : C → α → PyD σ (Flow C)) (s : S) (c : C) :
    (source src).loop body s c = src.loop body s c := by
  have h : ∀ (it it' : Iterable σ α S), it.next = it'.next → ∀ s c, Refines (it.loop body s c) (it'.loop body s c) := by
    intro it it' hn s c
    refine loop_le it body (fun s c => it'.loop body s c) ?_ s c
    intro F hF s c
    rw [loop_eq, hn]
    refine Refines.bind_right fun o => ?_
    rcases o with _ | ⟨x, s'⟩
    · exact Refines.refl _
    · refine Refines.bind_right fun fl => ?_
      cases fl with
      | stop c' => exact Refines.refl _
      | next c' => exact hF s' c'
  exact Refines.antisymm (h (source src) src rfl s c) (h src (source src) rfl s c)

theorem source_forLoop (src : Iterable σ α S) (body : C → α → PyD σ (Flow C)) (c : C) :
    (source src).forLoop body c = (do
      let it ← asRuntimeError src.iter
      src.loop body it c) := by
  simp only [forLoop, source_loop]
  simp only [source, inGenerator_eq]

theorem mapObject_next (f : α → PyD σ β) (src : Iterable σ α S) (s : S) (k : Option (β × S) → PyD σ γ) :
    ((mapObject f src).next s >>= k) = (do
      match ← src.next s with
      | none => k none
      | some (x, s') =>
        match ← unlessStopIteration (f x) with
        | none => k none
        | some y => k (some (y, s'))) := by
  simp only [mapObject, bind_assoc]
  congr 1; funext o
  rcases o with _ | ⟨x, s'⟩
  · simp
  · simp only [bind_assoc]
    congr 1; funext o
    cases o <;> simp

theorem mapObject_loop (f : α → PyD σ β) (src : Iterable σ α S) (body : C → β → PyD σ (Flow C)) (s : S) (c : C) :
    (mapObject f src).loop body s c = src.loop (breakMapBody f body) s c := by
  apply Refines.antisymm
  · refine loop_le (mapObject f src) body (fun s c => src.loop (breakMapBody f body) s c) ?_ s c
    intro F hF s c
    rw [mapObject_next, loop_eq]
    refine Refines.bind_right fun o => ?_
    rcases o with _ | ⟨x, s'⟩
    · exact Refines.refl _
    · simp only [step_some, breakMapBody, orBreak_eq, bind_assoc]
      refine Refines.bind_right fun o => ?_
      cases o with
      | none => exact Refines.refl _
      | some y =>
        refine Refines.bind_right fun fl => ?_
        cases fl with
        | stop c' => exact Refines.refl _
        | next c' => exact hF s' c'
  · refine loop_le src _ (fun s c => (mapObject f src).loop body s c) ?_ s c
    intro F hF s c
    rw [loop_eq, mapObject_next]
    refine Refines.bind_right fun o => ?_
    rcases o with _ | ⟨x, s'⟩
    · exact Refines.refl _
    · simp only [step_some, breakMapBody, orBreak_eq, bind_assoc]
      refine Refines.bind_right fun o => ?_
      cases o with
      | none => exact Refines.refl _
      | some y =>
        refine Refines.bind_right fun fl => ?_
        cases fl with
        | stop c' => exact Refines.refl _
        | next c' => exact hF s' c'

theorem mapObject_forLoop (f : α → PyD σ β) (src : Iterable σ α S) (body : C → β → PyD σ (Flow C)) (c : C) :
    (mapObject f src).forLoop body c = src.forLoop (breakMapBody f body) c := by
  simp only [forLoop, mapObject_loop]
  rfl

theorem initInfinite_loop (f : Nat → PyD σ β) (body : C → β → PyD σ (Flow C)) (s : Nat) (c : C) :
    (Seq.initInfinite f).loop body s c = (count : Iterable σ Nat Nat).loop (mapBody f body) s c := by
  apply Refines.antisymm
  · refine loop_le (Seq.initInfinite f) body (fun s c => count.loop (mapBody f body) s c) ?_ s c
    intro F hF s c
    rw [loop_eq]
    simp only [Seq.initInfinite, count, bind_assoc, pure_bind, step_some, mapBody]
    refine Refines.bind_right fun y => Refines.bind_right fun fl => ?_
    cases fl with
    | stop c' => exact Refines.refl _
    | next c' => exact hF _ c'
  · refine loop_le count _ (fun s c => (Seq.initInfinite f).loop body s c) ?_ s c
    intro F hF s c
    rw [loop_eq]
    simp only [Seq.initInfinite, count, bind_assoc, pure_bind, step_some, mapBody]
    refine Refines.bind_right fun y => Refines.bind_right fun fl => ?_
    cases fl with
    | stop c' => exact Refines.refl _
    | next c' => exact hF _ c'

theorem initInfinite_forLoop (f : Nat → PyD σ β) (body : C → β → PyD σ (Flow C)) (c : C) :
    (Seq.initInfinite f).forLoop body c = (count : Iterable σ Nat Nat).forLoop (mapBody f body) c := by
  simp only [forLoop, initInfinite_loop]
  rfl

theorem filter_loop (p : α → PyD σ Bool) (src : Iterable σ α S) (body : C → α → PyD σ (Flow C)) (s : S) (c : C) :
    (filterObject p src).loop body s c = src.loop (breakFilterBody p body) s c := by
  apply Refines.antisymm
  · refine loop_le (filterObject p src) body (fun s c => src.loop (breakFilterBody p body) s c) ?_ s c
    intro F hF s c
    refine filterNext.fixpoint_induct p src _ (admissible_bind_refines (fun i : S × C => i.1)
      (fun i => step body F i.2) (fun i => src.loop (breakFilterBody p body) i.1 i.2)) ?_ (s, c)
    rintro G hG ⟨s, c⟩
    simp only
    rw [loop_eq]
    simp only [bind_assoc]
    refine Refines.bind_right fun o => ?_
    rcases o with _ | ⟨x, s'⟩
    · exact Refines.of_eq (pure_bind _ _)
    · simp only [step_some, breakFilterBody, orBreak_eq, bind_assoc]
      refine Refines.bind_right fun o => ?_
      rcases o with _ | b
      · exact Refines.of_eq (pure_bind _ _)
      cases b
      · exact (hG (s', c)).trans (.of_eq (pure_bind _ _).symm)
      · simp only [if_true, pure_bind]
        refine Refines.bind_right fun fl => ?_
        cases fl with
        | stop c' => exact Refines.refl _
        | next c' => exact hF s' c'
  · refine loop_le src _ (fun s c => (filterObject p src).loop body s c) ?_ s c
    intro F hF s c
    rw [loop_eq]
    simp only [filterObject]
    rw [filterNext]
    simp only [bind_assoc]
    refine Refines.bind_right fun o => ?_
    rcases o with _ | ⟨x, s'⟩
    · exact Refines.of_eq (pure_bind _ _).symm
    · simp only [step_some, breakFilterBody, orBreak_eq, bind_assoc]
      refine Refines.bind_right fun o => ?_
      rcases o with _ | b
      · exact Refines.of_eq (pure_bind _ _).symm
      cases b
      · simp only [Bool.false_eq_true, if_false, pure_bind]
        refine (hF s' c).trans (.of_eq ?_)
        rw [loop_eq]; rfl
      · simp only [if_true, pure_bind]
        refine Refines.bind_right fun fl => ?_
        cases fl with
        | stop c' => exact Refines.refl _
        | next c' => exact hF s' c'

theorem filter_forLoop (p : α → PyD σ Bool) (src : Iterable σ α S) (body : C → α → PyD σ (Flow C)) (c : C) :
    (filterObject p src).forLoop body c = src.forLoop (breakFilterBody p body) c := by
  simp only [forLoop, filter_loop]
  rfl

theorem scan_next (f : γ → α → PyD σ γ) (z : γ) (src : Iterable σ α S) (s : S) (total : γ) {δ : Type}
    (k : Option (γ × Seq.ScanState S γ) → PyD σ δ) :
    ((seqScan f z src).next (.running s total) >>= k) = (do
      match ← src.next s with
      | none => k none
      | some (x, s') =>
        match ← unlessStopIteration (f total x) with
        | none => k none
        | some total' => k (some (total', .running s' total'))) := by
  simp only [seqScan, bind_assoc]
  refine bind_congr fun o => ?_
  rcases o with _ | ⟨x, s'⟩
  · simp
  · simp only [bind_assoc]
    refine bind_congr fun o => ?_
    cases o <;> simp

theorem scan_loop (f : γ → α → PyD σ γ) (z : γ) (src : Iterable σ α S) (body : C → γ → PyD σ (Flow C)) (s : S) (c : C)
    (total : γ) : (seqScan f z src).loop body (.running s total) c =
      Prod.fst <$> src.loop (breakScanBody f body) s (c, total) := by
  apply Refines.antisymm
  · refine loop_le (seqScan f z src) body (fun st c => match st with
      | .initial s => (do
          match ← body c z with
          | .stop c' => pure c'
          | .next c' => Prod.fst <$> src.loop (breakScanBody f body) s (c', z))
      | .running s total => Prod.fst <$> src.loop (breakScanBody f body) s (c, total)) ?_ (.running s total) c
    intro F hF st c
    cases st with
    | initial s =>
      simp only [seqScan, pure_bind, step_some]
      refine Refines.bind_right fun fl => ?_
      cases fl with
      | stop c' => exact Refines.refl _
      | next c' => exact hF (.running s z) c'
    | running s total =>
      rw [scan_next]
      simp only
      rw [loop_eq]
      simp only [map_bind]
      refine Refines.bind_right fun o => ?_
      rcases o with _ | ⟨x, s'⟩
      · exact Refines.of_eq (by simp)
      · simp only [step_some, breakScanBody, orBreak_eq, bind_assoc, map_bind]
        refine Refines.bind_right fun o => ?_
        rcases o with _ | t
        · exact Refines.of_eq (by simp)
        simp only [bind_assoc, pure_bind, map_bind, step_some]
        refine Refines.bind_right fun fl => ?_
        cases fl with
        | stop c' => exact Refines.of_eq (by simp [Flow.map])
        | next c' => exact hF (.running s' t) c'
  · refine loop_map_le Prod.fst src _ (fun s ct => (seqScan f z src).loop body (.running s ct.2) ct.1) ?_ s (c, total)
    rintro F hF s ⟨c, total⟩
    simp only
    rw [loop_eq, scan_next]
    simp only [map_bind]
    refine Refines.bind_right fun o => ?_
    rcases o with _ | ⟨x, s'⟩
    · exact Refines.of_eq (by simp)
    · simp only [step_some, breakScanBody, orBreak_eq, bind_assoc, map_bind]
      refine Refines.bind_right fun o => ?_
      rcases o with _ | t
      · exact Refines.of_eq (by simp)
      simp only [bind_assoc, pure_bind, map_bind, step_some]
      refine Refines.bind_right fun fl => ?_
      cases fl with
      | stop c' => exact Refines.of_eq (by simp [Flow.map])
      | next c' => exact hF s' (c', t)

theorem scan_forLoop (f : γ → α → PyD σ γ) (z : γ) (src : Iterable σ α S) (body : C → γ → PyD σ (Flow C)) (c : C) :
    (seqScan f z src).forLoop body c = (do
      let s ← src.iter
      match ← body c z with
      | .stop c' => pure c'
      | .next c' => Prod.fst <$> src.loop (breakScanBody f body) s (c', z)) := by
  simp only [forLoop, ← scan_loop f z]
  change ((src.iter >>= fun s => pure (Seq.ScanState.initial s)) >>= fun s => loop (seqScan f z src) body s c) = _
  simp only [bind_assoc, pure_bind]
  refine bind_congr fun s => ?_
  rw [loop_eq]
  simp only [seqScan, pure_bind, step_some]
  refine bind_congr fun fl => ?_
  cases fl <;> rfl

theorem enumerate_next (src : Iterable σ α S) (st : S × Nat) (k : Option ((Nat × α) × (S × Nat)) → PyD σ γ) :
    ((enumerate src).next st >>= k) = (do
      match ← src.next st.1 with
      | none => k none
      | some (x, s') => k (some ((st.2, x), (s', st.2 + 1)))) := by
  simp only [enumerate, bind_assoc]
  refine bind_congr fun o => ?_
  rcases o with _ | ⟨x, s'⟩ <;> simp

theorem mapi_loop (f : Nat → α → PyD σ β) (src : Iterable σ α S) (s : S) (i : Nat) (acc : List β) :
    (enumerate src).loop (breakMapBody (fun p => f p.1 p.2) (fun acc x => pure (.next (acc ++ [x])))) (s, i) acc =
      Prod.snd <$> src.loop (breakIndexBody f) s (i, acc) := by
  apply Refines.antisymm
  · refine loop_le (enumerate src) _ (fun st acc => Prod.snd <$> src.loop (breakIndexBody f) st.1 (st.2, acc)) ?_ (s, i) acc
    rintro F hF ⟨s, i⟩ acc
    rw [enumerate_next, loop_eq]
    simp only [map_bind]
    refine Refines.bind_right fun o => ?_
    rcases o with _ | ⟨x, s'⟩
    · exact Refines.of_eq (by simp)
    · simp only [step_some, breakMapBody, breakIndexBody, orBreak_eq, bind_assoc, map_bind]
      refine Refines.bind_right fun o => ?_
      rcases o with _ | y
      · exact Refines.of_eq (by simp)
      simp only [pure_bind, cont_next]
      exact hF (s', i + 1) _
  · refine loop_map_le Prod.snd src _ (fun s ia => (enumerate src).loop (breakMapBody (fun p => f p.1 p.2)
      (fun acc x => pure (.next (acc ++ [x])))) (s, ia.1) ia.2) ?_ s (i, acc)
    rintro F hF s ⟨i, acc⟩
    simp only
    rw [loop_eq, enumerate_next]
    simp only [map_bind]
    refine Refines.bind_right fun o => ?_
    rcases o with _ | ⟨x, s'⟩
    · exact Refines.of_eq (by simp)
    · simp only [step_some, breakMapBody, breakIndexBody, orBreak_eq, bind_assoc, map_bind]
      refine Refines.bind_right fun o => ?_
      rcases o with _ | y
      · exact Refines.of_eq (by simp)
      simp only [pure_bind, cont_next]
      exact hF s' (i + 1, _)

theorem mapi_forLoop (f : Nat → α → PyD σ β) (src : Iterable σ α S) :
    seqMapi f src = Prod.snd <$> src.forLoop (breakIndexBody f) (0, []) := by
  simp only [seqMapi, toList, mapObject_forLoop]
  simp only [forLoop, map_bind, ← mapi_loop]
  change ((src.iter >>= fun s => pure (s, 0)) >>= _) = _
  simp only [bind_assoc, pure_bind]

/-- going through a list with a loop that breaks off at `StopIteration` -/
theorem break_list (f : α → PyD σ β) (k : C → α → β → C) (base : List α) {w w' : σ} {xs : List α} {ys : List β}
    (hc : CallsReturn f w xs ys w') (c : C) (rest : List α) :
    ((ofList base : Iterable σ α _).loop (fun c x => orBreak (f x) c (fun y => pure (.next (k c x y)))) (xs ++ rest) c).exec w =
      ((ofList base : Iterable σ α _).loop (fun c x => orBreak (f x) c (fun y => pure (.next (k c x y)))) rest
        ((xs.zip ys).foldl (fun c p => k c p.1 p.2) c)).exec w' := by
  induction hc generalizing c with
  | nil => rfl
  | @cons w x y w1 xs ys w' call _ ih =>
    rw [List.cons_append, loop_ofList_cons, exec_bind]
    have : (orBreak (f x) c (fun y => (pure (.next (k c x y)) : PyD σ (Flow C)))).exec w = some (.ok (.next (k c x y)), w1) := by
      simp only [orBreak, PyD.exec] at call ⊢
      rw [call]
      rfl
    rw [this]
    exact ih _

/-- the next call -/
theorem break_next (f : α → PyD σ β) (k : C → α → β → C) (base : List α) (x : α) (c : C) (rest : List α) (w : σ) :
    ((ofList base : Iterable σ α _).loop (fun c x => orBreak (f x) c (fun y => pure (.next (k c x y)))) (x :: rest) c).exec w =
      match (f x).exec w with
      | none => none
      | some (.ok y, w') => ((ofList base : Iterable σ α _).loop (fun c x => orBreak (f x) c (fun y => pure (.next (k c x y)))) rest
          (k c x y)).exec w'
      | some (.error e, w') => if e = .stopIteration then some (.ok c, w') else some (.error e, w') := by
  rw [loop_ofList_cons, exec_bind]
  simp only [orBreak, PyD.exec]
  rcases f x w with _ | ⟨e | y, w'⟩
  · rfl
  · by_cases he : e = .stopIteration
    · simp only [he, if_true]; rfl
    · simp only [if_neg he]
  · rfl

theorem break_truncates (f : α → PyD σ β) (k : C → α → β → C) (fin : C → γ) {w w' : σ} {xs : List α} {ys : List β}
    (hc : CallsReturn f w xs ys w') (c : C) :
    Truncates f xs w' (fun l => PyD.exec (do
        let r ← (ofList l).forLoop (fun c x => orBreak (f x) c (fun y => pure (.next (k c x y)))) c
        pure (fin r)) w) (fin ((xs.zip ys).foldl (fun c p => k c p.1 p.2) c)) := by
  have e : ∀ l, PyD.exec (do
      let r ← (ofList l).forLoop (fun c x => orBreak (f x) c (fun y => pure (.next (k c x y)))) c
      pure (fin r)) w = match ((ofList l : Iterable σ α _).loop (fun c x => orBreak (f x) c (fun y => pure (.next (k c x y)))) l c).exec w with
        | none => none
        | some (.error e, w') => some (.error e, w')
        | some (.ok r, w') => some (.ok (fin r), w') := fun l => exec_bind _ _ _
  refine ⟨?_, fun x rest => ⟨fun w2 hf => ?_, fun er w2 hne hf => ?_, fun hf => ?_⟩⟩
  · have := break_list f k xs hc c []
    rw [List.append_nil] at this
    simp only [e]
    rw [this, loop_ofList_nil]
    rfl
  · simp only [e]
    rw [break_list f k _ hc, break_next, hf]
    rfl
  · simp only [e]
    rw [break_list f k _ hc, break_next, hf]
    simp only [if_neg hne]
  · simp only [e]
    rw [break_list f k _ hc, break_next, hf]

theorem break_index (f : Nat → α → PyD σ β) (base : List α) {w w' : σ} {xs : List α} {ys : List β} (i : Nat)
    (hc : CallsReturn (fun p : α × Nat => f p.2 p.1) w (xs.zipIdx i) ys w') (acc : List β) (rest : List α) :
    ((ofList base : Iterable σ α _).loop (breakIndexBody f) (xs ++ rest) (i, acc)).exec w =
      ((ofList base : Iterable σ α _).loop (breakIndexBody f) rest (i + xs.length, acc ++ ys)).exec w' := by
  induction xs generalizing i acc w ys with
  | nil => cases hc; simp
  | cons x xs ih =>
    rw [List.zipIdx_cons] at hc
    cases hc with
    | @cons _ _ y w1 _ ys _ call hr =>
      rw [List.cons_append, loop_ofList_cons, exec_bind]
      have : (breakIndexBody f (i, acc) x).exec w = some (.ok (.next (i + 1, acc ++ [y])), w1) := by
        simp only [breakIndexBody, orBreak, PyD.exec] at call ⊢
        rw [call]
        rfl
      rw [this]
      change ((ofList base : Iterable σ α _).loop (breakIndexBody f) (xs ++ rest) (i + 1, acc ++ [y])).exec w1 = _
      rw [ih (i + 1) hr, List.length_cons, List.append_assoc]
      congr 3
      omega

theorem index_next (f : Nat → α → PyD σ β) (base : List α) (x : α) (i : Nat) (acc : List β) (rest : List α) (w : σ) :
    ((ofList base : Iterable σ α _).loop (breakIndexBody f) (x :: rest) (i, acc)).exec w =
      match (f i x).exec w with
      | none => none
      | some (.ok y, w') => ((ofList base : Iterable σ α _).loop (breakIndexBody f) rest (i + 1, acc ++ [y])).exec w'
      | some (.error e, w') => if e = .stopIteration then some (.ok (i, acc), w') else some (.error e, w') := by
  rw [loop_ofList_cons, exec_bind]
  simp only [breakIndexBody, orBreak, PyD.exec]
  rcases f i x w with _ | ⟨e | y, w'⟩
  · rfl
  · by_cases he : e = .stopIteration
    · simp only [he, if_true]; rfl
    · simp only [if_neg he]
  · rfl

theorem unless_never {f : α → PyD σ β} (h : NoStopIteration f) (x : α) : unlessStopIteration (f x) = some <$> f x := by
  apply PyD.ext
  intro w
  rw [map_eq_pure_bind, exec_bind]
  simp only [unlessStopIteration, PyD.exec]
  have := h x w
  simp only [PyD.exec] at this
  rcases hf : f x w with _ | ⟨e | y, w'⟩ <;> simp only [caught]
  · cases e <;> first | rfl | exact absurd hf (this w')
  · rfl

theorem inGenerator_never {f : α → PyD σ β} (h : NoStopIteration f) (x : α) : inGenerator (f x) = f x := by
  apply PyD.ext
  intro w
  simp only [inGenerator, PyD.exec]
  have := h x w
  simp only [PyD.exec] at this
  rcases hf : f x w with _ | ⟨e | y, w'⟩ <;> simp only [framed]
  cases e <;> first | rfl | exact absurd hf (this w')

theorem orBreak_never {f : α → PyD σ β} (h : NoStopIteration f) (x : α) (c : C) (k : β → PyD σ (Flow C)) :
    orBreak (f x) c k = f x >>= k := by
  rw [orBreak_eq, unless_never h, map_eq_pure_bind, bind_assoc]
  simp only [pure_bind]

/-- a loop over a list whose body is a callback that ends -/
theorem list_ofPy (base xs : List α) (g : C → α → Py σ C) (c : C) :
    (ofList base : Iterable σ α _).loop (fun c x => do
      let c' ← PyD.ofPy (g c x)
      pure (.next c')) xs c = PyD.ofPy (Builtins.reduce g xs c) := by
  induction xs generalizing c with
  | nil => rw [loop_ofList_nil]; rfl
  | cons x xs ih =>
    rw [loop_ofList_cons, bind_assoc]
    apply PyD.ext
    intro w
    rw [exec_bind, exec_ofPy, exec_ofPy, Builtins.reduce, Py.exec_bind]
    rcases (g c x).exec w with ⟨_ | c', w'⟩
    · rfl
    · simp only [pure_bind, cont_next, ih]
      rfl

theorem ofPy_bind_pure (p : Py σ α) (g : α → β) : (PyD.ofPy p >>= fun a => pure (g a)) = (PyD.ofPy (p >>= fun a => pure (g a)) : PyD σ β) := by
  apply PyD.ext
  intro w
  rw [exec_bind, exec_ofPy, exec_ofPy, Py.exec_bind]
  rcases p.exec w with ⟨_ | _, _⟩ <;> rfl

theorem reduce_map (f : α → Py σ β) (xs : List α) (acc : List β) :
    Builtins.reduce (fun acc x => do let y ← f x; pure (acc ++ [y])) xs acc = Builtins.tupleMap.go f xs acc := by
  induction xs generalizing acc with
  | nil => rfl
  | cons x xs ih => simp only [Builtins.reduce, Builtins.tupleMap.go, bind_assoc, pure_bind, ih]

theorem reduce_filter (p : α → Py σ Bool) (xs acc : List α) :
    Builtins.reduce (fun acc x => do let b ← p x; pure (if b then acc ++ [x] else acc)) xs acc = Builtins.tupleFilter.go p xs acc := by
  induction xs generalizing acc with
  | nil => rfl
  | cons x xs ih =>
    simp only [Builtins.reduce, Builtins.tupleFilter.go, bind_assoc, pure_bind]
    refine bind_congr fun b => ?_
    cases b <;> simp only [if_true, Bool.false_eq_true, if_false, ih]

theorem reduce_collect (m : α → Py σ (Block β)) (xs : List α) (acc : List β) :
    Builtins.reduce (fun acc x => do let b ← m x; pure (acc ++ b.value)) xs acc = Block.collect.go m xs acc := by
  induction xs generalizing acc with
  | nil => rfl
  | cons x xs ih => simp only [Builtins.reduce, Block.collect.go, bind_assoc, pure_bind, ih]

theorem never_ofPy {f : α → Py σ β} (h : ∀ x w w', (f x).exec w ≠ (.error .stopIteration, w')) : NoStopIteration (fun x => PyD.ofPy (f x)) := by
  intro x w w' he
  rw [exec_ofPy] at he
  exact h x w w' (Option.some.inj he)

end Expression.StopIter
