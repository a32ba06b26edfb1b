import Verif.Model.Seq
import Verif.Spec.Loop
import Verif.Lemmas.PyD

/-!
# The `for` loop laws of the lazy combinators
-/

namespace Expression

open PyD Spec Iterable

variable {σ α β γ S T C : Type}

/-! ## map -/

theorem map_next (f : α → PyD σ β) (src : Iterable σ α S) (st : Option S) (k : Option (β × Option S) → PyD σ γ) :
    ((Seq.map f src).next st >>= k) = (do
      let s ← Seq.started src st
      match ← src.next s with
      | none => k none
      | some (x, s') => do let y ← f x; k (some (y, some s'))) := by
  simp only [Seq.map, bind_assoc]
  congr 1; funext s; congr 1; funext o
  rcases o with _ | ⟨x, s'⟩ <;> simp

theorem map_loop (f : α → PyD σ β) (src : Iterable σ α S) (body : C → β → PyD σ (Flow C)) (s : S) (c : C) :
    (Seq.map f src).loop body (some s) c = src.loop (mapBody f body) s c := by
  apply Refines.antisymm
  · refine loop_le (Seq.map f src) body
      (fun st c => do let s ← Seq.started src st; src.loop (mapBody f body) s c) ?_ (some s) c
      |>.trans (.of_eq (by simp [Seq.started]))
    intro F hF st c
    rw [map_next]
    refine Refines.bind_right fun s => ?_
    rw [loop_eq]
    refine Refines.bind_right fun o => ?_
    rcases o with _ | ⟨x, s'⟩
    · exact Refines.refl _
    · simp only [step_some, mapBody, bind_assoc]
      refine Refines.bind_right fun y => Refines.bind_right fun fl => ?_
      cases fl with
      | stop c' => exact Refines.refl _
      | next c' => exact (hF (some s') c').trans (.of_eq (by simp [Seq.started]))
  · refine loop_le src _ (fun s c => (Seq.map f src).loop body (some s) c) ?_ s c
    intro F hF s c
    rw [loop_eq, map_next]
    simp only [Seq.started, pure_bind]
    refine Refines.bind_right fun o => ?_
    rcases o with _ | ⟨x, s'⟩
    · exact Refines.refl _
    · simp only [step_some, mapBody, bind_assoc]
      refine Refines.bind_right fun y => Refines.bind_right fun fl => ?_
      cases fl with
      | stop c' => exact Refines.refl _
      | next c' => exact hF s' c'

theorem map_forLoop (f : α → PyD σ β) (src : Iterable σ α S) (body : C → β → PyD σ (Flow C)) (c : C) :
    (Seq.map f src).forLoop body c = src.forLoop (mapBody f body) c := by
  simp only [forLoop, ← map_loop]
  change (pure none >>= fun s => loop (Seq.map f src) body s c) = _
  rw [pure_bind, loop_eq, map_next]
  simp only [Seq.started]
  congr 1
  funext s
  rw [loop_eq, map_next]
  simp only [Seq.started, pure_bind]

/-! ## filter -/

theorem filter_loop (p : α → PyD σ Bool) (src : Iterable σ α S) (body : C → α → PyD σ (Flow C)) (s : S) (c : C) :
    (Seq.filter p src).loop body s c = src.loop (filterBody p body) s c := by
  apply Refines.antisymm
  · refine loop_le (Seq.filter p src) body (fun s c => src.loop (filterBody p body) s c) ?_ s c
    intro F hF s c
    refine Seq.filterNext.fixpoint_induct p src _ (admissible_bind_refines (fun i : S × C => i.1)
      (fun i => step body F i.2) (fun i => src.loop (filterBody p body) i.1 i.2)) ?_ (s, c)
    rintro G hG ⟨s, c⟩
    simp only
    rw [loop_eq]
    simp only [bind_assoc]
    refine Refines.bind_right fun o => ?_
    rcases o with _ | ⟨x, s'⟩
    · exact Refines.of_eq (pure_bind _ _)
    · simp only [step_some, filterBody, bind_assoc]
      refine Refines.bind_right fun b => ?_
      cases b
      · exact (hG (s', c)).trans (.of_eq (pure_bind _ _).symm)
      · simp only [if_true, pure_bind]
        refine Refines.bind_right fun fl => ?_
        cases fl with
        | stop c' => exact Refines.refl _
        | next c' => exact hF s' c'
  · refine loop_le src _ (fun s c => (Seq.filter p src).loop body s c) ?_ s c
    intro F hF s c
    rw [loop_eq]
    simp only [Seq.filter]
    rw [Seq.filterNext]
    simp only [bind_assoc]
    refine Refines.bind_right fun o => ?_
    rcases o with _ | ⟨x, s'⟩
    · exact Refines.of_eq (pure_bind _ _).symm
    · simp only [step_some, filterBody, bind_assoc]
      refine Refines.bind_right fun b => ?_
      cases b
      · simp only [Bool.false_eq_true, if_false, pure_bind]
        refine (hF s' c).trans (.of_eq ?_)
        rw [loop_eq]; rfl
      · simp only [if_true, pure_bind]
        refine Refines.bind_right fun fl => ?_
        cases fl with
        | stop c' => exact Refines.refl _
        | next c' => exact hF s' c'

theorem filter_forLoop (p : α → PyD σ Bool) (src : Iterable σ α S) (body : C → α → PyD σ (Flow C)) (c : C) :
    (Seq.filter p src).forLoop body c = src.forLoop (filterBody p body) c := by
  simp only [forLoop, filter_loop]; rfl

/-! ## skip -/

theorem skip_loop (n : Int) (src : Iterable σ α S) (body : C → α → PyD σ (Flow C)) (s : S) (i : Nat) (c : C) :
    (Seq.skip n src).loop body (some (s, i)) c = Prod.snd <$> src.loop (skipBody n body) s (i, c) := by
  apply Refines.antisymm
  · refine loop_le (Seq.skip n src) body (fun st c => match st with
      | none => do let s ← src.iter; Prod.snd <$> src.loop (skipBody n body) s (0, c)
      | some (s, i) => Prod.snd <$> src.loop (skipBody n body) s (i, c)) ?_ (some (s, i)) c
    intro F hF st c
    have key : ∀ si, Refines (Seq.skipNext n src si >>= step body F c)
        (Prod.snd <$> src.loop (skipBody n body) si.1 (si.2, c)) := by
      intro si
      refine Seq.skipNext.fixpoint_induct n src _ (admissible_bind_refines (fun i : S × Nat => i)
        (fun _ => step body F c) (fun si => Prod.snd <$> src.loop (skipBody n body) si.1 (si.2, c))) ?_ si
      rintro G hG ⟨s, i⟩
      simp only
      rw [loop_eq]
      simp only [bind_assoc, map_bind]
      refine Refines.bind_right fun o => ?_
      rcases o with _ | ⟨x, s'⟩
      · exact Refines.of_eq (by simp)
      · simp only [step_some, skipBody]
        by_cases h : (i : Int) < n
        · rw [if_pos h, if_neg (by omega)]
          simp only [pure_bind]
          exact hG (s', i + 1)
        · rw [if_neg h, if_pos (by omega)]
          simp only [bind_assoc, pure_bind, map_bind, step_some]
          refine Refines.bind_right fun fl => ?_
          cases fl with
          | stop c' => exact Refines.of_eq (by simp [Flow.map])
          | next c' => exact hF (some (s', i + 1)) c'
    rcases st with _ | ⟨s, i⟩
    · simp only [Seq.skip, bind_assoc]
      exact Refines.bind_right fun s => key (s, 0)
    · exact key (s, i)
  · refine loop_map_le Prod.snd src _ (fun s ic => (Seq.skip n src).loop body (some (s, ic.1)) ic.2) ?_ s (i, c)
    rintro F hF s ⟨i, c⟩
    simp only
    rw [loop_eq]
    simp only [Seq.skip]
    rw [Seq.skipNext]
    simp only [bind_assoc, map_bind]
    refine Refines.bind_right fun o => ?_
    rcases o with _ | ⟨x, s'⟩
    · exact Refines.of_eq (by simp)
    · simp only [step_some, skipBody]
      by_cases h : (i : Int) < n
      · rw [if_pos h, if_neg (by omega), pure_bind]
        refine (hF s' (i + 1, c)).trans (.of_eq ?_)
        rw [loop_eq]; rfl
      · rw [if_neg h, if_pos (by omega)]
        simp only [bind_assoc, pure_bind, map_bind, step_some]
        refine Refines.bind_right fun fl => ?_
        cases fl with
        | stop c' => exact Refines.of_eq (by simp [Flow.map])
        | next c' => exact hF s' (i + 1, c')

theorem skip_forLoop (n : Int) (src : Iterable σ α S) (body : C → α → PyD σ (Flow C)) (c : C) :
    (Seq.skip n src).forLoop body c = Prod.snd <$> src.forLoop (skipBody n body) (0, c) := by
  simp only [forLoop, map_bind, ← skip_loop]
  change (pure none >>= fun s => loop (Seq.skip n src) body s c) = _
  rw [pure_bind, loop_eq]
  simp only [Seq.skip, bind_assoc]
  congr 1
  funext s
  rw [loop_eq]

/-! ## take -/

theorem takeGen_next (n : Nat) (src : Iterable σ α S) (s : S) (i : Nat) (k : Option (α × Option (S × Nat)) → PyD σ γ) :
    ((Seq.takeGen n src).next (some (s, i)) >>= k) =
      if i + 1 = n then k none else (do
        match ← src.next s with
        | none => k none
        | some (x, s') => k (some (x, some (s', i + 1)))) := by
  simp only [Seq.takeGen]
  by_cases h : i + 1 = n
  · rw [if_pos h, if_pos (by omega), pure_bind]
  · rw [if_neg h, if_neg (by omega), bind_assoc]
    congr 1; funext o
    rcases o with _ | ⟨x, s'⟩ <;> simp

theorem takeGen_next_none (n : Nat) (src : Iterable σ α S) (k : Option (α × Option (S × Nat)) → PyD σ γ) :
    ((Seq.takeGen n src).next none >>= k) = (do
        let s ← src.iter
        match ← src.next s with
        | none => k none
        | some (x, s') => k (some (x, some (s', 0)))) := by
  simp only [Seq.takeGen, bind_assoc]
  congr 1; funext s
  congr 1; funext o
  rcases o with _ | ⟨x, s'⟩ <;> simp

/-- pull one element and go on with the generator of `take` suspended at its `i`-th `yield` -/
def takePull (n : Nat) (src : Iterable σ α S) (body : C → α → PyD σ (Flow C)) (s : S) (i : Nat) (c : C) : PyD σ C := do
  match ← src.next s with
  | none => pure c
  | some (x, s') => body c x >>= cont ((Seq.takeGen n src).loop body) (some (s', i))

theorem takeGen_loop_some (n : Nat) (src : Iterable σ α S) (body : C → α → PyD σ (Flow C)) (s : S) (i : Nat) (c : C) :
    (Seq.takeGen n src).loop body (some (s, i)) c = if i + 1 = n then pure c else takePull n src body s (i + 1) c := by
  rw [loop_eq, takeGen_next]
  split
  · rfl
  · refine bind_congr fun o => ?_
    rcases o with _ | ⟨x, s'⟩ <;> rfl

theorem takeGen_loop_none (n : Nat) (src : Iterable σ α S) (body : C → α → PyD σ (Flow C)) (c : C) :
    (Seq.takeGen n src).loop body none c = src.iter >>= fun s => takePull n src body s 0 c := by
  rw [loop_eq, takeGen_next_none]
  refine bind_congr fun s => bind_congr fun o => ?_
  rcases o with _ | ⟨x, s'⟩ <;> rfl

theorem take_loop (n : Nat) (src : Iterable σ α S) (body : C → α → PyD σ (Flow C)) (s : S) (i : Nat) (c : C) :
    takePull n src body s i c = Prod.snd <$> src.loop (takeBody n body) s (i, c) := by
  apply Refines.antisymm
  · have key : ∀ st c, Refines ((Seq.takeGen n src).loop body st c) (match st with
        | none => Prod.snd <$> src.forLoop (takeBody n body) (0, c)
        | some (s, i) => if i + 1 = n then pure c else Prod.snd <$> src.loop (takeBody n body) s (i + 1, c)) := by
      refine loop_le (Seq.takeGen n src) body (fun st c => match st with
        | none => Prod.snd <$> src.forLoop (takeBody n body) (0, c)
        | some (s, i) => if i + 1 = n then pure c else Prod.snd <$> src.loop (takeBody n body) s (i + 1, c)) ?_
      intro F hF st c
      have pull : ∀ s i, Refines (do
          match ← src.next s with
          | none => pure c
          | some (x, s') => body c x >>= cont F (some (s', i))) (Prod.snd <$> src.loop (takeBody n body) s (i, c)) := by
        intro s i
        rw [loop_eq]
        simp only [map_bind]
        refine Refines.bind_right fun o => ?_
        rcases o with _ | ⟨x, s'⟩
        · exact Refines.of_eq (by simp)
        · simp only [step_some, takeBody, bind_assoc, map_bind]
          refine Refines.bind_right fun fl => ?_
          cases fl with
          | stop c' => exact Refines.of_eq (by simp)
          | next c' =>
            simp only [cont_next]
            refine (hF (some (s', i)) c').trans (.of_eq ?_)
            simp only
            by_cases h : i + 1 = n
            · simp [if_pos h]
            · simp [if_neg h]
      rcases st with _ | ⟨s, i⟩
      · rw [takeGen_next_none]
        simp only [forLoop, map_bind]
        refine Refines.bind_right fun s => (Refines.of_eq ?_).trans (pull s 0)
        refine bind_congr fun o => ?_
        rcases o with _ | ⟨x, s'⟩ <;> rfl
      · rw [takeGen_next]
        simp only
        by_cases h : i + 1 = n
        · rw [if_pos h, if_pos h]; exact Refines.refl _
        · rw [if_neg h, if_neg h]
          refine (Refines.of_eq ?_).trans (pull s (i + 1))
          refine bind_congr fun o => ?_
          rcases o with _ | ⟨x, s'⟩ <;> rfl
    rw [takePull, loop_eq]
    simp only [map_bind]
    refine Refines.bind_right fun o => ?_
    rcases o with _ | ⟨x, s'⟩
    · exact Refines.of_eq (by simp)
    · simp only [step_some, takeBody, bind_assoc, map_bind]
      refine Refines.bind_right fun fl => ?_
      cases fl with
      | stop c' => exact Refines.of_eq (by simp)
      | next c' =>
        simp only [cont_next]
        refine (key (some (s', i)) c').trans (.of_eq ?_)
        simp only
        by_cases h : i + 1 = n
        · simp [if_pos h]
        · simp [if_neg h]
  · refine loop_map_le Prod.snd src _ (fun s ic => takePull n src body s ic.1 ic.2) ?_ s (i, c)
    rintro F hF s ⟨i, c⟩
    simp only [takePull]
    simp only [map_bind]
    refine Refines.bind_right fun o => ?_
    rcases o with _ | ⟨x, s'⟩
    · exact Refines.of_eq (by simp)
    · simp only [step_some, takeBody, bind_assoc, map_bind]
      refine Refines.bind_right fun fl => ?_
      cases fl with
      | stop c' => exact Refines.of_eq (by simp)
      | next c' =>
        simp only [cont_next]
        rw [takeGen_loop_some]
        by_cases h : i + 1 = n
        · simp only [if_pos h, pure_bind, cont_stop, map_pure]; exact Refines.refl _
        · simp only [if_neg h, pure_bind, cont_next]; exact hF s' (i + 1, c')

theorem take_forLoop (n : Nat) (hn : 0 < n) (src : Iterable σ α S) (body : C → α → PyD σ (Flow C)) (c : C) :
    (Seq.take n src).forLoop body c = Prod.snd <$> src.forLoop (takeBody n body) (0, c) := by
  rw [Seq.take, if_pos (by omega)]
  simp only [forLoop, map_bind, ← take_loop]
  change (pure none >>= fun s => loop (Seq.takeGen n src) body s c) = _
  rw [pure_bind, takeGen_loop_none]

theorem take_zero_forLoop (n : Int) (hn : n ≤ 0) (src : Iterable σ α S) (body : C → α → PyD σ (Flow C)) (c : C) :
    (Seq.take n src).forLoop body c = pure c := by
  rw [Seq.take, if_neg (by omega)]
  simp only [forLoop, pure_bind]
  rw [loop_eq]; simp

/-! ## collect, choose, concat -/

/-- the body of the inner loop of `nested` -/
def nestedBody (body : C → α → PyD σ (Flow C)) (fc : Flow C) (y : α) : PyD σ (Flow (Flow C)) := do
  match ← body fc.get y with
  | .stop c' => pure (.stop (.stop c'))
  | .next c' => pure (.next (.next c'))

theorem nested_eq (it : Iterable σ α S) (body : C → α → PyD σ (Flow C)) (c : C) :
    nested it body c = it.iter >>= fun t => it.loop (nestedBody body) t (.next c) := rfl

theorem collectNext_outer (m : α → PyD σ (Iterable σ β T)) (src : Iterable σ α S) (s : S)
    (k : Option (β × Seq.CollectState S (Iterable σ β T) T) → PyD σ γ) :
    (Seq.collectNext m src (.outer s) >>= k) = (do
      match ← src.next s with
      | none => k none
      | some (x, s') => do
        let it ← m x
        let t ← it.iter
        Seq.collectNext m src (.inner s' it t) >>= k) := by
  rw [Seq.collectNext, bind_assoc]
  refine bind_congr fun o => ?_
  rcases o with _ | ⟨x, s'⟩ <;> simp

theorem collectNext_inner (m : α → PyD σ (Iterable σ β T)) (src : Iterable σ α S) (s : S) (it : Iterable σ β T) (t : T)
    (k : Option (β × Seq.CollectState S (Iterable σ β T) T) → PyD σ γ) :
    (Seq.collectNext m src (.inner s it t) >>= k) = (do
      match ← it.next t with
      | some (y, t') => k (some (y, .inner s it t'))
      | none => Seq.collectNext m src (.outer s) >>= k) := by
  conv => lhs; rw [Seq.collectNext, bind_assoc]
  refine bind_congr fun o => ?_
  rcases o with _ | ⟨x, s'⟩ <;> simp

theorem collect_loop_le (m : α → PyD σ (Iterable σ β T)) (src : Iterable σ α S) (body : C → β → PyD σ (Flow C)) (s : S)
    (c : C) : Refines ((Seq.collect m src).loop body (.outer s) c) (src.loop (collectBody m body) s c) := by
  refine loop_le (Seq.collect m src) body (fun st c => match st with
    | .fresh => src.forLoop (collectBody m body) c
    | .outer s => src.loop (collectBody m body) s c
    | .inner s it t => it.loop (nestedBody body) t (.next c) >>= cont (src.loop (collectBody m body)) s) ?_ (.outer s) c
  intro F hF st c
  refine Seq.collectNext.fixpoint_induct m src _ (admissible_bind_refines id (fun _ => step body F c)
    (fun st => match st with
    | .fresh => src.forLoop (collectBody m body) c
    | .outer s => src.loop (collectBody m body) s c
    | .inner s it t => it.loop (nestedBody body) t (.next c) >>= cont (src.loop (collectBody m body)) s)) ?_ st
  intro H hH st
  cases st with
  | fresh =>
    simp only [id, bind_assoc, forLoop]
    exact Refines.bind_right fun s => hH (.outer s)
  | outer s =>
    simp only [id, bind_assoc]
    rw [loop_eq]
    refine Refines.bind_right fun o => ?_
    rcases o with _ | ⟨x, s'⟩
    · exact Refines.of_eq (by simp)
    · simp only [step_some, collectBody, nested_eq, bind_assoc]
      refine Refines.bind_right fun it => Refines.bind_right fun t => hH (.inner s' it t)
  | inner s it t =>
    simp only [id, bind_assoc]
    rw [loop_eq, bind_assoc]
    refine Refines.bind_right fun o => ?_
    rcases o with _ | ⟨y, t'⟩
    · simp only [step_none, pure_bind, cont_next]
      exact hH (.outer s)
    · simp only [pure_bind, step_some, nestedBody, bind_assoc, Flow.get]
      refine Refines.bind_right fun fl => ?_
      cases fl with
      | stop c' => exact Refines.of_eq (by simp)
      | next c' =>
        simp only [cont_next, pure_bind]
        exact hF (.inner s it t') c'

theorem collect_loop_ge (m : α → PyD σ (Iterable σ β T)) (src : Iterable σ α S) (body : C → β → PyD σ (Flow C)) (s : S)
    (c : C) : Refines (src.loop (collectBody m body) s c) ((Seq.collect m src).loop body (.outer s) c) := by
  refine loop_le src _ (fun s c => (Seq.collect m src).loop body (.outer s) c) ?_ s c
  intro F hF s c
  rw [loop_eq]
  change Refines _ (Seq.collectNext m src (.outer s) >>= _)
  rw [collectNext_outer]
  refine Refines.bind_right fun o => ?_
  rcases o with _ | ⟨x, s'⟩
  · exact Refines.refl _
  · simp only [step_some, collectBody, nested_eq, bind_assoc]
    refine Refines.bind_right fun it => Refines.bind_right fun t => ?_
    refine (loop_bind_le it (nestedBody body) (fun i : T × C => i.1) (fun i => .next i.2) (fun _ => cont F s')
      (fun i => (Seq.collect m src).loop body (.inner s' it i.1) i.2) ?_ (t, c)).trans (.of_eq ?_)
    · rintro G hG ⟨t, c⟩
      simp only
      rw [loop_eq]
      change Refines _ (Seq.collectNext m src (.inner s' it t) >>= _)
      rw [collectNext_inner, bind_assoc]
      refine Refines.bind_right fun o => ?_
      rcases o with _ | ⟨y, t'⟩
      · simp only [step_none, pure_bind, cont_next]
        refine (hF s' c).trans (.of_eq ?_)
        rw [loop_eq]; rfl
      · simp only [step_some, nestedBody, bind_assoc, Flow.get]
        refine Refines.bind_right fun fl => ?_
        cases fl with
        | stop c' => exact Refines.of_eq (by simp)
        | next c' =>
          simp only [cont_next, pure_bind]
          exact hG (t', c')
    · simp only; rw [loop_eq]; rfl

theorem collect_loop (m : α → PyD σ (Iterable σ β T)) (src : Iterable σ α S) (body : C → β → PyD σ (Flow C)) (s : S)
    (c : C) : (Seq.collect m src).loop body (.outer s) c = src.loop (collectBody m body) s c :=
  (collect_loop_le m src body s c).antisymm (collect_loop_ge m src body s c)

theorem collect_forLoop (m : α → PyD σ (Iterable σ β T)) (src : Iterable σ α S) (body : C → β → PyD σ (Flow C)) (c : C) :
    (Seq.collect m src).forLoop body c = src.forLoop (collectBody m body) c := by
  simp only [forLoop, ← collect_loop]
  change (pure .fresh >>= fun s => loop (Seq.collect m src) body s c) = _
  rw [pure_bind, loop_eq]
  change (Seq.collectNext m src .fresh >>= _) = _
  rw [Seq.collectNext, bind_assoc]
  refine bind_congr fun s => ?_
  rw [loop_eq]; rfl

theorem nested_optional (o : Option α) (body : C → α → PyD σ (Flow C)) (c : C) :
    nested (ofList o.toList) body c = match o with
      | some y => body c y
      | none => pure (.next c) := by
  rw [nested_eq]
  cases o with
  | none =>
    change (pure [] >>= fun t => loop (ofList []) (nestedBody body) t (.next c)) = _
    rw [pure_bind, loop_ofList_nil]
  | some y =>
    change (pure [y] >>= fun t => loop (ofList [y]) (nestedBody body) t (.next c)) = _
    rw [pure_bind, loop_ofList_cons]
    simp only [nestedBody, bind_assoc, Flow.get]
    have h : ∀ fl : Flow C, ((match fl with
        | .stop c' => pure (.stop (.stop c'))
        | .next c' => pure (.next (.next c')) : PyD σ (Flow (Flow C))) >>=
          cont ((ofList [y] : Iterable σ α _).loop (nestedBody body)) []) = pure fl := by
      intro fl
      cases fl with
      | stop c' => simp
      | next c' => simp only [pure_bind, cont_next, loop_ofList_nil]
    exact (bind_congr h).trans (bind_pure (body c y))

theorem choose_forLoop (f : α → PyD σ (Option β)) (src : Iterable σ α S) (body : C → β → PyD σ (Flow C)) (c : C) :
    (Seq.choose f src).forLoop body c = src.forLoop (chooseBody f body) c := by
  rw [Seq.choose, collect_forLoop]
  congr 1
  funext c x
  simp only [collectBody, chooseBody, bind_assoc, pure_bind, nested_optional]
  refine bind_congr fun o => ?_
  cases o <;> rfl

/-! ## scan -/

theorem scan_next (f : γ → α → PyD σ γ) (z : γ) (src : Iterable σ α S) (s : S) (total : γ) {δ : Type}
    (k : Option (γ × Seq.ScanState S γ) → PyD σ δ) :
    ((Seq.scan f z src).next (.running s total) >>= k) = (do
      match ← src.next s with
      | none => k none
      | some (x, s') => do let total' ← f total x; k (some (total', .running s' total'))) := by
  simp only [Seq.scan, bind_assoc]
  refine bind_congr fun o => ?_
  rcases o with _ | ⟨x, s'⟩ <;> simp

theorem scan_loop (f : γ → α → PyD σ γ) (z : γ) (src : Iterable σ α S) (body : C → γ → PyD σ (Flow C)) (s : S) (c : C)
    (total : γ) : (Seq.scan f z src).loop body (.running s total) c =
      Prod.fst <$> src.loop (scanBody f body) s (c, total) := by
  apply Refines.antisymm
  · refine loop_le (Seq.scan f z src) body (fun st c => match st with
      | .initial s => (do
          match ← body c z with
          | .stop c' => pure c'
          | .next c' => Prod.fst <$> src.loop (scanBody f body) s (c', z))
      | .running s total => Prod.fst <$> src.loop (scanBody f body) s (c, total)) ?_ (.running s total) c
    intro F hF st c
    cases st with
    | initial s =>
      simp only [Seq.scan, pure_bind, step_some]
      refine Refines.bind_right fun fl => ?_
      cases fl with
      | stop c' => exact Refines.refl _
      | next c' => exact hF (.running s z) c'
    | running s total =>
      rw [scan_next]
      simp only
      rw [loop_eq]
      simp only [map_bind]
      refine Refines.bind_right fun o => ?_
      rcases o with _ | ⟨x, s'⟩
      · exact Refines.of_eq (by simp)
      · simp only [step_some, scanBody, bind_assoc, map_bind, pure_bind]
        refine Refines.bind_right fun t => Refines.bind_right fun fl => ?_
        cases fl with
        | stop c' => exact Refines.of_eq (by simp [Flow.map])
        | next c' => exact hF (.running s' t) c'
  · refine loop_map_le Prod.fst src _ (fun s ct => (Seq.scan f z src).loop body (.running s ct.2) ct.1) ?_ s (c, total)
    rintro F hF s ⟨c, total⟩
    simp only
    rw [loop_eq, scan_next]
    simp only [map_bind]
    refine Refines.bind_right fun o => ?_
    rcases o with _ | ⟨x, s'⟩
    · exact Refines.of_eq (by simp)
    · simp only [step_some, scanBody, bind_assoc, map_bind, pure_bind]
      refine Refines.bind_right fun t => Refines.bind_right fun fl => ?_
      cases fl with
      | stop c' => exact Refines.of_eq (by simp [Flow.map])
      | next c' => exact hF s' (c', t)

theorem scan_forLoop (f : γ → α → PyD σ γ) (z : γ) (src : Iterable σ α S) (body : C → γ → PyD σ (Flow C)) (c : C) :
    (Seq.scan f z src).forLoop body c = (do
      let s ← src.iter
      match ← body c z with
      | .stop c' => pure c'
      | .next c' => Prod.fst <$> src.loop (scanBody f body) s (c', z)) := by
  simp only [forLoop, ← scan_loop f z]
  change ((src.iter >>= fun s => pure (Seq.ScanState.initial s)) >>= fun s => loop (Seq.scan f z src) body s c) = _
  simp only [bind_assoc, pure_bind]
  refine bind_congr fun s => ?_
  rw [loop_eq]
  simp only [Seq.scan, pure_bind, step_some]
  refine bind_congr fun fl => ?_
  cases fl <;> rfl

/-! ## zip, pairwise, delay -/

theorem zip_next (src1 : Iterable σ α S) (src2 : Iterable σ β T) (s : S) (t : T) {δ : Type}
    (k : Option ((α × β) × (S × T)) → PyD σ δ) :
    ((Seq.zip src1 src2).next (s, t) >>= k) = (do
      match ← src1.next s with
      | none => k none
      | some (x, s') => do
        match ← src2.next t with
        | none => k none
        | some (y, t') => k (some ((x, y), (s', t')))) := by
  simp only [Seq.zip, bind_assoc]
  refine bind_congr fun o => ?_
  rcases o with _ | ⟨x, s'⟩
  · simp
  · simp only [bind_assoc]
    refine bind_congr fun o => ?_
    rcases o with _ | ⟨y, t'⟩ <;> simp

theorem zip_loop (src1 : Iterable σ α S) (src2 : Iterable σ β T) (body : C → α × β → PyD σ (Flow C)) (s : S) (t : T)
    (c : C) : (Seq.zip src1 src2).loop body (s, t) c = Prod.fst <$> src1.loop (zipBody src2 body) s (c, t) := by
  apply Refines.antisymm
  · refine loop_le (Seq.zip src1 src2) body (fun st c => Prod.fst <$> src1.loop (zipBody src2 body) st.1 (c, st.2)) ?_
      (s, t) c
    rintro F hF ⟨s, t⟩ c
    rw [zip_next]
    simp only
    rw [loop_eq]
    simp only [map_bind]
    refine Refines.bind_right fun o => ?_
    rcases o with _ | ⟨x, s'⟩
    · exact Refines.of_eq (by simp)
    · simp only [step_some, zipBody, bind_assoc, map_bind]
      refine Refines.bind_right fun o => ?_
      rcases o with _ | ⟨y, t'⟩
      · exact Refines.of_eq (by simp)
      · simp only [bind_assoc, pure_bind]
        refine Refines.bind_right fun fl => ?_
        cases fl with
        | stop c' => exact Refines.of_eq (by simp [Flow.map])
        | next c' => exact hF (s', t') c'
  · refine loop_map_le Prod.fst src1 _ (fun s ct => (Seq.zip src1 src2).loop body (s, ct.2) ct.1) ?_ s (c, t)
    rintro F hF s ⟨c, t⟩
    simp only
    rw [loop_eq, zip_next]
    simp only [map_bind]
    refine Refines.bind_right fun o => ?_
    rcases o with _ | ⟨x, s'⟩
    · exact Refines.of_eq (by simp)
    · simp only [step_some, zipBody, bind_assoc, map_bind]
      refine Refines.bind_right fun o => ?_
      rcases o with _ | ⟨y, t'⟩
      · exact Refines.of_eq (by simp)
      · simp only [bind_assoc, pure_bind]
        refine Refines.bind_right fun fl => ?_
        cases fl with
        | stop c' => exact Refines.of_eq (by simp [Flow.map])
        | next c' => exact hF s' (c', t')

theorem zip_forLoop (src1 : Iterable σ α S) (src2 : Iterable σ β T) (body : C → α × β → PyD σ (Flow C)) (c : C) :
    (Seq.zip src1 src2).forLoop body c = (do
      let s ← src1.iter
      let t ← src2.iter
      Prod.fst <$> src1.loop (zipBody src2 body) s (c, t)) := by
  simp only [forLoop, ← zip_loop]
  simp only [Seq.zip, bind_assoc, pure_bind]

theorem pairwise_next_some (src : Iterable σ α S) (s : S) (old : α) {δ : Type}
    (k : Option ((α × α) × (S × Option α)) → PyD σ δ) :
    ((Seq.pairwise src).next (s, some old) >>= k) = (do
      match ← src.next s with
      | none => k none
      | some (new, s') => k (some ((old, new), (s', some new)))) := by
  simp only [Seq.pairwise, bind_assoc]
  refine bind_congr fun o => ?_
  rcases o with _ | ⟨x, s'⟩ <;> simp

theorem pairwise_next_none (src : Iterable σ α S) (s : S) {δ : Type}
    (k : Option ((α × α) × (S × Option α)) → PyD σ δ) :
    ((Seq.pairwise src).next (s, none) >>= k) = (do
      match ← src.next s with
      | none => k none
      | some (old, s') => (Seq.pairwise src).next (s', some old) >>= k) := by
  simp only [Seq.pairwise, bind_assoc]
  refine bind_congr fun o => ?_
  rcases o with _ | ⟨x, s'⟩
  · simp
  · simp only [bind_assoc]

theorem pairwise_loop (src : Iterable σ α S) (body : C → α × α → PyD σ (Flow C)) (s : S) (c : C) (o : Option α) :
    (Seq.pairwise src).loop body (s, o) c = Prod.fst <$> src.loop (pairBody body) s (c, o) := by
  have some_case : ∀ s c old, (Seq.pairwise src).loop body (s, some old) c =
      Prod.fst <$> src.loop (pairBody body) s (c, some old) := by
    intro s c old
    apply Refines.antisymm
    · refine loop_bind_le (Seq.pairwise src) body (fun i : S × α × C => (i.1, some i.2.1)) (fun i => i.2.2)
        (fun _ => pure) (fun i => Prod.fst <$> src.loop (pairBody body) i.1 (i.2.2, some i.2.1)) ?_ (s, old, c)
        |> fun h => (Refines.of_eq (bind_pure _).symm).trans h
      rintro F hF ⟨s, old, c⟩
      simp only [bind_pure] at hF ⊢
      rw [pairwise_next_some, loop_eq]
      simp only [map_bind]
      refine Refines.bind_right fun o => ?_
      rcases o with _ | ⟨x, s'⟩
      · exact Refines.of_eq (by simp)
      · simp only [step_some, pairBody, bind_assoc, map_bind, pure_bind]
        refine Refines.bind_right fun fl => ?_
        cases fl with
        | stop c' => exact Refines.of_eq (by simp [Flow.map])
        | next c' => exact hF (s', x, c')
    · have := loop_bind_le src (pairBody body) (fun i : S × α × C => i.1) (fun i => (i.2.2, some i.2.1))
        (fun _ r => pure r.1) (fun i => (Seq.pairwise src).loop body (i.1, some i.2.1) i.2.2) ?_ (s, old, c)
      · rw [map_eq_pure_bind]; exact this
      rintro F hF ⟨s, old, c⟩
      simp only
      rw [loop_eq, pairwise_next_some]
      simp only [bind_assoc]
      refine Refines.bind_right fun o => ?_
      rcases o with _ | ⟨x, s'⟩
      · exact Refines.of_eq (by simp)
      · simp only [step_some, pairBody, bind_assoc, pure_bind]
        refine Refines.bind_right fun fl => ?_
        cases fl with
        | stop c' => exact Refines.of_eq (by simp [Flow.map])
        | next c' => exact hF (s', x, c')
  cases o with
  | some old => exact some_case s c old
  | none =>
    rw [loop_eq, pairwise_next_none, loop_eq]
    simp only [map_bind]
    refine bind_congr fun o => ?_
    rcases o with _ | ⟨x, s'⟩
    · simp
    · simp only [step_some, pairBody, pure_bind, cont_next, ← some_case]
      rw [loop_eq]

theorem pairwise_forLoop (src : Iterable σ α S) (body : C → α × α → PyD σ (Flow C)) (c : C) :
    (Seq.pairwise src).forLoop body c = Prod.fst <$> src.forLoop (pairBody body) (c, none) := by
  simp only [forLoop, map_bind, ← pairwise_loop]
  simp only [Seq.pairwise, bind_assoc, pure_bind]

theorem delay_loop (g : PyD σ (Iterable σ α T)) (it : Iterable σ α T) (body : C → α → PyD σ (Flow C)) (t : T) (c : C) :
    (Seq.delay g).loop body (it, t) c = it.loop body t c := by
  apply Refines.antisymm
  · refine loop_le (Seq.delay g) body (fun st c => st.1.loop body st.2 c) ?_ (it, t) c
    rintro F hF ⟨it, t⟩ c
    simp only [Seq.delay, bind_assoc]
    rw [loop_eq]
    refine Refines.bind_right fun o => ?_
    rcases o with _ | ⟨x, s'⟩
    · exact Refines.of_eq (by simp)
    · simp only [pure_bind, step_some]
      refine Refines.bind_right fun fl => ?_
      cases fl with
      | stop c' => exact Refines.refl _
      | next c' => exact hF (it, s') c'
  · refine loop_le it body (fun s c => (Seq.delay g).loop body (it, s) c) ?_ t c
    intro F hF s c
    rw [loop_eq]
    simp only [Seq.delay, bind_assoc]
    refine Refines.bind_right fun o => ?_
    rcases o with _ | ⟨x, s'⟩
    · exact Refines.of_eq (by simp)
    · simp only [pure_bind, step_some]
      refine Refines.bind_right fun fl => ?_
      cases fl with
      | stop c' => exact Refines.refl _
      | next c' => exact hF s' c'

theorem delay_forLoop (g : PyD σ (Iterable σ α T)) (body : C → α → PyD σ (Flow C)) (c : C) :
    (Seq.delay g).forLoop body c = g >>= fun it => it.forLoop body c := by
  simp only [forLoop, ← delay_loop g]
  simp only [Seq.delay, bind_assoc, pure_bind]

end Expression
