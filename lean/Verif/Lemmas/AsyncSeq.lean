import Verif.Model.AsyncSeq
import Verif.Lemmas.Const

namespace Expression.Lemmas

open Iterable PyD Spec AsyncSeq

variable {σ α β γ S T C K : Type}

/-- the consumer's loop body after the generator's one: `k` are the generator's local variables -/
def after (body : C → β → PyD σ (Flow C)) (k : K) (c : C) : Act K β → PyD σ (Flow (K × C))
  | .stop => pure (.stop (k, c))
  | .skip k' => pure (.next (k', c))
  | .emit y k' => do
    let fl ← body c y
    pure (fl.map (fun c' => (k', c')))

/-- the loop body of a generator followed by that of its consumer -/
def genBody (gen : K → α → PyD σ (Act K β)) (body : C → β → PyD σ (Flow C)) (kc : K × C) (x : α) : PyD σ (Flow (K × C)) :=
  gen kc.1 x >>= after body kc.1 kc.2

/-- what `resume` does with the outcome of `loopNext` -/
def wrap : Option (β × (S × K)) → Option (β × Option (S × K))
  | none => none
  | some (y, st) => some (y, some st)

theorem resume_some (k0 : K) (gen : K → α → PyD σ (Act K β)) (src : Iterable σ α S) (st : S × K) :
    resume k0 gen src (some st) = wrap <$> loopNext gen src st := by
  rw [resume, map_eq_pure_bind]
  refine bind_congr fun o => ?_
  rcases o with _ | ⟨y, st⟩ <;> rfl

theorem resume_none (k0 : K) (gen : K → α → PyD σ (Act K β)) (src : Iterable σ α S) :
    resume k0 gen src none = (do let s ← src.iter; wrap <$> loopNext gen src (s, k0)) := by
  rw [resume]
  refine bind_congr fun s => ?_
  rw [map_eq_pure_bind]
  refine bind_congr fun o => ?_
  rcases o with _ | ⟨y, st⟩ <;> rfl

/-- one step of `loopNext`, followed by something -/
def stepNext (gen : K → α → PyD σ (Act K β)) (G : S × K → PyD σ (Option (β × (S × K)))) (k : K) :
    Option (α × S) → PyD σ (Option (β × (S × K)))
  | none => pure none
  | some (x, s') => gen k x >>= fun a => match a with
    | .emit y c' => pure (some (y, (s', c')))
    | .skip c' => G (s', c')
    | .stop => pure none

theorem loopNext_eq (gen : K → α → PyD σ (Act K β)) (src : Iterable σ α S) (st : S × K) :
    loopNext gen src st = src.next st.1 >>= stepNext gen (loopNext gen src) st.2 := by
  rw [loopNext]
  refine bind_congr fun o => ?_
  rcases o with _ | ⟨x, s'⟩
  · rfl
  · exact bind_congr fun a => by cases a <;> rfl

theorem generator_loop (k0 : K) (gen : K → α → PyD σ (Act K β)) (src : Iterable σ α S) (body : C → β → PyD σ (Flow C)) (s : S)
    (k : K) (c : C) :
    (generator k0 gen src).loop body (some (s, k)) c = Prod.snd <$> src.loop (genBody gen body) s (k, c) := by
  apply Refines.antisymm
  · refine loop_le (generator k0 gen src) body (fun st c => match st with
      | none => do let s ← src.iter; Prod.snd <$> src.loop (genBody gen body) s (k0, c)
      | some (s, k) => Prod.snd <$> src.loop (genBody gen body) s (k, c)) ?_ (some (s, k)) c
    intro F hF st c
    have key : ∀ sk, Refines (loopNext gen src sk >>= fun o => step body F c (wrap o))
        (Prod.snd <$> src.loop (genBody gen body) sk.1 (sk.2, c)) := by
      intro sk
      refine loopNext.fixpoint_induct gen src _ (admissible_bind_refines (fun i : S × K => i)
        (fun _ o => step body F c (wrap o)) (fun sk => Prod.snd <$> src.loop (genBody gen body) sk.1 (sk.2, c))) ?_ sk
      rintro G hG ⟨s, k⟩
      simp only
      rw [loop_eq]
      simp only [bind_assoc, map_bind]
      refine Refines.bind_right fun o => ?_
      rcases o with _ | ⟨x, s'⟩
      · exact Refines.of_eq (by simp [wrap])
      · simp only [step_some, genBody, bind_assoc, map_bind]
        refine Refines.bind_right fun a => ?_
        cases a with
        | stop => exact Refines.of_eq (by simp [wrap, after])
        | skip k' =>
          simp only [after, pure_bind, cont_next]
          exact hG (s', k')
        | emit y k' =>
          simp only [after, bind_assoc, pure_bind, wrap, step_some]
          refine Refines.bind_right fun fl => ?_
          cases fl with
          | stop c' => exact Refines.of_eq (by simp [Flow.map])
          | next c' => exact hF (some (s', k')) c'
    rcases st with _ | ⟨s, k⟩
    · simp only [generator, resume_none, bind_assoc, bind_map_left]
      exact Refines.bind_right fun s => key (s, k0)
    · simp only [generator, resume_some, bind_map_left]
      exact key (s, k)
  · refine loop_map_le Prod.snd src _ (fun s kc => (generator k0 gen src).loop body (some (s, kc.1)) kc.2) ?_ s (k, c)
    rintro F hF s ⟨k, c⟩
    simp only
    rw [loop_eq]
    simp only [generator, resume_some, bind_map_left]
    rw [loopNext_eq]
    simp only [bind_assoc, map_bind]
    refine Refines.bind_right fun o => ?_
    rcases o with _ | ⟨x, s'⟩
    · exact Refines.of_eq (by simp [stepNext, wrap])
    · simp only [step_some, genBody, bind_assoc, map_bind, stepNext]
      refine Refines.bind_right fun a => ?_
      cases a with
      | stop => exact Refines.of_eq (by simp [wrap, after])
      | skip k' =>
        simp only [after, pure_bind, cont_next]
        refine (hF s' (k', c)).trans (.of_eq ?_)
        rw [loop_eq]
        simp only [generator, resume_some, bind_map_left]
      | emit y k' =>
        simp only [after, bind_assoc, pure_bind, wrap, step_some]
        refine Refines.bind_right fun fl => ?_
        cases fl with
        | stop c' => exact Refines.of_eq (by simp [Flow.map])
        | next c' => exact hF s' (k', c')

theorem generator_forLoop (k0 : K) (gen : K → α → PyD σ (Act K β)) (src : Iterable σ α S) (body : C → β → PyD σ (Flow C))
    (c : C) : (generator k0 gen src).forLoop body c = Prod.snd <$> src.forLoop (genBody gen body) (k0, c) := by
  simp only [forLoop, map_bind, ← generator_loop k0]
  change (pure none >>= fun s => loop (generator k0 gen src) body s c) = _
  rw [pure_bind, loop_eq]
  simp only [generator, resume_none, bind_assoc, bind_map_left]
  refine bind_congr fun s => ?_
  rw [loop_eq]
  simp only [resume_some, bind_map_left]

/-- loop variables that are always the same can be left out -/
theorem loop_drop_unit (src : Iterable σ α S) (b1 : Unit × C → α → PyD σ (Flow (Unit × C))) (b2 : C → α → PyD σ (Flow C))
    (h : ∀ c x, b1 ((), c) x = (Flow.map (fun c' => ((), c'))) <$> b2 c x) (s : S) (c : C) :
    Prod.snd <$> src.loop b1 s ((), c) = src.loop b2 s c := by
  apply Refines.antisymm
  · refine loop_map_le Prod.snd src b1 (fun s c => src.loop b2 s c.2) ?_ s ((), c)
    rintro F hF s ⟨⟨⟩, c⟩
    rw [loop_eq]
    simp only [map_bind]
    refine Refines.bind_right fun o => ?_
    rcases o with _ | ⟨x, s'⟩
    · exact Refines.of_eq (by simp)
    · simp only [step_some, h, bind_map_left, map_bind]
      refine Refines.bind_right fun fl => ?_
      cases fl with
      | stop c' => exact Refines.of_eq (by simp [Flow.map])
      | next c' => exact hF s' ((), c')
  · refine loop_le src b2 (fun s c => Prod.snd <$> src.loop b1 s ((), c)) ?_ s c
    intro F hF s c
    rw [loop_eq]
    simp only [map_bind]
    refine Refines.bind_right fun o => ?_
    rcases o with _ | ⟨x, s'⟩
    · exact Refines.of_eq (by simp)
    · simp only [step_some, h, bind_map_left, map_bind]
      refine Refines.bind_right fun fl => ?_
      cases fl with
      | stop c' => exact Refines.of_eq (by simp [Flow.map])
      | next c' => exact hF s' c'

theorem forLoop_drop_unit (src : Iterable σ α S) (b1 : Unit × C → α → PyD σ (Flow (Unit × C))) (b2 : C → α → PyD σ (Flow C))
    (h : ∀ c x, b1 ((), c) x = (Flow.map (fun c' => ((), c'))) <$> b2 c x) (c : C) :
    Prod.snd <$> src.forLoop b1 ((), c) = src.forLoop b2 c := by
  simp only [forLoop, map_bind, loop_drop_unit src b1 b2 h]

theorem amap_forLoop (f : α → PyD σ β) (src : Iterable σ α S) (body : C → β → PyD σ (Flow C)) (c : C) :
    (AsyncSeq.map f src).forLoop body c = src.forLoop (mapBody f body) c := by
  rw [AsyncSeq.map, generator_forLoop, forLoop_drop_unit src _ (mapBody f body)]
  intro c x
  simp only [genBody, mapBody, bind_assoc, pure_bind, after, map_bind]
  refine bind_congr fun y => ?_
  rw [map_eq_pure_bind]

theorem afilter_forLoop (p : α → PyD σ Bool) (src : Iterable σ α S) (body : C → α → PyD σ (Flow C)) (c : C) :
    (AsyncSeq.filter p src).forLoop body c = src.forLoop (filterBody p body) c := by
  rw [AsyncSeq.filter, generator_forLoop, forLoop_drop_unit src _ (filterBody p body)]
  intro c x
  simp only [genBody, filterBody, bind_assoc, map_bind]
  refine bind_congr fun b => ?_
  cases b
  · simp [after, Flow.map]
  · simp [after]

theorem achoose_forLoop (f : α → PyD σ (Option β)) (src : Iterable σ α S) (body : C → β → PyD σ (Flow C)) (c : C) :
    (AsyncSeq.choose f src).forLoop body c = src.forLoop (chooseBody f body) c := by
  rw [AsyncSeq.choose, generator_forLoop, forLoop_drop_unit src _ (chooseBody f body)]
  intro c x
  simp only [genBody, chooseBody, bind_assoc, map_bind]
  refine bind_congr fun b => ?_
  cases b
  · simp [after, Flow.map]
  · simp [after]

theorem acollect_forLoop (m : α → PyD σ (Iterable σ β T)) (src : Iterable σ α S) (body : C → β → PyD σ (Flow C)) (c : C) :
    (AsyncSeq.collect m src).forLoop body c = src.forLoop (collectBody m body) c := collect_forLoop m src body c

theorem askip_forLoop (n : Int) (src : Iterable σ α S) (body : C → α → PyD σ (Flow C)) (c : C) :
    (AsyncSeq.skip n src).forLoop body c = Prod.snd <$> src.forLoop (skipBody n body) (0, c) := by
  rw [AsyncSeq.skip, generator_forLoop]
  congr 2
  funext ic x
  simp only [genBody, skipBody, pure_bind]
  by_cases h : (ic.1 : Int) < n
  · rw [if_pos h, if_neg (by omega)]; rfl
  · rw [if_neg h, if_pos (by omega)]; rfl

/-! ## scan -/

/-- a loop over the generator of `scan` that has yielded the initial state -/
def scanFrom (f : γ → α → PyD σ γ) (z : γ) (src : Iterable σ α S) (body : C → γ → PyD σ (Flow C)) (c : C) : PyD σ C := do
  let s ← src.iter
  Prod.fst <$> src.loop (scanBody f body) s (c, z)

theorem ascan_next (f : γ → α → PyD σ γ) (z : γ) (src : Iterable σ α S) (s : S) (total : γ) :
    (AsyncSeq.scan f z src).next (.running s total) = (do
      match ← src.next s with
      | none => pure none
      | some (x, s') => do let total' ← f total x; pure (some (total', .running s' total'))) := rfl

theorem ascan_next_began (f : γ → α → PyD σ γ) (z : γ) (src : Iterable σ α S) :
    (AsyncSeq.scan f z src).next .began = (do
      let s ← src.iter
      (AsyncSeq.scan f z src).next (.running s z)) := rfl

theorem ascan_running (f : γ → α → PyD σ γ) (z : γ) (src : Iterable σ α S) (body : C → γ → PyD σ (Flow C)) (s : S) (c : C)
    (total : γ) : (AsyncSeq.scan f z src).loop body (.running s total) c =
      Prod.fst <$> src.loop (scanBody f body) s (c, total) := by
  apply Refines.antisymm
  · refine loop_le (AsyncSeq.scan f z src) body (fun st c => match st with
      | .running s total => Prod.fst <$> src.loop (scanBody f body) s (c, total)
      | .began => scanFrom f z src body c
      | .fresh => body c z >>= cont (fun (_ : Unit) c' => scanFrom f z src body c') ()) ?_ (.running s total) c
    intro F hF st c
    have key : ∀ s total, Refines ((AsyncSeq.scan f z src).next (.running s total) >>= step body F c)
        (Prod.fst <$> src.loop (scanBody f body) s (c, total)) := by
      intro s total
      rw [ascan_next, loop_eq]
      simp only [map_bind, bind_assoc]
      refine Refines.bind_right fun o => ?_
      rcases o with _ | ⟨x, s'⟩
      · exact Refines.of_eq (by simp)
      · simp only [step_some, scanBody, bind_assoc, map_bind, pure_bind]
        refine Refines.bind_right fun t => Refines.bind_right fun fl => ?_
        cases fl with
        | stop c' => exact Refines.of_eq (by simp [Flow.map])
        | next c' => exact hF (.running s' t) c'
    cases st with
    | fresh =>
      change Refines ((pure (some (z, .began)) : PyD σ _) >>= step body F c) _
      rw [pure_bind, step_some]
      refine Refines.bind_right fun fl => ?_
      cases fl with
      | stop c' => exact Refines.refl _
      | next c' => exact hF .began c'
    | began =>
      rw [ascan_next_began, bind_assoc]
      exact Refines.bind_right fun s => key s z
    | running s total => exact key s total
  · refine loop_map_le Prod.fst src _ (fun s ct => (AsyncSeq.scan f z src).loop body (.running s ct.2) ct.1) ?_ s (c, total)
    rintro F hF s ⟨c, total⟩
    simp only
    rw [loop_eq, ascan_next]
    simp only [map_bind, bind_assoc]
    refine Refines.bind_right fun o => ?_
    rcases o with _ | ⟨x, s'⟩
    · exact Refines.of_eq (by simp)
    · simp only [step_some, scanBody, bind_assoc, map_bind, pure_bind]
      refine Refines.bind_right fun t => Refines.bind_right fun fl => ?_
      cases fl with
      | stop c' => exact Refines.of_eq (by simp [Flow.map])
      | next c' => exact hF s' (c', t)

theorem ascan_forLoop (f : γ → α → PyD σ γ) (z : γ) (src : Iterable σ α S) (body : C → γ → PyD σ (Flow C)) (c : C) :
    (AsyncSeq.scan f z src).forLoop body c = (do
      match ← body c z with
      | .stop c' => pure c'
      | .next c' => Prod.fst <$> src.forLoop (scanBody f body) (c', z)) := by
  have began : ∀ c, (AsyncSeq.scan f z src).loop body .began c = Prod.fst <$> src.forLoop (scanBody f body) (c, z) := by
    intro c
    rw [loop_eq, ascan_next_began, forLoop]
    simp only [bind_assoc, map_bind]
    refine bind_congr fun s => ?_
    rw [← ascan_running, loop_eq]
  rw [forLoop]
  change (pure AsyncSeq.ScanState.fresh >>= fun s => (AsyncSeq.scan f z src).loop body s c) = _
  rw [pure_bind, loop_eq]
  change ((pure (some (z, AsyncSeq.ScanState.began)) : PyD σ _) >>= step body _ c) = _
  rw [pure_bind, step_some]
  refine bind_congr fun fl => ?_
  cases fl with
  | stop c' => rfl
  | next c' => exact began c'

/-! ## append -/

/-- go on with the second loop unless the first one was left -/
def thenLoop (other : Iterable σ α T) (body : C → α → PyD σ (Flow C)) : Flow C → PyD σ C
  | .stop c => pure c
  | .next c => other.forLoop body c

/-- a loop over the generator of `append` in its first loop -/
def leftLoop (other : Iterable σ α T) (src : Iterable σ α S) (body : C → α → PyD σ (Flow C)) (s : S) (c : C) : PyD σ C :=
  src.loop (nestedBody body) s (.next c) >>= thenLoop other body

theorem append_right_loop (other : Iterable σ α T) (src : Iterable σ α S) (body : C → α → PyD σ (Flow C)) (t : T) (c : C) :
    Refines (other.loop body t c) ((append other src).loop body (.right t) c) := by
  refine loop_le other body (fun t c => (append other src).loop body (.right t) c) ?_ t c
  intro F hF t c
  rw [loop_eq]
  change Refines _ (appendRight other t >>= _)
  rw [appendRight, bind_assoc]
  refine Refines.bind_right fun o => ?_
  rcases o with _ | ⟨x, t'⟩
  · exact Refines.of_eq (by simp)
  · simp only [step_some, pure_bind]
    refine Refines.bind_right fun fl => ?_
    cases fl with
    | stop c' => exact Refines.refl _
    | next c' => exact hF t' c'

theorem append_left_ge (other : Iterable σ α T) (src : Iterable σ α S) (body : C → α → PyD σ (Flow C)) (s : S) (c : C) :
    Refines (leftLoop other src body s c) ((append other src).loop body (.left s) c) := by
  refine loop_bind_le src (nestedBody body) (fun i : S × C => i.1) (fun i => .next i.2) (fun _ => thenLoop other body)
    (fun i => (append other src).loop body (.left i.1) i.2) ?_ (s, c)
  rintro F hF ⟨s, c⟩
  simp only
  rw [loop_eq]
  change Refines _ (appendLeft other src s >>= _)
  rw [appendLeft, bind_assoc, bind_assoc]
  refine Refines.bind_right fun o => ?_
  rcases o with _ | ⟨x, s'⟩
  · simp only [step_none, pure_bind, thenLoop, bind_assoc, forLoop]
    refine Refines.bind_right fun t => ?_
    refine (append_right_loop other src body t c).trans ?_
    rw [loop_eq]
    exact Refines.refl _
  · simp only [step_some, nestedBody, bind_assoc, Flow.get, pure_bind]
    refine Refines.bind_right fun fl => ?_
    cases fl with
    | stop c' => exact Refines.of_eq (by simp [thenLoop])
    | next c' => exact hF (s', c')

theorem append_le (other : Iterable σ α T) (src : Iterable σ α S) (body : C → α → PyD σ (Flow C))
    (st : AppendState S T) (c : C) :
    Refines ((append other src).loop body st c) (match st with
      | .fresh => do let s ← src.iter; leftLoop other src body s c
      | .left s => leftLoop other src body s c
      | .right t => other.loop body t c) := by
  refine loop_le (append other src) body (fun st c => match st with
      | .fresh => do let s ← src.iter; leftLoop other src body s c
      | .left s => leftLoop other src body s c
      | .right t => other.loop body t c) ?_ st c
  intro F hF st c
  have right : ∀ t, Refines (appendRight other t >>= step body F c) (other.loop body t c) := by
    intro t
    rw [appendRight, bind_assoc, loop_eq]
    refine Refines.bind_right fun o => ?_
    rcases o with _ | ⟨x, t'⟩
    · exact Refines.of_eq (by simp)
    · simp only [step_some, pure_bind]
      refine Refines.bind_right fun fl => ?_
      cases fl with
      | stop c' => exact Refines.refl _
      | next c' => exact hF (.right t') c'
  have left : ∀ s, Refines (appendLeft other src s >>= step body F c) (leftLoop other src body s c) := by
    intro s
    rw [appendLeft, leftLoop, loop_eq]
    simp only [bind_assoc]
    refine Refines.bind_right fun o => ?_
    rcases o with _ | ⟨x, s'⟩
    · simp only [step_none, pure_bind, thenLoop, bind_assoc, forLoop]
      exact Refines.bind_right fun t => right t
    · simp only [step_some, nestedBody, bind_assoc, Flow.get, pure_bind]
      refine Refines.bind_right fun fl => ?_
      cases fl with
      | stop c' => exact Refines.of_eq (by simp [thenLoop])
      | next c' => simp only [pure_bind, cont_next]; exact hF (.left s') c'
  cases st with
  | fresh =>
    change Refines ((do let s ← src.iter; appendLeft other src s) >>= _) _
    rw [bind_assoc]
    exact Refines.bind_right left
  | left s => exact left s
  | right t => exact right t

theorem append_forLoop (other : Iterable σ α T) (src : Iterable σ α S) (body : C → α → PyD σ (Flow C)) (c : C) :
    (append other src).forLoop body c = nested src body c >>= thenLoop other body := by
  rw [nested_eq, bind_assoc]
  change (pure AppendState.fresh >>= fun s => (append other src).loop body s c) = _
  rw [pure_bind]
  apply Refines.antisymm
  · exact append_le other src body .fresh c
  · rw [loop_eq]
    change Refines _ ((do let s ← src.iter; appendLeft other src s) >>= _)
    rw [bind_assoc]
    refine Refines.bind_right fun s => ?_
    refine (append_left_ge other src body s c).trans ?_
    rw [loop_eq]
    exact Refines.refl _

end Expression.Lemmas
