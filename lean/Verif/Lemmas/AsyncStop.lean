import Verif.Lemmas.AsyncSeq
import Verif.Spec.AsyncStop

/-! Lemmas about `StopAsyncIteration`: the loops of `Model/AsyncStop.lean` as loops of `Model/PyD.lean`. -/

namespace Expression.Lemmas.AsyncStop

open PyD Expression.AsyncStop Spec.AsyncStop

variable {σ α β γ S T C K : Type}

/-- what an iterator does, the end being `none` -/
def view (it : AsyncIterable σ α S) (iter : PyD σ S) : Iterable σ α S where
  iter := iter
  next s := (it.anext s).run

/-- `StopAsyncIteration` leaves the loop with `none` -/
def opt (p : PyA σ (Flow C)) : PyD σ (Flow (Option C)) := do
  match ← p.run with
  | none => pure (.stop none)
  | some fl => pure (fl.map some)

/-- `b` is `body`, whose `StopAsyncIteration` leaves the loop with `none` -/
def Matches (b : Option C → α → PyD σ (Flow (Option C))) (body : C → α → PyA σ (Flow C)) : Prop := ∀ c x, b (some c) x = opt (body c x)

/-- such a loop body -/
def optBody (body : C → α → PyA σ (Flow C)) (o : Option C) (x : α) : PyD σ (Flow (Option C)) :=
  match o with
  | none => pure (.stop none)
  | some c => opt (body c x)

theorem optBody_matches (body : C → α → PyA σ (Flow C)) : Matches (optBody body) body := fun _ _ => rfl

/-- go on with the value, unless there was `StopAsyncIteration` -/
def orNone (k : α → PyA σ β) : Option α → PyD σ (Option β)
  | none => pure none
  | some x => (k x).run

theorem run_bind (p : PyA σ α) (k : α → PyA σ β) : (p >>= k).run = p.run >>= orNone k := by
  refine (bind_congr fun o => ?_ : (p.run >>= _) = _)
  cases o <;> rfl

theorem run_ask (it : AsyncIterable σ α S) (s : S) (k : Option (α × S) → PyA σ β) :
    (ask it s >>= k).run = (it.anext s).run >>= fun o => (k o).run := by
  rw [run_bind]
  change ((it.anext s).run >>= fun o => pure (some o)) >>= orNone k = _
  rw [bind_assoc]
  exact bind_congr fun o => pure_bind _ _

/-- one round of a loop -/
def round (body : C → α → PyA σ (Flow C)) (F : S → C → PyA σ C) (c : C) : Option (α × S) → PyA σ C
  | none => pure c
  | some (x, s') => body c x >>= fun fl => match fl with
    | .stop c' => pure c'
    | .next c' => F s' c'

theorem round_run (body : C → α → PyA σ (Flow C)) (F : S → C → PyA σ C) (c : C) (it : AsyncIterable σ α S) (s : S) :
    ((do
      match ← ask it s with
      | none => pure c
      | some (x, s') =>
        match ← body c x with
        | .stop c' => pure c'
        | .next c' => F s' c' : PyA σ C)).run = (it.anext s).run >>= fun o => (round body F c o).run := by
  refine (run_ask _ _ _).trans ?_
  refine bind_congr fun o => ?_
  rcases o with _ | ⟨x, s'⟩
  · rfl
  · simp only [round]

theorem loop_run (it : AsyncIterable σ α S) (iter : PyD σ S) {body : C → α → PyA σ (Flow C)} {b : Option C → α → PyD σ (Flow (Option C))}
    (hb : Matches b body) (s : S) (c : C) :
    (AsyncStop.loop it body s c).run = (view it iter).loop b s (some c) := by
  apply Refines.antisymm
  · refine AsyncStop.loop.fixpoint_induct it body (fun F => ∀ s c, Refines (F s c).run ((view it iter).loop b s (some c)))
      (admissible_refines2 (γ := Option C) fun s c => (view it iter).loop b s (some c)) ?_ s c
    intro F hF s c
    rw [Iterable.loop_eq]
    refine (Refines.of_eq (round_run body F c it s)).trans ?_
    refine Refines.bind_right fun o => ?_
    rcases o with _ | ⟨x, s'⟩
    · exact Refines.refl _
    · simp only [round, run_bind, Iterable.step_some, hb c x, opt, bind_assoc]
      refine Refines.bind_right fun o => ?_
      cases o with
      | none => exact Refines.refl _
      | some fl =>
        cases fl with
        | stop c' => exact Refines.refl _
        | next c' => exact hF s' c'
  · intro w r hr
    refine Iterable.loop_post (view it iter) b (fun s o w r => ∀ c, o = some c → (AsyncStop.loop it body s c).run.exec w = some r)
      ?_ s (some c) w r hr c rfl
    rintro F hF s o w r hr c rfl
    have e : (AsyncStop.loop it body s c).run = (it.anext s).run >>= fun o => (round body (AsyncStop.loop it body) c o).run := by
      rw [AsyncStop.loop]
      exact round_run body (AsyncStop.loop it body) c it s
    rw [e]
    revert hr
    refine (?_ : Refines _ _) w r
    have hF' : ∀ s c, Refines (F s (some c)) (AsyncStop.loop it body s c).run := fun s c w r h => hF s (some c) w r h c rfl
    refine Refines.bind_right fun o => ?_
    rcases o with _ | ⟨x, s'⟩
    · exact Refines.refl _
    · simp only [round, run_bind, Iterable.step_some, hb c x, opt, bind_assoc]
      refine Refines.bind_right fun o => ?_
      cases o with
      | none => exact Refines.refl _
      | some fl =>
        cases fl with
        | stop c' => exact Refines.refl _
        | next c' => exact hF' s' c'

/-- the outcome of a body with other loop variables -/
def toFlow {D : Type} {out : D → Option C} (inj : C → D) : Flow C ⊕ {d // out d = none} → PyD σ (Flow D)
  | .inl fl => pure (fl.map inj)
  | .inr d => pure (.stop d.1)

/-- the outcome of the body itself -/
def toOption {D : Type} {out : D → Option C} : Flow C ⊕ {d // out d = none} → PyD σ (Option (Flow C))
  | .inl fl => pure (some fl)
  | .inr _ => pure none

/-- a loop with other loop variables: `inj` says which, and `out` how to read them at the end, where they may say that there was `StopAsyncIteration` -/
theorem loop_sim {D : Type} (it : AsyncIterable σ α S) (iter : PyD σ S) {inj : C → D} {out : D → Option C} (hout : ∀ c, out (inj c) = some c)
    {body : C → α → PyA σ (Flow C)} {b : D → α → PyD σ (Flow D)} (q : C → α → PyD σ (Flow C ⊕ {d // out d = none}))
    (hb : ∀ c x, b (inj c) x = q c x >>= toFlow inj) (hq : ∀ c x, (body c x).run = q c x >>= toOption) (s : S) (c : C) :
    out <$> (view it iter).loop b s (inj c) = (AsyncStop.loop it body s c).run := by
  apply Refines.antisymm
  · have key : ∀ w r, ((view it iter).loop b s (inj c)).exec w = some r → (AsyncStop.loop it body s c).run.exec w = some (r.1.map out, r.2) := by
      intro w r hr
      refine Iterable.loop_post (view it iter) b (fun s d w r => ∀ c, d = inj c → (AsyncStop.loop it body s c).run.exec w = some (r.1.map out, r.2))
        ?_ s (inj c) w r hr c rfl
      rintro F hF s d w r hr c rfl
      have e : (AsyncStop.loop it body s c).run = (it.anext s).run >>= fun o => (round body (AsyncStop.loop it body) c o).run := by
        rw [AsyncStop.loop]
        exact round_run body (AsyncStop.loop it body) c it s
      rw [e]
      rw [exec_bind] at hr ⊢
      have hv : (view it iter).next s = (it.anext s).run := rfl
      rw [hv] at hr
      rcases h1 : (it.anext s).run.exec w with _ | ⟨e | o, w1⟩ <;> rw [h1] at hr <;> simp only at hr ⊢
      · cases hr
      · cases hr; rfl
      · rcases o with _ | ⟨x, s'⟩
        · cases hr
          change some (Except.ok (some c), w1) = some (Except.ok (out (inj c)), w1)
          rw [hout]
        · simp only [Iterable.step_some, hb, bind_assoc] at hr
          simp only [round, run_bind, hq, bind_assoc]
          rw [exec_bind] at hr ⊢
          rcases h2 : (q c x).exec w1 with _ | ⟨e | y, w2⟩ <;> rw [h2] at hr <;> simp only at hr ⊢
          · cases hr
          · cases hr; rfl
          · rcases y with fl | ⟨d, hd⟩
            · cases fl with
              | stop c' =>
                cases hr
                change some (Except.ok (some c'), w2) = some (Except.ok (out (inj c')), w2)
                rw [hout]
              | next c' => exact hF s' (inj c') w2 r hr c' rfl
            · cases hr
              change some (Except.ok none, w2) = some (Except.ok (out d), w2)
              rw [hd]
    intro w r hr
    rw [map_eq_pure_bind, exec_bind] at hr
    rcases h : ((view it iter).loop b s (inj c)).exec w with _ | ⟨e | d, w'⟩ <;> rw [h] at hr <;> cases hr
    · exact key w _ h
    · exact key w _ h
  · refine AsyncStop.loop.fixpoint_induct it body (fun F => ∀ s c, Refines (F s c).run (out <$> (view it iter).loop b s (inj c)))
      (admissible_refines2 (γ := Option C) fun s c => out <$> (view it iter).loop b s (inj c)) ?_ s c
    intro F hF s c
    rw [Iterable.loop_eq]
    refine (Refines.of_eq (round_run body F c it s)).trans ?_
    rw [map_bind]
    refine Refines.bind_right fun o => ?_
    rcases o with _ | ⟨x, s'⟩
    · refine Refines.of_eq ?_
      simp only [round, Iterable.step_none, map_pure, hout]
      rfl
    · simp only [round, run_bind, Iterable.step_some, hb c x, hq c x, map_bind, bind_assoc]
      refine Refines.bind_right fun y => ?_
      rcases y with fl | ⟨d, hd⟩
      · cases fl with
        | stop c' =>
          refine Refines.of_eq ?_
          simp only [toOption, toFlow, pure_bind, Flow.map, Iterable.cont_stop, map_pure, hout, orNone]
          rfl
        | next c' => exact hF s' c'
      · refine Refines.of_eq ?_
        simp only [toOption, toFlow, pure_bind, Iterable.cont_stop, map_pure, hd, orNone]

/-- the source as the code of a generator sees it -/
def walked (src : AsyncIterable σ α S) : Iterable σ α S where
  iter := asRuntimeError src.aiter
  next s := asRuntimeError (ask src s)

theorem view_guarded (src : AsyncIterable σ α S) : view (guarded src) (asRuntimeError src.aiter) = walked src := rfl

theorem guarded_forLoop (src : AsyncIterable σ α S) {body : C → α → PyA σ (Flow C)} {b : Option C → α → PyD σ (Flow (Option C))}
    (hb : Matches b body) (c : C) :
    (AsyncStop.forLoop (guarded src) body c).run = (walked src).forLoop b (some c) := by
  rw [AsyncStop.forLoop, run_bind, Iterable.forLoop]
  change ((asRuntimeError src.aiter >>= fun s => pure (some s)) >>= _) = _
  rw [bind_assoc]
  refine bind_congr fun s => ?_
  rw [pure_bind]
  exact loop_run (guarded src) (asRuntimeError src.aiter) hb s c

theorem guarded_sim {D : Type} (src : AsyncIterable σ α S) {inj : C → D} {out : D → Option C} (hout : ∀ c, out (inj c) = some c)
    {body : C → α → PyA σ (Flow C)} {b : D → α → PyD σ (Flow D)} (q : C → α → PyD σ (Flow C ⊕ {d // out d = none}))
    (hb : ∀ c x, b (inj c) x = q c x >>= toFlow inj) (hq : ∀ c x, (body c x).run = q c x >>= toOption) (c : C) :
    out <$> (walked src).forLoop b (inj c) = (AsyncStop.forLoop (guarded src) body c).run := by
  rw [AsyncStop.forLoop, run_bind, Iterable.forLoop, map_bind]
  change _ = ((asRuntimeError src.aiter >>= fun s => pure (some s)) >>= _)
  rw [bind_assoc]
  refine bind_congr fun s => ?_
  rw [pure_bind]
  exact loop_sim (guarded src) (asRuntimeError src.aiter) hout q hb hq s c

theorem asRuntimeError_bind (p : PyA σ α) (k : α → PyA σ β) :
    asRuntimeError (p >>= k) = asRuntimeError p >>= fun x => asRuntimeError (k x) := by
  apply PyD.ext
  intro w
  rw [exec_bind]
  change asRuntimeError (p >>= k) w = match asRuntimeError p w with | none => _ | some (.error e, w') => _ | some (.ok a, w') => _
  unfold asRuntimeError
  rw [run_bind, exec_bind]
  rcases p.run.exec w with _ | ⟨e | o, w'⟩
  · rfl
  · rfl
  · cases o <;> rfl

theorem asRuntimeError_pure (x : α) : asRuntimeError (pure x : PyA σ α) = pure x := rfl

theorem inFrame_run (code : PyA σ (Option β)) : (inFrame code).run = asRuntimeError code := by
  apply PyD.ext
  intro w
  change framed (code.run.exec w) = asRuntimeError code w
  unfold asRuntimeError
  rcases code.run.exec w with _ | ⟨e | o, w'⟩
  · rfl
  · cases e <;> rfl
  · rcases o with _ | _ | _ <;> rfl

open Lean.Order in
theorem admissible_asRuntimeError {A γ : Type} (g : A → PyD σ γ) :
    admissible (fun (f : A → PyA σ γ) => ∀ a, Refines (asRuntimeError (f a)) (g a)) := by
  have h : (fun (f : A → PyA σ γ) => ∀ a, Refines (asRuntimeError (f a)) (g a)) =
      (fun f => ∀ a w r, (f a).run.exec w = some r → (g a).exec w = asRuntimeError (OptionT.mk (fun w => some (r.1, w)) : PyA σ γ) r.2) := by
    funext f
    apply propext
    have key : ∀ a w r, (f a).run.exec w = some r → asRuntimeError (f a) w = asRuntimeError (OptionT.mk (fun w => some (r.1, w)) : PyA σ γ) r.2 := by
      intro a w r h
      unfold asRuntimeError
      rw [h]
      rfl
    have some' : ∀ (r : Except PyErr (Option γ) × σ), ∃ y, asRuntimeError (OptionT.mk (fun w => some (r.1, w)) : PyA σ γ) r.2 = some y := by
      rintro ⟨e | o, w'⟩
      · exact ⟨_, rfl⟩
      · cases o <;> exact ⟨_, rfl⟩
    constructor
    · intro h a w r hr
      obtain ⟨y, hy⟩ := some' r
      rw [hy]
      exact h a w y ((key a w r hr).trans hy)
    · intro h a w r hr
      rcases hf : (f a).run.exec w with _ | x
      · have : asRuntimeError (f a) w = none := by unfold asRuntimeError; rw [hf]
        rw [PyD.exec, this] at hr
        cases hr
      · rw [h a w x hf, ← key a w x hf]
        exact hr
  rw [h]
  exact admissible_post1 (γ := Option γ) (fun a w r => (g a).exec w = asRuntimeError (OptionT.mk (fun w => some (r.1, w)) : PyA σ γ) r.2)

theorem loopNext_asRuntimeError (body : K → α → PyA σ (AsyncSeq.Act K β)) (src : AsyncIterable σ α S) (st : S × K) :
    asRuntimeError (AsyncStop.loopNext body src st) = AsyncSeq.loopNext (fun c x => asRuntimeError (body c x)) (walked src) st := by
  apply Refines.antisymm
  · refine AsyncStop.loopNext.fixpoint_induct body src
      (fun F => ∀ st, Refines (asRuntimeError (F st)) (AsyncSeq.loopNext (fun c x => asRuntimeError (body c x)) (walked src) st))
      (admissible_asRuntimeError _) ?_ st
    intro F hF st
    rw [Lemmas.loopNext_eq]
    refine (Refines.of_eq (asRuntimeError_bind _ _)).trans ?_
    refine Refines.bind_right fun o => ?_
    rcases o with _ | ⟨x, s'⟩
    · exact Refines.refl _
    · refine (Refines.of_eq (asRuntimeError_bind _ _)).trans ?_
      refine Refines.bind_right fun a => ?_
      cases a with
      | emit y c' => exact Refines.refl _
      | stop => exact Refines.refl _
      | skip c' => exact hF (s', c')
  · refine AsyncSeq.loopNext.fixpoint_induct (fun c x => asRuntimeError (body c x)) (walked src)
      (fun F => ∀ st, Refines (F st) (asRuntimeError (AsyncStop.loopNext body src st))) (admissible_refines1 _) ?_ st
    intro F hF st
    rw [AsyncStop.loopNext]
    refine Refines.trans ?_ (Refines.of_eq (asRuntimeError_bind _ _).symm)
    refine Refines.bind_right fun o => ?_
    rcases o with _ | ⟨x, s'⟩
    · exact Refines.refl _
    · refine Refines.trans ?_ (Refines.of_eq (asRuntimeError_bind _ _).symm)
      refine Refines.bind_right fun a => ?_
      cases a with
      | emit y c' => exact Refines.refl _
      | stop => exact Refines.refl _
      | skip c' => exact hF (s', c')

theorem generator_anext (c : K) (body : K → α → PyA σ (AsyncSeq.Act K β)) (src : AsyncIterable σ α S) :
    view (AsyncStop.generator c body src) (pure none) = AsyncSeq.generator c (fun c x => asRuntimeError (body c x)) (walked src) := by
  unfold view AsyncSeq.generator
  congr 1
  funext st
  refine (inFrame_run _).trans ?_
  rcases st with _ | st
  · rw [AsyncStop.resume, AsyncSeq.resume]
    refine (asRuntimeError_bind _ _).trans (bind_congr fun s => ?_)
    refine (asRuntimeError_bind _ _).trans ?_
    rw [loopNext_asRuntimeError]
    refine bind_congr fun o => ?_
    rcases o with _ | ⟨y, st⟩ <;> rfl
  · rw [AsyncStop.resume, AsyncSeq.resume]
    refine (asRuntimeError_bind _ _).trans ?_
    rw [loopNext_asRuntimeError]
    refine bind_congr fun o => ?_
    rcases o with _ | ⟨y, st⟩ <;> rfl

theorem generator_forLoop_run (k : K) (gen : K → α → PyA σ (AsyncSeq.Act K β)) (src : AsyncIterable σ α S) (body : C → β → PyA σ (Flow C)) (c : C) :
    (AsyncStop.forLoop (AsyncStop.generator k gen src) body c).run =
      (AsyncSeq.generator k (fun c x => asRuntimeError (gen c x)) (walked src)).forLoop (optBody body) (some c) := by
  rw [← generator_anext]
  change (AsyncStop.loop (AsyncStop.generator k gen src) body none c).run = (pure none >>= _)
  rw [pure_bind, loop_run _ (pure none) (optBody_matches body)]

theorem opt_lift (p : PyD σ β) (k : β → PyA σ (Flow C)) : opt (OptionT.lift p >>= k) = p >>= fun y => opt (k y) := by
  unfold opt
  rw [run_bind, bind_assoc]
  change ((p >>= fun y => pure (some y)) >>= _) = _
  rw [bind_assoc]
  refine bind_congr fun y => ?_
  rw [pure_bind]
  rfl

theorem map_forLoop (f : α → PyA σ β) (src : AsyncIterable σ α S) (body : C → β → PyA σ (Flow C)) (c : C) :
    AsyncStop.forLoop (AsyncStop.map f src) body c = AsyncStop.forLoop (guarded src) (mapBody f body) c := by
  apply OptionT.ext
  rw [AsyncStop.map, generator_forLoop_run () _ src body c]
  refine (congrArg (fun g => (AsyncSeq.generator () g (walked src)).forLoop (optBody body) (some c))
    (funext fun _ => funext fun x => asRuntimeError_bind _ _)).trans
    ((Lemmas.amap_forLoop (fun x => asRuntimeError (f x)) (walked src) _ _).trans (guarded_forLoop src ?_ c).symm)
  exact fun c x => (opt_lift _ _).symm

theorem filter_forLoop (p : α → PyA σ Bool) (src : AsyncIterable σ α S) (body : C → α → PyA σ (Flow C)) (c : C) :
    AsyncStop.forLoop (AsyncStop.filter p src) body c = AsyncStop.forLoop (guarded src) (filterBody p body) c := by
  apply OptionT.ext
  rw [AsyncStop.filter, generator_forLoop_run () _ src body c]
  refine (congrArg (fun g => (AsyncSeq.generator () g (walked src)).forLoop (optBody body) (some c))
    (funext fun _ => funext fun x => (asRuntimeError_bind _ _).trans (bind_congr fun b => ?_))).trans
    ((Lemmas.afilter_forLoop (fun x => asRuntimeError (p x)) (walked src) _ _).trans (guarded_forLoop src ?_ c).symm)
  · cases b <;> rfl
  · refine fun c x => Eq.trans ?_ (opt_lift _ _).symm
    refine bind_congr fun b => ?_
    cases b <;> rfl

theorem choose_forLoop (f : α → PyA σ (Option β)) (src : AsyncIterable σ α S) (body : C → β → PyA σ (Flow C)) (c : C) :
    AsyncStop.forLoop (AsyncStop.choose f src) body c = AsyncStop.forLoop (guarded src) (chooseBody f body) c := by
  apply OptionT.ext
  rw [AsyncStop.choose, generator_forLoop_run () _ src body c]
  refine (congrArg (fun g => (AsyncSeq.generator () g (walked src)).forLoop (optBody body) (some c))
    (funext fun _ => funext fun x => (asRuntimeError_bind _ _).trans (bind_congr fun b => ?_))).trans
    ((Lemmas.achoose_forLoop (fun x => asRuntimeError (f x)) (walked src) _ _).trans (guarded_forLoop src ?_ c).symm)
  · cases b <;> rfl
  · refine fun c x => Eq.trans ?_ (opt_lift _ _).symm
    refine bind_congr fun b => ?_
    cases b <;> rfl

theorem scan_anext (f : γ → α → PyA σ γ) (z : γ) (src : AsyncIterable σ α S) :
    view (AsyncStop.scan f z src) (pure .fresh) = AsyncSeq.scan (fun r x => asRuntimeError (f r x)) z (walked src) := by
  have next : ∀ s r, asRuntimeError (scanNext f src s r) = (do
      match ← (walked src).next s with
      | none => pure none
      | some (value, s') =>
        let result ← asRuntimeError (f r value)
        pure (some (result, AsyncSeq.ScanState.running s' result))) := by
    intro s r
    rw [scanNext]
    refine (asRuntimeError_bind _ _).trans (bind_congr fun o => ?_)
    rcases o with _ | ⟨x, s'⟩
    · rfl
    · exact asRuntimeError_bind _ _
  unfold view AsyncSeq.scan
  congr 1
  funext st
  refine (inFrame_run _).trans ?_
  rcases st with _ | _ | ⟨s, r⟩
  · rfl
  · exact (asRuntimeError_bind _ _).trans (bind_congr fun s => next s z)
  · exact next s r

theorem scan_forLoop (f : γ → α → PyA σ γ) (z : γ) (src : AsyncIterable σ α S) (body : C → γ → PyA σ (Flow C)) (c : C) :
    AsyncStop.forLoop (AsyncStop.scan f z src) body c = (do
      match ← body c z with
      | .stop c' => pure c'
      | .next c' => Prod.fst <$> AsyncStop.forLoop (guarded src) (scanBody f body) (c', z)) := by
  apply OptionT.ext
  change (AsyncStop.loop (AsyncStop.scan f z src) body .fresh c).run = _
  rw [loop_run _ (pure .fresh) (optBody_matches body), scan_anext]
  have h := Lemmas.ascan_forLoop (fun r x => asRuntimeError (f r x)) z (walked src) (optBody body) (some c)
  refine Eq.trans ?_ (h.trans ?_)
  · rfl
  · rw [run_bind]
    change opt (body c z) >>= _ = _
    rw [opt, bind_assoc]
    refine bind_congr fun o => ?_
    rcases o with _ | fl
    · rfl
    · cases fl with
      | stop c' => rfl
      | next c' =>
        simp only [pure_bind, Flow.map, orNone]
        have hm : ∀ p : PyA σ (C × γ), (Prod.fst <$> p).run = Option.map Prod.fst <$> p.run := fun p => by
          rw [map_eq_pure_bind, run_bind, map_eq_pure_bind]
          refine bind_congr fun o => ?_
          cases o <;> rfl
        rw [hm, ← guarded_sim src (D := Option C × γ) (inj := fun ct => (some ct.1, ct.2)) (out := fun d => d.1.map (fun c => (c, d.2))) (fun _ => rfl)
          (b := Spec.scanBody (fun r x => asRuntimeError (f r x)) (optBody body))
          (fun ct x => do
            let total ← asRuntimeError (f ct.2 x)
            match ← (body ct.1 total).run with
            | none => pure (.inr ⟨(none, total), rfl⟩)
            | some fl => pure (.inl (fl.map (fun c' => (c', total)))))]
        · rw [← comp_map]
          congr 1
          funext d
          rcases d with ⟨_ | c, t⟩ <;> rfl
        · intro ct x
          simp only [Spec.scanBody, optBody, opt, bind_assoc]
          refine bind_congr fun total => bind_congr fun o => ?_
          rcases o with _ | fl
          · rfl
          · cases fl <;> rfl
        · intro ct x
          simp only [scanBody, run_bind, bind_assoc]
          refine Eq.trans (bind_assoc _ _ _) ?_
          refine bind_congr fun total => ?_
          rw [pure_bind]
          simp only [orNone, run_bind]
          refine bind_congr fun o => ?_
          rcases o with _ | fl
          · rfl
          · rfl

/-- the state of `collect`, with the iterables as the code of the generator sees them -/
def seen : Seq.CollectState S (AsyncIterable σ β T) T → Seq.CollectState S (Iterable σ β T) T
  | .fresh => .fresh
  | .outer s => .outer s
  | .inner s it t => .inner s (walked it) t

/-- the answer of `collect` likewise -/
def seenNext (o : Option (β × Seq.CollectState S (AsyncIterable σ β T) T)) : Option (β × Seq.CollectState S (Iterable σ β T) T) :=
  o.map (fun p => (p.1, seen p.2))

/-- the outcome of `h <$> asRuntimeError p`, by that of `p` -/
def outcome (h : α → β) : Except PyErr (Option α) × σ → Except PyErr β × σ
  | (.error e, w) => (.error (replaced e), w)
  | (.ok none, w) => (.error (.failwith "async generator raised StopAsyncIteration"), w)
  | (.ok (some x), w) => (.ok (h x), w)

theorem exec_outcome (h : α → β) (p : PyA σ α) (w : σ) : (h <$> asRuntimeError p : PyD σ β).exec w = (p.run.exec w).map (outcome h) := by
  rw [map_eq_pure_bind, exec_bind]
  change (match asRuntimeError p w with
    | none => none
    | some (Except.error e, w') => some (Except.error e, w')
    | some (Except.ok a, w') => (pure (h a) : PyD σ β).exec w') = _
  unfold asRuntimeError
  rcases p.run.exec w with _ | ⟨e | o, w'⟩
  · rfl
  · rfl
  · cases o <;> rfl

theorem outcome_iff (h : α → β) (p : PyA σ α) (q : PyD σ β) :
    Refines (h <$> asRuntimeError p) q ↔ ∀ w r, p.run.exec w = some r → q.exec w = some (outcome h r) := by
  constructor
  · intro hp w r hr
    apply hp
    rw [exec_outcome, hr]
    rfl
  · intro hp w r hr
    rw [exec_outcome] at hr
    rcases hx : p.run.exec w with _ | x <;> rw [hx] at hr <;> cases hr
    exact hp w x hx

/-- `mapping` as the code of the generator sees it -/
def mapped (m : α → PyA σ (AsyncIterable σ β T)) (x : α) : PyD σ (Iterable σ β T) := do
  let it ← asRuntimeError (m x)
  pure (walked it)

theorem collectNext_asRuntimeError (m : α → PyA σ (AsyncIterable σ β T)) (src : AsyncIterable σ α S) (st : Seq.CollectState S (AsyncIterable σ β T) T) :
    seenNext <$> asRuntimeError (AsyncStop.collectNext m src st) = Seq.collectNext (mapped m) (walked src) (seen st) := by
  apply Refines.antisymm
  · refine (outcome_iff _ _ _).mpr ?_
    refine AsyncStop.collectNext.fixpoint_induct m src
      (fun F => ∀ st w r, (F st).run.exec w = some r → (Seq.collectNext (mapped m) (walked src) (seen st)).exec w = some (outcome seenNext r))
      (admissible_post1 (γ := Option (Option (β × Seq.CollectState S (AsyncIterable σ β T) T)))
        (fun st w r => (Seq.collectNext (mapped m) (walked src) (seen st)).exec w = some (outcome seenNext r))) ?_ st
    intro F hF st
    have hF' : ∀ st, Refines (seenNext <$> asRuntimeError (F st)) (Seq.collectNext (mapped m) (walked src) (seen st)) :=
      fun st => (outcome_iff _ _ _).mpr (hF st)
    refine (outcome_iff _ _ _).mp ?_
    rw [Seq.collectNext.eq_def]
    cases st with
    | fresh =>
      refine (Refines.of_eq (congrArg (seenNext <$> ·) (asRuntimeError_bind _ _))).trans ?_
      rw [map_bind]
      exact Refines.bind_right fun s => hF' (.outer s)
    | outer s =>
      refine (Refines.of_eq (congrArg (seenNext <$> ·) (asRuntimeError_bind _ _))).trans ?_
      rw [map_bind]
      refine Refines.bind_right fun o => ?_
      rcases o with _ | ⟨x, s'⟩
      · exact Refines.refl _
      · refine (Refines.of_eq (congrArg (seenNext <$> ·) (asRuntimeError_bind _ _))).trans ?_
        simp only [mapped, map_bind, bind_assoc, pure_bind]
        refine Refines.bind_right fun it => ?_
        refine (Refines.of_eq (congrArg (seenNext <$> ·) (asRuntimeError_bind _ _))).trans ?_
        rw [map_bind]
        exact Refines.bind_right fun t => hF' (.inner s' it t)
    | inner s it t =>
      refine (Refines.of_eq (congrArg (seenNext <$> ·) (asRuntimeError_bind _ _))).trans ?_
      rw [map_bind]
      refine Refines.bind_right fun o => ?_
      rcases o with _ | ⟨y, t'⟩
      · exact hF' (.outer s)
      · exact Refines.refl _
  · refine (?_ : ∀ st', ∀ w r, (Seq.collectNext (mapped m) (walked src) st').exec w = some r → ∀ st, seen st = st' →
      (seenNext <$> asRuntimeError (AsyncStop.collectNext m src st) : PyD σ _).exec w = some r) (seen st) |> fun h w r hr => h w r hr st rfl
    refine Seq.collectNext.fixpoint_induct (mapped m) (walked src)
      (fun F => ∀ st' w r, (F st').exec w = some r → ∀ st, seen st = st' →
        (seenNext <$> asRuntimeError (AsyncStop.collectNext m src st) : PyD σ _).exec w = some r)
      (admissible_post1 (fun st' w r => ∀ st, seen st = st' →
        (seenNext <$> asRuntimeError (AsyncStop.collectNext m src st) : PyD σ _).exec w = some r)) ?_
    rintro F hF _ w r hr st rfl
    have hF' : ∀ st, Refines (F (seen st)) (seenNext <$> asRuntimeError (AsyncStop.collectNext m src st)) := fun st w r h => hF _ w r h st rfl
    revert hr
    refine (?_ : Refines _ _) w r
    rw [AsyncStop.collectNext.eq_def]
    cases st with
    | fresh =>
      refine Refines.trans ?_ (Refines.of_eq (congrArg (seenNext <$> ·) (asRuntimeError_bind _ _).symm))
      rw [map_bind]
      exact Refines.bind_right fun s => hF' (.outer s)
    | outer s =>
      refine Refines.trans ?_ (Refines.of_eq (congrArg (seenNext <$> ·) (asRuntimeError_bind _ _).symm))
      rw [map_bind]
      refine Refines.bind_right fun o => ?_
      rcases o with _ | ⟨x, s'⟩
      · exact Refines.refl _
      · refine Refines.trans ?_ (Refines.of_eq (congrArg (seenNext <$> ·) (asRuntimeError_bind _ _).symm))
        simp only [mapped, map_bind, bind_assoc, pure_bind]
        refine Refines.bind_right fun it => ?_
        refine Refines.trans ?_ (Refines.of_eq (congrArg (seenNext <$> ·) (asRuntimeError_bind _ _).symm))
        rw [map_bind]
        exact Refines.bind_right fun t => hF' (.inner s' it t)
    | inner s it t =>
      refine Refines.trans ?_ (Refines.of_eq (congrArg (seenNext <$> ·) (asRuntimeError_bind _ _).symm))
      rw [map_bind]
      refine Refines.bind_right fun o => ?_
      rcases o with _ | ⟨y, t'⟩
      · exact hF' (.outer s)
      · exact Refines.refl _

/-- iterators that differ only in how their states are written -/
theorem loop_states {S' : Type} (it : Iterable σ α S) (it' : Iterable σ α S') (h : S → S')
    (hn : ∀ s, it'.next (h s) = it.next s >>= fun o => pure (o.map (fun p => (p.1, h p.2)))) (body : C → α → PyD σ (Flow C)) (s : S) (c : C) :
    it.loop body s c = it'.loop body (h s) c := by
  apply Refines.antisymm
  · refine Iterable.loop_le it body (fun s c => it'.loop body (h s) c) ?_ s c
    intro F hF s c
    rw [Iterable.loop_eq, hn, bind_assoc]
    refine Refines.bind_right fun o => ?_
    rcases o with _ | ⟨x, s'⟩
    · exact Refines.refl _
    · simp only [pure_bind, Option.map_some, Iterable.step_some]
      refine Refines.bind_right fun fl => ?_
      cases fl with
      | stop c' => exact Refines.refl _
      | next c' => exact hF s' c'
  · intro w r hr
    refine Iterable.loop_post it' body (fun s' c w r => ∀ s, h s = s' → (it.loop body s c).exec w = some r) ?_ (h s) c w r hr s rfl
    rintro F hF _ c w r hr s rfl
    have hF' : ∀ s c, Refines (F (h s) c) (it.loop body s c) := fun s c w r hr => hF _ c w r hr s rfl
    revert hr
    refine (?_ : Refines _ _) w r
    rw [Iterable.loop_eq, hn, bind_assoc]
    refine Refines.bind_right fun o => ?_
    rcases o with _ | ⟨x, s'⟩
    · exact Refines.refl _
    · simp only [pure_bind, Option.map_some, Iterable.step_some]
      refine Refines.bind_right fun fl => ?_
      cases fl with
      | stop c' => exact Refines.refl _
      | next c' => exact hF' s' c'

/-- the loop variables of a nested loop -/
def outFlow : Flow (Option C) → Option (Flow C)
  | .next o => o.map .next
  | .stop o => o.map .stop

theorem opt_exec_next (p : PyA σ (Flow C)) (w w' : σ) : (opt p).exec w ≠ some (.ok (.next none), w') := by
  rw [opt, exec_bind]
  rcases p.run.exec w with _ | ⟨e | o, w1⟩
  · simp
  · simp
  · rcases o with _ | fl
    · intro h; cases h
    · cases fl <;> (intro h; cases h)

theorem nested_next (it : Iterable σ α S) (body : C → α → PyA σ (Flow C)) (c : C) (w w' : σ) :
    (Spec.nested it (optBody body) (some c)).exec w ≠ some (.ok (.next none), w') := by
  rw [Spec.nested, Iterable.forLoop, exec_bind]
  rcases it.iter.exec w with _ | ⟨e | s, w1⟩
  · simp
  · simp
  · intro hr
    refine Iterable.loop_post it _ (fun s d w r => ∀ c', d = .next (some c') → r.1 ≠ .ok (.next none)) ?_ s _ w1 _ hr c rfl rfl
    rintro F hF s _ w r hr c' rfl
    rw [exec_bind] at hr
    rcases h1 : (it.next s).exec w with _ | ⟨e | o, w2⟩ <;> rw [h1] at hr <;> simp only at hr
    · cases hr
    · cases hr; simp
    · rcases o with _ | ⟨x, s'⟩
      · cases hr; simp
      · simp only [Iterable.step_some, bind_assoc] at hr
        rw [exec_bind] at hr
        simp only [Flow.get, optBody] at hr
        rcases h2 : (opt (body c' x)).exec w2 with _ | ⟨e | fl, w3⟩ <;> rw [h2] at hr <;> simp only at hr
        · cases hr
        · cases hr; simp
        · cases fl with
          | stop o => cases hr; simp
          | next o =>
            rcases o with _ | c2
            · exact absurd h2 (opt_exec_next _ _ _)
            · exact hF s' _ w3 r hr c2 rfl

/-- the body of a nested loop -/
def nestedBody (body : C → α → PyD σ (Flow C)) (fc : Flow C) (y : α) : PyD σ (Flow (Flow C)) := do
  match ← body fc.get y with
  | .stop c' => pure (.stop (.stop c'))
  | .next c' => pure (.next (.next c'))

theorem nested_guarded (it : AsyncIterable σ β T) (body : C → β → PyA σ (Flow C)) (c : C) :
    opt (AsyncStop.forLoop (guarded it) (fun fc y => do
      match ← body fc.get y with
      | .stop c' => pure (.stop (.stop c'))
      | .next c' => pure (.next (.next c'))) (.next c)) = Spec.nested (walked it) (optBody body) (some c) := by
  rw [opt, ← guarded_sim it (D := Flow (Option C)) (inj := Flow.map some) (out := outFlow) (fun fl => by cases fl <;> rfl)
    (b := nestedBody (optBody body))
    (fun fc y => do
      match ← (body fc.get y).run with
      | none => pure (.inr ⟨.stop none, rfl⟩)
      | some (.stop c') => pure (.inl (.stop (.stop c')))
      | some (.next c') => pure (.inl (.next (.next c'))))]
  · apply PyD.ext
    intro w
    have e : (walked it).forLoop (nestedBody (optBody body)) (Flow.map some (Flow.next c)) = Spec.nested (walked it) (optBody body) (some c) := rfl
    rw [e, map_eq_pure_bind, bind_assoc, exec_bind]
    rcases h : (Spec.nested (walked it) (optBody body) (some c)).exec w with _ | ⟨e | fl, w'⟩
    · rfl
    · rfl
    · rcases fl with o | o <;> rcases o with _ | c'
      · exact absurd h (nested_next _ _ _ _ _)
      · rfl
      · rfl
      · rfl
  · intro fc y
    have hg : (Flow.map some fc).get = some fc.get := by cases fc <;> rfl
    simp only [nestedBody, hg, optBody, opt, bind_assoc]
    refine bind_congr fun o => ?_
    rcases o with _ | fl
    · rfl
    · cases fl <;> rfl
  · intro fc y
    rw [run_bind, bind_assoc]
    refine bind_congr fun o => ?_
    rcases o with _ | fl
    · rfl
    · cases fl <;> rfl

theorem collect_forLoop (m : α → PyA σ (AsyncIterable σ β T)) (src : AsyncIterable σ α S) (body : C → β → PyA σ (Flow C)) (c : C) :
    AsyncStop.forLoop (AsyncStop.collect m src) body c = AsyncStop.forLoop (guarded src) (collectBody m body) c := by
  apply OptionT.ext
  change (AsyncStop.loop (AsyncStop.collect m src) body .fresh c).run = _
  rw [loop_run _ (pure .fresh) (optBody_matches body), loop_states _ (Seq.collect (mapped m) (walked src)) seen]
  · have h := Lemmas.acollect_forLoop (mapped m) (walked src) (optBody body) (some c)
    refine Eq.trans ?_ (h.trans (guarded_forLoop src ?_ c).symm)
    · rfl
    · intro c x
      simp only [collectBody, opt_lift, Spec.collectBody, mapped, bind_assoc, pure_bind]
      exact bind_congr fun it => (nested_guarded it body c).symm
  · intro s
    refine (collectNext_asRuntimeError m src s).symm.trans ?_
    rw [map_eq_pure_bind]
    refine Eq.trans ?_ (congrArg (· >>= _) (inFrame_run _).symm)
    rfl

/-! ### sources that are lists -/

/-- the iterator is that of a list -/
structure Lists (it : AsyncIterable σ α (List α)) (l : List α) : Prop where
  start : it.aiter.run = pure (some l)
  cons : ∀ x rest, (it.anext (x :: rest)).run = pure (some (x, rest))
  nil : (it.anext []).run = pure none

theorem lists_listSource (l : List α) : Lists (listSource l : AsyncIterable σ α _) l := ⟨rfl, fun _ _ => rfl, rfl⟩

theorem lists_guarded (l : List α) : Lists (guarded (listSource l) : AsyncIterable σ α _) l := ⟨rfl, fun _ _ => rfl, rfl⟩

/-- `Steps B w c xs c' w'`: the loop body, run for the elements of `xs`, went on each time -/
inductive Steps (B : C → α → PyA σ (Flow C)) : σ → C → List α → C → σ → Prop
  | nil {w c} : Steps B w c [] c w
  | cons {w c x c1 w1 xs c' w'} (call : Returns (B c x) w (.next c1) w1) (rest : Steps B w1 c1 xs c' w') : Steps B w c (x :: xs) c' w'

theorem loop_cons {it : AsyncIterable σ α (List α)} {l : List α} (h : Lists it l) (B : C → α → PyA σ (Flow C)) (x : α) (rest : List α) (c : C) :
    (AsyncStop.loop it B (x :: rest) c).run = (B c x).run >>= orNone fun fl => match fl with
      | .stop c' => pure c'
      | .next c' => AsyncStop.loop it B rest c' := by
  have e : (AsyncStop.loop it B (x :: rest) c).run = (it.anext (x :: rest)).run >>= fun o => (round B (AsyncStop.loop it B) c o).run := by
    rw [AsyncStop.loop]
    exact round_run B (AsyncStop.loop it B) c it (x :: rest)
  rw [e, h.cons, pure_bind]
  simp only [round, run_bind]

theorem loop_nil {it : AsyncIterable σ α (List α)} {l : List α} (h : Lists it l) (B : C → α → PyA σ (Flow C)) (c : C) :
    (AsyncStop.loop it B [] c).run = pure (some c) := by
  have e : (AsyncStop.loop it B [] c).run = (it.anext []).run >>= fun o => (round B (AsyncStop.loop it B) c o).run := by
    rw [AsyncStop.loop]
    exact round_run B (AsyncStop.loop it B) c it []
  rw [e, h.nil, pure_bind]
  rfl

theorem loop_steps {it : AsyncIterable σ α (List α)} {l : List α} (h : Lists it l) {B : C → α → PyA σ (Flow C)} {w c xs c' w'}
    (hs : Steps B w c xs c' w') (rest : List α) :
    (AsyncStop.loop it B (xs ++ rest) c).run.exec w = (AsyncStop.loop it B rest c').run.exec w' := by
  induction hs with
  | nil => rfl
  | cons call _ ih =>
    rw [List.cons_append, loop_cons h, exec_bind, call]
    exact ih

theorem loop_raises {it : AsyncIterable σ α (List α)} {l : List α} (h : Lists it l) {B : C → α → PyA σ (Flow C)} {w c xs c' w'}
    (hs : Steps B w c xs c' w') {x : α} {r : Raised} {w'' : σ} (hx : Raises (B c' x) w' r w'') (rest : List α) :
    Raises (AsyncStop.loop it B (xs ++ x :: rest) c) w r w'' := by
  cases r <;> simp only [Raises] at hx ⊢ <;> rw [loop_steps h hs, loop_cons h, exec_bind, hx] <;> rfl

theorem loop_returns {it : AsyncIterable σ α (List α)} {l : List α} (h : Lists it l) {B : C → α → PyA σ (Flow C)} {w c xs c' w'}
    (hs : Steps B w c xs c' w') : Returns (AsyncStop.loop it B xs c) w c' w' := by
  have := loop_steps h hs []
  rw [List.append_nil] at this
  rw [Returns, this, loop_nil h]
  rfl

theorem forLoop_run {it : AsyncIterable σ α (List α)} {l : List α} (h : Lists it l) (B : C → α → PyA σ (Flow C)) (c : C) :
    (AsyncStop.forLoop it B c).run = (AsyncStop.loop it B l c).run := by
  rw [AsyncStop.forLoop, run_bind, h.start, pure_bind]
  rfl

theorem forLoop_raises {it : AsyncIterable σ α (List α)} {xs rest : List α} {x : α} (h : Lists it (xs ++ x :: rest)) {B : C → α → PyA σ (Flow C)}
    {w c c' w'} (hs : Steps B w c xs c' w') {r : Raised} {w'' : σ} (hx : Raises (B c' x) w' r w'') : Raises (AsyncStop.forLoop it B c) w r w'' := by
  have := loop_raises h hs hx rest
  cases r <;> simp only [Raises] at this ⊢ <;> rw [forLoop_run h] <;> exact this

theorem asRuntimeError_returns {p : PyA σ α} {w x w'} (h : Returns p w x w') : (asRuntimeError p).exec w = some (.ok x, w') := by
  change asRuntimeError p w = _
  unfold asRuntimeError
  rw [h]

theorem asRuntimeError_raises {p : PyA σ α} {w r w'} (h : Raises p w r w') : (asRuntimeError p).exec w = some (.error (outOfGenerator r), w') := by
  change asRuntimeError p w = _
  unfold asRuntimeError
  cases r with
  | stopAsyncIteration => rw [show p.run.exec w = _ from h]; rfl
  | other e =>
    rw [show p.run.exec w = _ from h]
    cases e <;> rfl

theorem guard_run (p : PyA σ α) (k : α → PyA σ β) : (OptionT.lift (asRuntimeError p) >>= k).run = asRuntimeError p >>= fun x => (k x).run := by
  rw [run_bind]
  refine Eq.trans (bind_assoc _ _ _) (bind_congr fun x => ?_)
  rw [pure_bind]
  rfl

theorem guard_raises {p : PyA σ α} {w r w'} (h : Raises p w r w') (k : α → PyA σ β) :
    Raises (OptionT.lift (asRuntimeError p) >>= k) w (.other (outOfGenerator r)) w' := by
  rw [Raises, guard_run, exec_bind, asRuntimeError_raises h]

theorem guard_returns {p : PyA σ α} {w x w'} (h : Returns p w x w') (k : α → PyA σ β) {y w''} (hk : Returns (k x) w' y w'') :
    Returns (OptionT.lift (asRuntimeError p) >>= k) w y w'' := by
  rw [Returns, guard_run, exec_bind, asRuntimeError_returns h]
  exact hk

/-- the consumer that makes a list -/
abbrev collecting (acc : List α) (x : α) : PyA σ (Flow (List α)) := pure (.next (acc ++ [x]))

theorem map_steps {f : α → PyA σ β} {w xs ys w'} (h : CallsReturn f w xs ys w') (acc : List β) :
    Steps (mapBody f collecting) w acc xs (acc ++ ys) w' := by
  induction h generalizing acc with
  | nil => rw [List.append_nil]; exact .nil
  | @cons w x y w1 xs ys w' call _ ih =>
    have := ih (acc ++ [y])
    rw [← List.append_cons] at this
    exact .cons (guard_returns call _ rfl) this

theorem filter_steps {p : α → PyA σ Bool} {w xs bs w'} (h : CallsReturn p w xs bs w') (acc : List α) :
    ∃ acc', Steps (filterBody p collecting) w acc xs acc' w' := by
  induction h generalizing acc with
  | nil => exact ⟨acc, .nil⟩
  | @cons w x b w1 xs ys w' call _ ih =>
    cases b with
    | false =>
      obtain ⟨a, ha⟩ := ih acc
      exact ⟨a, .cons (guard_returns call _ rfl) ha⟩
    | true =>
      obtain ⟨a, ha⟩ := ih (acc ++ [x])
      exact ⟨a, .cons (guard_returns call _ rfl) ha⟩

theorem choose_steps {f : α → PyA σ (Option β)} {w xs os w'} (h : CallsReturn f w xs os w') (acc : List β) :
    ∃ acc', Steps (chooseBody f collecting) w acc xs acc' w' := by
  induction h generalizing acc with
  | nil => exact ⟨acc, .nil⟩
  | @cons w x o w1 xs ys w' call _ ih =>
    cases o with
    | none =>
      obtain ⟨a, ha⟩ := ih acc
      exact ⟨a, .cons (guard_returns call _ rfl) ha⟩
    | some y =>
      obtain ⟨a, ha⟩ := ih (acc ++ [y])
      exact ⟨a, .cons (guard_returns call _ rfl) ha⟩

theorem scan_steps {f : γ → α → PyA σ γ} {w z xs z' w'} (h : StateCalls f w z xs z' w') (acc : List γ) :
    ∃ acc', Steps (scanBody f collecting) w (acc, z) xs (acc', z') w' := by
  induction h generalizing acc with
  | nil => exact ⟨acc, .nil⟩
  | @cons w z x z1 w1 xs z' w' call _ ih =>
    obtain ⟨a, ha⟩ := ih (acc ++ [z1])
    exact ⟨a, .cons (guard_returns call _ rfl) ha⟩

theorem inner_steps (ys : List β) (w : σ) (acc : List β) :
    ∃ acc', Steps (fun (fc : Flow (List β)) y => do
      match ← (collecting fc.get y : PyA σ _) with
      | .stop c' => pure (.stop (.stop c'))
      | .next c' => pure (.next (.next c'))) w (.next acc) ys (.next acc') w := by
  induction ys generalizing acc with
  | nil => exact ⟨acc, .nil⟩
  | cons y ys ih =>
    obtain ⟨a, ha⟩ := ih (acc ++ [y])
    exact ⟨a, .cons rfl ha⟩

theorem collect_steps {m : α → PyA σ (AsyncIterable σ β (List β))} {w xs w'} {its : List (AsyncIterable σ β (List β))}
    (h : CallsReturn m w xs its w') (hl : ∀ it ∈ its, ∃ ys, it = listSource ys) (acc : List β) :
    ∃ acc', Steps (collectBody m collecting) w acc xs acc' w' := by
  induction h generalizing acc with
  | nil => exact ⟨acc, .nil⟩
  | @cons w x it w1 xs ys w' call _ ih =>
    obtain ⟨ys, rfl⟩ := hl it (.head _)
    obtain ⟨a1, h1⟩ := inner_steps ys w1 acc
    obtain ⟨a, ha⟩ := ih (fun it h => hl it (.tail _ h)) a1
    refine ⟨a, .cons (guard_returns call _ ?_) ha⟩
    have := loop_returns (lists_guarded ys) h1
    rw [Returns] at this ⊢
    rw [forLoop_run (lists_guarded ys)]
    exact this

theorem fold_steps {f : β → α → PyA σ β} {w z xs z' w'} (h : StateCalls f w z xs z' w') :
    Steps (fun result value => do
      let r ← f result value
      pure (.next r)) w z xs z' w' := by
  induction h with
  | nil => exact .nil
  | @cons w z x z1 w1 xs z' w' call _ ih =>
    refine .cons (c1 := z1) (w1 := w1) ?_ ih
    rw [Returns, run_bind, exec_bind, call]
    rfl

theorem coroutine_raises {p : PyA σ α} {w r w'} (h : Raises p w r w') : Raises (coroutine p) w (outOfCoroutine r) w' := by
  cases r with
  | stopAsyncIteration =>
    change framedCoroutine (p.run.exec w) = _
    rw [show p.run.exec w = _ from h]
    rfl
  | other e =>
    cases e <;> (change framedCoroutine (p.run.exec w) = _; rw [show p.run.exec w = _ from h]; rfl)

theorem bind_raises {p : PyA σ α} {w r w'} (h : Raises p w r w') (k : α → PyA σ β) : Raises (p >>= k) w r w' := by
  cases r <;> simp only [Raises] at h ⊢ <;> rw [run_bind, exec_bind, h]
  rfl

theorem toList_steps (xs : List α) (w : σ) (acc : List α) : Steps (σ := σ) (fun acc x => pure (.next (acc ++ [x]))) w acc xs (acc ++ xs) w := by
  induction xs generalizing acc with
  | nil => rw [List.append_nil]; exact .nil
  | cons x xs ih =>
    have := ih (acc ++ [x])
    rw [← List.append_cons] at this
    exact .cons rfl this

theorem toList_listSource (xs : List α) (w : σ) : Returns (AsyncStop.toList (listSource xs)) w xs w := by
  have := loop_returns (lists_listSource xs) (toList_steps xs w [])
  rw [Returns] at this ⊢
  rw [AsyncStop.toList, forLoop_run (lists_listSource xs)]
  exact this

theorem forList_raises {f : β → α → PyA σ β} {w z xs z' w'} (h : StateCalls f w z xs z' w') {x r w''} (hx : Raises (f z' x) w' r w'') (rest : List α) :
    Raises (forList f z (xs ++ x :: rest)) w r w'' := by
  induction h with
  | nil => exact bind_raises hx _
  | @cons w z x z1 w1 xs z' w' call _ ih =>
    have := ih hx
    cases r <;> (simp only [Raises] at this ⊢; rw [List.cons_append, forList, run_bind, exec_bind, call]; exact this)

/-! ### no such exceptions -/

theorem asRuntimeError_lift {p : PyD σ α} (h : ∀ w w', p.exec w ≠ some (.error .stopIteration, w')) : asRuntimeError (OptionT.lift p) = p := by
  apply PyD.ext
  intro w
  change asRuntimeError (OptionT.lift p) w = p.exec w
  unfold asRuntimeError
  have e : (OptionT.lift p).run.exec w = (p >>= fun x => pure (some x)).exec w := rfl
  rw [e, exec_bind]
  rcases hp : p.exec w with _ | ⟨e | x, w'⟩
  · rfl
  · simp only [replaced]
    rw [if_neg]
    rintro rfl
    exact h w w' hp
  · rfl

theorem walked_ofIterable {src : Iterable σ α S} (h : Plain src) : walked (ofIterable src) = src := by
  have h1 : (walked (ofIterable src)).iter = src.iter := asRuntimeError_lift (fun w w' => h.1 () w w')
  have h2 : (walked (ofIterable src)).next = src.next := by
    funext s
    exact asRuntimeError_lift (p := src.next s) (fun w w' => h.2 s w w')
  cases src
  simp only [walked] at h1 h2 ⊢
  rw [h1, h2]

theorem lift_loop (it : AsyncIterable σ α S) (iter : PyD σ S) (body : C → α → PyD σ (Flow C)) (s : S) (c : C) :
    (AsyncStop.loop it (fun c y => OptionT.lift (body c y)) s c).run = some <$> (view it iter).loop body s c := by
  refine (loop_sim it iter (inj := id) (out := some) (fun _ => rfl) (fun c x => do
    let fl ← body c x
    pure (.inl fl)) (fun c x => ?_) (fun c x => ?_) s c).symm
  · rw [bind_assoc]
    refine Eq.trans (bind_pure _).symm (bind_congr fun fl => ?_)
    rw [pure_bind]
    cases fl <;> rfl
  · rw [bind_assoc]
    refine (bind_congr fun fl => ?_ : (body c x >>= _) = _)
    rw [pure_bind]
    rfl

theorem map_agrees {src : Iterable σ α S} (hs : Plain src) {f : α → PyD σ β} (hf : Spec.NoStopIteration f) (body : C → β → PyD σ (Flow C)) (c : C) :
    (AsyncStop.forLoop (AsyncStop.map (fun x => OptionT.lift (f x)) (ofIterable src)) (fun c y => OptionT.lift (body c y)) c).run =
      some <$> (AsyncSeq.map f src).forLoop body c := by
  have h : view (AsyncStop.map (fun x => OptionT.lift (f x)) (ofIterable src)) (pure none) = AsyncSeq.map f src := by
    rw [AsyncStop.map, generator_anext, walked_ofIterable hs, AsyncSeq.map]
    congr 1
    funext _ x
    refine (asRuntimeError_bind _ _).trans ?_
    rw [asRuntimeError_lift (fun w w' => hf x w w')]
    rfl
  rw [← h]
  exact lift_loop _ _ _ _ _

theorem filter_agrees {src : Iterable σ α S} (hs : Plain src) {p : α → PyD σ Bool} (hp : Spec.NoStopIteration p) (body : C → α → PyD σ (Flow C)) (c : C) :
    (AsyncStop.forLoop (AsyncStop.filter (fun x => OptionT.lift (p x)) (ofIterable src)) (fun c y => OptionT.lift (body c y)) c).run =
      some <$> (AsyncSeq.filter p src).forLoop body c := by
  have h : view (AsyncStop.filter (fun x => OptionT.lift (p x)) (ofIterable src)) (pure none) = AsyncSeq.filter p src := by
    rw [AsyncStop.filter, generator_anext, walked_ofIterable hs, AsyncSeq.filter]
    congr 1
    funext _ x
    refine (asRuntimeError_bind _ _).trans ?_
    rw [asRuntimeError_lift (fun w w' => hp x w w')]
    refine bind_congr fun b => ?_
    cases b <;> rfl
  rw [← h]
  exact lift_loop _ _ _ _ _

theorem choose_agrees {src : Iterable σ α S} (hs : Plain src) {f : α → PyD σ (Option β)} (hf : Spec.NoStopIteration f) (body : C → β → PyD σ (Flow C))
    (c : C) : (AsyncStop.forLoop (AsyncStop.choose (fun x => OptionT.lift (f x)) (ofIterable src)) (fun c y => OptionT.lift (body c y)) c).run =
      some <$> (AsyncSeq.choose f src).forLoop body c := by
  have h : view (AsyncStop.choose (fun x => OptionT.lift (f x)) (ofIterable src)) (pure none) = AsyncSeq.choose f src := by
    rw [AsyncStop.choose, generator_anext, walked_ofIterable hs, AsyncSeq.choose]
    congr 1
    funext _ x
    refine (asRuntimeError_bind _ _).trans ?_
    rw [asRuntimeError_lift (fun w w' => hf x w w')]
    refine bind_congr fun b => ?_
    cases b <;> rfl
  rw [← h]
  exact lift_loop _ _ _ _ _

theorem scan_agrees {src : Iterable σ α S} (hs : Plain src) {f : γ → α → PyD σ γ} (hf : ∀ r, Spec.NoStopIteration (f r)) (z : γ)
    (body : C → γ → PyD σ (Flow C)) (c : C) :
    (AsyncStop.forLoop (AsyncStop.scan (fun r x => OptionT.lift (f r x)) z (ofIterable src)) (fun c y => OptionT.lift (body c y)) c).run =
      some <$> (AsyncSeq.scan f z src).forLoop body c := by
  have h : view (AsyncStop.scan (fun r x => OptionT.lift (f r x)) z (ofIterable src)) (pure .fresh) = AsyncSeq.scan f z src := by
    rw [scan_anext, walked_ofIterable hs]
    congr 1
    funext r x
    exact asRuntimeError_lift (fun w w' => hf r x w w')
  rw [← h]
  exact lift_loop _ _ _ _ _

theorem bind_congr_of {p : PyD σ α} {k k' : α → PyD σ β} (h : ∀ w x w', p.exec w = some (.ok x, w') → k x = k' x) : (p >>= k) = p >>= k' := by
  apply PyD.ext
  intro w
  rw [exec_bind, exec_bind]
  rcases hp : p.exec w with _ | ⟨e | x, w'⟩
  · rfl
  · rfl
  · simp only [h w x w' hp]

theorem collect_agrees {src : Iterable σ α S} (hs : Plain src) {m : α → PyD σ (Iterable σ β T)} (hm : Spec.NoStopIteration m)
    (hi : ∀ x w it w', (m x).exec w = some (.ok it, w') → Plain it) (body : C → β → PyD σ (Flow C)) (c : C) :
    (AsyncStop.forLoop (AsyncStop.collect (fun x => OptionT.lift (ofIterable <$> m x)) (ofIterable src)) (fun c y => OptionT.lift (body c y)) c).run =
      some <$> (AsyncSeq.collect m src).forLoop body c := by
  have hmap : mapped (fun x => OptionT.lift (ofIterable <$> m x)) = m := by
    funext x
    rw [mapped, asRuntimeError_lift]
    · rw [map_eq_pure_bind, bind_assoc]
      refine Eq.trans (bind_congr_of fun w it w' h => ?_) (bind_pure _)
      rw [pure_bind, walked_ofIterable (hi x w it w' h)]
    · intro w w'
      rw [map_eq_pure_bind, exec_bind]
      rcases h : (m x).exec w with _ | ⟨e | it, w1⟩
      · simp
      · intro h'
        cases h'
        exact hm x w w' h
      · intro h'; cases h'
  refine (lift_loop _ (pure .fresh) _ _ _).trans ?_
  rw [loop_states _ (Seq.collect (mapped (fun x => OptionT.lift (ofIterable <$> m x))) (walked (ofIterable src))) seen, hmap, walked_ofIterable hs]
  · rfl
  · intro s
    refine (collectNext_asRuntimeError _ _ s).symm.trans ?_
    rw [map_eq_pure_bind]
    refine Eq.trans ?_ (congrArg (· >>= _) (inFrame_run _).symm)
    rfl

theorem forLoop_noStop {src : Iterable σ α S} (hs : Plain src) {body : C → α → PyD σ (Flow C)} (hb : ∀ c, Spec.NoStopIteration (body c)) (c : C)
    (w w' : σ) : (src.forLoop body c).exec w ≠ some (.error .stopIteration, w') := by
  rw [Iterable.forLoop, exec_bind]
  rcases h0 : src.iter.exec w with _ | ⟨e | s, w1⟩
  · simp
  · intro h
    cases h
    exact hs.1 () w w' h0
  · intro hr
    refine Iterable.loop_post src body (fun s c w r => r.1 ≠ .error .stopIteration) ?_ s c w1 _ hr rfl
    intro F hF s c w r hr
    rw [exec_bind] at hr
    rcases h1 : (src.next s).exec w with _ | ⟨e | o, w2⟩ <;> rw [h1] at hr <;> simp only at hr
    · cases hr
    · cases hr
      intro h
      cases h
      exact hs.2 s w w2 h1
    · rcases o with _ | ⟨x, s'⟩
      · cases hr; simp
      · rw [Iterable.step_some, exec_bind] at hr
        rcases h2 : (body c x).exec w2 with _ | ⟨e | fl, w3⟩ <;> rw [h2] at hr <;> simp only at hr
        · cases hr
        · cases hr
          intro h
          cases h
          exact hb c x w2 w3 h2
        · cases fl with
          | stop c' => cases hr; simp
          | next c' => exact hF s' c' w3 r hr

theorem fold_agrees {src : Iterable σ α S} (hs : Plain src) {f : β → α → PyD σ β} (hf : ∀ r, Spec.NoStopIteration (f r)) (z : β) :
    (AsyncStop.fold (fun r x => OptionT.lift (f r x)) z (ofIterable src)).run = some <$> AsyncSeq.fold f z src := by
  have hb : (fun (result : β) (value : α) => (do
      let r ← OptionT.lift (f result value)
      pure (Flow.next r) : PyA σ (Flow β))) = fun result value => OptionT.lift (do
        let r ← f result value
        pure (Flow.next r)) := by
    funext r x
    apply OptionT.ext
    rw [run_bind]
    refine Eq.trans (bind_assoc _ _ _) (Eq.trans (bind_congr fun y => ?_) (bind_assoc _ _ _).symm)
    rw [pure_bind, pure_bind]
    rfl
  have hcode : (AsyncStop.forLoop (ofIterable src) (fun result value => do
      let r ← OptionT.lift (f result value)
      pure (Flow.next r)) z).run = some <$> AsyncSeq.fold f z src := by
    rw [hb, AsyncStop.forLoop, run_bind, AsyncSeq.fold, Iterable.forLoop, map_bind]
    refine Eq.trans (bind_assoc _ _ _) (bind_congr fun s => ?_)
    rw [pure_bind]
    exact lift_loop (ofIterable src) src.iter _ s z
  have hno := forLoop_noStop hs (body := fun result value => do
    let r ← f result value
    pure (Flow.next r)) (fun r x w w' h => by
      rw [exec_bind] at h
      rcases hx : (f r x).exec w with _ | ⟨e | y, w1⟩ <;> rw [hx] at h <;> cases h
      exact hf r x w w' hx) z
  apply PyD.ext
  intro w
  change framedCoroutine ((AsyncStop.forLoop (ofIterable src) (fun result value => do
      let r ← OptionT.lift (f result value)
      pure (Flow.next r)) z).run.exec w) = _
  rw [hcode, map_eq_pure_bind, exec_bind]
  rcases h : (AsyncSeq.fold f z src).exec w with _ | ⟨e | y, w1⟩
  · rfl
  · simp only
    cases e <;> first | rfl | exact absurd h (hno w w1)
  · rfl

end Expression.Lemmas.AsyncStop
