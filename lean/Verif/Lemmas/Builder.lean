import Verif.Spec.Monadic
import Verif.Lemmas.PyD

/-! # The loop of the builders -/

namespace Expression.Lemmas

open PyD Spec

variable {σ α ε S T : Type}

/-- a pure outcome as a computation -/
def ofE {w β : Type} : Except PyErr β → PyD w β
  | .ok a => pure a
  | .error e => PyD.raise e

/-- What the four kinds of builders have in common.  `h` is what `bind` does to the answer of its callback, `resOf ys` the result after the values `ys`
were yielded. -/
structure Good (b : Builder α ε) (h : Eff α ε → Except PyErr (Eff α ε)) (resOf : List (Obj α) → Eff α ε) : Prop where
  bind_ret : ∀ {w : Type} (y : Obj α) (f : Obj α → PyD w (Eff α ε)), b.bind (b.return_ y) f = f y >>= fun m => ofE (h m)
  h_ret : ∀ y, h (b.return_ y) = .ok (b.return_ y)
  h_stop : ∀ m, h m ≠ .error .stopIteration
  comb_ret : ∀ ys y, ys ≠ [] → b.combine (resOf ys) (b.return_ y) = .ok (resOf (ys ++ [y]))
  comb_stop : ∀ r v, b.combine r v ≠ .error .stopIteration
  zero : resOf [] = b.zero
  one : ∀ y, resOf [y] = b.return_ y

/-- what `binder` does with the generator, up to what is left of it after it ended -/
def Sends (b : Builder α ε) (g : Gen σ α ε S) (binder : Obj α → PyD (σ × GState S) (Eff α ε)) : Prop :=
  ∀ y s w, match (g.next s y).exec w with
    | none => (binder y).exec (w, ⟨some s, false⟩) = none
    | some (.error e, w') => e ≠ .stopIteration ∧ ∃ st, (binder y).exec (w, ⟨some s, false⟩) = some (.error e, (w', st))
    | some (.ok (.yielded y' s'), w') =>
      (binder y).exec (w, ⟨some s, false⟩) = some (.ok (b.return_ y'), (w', ⟨some s', false⟩))
    | some (.ok (.returned .none), w') => ∃ st, (binder y).exec (w, ⟨some s, false⟩) = some (.error .stopIteration, (w', st))
    | some (.ok (.returned (.val v)), w') =>
      ∃ st, st.isDone = true ∧ (binder y).exec (w, ⟨some s, false⟩) = some (.ok (b.return_ (.val v)), (w', st))
    | some (.ok (.effect m), w') => ∃ st, st.isDone = true ∧ (binder y).exec (w, ⟨some s, false⟩) = some (.ok m, (w', st))

theorem next_ne_stop (g : Gen σ α ε S) (s : S) (v : Obj α) (w w' : σ) :
    (g.next s v).exec w ≠ some (.error .stopIteration, w') := by
  intro h
  simp only [Gen.next, exec] at h
  split at h
  · cases h
  · cases h
  · rename_i h2; exact h2 _ h

theorem sends_send (b : Builder α ε) (hb : ∀ m, b.returnFrom m = m) (g : Gen σ α ε S) : Sends b g (b.send g) := by
  intro y s w
  have hs := next_ne_stop g s y w
  rcases h : (g.next s y).exec w with _ | ⟨e | o, w'⟩
  · simp only [Builder.send, exec] at h ⊢
    rw [h]
  · refine ⟨?_, _, by simp only [Builder.send, exec] at h ⊢; rw [h]⟩
    rintro rfl
    exact hs w' h
  · rcases o with ⟨y', s'⟩ | v | m
    · simp only [Builder.send, exec] at h ⊢
      rw [h]
    · cases v with
      | none => exact ⟨_, by simp only [Builder.send, exec] at h ⊢; rw [h]⟩
      | val v => exact ⟨⟨none, true⟩, rfl, by simp only [Builder.send, exec] at h ⊢; rw [h]⟩
    · exact ⟨⟨none, true⟩, rfl, by simp only [Builder.send, exec] at h ⊢; rw [h]; simp only [hb]⟩

/-- an asynchronous generator returns `None` -/
def noReturn (g : Gen σ α ε S) : Gen σ α ε S where
  start := g.start
  resume s v := do
    match ← g.resume s v with
    | .returned _ => pure (.returned .none)
    | o => pure o

/-- the outcome of an asynchronous generator -/
def dropRet : GenOut α ε S → GenOut α ε S
  | .returned _ => .returned .none
  | o => o

/-- an asynchronous generator cannot return a value -/
theorem noReturn_id (g : Gen σ α ε S)
    (h : ∀ s v w x w', (g.resume s v).exec w = some (.ok (.returned x), w') → x = .none) : noReturn g = g := by
  obtain ⟨start, resume⟩ := g
  unfold noReturn
  congr 1
  funext s v
  apply PyD.ext
  intro w
  have h := h s v w
  simp only at h
  rw [exec_bind]
  rcases hr : (resume s v).exec w with _ | ⟨e | o, w'⟩
  · rfl
  · rfl
  · cases o with
    | returned x =>
      have := h x w' hr
      subst this
      rfl
    | _ => rfl

theorem noReturn_next (g : Gen σ α ε S) (s : S) (v : Obj α) : (noReturn g).next s v = dropRet <$> g.next s v := by
  apply PyD.ext
  intro w
  rw [map_eq_pure_bind, exec_bind]
  simp only [Gen.next, exec]
  have : (noReturn g).resume s v w = exec (g.resume s v >>= fun o => pure (dropRet o)) w := by
    have e : (noReturn g).resume s v = g.resume s v >>= fun o => pure (dropRet o) := by
      refine bind_congr fun o => ?_
      cases o <;> rfl
    rw [e]; rfl
  rw [this, exec_bind]
  simp only [exec]
  rcases h : g.resume s v w with _ | ⟨e | o, w'⟩
  · rfl
  · cases e <;> rfl
  · rfl

theorem sends_asyncSend (b : Builder α ε) (hb : ∀ m, b.returnFrom m = m) (g : Gen σ α ε S) :
    Sends b (noReturn g) (b.asyncSend g) := by
  intro y s w
  rw [noReturn_next, map_eq_pure_bind, exec_bind]
  have hs := next_ne_stop g s y w
  rcases h : (g.next s y).exec w with _ | ⟨e | o, w'⟩
  · simp only [Builder.asyncSend, exec] at h ⊢
    rw [h]
  · refine ⟨?_, _, by simp only [Builder.asyncSend, exec] at h ⊢; rw [h]⟩
    rintro rfl
    exact hs w' h
  · rcases o with ⟨y', s'⟩ | v | m
    · simp only [Builder.asyncSend, exec] at h ⊢
      rw [h]; rfl
    · exact ⟨_, by simp only [Builder.asyncSend, exec] at h ⊢; rw [h]⟩
    · exact ⟨⟨none, true⟩, rfl, by simp only [Builder.asyncSend, exec] at h ⊢; rw [h]; simp only [hb]⟩

theorem exec_tryStop {w β : Type} (p : PyD w β) (x : w) :
    (tryStop p).exec x = match p.exec x with
      | none => none
      | some (.ok a, x') => some (.ok (some a), x')
      | some (.error .stopIteration, x') => some (.ok none, x')
      | some (.error e, x') => some (.error e, x') := rfl

/-- how the computation ends once the body has ended -/
def finish (b : Builder α ε) (h : Eff α ε → Except PyErr (Eff α ε)) (resOf : List (Obj α) → Eff α ε) :
    List (Obj α) × End α ε → PyD σ (Eff α ε)
  | (ys, .returned .none) => pure (resOf ys)
  | (ys, .returned (.val v)) => pure (resOf (ys ++ [.val v]))
  | (ys, .effect m) => if ys = [] then pure m else ofE (h m >>= b.combine (resOf ys))

/-- the outcome of one round -/
def RoundOut (b : Builder α ε) (h : Eff α ε → Except PyErr (Eff α ε)) (resOf : List (Obj α) → Eff α ε) (ys : List (Obj α))
    (out : Option (Except PyErr (Option (Eff α ε × Eff α ε)) × (σ × GState S))) :
    Option (Except PyErr (GenOut α ε S) × σ) → Prop
  | none => out = none
  | some (.error e, w') => ∃ st, out = some (.error e, (w', st))
  | some (.ok (.yielded y' s'), w') => out = some (.ok (some (resOf (ys ++ [y']), b.return_ y')), (w', ⟨some s', false⟩))
  | some (.ok (.returned .none), w') => ∃ st, out = some (.ok none, (w', st))
  | some (.ok (.returned (.val v)), w') =>
    ∃ st, st.isDone = true ∧ out = some (.ok (some (resOf (ys ++ [.val v]), b.return_ (.val v))), (w', st))
  | some (.ok (.effect m), w') => ∃ st, st.isDone = true ∧ match h m >>= b.combine (resOf ys) with
    | .ok r => ∃ v, out = some (.ok (some (r, v)), (w', st))
    | .error e => out = some (.error e, (w', st))

theorem round_spec {b : Builder α ε} {h : Eff α ε → Except PyErr (Eff α ε)} {resOf : List (Obj α) → Eff α ε} (hb : Good b h resOf)
    {g : Gen σ α ε S} {binder : Obj α → PyD (σ × GState S) (Eff α ε)} (hs : Sends b g binder) (s : S) (y : Obj α)
    (ys : List (Obj α)) (hys : ys ≠ []) (w : σ) :
    RoundOut b h resOf ys ((tryStop (b.round binder (resOf ys) (b.return_ y))).exec (w, ⟨some s, false⟩))
      ((g.next s y).exec w) := by
  have hs := hs y s w
  rw [exec_tryStop]
  have hr : ∀ x, (b.round binder (resOf ys) (b.return_ y)).exec x = exec ((binder y >>= fun m => ofE (h m)) >>= fun value =>
      match b.combine (resOf ys) value with
      | .ok result => pure (result, value)
      | .error e => PyD.raise e) x := by
    intro x
    rw [Builder.round, hb.bind_ret]; rfl
  have herr : ∀ e x x', (binder y).exec x = some (.error e, x') →
      (b.round binder (resOf ys) (b.return_ y)).exec x = some (.error e, x') := by
    intro e x x' hx
    rw [hr, exec_bind, exec_bind, hx]
  have hok : ∀ m x x', (binder y).exec x = some (.ok m, x') →
      (b.round binder (resOf ys) (b.return_ y)).exec x = exec (ofE (h m) >>= fun value =>
      match b.combine (resOf ys) value with
      | .ok result => pure (result, value)
      | .error e => PyD.raise e) x' := by
    intro m x x' hx
    rw [hr, exec_bind, exec_bind, hx, exec_bind]
  have hret : ∀ v x x', (binder y).exec x = some (.ok (b.return_ v), x') →
      (b.round binder (resOf ys) (b.return_ y)).exec x = some (.ok (resOf (ys ++ [v]), b.return_ v), x') := by
    intro v x x' hx
    rw [hok _ _ _ hx, hb.h_ret]
    simp only [ofE, pure_bind]
    rw [hb.comb_ret ys v hys]
    rfl
  rcases hg : (g.next s y).exec w with _ | ⟨e | o, w'⟩ <;> rw [hg] at hs
  · simp only at hs; rw [hr, exec_bind, exec_bind, hs]; rfl
  · obtain ⟨hne, st, hs⟩ := hs
    refine ⟨st, ?_⟩
    rw [herr _ _ _ hs]
    cases e <;> first | rfl | exact absurd rfl hne
  · rcases o with ⟨y', s'⟩ | v | m
    · simp only at hs
      rw [hret _ _ _ hs]
      rfl
    · cases v with
      | none =>
        obtain ⟨st, hs⟩ := hs
        exact ⟨st, by rw [herr _ _ _ hs]⟩
      | val v =>
        obtain ⟨st, hd, hs⟩ := hs
        exact ⟨st, hd, by rw [hret _ _ _ hs]⟩
    · obtain ⟨st, hd, hs⟩ := hs
      refine ⟨st, hd, ?_⟩
      rw [hok _ _ _ hs]
      rcases hh : h m with e | m'
      · have hne := hb.h_stop m
        rw [hh] at hne
        change _ = some (Except.error e, (w', st))
        cases e <;> first | rfl | exact absurd rfl hne
      · simp only [ofE, pure_bind]
        change match b.combine (resOf ys) m' with
          | .ok r => _
          | .error e => _
        have hne := hb.comb_stop (resOf ys) m'
        rcases hc : b.combine (resOf ys) m' with e | r
        · rw [hc] at hne
          cases e <;> first | rfl | exact absurd rfl hne
        · exact ⟨m', rfl⟩

theorem exec_done (x : σ × GState S) : (Builder.done : PyD (σ × GState S) Bool).exec x = some (.ok x.2.isDone, x) := rfl

theorem loop_eq (b : Builder α ε) (binder : Obj α → PyD (σ × GState S) (Eff α ε)) (result value : Eff α ε) (w : σ)
    (st : GState S) : (b.loop binder result value).exec (w, st) =
      if st.isDone then some (.ok result, (w, st))
      else match (tryStop (b.round binder result value)).exec (w, st) with
        | none => none
        | some (.error e, x) => some (.error e, x)
        | some (.ok none, x) => some (.ok result, x)
        | some (.ok (some (result, value)), x) => (b.loop binder result value).exec x := by
  rw [Builder.loop.eq_1, exec_bind, exec_done]
  simp only
  cases st.isDone with
  | true => rfl
  | false =>
    simp only [if_neg Bool.false_ne_true]
    rw [exec_bind]
    rcases (tryStop (b.round binder result value)).exec (w, st) with _ | ⟨_ | (_ | ⟨_, _⟩), _⟩ <;> rfl

theorem loop_le {b : Builder α ε} {h : Eff α ε → Except PyErr (Eff α ε)} {resOf : List (Obj α) → Eff α ε} (hb : Good b h resOf)
    {g : Gen σ α ε S} {binder : Obj α → PyD (σ × GState S) (Eff α ε)} (hs : Sends b g binder) (result value : Eff α ε)
    (x : σ × GState S) (r : Except PyErr (Eff α ε) × (σ × GState S)) (hr : (b.loop binder result value).exec x = some r) :
    (x.2.isDone = true → r = (.ok result, x)) ∧
    ∀ s y ys, ys ≠ [] → result = resOf ys → value = b.return_ y → x.2 = ⟨some s, false⟩ →
      exec (echoFrom g s y ys >>= finish b h resOf) x.1 = some (r.1, r.2.1) := by
  refine Builder.loop.fixpoint_induct b binder (fun f => ∀ result value x r, (f result value).exec x = some r →
    (x.2.isDone = true → r = (.ok result, x)) ∧
    ∀ s y ys, ys ≠ [] → result = resOf ys → value = b.return_ y → x.2 = ⟨some s, false⟩ →
      exec (echoFrom g s y ys >>= finish b h resOf) x.1 = some (r.1, r.2.1))
    (admissible_post2 (fun result value (x : σ × GState S) (r : Except PyErr (Eff α ε) × (σ × GState S)) => (x.2.isDone = true → r = (.ok result, x)) ∧
    ∀ s y ys, ys ≠ [] → result = resOf ys → value = b.return_ y → x.2 = ⟨some s, false⟩ →
      exec (echoFrom g s y ys >>= finish b h resOf) x.1 = some (r.1, r.2.1))) ?_ result value x r hr
  intro F hF result value x r hr
  obtain ⟨w, st⟩ := x
  rw [exec_bind, exec_done] at hr
  simp only at hr
  refine ⟨?_, ?_⟩
  · intro hd
    simp only at hd
    rw [hd] at hr
    exact (Option.some.inj hr).symm
  · rintro s y ys hys rfl rfl hst
    simp only at hst
    subst hst
    simp only [if_neg Bool.false_ne_true] at hr
    rw [exec_bind] at hr
    have hround := round_spec hb hs s y ys hys w
    simp only
    rw [echoFrom.eq_1, exec_bind, exec_bind]
    rcases hg : (g.next s y).exec w with _ | ⟨e | o, w'⟩ <;> rw [hg] at hround
    · rw [show _ = none from hround] at hr; cases hr
    · obtain ⟨st, ho⟩ := hround
      rw [ho] at hr
      cases hr; rfl
    · rcases o with ⟨y', s'⟩ | v | m
      · rw [show _ = some _ from hround] at hr
        have := (hF _ _ _ _ hr).2 s' y' (ys ++ [y']) (by simp) rfl rfl rfl
        rw [exec_bind] at this
        exact this
      · cases v with
        | none =>
          obtain ⟨st, ho⟩ := hround
          rw [ho] at hr
          cases hr; rfl
        | val v =>
          obtain ⟨st, hd, ho⟩ := hround
          rw [ho] at hr
          have := (hF _ _ _ _ hr).1 hd
          subst this
          rfl
      · obtain ⟨st, hd, ho⟩ := hround
        simp only [exec_pure, finish, if_neg hys]
        rcases hc : h m >>= b.combine (resOf ys) with e | r'
        · rw [hc] at ho
          simp only at ho
          rw [ho] at hr
          cases hr; rfl
        · rw [hc] at ho
          obtain ⟨v, ho⟩ := ho
          rw [ho] at hr
          have := (hF _ _ _ _ hr).1 hd
          subst this
          rfl

theorem loop_ge {b : Builder α ε} {h : Eff α ε → Except PyErr (Eff α ε)} {resOf : List (Obj α) → Eff α ε} (hb : Good b h resOf)
    {g : Gen σ α ε S} {binder : Obj α → PyD (σ × GState S) (Eff α ε)} (hs : Sends b g binder) (s : S) (y : Obj α)
    (ys : List (Obj α)) (w : σ) (r : Except PyErr (List (Obj α) × End α ε) × σ) (hr : (echoFrom g s y ys).exec w = some r)
    (hys : ys ≠ []) (r' : Except PyErr (Eff α ε) × σ) (hr' : andThen (finish b h resOf) r = some r') :
    ∃ st, (b.loop binder (resOf ys) (b.return_ y)).exec (w, ⟨some s, false⟩) = some (r'.1, (r'.2, st)) := by
  refine echoFrom.fixpoint_induct g (fun f => ∀ s y ys w r, (f s y ys).exec w = some r → ys ≠ [] → ∀ r',
      andThen (finish b h resOf) r = some r' →
      ∃ st, (b.loop binder (resOf ys) (b.return_ y)).exec (w, ⟨some s, false⟩) = some (r'.1, (r'.2, st)))
    (admissible_post3 (fun s y ys w r => ys ≠ [] → ∀ r',
      andThen (finish b h resOf) r = some r' →
      ∃ st, (b.loop binder (resOf ys) (b.return_ y)).exec (w, ⟨some s, false⟩) = some (r'.1, (r'.2, st)))) ?_ s y ys w r hr hys r' hr'
  intro F hF s y ys w r hr hys r' hr'
  rw [exec_bind] at hr
  have hround := round_spec hb hs s y ys hys w
  rw [loop_eq, if_neg Bool.false_ne_true]
  rcases hg : (g.next s y).exec w with _ | ⟨e | o, w'⟩ <;> rw [hg] at hround hr
  · cases hr
  · obtain ⟨st, ho⟩ := hround
    rw [ho]
    cases hr; cases hr'
    exact ⟨_, rfl⟩
  · rcases o with ⟨y', s'⟩ | v | m
    · rw [show _ = some _ from hround]
      exact hF _ _ _ _ _ hr (by simp) _ hr'
    · cases hr
      cases v with
      | none =>
        obtain ⟨st, ho⟩ := hround
        rw [ho]
        cases hr'
        exact ⟨_, rfl⟩
      | val v =>
        obtain ⟨st, hd, ho⟩ := hround
        rw [ho]
        cases hr'
        simp only
        rw [loop_eq, if_pos hd]
        exact ⟨_, rfl⟩
    · obtain ⟨st, hd, ho⟩ := hround
      cases hr
      simp only [andThen, finish, if_neg hys] at hr'
      rcases hc : h m >>= b.combine (resOf ys) with e | r''
      · rw [hc] at ho hr'
        simp only at ho
        rw [ho]
        cases hr'
        exact ⟨_, rfl⟩
      · rw [hc] at ho hr'
        obtain ⟨v, ho⟩ := ho
        rw [ho]
        cases hr'
        simp only
        rw [loop_eq, if_pos hd]
        exact ⟨_, rfl⟩

/-- The wrapper, for every body: run it with echoing yields and finish. -/
theorem drive_eq {b : Builder α ε} {h : Eff α ε → Except PyErr (Eff α ε)} {resOf : List (Obj α) → Eff α ε} (hb : Good b h resOf)
    {g : Gen σ α ε S} {binder : Obj α → PyD (σ × GState S) (Eff α ε)} (hs : Sends b g binder) :
    Builder.fresh g.start (b.drive binder) = echo g >>= finish b h resOf := by
  have hs0 := hs
  apply PyD.ext
  intro w
  have hs := hs .none g.start w
  rw [echo, echoFrom.eq_1, exec_bind, exec_bind]
  change ((b.drive binder).exec (w, ⟨some g.start, false⟩)).map _ = _
  rw [Builder.drive, exec_bind, exec_tryStop]
  rcases hg : (g.next g.start .none).exec w with _ | ⟨e | o, w'⟩ <;> rw [hg] at hs
  · simp only at hs; rw [hs]; rfl
  · obtain ⟨hne, st, hs⟩ := hs
    rw [hs]
    cases e <;> first | rfl | exact absurd rfl hne
  · rcases o with ⟨y', s'⟩ | v | m
    · simp only at hs
      rw [hs]
      simp only
      rw [← hb.one y', ← exec_bind, List.nil_append]
      have hle := fun r hr => (loop_le hb hs0 (resOf [y']) (resOf [y']) (w', ⟨some s', false⟩) r hr).2 s' y' [y'] (by simp)
        rfl (hb.one y') rfl
      rcases hl : (b.loop binder (resOf [y']) (resOf [y'])).exec (w', ⟨some s', false⟩) with _ | r
      · rw [exec_bind']
        rcases he : (echoFrom g s' y' [y']).exec w' with _ | re
        · rfl
        · rcases hf : andThen (finish b h resOf) re with _ | r'
          · exact hf.symm
          · obtain ⟨st, h1⟩ := loop_ge hb hs0 s' y' [y'] w' re he (by simp) r' hf
            rw [← hb.one y', hl] at h1
            cases h1
      · rw [hle r hl]
        rfl
    · cases v with
      | none =>
        obtain ⟨st, hs⟩ := hs
        rw [hs]
        simp only [exec_pure, finish, hb.zero]
        rfl
      | val v =>
        obtain ⟨st, hd, hs⟩ := hs
        rw [hs]
        simp only
        rw [loop_eq, if_pos hd]
        simp only [exec_pure, finish, List.nil_append, hb.one]
        rfl
    · obtain ⟨st, hd, hs⟩ := hs
      rw [hs]
      simp only
      rw [loop_eq, if_pos hd]
      rfl

end Expression.Lemmas
