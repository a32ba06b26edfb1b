import Verif.Lemmas.Builder

/-! # The builders of the library, and bodies made of statements -/

namespace Expression.Lemmas

open PyD Spec

variable {σ α ε S T : Type}

theorem good_option : Good (optionBuilder : Builder α ε) .ok (fun ys => .opt ys.getLast?) where
  bind_ret y f := (bind_pure (f y)).symm
  h_ret y := rfl
  h_stop m h := nomatch h
  comb_ret ys y h := by
    rw [List.getLast?_append]
    rw [List.getLast?_eq_some_getLast h]
    rfl
  comb_stop r v := by
    rcases r with (_ | _) | (_ | _) | _ <;> exact fun h => nomatch h
  zero := rfl
  one y := rfl

/-- the last value yielded, `None` if none was -/
def lastOr (ys : List (Obj α)) : Obj α := ys.getLast?.getD .none

theorem good_result : Good (resultBuilder : Builder α ε) .ok (fun ys => .res (.ok (lastOr ys))) where
  bind_ret y f := (bind_pure (f y)).symm
  h_ret y := rfl
  h_stop m h := nomatch h
  comb_ret ys y h := by
    simp only [lastOr]
    rw [List.getLast?_append]
    rfl
  comb_stop r v := by
    rcases r with (_ | _) | (_ | _) | _ <;> exact fun h => nomatch h
  zero := rfl
  one y := rfl

theorem good_asyncOption : Good (asyncOptionBuilder : Builder α ε) .ok (fun ys => .opt ys.getLast?) where
  bind_ret y f := (bind_pure (f y)).symm
  h_ret y := rfl
  h_stop m h := nomatch h
  comb_ret ys y h := by
    rw [List.getLast?_append]
    rw [List.getLast?_eq_some_getLast h]
    rfl
  comb_stop r v := by
    rcases r with (_ | _) | (_ | _) | _ <;> exact fun h => nomatch h
  zero := rfl
  one y := rfl

theorem good_asyncResult : Good (asyncResultBuilder : Builder α ε) .ok (fun ys => .res (.ok (lastOr ys))) where
  bind_ret y f := (bind_pure (f y)).symm
  h_ret y := rfl
  h_stop m h := nomatch h
  comb_ret ys y h := by
    simp only [lastOr]
    rw [List.getLast?_append]
    rfl
  comb_stop r v := by
    rcases r with (_ | _) | (_ | _) | _ <;> exact fun h => nomatch h
  zero := rfl
  one y := rfl

/-- what the list comprehension makes of the answer -/
def asSeq (m : Eff α ε) : Except PyErr (Eff α ε) := Except.map Eff.seq m.iterate

theorem good_seq : Good (seqBuilder : Builder α ε) asSeq Eff.seq where
  bind_ret y f := by
    change (seqBindFrom f [y] >>= fun ys => pure (Eff.seq ys)) = _
    simp only [seqBindFrom, bind_assoc]
    refine bind_congr fun m => ?_
    simp only [asSeq]
    cases m.iterate with
    | error e => rfl
    | ok ys => simp [ofE, Except.map]
  h_ret y := rfl
  h_stop m := by rcases m with (_ | _) | (_ | _) | _ <;> exact fun h => nomatch h
  comb_ret ys y h := rfl
  comb_stop r v := by
    rcases r with (_ | _) | (_ | _) | _ <;> rcases v with (_ | _) | (_ | _) | _ <;> exact fun h => nomatch h
  zero := rfl
  one y := rfl

/-- A generator that raises neither `EffectError` nor `StopIteration` by itself is seen by its caller as it is. -/
theorem next_eq (g : Gen σ α ε S) (s : S) (v : Obj α) (h1 : ∀ w w', (g.resume s v).exec w ≠ some (.error .effectError, w'))
    (h2 : ∀ w w', (g.resume s v).exec w ≠ some (.error .stopIteration, w')) : g.next s v = g.resume s v := by
  apply PyD.ext
  intro w
  simp only [Gen.next, exec] at h1 h2 ⊢
  split
  · rename_i h; exact absurd h (h1 _ _)
  · rename_i h; exact absurd h (h2 _ _)
  · rfl

theorem fromBody_next {ok : Stmt α ε T → Prop} {step : T → PyD σ (Stmt α ε T)} (hstep : BodyOk ok step) (t : T) (s : Pos α T)
    (v : Obj α) : (fromBody step t).next s v = step (s.resume v) >>= fun st => pure st.run := by
  have h : ∀ e, (∀ t w w', (step t).exec w ≠ some (.error e, w')) → ∀ w w',
      ((fromBody step t).resume s v).exec w ≠ some (.error e, w') := by
    intro e he w w' h
    change exec (step (s.resume v) >>= fun st => pure st.run) w = _ at h
    rw [exec_bind] at h
    rcases hs : (step (s.resume v)).exec w with _ | ⟨e | st, w1⟩ <;> rw [hs] at h <;> cases h
    exact he _ _ _ hs
  exact next_eq _ s v (h _ hstep.effect) (h _ hstep.stop)

theorem optionBlock_eq {step : T → PyD σ (Stmt α ε T)} (hstep : BodyOk OptionStmt step) (t0 : T) (s : Pos α T) (v : Obj α)
    (ys : List (Obj α)) :
    (echoFrom (fromBody step t0) s v ys >>= finish optionBuilder .ok (fun ys => .opt ys.getLast?)) =
      optionBlock step (s.resume v) >>= fun o => pure (Eff.opt o) := by
  have hfin : ∀ ys : List (Obj α), (finish optionBuilder .ok (fun ys => .opt ys.getLast?) (ys, End.effect (.opt none)) : PyD σ (Eff α ε)) =
      pure (.opt none) := by
    intro ys
    rcases h : ys.getLast? with _ | x
    · rw [List.getLast?_eq_none_iff.1 h]; rfl
    · have : ys ≠ [] := by rintro rfl; cases h
      simp only [finish, if_neg this, h]; rfl
  apply Refines.antisymm
  · intro w r hr
    rw [exec_bind'] at hr
    rcases he : (echoFrom (fromBody step t0) s v ys).exec w with _ | r0 <;> rw [he] at hr
    · cases hr
    refine echoFrom.fixpoint_induct (fromBody step t0) (fun f => ∀ s v ys w r, (f s v ys).exec w = some r → ∀ r',
        andThen (finish optionBuilder .ok (fun ys => .opt ys.getLast?)) r = some r' →
        exec (optionBlock step (s.resume v) >>= fun o => pure (Eff.opt o)) w = some r')
      (admissible_post3 (fun (s : Pos α T) v ys w r => ∀ r',
        andThen (finish optionBuilder .ok (fun ys => .opt ys.getLast?)) r = some r' →
        exec (optionBlock step (s.resume v) >>= fun o => pure (Eff.opt o)) w = some r')) ?_ s v ys w r0 he r hr
    intro F hF s v ys w r hr r' hr'
    dsimp only at hr
    rw [fromBody_next hstep, exec_bind, exec_bind] at hr
    rw [optionBlock.eq_1, exec_bind, exec_bind]
    rcases hs : (step (s.resume v)).exec w with _ | ⟨e | st, w'⟩ <;> rw [hs] at hr
    · cases hr
    · cases hr; cases hr'; rfl
    · have hst := hstep.stmt _ _ _ _ hs
      rcases st with v | ⟨v, rest⟩ | ⟨_ | x, rest⟩ | ⟨r, rest⟩
      · cases v with
        | none => exact absurd rfl hst
        | val v =>
          cases hr
          cases hr'
          simp [exec_pure]
      · cases hst
      · cases hr
        change exec (finish optionBuilder .ok (fun ys => .opt ys.getLast?) (ys, End.effect (.opt none))) w' = _ at hr'
        rw [hfin] at hr'
        exact hr'
      · have := hF _ _ _ _ _ hr _ hr'
        rw [exec_bind] at this
        exact this
      · cases hst
  · intro w r hr
    rw [exec_bind'] at hr
    rcases he : (optionBlock step (s.resume v)).exec w with _ | r0 <;> rw [he] at hr
    · cases hr
    refine optionBlock.fixpoint_induct step (fun f => ∀ t w r, (f t).exec w = some r → ∀ s v ys r', Pos.resume s v = t →
        andThen (fun o => pure (Eff.opt o)) r = some r' →
        exec (echoFrom (fromBody step t0) s v ys >>= finish optionBuilder .ok (fun ys => .opt ys.getLast?)) w = some r')
      (admissible_post1 (fun t w r => ∀ s v ys r', Pos.resume s v = t →
        andThen (fun o => pure (Eff.opt o)) r = some r' →
        exec (echoFrom (fromBody step t0) s v ys >>= finish optionBuilder .ok (fun ys => .opt ys.getLast?)) w = some r')) ?_
        (s.resume v) w r0 he s v ys r rfl hr
    rintro F hF t w r hr s v ys r' rfl hr'
    rw [exec_bind] at hr
    rw [echoFrom.eq_1, fromBody_next hstep, exec_bind, exec_bind, exec_bind]
    rcases hs : (step (s.resume v)).exec w with _ | ⟨e | st, w'⟩ <;> rw [hs] at hr
    · cases hr
    · cases hr; cases hr'; rfl
    · have hst := hstep.stmt _ _ _ _ hs
      rcases st with v | ⟨v, rest⟩ | ⟨_ | x, rest⟩ | ⟨r, rest⟩
      · cases v with
        | none => exact absurd rfl hst
        | val v =>
          cases hr
          cases hr'
          simp [exec_pure, Stmt.run, finish]
      · cases hst
      · cases hr
        cases hr'
        simp only [exec_pure, Stmt.run]
        rw [hfin]; rfl
      · have := hF _ _ _ hr (.at_ rest) x (ys ++ [x]) r' rfl hr'
        rw [exec_bind] at this
        simp only [exec_pure, Stmt.run]
        exact this
      · cases hst

theorem resultBlock_eq {step : T → PyD σ (Stmt α ε T)} (hstep : BodyOk ResultStmt step) (t0 : T) (s : Pos α T) (v : Obj α)
    (ys : List (Obj α)) :
    (echoFrom (fromBody step t0) s v ys >>= finish resultBuilder .ok (fun ys => .res (.ok (lastOr ys)))) =
      resultBlock step (s.resume v) >>= fun o => pure (Eff.res o) := by
  have hfin : ∀ (ys : List (Obj α)) (e : ε), (finish resultBuilder .ok (fun ys => .res (.ok (lastOr ys))) (ys, End.effect (.res (.error e))) :
      PyD σ (Eff α ε)) = pure (.res (.error e)) := by
    intro ys e
    simp only [finish]
    split <;> rfl
  apply Refines.antisymm
  · intro w r hr
    rw [exec_bind'] at hr
    rcases he : (echoFrom (fromBody step t0) s v ys).exec w with _ | r0 <;> rw [he] at hr
    · cases hr
    refine echoFrom.fixpoint_induct (fromBody step t0) (fun f => ∀ s v ys w r, (f s v ys).exec w = some r → ∀ r',
        andThen (finish resultBuilder .ok (fun ys => .res (.ok (lastOr ys)))) r = some r' →
        exec (resultBlock step (s.resume v) >>= fun o => pure (Eff.res o)) w = some r')
      (admissible_post3 (fun (s : Pos α T) v ys w r => ∀ r',
        andThen (finish resultBuilder .ok (fun ys => .res (.ok (lastOr ys)))) r = some r' →
        exec (resultBlock step (s.resume v) >>= fun o => pure (Eff.res o)) w = some r')) ?_ s v ys w r0 he r hr
    intro F hF s v ys w r hr r' hr'
    dsimp only at hr
    rw [fromBody_next hstep, exec_bind, exec_bind] at hr
    rw [resultBlock.eq_1, exec_bind, exec_bind]
    rcases hs : (step (s.resume v)).exec w with _ | ⟨e | st, w'⟩ <;> rw [hs] at hr
    · cases hr
    · cases hr; cases hr'; rfl
    · have hst := hstep.stmt _ _ _ _ hs
      rcases st with v | ⟨v, rest⟩ | ⟨r, rest⟩ | ⟨x | e, rest⟩
      · cases v with
        | none => exact absurd rfl hst
        | val v =>
          cases hr
          cases hr'
          simp [exec_pure, lastOr]
      · cases hst
      · cases hst
      · have := hF _ _ _ _ _ hr _ hr'
        rw [exec_bind] at this
        exact this
      · cases hr
        change exec (finish resultBuilder .ok (fun ys => .res (.ok (lastOr ys))) (ys, End.effect (.res (.error e)))) w' = _ at hr'
        rw [hfin] at hr'
        exact hr'
  · intro w r hr
    rw [exec_bind'] at hr
    rcases he : (resultBlock step (s.resume v)).exec w with _ | r0 <;> rw [he] at hr
    · cases hr
    refine resultBlock.fixpoint_induct step (fun f => ∀ t w r, (f t).exec w = some r → ∀ s v ys r', Pos.resume s v = t →
        andThen (fun o => pure (Eff.res o)) r = some r' →
        exec (echoFrom (fromBody step t0) s v ys >>= finish resultBuilder .ok (fun ys => .res (.ok (lastOr ys)))) w = some r')
      (admissible_post1 (fun t w r => ∀ s v ys r', Pos.resume s v = t →
        andThen (fun o => pure (Eff.res o)) r = some r' →
        exec (echoFrom (fromBody step t0) s v ys >>= finish resultBuilder .ok (fun ys => .res (.ok (lastOr ys)))) w = some r')) ?_
        (s.resume v) w r0 he s v ys r rfl hr
    rintro F hF t w r hr s v ys r' rfl hr'
    rw [exec_bind] at hr
    rw [echoFrom.eq_1, fromBody_next hstep, exec_bind, exec_bind, exec_bind]
    rcases hs : (step (s.resume v)).exec w with _ | ⟨e | st, w'⟩ <;> rw [hs] at hr
    · cases hr
    · cases hr; cases hr'; rfl
    · have hst := hstep.stmt _ _ _ _ hs
      rcases st with v | ⟨v, rest⟩ | ⟨r, rest⟩ | ⟨x | e, rest⟩
      · cases v with
        | none => exact absurd rfl hst
        | val v =>
          cases hr
          cases hr'
          simp [exec_pure, Stmt.run, finish, lastOr]
      · cases hst
      · cases hst
      · have := hF _ _ _ hr (.at_ rest) x (ys ++ [x]) r' rfl hr'
        rw [exec_bind] at this
        simp only [exec_pure, Stmt.run]
        exact this
      · cases hr
        cases hr'
        simp only [exec_pure, Stmt.run]
        rw [hfin]; rfl

theorem echoFrom_yield {g : Gen σ α ε S} {s s' : S} {v y : Obj α} {w w' : σ} (ys : List (Obj α))
    (h : (g.next s v).exec w = some (.ok (.yielded y s'), w')) :
    (echoFrom g s v ys).exec w = (echoFrom g s' y (ys ++ [y])).exec w' := by
  rw [echoFrom.eq_1, exec_bind, h]

theorem echoFrom_returned {g : Gen σ α ε S} {s : S} {v y : Obj α} {w w' : σ} (ys : List (Obj α))
    (h : (g.next s v).exec w = some (.ok (.returned y), w')) :
    (echoFrom g s v ys).exec w = some (.ok (ys, .returned y), w') := by
  rw [echoFrom.eq_1, exec_bind, h]; rfl

theorem echoFrom_effect {g : Gen σ α ε S} {s : S} {v : Obj α} {m : Eff α ε} {w w' : σ} (ys : List (Obj α))
    (h : (g.next s v).exec w = some (.ok (.effect m), w')) :
    (echoFrom g s v ys).exec w = some (.ok (ys, .effect m), w') := by
  rw [echoFrom.eq_1, exec_bind, h]; rfl

/-! ## asynchronous bodies -/

theorem asyncRun_no_error {step : T → PyD σ (Stmt α ε T)} (e : PyErr)
    (he : ∀ t w w', (step t).exec w ≠ some (.error e, w')) (t : T) (w w' : σ) :
    (asyncRun step t).exec w ≠ some (.error e, w') := by
  have : ∀ t w r, (asyncRun step t).exec w = some r → r.1 ≠ .error e := by
    refine asyncRun.fixpoint_induct step (fun f => ∀ t w r, (f t).exec w = some r → r.1 ≠ .error e)
      (admissible_post1 (fun _ _ r => r.1 ≠ .error e)) ?_
    intro F hF t w r hr
    rw [exec_bind] at hr
    rcases hs : (step t).exec w with _ | ⟨e' | st, w1⟩ <;> rw [hs] at hr
    · cases hr
    · cases hr
      intro h
      cases h
      exact he _ _ _ hs
    · rcases st with v | ⟨v, rest⟩ | ⟨_ | x, rest⟩ | ⟨x | e, rest⟩
      · cases hr; exact fun h => nomatch h
      · cases hr; exact fun h => nomatch h
      · cases hr; exact fun h => nomatch h
      · exact hF _ _ _ hr
      · exact hF _ _ _ hr
      · cases hr; exact fun h => nomatch h
  intro h
  exact this t w _ h rfl

theorem fromAsyncBody_next {ok : Stmt α ε T → Prop} {step : T → PyD σ (Stmt α ε T)} (hstep : BodyOk ok step) (t : T) (s : Pos α T)
    (v : Obj α) : (noReturn (fromAsyncBody step t)).next s v = dropRet <$> asyncRun step (s.resume v) := by
  rw [noReturn_next, next_eq]
  · rfl
  · exact asyncRun_no_error _ hstep.effect _
  · exact asyncRun_no_error _ hstep.stop _

/-- what follows a stop of an asynchronous generator, `F` being the rest of the run -/
def afterStop (b : Builder α ε) (resOf : List (Obj α) → Eff α ε) (F : Pos α T → Obj α → List (Obj α) → PyD σ (List (Obj α) × End α ε))
    (ys : List (Obj α)) : GenOut α ε (Pos α T) → PyD σ (Eff α ε)
  | .yielded y s' => F s' y (ys ++ [y]) >>= finish b .ok resOf
  | .returned _ => pure (resOf ys)
  | .effect m => finish b .ok resOf (ys, .effect m)

/-- what `echoFrom` does with a stop, `F` being the rest of the run -/
def echoStep (F : Pos α T → Obj α → List (Obj α) → PyD σ (List (Obj α) × End α ε)) (ys : List (Obj α)) :
    GenOut α ε (Pos α T) → PyD σ (List (Obj α) × End α ε)
  | .yielded y s' => F s' y (ys ++ [y])
  | .returned v => pure (ys, .returned v)
  | .effect m => pure (ys, .effect m)

theorem afterStop_eq (b : Builder α ε) (resOf : List (Obj α) → Eff α ε)
    (F : Pos α T → Obj α → List (Obj α) → PyD σ (List (Obj α) × End α ε)) (ys : List (Obj α)) (p : PyD σ (GenOut α ε (Pos α T))) :
    (dropRet <$> p >>= echoStep F ys >>= finish b .ok resOf) = p >>= afterStop b resOf F ys := by
  rw [map_eq_pure_bind]
  simp only [bind_assoc, pure_bind]
  refine bind_congr fun o => ?_
  rcases o with ⟨y, s'⟩ | v | m
  · rfl
  · rfl
  · rfl

theorem echoFrom_async {ok : Stmt α ε T → Prop} {step : T → PyD σ (Stmt α ε T)} (hstep : BodyOk ok step)
    (t0 : T) (s : Pos α T) (v : Obj α) (ys : List (Obj α)) :
    echoFrom (noReturn (fromAsyncBody step t0)) s v ys =
      dropRet <$> asyncRun step (s.resume v) >>= echoStep (echoFrom (noReturn (fromAsyncBody step t0))) ys := by
  rw [echoFrom.eq_1, fromAsyncBody_next hstep]
  refine bind_congr fun o => ?_
  cases o <;> rfl

theorem echo_async_eq {ok : Stmt α ε T → Prop} {step : T → PyD σ (Stmt α ε T)} (hstep : BodyOk ok step) (b : Builder α ε)
    (resOf : List (Obj α) → Eff α ε) (t0 : T) (s : Pos α T) (v : Obj α) (ys : List (Obj α)) :
    (echoFrom (noReturn (fromAsyncBody step t0)) s v ys >>= finish b .ok resOf) =
      asyncRun step (s.resume v) >>= afterStop b resOf (echoFrom (noReturn (fromAsyncBody step t0))) ys := by
  rw [← afterStop_eq, ← echoFrom_async hstep]

/-- to bound the run of an asynchronous body from above -/
theorem echoFrom_async_le {ok : Stmt α ε T → Prop} {step : T → PyD σ (Stmt α ε T)} (hstep : BodyOk ok step) (t0 : T)
    (P : Pos α T → Obj α → List (Obj α) → σ → Except PyErr (List (Obj α) × End α ε) × σ → Prop)
    (h : ∀ F, (∀ s v ys w r, exec (F s v ys) w = some r → P s v ys w r) → ∀ s v ys w r,
      exec (dropRet <$> asyncRun step (s.resume v) >>= echoStep F ys) w = some r → P s v ys w r) (s : Pos α T) (v : Obj α)
    (ys : List (Obj α)) (w : σ) (r : Except PyErr (List (Obj α) × End α ε) × σ)
    (hr : (echoFrom (noReturn (fromAsyncBody step t0)) s v ys).exec w = some r) : P s v ys w r := by
  refine echoFrom.fixpoint_induct (noReturn (fromAsyncBody step t0)) (fun f => ∀ s v ys w r, (f s v ys).exec w = some r → P s v ys w r)
    (admissible_post3 P) ?_ s v ys w r hr
  intro F hF s v ys w r hr
  refine h F hF s v ys w r ?_
  dsimp only at hr
  rw [fromAsyncBody_next hstep] at hr
  rw [← hr]
  refine congrArg (fun p : PyD σ _ => p.exec w) (bind_congr fun o => ?_)
  cases o <;> rfl

/-- the run of an asynchronous generator does not end in a value -/
theorem echo_noReturn (g : Gen σ α ε S)
    (h : ∀ s v w x w', (g.resume s v).exec w = some (.ok (.returned x), w') → x = .none) (w w' : σ) (ys : List (Obj α)) (x : Obj α)
    (hr : (echo g).exec w = some (.ok (ys, .returned x), w')) : x = .none := by
  suffices ∀ s v (ys : List (Obj α)) w r, (echoFrom g s v ys).exec w = some r →
      ∀ ys x w', r = (.ok (ys, .returned x), w') → x = .none from this _ _ _ _ _ hr _ _ _ rfl
  refine echoFrom.fixpoint_induct g (fun f => ∀ s v ys w r, (f s v ys).exec w = some r →
      ∀ ys x w', r = (.ok (ys, .returned x), w') → x = .none)
    (admissible_post3 (fun (_ : S) (_ : Obj α) (_ : List (Obj α)) (_ : σ) (r : Except PyErr (List (Obj α) × End α ε) × σ) =>
      ∀ ys x w', r = (.ok (ys, .returned x), w') → x = .none)) ?_
  intro F hF s v ys w r hr ys' x w' e
  subst e
  dsimp only at hr
  rw [exec_bind] at hr
  rcases hn : (g.next s v).exec w with _ | ⟨e | o, w2⟩ <;> rw [hn] at hr
  · cases hr
  · cases hr
  · cases o with
    | yielded y s' => exact hF _ _ _ _ _ hr _ _ _ rfl
    | returned x' =>
      have e1 : x' = x := by cases hr; rfl
      subst e1
      have e2 : (g.resume s v).exec w = some (.ok (.returned x'), w2) := by
        simp only [Gen.next, exec] at hn ⊢
        split at hn <;> first | cases hn | skip
        exact hn
      exact h _ _ _ _ _ e2
    | effect m => cases hr

theorem asyncOptionBlock_eq {step : T → PyD σ (Stmt α ε T)} (hstep : BodyOk AsyncOptionStmt step) (t0 : T) (s : Pos α T)
    (v : Obj α) (ys : List (Obj α)) :
    (echoFrom (noReturn (fromAsyncBody step t0)) s v ys >>= finish asyncOptionBuilder .ok (fun ys => .opt ys.getLast?)) =
      asyncOptionBlock step (s.resume v) ys.getLast? >>= fun o => pure (Eff.opt o) := by
  have hfin : ∀ ys : List (Obj α), (finish asyncOptionBuilder .ok (fun ys => .opt ys.getLast?) (ys, End.effect (.opt none)) : PyD σ (Eff α ε)) =
      pure (.opt none) := by
    intro ys
    rcases h : ys.getLast? with _ | x
    · rw [List.getLast?_eq_none_iff.1 h]; rfl
    · have : ys ≠ [] := by rintro rfl; cases h
      simp only [finish, if_neg this, h]; rfl
  apply Refines.antisymm
  · intro w r hr
    rw [exec_bind'] at hr
    rcases he : (echoFrom (noReturn (fromAsyncBody step t0)) s v ys).exec w with _ | r0 <;> rw [he] at hr
    · cases hr
    refine echoFrom_async_le hstep t0 (fun (s : Pos α T) v (ys : List (Obj α)) w r => ∀ r',
        andThen (finish asyncOptionBuilder .ok (fun ys => .opt ys.getLast?)) r = some r' →
        exec (asyncOptionBlock step (s.resume v) ys.getLast? >>= fun o => pure (Eff.opt o)) w = some r') ?_ s v ys w r0 he r hr
    intro F hF s v ys w r hr r' hr'
    have hr2 : exec (asyncRun step (s.resume v) >>= afterStop asyncOptionBuilder (fun ys => .opt ys.getLast?) F ys) w = some r' := by
      rw [← afterStop_eq, exec_bind', hr]
      exact hr'
    clear hr hr'
    rw [exec_bind'] at hr2
    rcases he2 : (asyncRun step (s.resume v)).exec w with _ | r1 <;> rw [he2] at hr2
    · cases hr2
    refine asyncRun.fixpoint_induct step (fun f => ∀ t w r, (f t).exec w = some r → ∀ ys r',
        andThen (afterStop asyncOptionBuilder (fun ys => .opt ys.getLast?) F ys) r = some r' →
        exec (asyncOptionBlock step t ys.getLast? >>= fun o => pure (Eff.opt o)) w = some r')
      (admissible_post1 (fun t w r => ∀ (ys : List (Obj α)) r',
        andThen (afterStop asyncOptionBuilder (fun ys => .opt ys.getLast?) F ys) r = some r' →
        exec (asyncOptionBlock step t ys.getLast? >>= fun o => pure (Eff.opt o)) w = some r')) ?_ (s.resume v) w r1 he2 ys r' hr2
    intro G hG t w r hr ys r' hr'
    rw [exec_bind] at hr
    rw [asyncOptionBlock.eq_1, exec_bind, exec_bind]
    rcases hs : (step t).exec w with _ | ⟨e | st, w'⟩ <;> rw [hs] at hr
    · cases hr
    · cases hr; cases hr'; rfl
    · have hst := hstep.stmt _ _ _ _ hs
      rcases st with v | ⟨v, rest⟩ | ⟨_ | x, rest⟩ | ⟨r, rest⟩
      · cases hr
        exact hr'
      · cases hr
        change exec (F (.at_ rest) v (ys ++ [v]) >>= _) w' = _ at hr'
        rw [exec_bind'] at hr'
        rcases hf : (F (.at_ rest) v (ys ++ [v])).exec w' with _ | rf <;> rw [hf] at hr'
        · cases hr'
        have := hF _ _ _ _ _ hf _ hr'
        rw [exec_bind, List.getLast?_append] at this
        exact this
      · cases hr
        change exec (finish asyncOptionBuilder .ok (fun ys => .opt ys.getLast?) (ys, End.effect (.opt none))) w' = _ at hr'
        rw [hfin] at hr'
        exact hr'
      · have := hG _ _ _ hr _ _ hr'
        rw [exec_bind] at this
        exact this
      · cases hst
  · intro w r hr
    rw [exec_bind'] at hr
    rcases he : (asyncOptionBlock step (s.resume v) ys.getLast?).exec w with _ | r0 <;> rw [he] at hr
    · cases hr
    rw [echo_async_eq hstep]
    refine asyncOptionBlock.fixpoint_induct step (fun f => ∀ t last w r, (f t last).exec w = some r → ∀ ys r', ys.getLast? = last →
        andThen (fun o => pure (Eff.opt o)) r = some r' →
        exec (asyncRun step t >>= afterStop asyncOptionBuilder (fun ys => .opt ys.getLast?)
          (echoFrom (noReturn (fromAsyncBody step t0))) ys) w = some r')
      (admissible_post2 (fun t last w r => ∀ (ys : List (Obj α)) r', ys.getLast? = last →
        andThen (fun o => pure (Eff.opt o)) r = some r' →
        exec (asyncRun step t >>= afterStop asyncOptionBuilder (fun ys => .opt ys.getLast?)
          (echoFrom (noReturn (fromAsyncBody step t0))) ys) w = some r')) ?_
        (s.resume v) ys.getLast? w r0 he ys r rfl hr
    rintro F hF t last w r hr ys r' rfl hr'
    rw [exec_bind] at hr
    rw [asyncRun.eq_1, exec_bind, exec_bind]
    rcases hs : (step t).exec w with _ | ⟨e | st, w'⟩ <;> rw [hs] at hr
    · cases hr
    · cases hr; cases hr'; rfl
    · have hst := hstep.stmt _ _ _ _ hs
      rcases st with v | ⟨v, rest⟩ | ⟨_ | x, rest⟩ | ⟨r, rest⟩
      · cases hr
        exact hr'
      · have := hF _ _ _ _ hr (ys ++ [v]) r' (by rw [List.getLast?_append]; rfl) hr'
        simp only [exec_pure]
        change exec (echoFrom (noReturn (fromAsyncBody step t0)) (.at_ rest) v (ys ++ [v]) >>= _) w' = _
        rw [echo_async_eq hstep]
        exact this
      · cases hr
        cases hr'
        simp only [exec_pure, afterStop]
        rw [hfin]; rfl
      · have := hF _ _ _ _ hr ys r' rfl hr'
        rw [exec_bind] at this
        exact this
      · cases hst

theorem asyncResultBlock_eq {step : T → PyD σ (Stmt α ε T)} (hstep : BodyOk AsyncResultStmt step) (t0 : T) (s : Pos α T)
    (v : Obj α) (ys : List (Obj α)) :
    (echoFrom (noReturn (fromAsyncBody step t0)) s v ys >>= finish asyncResultBuilder .ok (fun ys => .res (.ok (lastOr ys)))) =
      asyncResultBlock step (s.resume v) (lastOr ys) >>= fun o => pure (Eff.res o) := by
  have hlast : ∀ (ys : List (Obj α)) (y : Obj α), lastOr (ys ++ [y]) = y := by
    intro ys y
    rw [lastOr, List.getLast?_append]; rfl
  have hfin : ∀ (ys : List (Obj α)) (e : ε), (finish asyncResultBuilder .ok (fun ys => .res (.ok (lastOr ys))) (ys, End.effect (.res (.error e))) :
      PyD σ (Eff α ε)) = pure (.res (.error e)) := by
    intro ys e
    simp only [finish]
    split <;> rfl
  apply Refines.antisymm
  · intro w r hr
    rw [exec_bind'] at hr
    rcases he : (echoFrom (noReturn (fromAsyncBody step t0)) s v ys).exec w with _ | r0 <;> rw [he] at hr
    · cases hr
    refine echoFrom_async_le hstep t0 (fun (s : Pos α T) v (ys : List (Obj α)) w r => ∀ r',
        andThen (finish asyncResultBuilder .ok (fun ys => .res (.ok (lastOr ys)))) r = some r' →
        exec (asyncResultBlock step (s.resume v) (lastOr ys) >>= fun o => pure (Eff.res o)) w = some r') ?_ s v ys w r0 he r hr
    intro F hF s v ys w r hr r' hr'
    have hr2 : exec (asyncRun step (s.resume v) >>= afterStop asyncResultBuilder (fun ys => .res (.ok (lastOr ys))) F ys) w = some r' := by
      rw [← afterStop_eq, exec_bind', hr]
      exact hr'
    clear hr hr'
    rw [exec_bind'] at hr2
    rcases he2 : (asyncRun step (s.resume v)).exec w with _ | r1 <;> rw [he2] at hr2
    · cases hr2
    refine asyncRun.fixpoint_induct step (fun f => ∀ t w r, (f t).exec w = some r → ∀ ys r',
        andThen (afterStop asyncResultBuilder (fun ys => .res (.ok (lastOr ys))) F ys) r = some r' →
        exec (asyncResultBlock step t (lastOr ys) >>= fun o => pure (Eff.res o)) w = some r')
      (admissible_post1 (fun t w r => ∀ (ys : List (Obj α)) r',
        andThen (afterStop asyncResultBuilder (fun ys => .res (.ok (lastOr ys))) F ys) r = some r' →
        exec (asyncResultBlock step t (lastOr ys) >>= fun o => pure (Eff.res o)) w = some r')) ?_ (s.resume v) w r1 he2 ys r' hr2
    intro G hG t w r hr ys r' hr'
    rw [exec_bind] at hr
    rw [asyncResultBlock.eq_1, exec_bind, exec_bind]
    rcases hs : (step t).exec w with _ | ⟨e | st, w'⟩ <;> rw [hs] at hr
    · cases hr
    · cases hr; cases hr'; rfl
    · have hst := hstep.stmt _ _ _ _ hs
      rcases st with v | ⟨v, rest⟩ | ⟨r, rest⟩ | ⟨x | e, rest⟩
      · cases hr
        exact hr'
      · cases hr
        change exec (F (.at_ rest) v (ys ++ [v]) >>= _) w' = _ at hr'
        rw [exec_bind'] at hr'
        rcases hf : (F (.at_ rest) v (ys ++ [v])).exec w' with _ | rf <;> rw [hf] at hr'
        · cases hr'
        have := hF _ _ _ _ _ hf _ hr'
        rw [exec_bind, hlast] at this
        exact this
      · cases hst
      · have := hG _ _ _ hr _ _ hr'
        rw [exec_bind] at this
        exact this
      · cases hr
        change exec (finish asyncResultBuilder .ok (fun ys => .res (.ok (lastOr ys))) (ys, End.effect (.res (.error e)))) w' = _ at hr'
        rw [hfin] at hr'
        exact hr'
  · intro w r hr
    rw [exec_bind'] at hr
    rcases he : (asyncResultBlock step (s.resume v) (lastOr ys)).exec w with _ | r0 <;> rw [he] at hr
    · cases hr
    rw [echo_async_eq hstep]
    refine asyncResultBlock.fixpoint_induct step (fun f => ∀ t last w r, (f t last).exec w = some r → ∀ ys r', (lastOr ys) = last →
        andThen (fun o => pure (Eff.res o)) r = some r' →
        exec (asyncRun step t >>= afterStop asyncResultBuilder (fun ys => .res (.ok (lastOr ys)))
          (echoFrom (noReturn (fromAsyncBody step t0))) ys) w = some r')
      (admissible_post2 (fun t last w r => ∀ (ys : List (Obj α)) r', (lastOr ys) = last →
        andThen (fun o => pure (Eff.res o)) r = some r' →
        exec (asyncRun step t >>= afterStop asyncResultBuilder (fun ys => .res (.ok (lastOr ys)))
          (echoFrom (noReturn (fromAsyncBody step t0))) ys) w = some r')) ?_
        (s.resume v) (lastOr ys) w r0 he ys r rfl hr
    rintro F hF t last w r hr ys r' rfl hr'
    rw [exec_bind] at hr
    rw [asyncRun.eq_1, exec_bind, exec_bind]
    rcases hs : (step t).exec w with _ | ⟨e | st, w'⟩ <;> rw [hs] at hr
    · cases hr
    · cases hr; cases hr'; rfl
    · have hst := hstep.stmt _ _ _ _ hs
      rcases st with v | ⟨v, rest⟩ | ⟨r, rest⟩ | ⟨x | e, rest⟩
      · cases hr
        exact hr'
      · have := hF _ _ _ _ hr (ys ++ [v]) r' (hlast ys v) hr'
        simp only [exec_pure]
        change exec (echoFrom (noReturn (fromAsyncBody step t0)) (.at_ rest) v (ys ++ [v]) >>= _) w' = _
        rw [echo_async_eq hstep]
        exact this
      · cases hst
      · have := hF _ _ _ _ hr ys r' rfl hr'
        rw [exec_bind] at this
        exact this
      · cases hr
        cases hr'
        simp only [exec_pure, afterStop]
        rw [hfin]; rfl

/-- a coroutine gives the value of its block, and raises `EffectError` where the block is `Nothing` -/
theorem asyncPlain_option {step : T → PyD σ (Stmt α ε T)}
    (hstep : ∀ t w st w', (step t).exec w = some (.ok st, w') → CoroutineStmt st) (t : T) :
    asyncPlain step t = optionBlock step t >>= fun o => match o with
      | some v => pure v
      | none => raise .effectError := by
  apply Refines.antisymm
  · intro w r hr
    refine asyncPlain.fixpoint_induct step (fun f => ∀ t w r, (f t).exec w = some r →
        exec (optionBlock step t >>= fun o => match o with
          | some v => pure v
          | none => raise .effectError) w = some r)
      (admissible_post1 _) ?_ t w r hr
    intro F hF t w r hr
    rw [exec_bind] at hr
    rw [optionBlock.eq_1, exec_bind, exec_bind]
    rcases hs : (step t).exec w with _ | ⟨e | st, w'⟩ <;> rw [hs] at hr
    · cases hr
    · cases hr; rfl
    · have hst := hstep _ _ _ _ hs
      rcases st with v | ⟨v, rest⟩ | ⟨_ | x, rest⟩ | ⟨r, rest⟩
      · cases hr; rfl
      · cases hst
      · cases hr; rfl
      · have := hF _ _ _ hr
        rw [exec_bind] at this
        exact this
      · cases hst
  · intro w r hr
    rw [exec_bind'] at hr
    rcases he : (optionBlock step t).exec w with _ | r0 <;> rw [he] at hr
    · cases hr
    refine optionBlock.fixpoint_induct step (fun f => ∀ t w r, (f t).exec w = some r → ∀ r',
        andThen (fun o => match o with
          | some v => pure v
          | none => raise .effectError) r = some r' → exec (asyncPlain step t) w = some r')
      (admissible_post1 (fun t w r => ∀ r', andThen (fun o => match o with
          | some v => pure v
          | none => raise .effectError) r = some r' → exec (asyncPlain step t) w = some r')) ?_ t w r0 he r hr
    intro F hF t w r hr r' hr'
    rw [exec_bind] at hr
    rw [asyncPlain.eq_1, exec_bind]
    rcases hs : (step t).exec w with _ | ⟨e | st, w'⟩ <;> rw [hs] at hr
    · cases hr
    · cases hr; cases hr'; rfl
    · have hst := hstep _ _ _ _ hs
      rcases st with v | ⟨v, rest⟩ | ⟨_ | x, rest⟩ | ⟨r, rest⟩
      · cases hr; cases hr'; rfl
      · cases hst
      · cases hr; cases hr'; rfl
      · exact hF _ _ _ hr _ hr'
      · cases hst

/-- the same for results -/
theorem asyncPlain_result {step : T → PyD σ (Stmt α ε T)}
    (hstep : ∀ t w st w', (step t).exec w = some (.ok st, w') → CoroutineResultStmt st) (t : T) :
    asyncPlain step t = resultBlock step t >>= fun o => match o with
      | .ok v => pure v
      | .error _ => raise .effectError := by
  apply Refines.antisymm
  · intro w r hr
    refine asyncPlain.fixpoint_induct step (fun f => ∀ t w r, (f t).exec w = some r →
        exec (resultBlock step t >>= fun o => match o with
          | .ok v => pure v
          | .error _ => raise .effectError) w = some r)
      (admissible_post1 _) ?_ t w r hr
    intro F hF t w r hr
    rw [exec_bind] at hr
    rw [resultBlock.eq_1, exec_bind, exec_bind]
    rcases hs : (step t).exec w with _ | ⟨e | st, w'⟩ <;> rw [hs] at hr
    · cases hr
    · cases hr; rfl
    · have hst := hstep _ _ _ _ hs
      rcases st with v | ⟨v, rest⟩ | ⟨o, rest⟩ | ⟨_ | x, rest⟩
      · cases hr; rfl
      · cases hst
      · cases hst
      · first
        | (cases hr; rfl)
        | (have := hF _ _ _ hr
           rw [exec_bind] at this
           exact this)
      · first
        | (cases hr; rfl)
        | (have := hF _ _ _ hr
           rw [exec_bind] at this
           exact this)
  · intro w r hr
    rw [exec_bind'] at hr
    rcases he : (resultBlock step t).exec w with _ | r0 <;> rw [he] at hr
    · cases hr
    refine resultBlock.fixpoint_induct step (fun f => ∀ t w r, (f t).exec w = some r → ∀ r',
        andThen (fun o : Res (Obj α) ε => match o with
          | .ok v => pure v
          | .error _ => raise .effectError) r = some r' → exec (asyncPlain step t) w = some r')
      (admissible_post1 (fun t w r => ∀ r', andThen (fun o : Res (Obj α) ε => match o with
          | .ok v => pure v
          | .error _ => raise .effectError) r = some r' → exec (asyncPlain step t) w = some r')) ?_ t w r0 he r hr
    intro F hF t w r hr r' hr'
    rw [exec_bind] at hr
    rw [asyncPlain.eq_1, exec_bind]
    rcases hs : (step t).exec w with _ | ⟨e | st, w'⟩ <;> rw [hs] at hr
    · cases hr
    · cases hr; cases hr'; rfl
    · have hst := hstep _ _ _ _ hs
      rcases st with v | ⟨v, rest⟩ | ⟨o, rest⟩ | ⟨_ | x, rest⟩
      · cases hr; cases hr'; rfl
      · cases hst
      · cases hst
      · first
        | (cases hr; cases hr'; rfl)
        | exact hF _ _ _ hr _ hr'
      · first
        | (cases hr; cases hr'; rfl)
        | exact hF _ _ _ hr _ hr'

end Expression.Lemmas
