import Verif.Lemmas.Builder2

/-! # C33-C36: builders -/

namespace Expression.Props

open Spec Lemmas PyD

variable {σ α ε S T : Type}

/-! ## C33 effect.option -/

/-- Every body: it runs with every `yield` evaluating to the value yielded; a value returned is wrapped, an `EffectError` gives its payload, and a body that
returns `None` gives the last value it yielded, `Nothing` if it yielded none.  Exceptions, effects and divergence are those of the body. -/
theorem C33_any_body (g : Gen σ α ε S) : optionBuilder.call g = (do
    let (ys, e) ← echo g
    match e with
    | .returned .none => pure (.opt ys.getLast?)
    | .returned v => pure (.opt (some v))
    | .effect m => pure m) := by
  rw [Builder.call, drive_eq good_option (sends_send optionBuilder (fun _ => rfl) g)]
  refine bind_congr fun r => ?_
  rcases r with ⟨ys, (_ | v) | m⟩
  · rfl
  · simp [finish]
  · simp only [finish]
    split
    · rfl
    · rename_i h
      rw [List.getLast?_eq_some_getLast h]
      rfl

/-- The full property: a body of `x = yield from option` statements ending in `return v` is the nested bind ending in `Some(v)`. -/
def C33_full_statement : Prop :=
  ∀ (step : Nat → PyD Unit (Stmt Nat Empty Nat)) (t : Nat), BodyOk OptionStmtNone step →
    optionBuilder.call (fromBody step t) = do let o ← optionBlock step t; pure (.opt o)

/-- It is false: `x = yield from Some(3); return None` is `Some(3)`, not `Some(None)`. -/
theorem C33_full_statement_false : ¬ C33_full_statement := by
  intro h
  let step : Nat → PyD Unit (Stmt Nat Empty Nat) := fun t =>
    if t = 0 then pure (.fromOpt (some (.val 3)) (fun _ => 1)) else pure (.ret .none)
  have ok : BodyOk OptionStmtNone step := by
    refine ⟨?_, ?_, ?_⟩
    · intro t w st w' hs
      by_cases ht : t = 0 <;> simp only [step, ht, if_true, if_false] at hs <;> cases hs <;> trivial
    · intro t w w' hs
      by_cases ht : t = 0 <;> simp only [step, ht, if_true, if_false] at hs <;> cases hs
    · intro t w w' hs
      by_cases ht : t = 0 <;> simp only [step, ht, if_true, if_false] at hs <;> cases hs
  have h1 := h step 0 ok
  have e1 : exec (optionBuilder.call (fromBody step 0)) () = some (.ok (.opt (some (.val 3))), ()) := by
    rw [C33_any_body, exec_bind, echo, echoFrom_yield _ rfl, echoFrom_returned _ rfl]
    rfl
  have e2 : exec (do let o ← optionBlock step 0; pure (Eff.opt o)) () = some (.ok (.opt (some .none) : Eff Nat Empty), ()) := by
    rw [optionBlock.eq_1]
    change exec (do let o ← optionBlock step 1; pure (Eff.opt o)) () = _
    rw [optionBlock.eq_1]
    rfl
  rw [h1, e2] at e1
  injection e1 with e1
  injection e1 with e1
  injection e1 with e1
  injection e1 with e1
  injection e1 with e1
  cases e1

/-- Proved: for bodies that do not return `None`.  (What they do then is `C33_any_body`.) -/
theorem C33_block_partial (step : T → PyD σ (Stmt α ε T)) (t : T) (h : BodyOk OptionStmt step) :
    optionBuilder.call (fromBody step t) = (do let o ← optionBlock step t; pure (.opt o)) := by
  rw [Builder.call, drive_eq good_option (sends_send optionBuilder (fun _ => rfl) _)]
  exact optionBlock_eq h t (.start t) .none []

/-- The block is the nested bind. -/
theorem C33_block_is_bind (step : T → PyD σ (Stmt α ε T)) (t : T) (h : BodyOk OptionStmt step) :
    optionBlock step t = (do
      match ← step t with
      | .ret v => pure (some v)
      | .fromOpt o rest => Opt.bind o (fun x => optionBlock step (rest x))
      | _ => pure none) := by
  apply PyD.ext
  intro w
  rw [optionBlock.eq_1, exec_bind, exec_bind]
  rcases hs : (step t).exec w with _ | ⟨e | st, w'⟩
  · rfl
  · rfl
  · have hst := h.stmt _ _ _ _ hs
    rcases st with v | ⟨v, rest⟩ | ⟨_ | x, rest⟩ | ⟨r, rest⟩
    · rfl
    · cases hst
    · rfl
    · rfl
    · cases hst

/-- a body that reads the options in a log of its own until one is `Nothing`, or returns the sum: a loop whose length is not known beforehand -/
def sumBody : Nat × Nat → PyD (List (Option Nat)) (Stmt Nat Empty (Nat × Nat)) := fun (n, acc) w =>
  match n, w with
  | 0, w => some (.ok (.ret (.val acc)), w)
  | _ + 1, [] => some (.ok (.ret (.val acc)), [])
  | n + 1, o :: w => some (.ok (.fromOpt (o.map .val) (fun x => (n, match x with | .val v => acc + v | .none => acc))), w)

example : BodyOk OptionStmt sumBody := by
  refine ⟨?_, ?_, ?_⟩
  · rintro ⟨_ | n, acc⟩ (_ | ⟨o, w⟩) st w' hs <;> cases hs <;> first | trivial | exact fun h => nomatch h
  · rintro ⟨_ | n, acc⟩ (_ | ⟨o, w⟩) w' hs <;> cases hs
  · rintro ⟨_ | n, acc⟩ (_ | ⟨o, w⟩) w' hs <;> cases hs

/-! ## C34 effect.result -/

/-- As `C33_any_body`; a body that returns `None` gives `Ok` of the last value it yielded, `Ok(None)` if it yielded none. -/
theorem C34_any_body (g : Gen σ α ε S) : resultBuilder.call g = (do
    let (ys, e) ← echo g
    match e with
    | .returned .none => pure (.res (.ok (ys.getLast?.getD .none)))
    | .returned v => pure (.res (.ok v))
    | .effect m => pure m) := by
  rw [Builder.call, drive_eq good_result (sends_send resultBuilder (fun _ => rfl) g)]
  refine bind_congr fun r => ?_
  rcases r with ⟨ys, (_ | v) | m⟩
  · rfl
  · simp [finish, lastOr]
  · simp only [finish]
    split <;> rfl

def C34_full_statement : Prop :=
  ∀ (step : Nat → PyD Unit (Stmt Nat Empty Nat)) (t : Nat),
    BodyOk (fun st => match st with | .ret _ => True | .fromRes _ _ => True | _ => False) step →
    resultBuilder.call (fromBody step t) = do let o ← resultBlock step t; pure (.res o)

/-- It is false: `x = yield from Ok(3); return None` is `Ok(3)`, not `Ok(None)`. -/
theorem C34_full_statement_false : ¬ C34_full_statement := by
  intro h
  let step : Nat → PyD Unit (Stmt Nat Empty Nat) := fun t =>
    if t = 0 then pure (.fromRes (.ok (.val 3)) (fun _ => 1)) else pure (.ret .none)
  have h1 := h step 0 (by
    refine ⟨?_, ?_, ?_⟩
    · intro t w st w' hs
      by_cases ht : t = 0 <;> simp only [step, ht, if_true, if_false] at hs <;> cases hs <;> trivial
    · intro t w w' hs
      by_cases ht : t = 0 <;> simp only [step, ht, if_true, if_false] at hs <;> cases hs
    · intro t w w' hs
      by_cases ht : t = 0 <;> simp only [step, ht, if_true, if_false] at hs <;> cases hs)
  have e1 : exec (resultBuilder.call (fromBody step 0)) () = some (.ok (.res (.ok (.val 3))), ()) := by
    rw [C34_any_body, exec_bind, echo, echoFrom_yield _ rfl, echoFrom_returned _ rfl]
    rfl
  have e2 : exec (do let o ← resultBlock step 0; pure (Eff.res o)) () = some (.ok (.res (.ok .none) : Eff Nat Empty), ()) := by
    rw [resultBlock.eq_1]
    change exec (do let o ← resultBlock step 1; pure (Eff.res o)) () = _
    rw [resultBlock.eq_1]
    rfl
  rw [h1, e2] at e1
  injection e1 with e1
  injection e1 with e1
  injection e1 with e1
  injection e1 with e1
  injection e1 with e1
  cases e1

/-- Proved: for bodies that do not return `None`. -/
theorem C34_block_partial (step : T → PyD σ (Stmt α ε T)) (t : T) (h : BodyOk ResultStmt step) :
    resultBuilder.call (fromBody step t) = (do let o ← resultBlock step t; pure (.res o)) := by
  rw [Builder.call, drive_eq good_result (sends_send resultBuilder (fun _ => rfl) _)]
  exact resultBlock_eq h t (.start t) .none []

/-- The block is the nested bind. -/
theorem C34_block_is_bind (step : T → PyD σ (Stmt α ε T)) (t : T) (h : BodyOk ResultStmt step) :
    resultBlock step t = (do
      match ← step t with
      | .ret v => pure (.ok v)
      | .fromRes r rest => Res.bind r (fun x => resultBlock step (rest x))
      | _ => PyD.raise (.typeError "no such statement")) := by
  apply PyD.ext
  intro w
  rw [resultBlock.eq_1, exec_bind, exec_bind]
  rcases hs : (step t).exec w with _ | ⟨e | st, w'⟩
  · rfl
  · rfl
  · have hst := h.stmt _ _ _ _ hs
    rcases st with v | ⟨v, rest⟩ | ⟨r, rest⟩ | ⟨x | e, rest⟩
    · rfl
    · cases hst
    · cases hst
    · rfl
    · rfl

/-- A body without `yield`: its value is wrapped, `None` becomes the zero of the builder. -/
theorem C34_plain_body (body : PyD σ (Obj α)) :
    (optionBuilder : Builder α ε).callPlain body = (do
      let v ← body
      pure (.opt (Opt.ofOptional v))) ∧
    (resultBuilder : Builder α ε).callPlain body = (do
      let v ← body
      pure (.res (.ok v))) := by
  constructor
  · refine bind_congr fun v => ?_
    cases v <;> rfl
  · refine bind_congr fun v => ?_
    cases v <;> rfl

example : exec (resultBuilder.call (fromBody (fun t => (if t = 0 then pure (.fromRes (.ok (.val 3)) (fun _ => 1))
    else pure (.fromRes (.error "bad") (fun _ => 0)) : PyD Unit (Stmt Nat String Nat))) 0)) () =
    some (.ok (.res (.error "bad")), ()) := by
  rw [C34_any_body, exec_bind, echo, echoFrom_yield _ rfl, echoFrom_effect _ rfl]
  rfl

/-! ## C35 effect.seq -/

/-- Every body: the values yielded, in order, then the value returned unless it is `None`; every `yield` evaluates to the value it yielded.
A body that ends with an `EffectError` raises it, unless it had not yielded anything: then its payload is the result. -/
theorem C35_any_body (g : Gen σ α ε S) : seqBuilder.call g = (do
    let (ys, e) ← echo g
    match e with
    | .returned .none => pure (.seq ys)
    | .returned v => pure (.seq (ys ++ [v]))
    | .effect m => if ys = [] then pure m else match m.iterate with
      | .ok zs => pure (.seq (ys ++ zs))
      | .error e => raise e) := by
  rw [Builder.call, drive_eq good_seq (sends_send seqBuilder (fun _ => rfl) g)]
  refine bind_congr fun r => ?_
  rcases r with ⟨ys, (_ | v) | m⟩
  · rfl
  · rfl
  · simp only [finish, asSeq]
    split
    · rfl
    · cases m.iterate <;> rfl

/-- Bodies that raise no `EffectError`: the yields in order, then what was returned. -/
theorem C35_collects (g : Gen σ α ε S) (w w' : σ) (ys : List (Obj α)) :
    ((echo g).exec w = some (.ok (ys, .returned .none), w') → (seqBuilder.call g).exec w = some (.ok (.seq ys), w')) ∧
    ∀ v, (echo g).exec w = some (.ok (ys, .returned (.val v)), w') →
      (seqBuilder.call g).exec w = some (.ok (.seq (ys ++ [.val v])), w') := by
  constructor
  · intro h
    rw [C35_any_body, exec_bind, h]; rfl
  · intro v h
    rw [C35_any_body, exec_bind, h]; rfl

/-- `x = yield 1; y = yield x + 1; return x + y` -/
example : exec (seqBuilder.call (fromBody (fun t => (match t with
    | [] => pure (.yield_ (.val 1) (fun x => [x]))
    | [Obj.val x] => pure (.yield_ (.val (x + 1)) (fun y => [y, .val x]))
    | [Obj.val y, Obj.val x] => pure (.ret (.val (x + y)))
    | _ => raise .indexError : PyD Unit (Stmt Nat Empty (List (Obj Nat))))) [])) () =
    some (.ok (.seq [.val 1, .val 2, .val 3]), ()) := by
  rw [C35_any_body, exec_bind, echo, echoFrom_yield _ rfl, echoFrom_yield _ rfl, echoFrom_returned _ rfl]
  rfl

/-! ## C36 asynchronous builders -/

/-- The full property, for generators and for plain coroutines under `effect.async_option`. -/
def C36_full_statement : Prop :=
  (∀ (step : Nat → PyD Unit (Stmt Nat Empty Nat)) (t : Nat), BodyOk AsyncOptionStmt step →
    asyncOptionBuilder.asyncCall (fromAsyncBody step t) = do let o ← asyncOptionBlock step t none; pure (.opt o)) ∧
  (∀ (step : Nat → PyD Unit (Stmt Nat Empty Nat)) (t : Nat), BodyOk CoroutineStmt step →
    (asyncOptionBuilder : Builder Nat Empty).callPlain (asyncPlain step t) = do let o ← optionBlock step t; pure (.opt o))

/-- It is false: in a coroutine without `yield`, awaiting `Nothing` raises `EffectError` to the caller. -/
theorem C36_full_statement_false : ¬ C36_full_statement := by
  intro h
  let step : Nat → PyD Unit (Stmt Nat Empty Nat) := fun _ => pure (.fromOpt none (fun _ => 0))
  have h1 := h.2 step 0 (by
    refine ⟨?_, ?_, ?_⟩
    · intro t w st w' hs; cases hs; trivial
    · intro t w w' hs; cases hs
    · intro t w w' hs; cases hs)
  have e1 : exec (asyncOptionBuilder.callPlain (asyncPlain step 0)) () =
      (some (.error .effectError, ()) : Option (Except PyErr (Eff Nat Empty) × Unit)) := by
    rw [Builder.callPlain, asyncPlain.eq_1]
    rfl
  have e2 : exec (do let o ← optionBlock step 0; pure (Eff.opt o)) () = some (.ok (.opt none : Eff Nat Empty), ()) := by
    rw [optionBlock.eq_1]
    rfl
  rw [h1, e2] at e1
  cases e1

/-- Every asynchronous generator (which cannot return a value): it runs with every `yield` evaluating to the value yielded; the result is the
last value yielded, `Nothing` (`Ok(None)`) if there was none, or the payload of the `EffectError` it ended with.  Exceptions, effects and
divergence are those of the body. -/
theorem C36_any_body (g : Gen σ α ε S)
    (hg : ∀ s v w x w', (g.resume s v).exec w = some (.ok (.returned x), w') → x = .none) :
    asyncOptionBuilder.asyncCall g = (do
      let (ys, e) ← echo g
      match e with
      | .returned _ => pure (.opt ys.getLast?)
      | .effect m => pure m) ∧
    asyncResultBuilder.asyncCall g = (do
      let (ys, e) ← echo g
      match e with
      | .returned _ => pure (.res (.ok (ys.getLast?.getD .none)))
      | .effect m => pure m) := by
  have h1 := drive_eq good_asyncOption (sends_asyncSend asyncOptionBuilder (fun _ => rfl) g)
  have h2 := drive_eq good_asyncResult (sends_asyncSend asyncResultBuilder (fun _ => rfl) g)
  rw [noReturn_id g hg] at h1 h2
  constructor
  · rw [Builder.asyncCall, h1]
    apply PyD.ext
    intro w
    rw [exec_bind, exec_bind]
    rcases he : (echo g).exec w with _ | ⟨e | ⟨ys, x | m⟩, w'⟩
    · rfl
    · rfl
    · have := echo_noReturn g hg w w' ys x he
      subst this
      rfl
    · simp only [finish]
      split
      · rfl
      · rename_i h
        rw [List.getLast?_eq_some_getLast h]
        rfl
  · rw [Builder.asyncCall, h2]
    apply PyD.ext
    intro w
    rw [exec_bind, exec_bind]
    rcases he : (echo g).exec w with _ | ⟨e | ⟨ys, x | m⟩, w'⟩
    · rfl
    · rfl
    · have := echo_noReturn g hg w w' ys x he
      subst this
      rfl
    · simp only [finish]
      split <;> rfl

/-- the body of the example below meets the hypothesis: it returns `None` -/
example : ∀ s v w x w', ((fromAsyncBody (fun t => (match t with
    | 0 => pure (.yield_ (.val 3) (fun _ => 1))
    | _ => pure (.ret .none) : PyD Unit (Stmt Nat Empty Nat))) 0).resume s v).exec w = some (.ok (.returned x), w') → x = .none := by
  intro s v w x w' h
  simp only [fromAsyncBody] at h
  rw [asyncRun.eq_1] at h
  generalize s.resume v = t at h
  rcases t with _ | n
  · cases h
  · cases h; rfl

/-- Proved: asynchronous generators.  Awaits unwrap, the first `Nothing` is the result, otherwise the last value yielded is (`Nothing` if there was
none); effects, exceptions and divergence are those of the body. -/
theorem C36_async_option_partial (step : T → PyD σ (Stmt α ε T)) (t : T) (h : BodyOk AsyncOptionStmt step) :
    asyncOptionBuilder.asyncCall (fromAsyncBody step t) = (do let o ← asyncOptionBlock step t none; pure (.opt o)) := by
  rw [Builder.asyncCall]
  have := drive_eq good_asyncOption (sends_asyncSend asyncOptionBuilder (fun _ => rfl) (fromAsyncBody step t))
  rw [show (fromAsyncBody step t).start = (noReturn (fromAsyncBody step t)).start from rfl, this]
  exact asyncOptionBlock_eq h t (.start t) .none []

theorem C36_async_result_partial (step : T → PyD σ (Stmt α ε T)) (t : T) (h : BodyOk AsyncResultStmt step) :
    asyncResultBuilder.asyncCall (fromAsyncBody step t) = (do let o ← asyncResultBlock step t .none; pure (.res o)) := by
  rw [Builder.asyncCall]
  have := drive_eq good_asyncResult (sends_asyncSend asyncResultBuilder (fun _ => rfl) (fromAsyncBody step t))
  rw [show (fromAsyncBody step t).start = (noReturn (fromAsyncBody step t)).start from rfl, this]
  exact asyncResultBlock_eq h t (.start t) .none []

/-- A coroutine (a body without `yield`) under `effect.async_option`: if its block has a value, this is what is returned, in `Some`, and `Nothing` for
`None`; if its block is `Nothing`, `EffectError` is raised.  Missing: it should be `Nothing` then, see above. -/
theorem C36_coroutine_option_partial (step : T → PyD σ (Stmt α ε T)) (t : T) (h : BodyOk CoroutineStmt step) :
    (asyncOptionBuilder : Builder α ε).callPlain (asyncPlain step t) = (do
      match ← optionBlock step t with
      | some (.val v) => pure (.opt (some (.val v)))
      | some .none => pure (.opt none)
      | none => raise .effectError) := by
  rw [Builder.callPlain, asyncPlain_option h.stmt, bind_assoc]
  refine congrArg _ (funext fun o => ?_)
  rcases o with _ | _ | v <;> rfl

/-- The same under `effect.async_result`. -/
theorem C36_coroutine_result_partial (step : T → PyD σ (Stmt α ε T)) (t : T) (h : BodyOk CoroutineResultStmt step) :
    (asyncResultBuilder : Builder α ε).callPlain (asyncPlain step t) = (do
      match ← resultBlock step t with
      | .ok v => pure (.res (.ok v))
      | .error _ => raise .effectError) := by
  rw [Builder.callPlain, asyncPlain_result h.stmt, bind_assoc]
  refine congrArg _ (funext fun o => ?_)
  rcases o with (_ | v) | e <;> rfl

/-- `x = await Some(3); return x + 1` -/
example : BodyOk (σ := Unit) (ε := Empty) CoroutineStmt (fun t : Option Nat => match t with
    | none => pure (.fromOpt (some (.val 3)) (fun x => match x with | .val x => some x | .none => some 0))
    | some x => pure (.ret (.val (x + 1)))) := by
  refine ⟨?_, ?_, ?_⟩
  · rintro (_ | x) w st w' h <;> cases h <;> trivial
  · rintro (_ | x) w w' h <;> cases h
  · rintro (_ | x) w w' h <;> cases h

/-- `x = await Some(3); yield x + 1; y = await Nothing; yield y` -/
example : exec (asyncOptionBuilder.asyncCall (fromAsyncBody (fun t => (match t with
    | 0 => pure (.fromOpt (some (.val 3)) (fun x => match x with | .val x => x + 10 | .none => 0))
    | 1 => pure (.fromOpt none (fun _ => 2))
    | 2 => pure (.ret .none)
    | n => pure (.yield_ (.val (n - 9)) (fun _ => 1)) : PyD Unit (Stmt Nat Empty Nat))) 0)) () =
    some (.ok (.opt none), ()) := by
  rw [C36_async_option_partial]
  · rw [asyncOptionBlock.eq_1]
    change exec (do let o ← asyncOptionBlock _ 13 none; pure (Eff.opt o)) () = _
    rw [asyncOptionBlock.eq_1]
    change exec (do let o ← asyncOptionBlock _ 1 _; pure (Eff.opt o)) () = _
    rw [asyncOptionBlock.eq_1]
    rfl
  · refine ⟨?_, ?_, ?_⟩
    · rintro (_ | _ | _ | t) w st w' hs <;> cases hs <;> trivial
    · rintro (_ | _ | _ | t) w w' hs <;> cases hs
    · rintro (_ | _ | _ | t) w w' hs <;> cases hs

end Expression.Props
