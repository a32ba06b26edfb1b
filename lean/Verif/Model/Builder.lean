import Verif.Model.Option

/-!
# Models of `expression/core/builder.py`, `core/async_builder.py` and of the builders in `expression/effect`

A body under a builder is a generator.  `Gen` is any generator: a machine that is resumed with a value and, after effects of its own,
yields, returns, raises or runs for ever.  All values are Python objects (`Obj α`, which has `None`), and the values that builders pass around
are options, results and sequences (`Eff`), not typed by the builder: `yield from Error(e)` under `effect.option` is possible.
-/

namespace Expression

variable {σ α ε S : Type}

/-- an `Option`, a `Result`, or a (re-iterable) sequence with these elements [the values that effect/option.py, result.py and seq.py work with] -/
inductive Eff (α ε : Type) where
  | opt (o : Option (Obj α))
  | res (r : Res (Obj α) ε)
  | seq (xs : List (Obj α))

/-- How running a generator up to its next stop can end, when it does not raise something else: `yield value`, `return value`, or
`raise EffectError(payload)`. [Python: generators] -/
inductive GenOut (α ε S : Type) where
  | yielded (value : Obj α) (next : S)
  | returned (value : Obj α)
  | effect (payload : Eff α ε)

/-- A generator function that was called: `start` is its initial state, `resume s v` runs it from its state `s` where it stopped, the `yield`
it stopped at evaluating to `v`. [Python: generators] -/
structure Gen (σ α ε S : Type) where
  start : S
  resume : S → Obj α → PyD σ (GenOut α ε S)

namespace Gen

/-- What the caller of `gen.send` sees.  Python turns a `StopIteration` raised inside a generator into a `RuntimeError` (PEP 479);
`PyErr.effectError`, raised by other modelled code, is an `EffectError` with the payload `Nothing`. -/
def next (g : Gen σ α ε S) (s : S) (v : Obj α) : PyD σ (GenOut α ε S) := fun w =>
  match (g.resume s v).exec w with
  | some (.error .effectError, w') => some (.ok (.effect (.opt none)), w')
  | some (.error .stopIteration, w') => some (.error (.failwith "generator raised StopIteration"), w')
  | r => r

end Gen

/-- The generator object and the `BuilderState` (builder.py:17-21, async_builder.py:23-27): both are mutated while the builder runs.  `gen` is
`none` once the generator has ended. -/
structure GState (S : Type) where
  gen : Option S
  isDone : Bool

/-- What a builder has to provide (builder.py:28-62, async_builder.py:34-70).  `delay` calls its argument at once and `run` is the identity in all
builders of the library; they are left out.  `combine` has no callbacks of the user, so no effects. -/
structure Builder (α ε : Type) where
  bind : {w : Type} → Eff α ε → (Obj α → PyD w (Eff α ε)) → PyD w (Eff α ε)
  return_ : Obj α → Eff α ε
  returnFrom : Eff α ε → Eff α ε
  combine : Eff α ε → Eff α ε → Except PyErr (Eff α ε)
  zero : Eff α ε

/-- `try: p except StopIteration: ...`: `none` if that was raised [Python: `try`; used by builder.py:123-134] -/
def tryStop {w β : Type} (p : PyD w β) : PyD w (Option β) := fun x =>
  match p.exec x with
  | none => none
  | some (.ok a, x') => some (.ok (some a), x')
  | some (.error .stopIteration, x') => some (.ok none, x')
  | some (.error e, x') => some (.error e, x')

namespace Builder

/-- `Builder._send` (builder.py:65-85): send `value` to the generator.  A generator that has ended raises `StopIteration` at once. -/
def send (b : Builder α ε) (g : Gen σ α ε S) (value : Obj α) : PyD (σ × GState S) (Eff α ε) := fun (w, st) =>
  match st.gen with
  | none => some (.error .stopIteration, (w, { st with isDone := true }))
  | some s =>
    match (g.next s value).exec w with
    | none => none
    | some (.ok (.yielded y s'), w') => some (.ok (b.return_ y), (w', { st with gen := some s' }))
    | some (.ok (.effect m), w') => some (.ok (b.returnFrom m), (w', ⟨none, true⟩))
    | some (.ok (.returned .none), w') => some (.error .stopIteration, (w', ⟨none, true⟩))
    | some (.ok (.returned v), w') => some (.ok (b.return_ v), (w', ⟨none, true⟩))
    | some (.error e, w') => some (.error e, (w', { st with gen := none }))

/-- `AsyncBuilder._send` (async_builder.py:73-91).  An asynchronous generator cannot return a value, so what `returned` carries is ignored. -/
def asyncSend (b : Builder α ε) (g : Gen σ α ε S) (value : Obj α) : PyD (σ × GState S) (Eff α ε) := fun (w, st) =>
  match st.gen with
  | none => some (.error .stopIteration, (w, { st with isDone := true }))
  | some s =>
    match (g.next s value).exec w with
    | none => none
    | some (.ok (.yielded y s'), w') => some (.ok (b.return_ y), (w', { st with gen := some s' }))
    | some (.ok (.effect m), w') => some (.ok (b.returnFrom m), (w', ⟨none, true⟩))
    | some (.ok (.returned _), w') => some (.error .stopIteration, (w', ⟨none, true⟩))
    | some (.error e, w') => some (.error e, (w', ⟨none, true⟩))

/-- one round of the loop: `value = self.bind(value, binder); result = self.combine(result, value)` (builder.py:129-130,
async_builder.py:141-142) -/
def round (b : Builder α ε) (binder : Obj α → PyD (σ × GState S) (Eff α ε)) (result value : Eff α ε) :
    PyD (σ × GState S) (Eff α ε × Eff α ε) := do
  let value ← b.bind value binder
  match b.combine result value with
  | .ok result => pure (result, value)
  | .error e => PyD.raise e

/-- `state.is_done` [builder.py:17-21] -/
def done : PyD (σ × GState S) Bool := fun x => some (.ok x.2.isDone, x)

/-- the loop in the wrapper (builder.py:128-134, async_builder.py:140-146), with the `except StopIteration` that ends it: `result` then is what it
was before the round -/
def loop (b : Builder α ε) (binder : Obj α → PyD (σ × GState S) (Eff α ε)) (result value : Eff α ε) :
    PyD (σ × GState S) (Eff α ε) := do
  if ← done then pure result
  else
    match ← tryStop (b.round binder result value) with
    | none => pure result
    | some (result, value) => b.loop binder result value
partial_fixpoint

/-- the wrapper from line 115 on (builder.py:115-136), async_builder.py:127-148 -/
def drive (b : Builder α ε) (binder : Obj α → PyD (σ × GState S) (Eff α ε)) : PyD (σ × GState S) (Eff α ε) := do
  match ← tryStop (binder .none) with
  | none => pure b.zero
  | some value => b.loop binder value value

/-- run with a fresh generator and state, which nobody sees afterwards [builder.py:113-115] -/
def fresh (start : S) (p : PyD (σ × GState S) (Eff α ε)) : PyD σ (Eff α ε) := fun w =>
  (p.exec (w, ⟨some start, false⟩)).map (fun r => (r.1, r.2.1))

/-- calling a decorated function whose body contains `yield` (builder.py:102-136) -/
def call (b : Builder α ε) (g : Gen σ α ε S) : PyD σ (Eff α ε) := fresh g.start (b.drive (b.send g))

/-- awaiting a decorated asynchronous generator function (async_builder.py:109-148).  What other tasks do while it is suspended is part of the
effects of `g`. -/
def asyncCall (b : Builder α ε) (g : Gen σ α ε S) : PyD σ (Eff α ε) := fresh g.start (b.drive (b.asyncSend g))

/-- calling a decorated function whose body has no `yield` (builder.py:105-112, async_builder.py:112-124): `body` is the whole call, awaited if it is
a coroutine -/
def callPlain (b : Builder α ε) (body : PyD σ (Obj α)) : PyD σ (Eff α ε) := do
  match ← body with
  | .none => pure b.zero
  | .val v => pure (b.return_ (.val v))

end Builder

namespace Eff

/-- the method `xs.bind(fn)`, whatever `xs` is: `Option.bind` (option.py:138-156), `Result.bind` (result.py:153-163); sequences have none -/
def bindMethod {w : Type} (xs : Eff α ε) (fn : Obj α → PyD w (Eff α ε)) : PyD w (Eff α ε) :=
  match xs with
  | .opt (some v) => fn v
  | .opt none => pure (.opt none)
  | .res (.ok v) => fn v
  | .res (.error e) => pure (.res (.error e))
  | .seq _ => PyD.raise (.attributeError "bind")

/-- `xs.bind(lambda _: ys)` [option.py, result.py and seq.py: `bind`; used by effect/seq.py:51-61] -/
def bindConst (xs ys : Eff α ε) : Except PyErr (Eff α ε) :=
  match xs with
  | .opt (some _) => .ok ys
  | .opt none => .ok (.opt none)
  | .res (.ok _) => .ok ys
  | .res (.error e) => .ok (.res (.error e))
  | .seq _ => .error (.attributeError "bind")

/-- `list(xs)`: iterating over an option or result yields its value or raises `EffectError` (`Option.__iter__`, option.py:295-300;
`Result.__iter__`, result.py:268-273) -/
def iterate : Eff α ε → Except PyErr (List (Obj α))
  | .opt (some v) => .ok [v]
  | .opt none => .error .effectError
  | .res (.ok v) => .ok [v]
  | .res (.error _) => .error .effectError
  | .seq xs => .ok xs

end Eff

/-- effect/option.py:14-96 -/
def optionBuilder : Builder α ε where
  bind := Eff.bindMethod
  return_ x := .opt (some x)
  returnFrom xs := xs
  combine := Eff.bindConst
  zero := .opt none

/-- effect/result.py:15-102; `TryBuilder` is the same class -/
def resultBuilder : Builder α ε where
  bind := Eff.bindMethod
  return_ x := .res (.ok x)
  returnFrom xs := xs
  combine := Eff.bindConst
  zero := .res (.ok .none)

/-- the elements of `fn(x)` for the `x` in a list, in turn [seq.py:464-487; used by effect/seq.py:13-27] -/
def seqBindFrom {w : Type} (fn : Obj α → PyD w (Eff α ε)) : List (Obj α) → PyD w (List (Obj α))
  | [] => pure []
  | x :: xs => do
    let m ← fn x
    match m.iterate with
    | .error e => PyD.raise e
    | .ok ys => do
      let rest ← seqBindFrom fn xs
      pure (ys ++ rest)

/-- effect/seq.py:12-100.  `seq.concat` (lazy, re-iterable for re-iterable parts, see C22 and C24) is kept as the list of what it yields. -/
def seqBuilder : Builder α ε where
  bind xs fn := match xs.iterate with
    | .error e => PyD.raise e
    | .ok xs => do
      let ys ← seqBindFrom fn xs
      pure (.seq ys)
  return_ x := .seq [x]
  returnFrom xs := xs
  combine xs ys := do
    let xs ← xs.iterate
    let ys ← ys.iterate
    pure (.seq (xs ++ ys))
  zero := .seq []

/-- effect/async_option.py:20-120.  Here `bind` and `combine` match on the class: anything but `Some` gives `Nothing`. -/
def asyncOptionBuilder : Builder α ε where
  bind xs fn := match xs with
    | .opt (some v) => fn v
    | _ => pure (.opt none)
  return_ x := .opt (some x)
  returnFrom xs := xs
  combine xs ys := match xs with
    | .opt (some _) => .ok ys
    | _ => .ok (.opt none)
  zero := .opt none

/-- effect/async_result.py:21-135 (`AsyncTryBuilder` is the same class).  A `match` without a case for other classes falls through and
returns `None`; that cannot be expressed in `Eff` and is `TypeError` here, but it is not reached. -/
def asyncResultBuilder : Builder α ε where
  bind xs fn := match xs with
    | .res (.ok v) => fn v
    | .res (.error e) => pure (.res (.error e))
    | _ => PyD.raise (.typeError "no case")
  return_ x := .res (.ok x)
  returnFrom xs := xs
  combine xs ys := match xs with
    | .res (.ok _) => .ok ys
    | .res (.error e) => .ok (.res (.error e))
    | _ => .error (.typeError "no case")
  zero := .res (.ok .none)

/-! ## bodies made of `x = yield v`, `x = yield from option`, `x = yield from result` and `return v` -/

/-- One statement of such a body, after the effects that lead to it. [model: code of a user] -/
inductive Stmt (α ε T : Type) where
  | ret (v : Obj α)
  | yield_ (v : Obj α) (rest : Obj α → T)
  | fromOpt (o : Option (Obj α)) (rest : Obj α → T)
  | fromRes (r : Res (Obj α) ε) (rest : Obj α → T)

/-- where such a body can be stopped: before it started, or at a `yield` [model: code of a user] -/
inductive Pos (α T : Type) where
  | start (t : T)
  | at_ (rest : Obj α → T)

/-- what is to be run next when `v` is sent [model: code of a user] -/
def Pos.resume {T : Type} : Pos α T → Obj α → T
  | .start t, _ => t
  | .at_ rest, v => rest v

/-- `yield from o` delegates to `Option.__iter__` (option.py:295-300): `return (yield value)`, or `raise EffectError(Nothing)`;
`yield from r` to `Result.__iter__` (result.py:268-273), which raises `EffectError(r)`. -/
def Stmt.run {T : Type} : Stmt α ε T → GenOut α ε (Pos α T)
  | .ret v => .returned v
  | .yield_ v rest => .yielded v (.at_ rest)
  | .fromOpt (some x) rest => .yielded x (.at_ rest)
  | .fromOpt none _ => .effect (.opt none)
  | .fromRes (.ok x) rest => .yielded x (.at_ rest)
  | .fromRes (.error e) _ => .effect (.res (.error e))

/-- the generator of the body given by `step`, which runs the body up to its next statement of these kinds [model: code of a user] -/
def fromBody {T : Type} (step : T → PyD σ (Stmt α ε T)) (t : T) : Gen σ α ε (Pos α T) where
  start := .start t
  resume s v := do
    let stmt ← step (s.resume v)
    pure stmt.run

/-! ## asynchronous bodies made of `x = yield v`, `x = await option`, `x = await result`, `return` -/

/-- The asynchronous generator of the body given by `step`.  Awaiting an option or result does not suspend: it evaluates to the value or raises
`EffectError` (`Option.__await__`, option.py:312-320; `Result.__await__`, result.py:275-283), so the body goes on to its next statement. -/
def asyncRun {T : Type} (step : T → PyD σ (Stmt α ε T)) (t : T) : PyD σ (GenOut α ε (Pos α T)) := do
  match ← step t with
  | .ret v => pure (.returned v)
  | .yield_ v rest => pure (.yielded v (.at_ rest))
  | .fromOpt (some x) rest => asyncRun step (rest x)
  | .fromOpt none _ => pure (.effect (.opt none))
  | .fromRes (.ok x) rest => asyncRun step (rest x)
  | .fromRes (.error e) _ => pure (.effect (.res (.error e)))
partial_fixpoint

/-- see `asyncRun` [model: code of a user] -/
def fromAsyncBody {T : Type} (step : T → PyD σ (Stmt α ε T)) (t : T) : Gen σ α ε (Pos α T) where
  start := .start t
  resume s v := asyncRun step (s.resume v)

/-- The coroutine of a body without `yield`: what the `await` in async_builder.py:119 sees.  An `EffectError` of the body passes through. -/
def asyncPlain {T : Type} (step : T → PyD σ (Stmt α ε T)) (t : T) : PyD σ (Obj α) := do
  match ← step t with
  | .ret v => pure v
  | .yield_ _ _ => PyD.raise (.typeError "a coroutine does not yield")
  | .fromOpt (some x) rest => asyncPlain step (rest x)
  | .fromOpt none _ => PyD.raise .effectError
  | .fromRes (.ok x) rest => asyncPlain step (rest x)
  | .fromRes (.error _) _ => PyD.raise .effectError
partial_fixpoint

end Expression
