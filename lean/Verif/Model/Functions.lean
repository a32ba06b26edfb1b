import Verif.Model.PyD

/-!
# Models of `expression/core/compose.py`, `core/pipe.py`, `core/curry.py`, `core/fn.py` and `core/misc.py`

Functions may have effects, raise or not return.
-/

namespace Expression

variable {σ α β γ : Type}

namespace Functions

/-- `functools.reduce(f, xs, state)` [Python] -/
def reduce (f : β → α → PyD σ β) : List α → β → PyD σ β
  | [], state => pure state
  | x :: xs, state => do
    let state ← f state x
    reduce f xs state

/-- compose.py:116-141; all values have one type here (Python's `Any`) -/
def compose (fns : List (α → PyD σ α)) : α → PyD σ α := fun source => reduce (fun acc f => f acc) fns source

/-- pipe.py:292-303 -/
def pipe (value : α) (fns : List (α → PyD σ α)) : PyD σ α := compose fns value

/-- pipe.py:333-334 (the first function is curried) -/
def pipe2 (values : α × α) (pair : α × α → γ) (first : Option (α → PyD σ (α → PyD σ γ))) (rest : List (γ → PyD σ γ)) : PyD σ γ :=
  match first with
  | none => pure (pair values)
  | some f => do
    let g ← f values.1
    let v ← g values.2
    pipe v rest

/-- pipe.py:337-338 -/
def pipe3 (values : α × α × α) (triple : α × α × α → γ) (first : Option (α → PyD σ (α → PyD σ (α → PyD σ γ)))) (rest : List (γ → PyD σ γ)) :
    PyD σ γ :=
  match first with
  | none => pure (triple values)
  | some f => do
    let g ← f values.1
    let h ← g values.2.1
    let v ← h values.2.2
    pipe v rest

/-- compose.py:177-194: `unpack v` is what `*v` does, raising if `v` cannot be iterated over -/
def starcompose (unpack : α → PyD σ (List α)) (fns : List (List α → PyD σ α)) : α → PyD σ α := fun source =>
  reduce (fun fields f => do f (← unpack fields)) fns source

/-- pipe.py:397-413; `tuple xs` is the tuple `xs`, which `starid` (misc.py:22-23) returns -/
def starpipe (unpack : α → PyD σ (List α)) (tuple : List α → α) (args : α) (fns : List (List α → PyD σ α)) : PyD σ α := do
  let fn : List α → PyD σ α := match fns with
    | f :: _ => f
    | [] => fun xs => pure (tuple xs)
  let v ← fn (← unpack args)
  starcompose unpack (fns.drop 1) v

/-- misc.py:26-36 -/
def flip (fn : α → β → PyD σ γ) : β → α → PyD σ γ := fun b a => fn a b

end Functions

namespace Curry

/-- the arguments of one call: positional, and by keyword [curry.py:18-24, 105-106, 195-203: `*args` and `**kwargs`] -/
structure Call (α : Type) where
  args : List α
  kw : List (String × α)

/-- what calling a curried function gives: the value of the underlying call, or the closure `_curry(args, arity, fun)` (curry.py:18-24) -/
inductive Stage (α β : Type) where
  | value (v : β)
  | closure (args : List α) (arity : Int)

/-- Calling the closure `_curry(args, arity, fun)`: curry.py:19-22.  `kw` is passed on only by the last call. -/
def wrapper (fun_ : Call α → PyD σ β) (args : List α) (arity : Int) (call : Call α) : PyD σ (Stage α β) :=
  if arity = 1 then do
    let v ← fun_ ⟨args ++ call.args, call.kw⟩
    pure (.value v)
  else pure (.closure (args ++ call.args) (arity - 1))

/-- Calling in stages: each closure is called with the next arguments.  Calling the final value again is left to the value's own class (here: `TypeError`).
[curry.py:18-24, 105-106, 195-203] -/
def callStages (fun_ : Call α → PyD σ β) : Stage α β → List (Call α) → PyD σ (Stage α β)
  | s, [] => pure s
  | .closure args arity, c :: cs => do
    let s ← wrapper fun_ args arity c
    callStages fun_ s cs
  | .value _, _ :: _ => PyD.raise (.typeError "object is not callable")

/-- `curry(num_args)(fun)`: curry.py:88-108 -/
def curry (numArgs : Int) : Stage α β := .closure [] (numArgs + 1)

/-- `_wrap_curried` (curry.py:198-199): accepts no keyword arguments -/
def wrapCurried (fun_ : Call α → PyD σ β) (outer : Call α) (call : Call α) : PyD σ β :=
  if call.kw = [] then fun_ ⟨call.args ++ outer.args, outer.kw⟩
  else PyD.raise (.typeError "got an unexpected keyword argument")

/-- `curry_flip(num_args)(fun)` called with `outer` and then in stages: curry.py:174-205.  For `num_args = 0` the decorated function is `fun` itself. -/
def curryFlip [DecidableEq α] (numArgs : Int) (fun_ : Call α → PyD σ β) (outer : Call α) (stages : List (Call α)) : PyD σ (Stage α β) :=
  if numArgs = 0 then do
    let v ← fun_ outer
    callStages (wrapCurried fun_ outer) (.value v) stages
  else callStages (wrapCurried fun_ outer) (.closure [] numArgs) stages

/-- curry.py:208-224: `pipeable(function, *args, **kwargs)` is `curry_flip(1)(function)(*args, **kwargs)`, here called with `x` -/
def pipeable [DecidableEq α] (function : Call α → PyD σ β) (args : Call α) (x : Call α) : PyD σ (Stage α β) := curryFlip 1 function args [x]

end Curry

namespace TailRec

/-- `TailCallResult` (fn.py:14-26): a `TailCall` with the next arguments, or the result -/
inductive Bounce (α β : Type) where
  | tailCall (args : α)
  | result (v : β)

/-- fn.py:37-44; `α` are the arguments, positional and by keyword.  `tailrec_async` (fn.py:56-62) is the same with `await`. -/
def trampoline (fn : α → PyD σ (Bounce α β)) (bouncer : Bounce α β) : PyD σ β :=
  match bouncer with
  | .tailCall args => do
    let bouncer ← fn args
    trampoline fn bouncer
  | .result v => pure v
partial_fixpoint

/-- fn.py:46-50, 64-69 -/
def tailrec (fn : α → PyD σ (Bounce α β)) (args : α) : PyD σ β := do
  let bouncer ← fn args
  trampoline fn bouncer

end TailRec

end Expression
