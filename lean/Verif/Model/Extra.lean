import Verif.Model.Builder
import Verif.Model.Block
import Verif.Model.Seq

/-!
# Models of `expression/extra/result/traversable.py`, `extra/result/pipeline.py`, `extra/option/pipeline.py`, `extra/result/catch.py`

Callbacks may have effects, raise or not return.
-/

namespace Expression

variable {σ α β ε : Type}

namespace Traverse

/-- What the generator `folder` passes around: elements (which may be `None`, see `Obj`) and blocks. [traversable.py:31-34] -/
inductive TVal (β : Type) where
  | elem (b : β)
  | block (xs : Block (Obj β))

/-- where `folder` (traversable.py:24-34) stands: at its start, after the first or after the second `yield from` -/
inductive FState (β : Type) where
  | start
  | gotHead (h : Obj (TVal β))
  | gotTail (h t : Obj (TVal β))

/-- an element as an object [traversable.py:31] -/
def ofElem : Obj β → Obj (TVal β)
  | .none => .none
  | .val b => .val (.elem b)

/-- `Block([h]) + t`: raises when `t` is no block; `h` is always an element here [traversable.py:34] -/
def consObj (h t : Obj (TVal β)) : PyD σ (Obj (TVal β)) :=
  match h, t with
  | .none, .val (.block xs) => pure (.val (.block (Block.append ⟨[.none]⟩ xs)))
  | .val (.elem b), .val (.block xs) => pure (.val (.block (Block.append ⟨[.val b]⟩ xs)))
  | _, _ => PyD.raise (.typeError "unsupported operand")

/-- the body of `folder`, traversable.py:31-34 -/
def folderBody (fn : α → PyD σ (Res (Obj β) ε)) (head : α) (tail : Res (Block (Obj β)) ε) :
    FState β → PyD σ (Stmt (TVal β) ε (FState β))
  | .start => do
    let r ← fn head
    match r with
    | .ok v => pure (.fromRes (.ok (ofElem v)) .gotHead)
    | .error e => pure (.fromRes (.error e) .gotHead)
  | .gotHead h =>
    match tail with
    | .ok t => pure (.fromRes (.ok (.val (.block t))) (.gotTail h))
    | .error e => pure (.fromRes (.error e) (.gotTail h))
  | .gotTail h t => do
    let r ← consObj h t
    pure (.ret r)

/-- The `Result` of a block that the decorated `folder` returns.  (Anything else cannot happen; it is `TypeError` here.) [traversable.py:24-34] -/
def asBlock : Eff (TVal β) ε → PyD σ (Res (Block (Obj β)) ε)
  | .res (.ok (.val (.block xs))) => pure (.ok xs)
  | .res (.error e) => pure (.error e)
  | _ => PyD.raise (.typeError "not a block")

/-- traversable.py:24-34: `folder` under `effect.result` -/
def folder (fn : α → PyD σ (Res (Obj β) ε)) (head : α) (tail : Res (Block (Obj β)) ε) : PyD σ (Res (Block (Obj β)) ε) := do
  let r ← resultBuilder.call (fromBody (folderBody fn head tail) .start)
  asBlock r

/-- traversable.py:16-41 -/
def traverse (fn : α → PyD σ (Res (Obj β) ε)) (lst : Block α) : PyD σ (Res (Block (Obj β)) ε) :=
  Seq.foldBack (folder fn) (Iterable.ofList lst.value) (.ok Block.empty)

/-- traversable.py:44-50 -/
def sequence (lst : Block (Res (Obj β) ε)) : PyD σ (Res (Block (Obj β)) ε) := traverse (fun x => pure x) lst

end Traverse

namespace Pipeline

/-- extra/result/pipeline.py:71-96; all values have one type `α` here (Python's `Any`) -/
def resultPipeline (fns : List (α → PyD σ (Res α ε))) : α → PyD σ (Res α ε) :=
  fns.foldl (fun acc fn => fun x => do Res.bind (← acc x) fn) (fun x => pure (.ok x))

/-- extra/option/pipeline.py:68-91 (the same with `Some` and `Option.bind`) -/
def optionPipeline (fns : List (α → PyD σ (Option α))) : α → PyD σ (Option α) :=
  fns.foldl (fun acc fn => fun x => do Opt.bind (← acc x) fn) (fun x => pure (some x))

end Pipeline

namespace Catch

/-- what a function decorated with `catch` may return: a plain value or a `Result` [catch.py:36-45] -/
inductive Out (α : Type) where
  | plain (v : α)
  | result (r : Res α PyErr)

/-- extra/result/catch.py:35-47, the wrapper: `exception` tells which exceptions are instances of the class -/
def catch_ (exception : PyErr → Bool) (fn : PyD σ (Out α)) : PyD σ (Res α PyErr) := fun w =>
  match fn.exec w with
  | none => none
  | some (.error e, w') => if exception e then some (.ok (.error e), w') else some (.error e, w')
  | some (.ok (.result r), w') => some (.ok r, w')
  | some (.ok (.plain v), w') => some (.ok (.ok v), w')

end Catch

end Expression
