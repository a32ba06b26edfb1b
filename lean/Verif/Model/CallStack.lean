import Verif.Model.Functions
import Verif.Model.Extra

/-!
# Composition, pipelines, effect blocks and `traverse` on a bounded stack

`compose`, `pipe`, the pipelines of `expression/extra`, the effect builders and `traverse` once more, with the number of frames that are free on the
interpreter's stack.  A call of a Python function occupies a frame until it returns; CPython raises `RecursionError` when no frame is free.
Functions written in C (`functools.reduce`, `generator.send`) occupy none.

Functions of the library that call nothing of the user's are not taken apart: how many frames they need altogether is a number, and nothing is
assumed about it.
-/

namespace Expression

variable {σ α β γ ε S T : Type}

/-- a function, and what calling it does when so many frames are free [Python: the stack] -/
abbrev FrameFn (σ α β : Type) : Type := Nat → α → PyD σ β

namespace CallStack

/-- run `body` in the innermost of `count` calls, one from the other [Python: the stack] -/
def frames (count : Nat) (body : Nat → PyD σ β) (free : Nat) : PyD σ β :=
  if free < count then PyD.raise .recursionError else body (free - count)

/-- compose.py:116-141: the frames are those of `_compose` and of the `lambda` that `functools.reduce` calls -/
def compose (fns : List (FrameFn σ α α)) : FrameFn σ α α := fun free source =>
  frames 1 (fun free => Functions.reduce (fun acc f => frames 1 (fun free => f free acc) free) fns source) free

/-- pipe.py:292-303: `compose` is called and returns, then what it returned is called -/
def pipe (fns : List (FrameFn σ α α)) : FrameFn σ α α := fun free value =>
  frames 1 (fun free => do
    frames 1 (fun _ => pure ()) free
    compose fns free value) free

/-- pipe.py:636-638: the method `pipe` of options, results, sequences, blocks and maps -/
def pipeMethod (fns : List (FrameFn σ α α)) : FrameFn σ α α := fun free value => frames 1 (fun free => pipe fns free value) free

/-- `Result.bind` (result.py:153-163); making the new `Error` needs `1 + new` frames -/
def bindResult (new : Nat) (r : Res α ε) (fn : FrameFn σ α (Res β ε)) (free : Nat) : PyD σ (Res β ε) :=
  match r with
  | .ok value => fn free value
  | .error error => frames (1 + new) (fun _ => pure (.error error)) free

/-- `gn` (extra/result/pipeline.py:91-92): `acc(x)` is called, then `bind`, which calls `fn` -/
def gnResult (new : Nat) (acc fn : FrameFn σ α (Res α ε)) : FrameFn σ α (Res α ε) := fun free x =>
  frames 1 (fun free => do
    let r ← acc free x
    frames 1 (fun free => bindResult new r fn free) free) free

/-- extra/result/pipeline.py:71-96; `Ok` needs `1 + new` frames -/
def resultPipeline (new : Nat) (fns : List (FrameFn σ α (Res α ε))) : FrameFn σ α (Res α ε) :=
  fns.foldl (gnResult new) (fun free x => frames (1 + new) (fun _ => pure (.ok x)) free)

/-- `gn` (extra/option/pipeline.py:86-87); `Option.bind` (option.py:138-156) returns the object `Nothing`, which is there already -/
def gnOption (acc fn : FrameFn σ α (Option α)) : FrameFn σ α (Option α) := fun free x =>
  frames 1 (fun free => do
    let r ← acc free x
    frames 1 (fun free => Opt.bind r (fn free)) free) free

/-- extra/option/pipeline.py:68-91; `Some` needs `1 + new` frames -/
def optionPipeline (new : Nat) (fns : List (FrameFn σ α (Option α))) : FrameFn σ α (Option α) :=
  fns.foldl gnOption (fun free x => frames (1 + new) (fun _ => pure (some x)) free)

/-! ## effect blocks -/

/-- How many frames functions of a builder need that call nothing of the user's (`new`: `return_`, `return_from` and `zero`; `combine`), and how
many there are from the call of `bind` to that of the function it was given (`bind`: for `effect.option`, the builder's `bind`, the curried
`option.bind` and the method `Option.bind`, effect/option.py:27, option.py:398-416, 138-156). -/
structure Needs where
  new : Nat
  bind : Nat
  combine : Nat

/-- `Builder._send` (builder.py:65-85), in its frame: the generator is resumed, then `return_` or `return_from` is called -/
def send (needs : Needs) (b : Builder α ε) (g : Nat → Gen σ α ε S) (free : Nat) (value : Obj α) : PyD (σ × GState S) (Eff α ε) := do
  let r ← b.send (g free) value
  frames needs.new (fun _ => pure r) free

/-- `binder` (builder.py:119-121): `_send`, then `delay`, which calls the `lambda` -/
def binder (needs : Needs) (b : Builder α ε) (g : Nat → Gen σ α ε S) (free : Nat) (value : Obj α) : PyD (σ × GState S) (Eff α ε) :=
  frames 1 (fun free => do
    let ret ← frames 1 (fun free => send needs b g free value) free
    frames 2 (fun _ => pure ret) free) free

/-- the builder whose methods are called when `free` frames are free [builder.py:24-62] -/
def within (needs : Needs) (b : Builder α ε) (free : Nat) : Builder α ε :=
  { b with
    bind := fun xs fn => frames needs.bind (fun _ => b.bind xs fn) free
    combine := fun xs ys => if free < needs.combine then .error .recursionError else b.combine xs ys }

/-- the wrapper from line 115 on (builder.py:115-136), in its frame: `zero`, the first `binder(None)`, and the loop, in which `bind` calls `binder` -/
def drive (needs : Needs) (b : Builder α ε) (g : Nat → Gen σ α ε S) (free : Nat) : PyD (σ × GState S) (Eff α ε) := do
  frames needs.new (fun _ => pure ()) free
  match ← tryStop (binder needs b g free .none) with
  | none => pure b.zero
  | some value => (within needs b free).loop (binder needs b g (free - needs.bind)) value value

/-- calling a decorated function whose body contains `yield` (builder.py:102-136).  `g free` is its generator, resumed with that many free frames. -/
def call (needs : Needs) (b : Builder α ε) (start : S) (g : Nat → Gen σ α ε S) (free : Nat) : PyD σ (Eff α ε) :=
  frames 1 (fun free => Builder.fresh start (drive needs b g free)) free

/-- The generator of `folder` (traversable.py:24-34).  Its code needs a frame, in which `fn(head)` is called, and two more for `Block([h]) + t`
(block.py:503-504, 86-89) or for the iterator of a result (result.py:268-273). -/
def folderGen (fn : FrameFn σ α (Res (Obj β) ε)) (head : α) (tail : Res (Block (Obj β)) ε) (free : Nat) :
    Gen σ (Traverse.TVal β) ε (Pos (Traverse.TVal β) (Traverse.FState β)) where
  start := .start .start
  resume s v := frames 1 (fun free => do
    frames 2 (fun _ => pure ()) free
    (fromBody (Traverse.folderBody (fn free) head tail) .start).resume s v) free

/-- `folder` under `effect.result` (traversable.py:24-34) -/
def folder (needs : Needs) (fn : FrameFn σ α (Res (Obj β) ε)) (free : Nat) (head : α) (tail : Res (Block (Obj β)) ε) :
    PyD σ (Res (Block (Obj β)) ε) := do
  let r ← call needs resultBuilder (.start .start) (folderGen fn head tail) free
  Traverse.asBlock r

/-- traversable.py:16-41.  The frames are those of `traverse`, `pipe`, `_compose` and its `lambda`, `_fold_back` and its `lambda` (seq.py:594-601). -/
def traverse (needs : Needs) (fn : FrameFn σ α (Res (Obj β) ε)) (lst : Block α) (free : Nat) : PyD σ (Res (Block (Obj β)) ε) :=
  frames 6 (fun free => Seq.foldBack (folder needs fn free) (Iterable.ofList lst.value) (.ok Block.empty)) free

end CallStack

end Expression
