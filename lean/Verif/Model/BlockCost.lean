import Verif.Model.Extra
import Verif.Model.Parser

/-!
# How many elements are copied

`block.concat`, `traverse`, and the repetition of parsers once more; the world is the number of elements that were copied into new tuples so far.
Simplified: `(element, *self._value)` goes by way of a list, and so copies twice; it is counted once.
-/

namespace Expression

variable {α β ε : Type}

namespace Copying

/-- `count` elements are copied [model: what is counted] -/
def copy (count : Nat) : PyD Nat Unit := fun copied => some (.ok (), copied + count)

/-- `self._value + other._value` (block.py:91-93, 503-504).  CPython copies nothing if one of the tuples is empty, and `tuple(t)` is `t`. -/
def append (self other : Block α) : PyD Nat (Block α) := do
  if self.value.isEmpty || other.value.isEmpty then pure () else copy (self.value.length + other.value.length)
  pure (self.append other)

/-- block.py:133-135 -/
def cons (self : Block α) (element : α) : PyD Nat (Block α) := do
  copy (self.value.length + 1)
  pure (self.cons element)

/-- block.py:590-596: the reduction, from the blocks combined so far -/
def concatFrom (t : Block α) : List (Block α) → PyD Nat (Block α)
  | [] => pure t
  | s :: rest => do
    let t ← append t s
    concatFrom t rest

/-- block.py:590-596 -/
def concat (sources : List (Block α)) : PyD Nat (Block α) := concatFrom Block.empty sources

/-- a block that `xs.cons(x)` is called on for each `x` in turn (block.py:81) -/
def consAll (self : Block α) : List α → PyD Nat (Block α)
  | [] => pure self
  | x :: rest => do
    let t ← cons self x
    consAll t rest

/-- what is copied by `Block([h]) + t`, which `folder` (traversable.py:34) does in its last state -/
def plusCopies : Traverse.FState β → PyD Nat Unit
  | .gotTail _ (.val (.block xs)) => if xs.value.isEmpty then pure () else copy (1 + xs.value.length)
  | _ => pure ()

/-- the body of `folder`, traversable.py:31-34 -/
def folderBody (fn : α → PyD Nat (Res (Obj β) ε)) (head : α) (tail : Res (Block (Obj β)) ε) (s : Traverse.FState β) :
    PyD Nat (Stmt (Traverse.TVal β) ε (Traverse.FState β)) := do
  plusCopies s
  Traverse.folderBody fn head tail s

/-- traversable.py:24-34: `folder` under `effect.result` -/
def folder (fn : α → PyD Nat (Res (Obj β) ε)) (head : α) (tail : Res (Block (Obj β)) ε) : PyD Nat (Res (Block (Obj β)) ε) := do
  let r ← resultBuilder.call (fromBody (folderBody fn head tail) .start)
  Traverse.asBlock r

/-- traversable.py:16-41.  Simplified: the list that `fold_back` makes of the block (seq.py:601) is not counted. -/
def traverse (fn : α → PyD Nat (Res (Obj β) ε)) (lst : Block α) : PyD Nat (Res (Block (Obj β)) ε) :=
  Seq.foldBack (folder fn) (Iterable.ofList lst.value) (.ok Block.empty)

/-- parser.py:280-293 -/
def parseZeroOrMore (parser : Parser Nat α) (input : Remaining) : PyD Nat (Block α × Remaining) := do
  match ← parser input with
  | .ok (firstValue, inputAfterFirstParse) =>
    let (subsequentValues, remainingInput) ← parseZeroOrMore parser inputAfterFirstParse
    let values ← cons subsequentValues firstValue
    pure (values, remainingInput)
  | .error _ => pure (Block.empty, input)
partial_fixpoint

/-- parser.py:296-302 -/
def many (parser : Parser Nat α) : Parser Nat (Block α) := fun input => do
  let ok ← parseZeroOrMore parser input
  pure (.ok ok)

end Copying

end Expression
