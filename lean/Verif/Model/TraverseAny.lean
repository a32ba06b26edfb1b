import Verif.Model.Extra

/-!
# `traverse` and `sequence` with functions that do more than return a `Result`

`Model/Extra.lean` has `extra/result/traversable.py` for functions `fn` that return a `Result` or raise.  Nothing in the code checks that:
`yield from fn(head)` takes an `Option` as well, and `fn` may itself look into an option or a result that has no value, which raises `EffectError`
with that option or result as its payload, inside the generator `folder`.
-/

namespace Expression.TraverseAny

open Expression Traverse

variable {σ α β ε : Type}

/-- What has no value to yield: `Nothing`, or `Error(e)`.  These are also the payloads with which the library raises `EffectError`.
[option.py:295-300, result.py:268-273] -/
inductive Failure (ε : Type) where
  | nothing
  | error (e : ε)

/-- How a call of `fn` ends, when it does not raise something other than `EffectError(payload)`: it returns a `Result`, it returns an `Option`, or
it raises `EffectError(payload)`.  Simplified: other payloads and returned values of other classes are left out. [traversable.py:31] -/
inductive Answer (β ε : Type) where
  | res (r : Res (Obj β) ε)
  | opt (o : Option (Obj β))
  | raised (payload : Failure ε)

/-- the payload as an option or a result [option.py:300, result.py:273] -/
def Failure.toEff : Failure ε → Eff γ ε
  | .nothing => .opt none
  | .error e => .res (.error e)

/-- where `folder` stands: at its start, or at the first or second `yield from` [traversable.py:24-34] -/
inductive At (β : Type) where
  | start
  | head
  | tail (h : Obj (TVal β))

/-- `yield from m`: `Option.__iter__` and `Result.__iter__` yield the value, the generator then being at `next`, or raise `EffectError(m)`.
A `tail` that is a sequence cannot happen; it is `TypeError` here. [option.py:295-300, result.py:268-273] -/
def yieldFrom (m : Eff (TVal β) ε) (next : At β) : PyD σ (GenOut (TVal β) ε (At β)) :=
  match m with
  | .opt (some v) => pure (.yielded v next)
  | .opt none => pure (.effect (.opt none))
  | .res (.ok v) => pure (.yielded v next)
  | .res (.error e) => pure (.effect (.res (.error e)))
  | .seq _ => PyD.raise (.typeError "not an option or a result")

/-- the generator `folder(head, tail)`, traversable.py:31-34 -/
def folderGen (fn : α → PyD σ (Answer β ε)) (head : α) (tail : Eff (TVal β) ε) : Gen σ (TVal β) ε (At β) where
  start := .start
  resume
    | .start, _ => do
      match ← fn head with
      | .raised f => pure (.effect f.toEff)
      | .opt none => yieldFrom (.opt none) .head
      | .opt (some v) => yieldFrom (.opt (some (ofElem v))) .head
      | .res (.ok v) => yieldFrom (.res (.ok (ofElem v))) .head
      | .res (.error e) => yieldFrom (.res (.error e)) .head
    | .head, h => yieldFrom tail (.tail h)
    | .tail h, t => do
      let r ← consObj h t
      pure (.returned r)

/-- traversable.py:24-34: `folder` under `effect.result`.  What it returns is an option or a result, whatever the annotation says. -/
def folder (fn : α → PyD σ (Answer β ε)) (head : α) (tail : Eff (TVal β) ε) : PyD σ (Eff (TVal β) ε) :=
  resultBuilder.call (folderGen fn head tail)

/-- traversable.py:16-41 -/
def traverse (fn : α → PyD σ (Answer β ε)) (lst : Block α) : PyD σ (Eff (TVal β) ε) :=
  Seq.foldBack (folder fn) (Iterable.ofList lst.value) (.res (.ok (.val (.block Block.empty))))

/-- traversable.py:44-50, of a block that may hold options among the results -/
def sequence (lst : Block (Answer β ε)) : PyD σ (Eff (TVal β) ε) := traverse (fun x => pure x) lst

end Expression.TraverseAny
