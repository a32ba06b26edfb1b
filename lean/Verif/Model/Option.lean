import Verif.Model.PyD

/-!
# Models of `expression/core/option.py` and `expression/core/result.py`

`Some(x)` and `Nothing` are Lean's `some x` and `none`; how they are represented as tagged unions, and that the class patterns
`Option(tag="some", some=x)` and `case _` tell them apart, is `Model/TaggedUnion.lean` and C30.  Callbacks may have effects, raise or not
return.  The module-level functions (option.py:398-563, result.py:381-516) only call the methods: `Model/Modules.lean`.
-/

namespace Expression

variable {σ α β γ δ ε ζ : Type}

namespace Opt

/-- option.py:65-75 -/
def defaultValue (self : Option α) (value : α) : α :=
  match self with
  | some v => v
  | none => value

/-- option.py:77-87 -/
def defaultWith (self : Option α) (getter : PyD σ α) : PyD σ α :=
  match self with
  | some v => pure v
  | none => getter

/-- option.py:89-99; `starmap` (125-136) is the same with the tuple unpacked -/
def map (mapper : α → PyD σ β) (self : Option α) : PyD σ (Option β) :=
  match self with
  | some v => do
    let y ← mapper v
    pure (some y)
  | none => pure none

/-- option.py:101-111 -/
def map2 (mapper : α → β → PyD σ γ) (self : Option α) (other : Option β) : PyD σ (Option γ) :=
  match self, other with
  | some v, some v2 => do
    let y ← mapper v v2
    pure (some y)
  | _, _ => pure none

/-- option.py:113-123 -/
def apply (self : Option α) (function : Option (α → PyD σ β)) : PyD σ (Option β) :=
  match function with
  | some mapper => map mapper self
  | none => pure none

/-- option.py:138-156 -/
def bind (self : Option α) (mapper : α → PyD σ (Option β)) : PyD σ (Option β) :=
  match self with
  | some v => mapper v
  | none => pure none

/-- option.py:158-164 -/
def orElse (self ifNone : Option α) : Option α :=
  match self with
  | some v => some v
  | none => ifNone

/-- option.py:166-176 -/
def orElseWith (self : Option α) (ifNone : PyD σ (Option α)) : PyD σ (Option α) :=
  match self with
  | some v => pure (some v)
  | none => ifNone

/-- option.py:178-188 -/
def filter (self : Option α) (predicate : α → PyD σ Bool) : PyD σ (Option α) :=
  match self with
  | some v => do if ← predicate v then pure (some v) else pure none
  | none => pure none

/-- option.py:190-196 -/
def toList (self : Option α) : List α :=
  match self with
  | some v => [v]
  | none => []

/-- option.py:209-215 -/
def isSome (self : Option α) : Bool :=
  match self with
  | some _ => true
  | none => false

/-- option.py:217-223 -/
def isNone (self : Option α) : Bool :=
  match self with
  | some _ => false
  | none => true

/-- option.py:280-290 -/
def value (self : Option α) : PyD σ α :=
  match self with
  | some v => pure v
  | none => PyD.raise (.valueError "There is no value.")

end Opt

/-- A Python object, `None` being one of them. [Python] -/
inductive Obj (α : Type) where
  | none
  | val (a : α)
deriving DecidableEq, Repr

namespace Opt

/-- option.py:504-516 (`of_obj`, 519-530, is the same) -/
def ofOptional (value : Obj α) : Option (Obj α) :=
  match value with
  | .none => none
  | v => some v

/-- option.py:240-246 -/
def toOptional (self : Option (Obj α)) : Obj α :=
  match self with
  | some v => v
  | none => .none

end Opt

/-- `Result`: result.py:49-61 -/
inductive Res (α ε : Type) where
  | ok (value : α)
  | error (error : ε)
deriving DecidableEq, Repr

namespace Res

/-- result.py:73-83 -/
def defaultValue (self : Res α ε) (value : α) : α :=
  match self with
  | .ok v => v
  | .error _ => value

/-- result.py:85-95 -/
def defaultWith (self : Res α ε) (getter : ε → PyD σ α) : PyD σ α :=
  match self with
  | .ok v => pure v
  | .error e => getter e

/-- result.py:97-107 -/
def map (mapper : α → PyD σ β) (self : Res α ε) : PyD σ (Res β ε) :=
  match self with
  | .ok v => do
    let y ← mapper v
    pure (.ok y)
  | .error e => pure (.error e)

/-- result.py:109-123 -/
def map2 (self : Res α ε) (other : Res β ε) (mapper : α → β → PyD σ γ) : PyD σ (Res γ ε) :=
  match self with
  | .ok v => map (fun v2 => mapper v v2) other
  | .error e => pure (.error e)

/-- result.py:125-139 -/
def apply (self : Res α ε) (function : Res (α → PyD σ β) ε) : PyD σ (Res β ε) :=
  match function with
  | .ok mapper => map mapper self
  | .error e => pure (.error e)

/-- result.py:141-151 -/
def mapError (mapper : ε → PyD σ ζ) (self : Res α ε) : PyD σ (Res α ζ) :=
  match self with
  | .ok v => pure (.ok v)
  | .error e => do
    let e' ← mapper e
    pure (.error e')

/-- result.py:153-163 -/
def bind (self : Res α ε) (mapper : α → PyD σ (Res β ε)) : PyD σ (Res β ε) :=
  match self with
  | .ok v => mapper v
  | .error e => pure (.error e)

/-- result.py:165-167 -/
def isError (self : Res α ε) : Bool :=
  match self with
  | .ok _ => false
  | .error _ => true

/-- result.py:169-171 -/
def isOk (self : Res α ε) : Bool :=
  match self with
  | .ok _ => true
  | .error _ => false

/-- result.py:173-187 -/
def filter (self : Res α ε) (predicate : α → PyD σ Bool) (default : ε) : PyD σ (Res α ε) :=
  match self with
  | .ok v => do if ← predicate v then pure (.ok v) else pure (.error default)
  | .error e => pure (.error e)

/-- result.py:189-205 -/
def filterWith (self : Res α ε) (predicate : α → PyD σ Bool) (default : α → PyD σ ε) : PyD σ (Res α ε) :=
  match self with
  | .ok v => do
    if ← predicate v then pure (.ok v)
    else do
      let e ← default v
      pure (.error e)
  | .error e => pure (.error e)

/-- result.py:221-227 -/
def swap (self : Res α ε) : Res ε α :=
  match self with
  | .ok v => .error v
  | .error e => .ok e

/-- result.py:229-231 -/
def orElse (self other : Res α ε) : Res α ε := if self.isOk then self else other

/-- result.py:233-237; `self.error` is only read on an `Error` -/
def orElseWith (self : Res α ε) (other : ε → PyD σ (Res α ε)) : PyD σ (Res α ε) :=
  match self with
  | .ok v => pure (.ok v)
  | .error e => other e

/-- result.py:239-244 -/
def merge (self : Res α α) : PyD σ α := self.defaultWith (fun x => pure x)

/-- result.py:246-256, 501-508; option.py:533-540 (`of_result`) -/
def toOption (self : Res α ε) : Option α :=
  match self with
  | .ok v => some v
  | .error _ => none

end Res

namespace Opt

/-- option.py:248-256; result.py:511-512 (`of_option`) -/
def toResult (self : Option α) (error : ε) : Res α ε :=
  match self with
  | some v => .ok v
  | none => .error error

/-- option.py:258-266; result.py:515-516 (`of_option_with`) -/
def toResultWith (self : Option α) (error : PyD σ ε) : PyD σ (Res α ε) :=
  match self with
  | some v => pure (.ok v)
  | none => do
    let e ← error
    pure (.error e)

end Opt

end Expression
