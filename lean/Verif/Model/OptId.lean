import Verif.Model.Option

/-!
# Model of `expression/core/option.py`: which object a `Nothing` is

"Since Nothing is a singleton it can be tested e.g using `is`" (option.py:387).  `Model/Option.lean` has no identity of objects.  Here an option that has no
value also has an address; the module variable `Nothing` is the object at address 0, and every call of the class makes a new object.
Callbacks are functions that return; their effects and exceptions are in `Model/Option.lean`.
-/

namespace Expression.OptId

open Expression

variable {α β γ ε : Type}

/-- an option object [option.py:43-63] -/
inductive OptObj (α : Type) where
  | some (value : α)
  | none (address : Nat)

/-- option.py:384: the module variable `Nothing` -/
def nothing : OptObj α := .none 0

/-- `x is Nothing` [option.py:43-63] -/
def OptObj.isNothing : OptObj α → Bool
  | .some _ => false
  | .none a => a == 0

/-- option.py:209-223: `is_none` looks at the tag -/
def OptObj.isNone : OptObj α → Bool
  | .some _ => false
  | .none _ => true

/-- tagged_union.py:124-131, which takes the place of option.py:292-293 and does the same: `__eq__`; both payloads are `None` if neither has a value -/
def OptObj.eq (same : α → α → Bool) : OptObj α → OptObj α → Bool
  | .some v, .some v2 => same v v2
  | .none _, .none _ => true
  | _, _ => false

/-- calling the class: a new object, at the next free address [Python: memory] -/
def fresh : StateM Nat Nat := fun n => (n, n + 1)

/-! ## What makes options -/

/-- option.py:504-530 -/
def ofOptional : Obj α → OptObj (Obj α)
  | .none => nothing
  | v => .some v

/-- option.py:533-540; result.py:246-256, 501-508 -/
def ofResult : Res α ε → OptObj α
  | .ok v => .some v
  | .error _ => nothing

/-- option.py:89-99 (and 125-136) -/
def map (f : α → β) : OptObj α → OptObj β
  | .some v => .some (f v)
  | .none _ => nothing

/-- option.py:101-111 -/
def map2 (f : α → β → γ) : OptObj α → OptObj β → OptObj γ
  | .some v, .some v2 => .some (f v v2)
  | _, _ => nothing

/-- option.py:113-123 -/
def apply (x : OptObj α) : OptObj (α → β) → OptObj β
  | .some f => map f x
  | .none _ => nothing

/-- option.py:138-156; also `bind` and `combine` of the effect builders (effect/option.py:15-28, 57-70; effect/async_option.py:27-48, 77-95) -/
def bind (x : OptObj α) (f : α → OptObj β) : OptObj β :=
  match x with
  | .some v => f v
  | .none _ => nothing

/-- option.py:158-164 -/
def orElse (x ifNone : OptObj α) : OptObj α :=
  match x with
  | .some _ => x
  | .none _ => ifNone

/-- option.py:166-176 -/
def orElseWith (x : OptObj α) (ifNone : Unit → OptObj α) : OptObj α :=
  match x with
  | .some _ => x
  | .none _ => ifNone ()

/-- option.py:178-188 -/
def filter (p : α → Bool) (x : OptObj α) : OptObj α :=
  match x with
  | .some v => if p v then x else nothing
  | .none _ => nothing

/-- seq.py:982-1005 -/
def tryPick (f : α → OptObj β) : List α → OptObj β
  | [] => nothing
  | v :: vs => match f v with
    | .some y => .some y
    | .none _ => tryPick f vs

/-- a search that ends with `return Some(…)` or `return Nothing`: seq.py:955-978; block.py:457-467; array.py:411-421; maptree.py:170-181; parser.py:342-350 -/
def found : Option α → OptObj α
  | some v => .some v
  | none => nothing

/-- a map's tree, as `try_pick` goes through it [maptree.py:42-56] -/
inductive Shape (α : Type) where
  | node (v : α) (left right : Shape α)
  | leaf (v : α)
  | empty

/-- maptree.py:361-375: at a leaf the result of the callback is returned as it is -/
def treePick (f : α → OptObj β) : Shape α → OptObj β
  | .node v l r => match treePick f l with
    | .some y => .some y
    | .none _ => match f v with
      | .some y => .some y
      | .none _ => treePick f r
  | .leaf v => f v
  | .empty => nothing

/-- `yield from x` with `x` without a value in an effect block: `EffectError(Nothing)` (option.py:295-300), and its argument is the result of the block
(builder.py:69-77) -/
def shortCircuit (_ : OptObj α) : OptObj β := nothing

/-- `await x` in an asynchronous effect block: `EffectError(self)` (option.py:312-319; async_builder.py:77-85) -/
def shortCircuitAsync : OptObj α → OptObj β
  | .some _ => nothing
  | .none a => .none a

/-! ## What makes new objects -/

/-- option.py:60-63: `Option.Nothing()` -/
def newNothing : StateM Nat (OptObj α) := .none <$> fresh

/-- tagged_union.py:170-171, `__copy__`: the class is called -/
def copy : OptObj α → StateM Nat (OptObj α)
  | .some v => pure (.some v)
  | .none _ => newNothing

/-- tagged_union.py:173-175, `__deepcopy__`: `None` is copied to itself, then the class is called -/
def deepcopy (copyValue : α → StateM Nat α) : OptObj α → StateM Nat (OptObj α)
  | .some v => .some <$> copyValue v
  | .none _ => newNothing

/-- `pickle.loads(pickle.dumps(x))`: a new object, filled by `__setstate__` (tagged_union.py:72-79) -/
def unpickled (copyValue : α → StateM Nat α) (x : OptObj α) : StateM Nat (OptObj α) := deepcopy copyValue x

/-- option.py:364-374: what JSON `null` or another value is validated to -/
def ofJson : Obj α → StateM Nat (OptObj (Obj α))
  | .none => newNothing
  | v => pure (.some v)

/-- option.py:342-343, 347-363: what `None` or another value is validated to from Python data -/
def ofPython : Obj α → OptObj (Obj α)
  | .none => nothing
  | v => .some v

end Expression.OptId
