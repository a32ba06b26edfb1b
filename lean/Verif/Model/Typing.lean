/-!
# Model of the casts of `expression/core/typing.py`
-/

namespace Expression.Typing

/-- what can be passed as the type [Python: `isinstance`, `typing`] -/
inductive Ty (C : Type) where
  /-- a class -/
  | cls (c : C)
  /-- a parameterised generic such as `list[int]`: its origin and its parameters -/
  | generic (origin : C) (params : List (Ty C))
  /-- a union of classes, `c1 | c2 | ...` -/
  | union (cs : List C)

/-- The classes of a program: which is a subclass of which, and which class the unions `c1 | c2` themselves belong to
(`types.UnionType`).  Every class is a subclass of itself. [Python: `isinstance`, `typing`] -/
structure Classes (C : Type) where
  sub : C → C → Bool
  refl : ∀ c, sub c c = true
  trans : ∀ a b c, sub a b = true → sub b c = true → sub a c = true
  unionType : C

/-- an object: which one it is, and its class [Python: `isinstance`, `typing`] -/
structure Object (C : Type) where
  id : Nat
  cls : C

/-- the exceptions: `AssertionError`, and the `TypeError` of `isinstance` [Python: `isinstance`, `typing`] -/
inductive CastErr where
  | assertion
  | typeError
deriving DecidableEq, Repr

variable {C : Type}

/-- Python's `isinstance(expr, type)`: a parameterised generic raises `TypeError`.  Simplified: no class overrides
`__instancecheck__`, and unions have only classes as members. [Python: `isinstance`, `typing`] -/
def isinstance (cs : Classes C) (expr : Object C) : Ty C → Except CastErr Bool
  | .cls c => .ok (cs.sub expr.cls c)
  | .generic _ _ => .error .typeError
  | .union ms => .ok (ms.any (fun c => cs.sub expr.cls c))

/-- Python's `typing.get_origin(type_)`: `None` for a class, `types.UnionType` for a union [Python: `isinstance`, `typing`] -/
def getOrigin (cs : Classes C) : Ty C → Option (Ty C)
  | .cls _ => none
  | .generic c _ => some (.cls c)
  | .union _ => some (.cls cs.unionType)

/-- typing.py:61-66 -/
def upcast (_type : Ty C) (expr : Object C) : Object C := expr

/-- typing.py:69-79.  `debug` is Python's `__debug__`: under `python -O` the `assert` is not executed. -/
def downcast (cs : Classes C) (debug : Bool) (type : Ty C) (expr : Object C) : Except CastErr (Object C) := do
  if debug then
    if !(← isinstance cs expr type) then throw .assertion
  pure expr

/-- typing.py:82-96; the answer `none` is `None` -/
def tryDowncast (cs : Classes C) (type_ : Ty C) (expr : Object C) : Except CastErr (Option (Object C)) := do
  let origin := (getOrigin cs type_).getD type_
  if ← isinstance cs expr origin then pure (some expr) else pure none

end Expression.Typing
