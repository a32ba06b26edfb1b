import Verif.Model.UnionClass

/-!
# Model of the comparison operators on values of unions (`expression/core/tagged_union.py:136-143`)

The decorator makes `__lt__` only; `>`, `<=` and `>=` are what Python makes of it.
-/

namespace Expression.TU

variable {V : Type}

/-- the operators of comparison other than `==` and `!=` [Python: rich comparison] -/
inductive Cmp where
  | lt | le | gt | ge
deriving DecidableEq

/-- the method of an operator [Python: rich comparison] -/
def Cmp.method (c : Cmp) : String :=
  match c with
  | .lt => "__lt__"
  | .le => "__le__"
  | .gt => "__gt__"
  | .ge => "__ge__"

/-- the operator whose method the other operand is asked for [Python: rich comparison] -/
def Cmp.reflected (c : Cmp) : Cmp :=
  match c with
  | .lt => .gt
  | .le => .ge
  | .gt => .lt
  | .ge => .le

/-- `self._index` [Python: classes and attributes; set in tagged_union.py:97] -/
def Obj.index (u : Obj V) : Except PyErr Nat :=
  match lookup u.attrs "_index" with
  | some (.index i) => .ok i
  | some _ => .error (.typeError "_index is not a number")
  | none => .error (.attributeError "_index")

/-- tagged_union.py:138-141, generated for the class with this id; `none` is `NotImplemented` -/
def ltGenerated [PyValue V] (id : Nat) (self other : Obj V) : Except PyErr (Option Bool) :=
  if other.isA id then do
    let i ← self.index
    let t ← self.tag
    let v ← self.case t
    let j ← other.index
    let t' ← other.tag
    let w ← other.case t'
    .ok (some (← tupleLt i v j w))
  else .ok none

/-- Calling the method of an operator: `__lt__` may be generated, the methods of `object` return `NotImplemented`.  `written` runs a method written by
the user in the class with that id. [Python: rich comparison; tagged_union.py:136-143] -/
def callCmp [PyValue V] (written : Nat → Cmp → Obj V → Obj V → Except PyErr (Option Bool)) (c : Cmp) (self other : Obj V) : Except PyErr (Option Bool) :=
  match resolve self.mro c.method with
  | .generated id => ltGenerated id self other
  | .written id => written id c self other
  | _ => .ok none

/-- `a < b`, `a <= b`, `a > b`, `a >= b`: Python asks the right operand first, for the reflected method, if its class is a proper subclass of the class of the
left one; if both answer `NotImplemented` it raises. [Python: rich comparison; tagged_union.py:136-143] -/
def opCmp [PyValue V] (written : Nat → Cmp → Obj V → Obj V → Except PyErr (Option Bool)) (c : Cmp) (a b : Obj V) : Except PyErr Bool := do
  let sub : Bool := match a.mro.head? with
    | some k => b.isA k.id && (b.mro.head?.map (·.id) != some k.id)
    | none => false
  let first ← if sub then callCmp written c.reflected b a else callCmp written c a b
  match first with
  | some r => .ok r
  | none =>
    match ← if sub then callCmp written c a b else callCmp written c.reflected b a with
    | some r => .ok r
    | none => .error (.typeError "comparison not supported between instances")

end Expression.TU
