import Verif.Model.Py

/-!
# Model of `expression/core/tagged_union.py`

An instance is its class and its attribute dictionary (the instance's `__dict__`).
Not modelled: subclasses of a decorated class, a user-written `__init__` (`original_init`, line 106, which is `object.__init__`
otherwise); see `Model/UnionClass.lean` for those.  `__match_args__` is in `Model/Match.lean`, `__repr__` in `Model/Text.lean`.
-/

namespace Expression

/-- What the code asks of the Python objects of type `V`: `==`, `<` (which may raise), `hash`, `is None`, and being equal to a
string.  Nothing is assumed about them here.  Simplified: `==` and `hash` of a payload do not raise (a payload that cannot be hashed makes `hash` of the union
raise), and the comparison of tuples, which takes an object to be equal to itself without asking, always asks. [Python] -/
class PyValue (V : Type) where
  eq : V → V → Bool
  lt : V → V → Except PyErr Bool
  hash : V → Int
  isNone : V → Bool
  eqStr : V → String → Bool
  /-- a string object -/
  ofString : String → V

namespace TU

variable {V : Type}

/-- A decorated class: what `tagged_union(frozen=..., order=...)` got, and `field_names` (tagged_union.py:58-67), the names declared with
`tag()` and `case()`, in order.  Two classes may have the same name, so there is an `id`. -/
structure Cls where
  id : Nat
  name : String
  fieldNames : List String
  frozen : Bool
deriving DecidableEq

/-- what an attribute of an instance holds [tagged_union.py:84-106] -/
inductive Attr (V : Type) where
  | obj (v : V)
  /-- the tag, a string -/
  | name (s : String)
  /-- `_index` -/
  | index (n : Nat)
  /-- `__dataclass_fields__`, as the names of the fields -/
  | fields (names : List String)

/-- an instance; `ident` is its identity (`id(x)`) [tagged_union.py:84-106] -/
structure Inst (V : Type) where
  ident : Nat
  cls : Cls
  attrs : List (String × Attr V)

/-- `object.__setattr__` on the instance dictionary [Python: attributes] -/
def setAttr (attrs : List (String × Attr V)) (name : String) (value : Attr V) : List (String × Attr V) :=
  match attrs with
  | [] => [(name, value)]
  | (n, a) :: rest => if n = name then (n, value) :: rest else (n, a) :: setAttr rest name value

/-- attribute lookup on the instance dictionary [Python: attributes] -/
def lookup (attrs : List (String × Attr V)) (name : String) : Option (Attr V) :=
  match attrs with
  | [] => none
  | (n, a) :: rest => if n = name then some a else lookup rest name

/-- `getattr(self, name)`; the class itself has no attribute of the name of a field, since `dataclass` removes it [Python: attributes] -/
def getattr (u : Inst V) (name : String) : Except PyErr (Attr V) :=
  match lookup u.attrs name with
  | some a => .ok a
  | none => .error (.attributeError name)

/-- `self.tag` [Python: attributes; used by tagged_union.py:113-151] -/
def tagOf (u : Inst V) : Except PyErr String := do
  match ← getattr u "tag" with
  | .name s => .ok s
  | _ => .error (.typeError "tag is not a string")

/-- `getattr(self, self.tag)` [Python: attributes; used by tagged_union.py:113-151] -/
def payload (u : Inst V) : Except PyErr V := do
  let t ← tagOf u
  match ← getattr u t with
  | .obj v => .ok v
  | _ => .error (.typeError "not a payload")

/-- `self._index` [Python: attributes; used by tagged_union.py:113-151] -/
def indexOf (u : Inst V) : Except PyErr Nat := do
  match ← getattr u "_index" with
  | .index n => .ok n
  | _ => .error (.typeError "not an index")

/-- the value of the keyword argument `tag`, or `None` [tagged_union.py:84-85] -/
def tagArg (kwargs : List (String × V)) : Option V := (kwargs.find? (fun kv => kv.1 == "tag")).map Prod.snd

/-- tagged_union.py:95: `tag is None or tag == name` -/
def tagMatches [PyValue V] (tag : Option V) (name : String) : Bool :=
  match tag with
  | none => true
  | some t => PyValue.isNone t || PyValue.eqStr t name

/-- tagged_union.py:86-106: `__init__` on an instance without attributes, `tag` having been taken out of `kwargs` -/
def initCase [PyValue V] (cls : Cls) (ident : Nat) (tag : Option V) (kwargs : List (String × V)) : Except PyErr (Inst V) :=
  match kwargs with
  | [] => .error (.typeError "A case must be specified")
  | (name, value) :: rest =>
    if name ∉ cls.fieldNames then .error (.typeError "Unknown case name")
    else if rest ≠ [] then .error (.typeError "Only one case may be specified")
    else if tagMatches tag name then
      let attrs := setAttr [] "tag" (.name name)
      let attrs := setAttr attrs name (.obj value)
      let attrs := setAttr attrs "_index" (.index (cls.fieldNames.idxOf name))
      let attrs := setAttr attrs "__dataclass_fields__"
        (.fields (cls.fieldNames.filter (fun f => f == name || f == "tag")))
      .ok ⟨ident, cls, attrs⟩
    else .error (.typeError "Tag does not match case name")

/-- tagged_union.py:84-85, then the rest.  `kwargs` is a dictionary in order; a keyword `self` clashes with the parameter
(Python raises `TypeError` before the body runs). -/
def init [PyValue V] (cls : Cls) (ident : Nat) (kwargs : List (String × V)) : Except PyErr (Inst V) :=
  if kwargs.any (fun kv => kv.1 == "self") then .error (.typeError "got multiple values for argument 'self'")
  else initCase cls ident (tagArg kwargs) (kwargs.filter (fun kv => kv.1 != "tag"))

/-- tagged_union.py:124-129 (`Option.__eq__`, option.py:292-293, is replaced by it) -/
def eq [PyValue V] (self other : Inst V) : Except PyErr Bool := do
  if self.cls.id ≠ other.cls.id then pure false
  else
    let t ← tagOf self
    let t' ← tagOf other
    if t ≠ t' then pure false
    else
      match ← getattr self t, ← getattr other t with
      | .obj v, .obj v' => pure (PyValue.eq v v')
      | _, _ => .error (.typeError "not a payload")

/-- `(i, v) < (j, w)` on tuples: the first pair of elements that are not `==` decides [Python: tuples; used by tagged_union.py:141] -/
def tupleLt [PyValue V] (i : Nat) (v : V) (j : Nat) (w : V) : Except PyErr Bool :=
  if i ≠ j then pure (decide (i < j))
  else if PyValue.eq v w then pure false
  else PyValue.lt v w

/-- tagged_union.py:138-141; `NotImplemented` on both sides makes the operator raise `TypeError` -/
def lt [PyValue V] (self other : Inst V) : Except PyErr Bool := do
  if self.cls.id ≠ other.cls.id then .error (.typeError "'<' not supported")
  else
    let i ← indexOf self
    let v ← payload self
    let j ← indexOf other
    let w ← payload other
    tupleLt i v j w

/-- tagged_union.py:150-151 for frozen unions, `mix` being Python's hash of a tuple.  A union that is not frozen keeps the
`__hash__` it inherits, which is that of `object` (the identity): `__eq__` is assigned after the class was made, so Python does
not remove `__hash__`. -/
def hash [PyValue V] (mix : String → String → Int → Int) (self : Inst V) : Except PyErr Int :=
  if self.cls.frozen then do
    let t ← tagOf self
    let v ← payload self
    pure (mix self.cls.name t (PyValue.hash v))
  else pure self.ident

/-- tagged_union.py:153-156 and plain assignment when not frozen -/
def setattr (self : Inst V) (name : String) (value : Attr V) : Except PyErr (Inst V) :=
  if self.cls.frozen ∧ name ∈ self.cls.fieldNames then .error (.typeError "Cannot change the value of a tagged union case")
  else .ok { self with attrs := setAttr self.attrs name value }

/-- tagged_union.py:158-161 and plain deletion when not frozen -/
def delattr (self : Inst V) (name : String) : Except PyErr (Inst V) :=
  if self.cls.frozen ∧ name ∈ self.cls.fieldNames then .error (.typeError "Cannot delete a tagged union case")
  else match lookup self.attrs name with
    | none => .error (.attributeError name)
    | some _ => .ok { self with attrs := self.attrs.filter (fun na => na.1 != name) }

/-- tagged_union.py:170-171 -/
def copy [PyValue V] (ident : Nat) (self : Inst V) : Except PyErr (Inst V) := do
  let t ← tagOf self
  let v ← payload self
  init self.cls ident [(t, v)]

/-- tagged_union.py:173-175; `dup` is `deepcopy` of the payload -/
def deepcopy [PyValue V] (dup : V → V) (ident : Nat) (self : Inst V) : Except PyErr (Inst V) := do
  let t ← tagOf self
  let v ← payload self
  init self.cls ident [(t, dup v)]

/-- `getattr(self, n)` as an object [Python: attributes; used by tagged_union.py:113-151] -/
def attrObj [PyValue V] (u : Inst V) (n : String) : Except PyErr V := do
  match ← getattr u n with
  | .obj v => pure v
  | .name s => pure (PyValue.ofString s)
  | _ => .error (.typeError "not a field")

/-- tagged_union.py:72-73: `dataclasses.fields(self)` are the fields kept on the instance -/
def getstate [PyValue V] (self : Inst V) : Except PyErr (List (String × V)) := do
  match ← getattr self "__dataclass_fields__" with
  | .fields names => names.mapM (fun n => do
      let v ← attrObj self n
      pure (n, v))
  | _ => .error (.typeError "not fields")

/-- pickling and unpickling: `__getstate__`, the objects in the state being replaced by copies (`dup`), then `__setstate__`
(tagged_union.py:75-76) on a new instance without attributes -/
def pickle [PyValue V] (dup : V → V) (ident : Nat) (self : Inst V) : Except PyErr (Inst V) := do
  let state ← getstate self
  init self.cls ident (state.map (fun nv => (nv.1, dup nv.2)))

/-- `dataclasses.asdict(self)`, for which tagged_union.py:102-104 keeps the active fields: the fields kept on the instance, each with
its attribute, converted by `conv` (dataclasses and containers in it are converted in turn, anything else is deep-copied) -/
def asdict [PyValue V] (conv : V → V) (self : Inst V) : Except PyErr (List (String × V)) := do
  match ← getattr self "__dataclass_fields__" with
  | .fields names => names.mapM (fun n => do
      let v ← attrObj self n
      pure (n, conv v))
  | _ => .error (.typeError "not fields")

end TU

end Expression
