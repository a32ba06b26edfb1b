import Verif.Model.TaggedUnion

/-!
# Model of the class side of `expression/core/tagged_union.py`

`Verif/Model/TaggedUnion.lean` treats the values of one decorated class.  Here classes have bases, methods written in the class body, and
may or may not be decorated; `Result` and `Try` (`core/result.py`, `core/try_.py`) are such a pair.
A class is the list of the classes in its method resolution order without `object`, itself first (bases that define none of the methods
treated here, such as `Iterable`, `Awaitable` and `PipeMixin`, are left out, and there is no multiple inheritance of unions).
-/

namespace Expression.TU

variable {V : Type}

/-- the keyword arguments of `tagged_union` (tagged_union.py:34-41) -/
structure Flags where
  frozen : Bool := false
  repr : Bool := true
  eq : Bool := true
  order : Bool := false

/-- One class statement. [Python: classes] -/
structure ClassDef (V : Type) where
  id : Nat
  name : String
  /-- the methods written in the class body -/
  own : List String
  /-- the names declared in the class body with `tag()` and `case()` -/
  ownFields : List String
  /-- `@tagged_union(...)` above the class, if any -/
  deco : Option Flags
  /-- what a `__init__` written in the body does with keyword arguments to the attributes -/
  userInit : List (String × V) → List (String × Attr V) → Except PyErr (List (String × Attr V)) := fun _ a => .ok a

/-- where a method comes from [tagged_union.py:71-183] -/
inductive Impl where
  /-- generated by the decorator for the class with this id -/
  | generated (id : Nat)
  /-- written in the body of the class with this id -/
  | written (id : Nat)
  /-- `None`: Python sets `__hash__` to `None` in a class whose body has `__eq__` and no `__hash__` -/
  | absent
  /-- the method of `object` -/
  | object
deriving DecidableEq

/-- tagged_union.py:78-79, 108, 116-117, 131, 143, 163-165, 177-178: the methods that the decorator assigns -/
def Flags.assigns (f : Flags) (m : String) : Bool :=
  m ∈ ["__getstate__", "__setstate__", "__init__", "__copy__", "__deepcopy__"]
    || (f.repr && m == "__repr__")
    || (f.eq && m == "__eq__")
    || (f.order && m == "__lt__")
    || (f.frozen && m ∈ ["__hash__", "__setattr__", "__delattr__"])

/-- the class's own dictionary: the class statement first, then the assignments of the decorator (the call of `dataclass`,
tagged_union.py:59-65, makes none of these methods, all its switches being off) -/
def classDict (c : ClassDef V) (m : String) : Option Impl :=
  match c.deco with
  | some f => if f.assigns m then some (.generated c.id) else body
  | none => body
where
  body : Option Impl :=
    if m ∈ c.own then some (.written c.id)
    else if m = "__hash__" ∧ "__eq__" ∈ c.own then some .absent
    else none

/-- looking a method up along the method resolution order [Python: classes and attributes] -/
def resolve (mro : List (ClassDef V)) (m : String) : Impl :=
  match mro with
  | [] => .object
  | c :: rest => (classDict c m).getD (resolve rest m)

/-- `fields(cls)` (tagged_union.py:68): those of the bases first, new ones of the class after them -/
def fieldNames (mro : List (ClassDef V)) : List String :=
  match mro with
  | [] => []
  | c :: rest => fieldNames rest ++ c.ownFields.filter (fun f => f ∉ fieldNames rest)

/-- tagged_union.py:84-104 on an instance with the attributes `attrs`, `tag` having been taken out of `kwargs` -/
def storeCase [PyValue V] (names : List String) (attrs : List (String × Attr V)) (tag : Option V) (kwargs : List (String × V)) :
    Except PyErr (List (String × Attr V)) :=
  match kwargs with
  | [] => .error (.typeError "A case must be specified")
  | (name, value) :: rest =>
    if name ∉ names then .error (.typeError "Unknown case name")
    else if rest ≠ [] then .error (.typeError "Only one case may be specified")
    else if tagMatches tag name then
      let attrs := setAttr attrs "tag" (.name name)
      let attrs := setAttr attrs name (.obj value)
      let attrs := setAttr attrs "_index" (.index (names.idxOf name))
      let attrs := setAttr attrs "__dataclass_fields__" (.fields (names.filter (fun f => f == name || f == "tag")))
      .ok attrs
    else .error (.typeError "Tag does not match case name")

/-- Calling `__init__` as the class with this method resolution order has it.  For a decorated class that is the generated one
(tagged_union.py:84-108), which in the end calls `original_init(self)` (line 106), the `__init__` found before the decoration (line 67):
the one in the body, or that of the base. -/
def callInit [PyValue V] (mro : List (ClassDef V)) (attrs : List (String × Attr V)) (kwargs : List (String × V)) :
    Except PyErr (List (String × Attr V)) :=
  match mro with
  | [] => if kwargs = [] then .ok attrs else .error (.typeError "takes no arguments")
  | c :: rest =>
    match c.deco with
    | some _ => do
      let attrs ← storeCase (fieldNames (c :: rest)) attrs (tagArg kwargs) (kwargs.filter (fun kv => kv.1 != "tag"))
      if "__init__" ∈ c.own then c.userInit [] attrs else callInit rest attrs []
    | none => if "__init__" ∈ c.own then c.userInit kwargs attrs else callInit rest attrs kwargs

/-- an instance: its identity, its class and its attributes [Python: classes and attributes] -/
structure Obj (V : Type) where
  ident : Nat
  mro : List (ClassDef V)
  attrs : List (String × Attr V)

/-- `cls(**kwargs)` (a keyword `self` clashes with the parameter) [tagged_union.py:84-106] -/
def make [PyValue V] (mro : List (ClassDef V)) (ident : Nat) (kwargs : List (String × V)) : Except PyErr (Obj V) := do
  if kwargs.any (fun kv => kv.1 == "self") then .error (.typeError "got multiple values for argument 'self'")
  else
    let attrs ← callInit mro [] kwargs
    .ok ⟨ident, mro, attrs⟩

/-- `self.tag` [Python: classes and attributes] -/
def Obj.tag (u : Obj V) : Except PyErr String :=
  match lookup u.attrs "tag" with
  | some (.name s) => .ok s
  | some _ => .error (.typeError "tag is not a string")
  | none => .error (.attributeError "tag")

/-- `getattr(self, name)` for a case [Python: classes and attributes] -/
def Obj.case (u : Obj V) (name : String) : Except PyErr V :=
  match lookup u.attrs name with
  | some (.obj v) => .ok v
  | some _ => .error (.typeError "not a payload")
  | none => .error (.attributeError name)

/-- `isinstance(u, cls)` [Python: classes and attributes] -/
def Obj.isA (u : Obj V) (id : Nat) : Bool := u.mro.any (fun c => c.id == id)

/-- tagged_union.py:124-129, generated for the class with this id -/
def eqGenerated [PyValue V] (id : Nat) (self other : Obj V) : Except PyErr Bool :=
  if other.isA id then do
    let t ← self.tag
    let t' ← other.tag
    if t = t' then do
      let v ← self.case t
      let v' ← other.case t
      .ok (PyValue.eq v v')
    else .ok false
  else .ok false

/-- `self.__eq__(other)`; `none` is `NotImplemented`.  `written` runs a method written by the user in the class with that id.
[Python: `==`; tagged_union.py:124-129] -/
def callEq [PyValue V] (written : Nat → Obj V → Obj V → Except PyErr (Option Bool)) (self other : Obj V) : Except PyErr (Option Bool) :=
  match resolve self.mro "__eq__" with
  | .generated id => do .ok (some (← eqGenerated id self other))
  | .written id => written id self other
  | _ => .ok (if self.ident = other.ident then some true else none)

/-- `a == b`: Python asks the right operand first if its class is a proper subclass of the class of the left one; if both answer
`NotImplemented` the identities are compared. [Python: `==`; tagged_union.py:124-129] -/
def opEq [PyValue V] (written : Nat → Obj V → Obj V → Except PyErr (Option Bool)) (a b : Obj V) : Except PyErr Bool := do
  let sub : Bool := match a.mro.head? with
    | some c => b.isA c.id && (b.mro.head?.map (·.id) != some c.id)
    | none => false
  let first ← if sub then callEq written b a else callEq written a b
  match first with
  | some r => .ok r
  | none =>
    match ← if sub then callEq written a b else callEq written b a with
    | some r => .ok r
    | none => .ok (a.ident == b.ident)

/-- the class with this id in the method resolution order: the variable `cls` of the generated methods [tagged_union.py:56] -/
def generatedFor (mro : List (ClassDef V)) (id : Nat) : List (ClassDef V) := mro.dropWhile (fun c => c.id != id)

/-- `hash(self)` where `__hash__` is generated (tagged_union.py:150-151) or that of `object`; `mix` is Python's hash of a tuple -/
def opHash [PyValue V] (mix : String → String → Int → Int) (written : Nat → Obj V → Except PyErr Int) (self : Obj V) : Except PyErr Int :=
  match resolve self.mro "__hash__" with
  | .generated id => do
    let t ← self.tag
    let v ← self.case t
    .ok (mix (((generatedFor self.mro id).head?.map (·.name)).getD "") t (PyValue.hash v))
  | .written id => written id self
  | .absent => .error (.typeError "unhashable type")
  | .object => .ok self.ident

/-- tagged_union.py:170-171, generated for the class with this id: the copy is made by calling `cls`, not `type(self)` -/
def copyGenerated [PyValue V] (id : Nat) (ident : Nat) (self : Obj V) : Except PyErr (Obj V) := do
  let t ← self.tag
  let v ← self.case t
  make (generatedFor self.mro id) ident [(t, v)]

/-- `copy.copy(self)` where `__copy__` is generated; other classes are copied by way of `written` [tagged_union.py:170-171] -/
def opCopy [PyValue V] (written : Obj V → Except PyErr (Obj V)) (ident : Nat) (self : Obj V) : Except PyErr (Obj V) :=
  match resolve self.mro "__copy__" with
  | .generated id => copyGenerated id ident self
  | _ => written self

/-- the text of a value as `repr` gives it (tagged_union.py:113-114) when `__repr__` is the generated one -/
def opRepr (reprV : V → String) (written : Nat → Obj V → Except PyErr String) (self : Obj V) : Except PyErr String :=
  match resolve self.mro "__repr__" with
  | .generated id => do
    let t ← self.tag
    let v ← self.case t
    .ok ((((generatedFor self.mro id).head?.map (·.name)).getD "") ++ "(" ++ t ++ "=" ++ reprV v ++ ")")
  | .written id => written id self
  | _ => .ok "<object>"

/-- core/option.py:41-378: the class statement of `Option` as far as it concerns the decorator -/
def optionDef : ClassDef V where
  id := 1
  name := "Option"
  own := ["__eq__", "__iter__", "__str__", "__repr__", "__await__"]
  ownFields := ["tag", "none", "some"]
  deco := some { frozen := true, order := true }

/-- core/result.py:49-360: the class statement of `Result` -/
def resultDef : ClassDef V where
  id := 2
  name := "Result"
  own := ["__iter__", "__await__", "__str__", "__repr__"]
  ownFields := ["tag", "ok", "error"]
  deco := some { frozen := true, order := true }

/-- core/try_.py:17-30 -/
def tryDef : ClassDef V where
  id := 3
  name := "Try"
  own := ["__str__"]
  ownFields := []
  deco := none

/-- core/try_.py:33-39 -/
def success [PyValue V] (ident : Nat) (value : V) : Except PyErr (Obj V) := make [tryDef, resultDef] ident [("ok", value)]

/-- core/try_.py:42-48 -/
def failure [PyValue V] (ident : Nat) (error : V) : Except PyErr (Obj V) := make [tryDef, resultDef] ident [("error", error)]

end Expression.TU
