import Verif.Model.UnionClass
import Verif.Model.Block
import Verif.Model.PyD

/-!
# Model of pattern matching

`match` statements are used by the package itself in nearly every method of `Option`, `Result`, `maptree` and the parsers, and its classes
set `__match_args__` for the patterns of users: tagged_union.py:183, block.py:84, seq.py:73, array.py:169-172.
The meaning of patterns is Python's (PEP 634, and the opcodes `MATCH_CLASS`, `MATCH_SEQUENCE` of CPython).
Not here: mapping patterns (see `Model/MapView.lean`), and class patterns for `int`, `str` and the like, which match their argument with the object itself.
-/

namespace Expression

/-- what a class pattern knows of a class: its identity, its name and `__match_args__` (empty where there is none) [Python: the `match` statement] -/
structure PyClass where
  id : Nat
  name : String
  matchArgs : List String := []
deriving DecidableEq

/-- The objects met by patterns.  `atom` stands for all objects that are matched only by `==`. [Python: the `match` statement] -/
inductive Thing (A : Type) where
  | none
  | str (s : String)
  | int (n : Int)
  | atom (a : A)
  | tuple (xs : List (Thing A))
  | list (xs : List (Thing A))
  /-- an instance of the classes with these ids (its class and the bases), with its attributes.  Simplified: methods and properties, which
  are attributes as well, are left out. -/
  | inst (isA : List Nat) (attrs : List (String × Thing A))
  /-- an instance of a class derived from `collections.abc.Sequence`, with the elements that iterating gives -/
  | seqInst (isA : List Nat) (attrs : List (String × Thing A)) (elements : List (Thing A))

namespace Thing

variable {A : Type}

/-- `isinstance(o, cls)` for classes written in Python [Python: the `match` statement] -/
def isInstance : Thing A → Nat → Bool
  | .inst ids _, c => ids.contains c
  | .seqInst ids _ _, c => ids.contains c
  | _, _ => false

/-- looking an attribute up; `none` is `AttributeError` [Python: the `match` statement] -/
def attr : Thing A → String → Option (Thing A)
  | .inst _ attrs, n => attrs.lookup n
  | .seqInst _ attrs _, n => attrs.lookup n
  | _, _ => .none

/-- the elements of an object that sequence patterns accept: tuples, lists and instances of `collections.abc.Sequence`
[Python: the `match` statement] -/
def elements : Thing A → Option (List (Thing A))
  | .tuple xs => some xs
  | .list xs => some xs
  | .seqInst _ _ xs => some xs
  | _ => .none

end Thing

/-- Patterns. [Python: the `match` statement] -/
inductive Pat (A : Type) where
  /-- `_` -/
  | wild
  /-- a name -/
  | capture (x : String)
  /-- a literal or a dotted name: compared with `==` -/
  | value (v : Thing A)
  /-- `None`: compared with `is` -/
  | isNone
  /-- `p | q` -/
  | either (p q : Pat A)
  /-- `p as x` -/
  | bind (p : Pat A) (x : String)
  /-- `C(p1, ..., pn, a=q1, b=q2, ...)`: the number of positional patterns, the names of the others, and all patterns -/
  | cls (c : PyClass) (nargs : Nat) (kwnames : List String) (ps : List (Pat A))
  /-- `[p1, ..., pn]` or `(p1, ..., pn)` -/
  | seq (ps : List (Pat A))
  /-- `[p1, ..., *x, q1, ...]`; `*_` without a name -/
  | seqStar (pre : List (Pat A)) (star : Option String) (post : List (Pat A))

/-- what a pattern that matches binds [Python: the `match` statement] -/
abbrev Bindings (A : Type) := List (String × Thing A)

namespace Pat

variable {A : Type}

/-- `C(p1, ..., a=q1, ...)` [Python: the `match` statement] -/
def klass (c : PyClass) (pos : List (Pat A)) (kw : List (String × Pat A)) : Pat A :=
  .cls c pos.length (kw.map Prod.fst) (pos ++ kw.map Prod.snd)

/-- The loop of `MATCH_CLASS` over the names of the attributes: naming one twice raises, a missing one makes the pattern fail.
[Python: the `match` statement] -/
def readAttrs (o : Thing A) (seen : List String) : List String → Except PyErr (Option (List (Thing A)))
  | [] => .ok (some [])
  | n :: ns =>
    if n ∈ seen then .error (.typeError "got multiple sub-patterns for attribute")
    else match o.attr n with
      | none => .ok none
      | some v => do
        match ← readAttrs o (n :: seen) ns with
        | none => .ok none
        | some vs => .ok (some (v :: vs))

/-- `MATCH_CLASS` after the `isinstance` check: positional patterns are for the names in `__match_args__` [Python: the `match` statement] -/
def attributes (c : PyClass) (nargs : Nat) (kwnames : List String) (o : Thing A) : Except PyErr (Option (List (Thing A))) :=
  if c.matchArgs.length < nargs then .error (.typeError "accepts fewer positional sub-patterns")
  else readAttrs o [] (c.matchArgs.take nargs ++ kwnames)

mutual

/-- matching an object with a pattern: the names bound, or `none` if it does not match [Python: the `match` statement] -/
def run [PyValue (Thing A)] : Pat A → Thing A → Except PyErr (Option (Bindings A))
  | .wild, _ => .ok (some [])
  | .capture x, o => .ok (some [(x, o)])
  | .value v, o => .ok (if PyValue.eq o v then some [] else none)
  | .isNone, o => .ok (match o with | .none => some [] | _ => none)
  | .either p q, o => do
    match ← run p o with
    | some b => .ok (some b)
    | none => run q o
  | .bind p x, o => do
    match ← run p o with
    | some b => .ok (some (b ++ [(x, o)]))
    | none => .ok none
  | .cls c nargs kwnames ps, o =>
    if o.isInstance c.id then do
      match ← attributes c nargs kwnames o with
      | some vs => runAll ps vs
      | none => .ok none
    else .ok none
  | .seq ps, o =>
    match o.elements with
    | some xs => if xs.length = ps.length then runAll ps xs else .ok none
    | none => .ok none
  | .seqStar pre star post, o =>
    match o.elements with
    | some xs =>
      if xs.length < pre.length + post.length then .ok none
      else do
        match ← runAll pre (xs.take pre.length) with
        | none => .ok none
        | some b1 =>
          match ← runAll post (xs.drop (xs.length - post.length)) with
          | none => .ok none
          | some b2 =>
            let middle := (xs.drop pre.length).take (xs.length - pre.length - post.length)
            .ok (some (b1 ++ star.toList.map (fun x => (x, .list middle)) ++ b2))
    | none => .ok none

/-- the patterns one after the other, each with its own object [Python: the `match` statement] -/
def runAll [PyValue (Thing A)] : List (Pat A) → List (Thing A) → Except PyErr (Option (Bindings A))
  | p :: ps, v :: vs => do
    match ← run p v with
    | none => .ok none
    | some b =>
      match ← runAll ps vs with
      | none => .ok none
      | some b' => .ok (some (b ++ b'))
  | _, _ => .ok (some [])

end

end Pat

/-- `case pattern if guard: body` [Python: the `match` statement] -/
structure Case (σ A α : Type) where
  pat : Pat A
  guard : Bindings A → PyD σ Bool := fun _ => pure true
  body : Bindings A → PyD σ α

/-- an exception raised without other effects [Python: the `match` statement] -/
def PyD.ofExcept {σ α : Type} : Except PyErr α → PyD σ α
  | .ok a => pure a
  | .error e => PyD.raise e

/-- `match subject: ...`: the first case whose pattern matches and whose guard holds; `none` if there is none [Python: the `match` statement] -/
def matchStmt {σ A α : Type} [PyValue (Thing A)] (cases : List (Case σ A α)) (subject : Thing A) : PyD σ (Option α) :=
  match cases with
  | [] => pure none
  | c :: rest => do
    match ← PyD.ofExcept (c.pat.run subject) with
    | none => matchStmt rest subject
    | some b =>
      if ← c.guard b then
        let a ← c.body b
        pure (some a)
      else matchStmt rest subject

/-! ## The objects of the package -/

section

variable {A : Type}

/-- an attribute of a union value as an object [tagged_union.py:84-106] -/
def TU.Attr.thing : TU.Attr (Thing A) → Thing A
  | .obj v => v
  | .name s => .str s
  | .index n => .int n
  | .fields names => .tuple (names.map .str)

/-- a value of a tagged union as an object [tagged_union.py:84-106] -/
def TU.Obj.thing (u : TU.Obj (Thing A)) : Thing A :=
  .inst (u.mro.map (·.id)) (u.attrs.map (fun na => (na.1, na.2.thing)))

/-- tagged_union.py:68, 183: `cls.__match_args__ = field_names`; subclasses that are not decorated inherit it -/
def TU.patternClass (mro : List (TU.ClassDef (Thing A))) : PyClass where
  id := (mro.head?.map (·.id)).getD 0
  name := (mro.head?.map (·.name)).getD ""
  matchArgs := TU.fieldNames (mro.dropWhile (fun c => c.deco.isNone))

/-- block.py:63-66, 84: `Block` is a `Collection`, not a `Sequence` -/
def blockClass : PyClass := ⟨101, "Block", ["_value"]⟩

/-- block.py:86-89 -/
def Block.thing (b : Block (Thing A)) : Thing A := .inst [blockClass.id] [("_value", .tuple b.value)]

/-- seq.py:62, 73 -/
def seqClass : PyClass := ⟨102, "Seq", ["iterable"]⟩

/-- seq.py:75-76: a `Seq` of any iterable -/
def seqThing (iterable : Thing A) : Thing A := .inst [seqClass.id] [("_value", iterable)]

/-- array.py:168-172: a `MutableSequence` -/
def typedArrayClass : PyClass := ⟨103, "TypedArray", ["initializer", "typecode"]⟩

/-- array.py:174-185: the attributes of a typed array; iterating goes over `value` -/
def typedArrayThing (value : List (Thing A)) (typecode : Thing A) : Thing A :=
  .seqInst [typedArrayClass.id] [("value", .list value), ("typecode", typecode)] value

/-- map.py:43: a `Mapping`; there is no `__match_args__` -/
def mapClass : PyClass := ⟨104, "Map", []⟩

/-- map.py:46-47 -/
def mapThing (tree : Thing A) : Thing A := .inst [mapClass.id] [("_tree", tree)]

/-- maptree.py:42-45: a dataclass -/
def leafClass : PyClass := ⟨105, "MapTreeLeaf", ["key", "value"]⟩

/-- maptree.py:51-56: a dataclass derived from `MapTreeLeaf` -/
def nodeClass : PyClass := ⟨106, "MapTreeNode", ["key", "value", "left", "right", "height"]⟩

/-- a leaf of the tree [maptree.py:42-56] -/
def leafThing (key value : Thing A) : Thing A := .inst [leafClass.id] [("key", key), ("value", value)]

/-- an inner node of the tree [maptree.py:42-56] -/
def nodeThing (key value left right height : Thing A) : Thing A :=
  .inst [nodeClass.id, leafClass.id] [("key", key), ("value", value), ("left", left), ("right", right), ("height", height)]

end

end Expression
