import Verif.Model.Py

/-!
# Model of serialisation: `dict()` and the pydantic schemas

`Option.dict` (expression/core/option.py:268-278), `Result.dict` (expression/core/result.py:207-219), `Block.dict`
(expression/collections/block.py:446-455) and the three `__get_pydantic_core_schema__` (option.py:322-378, result.py:295-360,
block.py:538-558).

pydantic itself is not part of the repository; what its building blocks do is modelled as documented: a union schema returns the
outcome of the first member that accepts (simplified: its "smart" mode prefers exact matches, which makes no difference when at
most one member accepts), `ValueError` in a validator function means "does not accept" and other exceptions propagate,
`json_or_python_schema` selects by the kind of input, `is_instance_schema` accepts an instance as it is.
-/

namespace Expression.Serialize

/-- The Python values that matter here.  `model` is an object of some other class with a callable `model_dump` (or `dict`), which
returns `dumped`; `id` distinguishes such objects. [Python, pydantic] -/
inductive Val where
  | none
  | int (n : Int)
  | str (s : String)
  | list (xs : List Val)
  | obj (fields : List (String × Val))
  | model (id : Nat) (dumped : Val)
  | some (v : Val)
  | nothing
  | ok (v : Val)
  | error (e : Val)
  | block (xs : List Val)

mutual
/-- `attr = getattr(value, "model_dump", None) or getattr(value, "dict", None); if attr and callable(attr): value = attr()`
(option.py:272-274, result.py:211-213, 216-218, block.py:450-453), with the `dict` methods of `Option` (option.py:268-278),
`Result` (result.py:207-219) and `Block` (block.py:446-455) in place.  Lists, dictionaries, numbers, strings and `None` have no
such attribute. -/
def toObj : Val → Val
  | .some v => toObj v
  | .nothing => .none
  | .ok v => .obj [("tag", .str "ok"), ("ok", toObj v)]
  | .error e => .obj [("tag", .str "error"), ("error", toObj e)]
  | .block xs => .list (toObjs xs)
  | .model _ dumped => dumped
  | .none => .none
  | .int n => .int n
  | .str s => .str s
  | .list xs => .list xs
  | .obj fields => .obj fields

/-- block.py:455: `[to_obj(value) for value in self._value]` -/
def toObjs : List Val → List Val
  | [] => []
  | x :: xs => toObj x :: toObjs xs
end

/-- Any other type, with its pydantic schema: `py` validates Python input, `json` JSON input; `member` says which values belong to
the type. [Python, pydantic] -/
structure Leaf where
  member : Val → Prop
  py : Val → Except PyErr Val
  json : Val → Except PyErr Val

/-- The annotations considered. [Python, pydantic] -/
inductive Ty where
  | leaf (l : Leaf)
  /-- `Option[t]` -/
  | option (t : Ty)
  /-- `Result[a, b]` -/
  | result (a b : Ty)
  /-- `Block[t]` -/
  | block (t : Ty)

/-- `key in v` for a key that is a string: a dictionary with that key, a string with that part, a list with that string as an element.  Simplified: all
other objects raise `TypeError`; lists have no elements of foreign classes that claim to equal a string. [Python] -/
def contains (key : String) : Val → Except PyErr Bool
  | .obj fields => .ok (fields.any (fun f => f.1 == key))
  | .str s => .ok (decide (key.toList <:+: s.toList))
  | .list xs => .ok (xs.any (fun x => match x with | .str s => s == key | _ => false))
  | _ => .error (.typeError "argument is not iterable")

/-- `v[key]` for a key that is a string [Python] -/
def getItem (key : String) : Val → Except PyErr Val
  | .obj fields => match fields.find? (fun f => f.1 == key) with
    | some f => .ok f.2
    | none => .error (.keyError key)
  | _ => .error (.typeError "indices must be integers")

/-- `validate_ok` and `validate_error` (result.py:310-321) around the schema `handler` -/
def validateCase (key : String) (handler : Val → Except PyErr Val) (v : Val) : Except PyErr Val := do
  if ← contains key v then
    let x ← getItem key v
    handler x
  else .error (.valueError "Missing field")

/-- The members of a union schema are tried in order; only `ValueError` (which includes pydantic's own `ValidationError`) lets
the next one try. [pydantic] -/
def orElse (first : Except PyErr Val) (second : Unit → Except PyErr Val) : Except PyErr Val :=
  match first with
  | .error (.valueError _) => second ()
  | r => r

/-- a list of values, each validated; the first failure is the outcome [pydantic] -/
def validateAll (f : Val → Except PyErr Val) : List Val → Except PyErr (List Val)
  | [] => .ok []
  | x :: xs => do
    let y ← f x
    let ys ← validateAll f xs
    .ok (y :: ys)

/-- Validation of Python input (`TypeAdapter(t).validate_python`, or a field of `Model.model_validate`): the python schemas of
`Option` (option.py:345-363), `Result` (result.py:323-329) and `Block` (block.py:542-553).  Simplified: of all sequences, only
lists are accepted for `Sequence[t]`. -/
def validate : Ty → Val → Except PyErr Val
  | .leaf l, v => l.py v
  | .option t, v => match v with
    | .some u => .ok (.some u)
    | .nothing => .ok .nothing
    | .none => .ok .nothing
    | v => do .ok (.some (← validate t v))
  | .result a b, v => match v with
    | .ok u => .ok (.ok u)
    | .error e => .ok (.error e)
    | v => orElse (do .ok (.error (← validateCase "error" (validate b) v)))
        (fun _ => do .ok (.ok (← validateCase "ok" (validate a) v)))
  | .block t, v => match v with
    | .block xs => .ok (.block xs)
    | .list xs => do .ok (.block (← validateAll (validate t) xs))
    | _ => .error (.valueError "Input should be a valid sequence")

/-- Validation of JSON input (`validate_json`, `model_validate_json`): the json schemas of `Option` (option.py:365-375: any data
that is not `None` becomes `cls(some=data)`, which the python schema then accepts as an instance), `Result` (result.py:330-354:
after the shape was checked, `cls(data)`, but the constructor of a tagged union, tagged_union.py:84, takes no positional
argument) and `Block` (block.py:552, 555). -/
def validateJson : Ty → Val → Except PyErr Val
  | .leaf l, v => l.json v
  | .option _, v => match v with
    | .none => .ok .nothing
    | v => .ok (.some v)
  | .result a b, v => do
    let shape (key : String) (f : Val → Except PyErr Val) : Except PyErr Val :=
      match v with
      | .obj fields => match fields.find? (fun f => f.1 == "tag"), fields.find? (fun f => f.1 == key) with
        | some (_, .str tag), some (_, x) => do
          let y ← f x
          .ok (.obj [("tag", .str tag), (key, y)])
        | _, _ => .error (.valueError "Field required")
      | _ => .error (.valueError "Input should be a valid dictionary")
    let _ ← orElse (shape "ok" (validateJson a)) (fun _ => shape "error" (validateJson b))
    .error (.typeError "__init__() takes 1 positional argument but 2 were given")
  | .block t, v => match v with
    | .list xs => do .ok (.block (← validateAll (validateJson t) xs))
    | _ => .error (.valueError "Input should be a valid sequence")

end Expression.Serialize
