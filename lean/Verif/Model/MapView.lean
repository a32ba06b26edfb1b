import Verif.Model.Map

/-!
# Model of `Map` as a `collections.abc.Mapping`

map.py:43: `Map` derives from `Mapping`, which adds `get`, `keys`, `values` (and `items`, which map.py:136-138 overrides) to the methods
`__getitem__`, `__iter__`, `__len__`, `__contains__` of map.py:211-223.  The mixins are those of Python's `_collections_abc.py`.
`items` goes through a `dict`, so the keys are hashed.
-/

namespace Expression

/-- the three methods a `Mapping` must have; `iter` is `__iter__`, consumed to its end [Python: `collections.abc`, the base of map.py:43] -/
structure PyMapping (K V : Type) where
  iter : Except PyErr (List K)
  getItem : K → Except PyErr V
  len : Nat

namespace PyMapping

variable {K V : Type}

/-- `Mapping.get`: `try: return self[key]; except KeyError: return default` [Python: `collections.abc`, the base of map.py:43] -/
def get (m : PyMapping K V) (key : K) (default : V) : Except PyErr V :=
  match m.getItem key with
  | .error (.keyError _) => .ok default
  | r => r

/-- `list(KeysView(m))`: `yield from self._mapping` [Python: `collections.abc`, the base of map.py:43] -/
def keysList (m : PyMapping K V) : Except PyErr (List K) := m.iter

/-- `list(ValuesView(m))`: `for key in self._mapping: yield self._mapping[key]` [Python: `collections.abc`, the base of map.py:43] -/
def valuesList (m : PyMapping K V) : Except PyErr (List V) := do
  (← m.iter).mapM m.getItem

/-- `value in ValuesView(m)`; `veq` is `v is value or v == value` [Python: `collections.abc`, the base of map.py:43] -/
def valuesContains (veq : V → V → Bool) (m : PyMapping K V) (value : V) : Except PyErr Bool := do
  go (← m.iter)
where
  go : List K → Except PyErr Bool
    | [] => .ok false
    | key :: keys => do
      let v ← m.getItem key
      if veq v value then .ok true else go keys

/-- `list(ItemsView(m))`: `for key in self._mapping: yield (key, self._mapping[key])` [Python: `collections.abc`, the base of map.py:43] -/
def itemsList (m : PyMapping K V) : Except PyErr (List (K × V)) := do
  (← m.iter).mapM (fun key => do .ok (key, ← m.getItem key))

/-- `(key, value) in ItemsView(m)` [Python: `collections.abc`, the base of map.py:43] -/
def itemsContains (veq : V → V → Bool) (m : PyMapping K V) (key : K) (value : V) : Except PyErr Bool :=
  match m.getItem key with
  | .error (.keyError _) => .ok false
  | .error e => .error e
  | .ok v => .ok (veq v value)

end PyMapping

/-- Python's `dict`: its entries in the order of insertion, with their hashes [Python: `dict`] -/
structure PyDict (K V : Type) where
  entries : List (Int × K × V)
deriving DecidableEq

namespace PyDict

variable {K V : Type} [PyOrd K]

/-- the test of an entry for a key: the same hash, and equal (identical keys are equal here) [Python: `dict`] -/
def hit (h : Int) (key : K) (e : Int × K × V) : Bool := e.1 == h && PyOrd.eq e.2.1 key

/-- `d[key] = value`: the first key stays [Python: `dict`] -/
def set (hash : K → Except PyErr Int) (d : PyDict K V) (key : K) (value : V) : Except PyErr (PyDict K V) := do
  let h ← hash key
  if d.entries.any (hit h key) then .ok ⟨d.entries.map (fun e => if hit h key e then (e.1, e.2.1, value) else e)⟩
  else .ok ⟨d.entries ++ [(h, key, value)]⟩

/-- `dict(items)` of key-value pairs [Python: `dict`] -/
def ofItems (hash : K → Except PyErr Int) (items : List (K × V)) : Except PyErr (PyDict K V) :=
  items.foldlM (fun d kv => d.set hash kv.1 kv.2) ⟨[]⟩

/-- `d[key]` [Python: `dict`] -/
def getItem (hash : K → Except PyErr Int) (d : PyDict K V) (key : K) : Except PyErr V := do
  let h ← hash key
  match d.entries.find? (hit h key) with
  | some e => .ok e.2.2
  | none => .error (.keyError "")

/-- `del d[key]` [Python: `dict`] -/
def delete (hash : K → Except PyErr Int) (d : PyDict K V) (key : K) : Except PyErr (PyDict K V) := do
  let h ← hash key
  if d.entries.any (hit h key) then .ok ⟨d.entries.filter (fun e => !hit h key e)⟩
  else .error (.keyError "")

/-- the pairs of a dictionary, in order [Python: `dict`] -/
def items (d : PyDict K V) : List (K × V) := d.entries.map (·.2)

/-- a `dict` as a mapping [Python: `dict`] -/
def mapping (hash : K → Except PyErr Int) (d : PyDict K V) : PyMapping K V where
  iter := .ok (d.entries.map (·.2.1))
  getItem := d.getItem hash
  len := d.entries.length

end PyDict

namespace Map

variable {K V : Type} [PyOrd K]

/-- map.py:211-220 -/
def mapping (m : Map K V) : PyMapping K V where
  iter := m.keys
  getItem := m.getItem
  len := m.len

/-- map.py:136-138: `ItemsView(dict(items))`, here the mapping the view shows -/
def items (hash : K → Except PyErr Int) (m : Map K V) : Except PyErr (PyMapping K V) := do
  let d ← PyDict.ofItems hash (← m.toSeq)
  .ok (d.mapping hash)

/-- `dict(m)`: Python asks a mapping for its keys and for their values [Python: `dict`] -/
def toDict (hash : K → Except PyErr Int) (m : Map K V) : Except PyErr (PyDict K V) := do
  (← m.mapping.keysList).foldlM (fun d key => do d.set hash key (← m.mapping.getItem key)) ⟨[]⟩

/-- the values for `case {k1: p1, k2: p2, ...}`: Python's `MATCH_KEYS`, `none` if a key is missing.  Simplified: the keys are taken to be
different (Python hashes them and raises `ValueError` if two are the same).  A sentinel is asked for by `get`. [Python: the `match` statement] -/
def matchKeys (m : Map K V) : List K → Except PyErr (Option (List V))
  | [] => .ok (some [])
  | key :: keys =>
    match m.mapping.getItem key with
    | .error (.keyError _) => .ok none
    | .error e => .error e
    | .ok v => do
      match ← matchKeys m keys with
      | none => .ok none
      | some vs => .ok (some (v :: vs))

/-- what `**rest` is bound to in `case {k1: p1, ..., **rest}`: a `dict` of the mapping without the keys named [Python: the `match` statement] -/
def matchRest (hash : K → Except PyErr Int) (m : Map K V) (keys : List K) : Except PyErr (PyDict K V) := do
  keys.foldlM (fun d key => d.delete hash key) (← m.toDict hash)

end Map

end Expression
