import Verif.Model.Builtins

/-!
# Model of `expression/collections/block.py`

`Block` wraps a tuple.  The module-level functions (block.py:561-1037) call the methods with curried arguments (`Model/Modules.lean`),
except `concat`, `reduce`, `sum_by`, `range` and `unfold`, which carry code of their own.
-/

namespace Expression

open Builtins

/-- block.py:86-89.  Simplified: `tuple(value) if value else tuple()` is the list of the elements of `value`. -/
structure Block (α : Type) where
  value : List α
deriving DecidableEq, Repr

namespace Block

variable {σ α β γ S : Type}

/-- block.py:137-140, 603-604 -/
def empty : Block α := ⟨[]⟩

/-- block.py:91-93; `__add__` (block.py:503-504) is the same -/
def append (self other : Block α) : Block α := ⟨self.value ++ other.value⟩

/-- block.py:115-131.  The generator `(y for x in mapped for y in x)` asks `mapping` for the next block when the current one
is used up. -/
def collect (self : Block α) (mapping : α → Py σ (Block β)) : Py σ (Block β) := do
  pure ⟨← go self.value []⟩
where
  /-- the loop that consumes the generator -/
  go : List α → List β → Py σ (List β)
    | [], acc => pure acc
    | x :: rest, acc => do
      let ys ← mapping x
      go rest (acc ++ ys.value)

/-- `Option.to_seq` (expression/core/option.py:198-207): the list of zero or one element -/
def optionToSeq : Option α → List α
  | some x => [x]
  | none => []

/-- block.py:95-113 -/
def choose (self : Block α) (chooser : α → Py σ (Option β)) : Py σ (Block β) :=
  self.collect (fun x => do pure ⟨optionToSeq (← chooser x)⟩)

/-- block.py:133-135 (method), 598-600 (function) -/
def cons (self : Block α) (element : α) : Block α := ⟨element :: self.value⟩

/-- block.py:142-155 -/
def filter (self : Block α) (predicate : α → Py σ Bool) : Py σ (Block α) := do
  pure ⟨← tupleFilter predicate self.value⟩

/-- block.py:157-178 -/
def fold (self : Block α) (folder : β → α → Py σ β) (state : β) : Py σ β := reduce folder self.value state

/-- block.py:180-192 -/
def forall' (self : Block α) (predicate : α → Py σ Bool) : Py σ Bool := all predicate self.value

/-- block.py:194-207.  Unpacking an empty tuple raises `ValueError`. -/
def head (self : Block α) : Except PyErr α :=
  match self.value with
  | [] => .error (.valueError "not enough values to unpack (expected at least 1, got 0)")
  | x :: _ => .ok x

/-- block.py:209-222.  `start` is not used. -/
def indexed (self : Block α) (_start : Int := 0) : Block (Int × α) := ⟨enumerate self.value⟩

/-- block.py:224-233, `__getitem__` with an integer (block.py:518-521) -/
def item (self : Block α) (index : Int) : Except PyErr α := Builtins.item self.value index

/-- block.py:235-237 (`__bool__` falls back to `__len__`, 529-530) -/
def isEmpty (self : Block α) : Bool := self.value.isEmpty

/-- block.py:239-253 -/
def map (self : Block α) (mapping : α → Py σ β) : Py σ (Block β) := do
  pure ⟨← tupleMap mapping self.value⟩

/-- block.py:255-268, 765-782, for pairs: the tuple element is unpacked into arguments -/
def starmap {α' : Type} (self : Block (α × α')) (mapping : α → α' → Py σ β) : Py σ (Block β) :=
  self.map (fun p => mapping p.1 p.2)

/-- block.py:270-271: `sum` starts from `0`; `plus` is Python's `+` -/
def sum (plus : α → α → Py σ α) (zero : α) (self : Block α) : Py σ α := reduce plus self.value zero

/-- block.py:273-274, 938-941 -/
def sumBy (plus : β → β → Py σ β) (zero : β) (self : Block α) (projection : α → Py σ β) : Py σ β := do
  let xs ← self.map projection
  xs.sum plus zero

/-- block.py:276-291 -/
def mapi (self : Block α) (mapping : Int → α → Py σ β) : Py σ (Block β) := do
  pure ⟨← tupleMap (fun p => mapping p.1 p.2) (enumerate self.value)⟩

/-- block.py:298-301, 818-820; `of` (293-296) is the same on its arguments -/
def ofSeq (xs : List α) : Block α := ⟨xs⟩

/-- block.py:303-305, 823-828 -/
def ofOption : Option α → Block α
  | some v => ⟨[v]⟩
  | none => empty

/-- block.py:307-331 -/
def partition (self : Block α) (predicate : α → Py σ Bool) : Py σ (Block α × Block α) := go self.value [] []
where
  /-- the `for` loop with its two lists -/
  go : List α → List α → List α → Py σ (Block α × Block α)
    | [], list1, list2 => pure (⟨list1⟩, ⟨list2⟩)
    | item :: rest, list1, list2 => do
      if ← predicate item then go rest (list1 ++ [item]) list2 else go rest list1 (list2 ++ [item])

/-- block.py:345-347, 866-867 -/
def range (start stop step : Int) : Except PyErr (Block Int) := do
  .ok ⟨← Builtins.range start stop step⟩

/-- block.py:371-373, 870-871 -/
def singleton (value : α) : Block α := ⟨[value]⟩

/-- block.py:375-384 -/
def skip (self : Block α) (count : Int) : Block α := ⟨slice self.value (some count) none⟩

/-- block.py:386-387 -/
def skipLast (self : Block α) (count : Int) : Block α := ⟨slice self.value none (some (-count))⟩

/-- block.py:389-392.  Unpacking an empty tuple raises `ValueError`. -/
def tail (self : Block α) : Except PyErr (Block α) :=
  match self.value with
  | [] => .error (.valueError "not enough values to unpack (expected at least 1, got 0)")
  | _ :: rest => .ok ⟨rest⟩

/-- block.py:349-369, 736-762 -/
def reduce (self : Block α) (reduction : α → α → Py σ α) : Py σ α := do
  if self.isEmpty then Py.raise (.valueError "Collection was empty")
  else
    let t ← Py.ofExcept self.tail
    let h ← Py.ofExcept self.head
    t.fold reduction h

/-- block.py:394-405 -/
def sort (lt : α → α → Bool) (self : Block α) (reverse : Bool := false) : Py σ (Block α) := do
  pure ⟨← sorted lt (fun x => pure x) reverse self.value⟩

/-- block.py:407-419 -/
def sortWith (lt : γ → γ → Bool) (self : Block α) (func : α → Py σ γ) (reverse : Bool := false) : Py σ (Block α) := do
  pure ⟨← sorted lt func reverse self.value⟩

/-- block.py:421-430 -/
def take (self : Block α) (count : Int) : Block α := ⟨slice self.value none (some count)⟩

/-- block.py:432-444 -/
def takeLast (self : Block α) (count : Int) : Block α := ⟨slice self.value (some (-count)) none⟩

/-- block.py:457-467 -/
def tryHead (self : Block α) : Option α :=
  match self.value with
  | x :: _ => some x
  | [] => none

/-- block.py:488-501 -/
def zip (self : Block α) (other : Block β) : Block (α × β) := ⟨Builtins.zip self.value other.value⟩

/-- block.py:506-510; `same` is `v is value or v == value` -/
def contains (same : α → α → Bool) (self : Block α) (value : α) : Bool := go self.value
where
  /-- the `for` loop -/
  go : List α → Bool
    | [] => false
    | v :: rest => if same v value then true else go rest

/-- block.py:590-596: `seq.fold(reducer, empty)` over the sources, i.e. `functools.reduce` (seq.py:548-572) -/
def concat (sources : List (Block α)) : Block α :=
  sources.foldl (fun t s => t.append s) empty

/-- block.py:526-527 on two blocks: `self._value == o` compares a tuple with a block; tuples leave that to the other side, so
it is `o.__eq__(self._value)`, which compares the tuple of `o` with that of `self`, element by element and with the elements
of `o` on the left.  `same` is what tuples use: `a is b or a == b`. -/
def eq (same : α → α → Bool) (self o : Block α) : Bool := go o.value self.value
where
  /-- tuple equality -/
  go : List α → List α → Bool
    | [], [] => true
    | x :: xs, y :: ys => same x y && go xs ys
    | _, _ => false

/-- block.py:529-530 -/
def len (self : Block α) : Nat := self.value.length

/-- block.py:469-486, 997-1015 with seq.py:1008-1032: the generator loop, consumed by `tuple()`.  `none` is divergence.
Run from a world, because it need not end. -/
def unfoldLoop (generator : S → Py σ (Option (α × S))) (state : S) (acc : List α) (w : σ) :
    Option (Except PyErr (Block α) × σ) :=
  match (generator state).exec w with
  | (.error e, w') => some (.error e, w')
  | (.ok none, w') => some (.ok ⟨acc⟩, w')
  | (.ok (some (item, state')), w') => unfoldLoop generator state' (acc ++ [item]) w'
partial_fixpoint

/-- block.py:469-486 -/
def unfold (generator : S → Py σ (Option (α × S))) (state : S) (w : σ) : Option (Except PyErr (Block α) × σ) :=
  unfoldLoop generator state [] w

end Block
end Expression
