import Verif.Model.Py

/-!
# Python built-ins used by the modelled code

Nothing here models a file of `/repo`; these are the documented semantics of the built-ins that the code calls.
-/

namespace Expression.Builtins

open Expression

variable {σ α β γ : Type}

/-- `tuple(map(f, xs))` for a tuple `xs`: the elements are transformed one after the other.  Simplified: `f` does not raise `StopIteration`
(`Model/StopIter.lean` is without this). [Python] -/
def tupleMap (f : α → Py σ β) (xs : List α) : Py σ (List β) := go xs []
where
  /-- the consuming loop; `acc` is what has been collected -/
  go : List α → List β → Py σ (List β)
    | [], acc => pure acc
    | x :: rest, acc => do
      let y ← f x
      go rest (acc ++ [y])

/-- `tuple(filter(p, xs))` for a tuple `xs`.  Simplified: `p` does not raise `StopIteration` (see `Model/StopIter.lean`). [Python] -/
def tupleFilter (p : α → Py σ Bool) (xs : List α) : Py σ (List α) := go xs []
where
  /-- the consuming loop -/
  go : List α → List α → Py σ (List α)
    | [], acc => pure acc
    | x :: rest, acc => do
      if ← p x then go rest (acc ++ [x]) else go rest acc

/-- `functools.reduce(f, xs, state)` [Python] -/
def reduce (f : β → α → Py σ β) : List α → β → Py σ β
  | [], state => pure state
  | x :: rest, state => do
    let state' ← f state x
    reduce f rest state'

/-- `all(p(x) for x in xs)`.  Simplified: `p` does not raise `StopIteration` (see `Model/StopIter.lean`). [Python] -/
def all (p : α → Py σ Bool) : List α → Py σ Bool
  | [] => pure true
  | x :: rest => do
    if ← p x then all p rest else pure false

/-- `enumerate(xs, start)` as a list [Python] -/
def enumerate (xs : List α) (start : Int := 0) : List (Int × α) :=
  match xs with
  | [] => []
  | x :: rest => (start, x) :: enumerate rest (start + 1)

/-- `zip(xs, ys)` as a list: stops with the shorter one [Python] -/
def zip : List α → List β → List (α × β)
  | x :: xs, y :: ys => (x, y) :: zip xs ys
  | _, _ => []

/-- how Python brings a slice bound into `0 .. len` (CPython `PySlice_AdjustIndices`, step 1) -/
def adjustIndex (len : Nat) (i : Int) : Nat :=
  if i < 0 then (i + len).toNat else min i.toNat len

/-- `xs[start:stop]`; `none` for an omitted bound [Python] -/
def slice (xs : List α) (start stop : Option Int) : List α :=
  let lo := match start with
    | some i => adjustIndex xs.length i
    | none => 0
  let hi := match stop with
    | some i => adjustIndex xs.length i
    | none => xs.length
  (xs.take hi).drop lo

/-- `xs[i]` [Python] -/
def item (xs : List α) (i : Int) : Except PyErr α :=
  let j := if i < 0 then i + xs.length else i
  if j < 0 then .error .indexError
  else match xs[j.toNat]? with
    | some x => .ok x
    | none => .error .indexError

/-- insert into a sorted list, after the elements that are not greater (only `<` is used) [Python] -/
def insertSorted (lt : γ → γ → Bool) (x : γ × α) : List (γ × α) → List (γ × α)
  | [] => [x]
  | y :: ys => if lt x.1 y.1 then x :: y :: ys else y :: insertSorted lt x ys

/-- stable sort of key/element pairs by `<` on keys.  CPython uses Timsort; all that is assumed of it is what the language
reference guarantees, and a stable sort's result is unique, so a stable insertion sort stands for it. [Python] -/
def sortPairs (lt : γ → γ → Bool) (xs : List (γ × α)) : List (γ × α) :=
  xs.foldl (fun acc x => insertSorted lt x acc) []

/-- `sorted(xs, key=key, reverse=reverse)`: keys are computed first, once per element, left to right; with `reverse` CPython
sorts the reversed list and reverses the result (listobject.c `list_sort_impl`), which keeps equal elements in order.
Simplified: `<` on keys has no effects. [Python] -/
def sorted (lt : γ → γ → Bool) (key : α → Py σ γ) (reverse : Bool) (xs : List α) : Py σ (List α) := do
  let keyed ← tupleMap (fun x => do let k ← key x; pure (k, x)) xs
  let res := if reverse then (sortPairs lt keyed.reverse).reverse else sortPairs lt keyed
  pure (res.map (·.2))

/-- `range(start, stop, step)`: the number of elements [Python] -/
def rangeLen (start stop step : Int) : Nat :=
  if 0 < step then ((stop - start + step - 1) / step).toNat else ((start - stop - step - 1) / (-step)).toNat

/-- `tuple(range(start, stop, step))` [Python] -/
def range (start stop step : Int) : Except PyErr (List Int) :=
  if step = 0 then .error (.valueError "range() arg 3 must not be zero")
  else .ok ((List.range (rangeLen start stop step)).map (fun (i : Nat) => start + step * (i : Int)))

end Expression.Builtins
