import Verif.Model.Seq

/-!
# The methods of `Seq`

`self` is the iterable that the `Seq` wraps; `Seq(xs)` and `iter(self)` are left out as in `Model/Seq.lean`.  `Seq.collect` and
`Seq.concat` are there.  A function `f(*args)(source)` of the module is written `f args source`.
-/

namespace Expression.SeqMethods

variable {σ α β γ S T : Type}

/-- seq.py:86-92 -/
def append (self : Iterable σ α T) (others : List (Iterable σ α T)) :
    Iterable σ α (Seq.CollectState (List (Iterable σ α T)) (Iterable σ α T) T) := Seq.concat ([self] ++ others)

/-- seq.py:94-95 -/
def filter (self : Iterable σ α S) (predicate : α → PyD σ Bool) : Iterable σ α S := Seq.filter predicate self

/-- seq.py:97-112 -/
def choose (self : Iterable σ α S) (chooser : α → PyD σ (Option β)) :
    Iterable σ β (Seq.CollectState S (Iterable σ β (List β)) (List β)) := Seq.choose chooser self

/-- seq.py:158-175: `functools.reduce(folder, self, state)` -/
def fold (self : Iterable σ α S) (folder : β → α → PyD σ β) (state : β) : PyD σ β :=
  self.forLoop (fun acc x => do pure (.next (← folder acc x))) state

/-- seq.py:177-179 -/
def head (self : Iterable σ α S) : PyD σ α := Seq.head self

/-- seq.py:181-183 -/
def length (self : Iterable σ α S) : PyD σ Nat := Seq.length self

/-- seq.py:185-198 -/
def map (self : Iterable σ α S) (mapper : α → PyD σ β) : Iterable σ β (Option S) := Seq.map mapper self

/-- seq.py:215-229, for pairs -/
def starmap (self : Iterable σ (α × β) S) (mapping : α → β → PyD σ γ) : Iterable σ γ (Option S) := Seq.starmap mapping self

/-- seq.py:231-246: the elements are made when the method is called -/
def mapi (self : Iterable σ α S) (mapping : Nat → α → PyD σ β) : PyD σ (List β) := Seq.mapi mapping self

/-- seq.py:248-250 -/
def pairwise (self : Iterable σ α S) : Iterable σ (α × α) (S × Option α) := Seq.pairwise self

/-- seq.py:268-282: `itertools.accumulate(self._value, scanner, initial=state)` -/
def scan (self : Iterable σ α S) (scanner : γ → α → PyD σ γ) (state : γ) : Iterable σ γ (Seq.ScanState S γ) where
  iter := do
    let s ← self.iter
    pure (.initial s)
  next st := match st with
    | .initial s => pure (some (state, .running s state))
    | .running s total => do
      match ← self.next s with
      | none => pure none
      | some (x, s') =>
        let total' ← scanner total x
        pure (some (total', .running s' total'))

/-- seq.py:284-293 -/
def skip (self : Iterable σ α S) (count : Int) : Iterable σ α (Option (S × Nat)) := Seq.skip count self

/-- seq.py:295-297 -/
def sum (plus : α → α → PyD σ α) (zero : α) (self : Iterable σ α S) : PyD σ α := Seq.sum plus zero self

/-- seq.py:299-305 -/
def sumBy (plus : β → β → PyD σ β) (zero : β) (self : Iterable σ α S) (projection : α → PyD σ β) : PyD σ β :=
  Seq.sumBy plus zero projection self

/-- seq.py:307-314 -/
def tail (self : Iterable σ α S) : Iterable σ α (Option (S × Nat)) := skip self 1

/-- seq.py:316-322 -/
def take (self : Iterable σ α S) (count : Int) : Iterable σ α (Option (S × Nat)) := Seq.take count self

/-- seq.py:327-329 -/
def tryFindIndex (self : Iterable σ α S) (predicate : α → PyD σ Bool) : PyD σ (Option Nat) := Seq.tryFindIndex predicate self

/-- seq.py:331-333 -/
def tryPick (self : Iterable σ α S) (chooser : α → PyD σ (Option β)) : PyD σ (Option β) := Seq.tryPick chooser self

/-- seq.py:369-383: `builtins.zip(self, other)` -/
def zip (self : Iterable σ α S) (other : Iterable σ β T) : Iterable σ (α × β) (S × T) where
  iter := do
    let s ← self.iter
    let t ← other.iter
    pure (s, t)
  next st := do
    match ← self.next st.1 with
    | none => pure none
    | some (x, s') =>
      match ← other.next st.2 with
      | none => pure none
      | some (y, t') => pure (some ((x, y), (s', t')))

/-- seq.py:1035-1068, piped: `zip(source1)` is a function of the second source, and `self` is what is piped into it -/
def pipedZip (self : Iterable σ α S) (other : Iterable σ β T) : Iterable σ (β × α) (T × S) := Seq.zip other self

end Expression.SeqMethods
