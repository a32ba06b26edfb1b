import Verif.Lemmas.FromIterable

/-! # C145: a collection made from an iterable holds what the iterable gives -/

namespace Expression.Props

open Expression Spec Lemmas Arr

variable {σ α K V S ω : Type}

/-- For every object that can be iterated, of whatever class, `Block(xs)`, `Block.of_seq(xs)`, `TypedArray(xs)`, `TypedArray.of_seq(xs)` and `map.of_list(xs)`
iterate it exactly once, and hold what that gives. -/
def C145_full_statement : Prop :=
  (∀ (σ α S : Type) (xs : IterObj σ α S), MakesOf xs.it (fun l => .ok ⟨l⟩) (FromIterable.newBlock xs)) ∧
  (∀ (σ α S : Type) (xs : IterObj σ α S), MakesOf xs.it (fun l => .ok ⟨l⟩) (FromIterable.blockOfSeq xs)) ∧
  (∀ (σ ω S : Type) [Floats ω] (long : Nat) (xs : IterObj σ (Val ω) S) (tc : Option TypeCode),
    MakesOf xs.it (fun l => Arr.init long (.iterable l) tc) (FromIterable.newArray long xs tc)) ∧
  (∀ (σ ω S : Type) [Floats ω] (long : Nat) (xs : IterObj σ (Val ω) S),
    MakesOf xs.it (fun l => Arr.init long (.iterable l) none) (FromIterable.arrayOfSeq long xs)) ∧
  (∀ (σ K V S : Type) [PyOrd K] (xs : IterObj σ (K × V) S), MakesOf xs.it Map.ofList (FromIterable.mapOfList xs))

/-- `of_seq` does, whatever the object: it does not test it. -/
theorem C145_of_seq (xs : IterObj σ α S) : MakesOf xs.it (fun l => .ok ⟨l⟩) (FromIterable.blockOfSeq xs) := by
  refine FromIterable.makes_of (bind_congr fun l => ?_)
  cases l with
  | nil => rfl
  | cons x l =>
    show (Iterable.ofList (x :: l)).toList >>= _ = _
    rw [toList_ofList]
    rfl

theorem C145_array_of_seq [Floats ω] (long : Nat) (xs : IterObj σ (Val ω) S) :
    MakesOf xs.it (fun l => Arr.init long (.iterable l) none) (FromIterable.arrayOfSeq long xs) := by
  refine FromIterable.makes_of (bind_congr fun l => ?_)
  cases l with
  | nil =>
    show (Iterable.ofList []).toList >>= _ = _
    rw [toList_ofList]
    rfl
  | cons x l =>
    show (Iterable.ofList (x :: l)).toList >>= _ = _
    rw [toList_ofList]
    rfl

/-- What holds of the others: an object that is true (and whose test does nothing else) is iterated once, and what that gives is held.  So are the built-in
sequences, which are true unless they have no elements. -/
theorem C145_true_partial :
    (∀ (xs : IterObj σ α S), xs.truth = pure true → MakesOf xs.it (fun l => .ok ⟨l⟩) (FromIterable.newBlock xs)) ∧
    (∀ [Floats ω] (long : Nat) (xs : IterObj σ (Val ω) S) (tc : Option TypeCode), xs.truth = pure true →
      MakesOf xs.it (fun l => Arr.init long (.iterable l) tc) (FromIterable.newArray long xs tc)) ∧
    (∀ [PyOrd K] (xs : IterObj σ (K × V) S), xs.truth = pure true → MakesOf xs.it Map.ofList (FromIterable.mapOfList xs)) := by
  refine ⟨fun xs h => ?_, fun long xs tc h => ?_, fun xs h => ?_⟩
  · refine FromIterable.makes_of ?_
    rw [FromIterable.newBlock, h]
    rfl
  · refine FromIterable.makes_of ?_
    rw [FromIterable.newArray, FromIterable.initial, h]
    rfl
  · refine FromIterable.makes_of ?_
    rw [FromIterable.mapOfList, FromIterable.newBlock, h, pure_bind, if_pos rfl, bind_assoc]
    rfl

theorem C145_tuple_partial (l : List α) : MakesOf (FromIterable.ofTuple (σ := σ) l).it (fun l => .ok ⟨l⟩) (FromIterable.newBlock (FromIterable.ofTuple l)) := by
  refine FromIterable.makes_of ?_
  show _ = (Iterable.ofList l).toList >>= _
  rw [toList_ofList]
  cases l with
  | nil => rfl
  | cons x l =>
    show (Iterable.ofList (x :: l)).toList >>= _ = _
    rw [toList_ofList]
    rfl

/-- An object that is false is not iterated: the collection is empty whatever the object has. -/
theorem C145_false (xs : IterObj σ α S) (w w' : σ) (h : xs.truth.exec w = some (.ok false, w')) :
    (FromIterable.newBlock xs).exec w = some (.ok ⟨[]⟩, w') := by
  rw [FromIterable.newBlock, PyD.exec_bind, h]
  rfl

theorem C145_false_array [Floats ω] (long : Nat) (xs : IterObj σ (Val ω) S) (w w' : σ) (h : xs.truth.exec w = some (.ok false, w')) :
    (FromIterable.newArray long xs none).exec w = some (.ok ⟨⟨.list, []⟩, .any⟩, w') := by
  rw [FromIterable.newArray, FromIterable.initial, bind_assoc, PyD.exec_bind, h]
  dsimp only
  rw [if_neg (by decide), toList_ofList]
  rfl

theorem C145_false_map [PyOrd K] (xs : IterObj σ (K × V) S) (w w' : σ) (h : xs.truth.exec w = some (.ok false, w')) :
    (FromIterable.mapOfList xs).exec w = some (.ok Map.empty, w') := by
  rw [FromIterable.mapOfList, PyD.exec_bind, C145_false xs w w' h]
  rfl

/-- If the test raises, so do the constructors, also when iterating would not. -/
theorem C145_test_raises (xs : IterObj σ α S) (w w' : σ) (e : PyErr) (h : xs.truth.exec w = some (.error e, w')) :
    (FromIterable.newBlock xs).exec w = some (.error e, w') := by
  rw [FromIterable.newBlock, PyD.exec_bind, h]

/-- an array of numbers as those of NumPy: with one element, it is as true as that element -/
def numbers (n : Int) : IterObj Unit Int (List Int) := ⟨pure (n != 0), Iterable.ofList [n]⟩

/-- `Block(a)` of the array of the number 0 is empty; `Block.of_seq(a)` is not. -/
example : (FromIterable.newBlock (numbers 0)).exec () = some (.ok ⟨[]⟩, ()) ∧ (FromIterable.blockOfSeq (numbers 0)).exec () = some (.ok ⟨[0]⟩, ()) := by
  refine ⟨C145_false _ _ _ rfl, (C145_of_seq _ _ _).mpr ⟨(.ok [0], ()), .iterator rfl (.oneMore rfl (.exhausted rfl)), rfl⟩⟩

theorem C145_full_statement_false : ¬ C145_full_statement := by
  rintro ⟨h, -⟩
  have h1 := (h Unit Int (List Int) (numbers 0) () (.ok ⟨[0]⟩, ())).mpr ⟨(.ok [0], ()), .iterator rfl (.oneMore rfl (.exhausted rfl)), rfl⟩
  rw [C145_false (numbers 0) () () rfl] at h1
  cases h1

/-- a source that gives one element, and then raises -/
example : (FromIterable.blockOfSeq (⟨pure true, ⟨pure 0, fun s => if s = 0 then pure (some (5, 1)) else PyD.raise (.valueError "gone")⟩⟩ : IterObj Nat Nat Nat)).exec 3
    = some (.error (.valueError "gone"), 3) :=
  (C145_of_seq _ _ _).mpr ⟨(.error (.valueError "gone"), 3), .iterator rfl (.raisesLater rfl (.raises rfl)), rfl⟩

end Expression.Props
