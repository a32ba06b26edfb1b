/-!
# Python computations

The modelling vocabulary shared by all modules.  Nothing here models a file of `/repo`; it fixes what "a Python
callback" and "an exception" mean in the model.
-/

namespace Expression

/-- The exceptions that the modelled code raises, or that a user callback may raise (`user`).
Messages are kept where the code gives one. [Python, and core/error.py] -/
inductive PyErr where
  /-- `Exception(msg)`, raised by `failwith` (expression/core/misc.py / error helpers). -/
  | failwith (msg : String)
  | keyError (msg : String)
  | valueError (msg : String)
  | typeError (msg : String)
  | indexError
  | attributeError (name : String)
  /-- `EffectError` (expression/core/error.py); payload dropped here, see `Model/Builder.lean` for the payload. -/
  | effectError
  /-- `ObjectDisposedException` (expression/system/error.py:1-3). -/
  | objectDisposed
  | overflowError
  | recursionError
  | stopIteration
  /-- any other exception, raised by user code -/
  | user (code : Nat)
deriving DecidableEq, Repr

/-- A Python computation returning `α`, run in an arbitrary world `σ` (heap, log, files, ...): it may read and change the
world and either returns a value or raises; changes made before a raise persist. [Python] -/
abbrev Py (σ : Type) (α : Type) : Type := ExceptT PyErr (StateM σ) α

/-- Outcomes can be compared (used by examples only). [Python] -/
instance {α : Type} [DecidableEq α] : DecidableEq (Except PyErr α)
  | .ok a, .ok b => if h : a = b then isTrue (by rw [h]) else isFalse (fun e => h (Except.ok.inj e))
  | .error a, .error b => if h : a = b then isTrue (by rw [h]) else isFalse (fun e => h (Except.error.inj e))
  | .ok _, .error _ => isFalse (fun e => by cases e)
  | .error _, .ok _ => isFalse (fun e => by cases e)

namespace Py

variable {σ α β : Type}

/-- A computation that does not touch the world. [Python] -/
def ofExcept (e : Except PyErr α) : Py σ α := ExceptT.mk (pure e)

/-- `raise err` [Python] -/
def raise (err : PyErr) : Py σ α := ofExcept (.error err)

/-- Run a computation in a world. [Python] -/
def exec (p : Py σ α) (w : σ) : Except PyErr α × σ := (ExceptT.run p).run w

@[simp] theorem ofExcept_ok (a : α) : (ofExcept (.ok a) : Py σ α) = pure a := rfl
@[simp] theorem ofExcept_error (e : PyErr) : (ofExcept (.error e) : Py σ α) = raise e := rfl
@[simp] theorem raise_bind (e : PyErr) (f : α → Py σ β) : (raise e >>= f) = raise e := rfl

@[simp] theorem exec_pure (a : α) (w : σ) : exec (pure a : Py σ α) w = (.ok a, w) := rfl
@[simp] theorem exec_raise (e : PyErr) (w : σ) : exec (raise e : Py σ α) w = (.error e, w) := rfl
theorem exec_bind (p : Py σ α) (f : α → Py σ β) (w : σ) :
    exec (p >>= f) w = match exec p w with
      | (.ok a, w') => exec (f a) w'
      | (.error e, w') => (.error e, w') := by
  change (ExceptT.run (p >>= f)).run w = _
  simp only [ExceptT.run_bind, StateT.run_bind, exec]
  rcases h : (ExceptT.run p).run w with ⟨_ | _, _⟩ <;> rfl

theorem ext {p q : Py σ α} (h : ∀ w, exec p w = exec q w) : p = q := funext h

end Py

/-- Python's `<` and `==` on keys, as Boolean tests.  `eq` need not be Lean equality: `1`, `1.0` and `True` are different
objects that compare equal. [Python; core/typing.py:14-22] -/
class PyOrd (K : Type) where
  lt : K → K → Bool
  eq : K → K → Bool

/-- What the code assumes of key types (`SupportsLessThanAndHash`, expression/core/typing.py): `<` is a strict weak order
and `==` is its incomparability relation. -/
class LawfulPyOrd (K : Type) [PyOrd K] : Prop where
  irrefl : ∀ a : K, PyOrd.lt a a = false
  trans : ∀ a b c : K, PyOrd.lt a b = true → PyOrd.lt b c = true → PyOrd.lt a c = true
  eq_iff : ∀ a b : K, PyOrd.eq a b = true ↔ PyOrd.lt a b = false ∧ PyOrd.lt b a = false
  eq_trans : ∀ a b c : K, PyOrd.eq a b = true → PyOrd.eq b c = true → PyOrd.eq a c = true

/-- Integers as keys. [Python] -/
instance : PyOrd Int := ⟨fun a b => decide (a < b), fun a b => decide (a = b)⟩

/-- `<` and `==` of integers [model: for examples] -/
instance : LawfulPyOrd Int where
  irrefl a := by simp [PyOrd.lt]
  trans a b c h1 h2 := by simp [PyOrd.lt] at *; omega
  eq_iff a b := by simp [PyOrd.lt, PyOrd.eq]; omega
  eq_trans a b c h1 h2 := by simp [PyOrd.eq] at *; omega

/-- Keys that carry an irrelevant tag: a stand-in for `1`, `1.0`, `True`, which are equal but distinguishable. [model: for examples] -/
structure TaggedKey where
  val : Int
  tag : Nat
deriving DecidableEq, Repr

/-- keys that are equal without being the same [model: for examples] -/
instance : PyOrd TaggedKey := ⟨fun a b => decide (a.val < b.val), fun a b => decide (a.val = b.val)⟩

/-- their order is a strict total order up to `==` [model: for examples] -/
instance : LawfulPyOrd TaggedKey where
  irrefl a := by simp [PyOrd.lt]
  trans a b c h1 h2 := by simp [PyOrd.lt] at *; omega
  eq_iff a b := by simp [PyOrd.lt, PyOrd.eq]; omega
  eq_trans a b c h1 h2 := by simp [PyOrd.eq] at *; omega

end Expression
