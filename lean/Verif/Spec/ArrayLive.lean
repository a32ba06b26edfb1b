import Verif.Model.ArrayLive
import Verif.Spec.Loop

/-!
# Specification: going through an array that changes meanwhile
-/

namespace Expression.Spec

open Arr ArrLive

variable {ω τ C : Type}

/-- the elements that the storage object at an address has in a world -/
def itemsAt (addr : Nat) (w : World ω τ) : List (Val ω) := (w.1.cells addr).items

/-- `Visits addr folder i c w xs c' w'`: from position `i` and state `c` in world `w`, the elements `xs` were visited: each time the
element that stood at the position at that moment was given to the folder, which returned, and the position moved on by one.  That
left the state `c'` and the world `w'`. -/
inductive Visits (addr : Nat) (folder : C → Val ω → PyD (World ω τ) C) : Nat → C → World ω τ → List (Val ω) → C → World ω τ → Prop
  | zero {i c w} : Visits addr folder i c w [] c w
  | succ {i c w x c1 w1 xs c' w'} (at_ : (itemsAt addr w)[i]? = some x) (call : (folder c x).exec w = some (.ok c1, w1))
      (rest : Visits addr folder (i + 1) c1 w1 xs c' w') : Visits addr folder i c w (x :: xs) c' w'

/-- the callback changes nothing at positions after one at which its argument stands -/
def LeavesAhead (addr : Nat) (f : Val ω → PyD (World ω τ) C) : Prop :=
  ∀ i x w r w', (itemsAt addr w)[i]? = some x → (f x).exec w = some (r, w') →
    (itemsAt addr w').drop (i + 1) = (itemsAt addr w).drop (i + 1)

/-- `r` is a new array in `h'`, showing `a`; everything else is as in `h` -/
def NewArray (h : Heap ω) (a : TypedArray ω) (r : Ref) (h' : Heap ω) : Prop :=
  r.addr = h.next ∧ h'.next = h.next + 1 ∧ r.view h' = a ∧ ∀ k, k ≠ h.next → h'.cells k = h.cells k

/-- Running `p` on the heap does what `q` says: it raises the same, or it makes a new array of the value that `q` returns. -/
def MakesNew (p : PyD (World ω τ) Ref) (q : Py (World ω τ) (TypedArray ω)) (w : World ω τ) : Prop :=
  match q.exec w with
  | (.error e, w') => p.exec w = some (.error e, w')
  | (.ok a, w') => ∃ r h', p.exec w = some (.ok r, (h', w'.2)) ∧ NewArray w'.1 a r h'

end Expression.Spec
