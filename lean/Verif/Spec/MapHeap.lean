import Verif.Model.MapHeap
import Verif.Spec.Balance

/-! # Specification: which tree is stored at a reference -/

namespace Expression.Spec.MapHeap

open Expression MapTree MapHeap

variable {K V C : Type}

/-- The tree `t` is stored at the reference, in the nodes at the addresses `as`. -/
inductive Holds (h : List (Cell K V)) : Ref → Tree K V → List Nat → Prop where
  | nothing : Holds h none .nothing []
  | leaf {a : Nat} {k : K} {v : V} : h[a]? = some (.leaf k v) → Holds h (some a) (.leaf k v) [a]
  | node {a : Nat} {k : K} {v : V} {l r : Ref} {n : Nat} {tl tr : Tree K V} {as bs : List Nat} :
    h[a]? = some (.node k v l r n) → Holds h l tl as → Holds h r tr bs → Holds h (some a) (.node k v tl tr n) (a :: (as ++ bs))

/-- Every node that existed exists still and is as it was. -/
def Kept (h h' : List (Cell K V)) : Prop := ∀ (a : Nat) (c : Cell K V), h[a]? = some c → h'[a]? = some c

/-- From `w` to `w'`: nothing that existed has changed, and the nodes that we have made are `new`. -/
def Made (new : List Nat) (w w' : World K V) : Prop := Kept w.heap w'.heap ∧ w'.mine = w.mine ++ new

/-- Computing `p`, in any world, comes to `res`, and makes at most `d` nodes (those of the maps that a callback makes, say). -/
def Answers {α : Type} (d : Nat) (p : PyD (World K V) α) (res : Except PyErr α) : Prop :=
  ∀ w, ∃ w' new, p.exec w = some (res, w') ∧ Made new w w' ∧ new.length ≤ d

/-- A call that ends with a map or raises: what it comes to is as with trees (`res`), and the nodes of the new map are nodes of the old one (`olds`) or
among the at most `n` new ones. -/
def Shares (n : Nat) (p : PyD (World K V) Ref) (w : World K V) (olds : List Nat) : Except PyErr (Tree K V) → Prop
  | .ok t => ∃ r as w' new, p.exec w = some (.ok r, w') ∧ Made new w w' ∧ new.length ≤ n ∧ Holds w'.heap r t as ∧ ∀ a ∈ as, a ∈ olds ∨ a ∈ new
  | .error e => ∃ w' new, p.exec w = some (.error e, w') ∧ Made new w w' ∧ new.length ≤ n

/-! ## histories -/

/-- an update of a map -/
inductive Update (K V : Type) where
  | add (k : K) (v : V)
  | remove (k : K)

/-- the update of a stored map -/
def Update.onHeap [PyOrd K] : Update K V → Ref → PyD (World K V) Ref
  | .add k v, r => MapHeap.add k v r
  | .remove k, r => MapHeap.remove k r

/-- the update of a tree -/
def Update.onTree [PyOrd K] : Update K V → Tree K V → Except PyErr (Tree K V)
  | .add k v, t => MapTree.add k v t
  | .remove k, t => MapTree.remove k t

/-- A program that keeps all maps it has made: each step updates the one of the given number, and appends the result. -/
def historyOnHeap [PyOrd K] : List (Nat × Update K V) → List Ref → PyD (World K V) (List Ref)
  | [], rs => pure rs
  | (i, u) :: us, rs =>
    match rs[i]? with
    | none => historyOnHeap us rs
    | some r => do
      let r' ← u.onHeap r
      historyOnHeap us (rs ++ [r'])

/-- the same program on trees -/
def historyOnTrees [PyOrd K] : List (Nat × Update K V) → List (Tree K V) → Except PyErr (List (Tree K V))
  | [], ts => .ok ts
  | (i, u) :: us, ts =>
    match ts[i]? with
    | none => historyOnTrees us ts
    | some t => do
      let t' ← u.onTree t
      historyOnTrees us (ts ++ [t'])

/-- The trees are stored at the references, one by one. -/
def AllHold (h : List (Cell K V)) (rs : List Ref) (ts : List (Tree K V)) : Prop :=
  rs.length = ts.length ∧ ∀ (i : Nat) (r : Ref) (t : Tree K V), rs[i]? = some r → ts[i]? = some t → ∃ as, Holds h r t as

/-! ## loops -/

/-- A loop with `body` over the pairs of a list, started in the world `w`, ends with `res` (`none`: does not end), where between any two calls of the body
existing nodes do not change. -/
inductive Loop (body : C → K × V → PyD (World K V) (Flow C)) : List (K × V) → C → World K V → Option (Except PyErr C × World K V) → Prop where
  | done {c w w'} : Kept w.heap w'.heap → Loop body [] c w (some (.ok c, w'))
  | next {x xs c c' w w1 w2 res} : Kept w.heap w1.heap → (body c x).exec w1 = some (.ok (.next c'), w2) → Loop body xs c' w2 res → Loop body (x :: xs) c w res
  | stop {x xs c c' w w1 w2} : Kept w.heap w1.heap → (body c x).exec w1 = some (.ok (.stop c'), w2) → Loop body (x :: xs) c w (some (.ok c', w2))
  | raises {x xs c e w w1 w2} : Kept w.heap w1.heap → (body c x).exec w1 = some (.error e, w2) → Loop body (x :: xs) c w (some (.error e, w2))
  | hangs {x xs c w w1} : Kept w.heap w1.heap → (body c x).exec w1 = none → Loop body (x :: xs) c w none

end Expression.Spec.MapHeap
