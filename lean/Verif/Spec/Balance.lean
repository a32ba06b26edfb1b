import Verif.Model.Map

/-! # Specification: shape of a map's tree

Stated on the actual shape of the tree (not on the heights the code caches). -/

namespace Expression.Spec

open MapTree

variable {K V : Type}

/-- Number of levels of a tree. -/
def depth : Tree K V → Nat
  | .nothing => 0
  | .leaf _ _ => 1
  | .node _ _ l r _ => max (depth l) (depth r) + 1

/-- At every node the two subtrees differ by at most two levels. -/
def Balanced : Tree K V → Prop
  | .nothing => True
  | .leaf _ _ => True
  | .node _ _ l r _ => Balanced l ∧ Balanced r ∧ depth l ≤ depth r + 2 ∧ depth r ≤ depth l + 2

/-- The tree nodes at which a lookup of `k` compares keys, in order: the search starts at the root and at each node whose
key is not equal to `k` goes left when `k` is smaller, right otherwise. -/
def searchPath [PyOrd K] (k : K) : Tree K V → List K
  | .nothing => []
  | .leaf key _ => [key]
  | .node key _ l r _ =>
    key :: (if PyOrd.eq k key then [] else if PyOrd.lt k key then searchPath k l else searchPath k r)

/-- Two trees have the same keys in the same positions and the same stored heights; only the values may differ. -/
def SameShape {V R : Type} : Tree K V → Tree K R → Prop
  | .nothing, .nothing => True
  | .leaf k _, .leaf k' _ => k = k'
  | .node k _ l r h, .node k' _ l' r' h' => k = k' ∧ h = h' ∧ SameShape l l' ∧ SameShape r r'
  | _, _ => False

/-- Searching for `k` runs off the tree: it ends at an empty position, not at a node with an equal key and not at a leaf. -/
def runsOff [PyOrd K] (k : K) : Tree K V → Bool
  | .node key _ l r _ => if PyOrd.lt k key then runsOff k l else if PyOrd.eq k key then false else runsOff k r
  | .leaf _ _ => false
  | .nothing => true

end Expression.Spec
