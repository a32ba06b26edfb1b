import Verif.Model.CallStack

/-! # Functions that get along with a number of frames -/

namespace Expression.Spec

open Expression

variable {σ α β ε S : Type}

/-- `enough` free frames are enough for `f`: with more it does the same. -/
def GetsAlong (enough : Nat) (f : Nat → β) : Prop := ∀ free ≥ enough, f free = f enough

/-- The functions of a pipeline that is called with `free` free frames: the last one is called with two frames less, and each one with one less than
the one behind it. -/
def pipelineCalls (free : Nat) : List (FrameFn σ α β) → List (α → PyD σ β)
  | [] => []
  | f :: rest => f (free - (rest.length + 2)) :: pipelineCalls free rest

end Expression.Spec
