import Verif.Model.BlockCost
import Verif.Spec.Functions

/-! # What a computation costs -/

namespace Expression.Spec

open Expression

variable {α β ε : Type}

/-- `p` gives `r` and copies `count` elements. -/
def Copies (p : PyD Nat β) (count : Nat) (r : β) : Prop := ∀ before, p.exec before = some (.ok r, before + count)

/-- how many elements the blocks have together -/
def totalLength : List (Block α) → Nat
  | [] => 0
  | s :: rest => s.value.length + totalLength rest

end Expression.Spec
