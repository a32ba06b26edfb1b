import Verif.Spec.OptId

/-! Lemmas about which object a `Nothing` is. -/

namespace Expression.OptId

variable {α β : Type}

/-- a search that finds nothing gives `Nothing`, whatever the callback gave -/
theorem tryPick_none (f : α → OptObj β) (vs : List α) (a : Nat) (h : OptId.tryPick f vs = .none a) : a = 0 := by
  induction vs with
  | nil => cases h; rfl
  | cons v vs ih =>
    simp only [OptId.tryPick] at h
    split at h
    · cases h
    · exact ih h

end Expression.OptId
