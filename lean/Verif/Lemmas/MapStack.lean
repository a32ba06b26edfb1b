import Verif.Lemmas.MapHistory

/-! Building a map from a sequence on a bounded stack. -/

namespace Expression.MapTree

variable {K V : Type} [PyOrd K] [LawfulPyOrd K]

omit [LawfulPyOrd K] in
theorem mkFromIteratorWithin_enough (xs : List (K × V)) (acc : Tree K V) (frames : Nat) (h : xs.length < frames) :
    mkFromIteratorWithin frames acc xs = mkFromIterator acc xs := by
  induction xs generalizing acc frames with
  | nil =>
    obtain ⟨n, rfl⟩ : ∃ n, frames = n + 1 := ⟨frames - 1, by simp at h; omega⟩
    rfl
  | cons kv xs ih =>
    obtain ⟨n, rfl⟩ : ∃ n, frames = n + 1 := ⟨frames - 1, by simp at h; omega⟩
    obtain ⟨k, v⟩ := kv
    simp only [mkFromIteratorWithin, mkFromIterator]
    cases add k v acc with
    | error e => rfl
    | ok t => exact ih t n (by simp at h; omega)

theorem mkFromIteratorWithin_exhausted (xs : List (K × V)) (acc : Tree K V) (hv : Valid acc) (frames : Nat) (h : frames ≤ xs.length) :
    mkFromIteratorWithin frames acc xs = .error .recursionError := by
  induction xs generalizing acc frames with
  | nil =>
    obtain rfl : frames = 0 := by simpa using h
    rfl
  | cons kv xs ih =>
    obtain ⟨k, v⟩ := kv
    cases frames with
    | zero => rfl
    | succ n =>
      obtain ⟨t, e, ht⟩ := add_valid k v hv
      simp only [mkFromIteratorWithin, e]
      exact ih t ht.1 n (by simpa using h)

end Expression.MapTree
