import Verif.Lemmas.MapStack
import Verif.Props.Map

/-! # Property C95: building a map from a long sequence -/

namespace Expression.Props

open Expression Spec

variable {K V : Type} [PyOrd K] [LawfulPyOrd K]

/-- The full property: some stack suffices to build the map of every sequence with `of_seq`. -/
def C95_full_statement : Prop :=
  ∃ frames, ∀ xs : List (Int × Int), ∃ m, Map.ofSeqWithin frames xs = .ok m

/-- **C95.** `of_seq` (and `of`, `create`) on a stack with `frames` free frames: a sequence with fewer pairs than frames
gives the map that `of_list` gives, a longer one raises `RecursionError`, whatever the pairs.  (`of_list` and `of_block`
use a loop: C12 is about them without any condition on the stack.) -/
theorem C95_depth_partial (frames : Nat) (xs : List (K × V)) :
    (xs.length < frames → ∃ m, Map.ofSeqWithin frames xs = .ok m ∧ Map.ofList xs = .ok m) ∧
    (frames ≤ xs.length → Map.ofSeqWithin frames xs = .error .recursionError) := by
  constructor
  · intro h
    obtain ⟨⟨m, e, e2, _⟩, _⟩ := C12_last_binding_wins xs
    refine ⟨m, ?_, e2⟩
    rw [← e]
    simp only [Map.ofSeqWithin, Map.ofSeq, MapTree.ofSeq, MapTree.mkFromIteratorWithin_enough _ _ _ h]
  · intro h
    simp only [Map.ofSeqWithin, MapTree.mkFromIteratorWithin_exhausted xs .nothing MapTree.valid_nothing _ h]
    rfl

/-- **C95 is false of the code**: any stack is exhausted by a sequence that is long enough. -/
theorem C95_full_statement_false : ¬ C95_full_statement := by
  rintro ⟨frames, h⟩
  obtain ⟨m, e⟩ := h (List.replicate frames (0, 0))
  rw [(C95_depth_partial frames (List.replicate frames ((0 : Int), (0 : Int)))).2 (by simp)] at e
  cases e

/-- Three pairs (one key twice) fit a stack of four frames and not one of three. -/
example : (Map.ofSeqWithin 4 [((2 : Int), 20), (1, 10), (2, 21)]).map Map.toList = .ok [(1, 10), (2, 21)] ∧
    (Map.ofSeqWithin 3 [((2 : Int), 20), (1, 10), (2, 21)]).map Map.toList = .error .recursionError := by decide

end Expression.Props
