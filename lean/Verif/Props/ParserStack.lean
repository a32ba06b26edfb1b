import Verif.Props.Parser

/-! # Property C96: parsers of long strings -/

namespace Expression.Props

open Expression PyD Spec Lemmas Lemmas.Parser

variable {σ ρ α : Type}

/-- The full property: some stack suffices to make the parser of every string. -/
def C96_full_statement : Prop :=
  ∃ frames, ∀ (s : Str) (w : Unit), ∃ p : Parser Unit Str, (Parser.pstringWithin frames s).exec w = (.ok p, w)

/-- **C96.** `sequence` and `pstring` on a stack with `frames` free frames: fewer parsers (characters) than frames and the
parser is the one C61 speaks about; otherwise making it raises `RecursionError` before any text is looked at. -/
theorem C96_depth_partial (frames : Nat) (ps : List (Parser σ α)) (s : Str) (w : ρ) :
    (ps.length < frames → (Parser.sequenceWithin frames ps).exec w = (.ok (Parser.sequence ps), w)) ∧
    (frames ≤ ps.length → (Parser.sequenceWithin frames ps).exec w = (.error .recursionError, w)) ∧
    (s.length < frames → (Parser.pstringWithin frames s).exec w = (.ok (Parser.pstring (σ := σ) s), w)) ∧
    (frames ≤ s.length → (Parser.pstringWithin (σ := σ) frames s).exec w = (.error .recursionError, w)) := by
  have h1 : ∀ {α : Type} (ps : List (Parser σ α)) (frames : Nat), ps.length < frames →
      (Parser.sequenceWithin frames ps : Py ρ _) = pure (Parser.sequence ps) := by
    intro α ps
    induction ps with
    | nil =>
      intro frames h
      obtain ⟨n, rfl⟩ : ∃ n, frames = n + 1 := ⟨frames - 1, by simp at h; omega⟩
      rfl
    | cons p ps ih =>
      intro frames h
      obtain ⟨n, rfl⟩ : ∃ n, frames = n + 1 := ⟨frames - 1, by simp at h; omega⟩
      rw [Parser.sequenceWithin, ih n (by simp at h; omega)]
      rfl
  have h2 : ∀ {α : Type} (ps : List (Parser σ α)) (frames : Nat), frames ≤ ps.length →
      (Parser.sequenceWithin frames ps : Py ρ _) = Py.raise .recursionError := by
    intro α ps
    induction ps with
    | nil =>
      intro frames h
      obtain rfl : frames = 0 := by simpa using h
      rfl
    | cons p ps ih =>
      intro frames h
      cases frames with
      | zero => rfl
      | succ n =>
        rw [Parser.sequenceWithin, ih n (by simpa using h)]
        rfl
  refine ⟨fun h => by rw [h1 ps frames h]; rfl, fun h => by rw [h2 ps frames h]; rfl, fun h => ?_, fun h => ?_⟩
  · rw [Parser.pstringWithin, h1 _ frames (by simpa using h)]; rfl
  · rw [Parser.pstringWithin, h2 _ frames (by simpa using h)]; rfl

/-- **C96 is false of the code**: any stack is exhausted by a string that is long enough. -/
theorem C96_full_statement_false : ¬ C96_full_statement := by
  rintro ⟨frames, h⟩
  obtain ⟨p, e⟩ := h (List.replicate frames 'a') ()
  rw [(C96_depth_partial (α := Unit) frames [] (List.replicate frames 'a') ()).2.2.2 (by simp)] at e
  cases e

/-- The parser of `"let"` needs four frames. -/
example (w : ρ) : (Parser.pstringWithin 4 "let".toList).exec w = (.ok (Parser.pstring (σ := σ) "let".toList), w) ∧
    (Parser.pstringWithin (σ := σ) 3 "let".toList).exec w = (.error .recursionError, w) :=
  ⟨(C96_depth_partial (α := Unit) 4 [] "let".toList w).2.2.1 (by decide),
   (C96_depth_partial (α := Unit) 3 [] "let".toList w).2.2.2 (by decide)⟩

end Expression.Props
