import Verif.Model.Parser

/-!
The combinators of the parser module are monotone in the parsers they are given: what Lean has to know to accept the definition of a
recursive grammar (`Model/Grammar.lean`).
-/

namespace Expression.Lemmas.ParserMono

open Expression

variable {σ : Type}

open Lean.Order

variable {α β γ δ : Type} [PartialOrder δ]

theorem mono_iff {ι κ : Type} {q : δ → ι → PyD σ κ} : monotone q ↔ ∀ inp, monotone fun x => q x inp :=
  ⟨fun h inp => monotone_apply inp q h, fun h => monotone_of_monotone_apply q h⟩

@[partial_fixpoint_monotone]
theorem mono_map (f : α → PyD σ β) (p : δ → Parser σ α) (hp : monotone p) : monotone fun x => Parser.map f (p x) := by
  rw [mono_iff] at hp ⊢
  intro inp
  unfold Parser.map
  exact monotone_bind _ _ _ (hp inp) (monotone_of_monotone_apply _ fun a => monotone_const _)

@[partial_fixpoint_monotone]
theorem mono_andThen (p : δ → Parser σ α) (q : δ → Parser σ β) (hp : monotone p) (hq : monotone q) :
    monotone fun x => Parser.andThen (p x) (q x) := by
  rw [mono_iff] at hp hq ⊢
  intro inp
  unfold Parser.andThen
  refine monotone_bind _ _ _ (hp inp) (monotone_of_monotone_apply _ fun a => ?_)
  rcases a with ⟨v, r⟩ | e
  · exact monotone_bind _ _ _ (hq r) (monotone_const _)
  · exact monotone_const _

@[partial_fixpoint_monotone]
theorem mono_orElse (p q : δ → Parser σ α) (hp : monotone p) (hq : monotone q) :
    monotone fun x => Parser.orElse (p x) (q x) := by
  rw [mono_iff] at hp hq ⊢
  intro inp
  unfold Parser.orElse
  refine monotone_bind _ _ _ (hp inp) (monotone_of_monotone_apply _ fun a => ?_)
  rcases a with r | e
  · exact monotone_const _
  · exact hq inp

theorem mono_zero (p : δ → Parser σ α) (hp : monotone p) : monotone fun x => Parser.parseZeroOrMore (p x) := by
  intro x y hxy
  have hle := hp x y hxy
  refine Parser.parseZeroOrMore.fixpoint_induct (p x) (fun f => f ⊑ Parser.parseZeroOrMore (p y)) ?_ ?_
  · intro c hc h; exact csup_le hc h
  · intro f hf inp
    dsimp only
    rw [Parser.parseZeroOrMore.eq_1 (p y)]
    refine PartialOrder.rel_trans (MonoBind.bind_mono_left (hle inp)) (MonoBind.bind_mono_right fun a => ?_)
    rcases a with ⟨v, r⟩ | e
    · exact MonoBind.bind_mono_left (hf r)
    · exact PartialOrder.rel_refl

@[partial_fixpoint_monotone]
theorem mono_many (p : δ → Parser σ α) (hp : monotone p) : monotone fun x => Parser.many (p x) := by
  rw [mono_iff]
  intro inp
  unfold Parser.many
  exact monotone_bind _ _ _ (mono_iff.1 (mono_zero p hp) inp) (monotone_const _)

@[partial_fixpoint_monotone]
theorem mono_many1 (p : δ → Parser σ α) (hp : monotone p) : monotone fun x => Parser.many1 (p x) := by
  rw [mono_iff]
  intro inp
  unfold Parser.many1
  refine monotone_bind _ _ _ (mono_iff.1 hp inp) (monotone_of_monotone_apply _ fun a => ?_)
  rcases a with ⟨v, r⟩ | e
  · exact monotone_bind _ _ _ (mono_iff.1 (mono_zero p hp) r) (monotone_const _)
  · exact monotone_const _

@[partial_fixpoint_monotone]
theorem mono_call (p : δ → Parser σ β) (q : Parser σ α) (hp : monotone p) :
    monotone fun x => Parser.bind (fun _ => pure (p x)) q := by
  rw [mono_iff]
  intro inp
  unfold Parser.bind
  refine monotone_bind _ _ _ (monotone_const _) (monotone_of_monotone_apply _ fun a => ?_)
  rcases a with ⟨v, r⟩ | e
  · simp only [pure_bind]
    exact mono_iff.1 hp r
  · exact monotone_const _

end Expression.Lemmas.ParserMono
