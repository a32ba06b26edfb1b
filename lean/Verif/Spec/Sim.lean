import Verif.Model.Py

/-!
# Specification vocabulary: two computations in lock-step

`Sim R p q`: from every world, `p` and `q` change the world in the same way, raise the same exception or both return, and
returned values are related by `R`.
-/

namespace Expression.Spec

variable {σ α β γ δ : Type}

/-- Outcomes agree: same exception, or related values; and the same final world. -/
def SameOutcome (R : α → β → Prop) : Except PyErr α × σ → Except PyErr β × σ → Prop
  | (.ok a, w), (.ok b, w') => R a b ∧ w = w'
  | (.error e, w), (.error e', w') => e = e' ∧ w = w'
  | _, _ => False

/-- `p` and `q` behave alike up to `R` on results. -/
def Sim (R : α → β → Prop) (p : Py σ α) (q : Py σ β) : Prop :=
  ∀ w, SameOutcome R (p.exec w) (q.exec w)

namespace Sim

theorem pure {R : α → β → Prop} {a : α} {b : β} (h : R a b) : Sim (σ := σ) R (Pure.pure a) (Pure.pure b) :=
  fun _ => ⟨h, rfl⟩

theorem raise {R : α → β → Prop} (e : PyErr) : Sim (σ := σ) R (Py.raise e) (Py.raise e) :=
  fun _ => ⟨rfl, rfl⟩

theorem bind {R : α → β → Prop} {S : γ → δ → Prop} {p : Py σ α} {q : Py σ β} {f : α → Py σ γ} {g : β → Py σ δ}
    (h : Sim R p q) (hfg : ∀ a b, R a b → Sim S (f a) (g b)) : Sim S (p >>= f) (q >>= g) := by
  intro w
  have h1 := h w
  rw [Py.exec_bind, Py.exec_bind]
  rcases hp : p.exec w with ⟨_ | a, w1⟩ <;> rcases hq : q.exec w with ⟨_ | b, w2⟩ <;>
    rw [hp, hq] at h1 <;> simp only [SameOutcome] at h1
  · exact ⟨h1.1, h1.2⟩
  · obtain ⟨h2, rfl⟩ := h1
    exact hfg a b h2 w1

theorem refl (p : Py σ α) : Sim Eq p p := by
  intro w
  rcases p.exec w with ⟨_ | a, w1⟩ <;> exact ⟨rfl, rfl⟩

theorem mono {R S : α → β → Prop} {p : Py σ α} {q : Py σ β} (h : Sim R p q) (hRS : ∀ a b, R a b → S a b) :
    Sim S p q := by
  intro w
  have h1 := h w
  rcases hp : p.exec w with ⟨_ | a, w1⟩ <;> rcases hq : q.exec w with ⟨_ | b, w2⟩ <;>
    rw [hp, hq] at h1 <;> simp only [SameOutcome] at h1 ⊢
  · exact h1
  · exact ⟨hRS _ _ h1.1, h1.2⟩

theorem eq {p q : Py σ α} (h : Sim Eq p q) : p = q := by
  apply Py.ext
  intro w
  have h1 := h w
  rcases hp : p.exec w with ⟨_ | a, w1⟩ <;> rcases hq : q.exec w with ⟨_ | b, w2⟩ <;>
    rw [hp, hq] at h1 <;> simp only [SameOutcome] at h1
  · rw [h1.1, h1.2]
  · rw [h1.1, h1.2]

/-- What a successful run of the left side tells. -/
theorem of_ok {R : α → β → Prop} {p : Py σ α} {q : Py σ β} (h : Sim R p q) {w w' : σ} {a : α}
    (hp : p.exec w = (.ok a, w')) : ∃ b, q.exec w = (.ok b, w') ∧ R a b := by
  have h1 := h w
  rw [hp] at h1
  rcases hq : q.exec w with ⟨_ | b, w2⟩ <;> rw [hq] at h1 <;> simp only [SameOutcome] at h1
  exact ⟨b, by rw [h1.2], h1.1⟩

end Sim
end Expression.Spec
