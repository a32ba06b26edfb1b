import Verif.Model.Typing

/-! # Property C98: casts -/

namespace Expression.Props

open Expression Typing

variable {C : Type}

/-- `expr` is an instance of the type: of the class, of the origin of a generic (its parameters cannot be checked), of some member of
a union. -/
def C98.Instance (cs : Classes C) (expr : Object C) : Ty C → Prop
  | .cls c => cs.sub expr.cls c = true
  | .generic c _ => cs.sub expr.cls c = true
  | .union ms => ∃ c ∈ ms, cs.sub expr.cls c = true

/-- The full property: `try_downcast` gives the object itself if it is an instance of the type, and `None` otherwise. -/
def C98_full_statement : Prop :=
  ∀ (C : Type) (cs : Classes C) (type_ : Ty C) (expr : Object C),
    (C98.Instance cs expr type_ → tryDowncast cs type_ expr = .ok (some expr)) ∧
    (¬ C98.Instance cs expr type_ → tryDowncast cs type_ expr = .ok none)

/-- three classes that are subclasses of themselves only: 0 is `int`, 1 is `str`, 2 is `types.UnionType` -/
def C98.example_ : Classes (Fin 3) where
  sub a b := a == b
  refl c := by simp
  trans a b c h1 h2 := by simp_all
  unionType := 2

/-- **C98 is false of the code** for unions: `try_downcast(int | str, 5)` is `None`. -/
theorem C98_full_statement_false : ¬ C98_full_statement := by
  intro h
  have h1 := (h (Fin 3) C98.example_ (.union [0, 1]) ⟨5, 0⟩).1 ⟨0, by simp, rfl⟩
  cases h1

/-- Proved: for classes and parameterised generics. -/
theorem C98_try_downcast_partial (cs : Classes C) (type_ : Ty C) (expr : Object C) (hu : ∀ ms, type_ ≠ .union ms) :
    (C98.Instance cs expr type_ → tryDowncast cs type_ expr = .ok (some expr)) ∧
    (¬ C98.Instance cs expr type_ → tryDowncast cs type_ expr = .ok none) := by
  have key : ∀ c, (do
      if ← isinstance cs expr (.cls c) then pure (some expr) else pure none : Except CastErr (Option (Object C))) =
      if cs.sub expr.cls c = true then .ok (some expr) else .ok none := by
    intro c
    cases h : cs.sub expr.cls c <;> simp [isinstance, h] <;> rfl
  cases type_ with
  | cls c =>
    change (_ → (do if ← isinstance cs expr (.cls c) then pure (some expr) else pure none : Except CastErr (Option (Object C))) = _) ∧
      (_ → (do if ← isinstance cs expr (.cls c) then pure (some expr) else pure none : Except CastErr (Option (Object C))) = _)
    rw [key]
    exact ⟨fun h => if_pos h, fun h => if_neg h⟩
  | generic c ps =>
    change (_ → (do if ← isinstance cs expr (.cls c) then pure (some expr) else pure none : Except CastErr (Option (Object C))) = _) ∧
      (_ → (do if ← isinstance cs expr (.cls c) then pure (some expr) else pure none : Except CastErr (Option (Object C))) = _)
    rw [key]
    exact ⟨fun h => if_pos h, fun h => if_neg h⟩
  | union ms => exact absurd rfl (hu ms)

/-- With assertions on, `downcast` gives the object itself exactly if it is an instance, `AssertionError` otherwise, for classes and
unions; a parameterised generic raises `TypeError`.  Under `python -O` it gives back any object.  `upcast` never checks. -/
theorem C98_downcast (cs : Classes C) (type_ : Ty C) (expr : Object C) :
    (∀ c ps, type_ = .generic c ps → downcast cs true type_ expr = .error .typeError) ∧
    ((∀ c ps, type_ ≠ .generic c ps) →
      (C98.Instance cs expr type_ → downcast cs true type_ expr = .ok expr) ∧
      (¬ C98.Instance cs expr type_ → downcast cs true type_ expr = .error .assertion)) ∧
    downcast cs false type_ expr = .ok expr ∧ upcast type_ expr = expr := by
  have key : ∀ b, isinstance cs expr type_ = .ok b → downcast cs true type_ expr = if b = true then .ok expr else .error .assertion := by
    intro b hb
    unfold downcast
    rw [hb]
    cases b <;> rfl
  refine ⟨?_, fun hg => ?_, rfl, rfl⟩
  · rintro c ps rfl; rfl
  · cases type_ with
    | cls c => rw [key _ rfl]; exact ⟨fun h => if_pos h, fun h => if_neg h⟩
    | generic c ps => exact absurd rfl (hg c ps)
    | union ms =>
      rw [key _ rfl]
      simp only [C98.Instance, List.any_eq_true]
      exact ⟨fun h => if_pos h, fun h => if_neg h⟩

/-- `try_downcast(list[int], xs)` for a list, `downcast(int | str, 5)`, and the assertion. -/
example : tryDowncast C98.example_ (.generic 1 [.cls 0]) ⟨7, 1⟩ = .ok (some ⟨7, 1⟩) ∧
    downcast C98.example_ true (.union [0, 1]) ⟨5, 0⟩ = .ok ⟨5, 0⟩ ∧
    downcast C98.example_ true (.cls 1) ⟨5, 0⟩ = .error .assertion := ⟨rfl, rfl, rfl⟩

end Expression.Props
