import Verif.Lemmas.OptId

/-! # Property C137: testing for `Nothing` with `is` -/

namespace Expression.Props

open Expression OptId Spec

variable {α β : Type}

/-- The full property, as the documentation says: an option has no value exactly if it `is Nothing`. -/
def C137_full_statement : Prop := ∀ (α : Type) (x : OptObj α), Obtained true x → (x.isNothing = true ↔ x.isNone = true)

/-- The code does not do this: a copy of `Nothing`, what `pickle` or JSON gives back, and `Option.Nothing()` are other objects. -/
theorem C137_full_statement_false : ¬ C137_full_statement := by
  intro h
  have := (h Unit _ (.deepcopy (fun v => pure v) nothing 1 (Nat.le_refl 1) rfl .nothing)).2 rfl
  cases this

/-- **C137 (partial).** Everything that is made by the other operations, in whatever combination: it has no value exactly if it `is Nothing`. -/
theorem C137_is_partial (x : OptObj α) (h : Obtained false x) : x.isNothing = true ↔ x.isNone = true := by
  suffices hs : ∀ a, x = .none a → a = 0 by
    cases x with
    | some v => simp [OptObj.isNothing, OptObj.isNone]
    | none a => cases hs a rfl; simp [OptObj.isNothing, OptObj.isNone]
  generalize hc : false = c at h
  induction h with
  | nothing => intro a h; cases h; rfl
  | some v => intro a h; cases h
  | ofOptional v => intro a h; cases v <;> cases h; rfl
  | ofResult r => intro a h; cases r <;> cases h; rfl
  | map f x _ ih => intro a h; cases x <;> cases h; rfl
  | map2 f x y _ _ _ _ => intro a h; cases x <;> cases y <;> cases h <;> rfl
  | apply x f _ _ _ _ => intro a h; cases f <;> cases x <;> cases h <;> rfl
  | bind x f _ _ _ ih =>
    intro a h
    cases x with
    | some v => exact ih v rfl a h
    | none _ => cases h; rfl
  | orElse x y _ _ _ ih =>
    intro a h
    cases x with
    | some v => cases h
    | none _ => exact ih a h
  | orElseWith x y _ _ _ ih =>
    intro a h
    cases x with
    | some v => cases h
    | none _ => exact ih a h
  | filter p x _ _ =>
    intro a h
    cases x with
    | some v =>
      simp only [OptId.filter] at h
      split at h <;> cases h
      rfl
    | none _ => cases h; rfl
  | tryPick f vs _ _ => exact fun a h => tryPick_none f vs a h
  | treePick f m _ ih =>
    intro a h
    induction m with
    | node v l r _ ihr =>
      simp only [OptId.treePick] at h
      split at h
      · cases h
      · split at h
        · cases h
        · exact ihr h
    | leaf v => exact ih v a h
    | empty => cases h; rfl
  | found o => intro a h; cases o <;> cases h; rfl
  | block x _ _ => intro a h; cases h; rfl
  | asyncBlock x _ ih =>
    intro a h
    cases x with
    | some v => cases h; rfl
    | none _ => cases h; exact ih _ rfl
  | ofPython v => intro a h; cases v <;> cases h; rfl
  | newNothing n hn hc' => cases hc.trans hc'
  | copy x n hn hc' => cases hc.trans hc'
  | deepcopy cp x n hn hc' => cases hc.trans hc'
  | unpickled cp x n hn hc' => cases hc.trans hc'
  | ofJson v n hn hc' => cases hc.trans hc'

/-- A copy of an option without a value, what `pickle` and JSON give back for it, and what `Option.Nothing()` gives, is never `Nothing` itself. -/
theorem C137_copies (cp : α → StateM Nat α) (x : OptObj α) (h : x.isNone = true) (n : Nat) (hn : 1 ≤ n) :
    (copy x |>.run n).1.isNothing = false ∧ (deepcopy cp x |>.run n).1.isNothing = false ∧ (unpickled cp x |>.run n).1.isNothing = false ∧
    (ofJson (.none : Obj α) |>.run n).1.isNothing = false ∧ (newNothing.run n : OptObj α × Nat).1.isNothing = false := by
  have e : OptObj.isNothing (.none n : OptObj α) = false := by simp [OptObj.isNothing]; omega
  have e' : OptObj.isNothing (.none n : OptObj (Obj α)) = false := by simp [OptObj.isNothing]; omega
  cases x with
  | some v => cases h
  | none a => exact ⟨e, e, e, e', e⟩

/-- What works for every option, wherever it comes from: `x.is_none()` and `x == Nothing` say the same. -/
theorem C137_equality (same : α → α → Bool) (x : OptObj α) : x.eq same nothing = x.isNone := by
  cases x <;> rfl

/-! ## Cases -/

example : Obtained false (OptId.bind (OptId.ofOptional (.val 3)) (fun v => OptId.filter (fun _ => false) (.some v))) :=
  .bind _ _ (.ofOptional _) (fun v _ => .filter _ _ (.some v))

example : (OptId.bind (OptId.ofOptional (.val 3)) (fun v => OptId.filter (fun _ => false) (.some v))).isNothing = true := rfl

/-- `copy.deepcopy(Nothing)` passed through an asynchronous block and `or_else` stays another object; `map` gives `Nothing` again -/
example : let x : OptObj Nat := (deepcopy (fun v => pure v) (nothing : OptObj Nat) |>.run 5).1
    (OptId.orElse (shortCircuitAsync x : OptObj Nat) x).isNothing = false ∧ (OptId.map (· + 1) x).isNothing = true ∧
    (shortCircuit x : OptObj Nat).isNothing = true ∧ x.eq (· == ·) nothing = true := ⟨rfl, rfl, rfl, rfl⟩

end Expression.Props
