import Verif.Spec.Serialize

/-!
# Helper lemmas for serialisation
-/

namespace Expression.Lemmas

open Serialize Spec

theorem plainAll_toObjs {xs : List Val} (h : ∀ x ∈ xs, Plain (toObj x)) : PlainAll (toObjs xs) := by
  induction xs with
  | nil => trivial
  | cons x xs ih => exact ⟨h x (by simp), ih (fun y hy => h y (by simp [hy]))⟩

theorem toObj_plain {v : Val} (h : Plain v) : toObj v = v := by
  cases v <;> first | rfl | exact absurd h id

theorem validateAll_toObjs {f : Val → Except PyErr Val} {xs : List Val} (h : ∀ x ∈ xs, f (toObj x) = .ok x) :
    validateAll f (toObjs xs) = .ok xs := by
  induction xs with
  | nil => rfl
  | cons x xs ih =>
    rw [toObjs, validateAll, h x (by simp), ih (fun y hy => h y (by simp [hy]))]
    rfl

theorem validateAll_members {P : Val → Prop} {f : Val → Except PyErr Val} {xs ys : List Val}
    (h : ∀ x ∈ xs, ∀ u, f x = .ok u → P u) (e : validateAll f xs = .ok ys) : ∀ y ∈ ys, P y := by
  induction xs generalizing ys with
  | nil => cases e; simp
  | cons x xs ih =>
    rw [validateAll] at e
    cases h1 : f x with
    | error _ => rw [h1] at e; cases e
    | ok y =>
      cases h2 : validateAll f xs with
      | error _ => rw [h1, h2] at e; cases e
      | ok zs =>
        rw [h1, h2] at e
        cases e
        intro z hz
        rcases List.mem_cons.1 hz with rfl | hz
        · exact h x (by simp) _ h1
        · exact ih (fun x hx => h x (by simp [hx])) h2 z hz

theorem plainAll_mem {xs : List Val} (h : PlainAll xs) : ∀ x ∈ xs, Plain x := by
  induction xs with
  | nil => simp
  | cons y ys ih =>
    intro x hx
    rcases List.mem_cons.1 hx with rfl | hx
    · exact h.1
    · exact ih h.2 x hx

theorem plainFields_mem {fs : List (String × Val)} (h : PlainFields fs) : ∀ f ∈ fs, Plain f.2 := by
  induction fs with
  | nil => simp
  | cons y ys ih =>
    intro x hx
    rcases List.mem_cons.1 hx with rfl | hx
    · exact h.1
    · exact ih h.2 x hx

theorem getItem_plain {k : String} {v x : Val} (h : Plain v) (e : getItem k v = .ok x) : Plain x := by
  cases v with
  | obj fs =>
    simp only [getItem] at e
    cases hf : fs.find? (fun f => f.1 == k) with
    | none => rw [hf] at e; cases e
    | some f => rw [hf] at e; cases e; exact plainFields_mem h f (List.mem_of_find?_eq_some hf)
  | _ => cases e

theorem validateCase_ok {k : String} {f : Val → Except PyErr Val} {v u : Val} (e : validateCase k f v = .ok u) :
    ∃ x, getItem k v = .ok x ∧ f x = .ok u := by
  rw [validateCase] at e
  cases hc : contains k v with
  | error _ => rw [hc] at e; cases e
  | ok b =>
    rw [hc] at e
    cases b with
    | false => cases e
    | true =>
      cases hg : getItem k v with
      | error _ => rw [hg] at e; cases e
      | ok x => rw [hg] at e; exact ⟨x, rfl, e⟩

theorem orElse_ok {a : Except PyErr Val} {b : Unit → Except PyErr Val} {u : Val} (e : orElse a b = .ok u) :
    a = .ok u ∨ b () = .ok u := by
  unfold orElse at e
  split at e
  · exact .inr e
  · exact .inl e

theorem validateCase_tagged (k k' tag : String) (f : Val → Except PyErr Val) (x : Val) (hk : k' ≠ "tag") :
    validateCase k' f (.obj [("tag", .str tag), (k, x)]) =
      if k = k' then f x else .error (.valueError "Missing field") := by
  have h1 : ("tag" == k') = false := by simpa using fun h => hk h.symm
  by_cases h : k = k'
  · subst h
    simp [validateCase, contains, getItem, h1, bind, Except.bind]
  · have h2 : (k == k') = false := by simpa using h
    simp [validateCase, contains, h1, h2, h, bind, Except.bind]

theorem validate_option (t : Ty) (v : Val) (h : ¬ OptionLike v) :
    validate (.option t) v = (do .ok (.some (← validate t v)) : Except PyErr Val) := by
  cases v <;> first | exact absurd trivial h | rfl

/-- `v` is an instance of `Result` -/
def ResultLike : Val → Prop
  | .ok _ => True
  | .error _ => True
  | _ => False

theorem validate_result (a b : Ty) (v : Val) (h : ¬ ResultLike v) :
    validate (.result a b) v = orElse (do .ok (.error (← validateCase "error" (validate b) v)))
        (fun _ => do .ok (.ok (← validateCase "ok" (validate a) v))) := by
  cases v <;> first | exact absurd trivial h | rfl

theorem validate_block (t : Ty) (xs : List Val) :
    validate (.block t) (.list xs) = (do .ok (.block (← validateAll (validate t) xs)) : Except PyErr Val) := rfl

end Expression.Lemmas
