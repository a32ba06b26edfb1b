import Verif.Model.Text

/-! # Lemmas on joined texts -/

namespace Expression.Lemmas

theorem split_inj {c : Char} {p q r s : List Char} (hp : c ∉ p) (hq : c ∉ q) (h : p ++ c :: r = q ++ c :: s) : p = q ∧ r = s := by
  induction p generalizing q with
  | nil =>
    cases q with
    | nil => simpa using h
    | cons d q =>
      simp only [List.nil_append, List.cons_append, List.cons.injEq] at h
      exact absurd (by simp [h.1]) hq
  | cons d p ih =>
    cases q with
    | nil =>
      simp only [List.nil_append, List.cons_append, List.cons.injEq] at h
      exact absurd (by simp [h.1]) hp
    | cons e q =>
      simp only [List.cons_append, List.cons.injEq] at h
      obtain ⟨rfl, h⟩ := h
      obtain ⟨rfl, rfl⟩ := ih (fun x => hp (List.mem_cons_of_mem _ x)) (fun x => hq (List.mem_cons_of_mem _ x)) h
      exact ⟨rfl, rfl⟩

/-- texts without the first character of the separator can be told apart in their join -/
theorem joinText_inj {c : Char} {sep : List Char} {ps qs : List (List Char)} (hp : ∀ p ∈ ps, c ∉ p ∧ p ≠ []) (hq : ∀ q ∈ qs, c ∉ q ∧ q ≠ [])
    (h : joinText (c :: sep) ps = joinText (c :: sep) qs) : ps = qs := by
  induction ps generalizing qs with
  | nil =>
    rcases qs with _ | ⟨q, _ | ⟨q', qs⟩⟩
    · rfl
    · exact absurd h.symm (hq q (by simp)).2
    · simp only [joinText] at h
      have := congrArg List.length h
      simp at this
  | cons p ps ih =>
    rcases ps with _ | ⟨p', ps⟩
    · rcases qs with _ | ⟨q, _ | ⟨q', qs⟩⟩
      · exact absurd h (hp p (by simp)).2
      · simpa [joinText] using h
      · simp only [joinText] at h
        exact absurd (by rw [h]; simp) (hp p (by simp)).1
    · rcases qs with _ | ⟨q, _ | ⟨q', qs⟩⟩
      · simp only [joinText] at h
        have := congrArg List.length h
        simp at this
      · simp only [joinText] at h
        exact absurd (by rw [← h]; simp) (hq q (by simp)).1
      · simp only [joinText, List.append_assoc, List.cons_append] at h
        obtain ⟨e, h⟩ := split_inj (hp p (by simp)).1 (hq q (by simp)).1 h
        have := ih (qs := q' :: qs) (fun x hx => hp x (List.mem_cons_of_mem _ hx)) (fun x hx => hq x (List.mem_cons_of_mem _ hx))
          (List.append_cancel_left h)
        rw [e, this]

theorem joinText_eq (sep : List Char) (ps : List (List Char)) : joinText sep ps = sep.intercalate ps := by
  induction ps with
  | nil => rfl
  | cons p ps ih =>
    rcases ps with _ | ⟨p', ps⟩
    · simp [joinText]
    · rw [joinText, ih]; simp [List.intercalate]

theorem map_inj_on {f : α → β} (hf : ∀ x y, f x = f y → x = y) {xs ys : List α} (h : xs.map f = ys.map f) : xs = ys :=
  List.map_inj_right (fun x y => hf x y) |>.1 h

theorem wrap_inj {a b x y : List Char} (h : a ++ x ++ b = a ++ y ++ b) : x = y :=
  List.append_cancel_left (List.append_cancel_right h)

end Expression.Lemmas
