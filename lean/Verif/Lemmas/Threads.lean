import Verif.Model.Threads

/-! # Schedules -/

namespace Expression.Lemmas

open Threads

variable {S C A : Type} {step : S → C → Option S}

theorem run_append (s : S) (cs ds : List C) : run step s (cs ++ ds) = (run step s cs).bind fun s' => run step s' ds := by
  induction cs generalizing s with
  | nil => rfl
  | cons c cs ih =>
    simp only [List.cons_append, run]
    cases step s c with
    | none => rfl
    | some s' => exact ih s'

theorem run_inv (Inv : S → Prop) (hs : ∀ s c s', Inv s → step s c = some s' → Inv s') {s s' : S} (h0 : Inv s) (cs : List C)
    (h : run step s cs = some s') : Inv s' := by
  induction cs generalizing s with
  | nil => cases h; exact h0
  | cons c cs ih =>
    simp only [run] at h
    cases hc : step s c with
    | none => rw [hc] at h; cases h
    | some s1 => rw [hc] at h; exact ih (hs s c s1 h0 hc) h

/-- invariants relating the state and the schedule so far -/
theorem run_inv_sched (Inv : List C → S → Prop) (hs : ∀ p s c s', Inv p s → step s c = some s' → Inv (p ++ [c]) s') {s s' : S} (p : List C)
    (h0 : Inv p s) (cs : List C) (h : run step s cs = some s') : Inv (p ++ cs) s' := by
  induction cs generalizing s p with
  | nil => cases h; simpa using h0
  | cons c cs ih =>
    simp only [run] at h
    cases hc : step s c with
    | none => rw [hc] at h; cases h
    | some s1 =>
      rw [hc] at h
      have := ih (p ++ [c]) (hs p s c s1 h0 hc) h
      simpa using this

/-- invariants of schedules that take only allowed choices -/
theorem run_inv_on (P : C → Prop) (Inv : S → Prop) (hs : ∀ s c s', P c → Inv s → step s c = some s' → Inv s') {s s' : S} (h0 : Inv s) (cs : List C)
    (hP : ∀ c ∈ cs, P c) (h : run step s cs = some s') : Inv s' := by
  induction cs generalizing s with
  | nil => cases h; exact h0
  | cons c cs ih =>
    simp only [run] at h
    cases hc : step s c with
    | none => rw [hc] at h; cases h
    | some s1 =>
      rw [hc] at h
      exact ih (hs s c s1 (hP c (List.mem_cons_self ..)) h0 hc) (fun c hc => hP c (List.mem_cons_of_mem _ hc)) h

@[simp] theorem upd_same (f : Nat → A) (t : Nat) (a : A) : upd f t a t = a := by simp [upd]
theorem upd_other (f : Nat → A) {t t' : Nat} (a : A) (h : t' ≠ t) : upd f t a t' = f t' := by simp [upd, h]
theorem upd_apply (f : Nat → A) (t t' : Nat) (a : A) : upd f t a t' = if t' = t then a else f t' := rfl

end Expression.Lemmas
