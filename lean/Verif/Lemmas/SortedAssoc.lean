import Verif.Spec.Dict
import Mathlib.Tactic.Tauto

/-! Lemmas on lawful key orders and sorted association lists. -/

namespace Expression

variable {K V R : Type} [PyOrd K]

section order
variable [LawfulPyOrd K]
open PyOrd LawfulPyOrd

theorem key_lt_asymm {a b : K} (h : lt a b = true) : lt b a = false := by
  cases h2 : lt b a with
  | false => rfl
  | true => have := trans a b a h h2; rw [irrefl] at this; exact absurd this (by decide)

theorem key_eq_refl (a : K) : eq a a = true := (eq_iff a a).2 ⟨irrefl a, irrefl a⟩

theorem key_eq_symm {a b : K} (h : eq a b = true) : eq b a = true :=
  (eq_iff b a).2 ((eq_iff a b).1 h).symm

theorem key_eq_comm (a b : K) : eq a b = eq b a := by
  cases h : eq a b with
  | true => exact (key_eq_symm h).symm
  | false =>
    cases h2 : eq b a with
    | false => rfl
    | true => rw [key_eq_symm h2] at h; cases h

theorem key_lt_not_eq {a b : K} (h : lt a b = true) : eq a b = false := by
  cases h2 : eq a b with
  | false => rfl
  | true => rw [((eq_iff a b).1 h2).1] at h; cases h

theorem key_gt_not_eq {a b : K} (h : lt b a = true) : eq a b = false := by
  rw [key_eq_comm]; exact key_lt_not_eq h

/-- neither less nor equal: greater -/
theorem key_gt_of {a b : K} (h1 : lt a b = false) (h2 : eq a b = false) : lt b a = true := by
  cases h3 : lt b a with
  | true => rfl
  | false => rw [(eq_iff a b).2 ⟨h1, h3⟩] at h2; cases h2

theorem key_lt_of_lt_of_eq {a b c : K} (h : lt a b = true) (he : eq b c = true) : lt a c = true := by
  cases h1 : lt a c with
  | true => rfl
  | false =>
    exfalso
    cases h2 : eq a c with
    | true =>
      have := eq_trans a c b h2 (key_eq_symm he)
      rw [key_lt_not_eq h] at this; cases this
    | false =>
      have h3 := key_gt_of h1 h2
      have h4 := trans c a b h3 h
      rw [((eq_iff b c).1 he).2] at h4; cases h4

theorem key_lt_of_eq_of_lt {a b c : K} (he : eq a b = true) (h : lt b c = true) : lt a c = true := by
  cases h1 : lt a c with
  | true => rfl
  | false =>
    exfalso
    cases h2 : eq a c with
    | true =>
      have := eq_trans b a c (key_eq_symm he) h2
      rw [key_lt_not_eq h] at this; cases this
    | false =>
      have h3 := key_gt_of h1 h2
      have h4 := trans b c a h h3
      rw [((eq_iff a b).1 he).2] at h4; cases h4

end order

/-- Insert into a sorted association list. -/
def insertKV (k : K) (v : V) : List (K × V) → List (K × V)
  | [] => [(k, v)]
  | p :: ps =>
    if PyOrd.lt k p.1 then (k, v) :: p :: ps
    else if PyOrd.eq k p.1 then (k, v) :: ps
    else p :: insertKV k v ps

/-- Remove from an association list. -/
def eraseKV (k : K) : List (K × V) → List (K × V)
  | [] => []
  | p :: ps => if PyOrd.eq k p.1 then ps else p :: eraseKV k ps

/-- Look up in an association list: the whole binding. -/
def lookupKV (k : K) (xs : List (K × V)) : Option (K × V) := xs.find? (fun p => PyOrd.eq k p.1)

open Spec PyOrd

/-- all keys of `xs` are less than `k` -/
def AllLt (xs : List (K × V)) (k : K) : Prop := ∀ p ∈ xs, lt p.1 k = true
/-- all keys of `xs` are greater than `k` -/
def AllGt (xs : List (K × V)) (k : K) : Prop := ∀ p ∈ xs, lt k p.1 = true

theorem ascending_append_cons {xs ys : List (K × V)} {p : K × V} :
    Ascending (xs ++ p :: ys) ↔
      Ascending xs ∧ Ascending ys ∧ AllLt xs p.1 ∧ AllGt ys p.1 ∧ ∀ a ∈ xs, ∀ b ∈ ys, lt a.1 b.1 = true := by
  simp only [Ascending, List.pairwise_append, List.pairwise_cons, List.mem_cons, AllLt, AllGt]
  constructor
  · rintro ⟨h1, ⟨h2, h3⟩, h4⟩
    exact ⟨h1, h3, fun q hq => h4 q hq p (Or.inl rfl), h2, fun a ha b hb => h4 a ha b (Or.inr hb)⟩
  · rintro ⟨h1, h2, h3, h4, h5⟩
    refine ⟨h1, ⟨h4, h2⟩, fun a ha b hb => ?_⟩
    rcases hb with rfl | hb
    · exact h3 a ha
    · exact h5 a ha b hb

variable [LawfulPyOrd K]

theorem ascending_glue {xs ys : List (K × V)} {p : K × V}
    (h1 : Ascending xs) (h2 : Ascending ys) (h3 : AllLt xs p.1) (h4 : AllGt ys p.1) :
    Ascending (xs ++ p :: ys) :=
  ascending_append_cons.2 ⟨h1, h2, h3, h4, fun a ha b hb => LawfulPyOrd.trans _ _ _ (h3 a ha) (h4 b hb)⟩

/-! ### insertKV -/

omit [LawfulPyOrd K] in
theorem insertKV_lt {k : K} {v : V} {p : K × V} (xs ys : List (K × V)) (h : lt k p.1 = true) :
    insertKV k v (xs ++ p :: ys) = insertKV k v xs ++ p :: ys := by
  induction xs with
  | nil => simp [insertKV, h]
  | cons q qs ih =>
    simp only [List.cons_append, insertKV]
    split
    · rfl
    · split
      · rfl
      · rw [ih]; rfl

theorem insertKV_gt {k : K} {v : V} (xs ys : List (K × V)) (h : AllLt xs k) :
    insertKV k v (xs ++ ys) = xs ++ insertKV k v ys := by
  induction xs with
  | nil => rfl
  | cons q qs ih =>
    have hq := h q (List.mem_cons_self ..)
    simp only [List.cons_append, insertKV]
    rw [key_lt_asymm hq, key_gt_not_eq hq]
    simp [ih (fun p hp => h p (List.mem_cons_of_mem _ hp))]

omit [LawfulPyOrd K] in
theorem AllLt.weaken [LawfulPyOrd K] {xs : List (K × V)} {a b : K} (h : AllLt xs a) (hab : lt a b = true) :
    AllLt xs b := fun p hp => LawfulPyOrd.trans _ _ _ (h p hp) hab

theorem AllLt.weaken_eq {xs : List (K × V)} {a b : K} (h : AllLt xs a) (hab : eq a b = true) :
    AllLt xs b := fun p hp => key_lt_of_lt_of_eq (h p hp) hab

theorem AllGt.weaken {xs : List (K × V)} {a b : K} (h : AllGt xs a) (hab : lt b a = true) :
    AllGt xs b := fun p hp => LawfulPyOrd.trans _ _ _ hab (h p hp)

theorem AllGt.weaken_eq {xs : List (K × V)} {a b : K} (h : AllGt xs a) (hab : eq b a = true) :
    AllGt xs b := fun p hp => key_lt_of_eq_of_lt hab (h p hp)

omit [LawfulPyOrd K] in
theorem mem_insertKV {k : K} {v : V} {xs : List (K × V)} {p : K × V} (h : p ∈ insertKV k v xs) :
    p = (k, v) ∨ p ∈ xs := by
  induction xs with
  | nil => simp [insertKV] at h; exact Or.inl h
  | cons q qs ih =>
    simp only [insertKV] at h
    split at h
    · simp at h; simp; tauto
    · split at h
      · simp at h; simp; tauto
      · simp only [List.mem_cons] at h ⊢
        rcases h with h | h
        · tauto
        · rcases ih h with h | h <;> tauto

theorem ascending_insertKV (k : K) (v : V) {xs : List (K × V)} (h : Ascending xs) : Ascending (insertKV k v xs) := by
  induction xs with
  | nil => simp [insertKV, Ascending]
  | cons q qs ih =>
    have hq : AllGt qs q.1 := (List.pairwise_cons.1 h).1
    have hqs : Ascending qs := (List.pairwise_cons.1 h).2
    simp only [insertKV]
    split
    · rename_i hlt
      refine List.pairwise_cons.2 ⟨?_, h⟩
      intro p hp
      rcases List.mem_cons.1 hp with rfl | hp
      · exact hlt
      · exact (hq.weaken hlt) p hp
    · rename_i hlt
      split
      · rename_i heq
        refine List.pairwise_cons.2 ⟨hq.weaken_eq heq, hqs⟩
      · rename_i heq
        refine List.pairwise_cons.2 ⟨?_, ih hqs⟩
        intro p hp
        rcases mem_insertKV hp with rfl | hp
        · exact key_gt_of (by simpa using hlt) (by simpa using heq)
        · exact hq p hp

theorem lookupKV_insertKV (k : K) (v : V) {xs : List (K × V)} (h : Ascending xs) (k' : K) :
    lookupKV k' (insertKV k v xs) = if eq k' k then some (k, v) else lookupKV k' xs := by
  induction xs with
  | nil => simp only [insertKV, lookupKV, List.find?]; split <;> simp_all
  | cons q qs ih =>
    have hq : AllGt qs q.1 := (List.pairwise_cons.1 h).1
    have hqs : Ascending qs := (List.pairwise_cons.1 h).2
    simp only [insertKV]
    split
    · simp only [lookupKV, List.find?]
      cases eq k' k <;> simp
    · rename_i hlt
      split
      · rename_i heq
        simp only [lookupKV, List.find?]
        cases h1 : eq k' k with
        | true => simp
        | false =>
          have : eq k' q.1 = false := by
            cases h2 : eq k' q.1 with
            | false => rfl
            | true => rw [LawfulPyOrd.eq_trans _ _ _ h2 (key_eq_symm heq)] at h1; cases h1
          simp [this]
      · rename_i heq
        have hgt := key_gt_of (a := k) (b := q.1) (by simpa using hlt) (by simpa using heq)
        have ih := ih hqs
        simp only [lookupKV, List.find?] at ih ⊢
        cases h1 : eq k' q.1 with
        | true =>
          have : eq k' k = false := key_lt_not_eq (key_lt_of_eq_of_lt h1 hgt)
          simp [this]
        | false => simpa using ih

/-! ### lookups -/

theorem lookupKV_none_of_allGt {k : K} {xs : List (K × V)} (h : AllGt xs k) : lookupKV k xs = none := by
  simp only [lookupKV, List.find?_eq_none]
  intro p hp
  simp [key_lt_not_eq (h p hp)]

theorem lookupKV_none_of_allLt {k : K} {xs : List (K × V)} (h : AllLt xs k) : lookupKV k xs = none := by
  simp only [lookupKV, List.find?_eq_none]
  intro p hp
  simp [key_gt_not_eq (h p hp)]

omit [LawfulPyOrd K] in
theorem lookupKV_append (k : K) (xs ys : List (K × V)) :
    lookupKV k (xs ++ ys) = (lookupKV k xs).or (lookupKV k ys) := by
  simp [lookupKV, List.find?_append]

omit [LawfulPyOrd K] in
theorem lookupKV_cons (k : K) (p : K × V) (ys : List (K × V)) :
    lookupKV k (p :: ys) = if eq k p.1 then some p else lookupKV k ys := by
  simp only [lookupKV, List.find?]
  cases eq k p.1 <;> simp

theorem lookupKV_node_lt {k : K} {p : K × V} {xs ys : List (K × V)} (hg : AllGt ys p.1)
    (h : lt k p.1 = true) : lookupKV k (xs ++ p :: ys) = lookupKV k xs := by
  rw [lookupKV_append, lookupKV_cons, key_lt_not_eq h, lookupKV_none_of_allGt (hg.weaken h)]
  simp

theorem lookupKV_node_eq {k : K} {p : K × V} {xs ys : List (K × V)} (hl : AllLt xs p.1)
    (h : eq k p.1 = true) : lookupKV k (xs ++ p :: ys) = some p := by
  rw [lookupKV_append, lookupKV_cons, h, lookupKV_none_of_allLt (hl.weaken_eq (key_eq_symm h))]
  simp

theorem lookupKV_node_gt {k : K} {p : K × V} {xs ys : List (K × V)} (hl : AllLt xs p.1)
    (h : lt p.1 k = true) : lookupKV k (xs ++ p :: ys) = lookupKV k ys := by
  rw [lookupKV_append, lookupKV_cons, key_gt_not_eq h, lookupKV_none_of_allLt (hl.weaken h)]
  simp

omit [LawfulPyOrd K] in
theorem lookupKV_mem {k : K} {p : K × V} {xs : List (K × V)} (h : lookupKV k xs = some p) :
    p ∈ xs ∧ eq k p.1 = true := by
  refine ⟨List.mem_of_find?_eq_some h, ?_⟩
  have := List.find?_some h
  simpa using this

theorem lookupKV_of_mem {k : K} {p : K × V} {xs : List (K × V)} (hs : Ascending xs) (hp : p ∈ xs)
    (h : eq k p.1 = true) : lookupKV k xs = some p := by
  induction xs with
  | nil => cases hp
  | cons q qs ih =>
    have hq : AllGt qs q.1 := (List.pairwise_cons.1 hs).1
    rw [lookupKV_cons]
    rcases List.mem_cons.1 hp with rfl | hp
    · simp [h]
    · have : eq k q.1 = false := key_gt_not_eq (key_lt_of_lt_of_eq (hq p hp) (key_eq_symm h))
      simp [this, ih (List.pairwise_cons.1 hs).2 hp]

/-! ### eraseKV -/

theorem eraseKV_lt {k : K} {p : K × V} (xs ys : List (K × V)) (hg : AllGt ys p.1) (h : lt k p.1 = true) :
    eraseKV k (xs ++ p :: ys) = eraseKV k xs ++ p :: ys := by
  have hn : ∀ zs : List (K × V), AllGt zs k → eraseKV k zs = zs := by
    intro zs
    induction zs with
    | nil => intro _; rfl
    | cons z zs ih =>
      intro hz
      simp only [eraseKV]
      rw [key_lt_not_eq (hz z (List.mem_cons_self ..)), ih (fun p hp => hz p (List.mem_cons_of_mem _ hp))]
      simp
  induction xs with
  | nil =>
    simp only [List.nil_append, eraseKV, key_lt_not_eq h]
    rw [hn ys (hg.weaken h)]; simp
  | cons q qs ih =>
    simp only [List.cons_append, eraseKV]
    split
    · rfl
    · rw [ih]; rfl

theorem eraseKV_gt {k : K} (xs ys : List (K × V)) (h : AllLt xs k) :
    eraseKV k (xs ++ ys) = xs ++ eraseKV k ys := by
  induction xs with
  | nil => rfl
  | cons q qs ih =>
    have hq := h q (List.mem_cons_self ..)
    simp only [List.cons_append, eraseKV]
    rw [key_gt_not_eq hq]
    simp [ih (fun p hp => h p (List.mem_cons_of_mem _ hp))]

omit [LawfulPyOrd K] in
theorem eraseKV_sublist (k : K) (xs : List (K × V)) : (eraseKV k xs).Sublist xs := by
  induction xs with
  | nil => exact List.Sublist.refl _
  | cons q qs ih =>
    simp only [eraseKV]
    split
    · exact List.sublist_cons_self q qs
    · exact ih.cons_cons q

omit [LawfulPyOrd K] in
theorem ascending_eraseKV (k : K) {xs : List (K × V)} (h : Ascending xs) : Ascending (eraseKV k xs) :=
  List.Pairwise.sublist (eraseKV_sublist k xs) h

omit [LawfulPyOrd K] in
theorem eraseKV_of_lookup_none {k : K} {xs : List (K × V)} (h : lookupKV k xs = none) : eraseKV k xs = xs := by
  induction xs with
  | nil => rfl
  | cons q qs ih =>
    rw [lookupKV_cons] at h
    split at h
    · cases h
    · rename_i hq
      simp [eraseKV, hq, ih h]

theorem lookupKV_eraseKV (k : K) {xs : List (K × V)} (h : Ascending xs) (k' : K) :
    lookupKV k' (eraseKV k xs) = if eq k' k then none else lookupKV k' xs := by
  induction xs with
  | nil => simp [eraseKV, lookupKV]
  | cons q qs ih =>
    have hq : AllGt qs q.1 := (List.pairwise_cons.1 h).1
    have hqs : Ascending qs := (List.pairwise_cons.1 h).2
    simp only [eraseKV]
    split
    · rename_i heq
      rw [lookupKV_cons]
      cases h1 : eq k' k with
      | true =>
        have : eq k' q.1 = true := LawfulPyOrd.eq_trans _ _ _ h1 heq
        simp [lookupKV_none_of_allGt (hq.weaken_eq this)]
      | false =>
        have : eq k' q.1 = false := by
          cases h2 : eq k' q.1 with
          | false => rfl
          | true => rw [LawfulPyOrd.eq_trans _ _ _ h2 (key_eq_symm heq)] at h1; cases h1
        simp [this]
    · rename_i heq
      rw [lookupKV_cons, lookupKV_cons, ih hqs]
      cases h1 : eq k' q.1 with
      | true =>
        have : eq k' k = false := by
          cases h2 : eq k' k with
          | false => rfl
          | true =>
            rw [LawfulPyOrd.eq_trans _ _ _ (key_eq_symm h2) h1] at heq
            exact absurd rfl heq
        simp [this]
      | false => simp

/-! ### filter and map -/

theorem lookupKV_filter (p : K × V → Bool) {xs : List (K × V)} (h : Ascending xs) (k : K) :
    lookupKV k (xs.filter p) = (lookupKV k xs).filter p := by
  induction xs with
  | nil => simp [lookupKV]
  | cons q qs ih =>
    have hq : AllGt qs q.1 := (List.pairwise_cons.1 h).1
    have hqs : Ascending qs := (List.pairwise_cons.1 h).2
    rw [List.filter_cons, lookupKV_cons]
    cases hp : p q with
    | true =>
      simp only [if_true]
      rw [lookupKV_cons, ih hqs]
      cases eq k q.1 <;> simp [hp, Option.filter]
    | false =>
      simp only [Bool.false_eq_true, if_false]
      rw [ih hqs]
      cases h1 : eq k q.1 with
      | false => simp
      | true => simp [hp, Option.filter, lookupKV_none_of_allGt (hq.weaken_eq h1)]

omit [LawfulPyOrd K] in
theorem lookupKV_map (f : K → V → R) (xs : List (K × V)) (k : K) :
    lookupKV k (xs.map (fun kv => (kv.1, f kv.1 kv.2))) = (lookupKV k xs).map (fun kv => (kv.1, f kv.1 kv.2)) := by
  induction xs with
  | nil => simp [lookupKV]
  | cons q qs ih =>
    rw [List.map_cons, lookupKV_cons, lookupKV_cons, ih]
    cases eq k q.1 <;> simp

omit [LawfulPyOrd K] in
theorem ascending_map (f : K → V → R) {xs : List (K × V)} (h : Ascending xs) :
    Ascending (xs.map (fun kv => (kv.1, f kv.1 kv.2))) := by
  simpa [Ascending, List.pairwise_map] using h

omit [LawfulPyOrd K] in
theorem ascending_filter (p : K × V → Bool) {xs : List (K × V)} (h : Ascending xs) : Ascending (xs.filter p) :=
  List.Pairwise.sublist List.filter_sublist h

end Expression
