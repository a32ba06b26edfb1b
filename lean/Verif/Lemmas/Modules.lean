import Verif.Spec.Modules

/-! # Lemmas about functions of modules that call a method -/

namespace Expression.Modules

open Curry Spec.Modules

variable {σ α : Type}

theorem lookup_of_mem {kw : List (String × α)} (hn : (kw.map (·.1)).Nodup) {p : String} {a : α} (h : (p, a) ∈ kw) :
    kw.lookup p = some a := by
  induction kw with
  | nil => cases h
  | cons k kw ih =>
    obtain ⟨q, b⟩ := k
    rw [List.map_cons, List.nodup_cons] at hn
    rcases List.mem_cons.mp h with e | h'
    · cases e; rw [List.lookup_cons_self]
    · have : p ≠ q := by
        rintro rfl
        exact hn.1 (List.mem_map.mpr ⟨_, h', rfl⟩)
      rw [List.lookup_cons, beq_eq_false_iff_ne.mpr this]
      exact ih hn.2 h'

theorem lookup_none {kw : List (String × α)} {p : String} (h : p ∉ kw.map (·.1)) : kw.lookup p = none := by
  induction kw with
  | nil => rfl
  | cons k kw ih =>
    obtain ⟨q, b⟩ := k
    rw [List.map_cons, List.mem_cons, not_or] at h
    rw [List.lookup_cons, beq_eq_false_iff_ne.mpr h.1]
    exact ih h.2

/-- A call that gives the parameters their values binds them. -/
theorem bindParams_of_gives (literal : String → α) (kw : List (String × α)) (hn : (kw.map (·.1)).Nodup) :
    ∀ (params : List (String × Option String)) (pos args : List α), args.length = params.length → pos <+: args →
      (∀ p ∈ params.take pos.length, p.1 ∉ kw.map (·.1)) →
      (∀ p ∈ (params.zip args).drop pos.length, (p.1.1, p.2) ∈ kw ∨ p.1.1 ∉ kw.map (·.1) ∧ p.1.2.map literal = some p.2) →
      bindParams literal kw params pos = .ok ((params.map (·.1)).zip args)
  | [], pos, args, hl, hp, _, _ => by
    cases args with
    | cons => simp at hl
    | nil => rw [List.prefix_nil.mp hp]; rfl
  | (p, d) :: params, a :: pos, args, hl, hp, hk, ho => by
    obtain ⟨t, rfl⟩ := hp
    have h1 : p ∉ kw.map (·.1) := hk (p, d) (by simp)
    rw [bindParams, if_neg h1, bindParams_of_gives literal kw hn params pos (pos ++ t) (by simpa using hl) (List.prefix_append _ _)
      (fun q hq => hk q (by simp [hq])) (fun q hq => ho q (by simpa using hq))]
    rfl
  | (p, d) :: params, [], args, hl, hp, hk, ho => by
    cases args with
    | nil => simp at hl
    | cons a args =>
      have ih := bindParams_of_gives literal kw hn params [] args (by simpa using hl) (List.nil_prefix) (by simp)
        (fun q hq => ho q (by simp only [List.length_nil, List.drop_zero, List.zip_cons_cons] at hq ⊢; exact List.mem_cons_of_mem _ hq))
      have h0 := ho ((p, d), a) (by simp)
      rcases h0 with h0 | ⟨h0, h1⟩
      · have hl : kw.lookup p = some a := lookup_of_mem hn h0
        simp only [bindParams, hl, ih]
        rfl
      · cases d with
        | none => simp at h1
        | some text =>
          simp only [Option.map_some, Option.some.injEq] at h1
          have hl : kw.lookup p = none := lookup_none h0
          simp only [bindParams, hl, ih, h1]
          rfl

theorem lookup_zip {names : List String} {vals : List α} (hl : vals.length = names.length) (hn : names.Nodup) :
    names.mapM (fun x => (names.zip vals).lookup x) = some vals := by
  have key : ∀ (pre : List (String × α)) (ns : List String) (vs : List α), vs.length = ns.length → ns.Nodup →
      (∀ k ∈ pre, k.1 ∉ ns) → ns.mapM (fun x => (pre ++ ns.zip vs).lookup x) = some vs := by
    intro pre ns
    induction ns generalizing pre with
    | nil => intro vs hl _ _; cases vs with
      | nil => rfl
      | cons => simp at hl
    | cons n ns ih =>
      intro vs hl hn hp
      cases vs with
      | nil => simp at hl
      | cons v vs =>
        rw [List.nodup_cons] at hn
        have h1 : (pre ++ (n :: ns).zip (v :: vs)).lookup n = some v := by
          rw [List.lookup_append, lookup_none (kw := pre), List.zip_cons_cons, List.lookup_cons_self]; rfl
          intro hm
          obtain ⟨k, hk, e⟩ := List.mem_map.mp hm
          exact hp k hk (e ▸ List.mem_cons_self)
        have h2 := ih (pre ++ [(n, v)]) vs (by simpa using hl) hn.2 (by
          intro k hk
          rcases List.mem_append.mp hk with hk | hk
          · exact fun hm => hp k hk (List.mem_cons_of_mem _ hm)
          · rw [List.mem_singleton.mp hk]; exact hn.1)
        rw [List.append_assoc] at h2
        rw [List.mapM_cons, h1]
        simp only [List.zip_cons_cons] at h2 ⊢
        simp only [List.singleton_append] at h2
        simp [h2]
  simpa using key [] names vals hl hn (by simp)

/-- Calling a function with values for all its parameters, whichever way they are given. -/
theorem body_of_gives (h : Host σ α) (f : Fn) (call : Call α) (vals : List α) (hn : (f.params.map (·.1)).Nodup)
    (hg : Gives h.literal f.params call vals) :
    f.body h call = f.invoke h ((f.params.map (·.1)).zip vals) := by
  have hk : call.kw.all (fun k => k.1 ∈ f.params.map (·.1)) = true := by
    rw [List.all_eq_true]
    intro k hk
    have := hg.known k hk
    rw [decide_eq_true_eq]
    obtain ⟨p, hp, e⟩ := List.mem_map.mp this
    exact List.mem_map.mpr ⟨p, List.mem_of_mem_drop hp, e⟩
  have hb := bindParams_of_gives h.literal call.kw hg.once f.params call.args vals hg.all hg.positional (by
    intro p hp hm
    obtain ⟨k, hk, e⟩ := List.mem_map.mp hm
    have h2 := hg.known k hk
    rw [e] at h2
    rw [← List.take_append_drop call.args.length f.params, List.map_append, List.nodup_append] at hn
    exact hn.2.2 p.1 (List.mem_map.mpr ⟨p, hp, rfl⟩) p.1 h2 rfl) hg.others
  rw [Fn.body, if_pos hk, hb]

/-- Giving the first parameter by position in front of a call that gives the others. -/
theorem gives_cons {literal : String → α} {params : List (String × Option String)} {call : Call α} {args : List α}
    (hg : Gives literal params call args) (p : String × Option String) (x : α) :
    Gives literal (p :: params) ⟨x :: call.args, call.kw⟩ (x :: args) where
  all := by simp [hg.all]
  positional := by
    obtain ⟨t, e⟩ := hg.positional
    exact ⟨t, by rw [← e]; rfl⟩
  once := hg.once
  known := by simpa using hg.known
  others := by simpa using hg.others

/-- The usual shape: the method of the first parameter, with the others as arguments. -/
theorem invoke_first (h : Host σ α) (f : Fn) (d : Option String) (rest : List (String × Option String))
    (hp : f.params = (f.recv, d) :: rest) (ha : f.args = rest.map (·.1)) (hn : (f.params.map (·.1)).Nodup) (x : α) (args : List α)
    (hl : args.length = rest.length) : f.invoke h ((f.params.map (·.1)).zip (x :: args)) = h.method x f.method args := by
  rw [hp, List.map_cons] at hn
  have hall := lookup_zip (names := f.recv :: rest.map (·.1)) (vals := x :: args) (by simp [hl]) hn
  rw [List.mapM_cons, List.zip_cons_cons, List.lookup_cons_self] at hall
  have h2 : (rest.map (·.1)).mapM (fun y => ((f.recv, x) :: (rest.map (·.1)).zip args).lookup y) = some args := by
    generalize (rest.map (·.1)).mapM (fun y => ((f.recv, x) :: (rest.map (·.1)).zip args).lookup y) = o at hall
    cases o with
    | none => simp at hall
    | some vs => simpa using hall
  rw [Fn.invoke, hp, ha]
  simp only [List.map_cons, List.zip_cons_cons, List.lookup_cons_self, h2]

/-- All arguments by position. -/
theorem gives_positional (literal : String → α) (params : List (String × Option String)) (args : List α) (hl : args.length = params.length) :
    Gives literal params ⟨args, []⟩ args :=
  ⟨hl, List.prefix_refl _, by simp, by simp, by
    rw [List.drop_eq_nil_of_le (by simp [hl])]; simp⟩

end Expression.Modules
