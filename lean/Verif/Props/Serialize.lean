import Verif.Lemmas.Serialize

/-!
# C79-C82: `dict()` and pydantic validation
-/

namespace Expression.Props

open Serialize Spec Lemmas

/-! ## C79 dumps are plain data -/

/-- The full property: `dict()` gives plain data for every value whose parts can be dumped. -/
def C79_full_statement : Prop := ∀ v : Val, Dumpable v → Plain (toObj v)

/-- It is false: `dict` does not look into plain lists (nor into dictionaries and tuples). -/
theorem C79_full_statement_false : ¬ C79_full_statement := fun h =>
  (h (.some (.list [.some (.int 1)])) (.some (.list (fun x hx => by
    rw [List.mem_singleton] at hx
    subst hx
    exact .some (.built (.plain trivial)))))).1

/-- Proved: for every nesting of `Some`, `Nothing`, `Ok`, `Error` and blocks over plain data and over objects that dump to plain
data, to any depth, `dict()` is plain data all the way down. -/
theorem C79_dict_plain_partial {v : Val} (h : DumpBuilt v) : Plain (toObj v) := by
  induction h with
  | plain h => rw [toObj_plain h]; exact h
  | model h => exact h
  | some _ ih => exact ih
  | nothing => trivial
  | ok _ ih => exact ⟨trivial, ih, trivial⟩
  | error _ ih => exact ⟨trivial, ih, trivial⟩
  | block _ ih => exact plainAll_toObjs ih

/-- What the dumps look like. -/
theorem C79_dict_shape_partial (v : Val) (xs : List Val) :
    toObj (.some v) = toObj v ∧ toObj .nothing = .none ∧
    toObj (.ok v) = .obj [("tag", .str "ok"), ("ok", toObj v)] ∧
    toObj (.error v) = .obj [("tag", .str "error"), ("error", toObj v)] ∧
    toObj (.block xs) = .list (xs.map toObj) := by
  refine ⟨rfl, rfl, rfl, rfl, ?_⟩
  rw [toObj]
  congr 1
  induction xs with
  | nil => rfl
  | cons x xs ih => rw [toObjs, ih, List.map_cons]

/-- a nested value meeting the hypothesis -/
example : DumpBuilt (.block [.ok (.some (.int 1)), .error (.model 0 (.obj [("message", .str "no")])), .nothing]) :=
  .block (fun x hx => by
    simp only [List.mem_cons, List.not_mem_nil, or_false] at hx
    rcases hx with rfl | rfl | rfl
    · exact .ok (.some (.plain trivial))
    · exact .error (.model ⟨trivial, trivial⟩)
    · exact .nothing)

/-! ## C80 round trip through Python data -/

/-- The full property: validating what `dict()` returned gives the value back. -/
def C80_full_statement : Prop :=
  ∀ (t : Ty) (v : Val), EveryLeaf RoundTrips t → Member t v → validate t (toObj v) = .ok v

theorem intLeaf_roundTrips : RoundTrips intLeaf := by
  rintro _ ⟨n, rfl⟩
  exact ⟨rfl, id⟩

/-- It is false: `Some(Nothing)` and `Nothing` are dumped alike. -/
theorem C80_full_statement_false : ¬ C80_full_statement := by
  intro h
  have := h (.option (.option (.leaf intLeaf))) (.some .nothing) intLeaf_roundTrips (.inr ⟨_, rfl, .inl rfl⟩)
  cases this

/-- Proved: it does for every annotation without `Option[Option[...]]`. -/
theorem C80_round_trip_partial (t : Ty) (v : Val) (hl : EveryLeaf RoundTrips t) (hn : NoNestedOption t) (hv : Member t v) :
    validate t (toObj v) = .ok v := by
  induction t generalizing v with
  | leaf l => exact (hl v hv).1
  | option t ih =>
    rcases hv with rfl | ⟨u, rfl, hu⟩
    · rfl
    · have hu' : ¬ OptionLike (toObj u) ∧ validate t (toObj u) = .ok u := by
        cases t with
        | leaf l => exact ⟨(hl u hu).2, ih u hl trivial hu⟩
        | option _ => exact absurd hn id
        | result a b =>
          refine ⟨?_, ih u hl hn hu⟩
          rcases hu with ⟨x, rfl, _⟩ | ⟨x, rfl, _⟩ <;> exact id
        | block t =>
          refine ⟨?_, ih u hl hn hu⟩
          obtain ⟨xs, rfl, _⟩ := hu
          exact id
      have e : toObj (.some u) = toObj u := by rw [toObj]
      rw [e]
      obtain ⟨h1, h2⟩ := hu'
      revert h1 h2
      generalize toObj u = d
      intro h1 h2
      rw [validate_option t d h1, h2]
      rfl
  | result a b iha ihb =>
    rcases hv with ⟨u, rfl, hu⟩ | ⟨u, rfl, hu⟩
    · have h := iha u hl.1 hn.1 hu
      rw [toObj]
      rw [validate_result _ _ _ id, validateCase_tagged _ _ _ _ _ (by decide), validateCase_tagged _ _ _ _ _ (by decide),
        if_neg (by decide), if_pos rfl, h]
      rfl
    · have h := ihb u hl.2 hn.2 hu
      rw [toObj]
      rw [validate_result _ _ _ id, validateCase_tagged _ _ _ _ _ (by decide), if_pos rfl, h]
      rfl
  | block t ih =>
    obtain ⟨xs, rfl, hx⟩ := hv
    rw [toObj, validate, validateAll_toObjs (fun x h => ih x hl hn (hx x h))]
    rfl

/-- `Block[Result[Option[int], int]]` and a value of it -/
example : validate (.block (.result (.option (.leaf intLeaf)) (.leaf intLeaf)))
    (toObj (.block [.ok (.some (.int 1)), .ok .nothing, .error (.int 2)])) =
    .ok (.block [.ok (.some (.int 1)), .ok .nothing, .error (.int 2)]) := rfl

/-- So values of such a type with the same dump are equal. -/
theorem C80_dict_injective_partial (t : Ty) (v w : Val) (hl : EveryLeaf RoundTrips t) (hn : NoNestedOption t)
    (hv : Member t v) (hw : Member t w) (h : toObj v = toObj w) : v = w := by
  have h1 := C80_round_trip_partial t v hl hn hv
  rw [h, C80_round_trip_partial t w hl hn hw] at h1
  cases h1
  rfl

/-- the dump of an empty option is `None`, that of all other values is neither `None` nor an `Option` -/
private theorem dump_empty (t : Ty) (v : Val) (hl : EveryLeaf (fun l => ∀ v, l.member v → ¬ OptionLike (toObj v)) t) (hv : Member t v) :
    (EmptyOption t v = true → toObj v = .none) ∧ (EmptyOption t v = false → ¬ OptionLike (toObj v)) := by
  induction t generalizing v with
  | leaf l => exact ⟨fun h => by simp [EmptyOption] at h, fun _ => hl v hv⟩
  | option t ih =>
    rcases hv with rfl | ⟨u, rfl, hu⟩
    · exact ⟨fun _ => by rw [toObj], fun h => by simp [EmptyOption] at h⟩
    · rw [EmptyOption, toObj]
      exact ih u hl hu
  | result a b =>
    refine ⟨fun h => by simp [EmptyOption] at h, fun _ => ?_⟩
    rcases hv with ⟨x, rfl, _⟩ | ⟨x, rfl, _⟩ <;> exact id
  | block t =>
    refine ⟨fun h => by simp [EmptyOption] at h, fun _ => ?_⟩
    obtain ⟨xs, rfl, _⟩ := hv
    exact id

private theorem everyLeaf_imp {P Q : Leaf → Prop} (h : ∀ l, P l → Q l) (t : Ty) (ht : EveryLeaf P t) : EveryLeaf Q t := by
  induction t with
  | leaf l => exact h l ht
  | option t ih => exact ih ht
  | result a b iha ihb => exact ⟨iha ht.1, ihb ht.2⟩
  | block t ih => exact ih ht

private theorem validateAll_map {f : Val → Except PyErr Val} {g : Val → Val} {xs : List Val} (h : ∀ x ∈ xs, f (toObj x) = .ok (g x)) :
    validateAll f (toObjs xs) = .ok (xs.map g) := by
  induction xs with
  | nil => rfl
  | cons x xs ih =>
    rw [toObjs, validateAll, h x (by simp), ih (fun y hy => h y (by simp [hy]))]
    rfl

/-- Exactly what comes back, for every annotation: the value with every `Some(Nothing)` in it replaced by `Nothing`. -/
theorem C80_exactly_partial (t : Ty) (v : Val) (hl : EveryLeaf RoundTrips t) (hv : Member t v) :
    validate t (toObj v) = .ok (flattened t v) := by
  induction t generalizing v with
  | leaf l => rw [flattened] <;> first | exact (hl v hv).1 | simp
  | option t ih =>
    rcases hv with rfl | ⟨u, rfl, hu⟩
    · rw [flattened] <;> first | rfl | simp
    · obtain ⟨h1, h2⟩ := dump_empty t u (everyLeaf_imp (fun l h v hv => (h v hv).2) t hl) hu
      rw [flattened, toObj]
      by_cases he : EmptyOption t u = true
      · rw [if_pos he, h1 he]; rfl
      · rw [if_neg he, validate_option t _ (h2 (by simpa using he)), ih u hl hu]; rfl
  | result a b iha ihb =>
    rcases hv with ⟨u, rfl, hu⟩ | ⟨u, rfl, hu⟩
    · rw [toObj, flattened, validate_result _ _ _ id, validateCase_tagged _ _ _ _ _ (by decide), validateCase_tagged _ _ _ _ _ (by decide),
        if_neg (by decide), if_pos rfl, iha u hl.1 hu]
      rfl
    · rw [toObj, flattened, validate_result _ _ _ id, validateCase_tagged _ _ _ _ _ (by decide), if_pos rfl, ihb u hl.2 hu]
      rfl
  | block t ih =>
    obtain ⟨xs, rfl, hx⟩ := hv
    rw [toObj, validate, flattened, validateAll_map (fun x h => ih x hl (hx x h))]
    rfl

/-- So a value comes back exactly when there is no `Some(Nothing)` in it. -/
theorem C80_exactly_when_partial (t : Ty) (v : Val) (hl : EveryLeaf RoundTrips t) (hv : Member t v) :
    validate t (toObj v) = .ok v ↔ NoSomeNothing t v := by
  rw [C80_exactly_partial t v hl hv]
  have key : flattened t v = v ↔ NoSomeNothing t v := by
    clear hl
    induction t generalizing v with
    | leaf l => rw [flattened, NoSomeNothing] <;> simp
    | option t ih =>
      rcases hv with rfl | ⟨u, rfl, hu⟩
      · rw [flattened, NoSomeNothing] <;> simp
      · rw [flattened, NoSomeNothing]
        by_cases he : EmptyOption t u = true
        · simp [he]
        · simp [he, ih u hu]
    | result a b iha ihb =>
      rcases hv with ⟨u, rfl, hu⟩ | ⟨u, rfl, hu⟩
      · rw [flattened, NoSomeNothing, ← iha u hu]; simp
      · rw [flattened, NoSomeNothing, ← ihb u hu]; simp
    | block t ih =>
      obtain ⟨xs, rfl, hx⟩ := hv
      rw [flattened, NoSomeNothing, Val.block.injEq]
      constructor
      · intro h x hm
        refine (ih x (hx x hm)).1 ?_
        exact (List.map_inj_left.1 (h.trans (List.map_id xs).symm)) x hm
      · intro h
        exact (List.map_congr_left (g := id) fun x hm => (ih x (hx x hm)).2 (h x hm)).trans (List.map_id xs)
  rw [← key]
  simp

/-- `[Some(Some(1)), Some(Nothing)]` comes back as `[Some(Some(1)), Nothing]` -/
example : validate (.block (.option (.option (.leaf intLeaf)))) (toObj (.block [.some (.some (.int 1)), .some .nothing])) =
    .ok (.block [.some (.some (.int 1)), .nothing]) := rfl

/-! ## C81 round trip through JSON -/

/-- The full property: what was dumped to JSON can be loaded again. -/
def C81_full_statement : Prop :=
  ∀ (t : Ty) (v : Val), EveryLeaf RoundTripsJson t → NoNestedOption t → Member t v → validateJson t (toObj v) = .ok v

theorem intLeaf_roundTripsJson : RoundTripsJson intLeaf := by
  rintro _ ⟨n, rfl⟩
  exact ⟨rfl, id⟩

/-- It is false: no JSON whatever can be loaded as a `Result`. -/
theorem C81_result_never_loads (a b : Ty) (v r : Val) : validateJson (.result a b) v ≠ .ok r := by
  intro h
  rw [validateJson] at h
  simp only [bind, Except.bind] at h
  split at h <;> cases h

/-- A block in an option comes back as a list. -/
theorem C81_block_in_option_is_list (t : Ty) (xs : List Val) :
    validateJson (.option (.block t)) (toObj (.some (.block xs))) = .ok (.some (.list (xs.map toObj))) := by
  rw [toObj, (C79_dict_shape_partial .none xs).2.2.2.2]
  rfl

theorem C81_full_statement_false : ¬ C81_full_statement := fun h =>
  C81_result_never_loads _ _ _ _ (h (.result (.leaf intLeaf) (.leaf intLeaf)) (.ok (.int 1))
    ⟨intLeaf_roundTripsJson, intLeaf_roundTripsJson⟩ ⟨trivial, trivial⟩ (.inl ⟨_, rfl, _, rfl⟩))

/-- Proved: it can for other types, options of types that are dumped as they are (numbers, strings), and blocks of these. -/
theorem C81_round_trip_partial (t : Ty) (v : Val) (hl : EveryLeaf RoundTripsJson t) (hj : JsonLoadable t) (hv : Member t v) :
    validateJson t (toObj v) = .ok v := by
  induction t generalizing v with
  | leaf l => exact (hl v hv).1
  | option t ih =>
    cases t with
    | leaf l =>
      rcases hv with rfl | ⟨u, rfl, hu⟩
      · rfl
      · have h1 := (hl u hu).2
        have h2 := hj u hu
        rw [toObj]
        rw [h2] at h1 ⊢
        cases u <;> first | exact absurd trivial h1 | rfl
    | _ => exact absurd hj id
  | result a b => exact absurd hj id
  | block t ih =>
    obtain ⟨xs, rfl, hx⟩ := hv
    rw [toObj, validateJson, validateAll_toObjs (fun x h => ih x hl hj (hx x h))]
    rfl

example : validateJson (.block (.option (.leaf intLeaf))) (toObj (.block [.some (.int 1), .nothing])) =
    .ok (.block [.some (.int 1), .nothing]) := rfl

/-- Exactly what is loaded, for every annotation with no `Result` outside an `Option`: the value, with plain data in place of what every `Some` in it holds. -/
theorem C81_exactly_partial (t : Ty) (v : Val) (hl : EveryLeaf RoundTripsJson t) (hr : NoBareResult t) (hv : Member t v) :
    validateJson t (toObj v) = .ok (rawBelowOption t v) := by
  induction t generalizing v with
  | leaf l => rw [rawBelowOption] <;> first | exact (hl v hv).1 | simp
  | option t ih =>
    rcases hv with rfl | ⟨u, rfl, hu⟩
    · rw [rawBelowOption] <;> first | rfl | simp
    · obtain ⟨h1, h2⟩ := dump_empty t u (everyLeaf_imp (fun l h v hv => (h v hv).2) t hl) hu
      rw [rawBelowOption, toObj]
      by_cases he : EmptyOption t u = true
      · rw [if_pos he, h1 he]; rfl
      · rw [if_neg he]
        have h2 := h2 (by simpa using he)
        revert h2
        generalize toObj u = d
        intro h2
        cases d <;> first | rfl | exact absurd trivial h2
  | result a b => exact absurd hr id
  | block t ih =>
    obtain ⟨xs, rfl, hx⟩ := hv
    rw [toObj, validateJson, rawBelowOption, validateAll_map (fun x h => ih x hl hr (hx x h))]
    rfl

/-- `[Some(Ok(1)), Nothing]` is loaded as a block of a `Some` of a dictionary and `Nothing` -/
example : validateJson (.block (.option (.result (.leaf intLeaf) (.leaf intLeaf)))) (toObj (.block [.some (.ok (.int 1)), .nothing])) =
    .ok (.block [.some (.obj [("tag", .str "ok"), ("ok", .int 1)]), .nothing]) := rfl

/-! ## C82 what validation lets through -/

/-- The full property: a value that validation returns belongs to the annotation. -/
def C82_full_statement : Prop :=
  ∀ (t : Ty) (v u : Val), EveryLeaf Sound t → validate t v = .ok u → Member t u

theorem intLeaf_sound : Sound intLeaf := by
  intro v u h
  cases v with
  | int n => cases h; exact ⟨n, rfl⟩
  | _ => cases h

/-- It is false: an `Option` is let through whatever it holds. -/
theorem C82_full_statement_false : ¬ C82_full_statement := by
  intro h
  rcases h (.option (.leaf intLeaf)) (.some (.str "x")) (.some (.str "x")) intLeaf_sound rfl with h1 | ⟨u, h1, n, rfl⟩
  · cases h1
  · cases h1

/-- Proved: it does when the input is plain data. -/
theorem C82_sound_partial (t : Ty) (v u : Val) (hl : EveryLeaf Sound t) (hv : Plain v) (h : validate t v = .ok u) :
    Member t u := by
  induction t generalizing v u with
  | leaf l => exact hl v u h
  | option t ih =>
    by_cases hn : v = .none
    · subst hn; cases h; exact .inl rfl
    · rw [validate_option t v (by cases v <;> first | exact id | exact absurd rfl hn | exact absurd hv id)] at h
      cases hx : validate t v with
      | error _ => rw [hx] at h; cases h
      | ok x => rw [hx] at h; cases h; exact .inr ⟨x, rfl, ih v x hl hv hx⟩
  | result a b iha ihb =>
    rw [validate_result _ _ _ (by cases v <;> first | exact id | exact absurd hv id)] at h
    rcases orElse_ok h with h | h
    · cases hx : validateCase "error" (validate b) v with
      | error _ => rw [hx] at h; cases h
      | ok x =>
        rw [hx] at h; cases h
        obtain ⟨y, h1, h2⟩ := validateCase_ok hx
        exact .inr ⟨x, rfl, ihb y x hl.2 (getItem_plain hv h1) h2⟩
    · cases hx : validateCase "ok" (validate a) v with
      | error _ => rw [hx] at h; cases h
      | ok x =>
        rw [hx] at h; cases h
        obtain ⟨y, h1, h2⟩ := validateCase_ok hx
        exact .inl ⟨x, rfl, iha y x hl.1 (getItem_plain hv h1) h2⟩
  | block t ih =>
    cases v with
    | list xs =>
      rw [validate_block] at h
      cases hx : validateAll (validate t) xs with
      | error _ => rw [hx] at h; cases h
      | ok ys =>
        rw [hx] at h; cases h
        exact ⟨ys, rfl, validateAll_members (fun x hm u hu => ih x u hl (plainAll_mem hv x hm) hu) hx⟩
    | block xs => exact absurd hv id
    | _ => cases h

private theorem getItem_mem {k : String} {v x : Val} (e : getItem k v = .ok x) : ∃ fields f, v = .obj fields ∧ f ∈ fields ∧ f.1 = k ∧ f.2 = x := by
  cases v with
  | obj fs =>
    simp only [getItem] at e
    cases hf : fs.find? (fun f => f.1 == k) with
    | none => rw [hf] at e; cases e
    | some f =>
      rw [hf] at e; cases e
      exact ⟨fs, f, rfl, List.mem_of_find?_eq_some hf, by simpa using List.find?_some hf, rfl⟩
  | _ => cases e

/-- More generally: it does when the instances in the input hold values of the annotated types (plain data has none). -/
theorem C82_instances_partial (t : Ty) (v u : Val) (hl : EveryLeaf Sound t) (hv : InstancesFit t v) (h : validate t v = .ok u) :
    Member t u := by
  induction t generalizing v u with
  | leaf l => exact hl v u h
  | option t ih =>
    by_cases hn : OptionLike v
    · cases v with
      | some x => cases h; exact .inr ⟨x, rfl, hv.1 x rfl⟩
      | nothing => cases h; exact .inl rfl
      | none => cases h; exact .inl rfl
      | _ => exact absurd hn id
    · rw [validate_option t v hn] at h
      cases hx : validate t v with
      | error _ => rw [hx] at h; cases h
      | ok x => rw [hx] at h; cases h; exact .inr ⟨x, rfl, ih v x hl (hv.2 hn) hx⟩
  | result a b iha ihb =>
    by_cases hr : ResultLike v
    · cases v with
      | ok x => cases h; exact .inl ⟨x, rfl, hv.1 x rfl⟩
      | error x => cases h; exact .inr ⟨x, rfl, hv.2.1 x rfl⟩
      | _ => exact absurd hr id
    · rw [validate_result _ _ _ hr] at h
      rcases orElse_ok h with h | h
      · cases hx : validateCase "error" (validate b) v with
        | error _ => rw [hx] at h; cases h
        | ok x =>
          rw [hx] at h; cases h
          obtain ⟨y, h1, h2⟩ := validateCase_ok hx
          obtain ⟨fs, f, h3, h4, h5, rfl⟩ := getItem_mem h1
          exact .inr ⟨x, rfl, ihb f.2 x hl.2 ((hv.2.2 fs h3 f h4).1 h5) h2⟩
      · cases hx : validateCase "ok" (validate a) v with
        | error _ => rw [hx] at h; cases h
        | ok x =>
          rw [hx] at h; cases h
          obtain ⟨y, h1, h2⟩ := validateCase_ok hx
          obtain ⟨fs, f, h3, h4, h5, rfl⟩ := getItem_mem h1
          exact .inl ⟨x, rfl, iha f.2 x hl.1 ((hv.2.2 fs h3 f h4).2 h5) h2⟩
  | block t ih =>
    cases v with
    | list xs =>
      rw [validate_block] at h
      cases hx : validateAll (validate t) xs with
      | error _ => rw [hx] at h; cases h
      | ok ys =>
        rw [hx] at h; cases h
        exact ⟨ys, rfl, validateAll_members (fun x hm u hu => ih x u hl (hv.2 xs rfl x hm) hu) hx⟩
    | block xs => cases h; exact ⟨xs, rfl, hv.1 xs rfl⟩
    | _ => cases h

/-- a list with an instance among plain data -/
example : InstancesFit (.block (.option (.leaf intLeaf))) (.list [.some (.int 1), .int 2, .none]) := by
  refine ⟨fun xs h => (by cases h), fun xs h x hx => ?_⟩
  cases h
  simp only [List.mem_cons, List.not_mem_nil, or_false] at hx
  rcases hx with rfl | rfl | rfl
  · exact ⟨fun u h => (by cases h; exact ⟨1, rfl⟩), fun h => absurd trivial h⟩
  · exact ⟨fun u h => (by cases h), fun _ => trivial⟩
  · exact ⟨fun u h => (by cases h), fun h => absurd trivial h⟩

/-- From JSON nothing at all is checked below an `Option`: every datum but `null` is accepted for every `Option[t]` and wrapped as
it is. -/
theorem C82_json_option_unchecked (t : Ty) (v : Val) (h : v ≠ .none) : validateJson (.option t) v = .ok (.some v) := by
  cases v <;> first | exact absurd rfl h | rfl

example : validateJson (.option (.leaf intLeaf)) (.str "abc") = .ok (.some (.str "abc")) :=
  C82_json_option_unchecked _ _ (by simp)

example : validate (.result (.leaf intLeaf) (.leaf intLeaf)) (.obj [("ok", .int 3)]) = .ok (.ok (.int 3)) := rfl

end Expression.Props
