import Verif.Lemmas.Match

/-! # C107 and C108: pattern matching -/

namespace Expression.Props

open TU Spec Lemmas Lemmas.Match

variable {σ A α : Type}

/-- objects for the examples: strings and integers are compared, everything else is different -/
instance thingValue : PyValue (Thing Unit) where
  eq a b := match a, b with
    | .str s, .str t => decide (s = t)
    | .int m, .int n => decide (m = n)
    | .none, .none => true
    | _, _ => false
  lt _ _ := .error (.typeError "'<' not supported")
  hash _ := 0
  isNone a := match a with
    | .none => true
    | _ => false
  eqStr a s := match a with
    | .str t => decide (t = s)
    | _ => false
  ofString := .str

theorem option_ordinary : OrdinaryUnion (optionDef : ClassDef (Thing A)) := ⟨rfl, by simp [optionDef], by simp [optionDef], by simp [optionDef]⟩
theorem result_ordinary : OrdinaryUnion (resultDef : ClassDef (Thing A)) := ⟨rfl, by simp [resultDef], by simp [resultDef], by simp [resultDef]⟩

section

variable [PyValue (Thing A)]

/-! ## C107 case patterns -/

/-- **C107 (one case).** For a value in the case `n` with payload `v`, of the union `d` or a plain subclass: the pattern `D(tag="m")` matches exactly
if `m` is `n`; the patterns `D(m=p)` and `D(tag="m", m=p)` match exactly if `m` is `n` and `p` matches `v`, and bind what `p` binds. -/
theorem C107_case (hs : StringsCompare A) {d : ClassDef (Thing A)} (hd : OrdinaryUnion d) {n : String} {v o : Thing A} (h : IsCase d n v o) :
    (∀ m, (Pat.klass (patternClass [d]) [] [("tag", .value (.str m))]).run o = .ok (if m = n then some [] else none)) ∧
    (∀ m ∈ d.ownFields, m ≠ "tag" → ∀ p, (Pat.klass (patternClass [d]) [] [(m, p)]).run o = if m = n then p.run v else .ok none) ∧
    (∀ m ∈ d.ownFields, m ≠ "tag" → ∀ p, (casePattern d m p).run o = if m = n then p.run v else .ok none) := by
  obtain ⟨_, _, hi, _⟩ := isCase_inst hd h
  have hi : o.isInstance (patternClass [d]).id = true := by rw [patternClass_one hd]; exact hi
  have ht : ∀ m, (Pat.value (.str m)).run (Thing.str n : Thing A) = .ok (if m = n then some [] else none) := by
    intro m
    rw [Pat.run, hs]
    by_cases e : m = n
    · subst e; simp
    · simp [e, Ne.symm e]
  refine ⟨fun m => ?_, fun m hm hmt p => ?_, fun m hm hmt p => ?_⟩
  · exact (run_cls_some _ hi (attributes_tag hd h)).trans ((runAll_one _ _).trans (ht m))
  · have ha := attributes_case hd h hm hmt
    by_cases e : m = n
    · rw [if_pos e] at ha
      rw [if_pos e]
      exact (run_cls_some _ hi ha).trans (runAll_one _ _)
    · rw [if_neg e] at ha
      rw [if_neg e]
      exact run_cls_none _ hi ha
  · have ha := attributes_both hd h hm hmt
    by_cases e : m = n
    · rw [if_pos e] at ha
      have h1 := ht m
      rw [if_pos e] at h1
      rw [if_pos e]
      refine (run_cls_some _ hi ha).trans ((runAll_some _ _ h1).trans ?_)
      rw [List.map, List.map, runAll_one]
      rcases p.run v with e | _ | b <;> rfl
    · rw [if_neg e] at ha
      rw [if_neg e]
      exact run_cls_none _ hi ha

/-- **C107 (constants).** `D(tag="m", m=k)` and `D(m=k)` with a constant `k` match exactly if `m` is `n` and the payload answers that it is equal to `k`:
it is the payload that is asked. -/
theorem C107_constant (hs : StringsCompare A) {d : ClassDef (Thing A)} (hd : OrdinaryUnion d) {n : String} {v o : Thing A} (h : IsCase d n v o)
    (m : String) (hm : m ∈ d.ownFields) (ht : m ≠ "tag") (k : Thing A) :
    (casePattern d m (.value k)).run o = .ok (if m = n ∧ PyValue.eq v k = true then some [] else none) ∧
    (Pat.klass (patternClass [d]) [] [(m, .value k)]).run o = .ok (if m = n ∧ PyValue.eq v k = true then some [] else none) := by
  have hv : (Pat.value k).run v = .ok (if PyValue.eq v k = true then some [] else none) := by rw [Pat.run]
  obtain ⟨-, h2, h3⟩ := C107_case hs hd h
  rw [h2 m hm ht, h3 m hm ht, hv]
  by_cases e : m = n <;> simp [e]

/-- **C107 (other classes).** No class pattern of a union matches an object that is not an instance of it. -/
theorem C107_other_class (c : PyClass) (pos : List (Pat A)) (kw : List (String × Pat A)) (o : Thing A) (h : o.isInstance c.id = false) :
    (Pat.klass c pos kw).run o = .ok none := run_cls_other _ _ _ _ _ h

/-- **C107 (statements).** A `match` statement with a branch `case D(tag="m", m=x): ...` for each of some cases, in any order: the branch of
the value's own case is taken, with the payload, and no other; if there is none, none is taken. -/
theorem C107_statement (hs : StringsCompare A) {d : ClassDef (Thing A)} (hd : OrdinaryUnion d) {n : String} {v o : Thing A} (h : IsCase d n v o)
    (branches : List (String × String × (Bindings A → PyD σ α))) (hb : ∀ b ∈ branches, b.1 ∈ d.ownFields ∧ b.1 ≠ "tag") :
    matchStmt (branches.map (fun b => { pat := casePattern d b.1 (.capture b.2.1), body := b.2.2 })) o =
      match branches.find? (fun b => b.1 = n) with
      | some (_, x, body) => some <$> body [(x, v)]
      | none => pure none := by
  induction branches with
  | nil => rfl
  | cons b bs ih =>
    obtain ⟨m, x, body⟩ := b
    obtain ⟨hm, hmt⟩ := hb _ (List.mem_cons_self ..)
    have h1 := (C107_case hs hd h).2.2 m hm hmt (.capture x)
    rw [List.map_cons]
    by_cases e : m = n
    · rw [if_pos e, Pat.run] at h1
      rw [matchStmt_some h1]
      simp [e]
    · rw [if_neg e] at h1
      rw [matchStmt_none h1, ih (fun b hb' => hb b (List.mem_cons_of_mem _ hb'))]
      simp [e]

/-- The full property: a pattern may name the case and the payload by position, as in `case Maybe("just", x)`. -/
def C107_full_statement : Prop :=
  ∀ (d : ClassDef (Thing Unit)) (n : String) (v o : Thing Unit) (x : String), OrdinaryUnion d → d.ownFields.Nodup → d.ownFields.head? = some "tag" →
    IsCase d n v o → (Pat.klass (patternClass [d]) [.value (.str n), .capture x] []).run o = .ok (some [(x, v)])

/-- **C107 (by position).** For a union that declares its tag first and then the case `f`: `D("m", k=p)` works for every case; `D("m", p)`
matches exactly the values of the case declared first, `f`, if `m` is `f`; with three or more patterns by position nothing matches, and with
more than there are fields `TypeError` is raised. -/
theorem C107_positional_partial (hs : StringsCompare A) {d : ClassDef (Thing A)} (hd : OrdinaryUnion d) (f : String) (fs : List String)
    (hf : d.ownFields = "tag" :: f :: fs) (hn : d.ownFields.Nodup) {n : String} {v o : Thing A} (h : IsCase d n v o) (m : String) (p : Pat A) :
    (Pat.klass (patternClass [d]) [.value (.str m)] []).run o = .ok (if m = n then some [] else none) ∧
    (∀ k ∈ d.ownFields, k ≠ "tag" → (Pat.klass (patternClass [d]) [.value (.str m)] [(k, p)]).run o =
      if m = n ∧ k = n then p.run v else .ok none) ∧
    ((Pat.klass (patternClass [d]) [.value (.str m), p] []).run o = if m = n ∧ f = n then p.run v else .ok none) ∧
    (∀ ps, 3 ≤ ps.length → ps.length ≤ d.ownFields.length → (Pat.klass (patternClass [d]) ps []).run o = .ok none) ∧
    (∀ ps, d.ownFields.length < ps.length → ∃ msg, (Pat.klass (patternClass [d]) ps []).run o = .error (.typeError msg)) := by
  obtain ⟨hno, hnt, hi, ht, hv, hnone⟩ := isCase_inst hd h
  have hi : o.isInstance (patternClass [d]).id = true := by rw [patternClass_one hd]; exact hi
  have hma : (patternClass [d]).matchArgs = "tag" :: f :: fs := by rw [patternClass_one hd]; exact hf
  have hft : f ≠ "tag" := by rw [hf] at hn; intro e; subst e; simp at hn
  have hfm : f ∈ d.ownFields := by rw [hf]; simp
  have hval : (Pat.value (.str m)).run (Thing.str n : Thing A) = .ok (if m = n then some [] else none) := by
    rw [Pat.run, hs]
    by_cases e : m = n
    · subst e; simp
    · simp [e, Ne.symm e]
  have two : ∀ k ∈ d.ownFields, k ≠ "tag" → Pat.readAttrs o [] ["tag", k] = .ok (if k = n then some [.str n, v] else none) := by
    intro k hk hkt
    by_cases e : k = n
    · subst e
      simp [Pat.readAttrs, hv, ht, hkt]
      rfl
    · simp [Pat.readAttrs, ht, hnone k hk e hkt, e, hkt]
      rfl
  have both : ∀ (nargs : Nat) (kw : List String) (k : String), k ∈ d.ownFields → k ≠ "tag" → Pat.attributes (patternClass [d]) nargs kw o =
      Pat.readAttrs o [] ["tag", k] →
      Pat.run (.cls (patternClass [d]) nargs kw [.value (.str m), p]) o = if m = n ∧ k = n then p.run v else .ok none := by
    intro nargs kw k hk hkt ha
    rw [two k hk hkt] at ha
    by_cases e : k = n
    · rw [if_pos e] at ha
      rw [run_cls_some _ hi ha]
      by_cases e' : m = n
      · rw [if_pos e'] at hval
        rw [runAll_some _ _ hval, runAll_one, if_pos ⟨e', e⟩]
        rcases p.run v with e | _ | b <;> rfl
      · rw [if_neg e'] at hval
        rw [runAll_none _ _ hval, if_neg (fun h => e' h.1)]
    · rw [if_neg e] at ha
      rw [run_cls_none _ hi ha, if_neg (fun h => e h.2)]
  refine ⟨?_, fun k hk hkt => ?_, ?_, fun ps h3 hle => ?_, fun ps hlt => ?_⟩
  · have ha : Pat.attributes (patternClass [d]) 1 [] o = .ok (some [.str n]) := by
      rw [Pat.attributes, hma]
      simp [Pat.readAttrs, ht]
      rfl
    rw [Pat.klass]
    exact (run_cls_some _ hi ha).trans ((runAll_one _ _).trans hval)
  · exact both 1 [k] k hk hkt (by rw [Pat.attributes, hma]; simp)
  · exact both 2 [] f hfm hft (by rw [Pat.attributes, hma, if_neg (by simp only [List.length_cons]; omega)]; rfl)
  · refine run_cls_none _ hi ?_
    rw [hf] at hle hn
    rw [Pat.attributes, hma, if_neg (by omega)]
    simp only [List.map_nil, List.append_nil]
    obtain ⟨g, gs, rfl⟩ : ∃ g gs, fs = g :: gs := by
      cases fs with
      | nil => simp at hle; omega
      | cons g gs => exact ⟨g, gs, rfl⟩
    obtain ⟨k, hk⟩ : ∃ k, ps.length = k + 3 := ⟨ps.length - 3, by omega⟩
    rw [hk, List.take_succ_cons, List.take_succ_cons, List.take_succ_cons]
    have hgt : g ≠ "tag" := by intro e; subst e; simp at hn
    have hgf : g ≠ f := by intro e; subst e; simp at hn
    refine readAttrs_none _ _ ?_ (by simp) ?_
    · have := (List.take_sublist (k + 3) ("tag" :: f :: g :: gs)).nodup hn
      simpa using this
    · by_cases e : f = n
      · exact ⟨g, by simp, hnone g (by rw [hf]; simp) (fun e' => hgf (e'.trans e.symm)) hgt⟩
      · exact ⟨f, by simp, hnone f hfm e hft⟩
  · refine ⟨"accepts fewer positional sub-patterns", run_cls_error _ hi ?_⟩
    · rw [Pat.attributes, hma, if_pos (by rw [← hf]; exact hlt)]

/-- **C107 (the methods of `Option`).** `match self: case Option(tag="some", some=x): f; case _: g`, the form of nearly every method of
`Option`, runs `f` with the value for `Some` and `g` for `Nothing`. -/
theorem C107_option (hs : StringsCompare A) (x : String) (f g : Bindings A → PyD σ α) :
    let stmt : List (Case σ A α) := [{ pat := casePattern optionDef "some" (.capture x), body := f }, { pat := .wild, body := g }]
    (∀ v o, IsCase optionDef "some" v o → matchStmt stmt o = some <$> f [(x, v)]) ∧
    (∀ v o, IsCase optionDef "none" v o → matchStmt stmt o = some <$> g []) := by
  refine ⟨fun v o h => ?_, fun v o h => ?_⟩
  · have h1 := (C107_case hs option_ordinary h).2.2 "some" (by simp [optionDef]) (by decide) (.capture x)
    rw [if_pos rfl, Pat.run] at h1
    exact matchStmt_some h1
  · have h1 := (C107_case hs option_ordinary h).2.2 "some" (by simp [optionDef]) (by decide) (.capture x)
    rw [if_neg (by decide)] at h1
    rw [matchStmt_none h1]
    exact matchStmt_some (by rw [Pat.run])

/-- **C107 (the methods of `Result`).** `match self: case Result(tag="ok", ok=x): f; case Result(error=y): g` runs `f` with the value for `Ok`
and `g` with the error for `Error`, of `Result` and of `Try`. -/
theorem C107_result (hs : StringsCompare A) (x y : String) (f g : Bindings A → PyD σ α) :
    let stmt : List (Case σ A α) := [{ pat := casePattern resultDef "ok" (.capture x), body := f },
      { pat := .klass (patternClass (A := A) [resultDef]) [] [("error", .capture y)], body := g }]
    (∀ v o, IsCase resultDef "ok" v o → matchStmt stmt o = some <$> f [(x, v)]) ∧
    (∀ e o, IsCase resultDef "error" e o → matchStmt stmt o = some <$> g [(y, e)]) := by
  refine ⟨fun v o h => ?_, fun v o h => ?_⟩
  · have h1 := (C107_case hs result_ordinary h).2.2 "ok" (by simp [resultDef]) (by decide) (.capture x)
    rw [if_pos rfl, Pat.run] at h1
    exact matchStmt_some h1
  · have h1 := (C107_case hs result_ordinary h).2.2 "ok" (by simp [resultDef]) (by decide) (.capture x)
    rw [if_neg (by decide)] at h1
    rw [matchStmt_none h1]
    have h2 := (C107_case hs result_ordinary h).2.1 "error" (by simp [resultDef]) (by decide) (.capture y)
    rw [if_pos rfl, Pat.run] at h2
    exact matchStmt_some h2

/-- **C107 (the trees of maps).** `case Option(tag="some", some=MapTreeNode(left=l, right=r))`, then `case Option(tag="some",
some=MapTreeLeaf())`, then `case _`: inner nodes, leaves and the empty tree, in this order (a node is a leaf as well). -/
theorem C107_tree (hs : StringsCompare A) (f : Bindings A → PyD σ α) (g h : Bindings A → PyD σ α) :
    let stmt : List (Case σ A α) :=
      [{ pat := casePattern optionDef "some" (.klass nodeClass [] [("left", .capture "left"), ("right", .capture "right")]), body := f },
       { pat := casePattern optionDef "some" (.klass leafClass [] []), body := g },
       { pat := .wild, body := h }]
    (∀ k v l r n o, IsCase optionDef "some" (nodeThing k v l r n) o → matchStmt stmt o = some <$> f [("left", l), ("right", r)]) ∧
    (∀ k v o, IsCase optionDef "some" (leafThing k v) o → matchStmt stmt o = some <$> g []) ∧
    (∀ v o, IsCase optionDef "none" v o → matchStmt stmt o = some <$> h []) := by
  have key : ∀ m v o, IsCase optionDef m v o → ∀ p, (casePattern optionDef "some" p).run o = if "some" = m then p.run v else .ok none :=
    fun m v o ho p => (C107_case hs option_ordinary ho).2.2 "some" (by simp [optionDef]) (by decide) p
  have hnode : ∀ k v l r n, (Pat.klass nodeClass [] [("left", .capture "left"), ("right", .capture "right")]).run
      (nodeThing k v l r n : Thing A) = .ok (some [("left", l), ("right", r)]) := by
    intro k v l r n
    refine (run_cls_some (vs := [l, r]) _ rfl rfl).trans ?_
    simp [Pat.runAll, Pat.run]
    rfl
  have hleaf : ∀ k v, (Pat.klass nodeClass [] [("left", .capture "left"), ("right", .capture "right")]).run
      (leafThing k v : Thing A) = .ok none := fun k v => run_cls_other _ _ _ _ _ rfl
  have hleaf' : ∀ k v, (Pat.klass leafClass [] []).run (leafThing k v : Thing A) = .ok (some []) := by
    intro k v
    refine (run_cls_some (vs := []) _ rfl rfl).trans ?_
    simp [Pat.runAll]
  refine ⟨fun k v l r n o ho => ?_, fun k v o ho => ?_, fun v o ho => ?_⟩
  · exact matchStmt_some (by rw [key _ _ _ ho, if_pos rfl, hnode])
  · rw [matchStmt_none (by rw [key _ _ _ ho, if_pos rfl, hleaf])]
    exact matchStmt_some (by rw [key _ _ _ ho, if_pos rfl, hleaf'])
  · rw [matchStmt_none (by rw [key _ _ _ ho, if_neg (by decide)]), matchStmt_none (by rw [key _ _ _ ho, if_neg (by decide)])]
    exact matchStmt_some (by rw [Pat.run])

end

/-- **C107 (the tag twice).** For a union that declares its tag first: a pattern that has the tag by position and by name, `D(p, tag=q)`, raises
`TypeError` for every value of the union, whatever the patterns `p` and `q`. -/
theorem C107_twice [PyValue (Thing A)] {d : ClassDef (Thing A)} (hd : OrdinaryUnion d) (fs : List String) (hf : d.ownFields = "tag" :: fs) {n : String}
    {v o : Thing A} (h : IsCase d n v o) (p q : Pat A) :
    ∃ msg, (Pat.klass (patternClass [d]) [p] [("tag", q)]).run o = .error (.typeError msg) := by
  obtain ⟨hno, hnt, hi, ht, hv, hnone⟩ := isCase_inst hd h
  have hi : o.isInstance (patternClass [d]).id = true := by rw [patternClass_one hd]; exact hi
  have hma : (patternClass [d]).matchArgs = "tag" :: fs := by rw [patternClass_one hd]; exact hf
  refine ⟨"got multiple sub-patterns for attribute", ?_⟩
  rw [Pat.klass, Pat.run, if_pos hi]
  simp [Pat.attributes, hma, Pat.readAttrs, ht]
  rfl

/-- `Some(3)` -/
theorem some_three : IsCase (A := Unit) optionDef "some" (.int 3)
    (.inst [1] [("tag", .str "some"), ("some", .int 3), ("_index", .int 2), ("__dataclass_fields__", .tuple [.str "tag", .str "some"])]) :=
  ⟨by decide, [], 0, _, by simp, rfl, rfl⟩

/-- **C107 is false of the code**: `case Option("some", x)` does not match `Some(3)`, the second field being `none`. -/
theorem C107_full_statement_false : ¬ C107_full_statement := by
  intro h
  have h1 := h optionDef "some" (.int 3) _ "x" option_ordinary (by decide) rfl some_three
  have h2 := (C107_positional_partial (fun _ _ => rfl) option_ordinary "none" ["some"] rfl (by decide) some_three "some" (.capture "x")).2.2.1
  rw [h2] at h1
  exact nomatch (show (Except.ok none : Except PyErr (Option (Bindings Unit))) = _ from h1)

/-- C107 is not vacuous: `Ok(3)` made by `Try`, and a value of a union with a payload of a union. -/
example : ∃ o, IsCase (A := Unit) resultDef "ok" (.int 3) o := ⟨_, by decide, [tryDef], 0, _, by simp [PlainClass, tryDef], rfl, rfl⟩
example : StringsCompare Unit := fun _ _ => rfl
example : (casePattern optionDef "some" (.capture "x")).run (A := Unit)
    (.inst [1] [("tag", .str "some"), ("some", .int 3), ("_index", .int 2), ("__dataclass_fields__", .tuple [.str "tag", .str "some"])]) =
      .ok (some [("x", .int 3)]) := by
  rw [(C107_case (fun _ _ => rfl) option_ordinary some_three).2.2 "some" (by decide) (by decide)]
  simp [Pat.run]

/-- `case Option("some", tag="some")` raises for `Some(3)` -/
example : ∃ msg, (Pat.klass (TU.patternClass (A := Unit) [optionDef]) [.value (.str "some")] [("tag", .value (.str "some"))]).run (A := Unit)
    (.inst [1] [("tag", .str "some"), ("some", .int 3), ("_index", .int 2), ("__dataclass_fields__", .tuple [.str "tag", .str "some"])]) =
      .error (.typeError msg) := C107_twice option_ordinary _ rfl some_three _ _

/-- `case Option(tag="some", some=3)` matches `Some(3)`, and `case Option(some=4)` does not -/
example : (casePattern optionDef "some" (.value (.int 3))).run (A := Unit)
      (.inst [1] [("tag", .str "some"), ("some", .int 3), ("_index", .int 2), ("__dataclass_fields__", .tuple [.str "tag", .str "some"])]) = .ok (some []) ∧
    (Pat.klass (TU.patternClass (A := Unit) [optionDef]) [] [("some", .value (.int 4))]).run (A := Unit)
      (.inst [1] [("tag", .str "some"), ("some", .int 3), ("_index", .int 2), ("__dataclass_fields__", .tuple [.str "tag", .str "some"])]) = .ok none := by
  rw [(C107_constant (fun _ _ => rfl) option_ordinary some_three "some" (by decide) (by decide) _).1,
    (C107_constant (fun _ _ => rfl) option_ordinary some_three "some" (by decide) (by decide) _).2]
  exact ⟨rfl, rfl⟩

end Expression.Props
