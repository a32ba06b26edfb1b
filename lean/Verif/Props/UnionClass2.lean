import Verif.Props.UnionClass

/-! # C87-C89, continued: methods that the class statement removes, the order of cases, `Option`, `Result` and `Try` themselves -/

namespace Expression.Props

open TU Spec Lemmas

variable {V : Type}

/-! ## C87 -/

/-- **C87 (hashes).** A class that writes `__eq__` and no `__hash__` has values that cannot be hashed, whatever its bases do, unless it is decorated with
`frozen=True`: then the generated `__hash__` is used.  The `__eq__` that the decorator makes does not take the inherited `__hash__` away. -/
theorem C87_unhashable [PyValue V] (c : ClassDef V) (rest : List (ClassDef V)) (hh : "__hash__" ∉ c.own) :
    ("__eq__" ∈ c.own → (∀ f, c.deco = some f → f.frozen = false) → ∀ (u : Obj V), u.mro = c :: rest → ∀ mix written,
      opHash mix written u = .error (.typeError "unhashable type")) ∧
    (∀ f, c.deco = some f → f.frozen = true → resolve (c :: rest) "__hash__" = .generated c.id) ∧
    ("__eq__" ∉ c.own → (∀ f, c.deco = some f → f.frozen = false) → resolve (c :: rest) "__hash__" = resolve rest "__hash__") := by
  have hbody : (∀ f, c.deco = some f → f.frozen = false) → classDict c "__hash__" = classDict.body c "__hash__" := by
    intro hf
    unfold classDict
    cases hd : c.deco with
    | none => rfl
    | some f => simp [Flags.assigns, hf f hd]
  refine ⟨fun he hf u hu mix written => ?_, fun f hd hf => ?_, fun he hf => ?_⟩
  · have : resolve u.mro "__hash__" = .absent := by
      rw [hu, resolve, hbody hf, classDict.body, if_neg hh, if_pos ⟨rfl, he⟩]
      rfl
    rw [opHash, this]
  · rw [resolve, classDict, hd]
    simp [Flags.assigns, hf]
  · rw [resolve, hbody hf, classDict.body, if_neg hh, if_neg (fun h => he h.2)]
    rfl

/-- a class with an `__eq__`, decorated without `frozen` -/
example : opHash (V := Lit) (fun _ _ n => n) (fun _ _ => .ok 0) ⟨0, [⟨7, "Shape", ["__eq__"], ["tag", "dot"], some {}, fun _ a => .ok a⟩], []⟩ =
    .error (.typeError "unhashable type") :=
  (C87_unhashable _ [] (by simp)).1 (by simp) (by rintro f ⟨⟩; rfl) _ rfl _ _

/-- **C87 (the package's own classes).** In `Option` and `Result` the generated `__init__`, `__repr__`, `__eq__`, `__lt__`, `__hash__`, `__setattr__`, `__delattr__` and
copying methods are used, and `__str__`, `__iter__` and `__await__` as they are written; in `Try` `__str__` is its own and all else that of `Result`. -/
theorem C87_package :
    (∀ m ∈ ["__init__", "__repr__", "__eq__", "__lt__", "__hash__", "__setattr__", "__delattr__", "__copy__", "__deepcopy__", "__getstate__", "__setstate__"],
      resolve [(optionDef : ClassDef V)] m = .generated 1 ∧ resolve [(resultDef : ClassDef V)] m = .generated 2 ∧
      resolve [(tryDef : ClassDef V), resultDef] m = .generated 2) ∧
    (∀ m ∈ ["__str__", "__iter__", "__await__"], resolve [(optionDef : ClassDef V)] m = .written 1 ∧ resolve [(resultDef : ClassDef V)] m = .written 2) ∧
    resolve [(tryDef : ClassDef V), resultDef] "__str__" = .written 3 ∧
    (∀ m ∈ ["__iter__", "__await__"], resolve [(tryDef : ClassDef V), resultDef] m = .written 2) := by
  refine ⟨fun m hm => ?_, fun m hm => ?_, rfl, fun m hm => ?_⟩
  · simp only [List.mem_cons, List.not_mem_nil, or_false] at hm
    rcases hm with rfl | rfl | rfl | rfl | rfl | rfl | rfl | rfl | rfl | rfl | rfl <;> exact ⟨rfl, rfl, rfl⟩
  · simp only [List.mem_cons, List.not_mem_nil, or_false] at hm
    rcases hm with rfl | rfl | rfl <;> exact ⟨rfl, rfl⟩
  · simp only [List.mem_cons, List.not_mem_nil, or_false] at hm
    rcases hm with rfl | rfl <;> rfl

/-! ## C88 -/

/-- **C88 (the order of cases).** The cases of a subclass are those of its bases, at the positions they have there, and then the new ones of its own. -/
theorem C88_cases (c : ClassDef V) (rest : List (ClassDef V)) :
    (∀ x, x ∈ fieldNames (c :: rest) ↔ x ∈ fieldNames rest ∨ x ∈ c.ownFields) ∧
    (∀ x ∈ fieldNames rest, (fieldNames (c :: rest)).idxOf x = (fieldNames rest).idxOf x) ∧
    (∀ x, x ∉ fieldNames rest → (fieldNames rest).length ≤ (fieldNames (c :: rest)).idxOf x) := by
  refine ⟨fun x => ?_, fun x hx => ?_, fun x hx => ?_⟩
  · rw [fieldNames, List.mem_append, List.mem_filter]
    by_cases h : x ∈ fieldNames rest <;> simp [h]
  · rw [fieldNames, List.idxOf_append, if_pos hx]
  · rw [fieldNames, List.idxOf_append, if_neg hx]
    omega

/-- **C88 (the order of cases, values).** So a decorated subclass whose body has an `__init__` (see `C88_never_partial` for the others) gives its values, in an
inherited case, the position that the base gives to the case: `<` between them goes by it. -/
theorem C88_position [PyValue V] (c : ClassDef V) (rest : List (ClassDef V)) (f : Flags) (hd : c.deco = some f) (hi : "__init__" ∈ c.own) (ident : Nat)
    (hu : c.userInit = fun _ a => .ok a) (x : String) (v : V) (hx : x ∈ fieldNames rest) (h1 : x ≠ "tag") (h2 : x ≠ "self") :
    ∃ u, make (c :: rest) ident [(x, v)] = .ok u ∧ lookup u.attrs "_index" = some (.index ((fieldNames rest).idxOf x)) := by
  have hx0 : x ∈ fieldNames (c :: rest) := ((C88_cases c rest).1 x).2 (.inl hx)
  have hx' : (x != "tag") = true := by simpa using h1
  have hx'' : (x == "tag") = false := by simpa using h1
  have hs' : (x == "self") = false := by simpa using h2
  refine ⟨⟨ident, c :: rest, stored (fieldNames (c :: rest)) x v⟩, ?_, ?_⟩
  · rw [make]
    simp only [List.any_cons, List.any_nil, hs', Bool.or_false, Bool.false_eq_true, if_false]
    rw [callInit, hd]
    simp only [tagArg, List.filter_cons, List.filter_nil, hx', if_true, List.find?_cons, hx'', List.find?_nil, Option.map_none, if_pos hi,
      storeCase, hx0, not_true_eq_false, if_false, ne_eq, tagMatches, hu]
    rfl
  · rw [lookup_stored, if_neg (by decide), if_pos rfl, (C88_cases c rest).2.1 x hx]

/-- a decorated subclass of `Result` with a third case: its values in the case `error` have the position that `Result` gives to it -/
example : ∃ u, make [⟨7, "Three", ["__init__"], ["third"], some {}, fun _ a => .ok a⟩, resultDef] 0 [("error", Lit.int 3)] = .ok u ∧
    lookup u.attrs "_index" = some (.index ((fieldNames [(resultDef : ClassDef Lit)]).idxOf "error")) :=
  C88_position _ _ _ rfl (by simp) 0 rfl "error" _ (by decide) (by decide) (by decide)

/-- **C88 (`Success` and `Failure`).** They make values of `Try`, which are values of `Result`. -/
theorem C88_try_class [PyValue V] (ident : Nat) (v : V) :
    ∃ s f, success ident v = .ok s ∧ failure ident v = .ok f ∧ s.mro.map (·.name) = ["Try", "Result"] ∧ f.mro.map (·.name) = ["Try", "Result"] ∧
      s.isA (tryDef (V := V)).id = true ∧ s.isA (resultDef (V := V)).id = true ∧ f.isA (tryDef (V := V)).id = true ∧
      f.isA (resultDef (V := V)).id = true :=
  ⟨_, _, rfl, rfl, rfl, rfl, rfl, rfl, rfl, rfl⟩

/-! ## C89 -/

/-- **C89 (`Result` and `Try`).** `Success(v) == Ok(w)` and `Ok(w) == Success(v)` say whether the values are equal, likewise `Failure` and `Error`; values in different cases are
never equal. -/
theorem C89_try [PyValue V] (hsymm : ∀ p q : V, PyValue.eq p q = PyValue.eq q p) (written : Nat → Obj V → Obj V → Except PyErr (Option Bool))
    (i j : Nat) (v w : V) (s f o e : Obj V) (hs : success i v = .ok s) (hf : failure i v = .ok f)
    (ho : make [resultDef] j [("ok", w)] = .ok o) (he : make [resultDef] j [("error", w)] = .ok e) :
    opEq written s o = .ok (PyValue.eq v w) ∧ opEq written o s = .ok (PyValue.eq w v) ∧
    opEq written f e = .ok (PyValue.eq v w) ∧ opEq written e f = .ok (PyValue.eq w v) ∧
    opEq written s e = .ok false ∧ opEq written e s = .ok false ∧ opEq written f o = .ok false ∧ opEq written o f = .ok false := by
  have hp : ∀ c ∈ [(tryDef : ClassDef V)], PlainClass c := by
    intro c hc
    obtain rfl := List.mem_singleton.1 hc
    exact ⟨rfl, by simp [tryDef]⟩
  have hn : ∀ c ∈ ([] : List (ClassDef V)), PlainClass c := by simp
  have key := fun (sub1 sub2 : List (ClassDef V)) hs1 hs2 i j x y v w hx hy a b ha hb =>
    C89_equality hsymm written (resultDef : ClassDef V) _ rfl rfl (by simp [resultDef]) (by simp [resultDef]) (by simp [resultDef])
      sub1 sub2 hs1 hs2 i j x y v w hx hy a b ha hb
  refine ⟨?_, ?_, ?_, ?_, ?_, ?_, ?_, ?_⟩
  · exact (key [tryDef] [] hp hn i j "ok" "ok" v w (by decide) (by decide) s o hs ho).trans (by simp)
  · exact (key [] [tryDef] hn hp j i "ok" "ok" w v (by decide) (by decide) o s ho hs).trans (by simp)
  · exact (key [tryDef] [] hp hn i j "error" "error" v w (by decide) (by decide) f e hf he).trans (by simp)
  · exact (key [] [tryDef] hn hp j i "error" "error" w v (by decide) (by decide) e f he hf).trans (by simp)
  · exact (key [tryDef] [] hp hn i j "ok" "error" v w (by decide) (by decide) s e hs he).trans (by simp)
  · exact (key [] [tryDef] hn hp j i "error" "ok" w v (by decide) (by decide) e s he hs).trans (by simp)
  · exact (key [tryDef] [] hp hn i j "error" "ok" v w (by decide) (by decide) f o hf ho).trans (by simp)
  · exact (key [] [tryDef] hn hp j i "ok" "error" w v (by decide) (by decide) o f ho hf).trans (by simp)

/-- C89 is not vacuous: such values exist -/
example : ∃ s o, success 0 (Lit.int 3) = .ok s ∧ make [resultDef] 1 [("ok", Lit.int 3)] = .ok o := ⟨_, _, rfl, rfl⟩

/-- **C89 (text).** `repr` of a value of a union, or of a subclass of it that is not decorated and writes no `__repr__`, names the union, the case and the payload: so
`repr(Success(3))` is `Result(ok=3)`. -/
theorem C89_repr (reprV : V → String) (written : Nat → Obj V → Except PyErr String) (d : ClassDef V) (f : Flags)
    (hd : d.deco = some f) (hf : f.repr = true) (subs rest : List (ClassDef V))
    (hs : ∀ c ∈ subs, c.deco = none ∧ "__repr__" ∉ c.own ∧ c.id ≠ d.id) (u : Obj V)
    (hu : u.mro = subs ++ d :: rest) (x : String) (v : V) (ht : u.tag = .ok x) (hv : u.case x = .ok v) :
    opRepr reprV written u = .ok (d.name ++ "(" ++ x ++ "=" ++ reprV v ++ ")") := by
  have hg : generatedFor (subs ++ d :: rest) d.id = d :: rest := by
    unfold generatedFor
    rw [List.dropWhile_append_of_pos (fun c hc => by simpa using (hs c hc).2.2), List.dropWhile_cons_of_neg (by simp)]
  have hr : resolve (subs ++ d :: rest) "__repr__" = .generated d.id := by
    clear hu hg
    induction subs with
    | nil =>
      rw [List.nil_append, resolve, classDict, hd]
      simp [Flags.assigns, hf]
    | cons c subs ih =>
      obtain ⟨h1, h2, _⟩ := hs c (by simp)
      have e : classDict c "__repr__" = none := by
        rw [classDict, h1]
        simp [classDict.body, h2]
      rw [List.cons_append, resolve, e]
      exact ih fun c hc => hs c (by simp [hc])
  rw [opRepr, hu, hr]
  simp only [ht, hv, bind, Except.bind, hg]
  rfl

/-- `repr(Success(3))` -/
example (written : Nat → Obj Lit → Except PyErr String) (u : Obj Lit) (h : success 0 (Lit.int 3) = .ok u) :
    opRepr (fun _ => "3") written u = .ok "Result(ok=3)" := by
  cases h
  exact C89_repr _ written resultDef _ rfl rfl [tryDef] [] (by simp [tryDef, resultDef]) _ rfl "ok" (Lit.int 3) rfl rfl

end Expression.Props
