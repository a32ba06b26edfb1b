import Verif.Lemmas.UnionClass
import Verif.Props.TaggedUnion

/-! # C87-C89: classes of tagged unions, subclasses, `Try` -/

namespace Expression.Props

open TU Spec Lemmas

variable {V : Type}

/-! ## C87 methods written in the class body -/

/-- The full property: a method written in the body of a decorated class is the one its values use. -/
def C87_full_statement : Prop :=
  ∀ (c : ClassDef Lit) (rest : List (ClassDef Lit)) (m : String), m ∈ c.own → resolve (c :: rest) m = .written c.id

/-- It is false: the decorator replaces `Option.__repr__`, `Option.__eq__` and `Result.__repr__` of the package itself. -/
theorem C87_full_statement_false : ¬ C87_full_statement := by
  intro h
  exact absurd (h optionDef [] "__repr__" (by decide)) (by decide)

/-- Exactly when it is kept: `__init__`, the pickling and the copying methods are always replaced, the others only if their switch is on. -/
theorem C87_kept_partial (c : ClassDef V) (rest : List (ClassDef V)) (f : Flags) (hd : c.deco = some f) (m : String) (hm : m ∈ c.own) :
    resolve (c :: rest) m = .written c.id ↔
      ¬ (m ∈ ["__getstate__", "__setstate__", "__init__", "__copy__", "__deepcopy__"] ∨ (f.repr = true ∧ m = "__repr__") ∨
        (f.eq = true ∧ m = "__eq__") ∨ (f.order = true ∧ m = "__lt__") ∨
        (f.frozen = true ∧ m ∈ ["__hash__", "__setattr__", "__delattr__"])) := by
  have key : f.assigns m = true ↔ (m ∈ ["__getstate__", "__setstate__", "__init__", "__copy__", "__deepcopy__"] ∨
        (f.repr = true ∧ m = "__repr__") ∨ (f.eq = true ∧ m = "__eq__") ∨ (f.order = true ∧ m = "__lt__") ∨
        (f.frozen = true ∧ m ∈ ["__hash__", "__setattr__", "__delattr__"])) := by
    simp only [Flags.assigns, Bool.or_eq_true, Bool.and_eq_true, decide_eq_true_eq, beq_iff_eq, or_assoc]
  rw [← key, resolve, classDict, hd]
  by_cases h : f.assigns m = true
  · simp [h]
  · simp [h, classDict.body, hm]

/-- A class that is not decorated uses its own methods, whatever its bases are. -/
theorem C87_plain_class (c : ClassDef V) (rest : List (ClassDef V)) (hd : c.deco = none) (m : String) (hm : m ∈ c.own) :
    resolve (c :: rest) m = .written c.id := by
  rw [resolve, classDict, hd]
  simp [classDict.body, hm]

/-- An `__init__` in the body is not lost: the call stores the case first, then runs it without arguments on the instance that has its tag
and its payload already. -/
theorem C87_init [PyValue V] (c : ClassDef V) (rest : List (ClassDef V)) (f : Flags) (hd : c.deco = some f) (hi : "__init__" ∈ c.own) (ident : Nat)
    (x : String) (v : V) (hx : x ∈ fieldNames (c :: rest)) (h1 : x ≠ "tag") (h2 : x ≠ "self")
    (h3 : "_index" ∉ fieldNames (c :: rest)) (h4 : "__dataclass_fields__" ∉ fieldNames (c :: rest)) :
    ∃ attrs, lookup attrs "tag" = some (.name x) ∧ lookup attrs x = some (.obj v) ∧
      make (c :: rest) ident [(x, v)] = (c.userInit [] attrs).map (fun attrs' => ⟨ident, c :: rest, attrs'⟩) := by
  have hx' : (x != "tag") = true := by simpa using h1
  have hx'' : (x == "tag") = false := by simpa using h1
  have hs' : (x == "self") = false := by simpa using h2
  refine ⟨stored (fieldNames (c :: rest)) x v, ?_, ?_, ?_⟩
  · rw [lookup_stored, if_neg (by decide), if_neg (by decide), if_neg h1, if_pos rfl]
  · rw [lookup_stored, if_neg (fun h : "__dataclass_fields__" = x => h4 (h ▸ hx)), if_neg (fun h : "_index" = x => h3 (h ▸ hx)), if_pos rfl]
  rw [make]
  simp only [List.any_cons, List.any_nil, hs', Bool.or_false, Bool.false_eq_true, if_false]
  rw [callInit, hd]
  simp only [tagArg, List.filter_cons, List.filter_nil, hx', if_true, List.find?_cons, hx'', List.find?_nil, Option.map_none, if_pos hi,
    storeCase, hx, not_true_eq_false, if_false, ne_eq, tagMatches]
  show (do let attrs ← c.userInit [] (stored (fieldNames (c :: rest)) x v); Except.ok _) = _
  cases c.userInit [] (stored (fieldNames (c :: rest)) x v) <;> rfl

/-- What using a written method means: where it is the one looked up, `repr`, `hash` and `copy` give what it gives, and so does `==`, unless it answers
`NotImplemented` or the right operand is of a subclass. -/
theorem C87_operators [PyValue V] (u w : Obj V) (id : Nat) :
    (resolve u.mro "__repr__" = .written id → ∀ reprV (written : Nat → Obj V → Except PyErr String), opRepr reprV written u = written id u) ∧
    (resolve u.mro "__hash__" = .written id → ∀ mix (written : Nat → Obj V → Except PyErr Int), opHash mix written u = written id u) ∧
    (resolve u.mro "__copy__" = .written id → ∀ (written : Obj V → Except PyErr (Obj V)) ident, opCopy written ident u = written u) ∧
    (resolve u.mro "__eq__" = .written id → (∀ c, u.mro.head? = some c → w.isA c.id → w.mro.head?.map (·.id) = some c.id) →
      ∀ (written : Nat → Obj V → Obj V → Except PyErr (Option Bool)),
        (∀ b, written id u w = .ok (some b) → opEq written u w = .ok b) ∧ ∀ e, written id u w = .error e → opEq written u w = .error e) := by
  refine ⟨fun h _ _ => by rw [opRepr, h], fun h _ _ => by rw [opHash, h], fun h _ _ => by rw [opCopy, h], fun h hsub written => ?_⟩
  have hc : callEq written u w = written id u w := by rw [callEq, h]
  have hs : ∀ c, u.mro.head? = some c → (w.isA c.id && (w.mro.head?.map (·.id) != some c.id)) = false := by
    intro c hh
    by_cases hi : w.isA c.id = true
    · rw [hsub c hh hi]; simp
    · rw [Bool.not_eq_true] at hi; rw [hi]; rfl
  constructor
  · intro b hb
    cases hh : u.mro.head? with
    | none => simp [opEq, hh, hc, hb, bind, Except.bind]
    | some c => simp only [opEq, hh, hs c hh, Bool.false_eq_true, if_false, hc, hb, bind, Except.bind]
  · intro e he
    cases hh : u.mro.head? with
    | none => simp [opEq, hh, hc, he, bind, Except.bind]
    | some c => simp only [opEq, hh, hs c hh, Bool.false_eq_true, if_false, hc, he, bind, Except.bind]

/-- If the right operand is of a proper subclass with a written `__eq__`, it is asked first, with the left operand as its argument; the method of the left
one is asked only if it answers `NotImplemented`. -/
theorem C87_subclass_first [PyValue V] (u w : Obj V) (c : ClassDef V) (id : Nat) (hu : u.mro.head? = some c) (hw : w.isA c.id = true)
    (hne : w.mro.head?.map (·.id) ≠ some c.id) (h : resolve w.mro "__eq__" = .written id)
    (written : Nat → Obj V → Obj V → Except PyErr (Option Bool)) :
    (∀ b, written id w u = .ok (some b) → opEq written u w = .ok b) ∧ (∀ e, written id w u = .error e → opEq written u w = .error e) ∧
    (written id w u = .ok none → ∀ id', resolve u.mro "__eq__" = .written id' →
      (∀ b, written id' u w = .ok (some b) → opEq written u w = .ok b) ∧
      (written id' u w = .ok none → opEq written u w = .ok (decide (u.ident = w.ident)))) := by
  have hc : callEq written w u = written id w u := by rw [callEq, h]
  have hs : (w.isA c.id && (w.mro.head?.map (·.id) != some c.id)) = true := by
    rw [hw, Bool.true_and, bne_iff_ne]; exact hne
  refine ⟨fun b hb => ?_, fun e he => ?_, fun hn id' h' => ?_⟩
  · simp only [opEq, hu, hs, if_true, hc, hb, bind, Except.bind]
  · simp only [opEq, hu, hs, if_true, hc, he, bind, Except.bind]
  · have hc' : callEq written u w = written id' u w := by rw [callEq, h']
    refine ⟨fun b hb => ?_, fun hn' => ?_⟩
    · simp only [opEq, hu, hs, if_true, hc, hn, hc', hb, bind, Except.bind]
    · simp only [opEq, hu, hs, if_true, hc, hn, hc', hn', bind, Except.bind]
      rfl

/-- Where no `__eq__` is written or generated, as with `eq=False`, values are equal exactly if they are the same object. -/
theorem C87_no_eq [PyValue V] (u w : Obj V) (hu : resolve u.mro "__eq__" = .object) (hw : resolve w.mro "__eq__" = .object)
    (written : Nat → Obj V → Obj V → Except PyErr (Option Bool)) : opEq written u w = .ok (decide (u.ident = w.ident)) := by
  have e1 : callEq written u w = .ok (if u.ident = w.ident then some true else none) := by rw [callEq, hu]
  have e2 : callEq written w u = .ok (if u.ident = w.ident then some true else none) := by
    rw [callEq, hw]; simp only [eq_comm]
  simp only [opEq, e1, e2, ite_self, bind, Except.bind]
  by_cases h : u.ident = w.ident
  · simp [h]
  · simp only [if_neg h, decide_eq_false h]
    rw [beq_eq_false_iff_ne.2 h]

/-- a union of two cases, decorated with `eq=False` -/
example : resolve [({ id := 5, name := "Token", own := [], ownFields := ["tag", "a", "b"], deco := some { eq := false }, userInit := fun _ x => .ok x } : ClassDef Lit)]
    "__eq__" = .object := rfl

/-- a subclass of `Result` that is equal to nothing, and a plain result -/
example : ∃ (sub : ClassDef Lit) (u w : Obj Lit), u.mro.head? = some (resultDef : ClassDef Lit) ∧ w.isA (resultDef : ClassDef Lit).id = true ∧
    w.mro.head?.map (·.id) ≠ some (resultDef : ClassDef Lit).id ∧ resolve w.mro "__eq__" = .written sub.id :=
  ⟨{ id := 77, name := "Nan", own := ["__eq__"], ownFields := [], deco := none, userInit := fun _ a => .ok a },
    ⟨0, [resultDef], []⟩,
    ⟨1, [{ id := 77, name := "Nan", own := ["__eq__"], ownFields := [], deco := none, userInit := fun _ a => .ok a }, resultDef], []⟩,
    rfl, rfl, by decide, rfl⟩

/-- a class whose `__init__` adds an attribute -/
def stampDef : ClassDef Lit where
  id := 9
  name := "Stamp"
  own := ["__init__", "__repr__"]
  ownFields := ["tag", "a", "b"]
  deco := some { repr := false }
  userInit _ attrs := .ok (setAttr attrs "seen" (.index 1))

example : resolve [stampDef] "__repr__" = .written 9 := (C87_kept_partial stampDef [] _ rfl _ (by decide)).2 (by decide)

example : opRepr (fun _ => "?") (fun _ _ => .ok "stamp") ⟨0, [stampDef], []⟩ = .ok "stamp" :=
  (C87_operators ⟨0, [stampDef], []⟩ ⟨1, [stampDef], []⟩ 9).1 rfl _ _

example : ∃ u, make [stampDef] 0 [("a", Lit.int 4)] = .ok u ∧ (lookup u.attrs "seen" matches some (.index 1)) := ⟨_, rfl, rfl⟩

/-- So `repr(Some(3))` is the generated text, not the one `Option.__repr__` gives. -/
theorem C87_repr (reprV : V → String) [PyValue V] (written : Nat → Obj V → Except PyErr String) (ident : Nat) (v : V) (u : Obj V)
    (h : make [optionDef] ident [("some", v)] = .ok u) : opRepr reprV written u = .ok ("Option(some=" ++ reprV v ++ ")") := by
  obtain ⟨_, _, rfl⟩ := (make_ok_iff (subs := []) (by simp) (d := optionDef) rfl (by simp [optionDef]) ident "some" v (by decide) u).1 h
  have hr := stored_reads (d := (optionDef : ClassDef V)) (by simp [optionDef]) (by simp [optionDef]) (x := "some") (by decide) (by simp [optionDef]) ident [optionDef] v
  have hres : resolve [(optionDef : ClassDef V)] "__repr__" = .generated 1 := rfl
  simp only [opRepr, List.nil_append, hres, hr.1, hr.2, bind, Except.bind]
  rfl

example : ∃ u, make [optionDef] 0 [("some", Lit.int 3)] = .ok u := ⟨_, rfl⟩

/-! ## C88 extending a union -/

/-- The full property: a decorated subclass of a union, with no constructor of its own, can be called with any of its cases. -/
def C88_full_statement : Prop :=
  ∀ (c d : ClassDef Lit) (f g : Flags), c.deco = some f → d.deco = some g → "__init__" ∉ c.own → "__init__" ∉ d.own →
    ∀ (x : String) (v : Lit), x ∈ fieldNames [c, d] → x ≠ "tag" → x ≠ "self" → ∃ u, make [c, d] 0 [(x, v)] = .ok u

/-- A decorated class with a decorated base and no constructors written in between can never be called: the generated constructor ends by
calling that of the base without arguments, and that one raises. -/
theorem C88_never_partial [PyValue V] (c : ClassDef V) (f : Flags) (hc : c.deco = some f) (hi : "__init__" ∉ c.own)
    (between : List (ClassDef V)) (hb : ∀ b ∈ between, b.deco = none ∧ "__init__" ∉ b.own) (d : ClassDef V) (g : Flags) (hd : d.deco = some g)
    (rest : List (ClassDef V)) (ident : Nat) (kwargs : List (String × V)) :
    ∃ msg, make (c :: (between ++ d :: rest)) ident kwargs = .error (.typeError msg) := by
  rw [make]
  split
  · exact ⟨_, rfl⟩
  · rw [callInit, hc]
    simp only [if_neg hi, callInit_plain hb, callInit_decorated_nil d hd]
    cases h : storeCase (fieldNames (c :: (between ++ d :: rest))) [] (tagArg kwargs) (kwargs.filter (fun kv => kv.1 != "tag")) with
    | error e =>
      obtain ⟨msg, rfl⟩ := storeCase_error _ _ _ _ e h
      exact ⟨msg, rfl⟩
    | ok attrs => exact ⟨_, rfl⟩

/-- a decorated subclass of `Result` with one more case -/
def moreDef : ClassDef Lit where
  id := 10
  name := "More"
  own := []
  ownFields := ["pending"]
  deco := some {}

theorem C88_full_statement_false : ¬ C88_full_statement := by
  intro h
  obtain ⟨u, hu⟩ := h moreDef resultDef {} { frozen := true, order := true } rfl rfl (by decide) (by decide) "ok" (.int 1) (by decide) (by decide) (by decide)
  obtain ⟨msg, he⟩ := C88_never_partial moreDef {} rfl (by decide) [] (by simp) resultDef _ rfl [] 0 [("ok", Lit.int 1)]
  rw [List.nil_append, hu] at he
  exact nomatch he

/-- Subclasses that are not decorated and have no constructor of their own, such as `Try`, are called exactly as their base is: same keyword
arguments accepted, same errors, same attributes. -/
theorem C88_plain_subclass [PyValue V] (c : ClassDef V) (hc : c.deco = none) (hi : "__init__" ∉ c.own) (rest : List (ClassDef V)) (ident : Nat)
    (kwargs : List (String × V)) :
    make (c :: rest) ident kwargs = (make rest ident kwargs).map (fun u => ⟨u.ident, c :: rest, u.attrs⟩) := by
  have h := callInit_plain (subs := [c]) (by simpa using ⟨hc, hi⟩) rest [] kwargs
  rw [List.singleton_append] at h
  rw [make, make]
  split
  · rfl
  · rw [h]
    cases callInit rest [] kwargs <;> rfl

/-- `Success(v)` holds what `Ok(v)` holds, `Failure(e)` what `Error(e)` holds. -/
theorem C88_try [PyValue V] (ident : Nat) (v : V) :
    ∃ s f, success ident v = .ok s ∧ failure ident v = .ok f ∧
      s.tag = .ok "ok" ∧ s.case "ok" = .ok v ∧ (s.case "error" = .error (.attributeError "error")) ∧
      f.tag = .ok "error" ∧ f.case "error" = .ok v ∧ (f.case "ok" = .error (.attributeError "ok")) :=
  ⟨_, _, rfl, rfl, rfl, rfl, rfl, rfl, rfl, rfl⟩

/-- `C88_never_partial` with a plain class in between -/
example : ∃ msg, make [moreDef, tryDef, resultDef] 0 [("pending", Lit.int 1)] = .error (.typeError msg) :=
  C88_never_partial moreDef {} rfl (by decide) [tryDef] (by decide) resultDef _ rfl [] 0 _

/-- `C88_plain_subclass`: `Try(ok=1)` and `Try(no=1)` -/
example : (∃ u, make [tryDef, resultDef] 0 [("ok", Lit.int 1)] = .ok u) ∧ ∃ e, make [tryDef, resultDef] 0 [("no", Lit.int 1)] = .error e := by
  rw [C88_plain_subclass tryDef rfl (by decide), C88_plain_subclass tryDef rfl (by decide)]
  exact ⟨⟨_, rfl⟩, ⟨_, rfl⟩⟩

/-! ## C89 values of subclasses -/

/-- Values of the union or of plain subclasses of it are equal exactly when they are in the same case with equal payloads, whichever of the
classes they were made by and on whichever side they stand; comparing never raises. -/
theorem C89_equality [PyValue V] (hsymm : ∀ p q : V, PyValue.eq p q = PyValue.eq q p)
    (written : Nat → Obj V → Obj V → Except PyErr (Option Bool)) (d : ClassDef V) (f : Flags)
    (hd : d.deco = some f) (hf : f.eq = true) (hi : "__init__" ∉ d.own) (h1 : "_index" ∉ d.ownFields) (h2 : "__dataclass_fields__" ∉ d.ownFields)
    (sub1 sub2 : List (ClassDef V)) (hs1 : ∀ c ∈ sub1, PlainClass c) (hs2 : ∀ c ∈ sub2, PlainClass c) (i j : Nat) (x y : String) (v w : V)
    (hx : x ≠ "tag") (hy : y ≠ "tag") (a b : Obj V) (ha : make (sub1 ++ [d]) i [(x, v)] = .ok a) (hb : make (sub2 ++ [d]) j [(y, w)] = .ok b) :
    opEq written a b = .ok (decide (x = y) && PyValue.eq v w) := by
  obtain ⟨_, mx, rfl⟩ := (make_ok_iff hs1 hd hi i x v hx a).1 ha
  obtain ⟨_, my, rfl⟩ := (make_ok_iff hs2 hd hi j y w hy b).1 hb
  have ha' := stored_reads h1 h2 hx mx i (sub1 ++ [d]) v
  have hb' := stored_reads h1 h2 hy my j (sub2 ++ [d]) w
  have hgen : f.assigns "__eq__" = true := by simp [Flags.assigns, hf]
  have e1 : callEq written ⟨i, sub1 ++ [d], stored d.ownFields x v⟩ ⟨j, sub2 ++ [d], stored d.ownFields y w⟩ =
      .ok (some (decide (x = y) && PyValue.eq v w)) := by
    rw [callEq, resolve_generated hs1 hd [] "__eq__" (by simp) hgen]
    simp only [eqGenerated_eq isA_last ha'.1 ha'.2 hb'.1 hb'.2]
    rfl
  have e2 : callEq written ⟨j, sub2 ++ [d], stored d.ownFields y w⟩ ⟨i, sub1 ++ [d], stored d.ownFields x v⟩ =
      .ok (some (decide (x = y) && PyValue.eq v w)) := by
    rw [callEq, resolve_generated hs2 hd [] "__eq__" (by simp) hgen]
    simp only [eqGenerated_eq isA_last hb'.1 hb'.2 ha'.1 ha'.2]
    rw [hsymm w v, show decide (y = x) = decide (x = y) from decide_eq_decide.2 ⟨Eq.symm, Eq.symm⟩]
    rfl
  simp only [opEq, e1, e2, ite_self, bind, Except.bind]

/-- Values of a frozen union and its plain subclasses that are in the same case with equal payloads hash alike. -/
theorem C89_hash [PyValue V] (hV : Spec.HashLawful V) (mix : String → String → Int → Int) (written : Nat → Obj V → Except PyErr Int)
    (d : ClassDef V) (f : Flags) (hd : d.deco = some f) (hf : f.frozen = true) (hi : "__init__" ∉ d.own) (h1 : "_index" ∉ d.ownFields)
    (h2 : "__dataclass_fields__" ∉ d.ownFields) (sub1 sub2 : List (ClassDef V)) (hs1 : ∀ c ∈ sub1, PlainClass c ∧ c.id ≠ d.id)
    (hs2 : ∀ c ∈ sub2, PlainClass c ∧ c.id ≠ d.id) (i j : Nat) (x : String) (v w : V)
    (hx : x ≠ "tag") (a b : Obj V) (ha : make (sub1 ++ [d]) i [(x, v)] = .ok a) (hb : make (sub2 ++ [d]) j [(x, w)] = .ok b)
    (hvw : PyValue.eq v w = true) : ∃ n, opHash mix written a = .ok n ∧ opHash mix written b = .ok n := by
  have p1 : ∀ c ∈ sub1, PlainClass c := fun c hc => (hs1 c hc).1
  have p2 : ∀ c ∈ sub2, PlainClass c := fun c hc => (hs2 c hc).1
  obtain ⟨_, mx, rfl⟩ := (make_ok_iff p1 hd hi i x v hx a).1 ha
  obtain ⟨_, my, rfl⟩ := (make_ok_iff p2 hd hi j x w hx b).1 hb
  have ha' := stored_reads h1 h2 hx mx i (sub1 ++ [d]) v
  have hb' := stored_reads h1 h2 hx my j (sub2 ++ [d]) w
  have hgen : f.assigns "__hash__" = true := by simp [Flags.assigns, hf]
  refine ⟨mix d.name x (PyValue.hash v), ?_, ?_⟩
  · rw [opHash, resolve_generated p1 hd [] "__hash__" (by simp) hgen]
    simp only [ha'.1, ha'.2, bind, Except.bind, generatedFor_last (fun c hc => (hs1 c hc).2)]
    rfl
  · rw [opHash, resolve_generated p2 hd [] "__hash__" (by simp) hgen]
    simp only [hb'.1, hb'.2, bind, Except.bind, generatedFor_last (fun c hc => (hs2 c hc).2), ← hV v w hvw]
    rfl

/-- The hash of a value of a frozen union is made of the name of the decorated class, also for values of plain subclasses and whatever the bases of the
union are, of the case and of the hash of the payload. -/
theorem C89_hash_of [PyValue V] (mix : String → String → Int → Int) (written : Nat → Obj V → Except PyErr Int) (d : ClassDef V) (f : Flags)
    (hd : d.deco = some f) (hf : f.frozen = true) (subs rest : List (ClassDef V)) (hs : ∀ c ∈ subs, PlainClass c ∧ c.id ≠ d.id) (u : Obj V)
    (hu : u.mro = subs ++ d :: rest) (x : String) (v : V) (ht : u.tag = .ok x) (hv : u.case x = .ok v) :
    opHash mix written u = .ok (mix d.name x (PyValue.hash v)) := by
  have hgen : f.assigns "__hash__" = true := by simp [Flags.assigns, hf]
  have hg : generatedFor (subs ++ d :: rest) d.id = d :: rest := by
    unfold generatedFor
    rw [List.dropWhile_append_of_pos (fun c hc => by simpa using (hs c hc).2), List.dropWhile_cons_of_neg (by simp)]
  rw [opHash, hu, resolve_generated (fun c hc => (hs c hc).1) hd rest "__hash__" (by simp) hgen]
  simp only [ht, hv, bind, Except.bind, hg]
  rfl

/-- The full property: a copy is of the class of the original and equal to it. -/
def C89_full_statement : Prop :=
  ∀ (i j : Nat) (v : Lit) (s c : Obj Lit), success i v = .ok s → opCopy (fun o => .ok o) j s = .ok c →
    c.mro.map (·.id) = s.mro.map (·.id)

/-- It is false: `copy(Success(1))` is a `Result`. -/
theorem C89_full_statement_false : ¬ C89_full_statement := by
  intro h
  exact absurd (h 0 1 (.int 1) _ _ rfl rfl) (by decide)

/-- A copy is a new value of the decorated class (so of the same class when the original was of that class), in the same case with the
same payload. -/
theorem C89_copy_partial [PyValue V] (written : Obj V → Except PyErr (Obj V)) (d : ClassDef V) (f : Flags) (hd : d.deco = some f)
    (hi : "__init__" ∉ d.own) (h1 : "_index" ∉ d.ownFields) (h2 : "__dataclass_fields__" ∉ d.ownFields) (subs : List (ClassDef V))
    (hs : ∀ c ∈ subs, PlainClass c ∧ c.id ≠ d.id) (i j : Nat) (x : String) (v : V) (hx : x ≠ "tag") (a : Obj V)
    (ha : make (subs ++ [d]) i [(x, v)] = .ok a) :
    ∃ c, opCopy written j a = .ok c ∧ c.ident = j ∧ c.mro = [d] ∧ c.attrs = a.attrs ∧ c.tag = .ok x ∧ c.case x = .ok v := by
  have p : ∀ c ∈ subs, PlainClass c := fun c hc => (hs c hc).1
  obtain ⟨hself, mx, rfl⟩ := (make_ok_iff p hd hi i x v hx a).1 ha
  have ha' := stored_reads h1 h2 hx mx i (subs ++ [d]) v
  have hc' := stored_reads h1 h2 hx mx j [d] v
  have hm := (make_ok_iff (subs := []) (by simp) hd hi j x v hx _).2 ⟨hself, mx, rfl⟩
  rw [List.nil_append] at hm
  refine ⟨⟨j, [d], stored d.ownFields x v⟩, ?_, rfl, rfl, rfl, hc'.1, hc'.2⟩
  rw [opCopy, resolve_generated p hd [] "__copy__" (by simp) (by simp [Flags.assigns])]
  simp only [copyGenerated, ha'.1, ha'.2, bind, Except.bind, generatedFor_last (fun c hc => (hs c hc).2), hm]

/-- `Success(v) == Ok(v)`, on both sides. -/
example (w : Nat → Obj Lit → Obj Lit → Except PyErr (Option Bool)) :
    ∃ s o, success 0 (Lit.int 5) = .ok s ∧ make [resultDef] 1 [("ok", Lit.int 5)] = .ok o ∧ opEq w s o = .ok true ∧ opEq w o s = .ok true := by
  have hsym : ∀ p q : Lit, PyValue.eq p q = PyValue.eq q p := fun p q => decide_eq_decide.2 ⟨Eq.symm, Eq.symm⟩
  have hp : ∀ c ∈ [(tryDef : ClassDef Lit)], PlainClass c := by simp [PlainClass, tryDef]
  exact ⟨_, _, rfl, rfl,
    C89_equality hsym w resultDef _ rfl rfl (by decide) (by decide) (by decide) [tryDef] [] hp (by simp) 0 1 "ok" "ok" (.int 5) (.int 5)
      (by decide) (by decide) _ _ rfl rfl,
    C89_equality hsym w resultDef _ rfl rfl (by decide) (by decide) (by decide) [] [tryDef] (by simp) hp 1 0 "ok" "ok" (.int 5) (.int 5)
      (by decide) (by decide) _ _ rfl rfl⟩

end Expression.Props
