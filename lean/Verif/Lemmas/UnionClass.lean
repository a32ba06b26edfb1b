import Verif.Spec.UnionClass
import Verif.Lemmas.Union

/-! # Lemmas on the classes of tagged unions -/

namespace Expression.Lemmas

open TU Spec

variable {V : Type}

theorem resolve_plain {subs : List (ClassDef V)} (hs : ∀ c ∈ subs, PlainClass c) (rest : List (ClassDef V)) (m : String)
    (hm : m ∈ ["__init__", "__eq__", "__hash__", "__copy__"]) : resolve (subs ++ rest) m = resolve rest m := by
  induction subs with
  | nil => rfl
  | cons c subs ih =>
    obtain ⟨hd, ho⟩ := hs c (by simp)
    have h1 : m ∉ c.own := ho m hm
    have h2 : "__eq__" ∉ c.own := ho _ (by simp)
    rw [List.cons_append, resolve, classDict, hd]
    simp only [classDict.body, if_neg h1, h2, and_false, if_false, Option.getD_none]
    exact ih (fun c hc => hs c (List.mem_cons_of_mem _ hc))

theorem resolve_generated {subs : List (ClassDef V)} (hs : ∀ c ∈ subs, PlainClass c) {d : ClassDef V} {f : Flags} (hd : d.deco = some f)
    (rest : List (ClassDef V)) (m : String) (hm : m ∈ ["__init__", "__eq__", "__hash__", "__copy__"]) (hf : f.assigns m = true) :
    resolve (subs ++ d :: rest) m = .generated d.id := by
  rw [resolve_plain hs _ m hm, resolve, classDict, hd]
  simp only [hf, if_true, Option.getD_some]

theorem callInit_plain [PyValue V] {subs : List (ClassDef V)} (hs : ∀ c ∈ subs, c.deco = none ∧ "__init__" ∉ c.own)
    (rest : List (ClassDef V)) (attrs : List (String × Attr V)) (kwargs : List (String × V)) :
    callInit (subs ++ rest) attrs kwargs = callInit rest attrs kwargs := by
  induction subs with
  | nil => rfl
  | cons c subs ih =>
    obtain ⟨hd, ho⟩ := hs c (by simp)
    rw [List.cons_append, callInit, hd]
    simp only [if_neg ho]
    exact ih (fun c hc => hs c (List.mem_cons_of_mem _ hc))

theorem callInit_decorated_nil [PyValue V] (d : ClassDef V) {f : Flags} (hd : d.deco = some f) (rest : List (ClassDef V))
    (attrs : List (String × Attr V)) : callInit (d :: rest) attrs [] = .error (.typeError "A case must be specified") := by
  rw [callInit, hd]
  rfl

theorem storeCase_error [PyValue V] (names : List String) (attrs : List (String × Attr V)) (tag : Option V) (kwargs : List (String × V))
    (e : PyErr) (h : storeCase names attrs tag kwargs = .error e) : ∃ msg, e = .typeError msg := by
  rcases kwargs with _ | ⟨⟨n, v⟩, rest⟩
  · cases h; exact ⟨_, rfl⟩
  · simp only [storeCase] at h
    split at h
    · cases h; exact ⟨_, rfl⟩
    · split at h
      · cases h; exact ⟨_, rfl⟩
      · split at h
        · exact nomatch h
        · cases h; exact ⟨_, rfl⟩

/-- what `storeCase` leaves on an instance without attributes -/
def stored (names : List String) (x : String) (v : V) : List (String × Attr V) :=
  setAttr (setAttr (setAttr (setAttr [] "tag" (.name x)) x (.obj v)) "_index" (.index (names.idxOf x)))
    "__dataclass_fields__" (.fields (names.filter (fun f => f == x || f == "tag")))

theorem lookup_stored (names : List String) (x : String) (v : V) (m : String) :
    lookup (stored names x v) m =
      if "__dataclass_fields__" = m then some (.fields (names.filter (fun f => f == x || f == "tag")))
      else if "_index" = m then some (.index (names.idxOf x))
      else if x = m then some (.obj v) else if "tag" = m then some (.name x) else none := by
  simp only [stored, lookup_setAttr]
  rfl

/-- a single decorated class with plain subclasses above it -/
theorem make_ok_iff [PyValue V] {subs : List (ClassDef V)} (hs : ∀ c ∈ subs, PlainClass c) {d : ClassDef V} {f : Flags}
    (hd : d.deco = some f) (hi : "__init__" ∉ d.own) (i : Nat) (x : String) (v : V) (hx : x ≠ "tag") (a : Obj V) :
    make (subs ++ [d]) i [(x, v)] = .ok a ↔ x ≠ "self" ∧ x ∈ d.ownFields ∧ a = ⟨i, subs ++ [d], stored d.ownFields x v⟩ := by
  have hp : ∀ c ∈ subs, c.deco = none ∧ "__init__" ∉ c.own := fun c hc => ⟨(hs c hc).1, (hs c hc).2 _ (by simp)⟩
  have hn : fieldNames [d] = d.ownFields := by simp [fieldNames]
  have hx' : (x != "tag") = true := by simpa using hx
  have hx'' : (x == "tag") = false := by simpa using hx
  by_cases hself : x = "self"
  · subst hself
    constructor
    · intro h; exact nomatch h
    · intro h; exact absurd rfl h.1
  have hs' : (x == "self") = false := by simpa using hself
  rw [make]
  simp only [List.any_cons, List.any_nil, hs', Bool.or_false, Bool.false_eq_true, if_false]
  rw [callInit_plain hp, callInit, hd]
  simp only [hn, tagArg, List.filter_cons, List.filter_nil, hx', if_true, List.find?_cons, hx'', List.find?_nil, Option.map_none, if_neg hi,
    callInit]
  by_cases hm : x ∈ d.ownFields
  · simp only [storeCase, hm, not_true_eq_false, if_false, ne_eq, tagMatches, if_true, stored]
    constructor
    · intro h; cases h; exact ⟨hself, trivial, rfl⟩
    · rintro ⟨_, _, rfl⟩; rfl
  · simp only [storeCase, hm, not_false_eq_true, if_true, false_and, and_false, iff_false]
    intro h; exact nomatch h

/-- the tag and the payload of a value -/
theorem stored_reads {d : ClassDef V} (h1 : "_index" ∉ d.ownFields) (h2 : "__dataclass_fields__" ∉ d.ownFields) {x : String} (hx : x ≠ "tag")
    (hm : x ∈ d.ownFields) (i : Nat) (mro : List (ClassDef V)) (v : V) :
    (⟨i, mro, stored d.ownFields x v⟩ : Obj V).tag = .ok x ∧ (⟨i, mro, stored d.ownFields x v⟩ : Obj V).case x = .ok v := by
  have n1 : "_index" ≠ x := fun h => h1 (h ▸ hm)
  have n2 : "__dataclass_fields__" ≠ x := fun h => h2 (h ▸ hm)
  constructor
  · rw [Obj.tag]; simp only [lookup_stored]
    rw [if_neg (by decide), if_neg (by decide), if_neg hx, if_pos trivial]
  · rw [Obj.case]; simp only [lookup_stored]
    rw [if_neg n2, if_neg n1, if_pos trivial]

theorem eqGenerated_eq [PyValue V] {a b : Obj V} {id : Nat} {x y : String} {v w : V} (hb : b.isA id = true) (ha1 : a.tag = .ok x)
    (ha2 : a.case x = .ok v) (hb1 : b.tag = .ok y) (hb2 : b.case y = .ok w) :
    eqGenerated id a b = .ok (decide (x = y) && PyValue.eq v w) := by
  rw [eqGenerated, if_pos hb, ha1, hb1]
  by_cases h : x = y
  · subst h
    simp only [bind, Except.bind, if_true, ha2, hb2, decide_true, Bool.true_and]
  · simp only [bind, Except.bind, if_neg h, decide_eq_false h, Bool.false_and]

theorem isA_last {subs : List (ClassDef V)} {d : ClassDef V} {i : Nat} {attrs : List (String × Attr V)} :
    (⟨i, subs ++ [d], attrs⟩ : Obj V).isA d.id = true := by simp [Obj.isA]

theorem generatedFor_last {subs : List (ClassDef V)} {d : ClassDef V} (h : ∀ c ∈ subs, c.id ≠ d.id) :
    generatedFor (subs ++ [d]) d.id = [d] := by
  induction subs with
  | nil => simp [generatedFor]
  | cons c subs ih =>
    have : (c.id != d.id) = true := by simpa using h c (by simp)
    rw [generatedFor, List.cons_append, List.dropWhile_cons, if_pos this]
    exact ih (fun c hc => h c (List.mem_cons_of_mem _ hc))

end Expression.Lemmas
