import Verif.Spec.Match
import Verif.Lemmas.UnionClass

/-! # Lemmas on pattern matching -/

namespace Expression.Lemmas.Match

open TU Spec Pat

variable {σ A α : Type}

theorem lookup_thing (attrs : List (String × Attr (Thing A))) (n : String) :
    (attrs.map (fun na => (na.1, na.2.thing))).lookup n = (TU.lookup attrs n).map Attr.thing := by
  induction attrs with
  | nil => rfl
  | cons a attrs ih =>
    obtain ⟨m, a⟩ := a
    simp only [List.map_cons, List.lookup_cons, TU.lookup]
    by_cases h : m = n
    · subst h; simp
    · rw [if_neg h, show (n == m) = false by simpa using (Ne.symm h)]; exact ih

variable [PyValue (Thing A)]

theorem isCase_inst {d : ClassDef (Thing A)} (hd : OrdinaryUnion d) {n : String} {v o : Thing A} (h : IsCase d n v o) :
    n ∈ d.ownFields ∧ n ≠ "tag" ∧ o.isInstance d.id = true ∧ o.attr "tag" = some (.str n) ∧ o.attr n = some v ∧
    ∀ m ∈ d.ownFields, m ≠ n → m ≠ "tag" → o.attr m = none := by
  obtain ⟨hn, subs, ident, u, hs, hm, rfl⟩ := h
  obtain ⟨f, hf⟩ := Option.isSome_iff_exists.1 hd.decorated
  obtain ⟨_, hx, rfl⟩ := (make_ok_iff hs hf hd.noInit ident n v hn u).1 hm
  have e : ∀ m, (Obj.thing ⟨ident, subs ++ [d], stored d.ownFields n v⟩ : Thing A).attr m = (TU.lookup (stored d.ownFields n v) m).map Attr.thing :=
    fun m => lookup_thing _ m
  have n1 : "_index" ≠ n := fun h => hd.noIndex (h ▸ hx)
  have n2 : "__dataclass_fields__" ≠ n := fun h => hd.noFields (h ▸ hx)
  refine ⟨hx, hn, ?_, ?_, ?_, ?_⟩
  · simp [Obj.thing, Thing.isInstance]
  · rw [e, lookup_stored, if_neg (by decide), if_neg (by decide), if_neg hn, if_pos rfl]; rfl
  · rw [e, lookup_stored, if_neg n2, if_neg n1, if_pos rfl]; rfl
  · intro m hm h1 h2
    rw [e, lookup_stored, if_neg (fun h : "__dataclass_fields__" = m => hd.noFields (h ▸ hm)), if_neg (fun h : "_index" = m => hd.noIndex (h ▸ hm)), if_neg (Ne.symm h1), if_neg (Ne.symm h2)]
    rfl

theorem run_cls_some {c : PyClass} {nargs : Nat} {kw : List String} (ps : List (Pat A)) {o : Thing A} {vs : List (Thing A)}
    (h : o.isInstance c.id = true) (ha : attributes c nargs kw o = .ok (some vs)) : Pat.run (.cls c nargs kw ps) o = runAll ps vs := by
  rw [Pat.run, if_pos h, ha]; rfl

theorem run_cls_none {c : PyClass} {nargs : Nat} {kw : List String} (ps : List (Pat A)) {o : Thing A}
    (h : o.isInstance c.id = true) (ha : attributes c nargs kw o = .ok none) : Pat.run (.cls c nargs kw ps) o = .ok none := by
  rw [Pat.run, if_pos h, ha]; rfl

theorem run_cls_error {c : PyClass} {nargs : Nat} {kw : List String} (ps : List (Pat A)) {o : Thing A} {e : PyErr}
    (h : o.isInstance c.id = true) (ha : attributes c nargs kw o = .error e) : Pat.run (.cls c nargs kw ps) o = .error e := by
  rw [Pat.run, if_pos h, ha]; rfl

theorem run_cls_other (c : PyClass) (nargs : Nat) (kw : List String) (ps : List (Pat A)) (o : Thing A) (h : o.isInstance c.id = false) :
    Pat.run (.cls c nargs kw ps) o = .ok none := by
  rw [Pat.run, if_neg (by simp [h])]

theorem runAll_none {p : Pat A} {v : Thing A} (ps : List (Pat A)) (vs : List (Thing A)) (h : Pat.run p v = .ok none) :
    runAll (p :: ps) (v :: vs) = .ok none := by
  rw [runAll, h]; rfl

theorem runAll_some {p : Pat A} {v : Thing A} (ps : List (Pat A)) (vs : List (Thing A)) {b : Bindings A} (h : Pat.run p v = .ok (some b)) :
    runAll (p :: ps) (v :: vs) = (runAll ps vs).map (Option.map (b ++ ·)) := by
  rw [runAll, h]
  rcases runAll ps vs with e | _ | b' <;> rfl

theorem runAll_one (p : Pat A) (v : Thing A) : runAll [p] [v] = Pat.run p v := by
  rcases h : Pat.run p v with e | _ | b
  · rw [runAll, h]; rfl
  · rw [runAll_none _ _ h]
  · rw [runAll_some _ _ h, show runAll ([] : List (Pat A)) [] = .ok (some []) by simp [runAll]]
    simp [Except.map]

omit [PyValue (Thing A)] in
/-- attributes that are all there -/
theorem readAttrs_some {o : Thing A} : ∀ (ns : List String) (vs : List (Thing A)) (seen : List String), ns.length = vs.length → ns.Nodup →
    (∀ n ∈ ns, n ∉ seen) → (∀ (i : Nat) n v, ns[i]? = some n → vs[i]? = some v → o.attr n = some v) → readAttrs o seen ns = .ok (some vs) := by
  intro ns
  induction ns with
  | nil =>
    intro vs seen hl _ _ _
    cases vs with
    | nil => rfl
    | cons v vs => cases hl
  | cons n ns ih =>
    intro vs seen hl hn hs h
    cases vs with
    | nil => cases hl
    | cons v vs =>
      rw [readAttrs, if_neg (hs n (by simp)), h 0 n v rfl rfl]
      simp only
      rw [ih vs (n :: seen) (by simpa using hl) (List.nodup_cons.1 hn).2 ?_ (fun i n v hn hv => h (i + 1) n v hn hv)]
      · rfl
      · intro m hm hm'
        rcases List.mem_cons.1 hm' with rfl | hm'
        · exact (List.nodup_cons.1 hn).1 hm
        · exact hs m (List.mem_cons_of_mem _ hm) hm'

omit [PyValue (Thing A)] in
/-- one of the attributes is not there -/
theorem readAttrs_none {o : Thing A} : ∀ (ns : List String) (seen : List String), ns.Nodup →
    (∀ n ∈ ns, n ∉ seen) → (∃ n ∈ ns, o.attr n = none) → readAttrs o seen ns = .ok none := by
  intro ns
  induction ns with
  | nil => intro seen _ _ ⟨n, hn, _⟩; cases hn
  | cons n ns ih =>
    intro seen hn hs ⟨m, hm, ha⟩
    rw [readAttrs, if_neg (hs n (by simp))]
    rcases h : o.attr n with _ | v
    · rfl
    · have hm : m ∈ ns := by
        rcases List.mem_cons.1 hm with rfl | hm
        · rw [ha] at h; cases h
        · exact hm
      simp only
      rw [ih (n :: seen) (List.nodup_cons.1 hn).2 ?_ ⟨m, hm, ha⟩]
      · rfl
      · intro k hk hk'
        rcases List.mem_cons.1 hk' with rfl | hk'
        · exact (List.nodup_cons.1 hn).1 hk
        · exact hs k (List.mem_cons_of_mem _ hk) hk'

omit [PyValue (Thing A)] in
theorem patternClass_one {d : ClassDef (Thing A)} (hd : OrdinaryUnion d) : patternClass [d] = ⟨d.id, d.name, d.ownFields⟩ := by
  have h : d.deco.isNone = false := by
    cases h : d.deco with
    | none => have := hd.decorated; rw [h] at this; cases this
    | some f => rfl
  simp [patternClass, h, fieldNames]

theorem matchStmt_none {c : Case σ A α} {rest : List (Case σ A α)} {o : Thing A} (h : c.pat.run o = .ok none) :
    matchStmt (c :: rest) o = matchStmt rest o := by
  rw [matchStmt, h]
  simp [PyD.ofExcept]

theorem matchStmt_some {p : Pat A} {body : Bindings A → PyD σ α} {rest : List (Case σ A α)} {o : Thing A} {b : Bindings A}
    (h : p.run o = .ok (some b)) : matchStmt ({ pat := p, body := body } :: rest) o = some <$> body b := by
  rw [matchStmt, h]
  simp [PyD.ofExcept]

/-- the attributes of a union value that a pattern asks for -/
theorem attributes_tag {d : ClassDef (Thing A)} (hd : OrdinaryUnion d) {n : String} {v o : Thing A} (h : IsCase d n v o) :
    attributes (patternClass [d]) 0 ["tag"] o = .ok (some [.str n]) := by
  obtain ⟨_, _, _, ht, _, _⟩ := isCase_inst hd h
  simp [attributes, readAttrs, ht]
  rfl

theorem attributes_case {d : ClassDef (Thing A)} (hd : OrdinaryUnion d) {n : String} {v o : Thing A} (h : IsCase d n v o) {m : String}
    (hm : m ∈ d.ownFields) (hmt : m ≠ "tag") :
    attributes (patternClass [d]) 0 [m] o = .ok (if m = n then some [v] else none) := by
  obtain ⟨_, _, _, _, hv, hno⟩ := isCase_inst hd h
  by_cases e : m = n
  · subst e
    simp [attributes, readAttrs, hv]
    rfl
  · simp [attributes, readAttrs, hno m hm e hmt, e]

theorem attributes_both {d : ClassDef (Thing A)} (hd : OrdinaryUnion d) {n : String} {v o : Thing A} (h : IsCase d n v o) {m : String}
    (hm : m ∈ d.ownFields) (hmt : m ≠ "tag") :
    attributes (patternClass [d]) 0 ["tag", m] o = .ok (if m = n then some [.str n, v] else none) := by
  obtain ⟨_, _, _, ht, hv, hno⟩ := isCase_inst hd h
  by_cases e : m = n
  · subst e
    simp [attributes, readAttrs, hv, ht, hmt]
    rfl
  · simp [attributes, readAttrs, ht, hno m hm e hmt, e, hmt]
    rfl

section

variable {A : Type} [PyValue (Thing A)]

theorem runAll_captures (names : List String) (vs : List (Thing A)) :
    Pat.runAll (names.map .capture) vs = .ok (some (names.zip vs)) := by
  induction names generalizing vs with
  | nil => simp [Pat.runAll]
  | cons n ns ih =>
    cases vs with
    | nil => simp [Pat.runAll]
    | cons v vs => rw [List.map_cons, runAll_some (b := [(n, v)]) _ _ (by rw [Pat.run]), ih]; rfl

theorem run_seq_captures (names : List String) (o : Thing A) (xs : List (Thing A)) (h : o.elements = some xs) :
    (Pat.seq (names.map .capture)).run o = .ok (if xs.length = names.length then some (names.zip xs) else none) := by
  rw [Pat.run, h]
  by_cases e : xs.length = names.length
  · simp [e, runAll_captures]
  · simp [e]

theorem run_seqStar_captures (pre post : List String) (x : String) (o : Thing A) (xs : List (Thing A)) (h : o.elements = some xs) :
    (∀ first middle last, xs = first ++ middle ++ last → first.length = pre.length → last.length = post.length →
      (Pat.seqStar (pre.map .capture) (some x) (post.map .capture)).run o =
        .ok (some (pre.zip first ++ (x, .list middle) :: post.zip last))) ∧
    (xs.length < pre.length + post.length → (Pat.seqStar (pre.map .capture) (some x) (post.map .capture)).run o = .ok none) := by
  refine ⟨fun first middle last e h1 h2 => ?_, fun hl => ?_⟩
  · subst e
    rw [Pat.run, h]
    have hl : ¬ (first ++ middle ++ last).length < pre.length + post.length := by simp only [List.length_append]; omega
    have t1 : (first ++ middle ++ last).take pre.length = first := by rw [← h1, List.append_assoc, List.take_left]
    have t2 : (first ++ middle ++ last).drop ((first ++ middle ++ last).length - post.length) = last := by
      have : (first ++ middle ++ last).length - post.length = (first ++ middle).length := by simp only [List.length_append]; omega
      rw [this, List.drop_left]
    have t3 : ((first ++ middle ++ last).drop pre.length).take ((first ++ middle ++ last).length - pre.length - post.length) = middle := by
      have : (first ++ middle ++ last).length - pre.length - post.length = middle.length := by simp only [List.length_append]; omega
      rw [this, ← h1, List.append_assoc, List.drop_left, List.take_left]
    simp only [List.length_map, t1, t2, t3, runAll_captures, if_neg hl]
    show Except.ok (some (pre.zip first ++ [(x, Thing.list middle)] ++ post.zip last)) = _
    simp
  · rw [Pat.run, h]
    simp only [List.length_map]
    rw [if_pos hl]

end

end Expression.Lemmas.Match
