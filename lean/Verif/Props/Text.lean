import Verif.Lemmas.Text
import Verif.Lemmas.Parser3
import Verif.Props.Map
import Verif.Props.TaggedUnion

/-! # C90, C99: the text of blocks and maps, options, results and unions -/

namespace Expression.Props

open Lemmas Spec

variable {α ε K V : Type}

/-- The full property: if the texts of the elements tell elements apart, the texts of blocks tell blocks apart. -/
def C90_full_statement : Prop :=
  ∀ (str : String → List Char), (∀ x y, str x = str y → x = y) → ∀ b b' : Block String, b.str str = b'.str str → b = b'

/-- It is false: `Block.of("a, b")` and `Block.of("a", "b")` both print as `[a, b]`. -/
theorem C90_full_statement_false : ¬ C90_full_statement := by
  intro h
  have := h String.toList (fun _ _ => String.toList_inj.1) ⟨["a, b"]⟩ ⟨["a", "b"]⟩ (by decide)
  exact absurd this (by decide)

/-- The text of a block is the texts of its elements in order, with a comma and a blank between them, in brackets. -/
theorem C90_block_text (str : α → List Char) (xs : List α) :
    (⟨xs⟩ : Block α).str str = ['['] ++ [',', ' '].intercalate (xs.map str) ++ [']'] := by
  rw [← joinText_eq]; rfl

/-- Blocks whose elements have different texts, none empty and none with a comma in it, have different texts. -/
theorem C90_block_partial (str : α → List Char) (hinj : ∀ x y, str x = str y → x = y) (hcomma : ∀ x, ',' ∉ str x) (hne : ∀ x, str x ≠ [])
    (b b' : Block α) (h : b.str str = b'.str str) : b = b' := by
  obtain ⟨xs⟩ := b
  obtain ⟨ys⟩ := b'
  have h1 := joinText_inj (c := ',') (sep := [' ']) (ps := xs.map str) (qs := ys.map str)
    (by simpa using fun x _ => ⟨hcomma x, hne x⟩) (by simpa using fun x _ => ⟨hcomma x, hne x⟩) (wrap_inj h)
  rw [map_inj_on hinj h1]

/-- The decimal text of integers is injective, not empty, and has no comma or semicolon in it. -/
theorem intText_ok : (∀ x y : Int, (toString x).toList = (toString y).toList → x = y) ∧ (∀ x : Int, (toString x).toList ≠ []) ∧
    ∀ (c : Char), c.isDigit = false → c ≠ '-' → ∀ x : Int, c ∉ (toString x).toList := by
  refine ⟨?_, ?_, ?_⟩
  · intro x y h
    have hx := Lemmas.Parser.pint_toString (σ := Unit) x [] [] (by intro c hc; cases hc) ()
    have hy := Lemmas.Parser.pint_toString (σ := Unit) y [] [] (by intro c hc; cases hc) ()
    rw [h] at hx
    unfold Spec.Succeeds at hx hy
    rw [hy] at hx
    exact (Prod.mk.inj (Res.ok.inj (Except.ok.inj (Prod.mk.inj (Option.some.inj hx)).1))).1.symm
  · intro x hx
    rw [Lemmas.Parser.int_toString] at hx
    exact Nat.toDigits_ne_nil (List.append_eq_nil_iff.1 hx).2
  · intro c h1 h2 x hx
    rw [Lemmas.Parser.int_toString] at hx
    rcases List.mem_append.1 hx with h | h
    · split at h <;> simp at h
      exact h2 h
    · rw [Lemmas.Parser.digits_toDigits _ _ h] at h1
      exact nomatch h1

/-- So blocks of integers can be told apart by their text. -/
theorem C90_block_int (b b' : Block Int) (h : b.str (fun n => (toString n).toList) = b'.str (fun n => (toString n).toList)) : b = b' :=
  C90_block_partial _ intText_ok.1 (intText_ok.2.2 ',' (by decide) (by decide)) intText_ok.2.1 b b' h

example : (⟨[1, -20]⟩ : Block Int).str (fun n => (toString n).toList) = "[1, -20]".toList := by decide

/-- Printing a map that can be made does not raise and gives its bindings in key order. -/
theorem C90_map_text [PyOrd K] [LawfulPyOrd K] (isStr : K → Bool) (strK : K → List Char) (strV : V → List Char) (m : Map K V) (hm : Reachable m) :
    m.str isStr strK strV = .ok ("map [".toList ++ [';', ' '].intercalate (m.toList.map (fun kv =>
      if isStr kv.1 then "(\"".toList ++ strK kv.1 ++ "\", ".toList ++ strV kv.2 ++ ")".toList
      else "(".toList ++ strK kv.1 ++ ", ".toList ++ strV kv.2 ++ ")".toList)) ++ "]".toList) := by
  rw [Map.str, (C02_enumeration_ascending_complete (σ := Unit) m hm).2.2.1, ← joinText_eq]
  rfl

/-- Maps without string keys, whose keys have different texts without comma or semicolon and whose values have different texts without
semicolon, have different texts unless they have the same bindings. -/
theorem C90_map_partial [PyOrd K] [LawfulPyOrd K] (strK : K → List Char) (strV : V → List Char)
    (hk : ∀ x y, strK x = strK y → x = y) (hv : ∀ x y, strV x = strV y → x = y) (hk1 : ∀ x, ',' ∉ strK x) (hk2 : ∀ x, ';' ∉ strK x)
    (hv2 : ∀ x, ';' ∉ strV x) (m m' : Map K V) (hm : Reachable m) (hm' : Reachable m')
    (h : m.str (fun _ => false) strK strV = m'.str (fun _ => false) strK strV) : m.toList = m'.toList := by
  rw [C90_map_text _ strK strV m hm, C90_map_text _ strK strV m' hm', ← joinText_eq, ← joinText_eq] at h
  have hitem : ∀ kv : K × V, ';' ∉ "(".toList ++ strK kv.1 ++ ", ".toList ++ strV kv.2 ++ ")".toList ∧
      "(".toList ++ strK kv.1 ++ ", ".toList ++ strV kv.2 ++ ")".toList ≠ [] := by
    intro kv
    refine ⟨?_, by simp⟩
    simp only [List.mem_append, not_or]
    exact ⟨⟨⟨⟨by decide, hk2 _⟩, by decide⟩, hv2 _⟩, by decide⟩
  have hall : ∀ (l : List (K × V)), ∀ p ∈ l.map (fun kv : K × V =>
      if (false : Bool) then "(\"".toList ++ strK kv.1 ++ "\", ".toList ++ strV kv.2 ++ ")".toList
      else "(".toList ++ strK kv.1 ++ ", ".toList ++ strV kv.2 ++ ")".toList), ';' ∉ p ∧ p ≠ [] := by
    intro l p hp
    obtain ⟨kv, _, rfl⟩ := List.mem_map.1 hp
    exact hitem kv
  have h1 := joinText_inj (c := ';') (sep := [' ']) (hall m.toList) (hall m'.toList)
    (wrap_inj (Except.ok.inj h))
  refine map_inj_on ?_ h1
  rintro ⟨k, v⟩ ⟨k', v'⟩ he
  simp only [Bool.false_eq_true, if_false] at he
  have he' : strK k ++ ',' :: (' ' :: strV v ++ [')']) = strK k' ++ ',' :: (' ' :: strV v' ++ [')']) := by
    have := List.append_cancel_left (as := "(".toList) (by simpa only [List.append_assoc] using he)
    simpa using this
  obtain ⟨h2, h3⟩ := split_inj (hk1 k) (hk1 k') he'
  have h4 : strV v = strV v' := List.append_cancel_right (List.cons.inj h3).2
  rw [hk _ _ h2, hv _ _ h4]

/-- Two maps from integers to integers that print alike have the same bindings. -/
theorem C90_map_int (m m' : Map Int Int) (hm : Reachable m) (hm' : Reachable m')
    (h : m.str (fun _ => false) (fun n => (toString n).toList) (fun n => (toString n).toList) =
      m'.str (fun _ => false) (fun n => (toString n).toList) (fun n => (toString n).toList)) : m.toList = m'.toList :=
  C90_map_partial _ _ intText_ok.1 intText_ok.1 (intText_ok.2.2 ',' (by decide) (by decide)) (intText_ok.2.2 ';' (by decide) (by decide))
    (intText_ok.2.2 ';' (by decide) (by decide)) m m' hm hm' h

example : (runMap [.add (2 : Int) (-1 : Int), .add 1 5]).str (fun _ => false) (fun n => (toString n).toList) (fun n => (toString n).toList) =
    .ok "map [(1, 5); (2, -1)]".toList := by decide +kernel

/-- The text of an option tells the case and the text of the value; whatever the value's text is, `Some` is never taken for
`Nothing`. -/
theorem C99_option (str : α → List Char) (o o' : Option α) :
    (Opt.str str o = Opt.str str o' ↔ o.map str = o'.map str) ∧ (o = none → Opt.str str o = ['N', 'o', 't', 'h', 'i', 'n', 'g']) ∧
      ∀ x, o = some x → Opt.str str o = ['S', 'o', 'm', 'e', ' '] ++ str x := by
  cases o <;> cases o' <;> simp [Opt.str]

/-- The text of a result tells the case and the text of the value or error. -/
theorem C99_result (strA : α → List Char) (strE : ε → List Char) (r r' : Res α ε) :
    (Res.str strA strE r = Res.str strA strE r' ↔
      (∃ x y, r = .ok x ∧ r' = .ok y ∧ strA x = strA y) ∨ (∃ x y, r = .error x ∧ r' = .error y ∧ strE x = strE y)) ∧
      (∀ x, r = .ok x → Res.str strA strE r = ['O', 'k', ' '] ++ strA x) ∧
      ∀ e, r = .error e → Res.str strA strE r = ['E', 'r', 'r', 'o', 'r', ' '] ++ strE e := by
  cases r <;> cases r' <;> simp [Res.str]

example : Opt.str (fun n : Int => (toString n).toList) (some (-5)) = "Some -5".toList ∧
    Res.str (fun n : Int => (toString n).toList) String.toList (.error "Ok 5") = "Error Ok 5".toList := by decide

/-- `repr` of a value of a tagged union, made by any call of the class that does not raise: the name of the class, the case, and the
`repr` of the payload. -/
theorem C99_union [PyValue V] (c : TU.Cls) (hc : Ordinary c) (ident : Nat) (kwargs : List (String × V)) (u : TU.Inst V)
    (h : TU.init c ident kwargs = .ok u) (repr : V → List Char) :
    ∃ name v, kwargs.filter (fun kv => kv.1 != "tag") = [(name, v)] ∧
      TU.repr repr u = .ok (c.name.toList ++ ['('] ++ name.toList ++ ['='] ++ repr v ++ [')']) := by
  obtain ⟨name, v, hk, _⟩ := (C30_construction c ident kwargs).1 ⟨u, h⟩
  obtain ⟨h1, _, h3, _⟩ := C30_reading c hc ident kwargs u h name v hk
  refine ⟨name, v, hk, ?_⟩
  have hcls : u.cls = c := by
    obtain ⟨n', v', _, _, _, _, rfl⟩ := (init_ok_iff c ident kwargs u).1 h
    rfl
  simp only [TU.repr, h1, h3, hcls]
  rfl

/-- So two values of one class print alike only if they are of the same case and the `repr`s of their payloads are alike.
(Case names are identifiers: there is no `=` in them.) -/
theorem C99_union_inj [PyValue V] (c : TU.Cls) (hc : Ordinary c) (i j : Nat) (name name' : String) (v v' : V) (u u' : TU.Inst V)
    (hn : '=' ∉ name.toList) (hn' : '=' ∉ name'.toList) (ht : name ≠ "tag") (ht' : name' ≠ "tag")
    (h : TU.init c i [(name, v)] = .ok u) (h' : TU.init c j [(name', v')] = .ok u') (repr : V → List Char)
    (hr : TU.repr repr u = TU.repr repr u') : name = name' ∧ repr v = repr v' := by
  obtain ⟨n, x, hk, e⟩ := C99_union c hc i _ u h repr
  obtain ⟨n', x', hk', e'⟩ := C99_union c hc j _ u' h' repr
  rw [List.filter_cons_of_pos (by simpa using ht)] at hk
  rw [List.filter_cons_of_pos (by simpa using ht')] at hk'
  obtain ⟨rfl, rfl⟩ : name = n ∧ v = x := by simpa using hk
  obtain ⟨rfl, rfl⟩ : name' = n' ∧ v' = x' := by simpa using hk'
  rw [e, e'] at hr
  have h1 := Except.ok.inj hr
  simp only [List.append_assoc] at h1
  have h2 := List.append_cancel_left (List.append_cancel_left h1)
  obtain ⟨h3, h4⟩ := split_inj (c := '=') hn hn' (by simpa using h2)
  exact ⟨String.toList_inj.1 h3, List.append_cancel_right h4⟩

/-- `repr(Shape(circle=5))`, with the tag given as well -/
example : ((TU.init shapeCls 3 [("tag", Lit.str "circle"), ("circle", .int 5)]).bind
    (TU.repr (fun v => match v with | .int n => (toString n).toList | .str s => s.toList | .none => "None".toList))) =
      .ok "Shape(circle=5)".toList := by decide

end Expression.Props
