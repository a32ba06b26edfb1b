import Verif.Spec.ParserText
import Verif.Lemmas.PyD

/-! # The texts of parsers -/

namespace Expression.Lemmas.ParserText

open Expression Spec PyD

variable {σ α : Type}

/-- the text of a construction -/
def text : Construction → Str
  | .other => Named.lit "parser"
  | .pchar char => Named.lit "pchar('" ++ char ++ Named.lit "')"
  | .andThen p1 p2 => Named.lit "and_then(" ++ text p2 ++ Named.lit ", " ++ text p1
  | .orElse p1 p2 => Named.lit "or_else(" ++ text p2 ++ Named.lit ", " ++ text p1
  | .map p => Named.lit "map(A => B, " ++ text p ++ Named.lit ")"
  | .preturn s => Named.lit "preturn(" ++ s ++ Named.lit ")"
  | .fail e => Named.lit "fail(\"" ++ e ++ Named.lit "\")"
  | .many p => Named.lit "many(" ++ text p ++ Named.lit ")"
  | .many1 p => Named.lit "many(" ++ text p ++ Named.lit ")"
  | .bind p => Named.lit "bind(A => Parser[B], " ++ text p

theorem lit_eq (s : String) : Named.lit s = s.toList := by unfold Named.lit; rfl

theorem str_new (run : Parser σ α) (name : Str) (h : name ≠ []) : (Named.new run (some name)).str = name := by
  rw [Named.new, if_neg (by simpa using h)]
  rfl

theorem lit_append_ne {s : String} {t : Str} (h : s.toList ≠ []) : Named.lit s ++ t ≠ [] := by
  rw [lit_eq]
  simp [h]

theorem str_pchar (char : Str) : (Named.pchar (σ := σ) char).str = Named.lit "pchar('" ++ char ++ Named.lit "')" := by
  rw [Named.pchar, str_new _ _ (by simp [lit_eq])]

theorem str_andThen {β : Type} (p1 : Named σ α) (p2 : Named σ β) :
    (Named.andThen p1 p2).str = Named.lit "and_then(" ++ p2.str ++ Named.lit ", " ++ p1.str := by
  rw [Named.andThen, str_new _ _ (by simp [lit_eq])]

theorem str_orElse (p1 p2 : Named σ α) : (Named.orElse p1 p2).str = Named.lit "or_else(" ++ p2.str ++ Named.lit ", " ++ p1.str := by
  rw [Named.orElse, str_new _ _ (by simp [lit_eq])]

theorem str_map {β : Type} (mapper : α → PyD σ β) (p : Named σ α) : (Named.map mapper p).str = Named.lit "map(A => B, " ++ p.str ++ Named.lit ")" := by
  rw [Named.map, str_new _ _ (by simp [lit_eq])]

theorem str_fail (error : Str) : (Named.fail error : Named σ α).str = Named.lit "fail(\"" ++ error ++ Named.lit "\")" := by
  rw [Named.fail, str_new _ _ (by simp [lit_eq])]

theorem str_many (p : Named σ α) : (Named.many p).str = Named.lit "many(" ++ p.str ++ Named.lit ")" := by
  rw [Named.many, str_new _ _ (by simp [lit_eq])]

theorem str_many1 (p : Named σ α) : (Named.many1 p).str = Named.lit "many(" ++ p.str ++ Named.lit ")" := by
  rw [Named.many1, str_new _ _ (by simp [lit_eq])]

theorem str_bind {β : Type} (f : α → PyD σ (Named σ β)) (p : Named σ α) : (Named.bind f p).str = Named.lit "bind(A => Parser[B], " ++ p.str := by
  rw [Named.bind, str_new _ _ (by simp [lit_eq])]

theorem str_eq {p : Named σ α} {s : Construction} (h : MadeBy σ α p s) : p.str = text s := by
  induction h with
  | other run => rfl
  | pchar char => exact str_pchar char
  | andThen h1 h2 ih1 ih2 => rw [str_andThen, ih1, ih2, text]
  | orElse h1 h2 ih1 ih2 => rw [str_orElse, ih1, ih2, text]
  | map mapper h ih => rw [str_map, ih, text]
  | preturn h1 h2 =>
    rw [Named.preturn, exec_bind, h1] at h2
    have h3 := congrArg (fun o => o.map Prod.fst) h2
    have h4 := Option.some.inj h3
    have h5 := Except.ok.inj h4
    rw [← h5, str_new _ _ (by simp [lit_eq]), text]
  | fail error => exact str_fail error
  | many h ih => rw [str_many, ih, text]
  | many1 h ih => rw [str_many1, ih, text]
  | bind f h ih => rw [str_bind, ih, text]

theorem split_at {c : Char} {s t u v : Str} (hs : c ∉ s) (ht : c ∉ t) (h : s ++ c :: u = t ++ c :: v) : s = t ∧ u = v := by
  induction s generalizing t with
  | nil =>
    cases t with
    | nil => exact ⟨rfl, (List.cons.inj h).2⟩
    | cons x t =>
      have := (List.cons.inj h).1
      subst this
      exact absurd List.mem_cons_self ht
  | cons y s ih =>
    cases t with
    | nil =>
      have := (List.cons.inj h).1
      subst this
      exact absurd List.mem_cons_self hs
    | cons x t =>
      obtain ⟨rfl, h'⟩ := List.cons.inj h
      obtain ⟨rfl, rfl⟩ := ih (fun hm => hs (List.mem_cons_of_mem _ hm)) (fun hm => ht (List.mem_cons_of_mem _ hm)) h'
      exact ⟨rfl, rfl⟩

theorem text_inj (s : Construction) : ∀ (t : Construction) (u v : Str), s.Legible → t.Legible → text s ++ u = text t ++ v →
    s.manyForMany1 = t.manyForMany1 ∧ u = v := by
  induction s with
  | other =>
    intro t u v hs ht h
    cases t <;> simp [text, lit_eq] at h
    exact ⟨rfl, h⟩
  | pchar c =>
    intro t u v hs ht h
    cases t <;> simp [text, lit_eq] at h
    rename_i d
    rcases c with _ | ⟨c, _ | _⟩ <;> rcases d with _ | ⟨d, _ | _⟩ <;> simp [Construction.Legible] at hs ht
    simp at h
    obtain ⟨rfl, rfl⟩ := h
    exact ⟨rfl, rfl⟩
  | andThen p1 p2 ih1 ih2 =>
    intro t u v hs ht h
    cases t <;> simp [text, lit_eq] at h
    rename_i q1 q2
    obtain ⟨e2, h⟩ := ih2 q2 _ _ hs.2 ht.2 h
    obtain ⟨e1, h⟩ := ih1 q1 _ _ hs.1 ht.1 (List.cons.inj (List.cons.inj h).2).2
    simp only [Construction.manyForMany1]
    exact ⟨by rw [e1, e2], h⟩
  | orElse p1 p2 ih1 ih2 =>
    intro t u v hs ht h
    cases t <;> simp [text, lit_eq] at h
    rename_i q1 q2
    obtain ⟨e2, h⟩ := ih2 q2 _ _ hs.2 ht.2 h
    obtain ⟨e1, h⟩ := ih1 q1 _ _ hs.1 ht.1 (List.cons.inj (List.cons.inj h).2).2
    simp only [Construction.manyForMany1]
    exact ⟨by rw [e1, e2], h⟩
  | map p ih =>
    intro t u v hs ht h
    cases t <;> simp [text, lit_eq] at h
    rename_i q
    obtain ⟨e, h⟩ := ih q _ _ hs ht h
    simp only [Construction.manyForMany1]
    exact ⟨by rw [e], (List.cons.inj h).2⟩
  | preturn a =>
    intro t u v hs ht h
    cases t <;> simp [text, lit_eq] at h
    rename_i b
    obtain ⟨rfl, rfl⟩ := split_at hs ht h
    exact ⟨rfl, rfl⟩
  | fail a =>
    intro t u v hs ht h
    cases t <;> simp [text, lit_eq] at h
    rename_i b
    obtain ⟨rfl, h'⟩ := split_at hs ht h
    exact ⟨rfl, (List.cons.inj h').2⟩
  | many p ih =>
    intro t u v hs ht h
    cases t <;> simp [text, lit_eq] at h
    all_goals
      rename_i q
      obtain ⟨e, h⟩ := ih q _ _ hs ht h
      simp only [Construction.manyForMany1]
      exact ⟨by rw [e], (List.cons.inj h).2⟩
  | many1 p ih =>
    intro t u v hs ht h
    cases t <;> simp [text, lit_eq] at h
    all_goals
      rename_i q
      obtain ⟨e, h⟩ := ih q _ _ hs ht h
      simp only [Construction.manyForMany1]
      exact ⟨by rw [e], (List.cons.inj h).2⟩
  | bind p ih =>
    intro t u v hs ht h
    cases t <;> simp [text, lit_eq] at h
    rename_i q
    obtain ⟨e, h⟩ := ih q _ _ hs ht h
    simp only [Construction.manyForMany1]
    exact ⟨by rw [e], h⟩

theorem text_many (s : Construction) : text s.manyForMany1 = text s := by
  induction s with
  | andThen p1 p2 ih1 ih2 => rw [Construction.manyForMany1, text, text, ih1, ih2]
  | orElse p1 p2 ih1 ih2 => rw [Construction.manyForMany1, text, text, ih1, ih2]
  | map p ih => rw [Construction.manyForMany1, text, text, ih]
  | many p ih => rw [Construction.manyForMany1, text, text, ih]
  | many1 p ih => rw [Construction.manyForMany1, text, text, ih]
  | bind p ih => rw [Construction.manyForMany1, text, text, ih]
  | _ => rfl

theorem text_length (s : Construction) : (text s).length ≤ 21 * s.size := by
  induction s <;> simp [text, lit_eq, Construction.size] <;> omega

/-! ## lengths -/

theorem length_pchar (char : Str) : (Named.pchar (σ := σ) char).str.length = char.length + 9 := by
  rw [str_pchar]; simp [lit_eq]

theorem length_fail (error : Str) : (Named.fail error : Named σ α).str.length = error.length + 8 := by
  rw [str_fail]; simp [lit_eq]

theorem length_orElse (p1 p2 : Named σ α) : (Named.orElse p1 p2).str.length = p1.str.length + p2.str.length + 10 := by
  rw [str_orElse]; simp [lit_eq]; omega

theorem length_andThen {β : Type} (p1 : Named σ α) (p2 : Named σ β) : (Named.andThen p1 p2).str.length = p1.str.length + p2.str.length + 11 := by
  rw [str_andThen]; simp [lit_eq]; omega

theorem length_map {β : Type} (f : α → PyD σ β) (p : Named σ α) : (Named.map f p).str.length = p.str.length + 13 := by
  rw [str_map]; simp [lit_eq]

theorem length_bind {β : Type} (f : α → PyD σ (Named σ β)) (p : Named σ α) : (Named.bind f p).str.length = p.str.length + 21 := by
  rw [str_bind]; simp [lit_eq]

theorem length_thenIgnore {β : Type} (p1 : Named σ α) (p2 : Named σ β) : (Named.thenIgnore p1 p2).str.length = p1.str.length + p2.str.length + 24 := by
  rw [Named.thenIgnore, length_map, length_andThen]

theorem length_ignoreThen {β : Type} (p1 : Named σ α) (p2 : Named σ β) : (Named.ignoreThen p1 p2).str.length = p1.str.length + p2.str.length + 24 := by
  rw [Named.ignoreThen, length_map, length_andThen]

theorem length_between {β γ : Type} (p1 : Named σ β) (p2 : Named σ γ) (p : Named σ α) :
    (Named.between p1 p2 p).str.length = p1.str.length + p2.str.length + p.str.length + 48 := by
  rw [Named.between, length_thenIgnore, length_ignoreThen]; omega

theorem makeAll_append (ps : List (Named σ Str)) (cs ds : List (Make σ)) : makeAll ps (cs ++ ds) = makeAll (makeAll ps cs) ds := by
  induction cs generalizing ps with
  | nil => rfl
  | cons c cs ih => exact ih _

theorem length_makeAll (ps : List (Named σ Str)) (cs : List (Make σ)) : (makeAll ps cs).length = ps.length + cs.length := by
  induction cs generalizing ps with
  | nil => rfl
  | cons c cs ih => rw [makeAll, ih]; simp; omega

theorem le_parserAt {ps : List (Named σ Str)} {B : Nat} (h : ∀ p ∈ ps, p.str.length + 24 ≤ B) (hB : 33 ≤ B) (i : Nat) :
    (parserAt ps i).str.length + 24 ≤ B := by
  rw [parserAt, List.getD_eq_getElem?_getD]
  by_cases hi : i < ps.length
  · rw [List.getElem?_eq_getElem hi]
    exact h _ (List.getElem_mem hi)
  · rw [List.getElem?_eq_none (by omega)]
    show (Named.fail [] : Named σ Str).str.length + 24 ≤ B
    rw [length_fail]
    simp
    omega

theorem result_le {ps : List (Named σ Str)} {B a : Nat} (h : ∀ p ∈ ps, p.str.length + 24 ≤ B) (hB : a + 33 ≤ B) (m : Make σ) (hm : m.letters ≤ a) :
    (m.result ps).str.length + 24 ≤ 3 * B := by
  have hp := le_parserAt h (by omega)
  cases m with
  | pchar c => rw [Make.result, length_pchar]; simp only [Make.letters] at hm; omega
  | fail c => rw [Make.result, length_fail]; simp only [Make.letters] at hm; omega
  | orElse p1 p2 => rw [Make.result, length_orElse]; have := hp p1; have := hp p2; omega
  | map f p => rw [Make.result, length_map]; have := hp p; omega
  | bind f p => rw [Make.result, length_bind]; have := hp p; omega
  | thenIgnore p1 p2 => rw [Make.result, length_thenIgnore]; have := hp p1; have := hp p2; omega
  | ignoreThen p1 p2 => rw [Make.result, length_ignoreThen]; have := hp p1; have := hp p2; omega
  | between p1 p2 p => rw [Make.result, length_between]; have := hp p1; have := hp p2; have := hp p; omega

theorem makeAll_le {a : Nat} (cs : List (Make σ)) : ∀ (ps : List (Named σ Str)) (B : Nat), a + 33 ≤ B → (∀ p ∈ ps, p.str.length + 24 ≤ B) →
    (∀ m ∈ cs, m.letters ≤ a) → ∀ p ∈ makeAll ps cs, p.str.length + 24 ≤ 3 ^ cs.length * B := by
  induction cs with
  | nil => intro ps B hB h hc p hp; simpa using h p hp
  | cons c cs ih =>
    intro ps B hB h hc p hp
    have := ih (ps ++ [c.result ps]) (3 * B) (by omega) (by
      intro q hq
      rcases List.mem_append.mp hq with hq | hq
      · have := h q hq; omega
      · rw [List.mem_singleton.mp hq]
        exact result_le h hB c (hc c List.mem_cons_self)) (fun m hm => hc m (List.mem_cons_of_mem _ hm)) p hp
    rw [List.length_cons, Nat.pow_succ, Nat.mul_assoc]
    exact this

/-- a parser between itself and itself, `n` times -/
def betweens (char : Str) (n : Nat) : List (Make σ) := .pchar char :: (List.range n).map (fun k => .between k k k)

theorem betweens_succ (char : Str) (n : Nat) : (betweens char (n + 1) : List (Make σ)) = betweens char n ++ [.between n n n] := by
  simp [betweens, List.range_succ]

theorem length_betweens (char : Str) (n : Nat) : (betweens char n : List (Make σ)).length = n + 1 := by simp [betweens]

theorem last_betweens (char : Str) (n : Nat) : (parserAt (makeAll [] (betweens char n : List (Make σ))) n).str.length + 24 = 3 ^ n * (char.length + 33) := by
  induction n with
  | zero =>
    show (Named.pchar (σ := σ) char).str.length + 24 = _
    rw [length_pchar]
    omega
  | succ n ih =>
    have hl : (makeAll [] (betweens char n : List (Make σ))).length = n + 1 := by rw [length_makeAll, length_betweens]; simp
    rw [betweens_succ, makeAll_append]
    have : parserAt (makeAll (makeAll [] (betweens char n : List (Make σ))) [.between n n n]) (n + 1)
        = Make.result (makeAll [] (betweens char n : List (Make σ))) (.between n n n) := by
      rw [parserAt, makeAll, makeAll, List.getD_eq_getElem?_getD, List.getElem?_append_right (by omega), hl]
      simp
    rw [this, Make.result, length_between, Nat.pow_succ, Nat.mul_comm (3 ^ n) 3, Nat.mul_assoc]
    omega

theorem programSize_betweens (char : Str) (n : Nat) : programSize (betweens char n : List (Make σ)) = n + 1 + char.length := by
  rw [betweens, programSize, Make.letters]
  have : ∀ l : List Nat, programSize (l.map (fun k => (Make.between k k k : Make σ))) = l.length := by
    intro l
    induction l with
    | nil => rfl
    | cons x l ih => rw [List.map_cons, programSize, ih, List.length_cons]; simp only [Make.letters]; omega
  rw [this, List.length_range]
  omega

theorem le_textSize {ps : List (Named σ α)} {p : Named σ α} (h : p ∈ ps) : p.str.length ≤ textSize ps := by
  induction ps with
  | nil => cases h
  | cons q ps ih =>
    rw [textSize]
    rcases List.mem_cons.mp h with rfl | h
    · omega
    · have := ih h; omega

theorem parserAt_mem {ps : List (Named σ Str)} {i : Nat} (h : i < ps.length) : parserAt ps i ∈ ps := by
  rw [parserAt, List.getD_eq_getElem?_getD, List.getElem?_eq_getElem h]
  exact List.getElem_mem h

theorem square_le (n : Nat) : n * n ≤ 3 ^ n := by
  induction n with
  | zero => decide
  | succ n ih =>
    have h := Nat.lt_pow_self (a := 3) (n := n) (by omega)
    rw [Nat.pow_succ, Nat.succ_mul, Nat.mul_succ]
    omega

end Expression.Lemmas.ParserText
