import Verif.Spec.Parse

/-! # What it means that a parser answers -/

namespace Expression.Spec

open Expression

variable {σ α β γ : Type}

/-- Run at any position of the text `t`, the parser returns `Ok` or `Error`: it neither raises nor runs for ever.  It leaves the text alone and
does not move back; if `consumes` is true, then it moves forward whenever it succeeds. -/
def AnswersOn (t : Str) (consumes : Bool) (p : Parser σ α) : Prop := ∀ w i, i ≤ t.length →
  (∃ v j w', Succeeds p w (t, i) v (t, j) w' ∧ i ≤ j ∧ j ≤ t.length ∧ (consumes = true → i ≠ j)) ∨ (∃ e w', Fails p w (t, i) e w')

/-- A function of the user that returns, whatever it does besides. -/
def Returns (f : α → PyD σ β) : Prop := ∀ a w, ∃ b w', (f a).exec w = some (.ok b, w')

/-- The parsers made by the combinators out of functions that return and of the user's own parsers that answer, in which only parsers that
consume are repeated.  The Boolean says whether the parser is one that consumes. -/
inductive Guarded (t : Str) : {α : Type} → Bool → Parser σ α → Prop
  | own {α : Type} {c : Bool} (p : Parser σ α) : AnswersOn t c p → Guarded t c p
  | weaken {α : Type} {c : Bool} (p : Parser σ α) : Guarded t c p → Guarded t false p
  | pchar (s : Str) : Guarded t true (Parser.pchar s)
  | preturn {α : Type} (x : α) : Guarded t false (Parser.preturn x)
  | fail {α : Type} (e : String) : Guarded t true (Parser.fail e : Parser σ α)
  | pstring (s : Str) : Guarded t (decide (s ≠ [])) (Parser.pstring s)
  | pint (limit : Nat) : limit = 0 ∨ t.length ≤ limit → Guarded t true (Parser.pintLimited limit)
  | pfloat {F : Type} (float : Str → PyD σ F) (neg : F → F) : Returns float → Guarded t true (Parser.pfloat float neg)
  | digit : Guarded t true Parser.parseDigit
  | digits : Guarded t true Parser.digits
  | whitespace : Guarded t true Parser.whitespace
  | anyOf {ρ : Type} (s : Str) (w w' : ρ) (q : Parser σ Str) : (Parser.anyOf s).exec w = (.ok q, w') → Guarded t true q
  | choice {ρ α : Type} {c : Bool} (ps : List (Parser σ α)) (w w' : ρ) (q : Parser σ α) : (∀ p ∈ ps, Guarded t c p) →
      (Parser.choice ⟨ps⟩).exec w = (.ok q, w') → Guarded t c q
  | orElse {α : Type} {c d : Bool} (p q : Parser σ α) : Guarded t c p → Guarded t d q → Guarded t (c && d) (Parser.orElse p q)
  | andThen {α β : Type} {c d : Bool} (p : Parser σ α) (q : Parser σ β) : Guarded t c p → Guarded t d q →
      Guarded t (c || d) (Parser.andThen p q)
  | thenIgnore {α β : Type} {c d : Bool} (p : Parser σ α) (q : Parser σ β) : Guarded t c p → Guarded t d q →
      Guarded t (c || d) (Parser.thenIgnore p q)
  | ignoreThen {α β : Type} {c d : Bool} (p : Parser σ α) (q : Parser σ β) : Guarded t c p → Guarded t d q →
      Guarded t (c || d) (Parser.ignoreThen p q)
  | map {α β : Type} {c : Bool} (f : α → PyD σ β) (p : Parser σ α) : Returns f → Guarded t c p → Guarded t c (Parser.map f p)
  | starmap {α β γ : Type} {c : Bool} (f : α → β → PyD σ γ) (p : Parser σ (α × β)) : (∀ a, Returns (f a)) → Guarded t c p →
      Guarded t c (Parser.starmap f p)
  | apply {α β : Type} {c d : Bool} (f : Parser σ (α → PyD σ β)) (p : Parser σ α) :
      (∀ w inp g rest w', Succeeds f w inp g rest w' → Returns g) → Guarded t c f → Guarded t d p → Guarded t (c || d) (Parser.apply f p)
  | lift2 {α β γ : Type} {c d : Bool} (f : α → PyD σ (β → PyD σ γ)) (p : Parser σ α) (q : Parser σ β) : Returns f →
      (∀ a w g w', (f a).exec w = some (.ok g, w') → Returns g) → Guarded t c p → Guarded t d q → Guarded t (c || d) (Parser.lift2 f p q)
  | sequence {α : Type} (ps : List (Parser σ α)) : (∀ p ∈ ps, Guarded t false p) → Guarded t false (Parser.sequence ps)
  | sequence1 {α : Type} (before after : List (Parser σ α)) (p : Parser σ α) : (∀ q ∈ before ++ after, Guarded t false q) →
      Guarded t true p → Guarded t true (Parser.sequence (before ++ p :: after))
  | many {α : Type} (p : Parser σ α) : Guarded t true p → Guarded t false (Parser.many p)
  | many1 {α : Type} (p : Parser σ α) : Guarded t true p → Guarded t true (Parser.many1 p)
  | sepBy1 {α β : Type} {c d : Bool} (p : Parser σ α) (sep : Parser σ β) : Guarded t c p → Guarded t d sep → (d || c) = true →
      Guarded t c (Parser.sepBy1 p sep)
  | sepBy {α β : Type} {c d : Bool} (p : Parser σ α) (sep : Parser σ β) : Guarded t c p → Guarded t d sep → (d || c) = true →
      Guarded t false (Parser.sepBy p sep)
  | opt {α : Type} {c : Bool} (p : Parser σ α) : Guarded t c p → Guarded t false (Parser.opt p)
  | ignore {α : Type} {c : Bool} (p : Parser σ α) : Guarded t c p → Guarded t c (Parser.ignore p)
  | between {α β γ : Type} {c d e : Bool} (p : Parser σ α) (q : Parser σ β) (r : Parser σ γ) : Guarded t c p → Guarded t d q →
      Guarded t e r → Guarded t (c || e || d) (Parser.between p q r)
  | bind {α β : Type} {c d : Bool} (f : α → PyD σ (Parser σ β)) (p : Parser σ α) : Guarded t c p → Returns f →
      (∀ a w q w', (f a).exec w = some (.ok q, w') → Guarded t d q) → Guarded t (c || d) (Parser.bind f p)

end Expression.Spec
