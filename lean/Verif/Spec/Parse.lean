import Verif.Model.Parser

/-!
# What the parser properties mean

Parsers are seen through what running them does: succeed with a value and what remains, fail with a message, raise, or not return.
-/

namespace Expression.Spec

open Expression

variable {σ α β : Type}

/-- run at `inp` in the world `w`, the parser succeeds with `v`, leaving `rest` and the world `w'` -/
def Succeeds (p : Parser σ α) (w : σ) (inp : Remaining) (v : α) (rest : Remaining) (w' : σ) : Prop :=
  (p inp).exec w = some (.ok (.ok (v, rest)), w')

/-- it fails with the message `e` -/
def Fails (p : Parser σ α) (w : σ) (inp : Remaining) (e : String) (w' : σ) : Prop :=
  (p inp).exec w = some (.ok (.error e), w')

/-- it raises (because a user function raised, say) -/
def Raises (p : Parser σ α) (w : σ) (inp : Remaining) (e : PyErr) (w' : σ) : Prop :=
  (p inp).exec w = some (.error e, w')

/-- it succeeds, fails or raises -/
def Ends (p : Parser σ α) (w : σ) (inp : Remaining) : Prop := (p inp).exec w ≠ none

/-- running `p` again and again from `inp` gives the values `vs`, one after the other, and then fails at `rest` -/
inductive Repeats (p : Parser σ α) : σ → Remaining → List α → Remaining → σ → Prop
  | stop {w inp e w'} : Fails p w inp e w' → Repeats p w inp [] inp w'
  | more {w inp v mid w1 vs rest w'} : Succeeds p w inp v mid w1 → Repeats p w1 mid vs rest w' →
      Repeats p w inp (v :: vs) rest w'

/-- running `p` again and again from `inp`, one of the runs raises -/
inductive RepeatsRaises (p : Parser σ α) : σ → Remaining → PyErr → σ → Prop
  | now {w inp e w'} : Raises p w inp e w' → RepeatsRaises p w inp e w'
  | later {w inp v mid w1 e w'} : Succeeds p w inp v mid w1 → RepeatsRaises p w1 mid e w' → RepeatsRaises p w inp e w'

/-- `(sep p)*` read from `inp`: the values of the `p`s are `vs` and `rest` remains.
It ends where `sep` fails, or before a `sep` that is not followed by a `p`. -/
inductive SepRepeats (p : Parser σ α) (sep : Parser σ β) : σ → Remaining → List α → Remaining → σ → Prop
  | noSep {w inp e w'} : Fails sep w inp e w' → SepRepeats p sep w inp [] inp w'
  | trailing {w inp s mid w1 e w'} : Succeeds sep w inp s mid w1 → Fails p w1 mid e w' → SepRepeats p sep w inp [] inp w'
  | more {w inp s mid w1 v mid2 w2 vs rest w'} : Succeeds sep w inp s mid w1 → Succeeds p w1 mid v mid2 w2 →
      SepRepeats p sep w2 mid2 vs rest w' → SepRepeats p sep w inp (v :: vs) rest w'

/-- the parsers fail one after the other, all of them at `inp` -/
inductive AllFail (inp : Remaining) : List (Parser σ α) → σ → σ → Prop
  | nil {w} : AllFail inp [] w w
  | cons {p ps w e w1 w'} : Fails p w inp e w1 → AllFail inp ps w1 w' → AllFail inp (p :: ps) w w'

/-- the parsers succeed one after the other, each where the one before it stopped -/
inductive InOrder : List (Parser σ α) → σ → Remaining → List α → Remaining → σ → Prop
  | nil {w inp} : InOrder [] w inp [] inp w
  | cons {p ps w inp v mid w1 vs rest w'} : Succeeds p w inp v mid w1 → InOrder ps w1 mid vs rest w' →
      InOrder (p :: ps) w inp (v :: vs) rest w'

/-- Every parser that the combinators of the module make out of one another. -/
inductive Built : {α : Type} → Parser σ α → Prop
  | pchar (c : Str) : Built (Parser.pchar c)
  | preturn {α : Type} (x : α) : Built (Parser.preturn x)
  | fail {α : Type} (e : String) : Built (Parser.fail e : Parser σ α)
  | pstring (s : Str) : Built (Parser.pstring s)
  | pint : Built Parser.pint
  | pfloat {F : Type} (float : Str → PyD σ F) (neg : F → F) : Built (Parser.pfloat float neg)
  | digit : Built Parser.parseDigit
  | digits : Built Parser.digits
  | whitespace : Built Parser.whitespace
  | anyOf {ρ : Type} (s : Str) (w w' : ρ) (q : Parser σ Str) : (Parser.anyOf s).exec w = (.ok q, w') → Built q
  | choice {ρ α : Type} (ps : List (Parser σ α)) (w w' : ρ) (q : Parser σ α) : (∀ p ∈ ps, Built p) →
      (Parser.choice ⟨ps⟩).exec w = (.ok q, w') → Built q
  | andThen {α β : Type} (p : Parser σ α) (q : Parser σ β) : Built p → Built q → Built (Parser.andThen p q)
  | thenIgnore {α β : Type} (p : Parser σ α) (q : Parser σ β) : Built p → Built q → Built (Parser.thenIgnore p q)
  | ignoreThen {α β : Type} (p : Parser σ α) (q : Parser σ β) : Built p → Built q → Built (Parser.ignoreThen p q)
  | orElse {α : Type} (p q : Parser σ α) : Built p → Built q → Built (Parser.orElse p q)
  | map {α β : Type} (f : α → PyD σ β) (p : Parser σ α) : Built p → Built (Parser.map f p)
  | starmap {α β γ : Type} (f : α → β → PyD σ γ) (p : Parser σ (α × β)) : Built p → Built (Parser.starmap f p)
  | apply {α β : Type} (f : Parser σ (α → PyD σ β)) (p : Parser σ α) : Built f → Built p → Built (Parser.apply f p)
  | lift2 {α β γ : Type} (f : α → PyD σ (β → PyD σ γ)) (p : Parser σ α) (q : Parser σ β) : Built p → Built q →
      Built (Parser.lift2 f p q)
  | sequence {α : Type} (ps : List (Parser σ α)) : (∀ p ∈ ps, Built p) → Built (Parser.sequence ps)
  | many {α : Type} (p : Parser σ α) : Built p → Built (Parser.many p)
  | many1 {α : Type} (p : Parser σ α) : Built p → Built (Parser.many1 p)
  | sepBy1 {α β : Type} (p : Parser σ α) (sep : Parser σ β) : Built p → Built sep → Built (Parser.sepBy1 p sep)
  | sepBy {α β : Type} (p : Parser σ α) (sep : Parser σ β) : Built p → Built sep → Built (Parser.sepBy p sep)
  | opt {α : Type} (p : Parser σ α) : Built p → Built (Parser.opt p)
  | ignore {α : Type} (p : Parser σ α) : Built p → Built (Parser.ignore p)
  | between {α β γ : Type} (p : Parser σ α) (q : Parser σ β) (r : Parser σ γ) : Built p → Built q → Built r →
      Built (Parser.between p q r)
  | bind {α β : Type} (f : α → PyD σ (Parser σ β)) (p : Parser σ α) : Built p →
      (∀ a w q w', (f a).exec w = some (.ok q, w') → Built q) → Built (Parser.bind f p)

/-- `s` stands in the text `t` at position `i` -/
def OccursAt (s t : Str) (i : Nat) : Prop := ∃ before after, t = before ++ s ++ after ∧ before.length = i

/-- no ASCII digit stands at position `i` of `t` -/
def NoDigitAt (t : Str) (i : Nat) : Prop := ∀ c, t[i]? = some c → ¬ (48 ≤ c.toNat ∧ c.toNat ≤ 57)

end Expression.Spec
