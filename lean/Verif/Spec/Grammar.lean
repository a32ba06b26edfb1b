import Verif.Model.Grammar

/-!
# What a grammar means

Parsing expression grammars: a relation between expressions, texts and outcomes that says nothing about parsers, positions or calls.
-/

namespace Expression.Spec.Grammar

open Expression Expression.Grammar

variable {N : Type}

/-- `Parses g e s o`: read from the beginning of the text `s`, the expression `e` gives the tree `t` for the first `n` characters
(`o = some (t, n)`), or does not match (`o = none`). -/
inductive Parses (g : N → Exp N) : Exp N → Str → Option (Tree × Nat) → Prop
  | empty {s} : Parses g .empty s (some (.unit, 0))
  | fail {s} : Parses g .fail s none
  | char {c s} : s.head? = some c → Parses g (.char c) s (some (.text [c], 1))
  | charNot {c s} : s.head? ≠ some c → Parses g (.char c) s none
  | text {x s} : x <+: s → Parses g (.text x) s (some (.text x, x.length))
  | textNot {x s} : ¬ x <+: s → Parses g (.text x) s none
  | seq {a b s t n u m} : Parses g a s (some (t, n)) → Parses g b (s.drop n) (some (u, m)) → Parses g (.seq a b) s (some (.pair t u, n + m))
  | seqFirst {a b s} : Parses g a s none → Parses g (.seq a b) s none
  | seqSecond {a b s t n} : Parses g a s (some (t, n)) → Parses g b (s.drop n) none → Parses g (.seq a b) s none
  | left {a b s t n u m} : Parses g a s (some (t, n)) → Parses g b (s.drop n) (some (u, m)) → Parses g (.left a b) s (some (t, n + m))
  | leftFirst {a b s} : Parses g a s none → Parses g (.left a b) s none
  | leftSecond {a b s t n} : Parses g a s (some (t, n)) → Parses g b (s.drop n) none → Parses g (.left a b) s none
  | right {a b s t n u m} : Parses g a s (some (t, n)) → Parses g b (s.drop n) (some (u, m)) → Parses g (.right a b) s (some (u, n + m))
  | rightFirst {a b s} : Parses g a s none → Parses g (.right a b) s none
  | rightSecond {a b s t n} : Parses g a s (some (t, n)) → Parses g b (s.drop n) none → Parses g (.right a b) s none
  /-- ordered choice: the second alternative counts only if the first one does not match -/
  | altFirst {a b s t n} : Parses g a s (some (t, n)) → Parses g (.alt a b) s (some (t, n))
  | altSecond {a b s o} : Parses g a s none → Parses g b s o → Parses g (.alt a b) s o
  | opt {a s t n} : Parses g a s (some (t, n)) → Parses g (.opt a) s (some (.some t, n))
  | optNot {a s} : Parses g a s none → Parses g (.opt a) s (some (.none, 0))
  /-- repetition goes on as long as the body matches -/
  | starEnd {a s} : Parses g a s none → Parses g (.star a) s (some (.list [], 0))
  | starMore {a s t n ts m} : Parses g a s (some (t, n)) → Parses g (.star a) (s.drop n) (some (.list ts, m)) →
      Parses g (.star a) s (some (.list (t :: ts), n + m))
  | plus {a s t n ts m} : Parses g a s (some (t, n)) → Parses g (.star a) (s.drop n) (some (.list ts, m)) →
      Parses g (.plus a) s (some (.list (t :: ts), n + m))
  | plusNot {a s} : Parses g a s none → Parses g (.plus a) s none
  /-- `a (sep a)*` -/
  | sepBy1 {a sep s t n ts m} : Parses g a s (some (t, n)) → Parses g (.star (.right sep a)) (s.drop n) (some (.list ts, m)) →
      Parses g (.sepBy1 a sep) s (some (.list (t :: ts), n + m))
  | sepBy1Not {a sep s} : Parses g a s none → Parses g (.sepBy1 a sep) s none
  /-- the same, or nothing -/
  | sepBy {a sep s t n ts m} : Parses g a s (some (t, n)) → Parses g (.star (.right sep a)) (s.drop n) (some (.list ts, m)) →
      Parses g (.sepBy a sep) s (some (.list (t :: ts), n + m))
  | sepByNot {a sep s} : Parses g a s none → Parses g (.sepBy a sep) s (some (.list [], 0))
  /-- opening, the expression itself, closing -/
  | between {x y a s t n u m v k} : Parses g x s (some (t, n)) → Parses g a (s.drop n) (some (u, m)) →
      Parses g y (s.drop (n + m)) (some (v, k)) → Parses g (.between x y a) s (some (u, n + m + k))
  | betweenOpen {x y a s} : Parses g x s none → Parses g (.between x y a) s none
  | betweenBody {x y a s t n} : Parses g x s (some (t, n)) → Parses g a (s.drop n) none → Parses g (.between x y a) s none
  | betweenClose {x y a s t n u m} : Parses g x s (some (t, n)) → Parses g a (s.drop n) (some (u, m)) →
      Parses g y (s.drop (n + m)) none → Parses g (.between x y a) s none
  | act {f a s t n} : Parses g a s (some (t, n)) → Parses g (.act f a) s (some (f t, n))
  | actNot {f a s} : Parses g a s none → Parses g (.act f a) s none
  | rule {n s o} : Parses g (g n) s o → Parses g (.rule n) s o

/-! ## grammars without left recursion -/

/-- `e` may match without consuming anything, as far as its form tells -/
inductive MayBeEmpty (g : N → Exp N) : Exp N → Prop
  | empty : MayBeEmpty g .empty
  | text : MayBeEmpty g (.text [])
  | seq {a b} : MayBeEmpty g a → MayBeEmpty g b → MayBeEmpty g (.seq a b)
  | left {a b} : MayBeEmpty g a → MayBeEmpty g b → MayBeEmpty g (.left a b)
  | right {a b} : MayBeEmpty g a → MayBeEmpty g b → MayBeEmpty g (.right a b)
  | altFirst {a b} : MayBeEmpty g a → MayBeEmpty g (.alt a b)
  | altSecond {a b} : MayBeEmpty g b → MayBeEmpty g (.alt a b)
  | opt {a} : MayBeEmpty g (.opt a)
  | star {a} : MayBeEmpty g (.star a)
  | plus {a} : MayBeEmpty g a → MayBeEmpty g (.plus a)
  | sepBy1 {a sep} : MayBeEmpty g a → MayBeEmpty g (.sepBy1 a sep)
  | sepBy {a sep} : MayBeEmpty g (.sepBy a sep)
  | between {x y a} : MayBeEmpty g x → MayBeEmpty g a → MayBeEmpty g y → MayBeEmpty g (.between x y a)
  | act {f a} : MayBeEmpty g a → MayBeEmpty g (.act f a)
  | rule {n} : MayBeEmpty g (g n) → MayBeEmpty g (.rule n)

/-- `e` may use the rule before it has consumed anything, as far as its form tells -/
inductive MayStartWith (g : N → Exp N) (n : N) : Exp N → Prop
  | rule : MayStartWith g n (.rule n)
  | seqFirst {a b} : MayStartWith g n a → MayStartWith g n (.seq a b)
  | seqSecond {a b} : MayBeEmpty g a → MayStartWith g n b → MayStartWith g n (.seq a b)
  | leftFirst {a b} : MayStartWith g n a → MayStartWith g n (.left a b)
  | leftSecond {a b} : MayBeEmpty g a → MayStartWith g n b → MayStartWith g n (.left a b)
  | rightFirst {a b} : MayStartWith g n a → MayStartWith g n (.right a b)
  | rightSecond {a b} : MayBeEmpty g a → MayStartWith g n b → MayStartWith g n (.right a b)
  | altFirst {a b} : MayStartWith g n a → MayStartWith g n (.alt a b)
  | altSecond {a b} : MayStartWith g n b → MayStartWith g n (.alt a b)
  | opt {a} : MayStartWith g n a → MayStartWith g n (.opt a)
  | star {a} : MayStartWith g n a → MayStartWith g n (.star a)
  | plus {a} : MayStartWith g n a → MayStartWith g n (.plus a)
  | sepBy1First {a sep} : MayStartWith g n a → MayStartWith g n (.sepBy1 a sep)
  | sepBy1Sep {a sep} : MayBeEmpty g a → MayStartWith g n sep → MayStartWith g n (.sepBy1 a sep)
  | sepByFirst {a sep} : MayStartWith g n a → MayStartWith g n (.sepBy a sep)
  | sepBySep {a sep} : MayBeEmpty g a → MayStartWith g n sep → MayStartWith g n (.sepBy a sep)
  | betweenOpen {x y a} : MayStartWith g n x → MayStartWith g n (.between x y a)
  | betweenBody {x y a} : MayBeEmpty g x → MayStartWith g n a → MayStartWith g n (.between x y a)
  | betweenClose {x y a} : MayBeEmpty g x → MayBeEmpty g a → MayStartWith g n y → MayStartWith g n (.between x y a)
  | act {f a} : MayStartWith g n a → MayStartWith g n (.act f a)

/-- only expressions that consume are repeated -/
def RepeatsConsume (g : N → Exp N) : Exp N → Prop
  | .empty | .fail | .char _ | .text _ | .rule _ => True
  | .seq a b | .left a b | .right a b | .alt a b => RepeatsConsume g a ∧ RepeatsConsume g b
  | .opt a | .act _ a => RepeatsConsume g a
  | .star a | .plus a => RepeatsConsume g a ∧ ¬ MayBeEmpty g a
  | .sepBy1 a sep | .sepBy a sep => RepeatsConsume g a ∧ RepeatsConsume g sep ∧ ¬ (MayBeEmpty g sep ∧ MayBeEmpty g a)
  | .between x y a => RepeatsConsume g x ∧ RepeatsConsume g y ∧ RepeatsConsume g a

/-- no rule starts with itself, directly or through others, and only expressions that consume are repeated -/
structure WellFormed (g : N → Exp N) : Prop where
  noLeftRecursion : WellFounded fun m n => MayStartWith g m (g n)
  repeats : ∀ n, RepeatsConsume g (g n)

/-- the first thing `e` does is to use the rule -/
inductive StartsWith (n : N) : Exp N → Prop
  | rule : StartsWith n (.rule n)
  | seq {a b} : StartsWith n a → StartsWith n (.seq a b)
  | left {a b} : StartsWith n a → StartsWith n (.left a b)
  | right {a b} : StartsWith n a → StartsWith n (.right a b)
  | alt {a b} : StartsWith n a → StartsWith n (.alt a b)
  | opt {a} : StartsWith n a → StartsWith n (.opt a)
  | star {a} : StartsWith n a → StartsWith n (.star a)
  | plus {a} : StartsWith n a → StartsWith n (.plus a)
  | sepBy1 {a sep} : StartsWith n a → StartsWith n (.sepBy1 a sep)
  | sepBy {a sep} : StartsWith n a → StartsWith n (.sepBy a sep)
  | between {x y a} : StartsWith n x → StartsWith n (.between x y a)
  | act {f a} : StartsWith n a → StartsWith n (.act f a)

end Expression.Spec.Grammar
