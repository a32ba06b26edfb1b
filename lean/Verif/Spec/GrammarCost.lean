import Verif.Model.GrammarCost
import Verif.Spec.Grammar

/-!
# What the cost of parsing is measured by
-/

namespace Expression.Spec.Grammar

open Expression Expression.Grammar

variable {N : Type}

/-- Running `p` at `inp` ends, after `k` runs of the parsers it is made of (itself among them). -/
def Runs (p : Parser Nat Tree) (inp : Remaining) (k : Nat) : Prop := ∃ r, ∀ before, (p inp).exec before = some (r, before + k)

/-- no rule is used -/
def RuleFree : Exp N → Prop
  | .empty | .fail | .char _ | .text _ => True
  | .seq a b | .left a b | .right a b | .alt a b | .sepBy1 a b | .sepBy a b => RuleFree a ∧ RuleFree b
  | .opt a | .star a | .plus a | .act _ a => RuleFree a
  | .between o c a => RuleFree o ∧ RuleFree c ∧ RuleFree a
  | .rule _ => False

/-- how large an expression is: the expressions and characters in it; `a+` counts as `a a*`, and a list `a (sep a)*` as it is written here -/
def size : Exp N → Nat
  | .empty | .fail | .char _ | .rule _ => 1
  | .text s => 1 + s.length
  | .seq a b | .left a b | .right a b | .alt a b => 1 + size a + size b
  | .opt a | .star a | .act _ a => 1 + size a
  | .plus a => 1 + size a + size a
  | .sepBy1 a sep | .sepBy a sep => 1 + size a + (size sep + size a)
  | .between o c a => 1 + size o + size c + size a

/-- how deep repetitions are inside each other -/
def nesting : Exp N → Nat
  | .empty | .fail | .char _ | .rule _ | .text _ => 0
  | .seq a b | .left a b | .right a b | .alt a b => max (nesting a) (nesting b)
  | .opt a | .act _ a => nesting a
  | .star a | .plus a => nesting a + 1
  | .sepBy1 a sep | .sepBy a sep => max (nesting a) (nesting sep) + 1
  | .between o c a => max (max (nesting o) (nesting c)) (nesting a)

/-! ## grammars in which the next character decides -/

/-- `e` may read something that begins with the character `c`, as far as its form tells -/
inductive MayBegin (g : N → Exp N) (c : Char) : Exp N → Prop
  | char : MayBegin g c (.char c)
  | text {x} : MayBegin g c (.text (c :: x))
  | seqFirst {a b} : MayBegin g c a → MayBegin g c (.seq a b)
  | seqSecond {a b} : MayBeEmpty g a → MayBegin g c b → MayBegin g c (.seq a b)
  | leftFirst {a b} : MayBegin g c a → MayBegin g c (.left a b)
  | leftSecond {a b} : MayBeEmpty g a → MayBegin g c b → MayBegin g c (.left a b)
  | rightFirst {a b} : MayBegin g c a → MayBegin g c (.right a b)
  | rightSecond {a b} : MayBeEmpty g a → MayBegin g c b → MayBegin g c (.right a b)
  | altFirst {a b} : MayBegin g c a → MayBegin g c (.alt a b)
  | altSecond {a b} : MayBegin g c b → MayBegin g c (.alt a b)
  | opt {a} : MayBegin g c a → MayBegin g c (.opt a)
  | star {a} : MayBegin g c a → MayBegin g c (.star a)
  | plus {a} : MayBegin g c a → MayBegin g c (.plus a)
  | sepBy1First {a sep} : MayBegin g c a → MayBegin g c (.sepBy1 a sep)
  | sepBy1Sep {a sep} : MayBeEmpty g a → MayBegin g c sep → MayBegin g c (.sepBy1 a sep)
  | sepByFirst {a sep} : MayBegin g c a → MayBegin g c (.sepBy a sep)
  | sepBySep {a sep} : MayBeEmpty g a → MayBegin g c sep → MayBegin g c (.sepBy a sep)
  | betweenOpen {x y a} : MayBegin g c x → MayBegin g c (.between x y a)
  | betweenBody {x y a} : MayBeEmpty g x → MayBegin g c a → MayBegin g c (.between x y a)
  | betweenClose {x y a} : MayBeEmpty g x → MayBeEmpty g a → MayBegin g c y → MayBegin g c (.between x y a)
  | act {f a} : MayBegin g c a → MayBegin g c (.act f a)
  | rule {n} : MayBegin g c (g n) → MayBegin g c (.rule n)

/-- what may come next when first `e` is to be read and what follows it begins with one of `after` -/
def Ahead (g : N → Exp N) (e : Exp N) (after : Char → Prop) (c : Char) : Prop := MayBegin g c e ∨ MayBeEmpty g e ∧ after c

/-- Wherever there is a choice in `e` - between two alternatives, whether an optional part is there, whether to repeat once more - the next character
decides it, provided that what follows `e` begins with one of `after`.  `follow n` are the characters that may follow the rule `n`. -/
def Decides (g : N → Exp N) (follow : N → Char → Prop) : Exp N → (Char → Prop) → Prop
  | .empty, _ | .fail, _ | .char _, _ | .text _, _ => True
  | .seq a b, after | .left a b, after | .right a b, after => Decides g follow a (Ahead g b after) ∧ Decides g follow b after
  | .alt a b, after => Decides g follow a after ∧ Decides g follow b after ∧ ∀ c, MayBegin g c a → ¬ Ahead g b after c
  | .opt a, after => Decides g follow a after ∧ ∀ c, MayBegin g c a → ¬ after c
  | .star a, after | .plus a, after => Decides g follow a (fun c => MayBegin g c a ∨ after c) ∧ ∀ c, MayBegin g c a → ¬ after c
  | .sepBy1 a sep, after =>
    Decides g follow a (fun c => MayBegin g c (.right sep a) ∨ after c) ∧
    Decides g follow sep (Ahead g a fun c => MayBegin g c (.right sep a) ∨ after c) ∧ ∀ c, MayBegin g c (.right sep a) → ¬ after c
  | .sepBy a sep, after =>
    Decides g follow a (fun c => MayBegin g c (.right sep a) ∨ after c) ∧
    Decides g follow sep (Ahead g a fun c => MayBegin g c (.right sep a) ∨ after c) ∧ (∀ c, MayBegin g c (.right sep a) → ¬ after c) ∧
    ∀ c, MayBegin g c a → ¬ after c
  | .between x y a, after => Decides g follow x (Ahead g a (Ahead g y after)) ∧ Decides g follow a (Ahead g y after) ∧ Decides g follow y after
  | .act _ a, after => Decides g follow a after
  | .rule n, after => ∀ c, after c → follow n c

/-- The next character always decides (LL(1)), for the rules and for `e`, after which nothing is read. -/
def Predictive (g : N → Exp N) (e : Exp N) : Prop :=
  ∃ follow : N → Char → Prop, (∀ n, Decides g follow (g n) (follow n)) ∧ Decides g follow e (fun _ => False)

end Expression.Spec.Grammar
