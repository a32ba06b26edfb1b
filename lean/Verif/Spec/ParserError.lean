import Verif.Spec.Grammar

/-!
# What the error of a grammar's parser tells

Positions are counted from where the reading begins.
-/

namespace Expression.Spec.Grammar

open Expression Expression.Grammar

variable {N : Type}

/-- why an expression did not match: a `fail`, or the character `c` was expected at position `i`, where there is another one or the text is at its end -/
inductive Complaint where
  | failed
  | expected (c : Char) (i : Nat)
deriving DecidableEq

/-- the complaint of what is read after `n` characters -/
def Complaint.after (n : Nat) : Complaint → Complaint
  | .failed => .failed
  | .expected c i => .expected c (n + i)

/-- the text of the error, for a reading of `s` -/
def Complaint.message (s : Str) : Complaint → String
  | .failed => "fail"
  | .expected c i =>
    match s[i]? with
    | none => "no more input"
    | some d => "Expecting '" ++ String.ofList [c] ++ "'. Got '" ++ String.ofList [d] ++ "'"

/-- `Stuck g e s k`: `e` does not match at the beginning of `s`, and the last thing that did not match in it is `k`.  Of two alternatives this is in the second one, wherever
the first one failed; what made a repetition or an `opt` stop is forgotten. -/
inductive Stuck (g : N → Exp N) : Exp N → Str → Complaint → Prop
  | fail {s} : Stuck g .fail s .failed
  | char {c s} : s.head? ≠ some c → Stuck g (.char c) s (.expected c 0)
  | text {p c q s} : p <+: s → (s.drop p.length).head? ≠ some c → Stuck g (.text (p ++ c :: q)) s (.expected c p.length)
  | seqFirst {a b s k} : Stuck g a s k → Stuck g (.seq a b) s k
  | seqSecond {a b s t n k} : Parses g a s (some (t, n)) → Stuck g b (s.drop n) k → Stuck g (.seq a b) s (k.after n)
  | leftFirst {a b s k} : Stuck g a s k → Stuck g (.left a b) s k
  | leftSecond {a b s t n k} : Parses g a s (some (t, n)) → Stuck g b (s.drop n) k → Stuck g (.left a b) s (k.after n)
  | rightFirst {a b s k} : Stuck g a s k → Stuck g (.right a b) s k
  | rightSecond {a b s t n k} : Parses g a s (some (t, n)) → Stuck g b (s.drop n) k → Stuck g (.right a b) s (k.after n)
  | alt {a b s k} : Parses g a s none → Stuck g b s k → Stuck g (.alt a b) s k
  | plus {a s k} : Stuck g a s k → Stuck g (.plus a) s k
  | sepBy1 {a sep s k} : Stuck g a s k → Stuck g (.sepBy1 a sep) s k
  | betweenOpen {x y a s k} : Stuck g x s k → Stuck g (.between x y a) s k
  | betweenBody {x y a s t n k} : Parses g x s (some (t, n)) → Stuck g a (s.drop n) k → Stuck g (.between x y a) s (k.after n)
  | betweenClose {x y a s t n u m k} : Parses g x s (some (t, n)) → Parses g a (s.drop n) (some (u, m)) → Stuck g y (s.drop (n + m)) k →
      Stuck g (.between x y a) s (k.after (n + m))
  | act {f a s k} : Stuck g a s k → Stuck g (.act f a) s k
  | rule {n s k} : Stuck g (g n) s k → Stuck g (.rule n) s k

/-- `Missed g e s c i`: while `e` reads `s`, the character `c` is looked for at position `i` and not found there — whether or not `e` matches in the end -/
inductive Missed (g : N → Exp N) : Exp N → Str → Char → Nat → Prop
  | char {c s} : s.head? ≠ some c → Missed g (.char c) s c 0
  | text {p c q s} : p <+: s → (s.drop p.length).head? ≠ some c → Missed g (.text (p ++ c :: q)) s c p.length
  | seqFirst {a b s c i} : Missed g a s c i → Missed g (.seq a b) s c i
  | seqSecond {a b s t n c i} : Parses g a s (some (t, n)) → Missed g b (s.drop n) c i → Missed g (.seq a b) s c (n + i)
  | leftFirst {a b s c i} : Missed g a s c i → Missed g (.left a b) s c i
  | leftSecond {a b s t n c i} : Parses g a s (some (t, n)) → Missed g b (s.drop n) c i → Missed g (.left a b) s c (n + i)
  | rightFirst {a b s c i} : Missed g a s c i → Missed g (.right a b) s c i
  | rightSecond {a b s t n c i} : Parses g a s (some (t, n)) → Missed g b (s.drop n) c i → Missed g (.right a b) s c (n + i)
  | altFirst {a b s c i} : Missed g a s c i → Missed g (.alt a b) s c i
  | altSecond {a b s c i} : Parses g a s none → Missed g b s c i → Missed g (.alt a b) s c i
  | opt {a s c i} : Missed g a s c i → Missed g (.opt a) s c i
  | star {a s c i} : Missed g a s c i → Missed g (.star a) s c i
  | starMore {a s t n c i} : Parses g a s (some (t, n)) → Missed g (.star a) (s.drop n) c i → Missed g (.star a) s c (n + i)
  | plus {a s c i} : Missed g a s c i → Missed g (.plus a) s c i
  | plusMore {a s t n c i} : Parses g a s (some (t, n)) → Missed g (.star a) (s.drop n) c i → Missed g (.plus a) s c (n + i)
  | sepBy1 {a sep s c i} : Missed g a s c i → Missed g (.sepBy1 a sep) s c i
  | sepBy1More {a sep s t n c i} : Parses g a s (some (t, n)) → Missed g (.star (.right sep a)) (s.drop n) c i → Missed g (.sepBy1 a sep) s c (n + i)
  | sepBy {a sep s c i} : Missed g a s c i → Missed g (.sepBy a sep) s c i
  | sepByMore {a sep s t n c i} : Parses g a s (some (t, n)) → Missed g (.star (.right sep a)) (s.drop n) c i → Missed g (.sepBy a sep) s c (n + i)
  | betweenOpen {x y a s c i} : Missed g x s c i → Missed g (.between x y a) s c i
  | betweenBody {x y a s t n c i} : Parses g x s (some (t, n)) → Missed g a (s.drop n) c i → Missed g (.between x y a) s c (n + i)
  | betweenClose {x y a s t n u m c i} : Parses g x s (some (t, n)) → Parses g a (s.drop n) (some (u, m)) → Missed g y (s.drop (n + m)) c i →
      Missed g (.between x y a) s c (n + m + i)
  | act {f a s c i} : Missed g a s c i → Missed g (.act f a) s c i
  | rule {n s c i} : Missed g (g n) s c i → Missed g (.rule n) s c i

/-- neither alternatives nor anything optional or repeated -/
def Straight : Exp N → Prop
  | .empty | .fail | .char _ | .text _ | .rule _ => True
  | .seq a b | .left a b | .right a b => Straight a ∧ Straight b
  | .between x y a => Straight x ∧ Straight y ∧ Straight a
  | .act _ a => Straight a
  | .alt _ _ | .opt _ | .star _ | .plus _ | .sepBy1 _ _ | .sepBy _ _ => False

/-- `m` tells a character that was looked for at the farthest position at which one was not found -/
def TellsFarthest (g : N → Exp N) (e : Exp N) (s : Str) (m : String) : Prop :=
  ∃ c i, Missed g e s c i ∧ (∀ c' j, Missed g e s c' j → j ≤ i) ∧ m = (Complaint.expected c i).message s

end Expression.Spec.Grammar
