import Verif.Model.MapHost
import Verif.Spec.Balance

/-!
# Specification: maps whose keys compare as they like, and maps on a bounded stack
-/

namespace Expression.Spec

variable {σ K V α : Type}

/-- At some time the comparison `k == key` answered `True`. -/
def SaidEqual (H : Host σ K) (k key : K) : Prop := ∃ w w', (H.eq k key).exec w = (.ok true, w')

/-- `after` is `before` with one entry `(k, v)` put in somewhere, or put in the place of one entry whose key was said to be
equal to `k`.  All other entries are unchanged and in their old order. -/
def PutIn (H : Host σ K) (k : K) (v : V) (before after : List (K × V)) : Prop :=
  (∃ xs ys, before = xs ++ ys ∧ after = xs ++ (k, v) :: ys) ∨
  ∃ xs key old ys, before = xs ++ (key, old) :: ys ∧ after = xs ++ (k, v) :: ys ∧ SaidEqual H k key

/-- `after` is `before`, or `before` without one entry whose key was said to be equal to `k`.  All other entries are
unchanged and in their old order. -/
def TakenOut (H : Host σ K) (k : K) (before after : List (K × V)) : Prop :=
  after = before ∨ ∃ xs key old ys, before = xs ++ (key, old) :: ys ∧ after = xs ++ ys ∧ SaidEqual H k key

/-- At some time the callback `u` answered `r` to `o`. -/
def Answers (u : Option V → Py σ (Option V)) (o r : Option V) : Prop := ∃ w w', (u o).exec w = (.ok r, w')

/-- What `change` makes of `before`: nothing, when the callback was told there is no value and gave none; or one entry put in
with the value the callback gave when told there is none; or one entry, whose key was said to be equal to `k`, replaced by
what the callback gave for its value or, if it gave none, taken out.  All other entries are unchanged and in their old
order. -/
def Changed (H : Host σ K) (u : Option V → Py σ (Option V)) (k : K) (before after : List (K × V)) : Prop :=
  (after = before ∧ Answers u none none) ∨
  (∃ xs ys v, before = xs ++ ys ∧ after = xs ++ (k, v) :: ys ∧ Answers u none (some v)) ∨
  ∃ xs key old ys, before = xs ++ (key, old) :: ys ∧ SaidEqual H k key ∧
    ((∃ v, Answers u (some old) (some v) ∧ after = xs ++ (k, v) :: ys) ∨ (Answers u (some old) none ∧ after = xs ++ ys))

/-- At some time the predicate answered `b` for the entry `kv`. -/
def Judged (p : K → V → Py σ Bool) (b : Bool) (kv : K × V) : Prop := ∃ w w', (p kv.1 kv.2).exec w = (.ok b, w')

/-- A map a program can hold, when keys compare as the host says and calls are made by the host: obtained from the empty map
or a bulk constructor through any sequence of successful calls. -/
inductive Made (H : Host σ K) : {V : Type} → Map K V → Prop
  | empty {V : Type} : Made H (Map.empty : Map K V)
  | ofList {V : Type} {m : Map K V} (xs : List (K × V)) (w w' : σ) : (HostMap.ofList H xs).exec w = (.ok m, w') → Made H m
  | ofSeq {V : Type} {m : Map K V} (xs : List (K × V)) (w w' : σ) : (HostMap.ofSeq H xs).exec w = (.ok m, w') → Made H m
  | add {V : Type} {m m' : Map K V} (k : K) (v : V) (w w' : σ) :
      Made H m → (HostMap.add H m k v).exec w = (.ok m', w') → Made H m'
  | remove {V : Type} {m m' : Map K V} (k : K) (w w' : σ) :
      Made H m → (HostMap.remove H m k).exec w = (.ok m', w') → Made H m'
  | change {V : Type} {m m' : Map K V} (k : K) (f : Option V → Py σ (Option V)) (w w' : σ) :
      Made H m → (HostMap.change H m k f).exec w = (.ok m', w') → Made H m'
  | filter {V : Type} {m m' : Map K V} (p : K → V → Py σ Bool) (w w' : σ) :
      Made H m → (HostMap.filter H m p).exec w = (.ok m', w') → Made H m'
  | partitionFst {V : Type} {m : Map K V} {mm : Map K V × Map K V} (p : K → V → Py σ Bool) (w w' : σ) :
      Made H m → (HostMap.partition H m p).exec w = (.ok mm, w') → Made H mm.1
  | partitionSnd {V : Type} {m : Map K V} {mm : Map K V × Map K V} (p : K → V → Py σ Bool) (w w' : σ) :
      Made H m → (HostMap.partition H m p).exec w = (.ok mm, w') → Made H mm.2
  | map {V R : Type} {m : Map K V} {m' : Map K R} (f : K → V → Py σ R) (w w' : σ) :
      Made H m → (HostMap.map H m f).exec w = (.ok m', w') → Made H m'

/-- A map obtained without deleting keys from an existing tree: by insertions, bulk construction, mapping of values, and as a
result of `filter` or `partition`, which rebuild. -/
inductive MadeByInsertion (H : Host σ K) : {V : Type} → Map K V → Prop
  | empty {V : Type} : MadeByInsertion H (Map.empty : Map K V)
  | ofList {V : Type} {m : Map K V} (xs : List (K × V)) (w w' : σ) :
      (HostMap.ofList H xs).exec w = (.ok m, w') → MadeByInsertion H m
  | ofSeq {V : Type} {m : Map K V} (xs : List (K × V)) (w w' : σ) :
      (HostMap.ofSeq H xs).exec w = (.ok m, w') → MadeByInsertion H m
  | add {V : Type} {m m' : Map K V} (k : K) (v : V) (w w' : σ) :
      MadeByInsertion H m → (HostMap.add H m k v).exec w = (.ok m', w') → MadeByInsertion H m'
  | filter {V : Type} {m m' : Map K V} (p : K → V → Py σ Bool) (w w' : σ) :
      Made H m → (HostMap.filter H m p).exec w = (.ok m', w') → MadeByInsertion H m'
  | partitionFst {V : Type} {m : Map K V} {mm : Map K V × Map K V} (p : K → V → Py σ Bool) (w w' : σ) :
      Made H m → (HostMap.partition H m p).exec w = (.ok mm, w') → MadeByInsertion H mm.1
  | partitionSnd {V : Type} {m : Map K V} {mm : Map K V × Map K V} (p : K → V → Py σ Bool) (w w' : σ) :
      Made H m → (HostMap.partition H m p).exec w = (.ok mm, w') → MadeByInsertion H mm.2
  | map {V R : Type} {m : Map K V} {m' : Map K R} (f : K → V → Py σ R) (w w' : σ) :
      MadeByInsertion H m → (HostMap.map H m f).exec w = (.ok m', w') → MadeByInsertion H m'

/-- However `p` ends, it has raised the cost by at most `n`.  With the length of a log of comparisons as the cost: `p` makes
at most `n` comparisons. -/
def CostsAtMost (cost : σ → Nat) (n : Nat) (p : Py σ α) : Prop := ∀ w, cost (p.exec w).2 ≤ cost w + n

/-- If `p` returns, what was true of the world (`I`) is true still.  With `I` "no comparison has raised yet": if `p` returns, no
comparison it made has raised. -/
def ReturnsKeep (I : σ → Prop) (p : Py σ α) : Prop := ∀ w a w', I w → p.exec w = (.ok a, w') → I w'

/-- With at least `n` free frames on the stack `q` does exactly what `p` does where the stack has no bound: the same result
or exception and the same effects; and it leaves as many frames free as it found. -/
def SameWithin (n : Nat) (q : Py (σ × Nat) α) (p : Py σ α) : Prop :=
  ∀ w free, n ≤ free → q.exec (w, free) = ((p.exec w).1, ((p.exec w).2, free))

/-- The host of `Model/MapTree.lean`: comparisons are Boolean functions, calls are free. -/
def plainHost [PyOrd K] : Host σ K := Host.unbounded (fun a b => pure (PyOrd.lt a b)) (fun a b => pure (PyOrd.eq a b))

/-- The largest depth of a balanced tree with `n` entries: `2·log₂(n + 1)`, rounded down. -/
def depthBound (n : Nat) : Nat := Nat.log2 ((n + 1) ^ 2)

end Expression.Spec
