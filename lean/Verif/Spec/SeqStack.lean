import Verif.Model.SeqStack

/-!
# What iterating over sequences on a bounded stack means
-/

namespace Expression.Spec

open Expression

variable {σ α : Type}

/-- `q` does what `p` does, or raises `RecursionError` -/
def OrRecursionError (q p : PyD σ α) : Prop := ∀ w, q.exec w = p.exec w ∨ ∃ w', q.exec w = some (.error .recursionError, w')

/-- `q` and `it` are made in the same way, with and without a bound of the stack, from callbacks and from iterables of the user that do with few
frames what they do with many, or raise `RecursionError` -/
inductive SameSeq : {α S S' : Type} → FrameSeq σ α S → Iterable σ α S' → Prop
  | ofList {α : Type} (xs : List α) : SameSeq (.ofList xs) (.ofList xs)
  | source {α S : Type} (q : FrameSeq σ α S) (it : Iterable σ α S) (hi : ∀ free, OrRecursionError (q free).iter it.iter)
      (hn : ∀ free s, OrRecursionError ((q free).next s) (it.next s)) : SameSeq q it
  | seq {α S S' : Type} {q : FrameSeq σ α S} {it : Iterable σ α S'} : SameSeq q it → SameSeq (.seq (pure ()) q) it
  | map {α β S S' : Type} {F : Nat → α → PyD σ β} {f : α → PyD σ β} (hf : ∀ free x, OrRecursionError (F free x) (f x))
      {q : FrameSeq σ α S} {it : Iterable σ α S'} : SameSeq q it → SameSeq (.map (pure ()) F q) (Seq.map f it)
  | collect {α β ι S S' T T' : Type} {F : Nat → α → PyD σ ι} {f : α → PyD σ ι} (hf : ∀ free x, OrRecursionError (F free x) (f x))
      {qs : ι → FrameSeq σ β T} {its : ι → Iterable σ β T'} (hi : ∀ i, SameSeq (qs i) (its i))
      {q : FrameSeq σ α S} {it : Iterable σ α S'} : SameSeq q it →
      SameSeq (.collect (pure ()) (fun free x => do pure (qs (← F free x))) q) (Seq.collect (fun x => do pure (its (← f x))) it)
  | concat {α ι T T' : Type} {qs : ι → FrameSeq σ α T} {its : ι → Iterable σ α T'} (hi : ∀ i, SameSeq (qs i) (its i)) (is : List ι) :
      SameSeq (.concat (pure ()) (is.map qs)) (Seq.concat (is.map its))
  | filter {α S S' : Type} {F : Nat → α → PyD σ Bool} {f : α → PyD σ Bool} (hf : ∀ free x, OrRecursionError (F free x) (f x))
      {q : FrameSeq σ α S} {it : Iterable σ α S'} : SameSeq q it → SameSeq (.filter F q) (Seq.filter f it)
  | scan {α γ S S' : Type} {F : Nat → γ → α → PyD σ γ} {f : γ → α → PyD σ γ}
      (hf : ∀ free c x, OrRecursionError (F free c x) (f c x)) (c : γ)
      {q : FrameSeq σ α S} {it : Iterable σ α S'} : SameSeq q it → SameSeq (.scan F c q) (Seq.scan f c it)
  | zip {α β S S' T T' : Type} {q : FrameSeq σ α S} {it : Iterable σ α S'} {q' : FrameSeq σ β T} {it' : Iterable σ β T'} :
      SameSeq q it → SameSeq q' it' → SameSeq (.zip q q') (Seq.zip it it')
  | unfold {α S : Type} {F : Nat → S → PyD σ (Option (α × S))} {f : S → PyD σ (Option (α × S))}
      (hf : ∀ free x, OrRecursionError (F free x) (f x)) (s : S) : SameSeq (.unfold (pure ()) F s) (Seq.unfold f s)
  | skip {α S S' : Type} (count : Int) {q : FrameSeq σ α S} {it : Iterable σ α S'} : SameSeq q it →
      SameSeq (.skip (pure ()) count q) (Seq.skip count it)
  | take {α S S' : Type} (count : Int) {q : FrameSeq σ α S} {it : Iterable σ α S'} : SameSeq q it →
      SameSeq (.take (pure ()) count q) (Seq.take count it)
  | delay {α ι T T' : Type} {F : Nat → PyD σ ι} {f : PyD σ ι} (hf : ∀ free, OrRecursionError (F free) f) {qs : ι → FrameSeq σ α T}
      {its : ι → Iterable σ α T'} (hi : ∀ i, SameSeq (qs i) (its i)) :
      SameSeq (.delay (pure ()) (fun free => do pure (qs (← F free)))) (Seq.delay (do pure (its (← f))))
  | pairwise {α S S' : Type} {q : FrameSeq σ α S} {it : Iterable σ α S'} : SameSeq q it → SameSeq (.pairwise (pure ()) q) (Seq.pairwise it)
  | initInfinite {α : Type} {F : Nat → Nat → PyD σ α} {f : Nat → PyD σ α} (hf : ∀ free x, OrRecursionError (F free x) (f x)) :
      SameSeq (.initInfinite F) (Seq.initInfinite f)

/-- with at least `n` free frames, iterating over `q` is what it is where the stack is unbounded -/
def EnoughForSeq {S : Type} (n : Nat) (q : FrameSeq σ α S) (it : Iterable σ α S) : Prop := ∀ free, n ≤ free → q free = it

/-- not even the first element can be obtained: `RecursionError` is raised -/
def NoFirst {S : Type} (it : Iterable σ α S) : Prop := ∀ w, (it.iter >>= it.next).exec w = some (.error .recursionError, w)

/-- the object made by putting `seq.concat(…, [x])` around another one for each of the `xs` -/
def wrapped {ε : Type} (p : Piece α ε) (xs : List (Obj α)) : Piece α ε := xs.foldl (fun p x => .concat p (.list [x])) p

/-- a body that yields `n - 1`, …, `1`, `0` and returns nothing -/
def countdown (n : Nat) : Gen Unit Nat Empty Nat where
  start := n
  resume s _ := match s with
    | 0 => pure (.returned .none)
    | s + 1 => pure (.yielded (.val s) s)

/-- a world that counts how often a generator is resumed -/
def resumed : PyD Nat Unit := fun n => some (.ok (), n + 1)

end Expression.Spec
