import Verif.Model.AsyncStack
import Verif.Spec.SeqStack

/-!
# What iterating over asynchronous sequences on a bounded stack means
-/

namespace Expression.Spec

open Expression

variable {σ α : Type}

/-- `q` and `it` are made in the same way by the functions for asynchronous sequences, with and without a bound of the stack, from callbacks and from
asynchronous iterables of the user that do with few frames what they do with many, or raise `RecursionError` -/
inductive SameAsync : {α S S' : Type} → FrameSeq σ α S → Iterable σ α S' → Prop
  | source {α S : Type} (q : FrameSeq σ α S) (it : Iterable σ α S) (hi : ∀ free, OrRecursionError (q free).iter it.iter)
      (hn : ∀ free s, OrRecursionError ((q free).next s) (it.next s)) : SameAsync q it
  | range (start stop step : Int) : SameAsync (FrameAsync.range start stop step) (AsyncSeq.range start stop step)
  | repeat {α : Type} (value : α) (times : Option Int) : SameAsync (FrameAsync.repeat value times) (AsyncSeq.repeat value times)
  | asyncSeq {α S S' : Type} {q : FrameSeq σ α S} {it : Iterable σ α S'} : SameAsync q it → SameAsync (FrameAsync.asyncSeq q) it
  | map {α β S S' : Type} {F : Nat → α → PyD σ β} {f : α → PyD σ β} (hf : ∀ free x, OrRecursionError (F free x) (f x))
      {q : FrameSeq σ α S} {it : Iterable σ α S'} : SameAsync q it → SameAsync (FrameAsync.map F q) (AsyncSeq.map f it)
  | filter {α S S' : Type} {F : Nat → α → PyD σ Bool} {f : α → PyD σ Bool} (hf : ∀ free x, OrRecursionError (F free x) (f x))
      {q : FrameSeq σ α S} {it : Iterable σ α S'} : SameAsync q it → SameAsync (FrameAsync.filter F q) (AsyncSeq.filter f it)
  | choose {α β S S' : Type} {F : Nat → α → PyD σ (Option β)} {f : α → PyD σ (Option β)} (hf : ∀ free x, OrRecursionError (F free x) (f x))
      {q : FrameSeq σ α S} {it : Iterable σ α S'} : SameAsync q it → SameAsync (FrameAsync.choose F q) (AsyncSeq.choose f it)
  | collect {α β ι S S' T T' : Type} {F : Nat → α → PyD σ ι} {f : α → PyD σ ι} (hf : ∀ free x, OrRecursionError (F free x) (f x))
      {qs : ι → FrameSeq σ β T} {its : ι → Iterable σ β T'} (hi : ∀ i, SameAsync (qs i) (its i))
      {q : FrameSeq σ α S} {it : Iterable σ α S'} : SameAsync q it →
      SameAsync (FrameAsync.collect (fun free x => do pure (qs (← F free x))) q) (AsyncSeq.collect (fun x => do pure (its (← f x))) it)
  | take {α S S' : Type} (count : Int) {q : FrameSeq σ α S} {it : Iterable σ α S'} : SameAsync q it →
      SameAsync (FrameAsync.take count q) (AsyncSeq.take count it)
  | skip {α S S' : Type} (count : Int) {q : FrameSeq σ α S} {it : Iterable σ α S'} : SameAsync q it →
      SameAsync (FrameAsync.skip count q) (AsyncSeq.skip count it)
  | tail {α S S' : Type} {q : FrameSeq σ α S} {it : Iterable σ α S'} : SameAsync q it → SameAsync (FrameAsync.tail q) (AsyncSeq.tail it)
  | scan {α γ S S' : Type} {F : Nat → γ → α → PyD σ γ} {f : γ → α → PyD σ γ}
      (hf : ∀ free c x, OrRecursionError (F free c x) (f c x)) (c : γ)
      {q : FrameSeq σ α S} {it : Iterable σ α S'} : SameAsync q it → SameAsync (FrameAsync.scan F c q) (AsyncSeq.scan f c it)
  | append {α S S' T T' : Type} {q : FrameSeq σ α S} {it : Iterable σ α S'} {q' : FrameSeq σ α T} {it' : Iterable σ α T'} :
      SameAsync q' it' → SameAsync q it → SameAsync (FrameAsync.append q' q) (AsyncSeq.append it' it)

/-- with at least `a` free frames the iterator is made, and with at least `n` the elements are obtained, as where the stack is unbounded -/
structure EnoughForAsync {S : Type} (a n : Nat) (q : FrameSeq σ α S) (it : Iterable σ α S) : Prop where
  aiter : ∀ free, a ≤ free → (q free).iter = it.iter
  anext : ∀ free, n ≤ free → (q free).next = it.next

/-- a sequence, with the type of the states of its iterators -/
structure AnySeq (σ α : Type) : Type 1 where
  State : Type
  seq : FrameSeq σ α State

/-- the sequence made from `repeat(v, 1)` by `xs = append(repeat(x, 1))(xs)` for each `x` of a list -/
def grown (v : α) (xs : List α) : AnySeq σ α :=
  xs.foldl (fun q x => ⟨_, FrameAsync.append (FrameAsync.repeat x (some 1)) q.seq⟩) ⟨_, FrameAsync.repeat v (some 1)⟩

/-- the sequence made from `range(start, stop, step)` by `xs = map(g)(xs)` for each `g` of a list of functions, which need no frames of their own -/
def mapped (start stop step : Int) (gs : List (Int → Int)) : AnySeq σ Int :=
  gs.foldl (fun q g => ⟨_, FrameAsync.map (fun _ x => pure (g x)) q.seq⟩) ⟨_, FrameAsync.range start stop step⟩

/-- the same asynchronous generator, in a world that counts how often it is resumed -/
def tallied {S : Type} (q : FrameSeq Nat α S) : FrameSeq Nat α S := fun free => {
  iter := (q free).iter
  next := fun s => do
    resumed
    (q free).next s }

/-- `grown`, with all the generators counted -/
def grownTallied (v : α) (xs : List α) : AnySeq Nat α :=
  xs.foldl (fun q x => ⟨_, tallied (FrameAsync.append (tallied (FrameAsync.repeat x (some 1))) q.seq)⟩) ⟨_, tallied (FrameAsync.repeat v (some 1))⟩

end Expression.Spec
