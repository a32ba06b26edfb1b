import Verif.Model.ParserStack
import Verif.Spec.Parse

/-!
# What running parsers on a bounded stack means
-/

namespace Expression.Spec

open Expression

variable {σ α β : Type}

/-- with at least `n` free frames `q` does what `p` does where the stack is unbounded -/
def EnoughFrames (n : Nat) (q : FrameParser σ α) (p : Parser σ α) : Prop := ∀ free, n ≤ free → q free = p

/-- running `q` from a stack with `free` free frames raises `RecursionError` -/
def Overflows (q : FrameParser σ α) (free : Nat) (inp : Remaining) (w w' : σ) : Prop :=
  (q free inp).exec w = some (.error .recursionError, w')

/-- `q` and `p` are made in the same way, with and without a bound of the stack -/
inductive SameParser : {α : Type} → FrameParser σ α → Parser σ α → Prop
  | pchar (c : Str) : SameParser (.pchar c) (.pchar c)
  | preturn {α : Type} (x : α) : SameParser (.preturn x) (.preturn x)
  | fail {α : Type} (e : String) : SameParser (.fail e : FrameParser σ α) (.fail e)
  | andThen {α β : Type} {q p} {q' p'} : SameParser (α := α) q p → SameParser (α := β) q' p' →
      SameParser (.andThen q q') (.andThen p p')
  | orElse {α : Type} {q p} {q' p'} : SameParser (α := α) q p → SameParser q' p' → SameParser (.orElse q q') (.orElse p p')
  | map {α β : Type} (f : α → PyD σ β) {q p} : SameParser q p → SameParser (.map f q) (.map f p)
  | starmap {α β γ : Type} (f : α → β → PyD σ γ) {q p} : SameParser q p → SameParser (.starmap f q) (.starmap f p)
  | apply {α β : Type} {q p} {q' p'} : SameParser (α := α → PyD σ β) q p → SameParser q' p' → SameParser (.apply q q') (.apply p p')
  | lift2 {α β γ : Type} (f : α → PyD σ (β → PyD σ γ)) {q p} {q' p'} : SameParser q p → SameParser q' p' →
      SameParser (.lift2 f q q') (.lift2 f p p')
  | sequenceNil {α : Type} : SameParser (.sequence ([] : List (FrameParser σ α))) (.sequence [])
  | sequenceCons {α : Type} {q p} {qs ps} : SameParser (α := α) q p → SameParser (.sequence qs) (.sequence ps) →
      SameParser (.sequence (q :: qs)) (.sequence (p :: ps))
  | pstring (s : Str) : SameParser (.pstring s) (.pstring s)
  | many {α : Type} {q p} : SameParser (α := α) q p → SameParser (.many q) (.many p)
  | many1 {α : Type} {q p} : SameParser (α := α) q p → SameParser (.many1 q) (.many1 p)
  | thenIgnore {α β : Type} {q p} {q' p'} : SameParser (α := α) q p → SameParser (α := β) q' p' →
      SameParser (.thenIgnore q q') (.thenIgnore p p')
  | ignoreThen {α β : Type} {q p} {q' p'} : SameParser (α := α) q p → SameParser (α := β) q' p' →
      SameParser (.ignoreThen q q') (.ignoreThen p p')
  | sepBy1 {α β : Type} {q p} {q' p'} : SameParser (α := α) q p → SameParser (α := β) q' p' → SameParser (.sepBy1 q q') (.sepBy1 p p')
  | sepBy {α β : Type} {q p} {q' p'} : SameParser (α := α) q p → SameParser (α := β) q' p' → SameParser (.sepBy q q') (.sepBy p p')
  | opt {α : Type} {q p} : SameParser (α := α) q p → SameParser (.opt q) (.opt p)
  | between {α β γ : Type} {q p} {q' p'} {q'' p''} : SameParser (α := α) q p → SameParser (α := β) q' p' → SameParser (α := γ) q'' p'' →
      SameParser (.between q q' q'') (.between p p' p'')
  | bind {α β ι : Type} (f : α → PyD σ ι) (qs : ι → FrameParser σ β) (ps : ι → Parser σ β) {q p} : SameParser q p →
      (∀ i, SameParser (qs i) (ps i)) → SameParser (.bind (fun a => do pure (qs (← f a))) q) (.bind (fun a => do pure (ps (← f a))) p)
  | ignore {α : Type} {q p} : SameParser (α := α) q p → SameParser (.ignore q) (.ignore p)

/-- how many of the characters of `s`, from the first on, are in the text from position `i` on -/
def agreement : Str → Str → Nat → Nat
  | [], _, _ => 0
  | c :: s, text, i => if text[i]? = some c then agreement s text (i + 1) + 1 else 0

end Expression.Spec
