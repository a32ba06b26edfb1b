import Verif.Model.OptId

/-!
# Specification: the options a program can come by
-/

namespace Expression.Spec

open OptId

/-- Everything a program can make with the operations of the library.  A callback, or an argument, gives such an option as well, for the
arguments it is called with.  With `copies` the program also may call `Option.Nothing()` or `Option(none=None)`, copy and pickle, and read JSON, at any time (`n` is
the next free address then). -/
inductive Obtained (copies : Bool) : {α : Type} → OptObj α → Prop
  | nothing {α} : Obtained copies (nothing : OptObj α)
  | some {α} (v : α) : Obtained copies (.some v)
  | ofOptional {α} (v : Obj α) : Obtained copies (ofOptional v)
  | ofResult {α ε} (r : Res α ε) : Obtained copies (ofResult r)
  | map {α β} (f : α → β) (x : OptObj α) : Obtained copies x → Obtained copies (map f x)
  | map2 {α β γ} (f : α → β → γ) (x : OptObj α) (y : OptObj β) : Obtained copies x → Obtained copies y → Obtained copies (map2 f x y)
  | apply {α β} (x : OptObj α) (f : OptObj (α → β)) : Obtained copies x → Obtained copies f → Obtained copies (apply x f)
  | bind {α β} (x : OptObj α) (f : α → OptObj β) : Obtained copies x → (∀ v, x = .some v → Obtained copies (f v)) → Obtained copies (bind x f)
  | orElse {α} (x y : OptObj α) : Obtained copies x → Obtained copies y → Obtained copies (orElse x y)
  | orElseWith {α} (x : OptObj α) (y : Unit → OptObj α) : Obtained copies x → Obtained copies (y ()) → Obtained copies (orElseWith x y)
  | filter {α} (p : α → Bool) (x : OptObj α) : Obtained copies x → Obtained copies (filter p x)
  | tryPick {α β} (f : α → OptObj β) (vs : List α) : (∀ v ∈ vs, Obtained copies (f v)) → Obtained copies (tryPick f vs)
  | treePick {α β} (f : α → OptObj β) (m : Shape α) : (∀ v, Obtained copies (f v)) → Obtained copies (treePick f m)
  | found {α} (o : Option α) : Obtained copies (found o)
  | block {α β} (x : OptObj α) : Obtained copies x → Obtained copies (shortCircuit x : OptObj β)
  | asyncBlock {α β} (x : OptObj α) : Obtained copies x → Obtained copies (shortCircuitAsync x : OptObj β)
  | ofPython {α} (v : Obj α) : Obtained copies (ofPython v)
  | newNothing {α} (n : Nat) (hn : 1 ≤ n) (hc : copies = true) : Obtained copies (newNothing.run n : OptObj α × Nat).1
  | copy {α} (x : OptObj α) (n : Nat) (hn : 1 ≤ n) (hc : copies = true) : Obtained copies x → Obtained copies (copy x |>.run n).1
  | deepcopy {α} (cp : α → StateM Nat α) (x : OptObj α) (n : Nat) (hn : 1 ≤ n) (hc : copies = true) : Obtained copies x →
      Obtained copies (deepcopy cp x |>.run n).1
  | unpickled {α} (cp : α → StateM Nat α) (x : OptObj α) (n : Nat) (hn : 1 ≤ n) (hc : copies = true) : Obtained copies x →
      Obtained copies (unpickled cp x |>.run n).1
  | ofJson {α} (v : Obj α) (n : Nat) (hn : 1 ≤ n) (hc : copies = true) : Obtained copies (ofJson v |>.run n).1

end Expression.Spec
