import Verif.Model.Extra
import Verif.Model.Functions

/-! # What composition, railways, traversal and recursion should mean -/

namespace Expression.Spec

open Expression

variable {σ α β ε : Type}

/-! ## traverse -/

/-- Call `fn` on every element, the last element first; the results in the order of the elements. -/
def visitBackwards (fn : α → PyD σ β) : List α → PyD σ (List β)
  | [] => pure []
  | x :: xs => do
    let rs ← visitBackwards fn xs
    let r ← fn x
    pure (r :: rs)

/-- All values, or the error that comes first. -/
def firstError : List (Res β ε) → Res (List β) ε
  | [] => .ok []
  | .error e :: _ => .error e
  | .ok v :: rs =>
    match firstError rs with
    | .error e => .error e
    | .ok vs => .ok (v :: vs)

/-- Call `fn` on the elements in order and stop at the first error. -/
def visitForward (fn : α → PyD σ (Res β ε)) : List α → PyD σ (Res (List β) ε)
  | [] => pure (.ok [])
  | x :: xs => do
    match ← fn x with
    | .error e => pure (.error e)
    | .ok v =>
      match ← visitForward fn xs with
      | .error e => pure (.error e)
      | .ok vs => pure (.ok (v :: vs))

/-- a result of a list as a result of a block -/
def inBlock : Res (List β) ε → Res (Block β) ε
  | .ok xs => .ok ⟨xs⟩
  | .error e => .error e

/-! ## railways -/

/-- Apply the functions in order to the successive payloads; stop at the first `Error`. -/
def railway : List (α → PyD σ (Res α ε)) → α → PyD σ (Res α ε)
  | [], x => pure (.ok x)
  | f :: fs, x => do
    match ← f x with
    | .ok y => railway fs y
    | .error e => pure (.error e)

/-- Apply the functions in order to the successive payloads; stop at the first `Nothing`. -/
def railwayOption : List (α → PyD σ (Option α)) → α → PyD σ (Option α)
  | [], x => pure (some x)
  | f :: fs, x => do
    match ← f x with
    | some y => railwayOption fs y
    | none => pure none

/-! ## calls -/

/-- a function that writes its name into a log before it runs -/
def logged (name : Nat) (f : α → PyD σ β) : α → PyD (σ × List Nat) β := fun x (w, log) =>
  match (f x).exec w with
  | none => none
  | some (r, w') => some (r, (w', log ++ [name]))

/-! ## recursion -/

/-- The recursion that `tailrec` stands for, seen from outside: calling with `args` ends with `r`. -/
inductive Recurs (fn : α → PyD σ (TailRec.Bounce α β)) : α → σ → Except PyErr β → σ → Prop
  | result {args w v w'} : (fn args).exec w = some (.ok (.result v), w') → Recurs fn args w (.ok v) w'
  | raises {args w e w'} : (fn args).exec w = some (.error e, w') → Recurs fn args w (.error e) w'
  | again {args w args' w1 r w'} : (fn args).exec w = some (.ok (.tailCall args'), w1) → Recurs fn args' w1 r w' → Recurs fn args w r w'

/-- Ordinary recursion: the function calls itself where it would have returned a `TailCall`. -/
def ordinary (fn : α → PyD σ (TailRec.Bounce α β)) (args : α) : PyD σ β := do
  match ← fn args with
  | .tailCall args' => ordinary fn args'
  | .result v => pure v
partial_fixpoint

/-- The stack: how many calls are open, and how many ever were at once. -/
structure Frames where
  now : Nat
  most : Nat

/-- calling a function opens a frame, returning or raising closes it -/
def framed {A : Type} (p : PyD (σ × Frames) A) : PyD (σ × Frames) A := fun (w, fr) =>
  match p.exec (w, ⟨fr.now + 1, max fr.most (fr.now + 1)⟩) with
  | none => none
  | some (r, (w', fr')) => some (r, (w', ⟨fr'.now - 1, fr'.most⟩))

/-- a computation that does not look at the stack and opens no frames of its own -/
def plain {A : Type} (p : PyD σ A) : PyD (σ × Frames) A := fun (w, fr) =>
  match p.exec w with
  | none => none
  | some (r, w') => some (r, (w', fr))

end Expression.Spec
