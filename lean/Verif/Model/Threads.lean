/-!
# Threads

Threads are modelled as interleavings: a state, and a function that says what state one atomic action of one thread leads to (`none`: that thread cannot take
that action now).  A schedule is any finite list of such choices.  Memory is sequentially consistent (CPython with its global lock: one bytecode at a time).
-/

namespace Expression.Threads

variable {S C A : Type}

/-- the state after a schedule [model: interleavings] -/
def run (step : S → C → Option S) : S → List C → Option S
  | s, [] => some s
  | s, c :: cs =>
    match step s c with
    | none => none
    | some s' => run step s' cs

/-- change what belongs to one thread [model: interleavings] -/
def upd (f : Nat → A) (t : Nat) (a : A) : Nat → A := fun t' => if t' = t then a else f t'

end Expression.Threads
