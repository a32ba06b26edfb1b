import Verif.Model.Linked

/-! # What it means that cancelling one source cancels another -/

namespace Expression.Spec.Linked

open Expression.Linked

variable {n m : Nat}

/-- what can be cancelled or disposed -/
inductive Target (n m : Nat) where
  | source (i : Fin n)
  | disposable (d : Fin m)
deriving DecidableEq

/-- `is_cancellation_requested` of the source is true (cancellation.py:68-69); entering the disposable raises (disposable.py:63-66) -/
def Target.off (s : State n m) : Target n m → Bool
  | .source i => (s.source i).isDisposed
  | .disposable d => (s.disposable d).isDisposed

/-- the callback cancels or disposes this -/
def asks : Callback n m → Target n m → Prop
  | .cancel j, y => y = .source j
  | .dispose d, y => y = .disposable d
  | .user, _ => False

/-- `y.cancel` or `y.dispose` is a callback of `x`: the action of a disposable; registered with a source by the time `a`, when nobody had begun to cancel it,
and not being unregistered by the time `b` -/
def LinkedTo (callbacks : Fin n → Nat → Callback n m) (actions : Fin m → Callback n m) (a b : State n m) : Target n m → Target n m → Prop
  | .source i, y => ∃ k, .registered k ∈ (a.source i).log ∧ (∀ t, .cancelBegan t ∉ (a.source i).log) ∧ .unregisterBegan k ∉ (b.source i).log ∧ asks (callbacks i k) y
  | .disposable d, y => asks (actions d) y

/-- linked through any number of others -/
inductive Chain (callbacks : Fin n → Nat → Callback n m) (actions : Fin m → Callback n m) (a b : State n m) (x : Target n m) : Target n m → Prop where
  | here : Chain callbacks actions a b x x
  | next (y z : Target n m) (h : Chain callbacks actions a b x y) (hl : LinkedTo callbacks actions a b y z) : Chain callbacks actions a b x z

/-- the thread calls `cancel` or `dispose` of this -/
def callsOff : Act n m → Target n m → Prop
  | .cancel j, y => y = .source j
  | .dispose d, y => y = .disposable d
  | _, _ => False

/-- a thread goes on with the call it is in -/
def goesOn (c : Nat × Act n m) : Bool :=
  match c.2 with
  | .go => true
  | _ => false

end Expression.Spec.Linked
