import Verif.Model.Py

/-!
# Specification: an ordinary key-value dictionary

Independent of the tree.  A dictionary is the function that looks a key up.  What is stored under a key is the binding: the
key object given last and its value (keys may be `==` without being identical).
-/

namespace Expression.Spec

variable {K V R : Type}

/-- Look a key up: `none` when it is not bound. -/
abbrev Dict (K V : Type) := K → Option (K × V)

namespace Dict

/-- The empty dictionary. -/
def empty : Dict K V := fun _ => none

/-- The value bound to a key. -/
def get? (d : Dict K V) (k : K) : Option V := (d k).map (·.2)

/-- Keep the bindings satisfying `p`. -/
def filter (d : Dict K V) (p : K → V → Bool) : Dict K V := fun k => (d k).filter (fun kv => p kv.1 kv.2)

/-- Replace every value. -/
def mapValues (d : Dict K V) (f : K → V → R) : Dict K R := fun k => (d k).map (fun kv => (kv.1, f kv.1 kv.2))

variable [PyOrd K]

/-- Bind `k` to `v`, replacing any binding of a key equal to `k`. -/
def insert (d : Dict K V) (k : K) (v : V) : Dict K V := fun k' => if PyOrd.eq k' k then some (k, v) else d k'

/-- Unbind `k`. -/
def erase (d : Dict K V) (k : K) : Dict K V := fun k' => if PyOrd.eq k' k then none else d k'

/-- Replace what is bound to `k` by what `f` makes of it. -/
def update (d : Dict K V) (k : K) (f : Option V → Option V) : Dict K V :=
  match f (d.get? k) with
  | some v => d.insert k v
  | none => d.erase k

/-- The dictionary of a sequence of bindings entered from left to right (the last one of equal keys wins). -/
def ofPairs (xs : List (K × V)) : Dict K V := xs.foldl (fun d kv => d.insert kv.1 kv.2) empty

end Dict

/-- Keys strictly ascending: every key is smaller than every later one. -/
def Ascending [PyOrd K] (xs : List (K × V)) : Prop := xs.Pairwise (fun a b => PyOrd.lt a.1 b.1 = true)

end Expression.Spec
