import Verif.Spec.ArrayLive
import Verif.Spec.StopIter

/-!
# Specification: what Python's lists do for `in`, `index` and `reversed`
-/

namespace Expression.Spec

open Arr ArrLive

variable {ω τ σ α C : Type}

/-- `any(same(v) for v in xs)`: asked in order, up to the first yes -/
def anyIn (same : α → PyD σ Bool) : List α → PyD σ Bool
  | [] => pure false
  | v :: vs => do
    let b ← same v
    if b then pure true else anyIn same vs

/-- the position of the first element of `xs` that is the same, if the first one has position `i`; `ValueError` if there is none -/
def firstAt (same : α → PyD σ Bool) : List α → Int → PyD σ Int
  | [], _ => PyD.raise (.valueError "")
  | v :: vs, i => do
    let b ← same v
    if b then pure i else firstAt same vs (i + 1)

/-- `reversed(list)`: the position is compared with the length that the list has when the next element is asked for (listobject.c
`listreviter_next`) -/
def listReversed (addr : Nat) : Iterable (World ω τ) (Val ω) Int where
  iter := fun w => some (.ok ((itemsAt addr w).length - 1 : Int), w)
  next i := fun w =>
    if i < 0 then some (.ok none, w)
    else some (.ok ((itemsAt addr w)[i.toNat]?.map (fun x => (x, i - 1))), w)

/-- the callback changes nothing at positions before one at which its argument stands -/
def LeavesBehind (addr : Nat) (f : Val ω → PyD (World ω τ) C) : Prop :=
  ∀ i x w r w', (itemsAt addr w)[i]? = some x → (f x).exec w = some (r, w') → (itemsAt addr w').take i = (itemsAt addr w).take i

end Expression.Spec
