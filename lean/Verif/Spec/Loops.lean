import Verif.Model.Py

/-!
# Specification: left-to-right loops over a list with an effectful callback

Each equation says: call the callback on the first element, then go on with the rest.
-/

namespace Expression.Spec

variable {σ α β : Type}

/-- `[f(x) for x in xs]` -/
def each (f : α → Py σ β) : List α → Py σ (List β)
  | [] => pure []
  | x :: xs => do
    let y ← f x
    let ys ← each f xs
    pure (y :: ys)

/-- `[x for x in xs if p(x)]` -/
def keep (p : α → Py σ Bool) : List α → Py σ (List α)
  | [] => pure []
  | x :: xs => do
    let b ← p x
    let ys ← keep p xs
    pure (if b then x :: ys else ys)

/-- the values of the `Some` answers, in order -/
def pick (f : α → Py σ (Option β)) : List α → Py σ (List β)
  | [] => pure []
  | x :: xs => do
    let o ← f x
    let ys ← pick f xs
    pure (o.toList ++ ys)

/-- `[y for x in xs for y in f(x)]` -/
def flatEach (f : α → Py σ (List β)) : List α → Py σ (List β)
  | [] => pure []
  | x :: xs => do
    let ys ← f x
    let zs ← flatEach f xs
    pure (ys ++ zs)

/-- the elements that pass and those that do not, each in order -/
def split (p : α → Py σ Bool) : List α → Py σ (List α × List α)
  | [] => pure ([], [])
  | x :: xs => do
    let b ← p x
    let (yes, no) ← split p xs
    pure (if b then (x :: yes, no) else (yes, x :: no))

/-- `for x in xs: state = f(state, x)` -/
def foldLeft (f : β → α → Py σ β) : β → List α → Py σ β
  | s, [] => pure s
  | s, x :: xs => do
    let s' ← f s x
    foldLeft f s' xs

/-- ask until the first `False` -/
def every (p : α → Py σ Bool) : List α → Py σ Bool
  | [] => pure true
  | x :: xs => do
    let b ← p x
    if b then every p xs else pure false

/-- `f` sees the position of each element, counting from `i` -/
def eachWithIndex (f : Int → α → Py σ β) (i : Int) : List α → Py σ (List β)
  | [] => pure []
  | x :: xs => do
    let y ← f i x
    let ys ← eachWithIndex f (i + 1) xs
    pure (y :: ys)

end Expression.Spec
