import Verif.Model.Py

/-!
# Specification: plain loops over a list of bindings

What "call it once per binding, in this order, stop here" means, written as loops over lists with an effectful callback.
-/

namespace Expression.Spec

variable {σ K V R : Type}

/-- `for (k, v) in xs: f(k, v)` -/
def forEach (f : K → V → Py σ Unit) : List (K × V) → Py σ Unit
  | [] => pure ()
  | (k, v) :: xs => do f k v; forEach f xs

/-- `for (k, v) in xs: if p(k, v): return True` / `return False` -/
def anyOf (p : K → V → Py σ Bool) : List (K × V) → Py σ Bool
  | [] => pure false
  | (k, v) :: xs => do if ← p k v then pure true else anyOf p xs

/-- `for (k, v) in xs: if not p(k, v): return False` / `return True` -/
def allOf (p : K → V → Py σ Bool) : List (K × V) → Py σ Bool
  | [] => pure true
  | (k, v) :: xs => do if ← p k v then allOf p xs else pure false

/-- the first `Some` that `f` answers, in list order -/
def firstSome (f : K → V → Py σ (Option R)) : List (K × V) → Py σ (Option R)
  | [] => pure none
  | (k, v) :: xs => do
    match ← f k v with
    | some r => pure (some r)
    | none => firstSome f xs

/-- `for kv in xs: state = f(state, kv)` -/
def foldLoop (f : R → K × V → Py σ R) : R → List (K × V) → Py σ R
  | x, [] => pure x
  | x, kv :: xs => do foldLoop f (← f x kv) xs

/-- `[(k, v) for (k, v) in xs if p(k, v)]` -/
def filterLoop (p : K → V → Py σ Bool) : List (K × V) → Py σ (List (K × V))
  | [] => pure []
  | (k, v) :: xs => do
    let keep ← p k v
    let rest ← filterLoop p xs
    pure (if keep then (k, v) :: rest else rest)

/-- split by `p`, asking about the last binding first -/
def partitionFromEnd (p : K → V → Py σ Bool) : List (K × V) → Py σ (List (K × V) × List (K × V))
  | [] => pure ([], [])
  | (k, v) :: xs => do
    let (yes, no) ← partitionFromEnd p xs
    if ← p k v then pure ((k, v) :: yes, no) else pure (yes, (k, v) :: no)

/-- `[(k, f(k, v)) for (k, v) in xs]` -/
def mapLoop (f : K → V → Py σ R) : List (K × V) → Py σ (List (K × R))
  | [] => pure []
  | (k, v) :: xs => do
    let r ← f k v
    let rest ← mapLoop f xs
    pure ((k, r) :: rest)

end Expression.Spec
