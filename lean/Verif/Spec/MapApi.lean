import Verif.Model.Map
import Verif.Spec.Dict

/-!
# Specification: maps a program can get hold of, and histories of updates
-/

namespace Expression.Spec

variable {K : Type} [PyOrd K]

/-- A map a program can hold: obtained from the empty map or a bulk constructor through any sequence of successful calls
of the map operations, with arbitrary effectful callbacks run in arbitrary worlds. -/
inductive Reachable : {V : Type} → Map K V → Prop
  | empty {V : Type} : Reachable (Map.empty : Map K V)
  | ofSeq {V : Type} {m : Map K V} (xs : List (K × V)) : Map.ofSeq xs = .ok m → Reachable m
  | ofList {V : Type} {m : Map K V} (xs : List (K × V)) : Map.ofList xs = .ok m → Reachable m
  | ofBlock {V : Type} {m : Map K V} (xs : List (K × V)) : Map.ofBlock xs = .ok m → Reachable m
  | add {V : Type} {m m' : Map K V} (k : K) (v : V) : Reachable m → m.add k v = .ok m' → Reachable m'
  | remove {V : Type} {m m' : Map K V} (k : K) : Reachable m → m.remove k = .ok m' → Reachable m'
  | change {V σ : Type} {m m' : Map K V} (k : K) (f : Option V → Py σ (Option V)) (w w' : σ) :
      Reachable m → (m.change k f).exec w = (.ok m', w') → Reachable m'
  | filter {V σ : Type} {m m' : Map K V} (p : K → V → Py σ Bool) (w w' : σ) :
      Reachable m → (m.filter p).exec w = (.ok m', w') → Reachable m'
  | partitionFst {V σ : Type} {m : Map K V} {mm : Map K V × Map K V} (p : K → V → Py σ Bool) (w w' : σ) :
      Reachable m → (m.partition p).exec w = (.ok mm, w') → Reachable mm.1
  | partitionSnd {V σ : Type} {m : Map K V} {mm : Map K V × Map K V} (p : K → V → Py σ Bool) (w w' : σ) :
      Reachable m → (m.partition p).exec w = (.ok mm, w') → Reachable mm.2
  | map {V R σ : Type} {m : Map K V} {m' : Map K R} (f : K → V → Py σ R) (w w' : σ) :
      Reachable m → (m.map f).exec w = (.ok m', w') → Reachable m'

/-- A map obtained without deleting keys from an existing tree: insertions, bulk construction, value mapping; and the
results of `filter` and `partition`, which rebuild. -/
inductive Grown : {V : Type} → Map K V → Prop
  | empty {V : Type} : Grown (Map.empty : Map K V)
  | ofSeq {V : Type} {m : Map K V} (xs : List (K × V)) : Map.ofSeq xs = .ok m → Grown m
  | ofList {V : Type} {m : Map K V} (xs : List (K × V)) : Map.ofList xs = .ok m → Grown m
  | ofBlock {V : Type} {m : Map K V} (xs : List (K × V)) : Map.ofBlock xs = .ok m → Grown m
  | add {V : Type} {m m' : Map K V} (k : K) (v : V) : Grown m → m.add k v = .ok m' → Grown m'
  | filter {V σ : Type} {m m' : Map K V} (p : K → V → Py σ Bool) (w w' : σ) :
      Reachable m → (m.filter p).exec w = (.ok m', w') → Grown m'
  | partitionFst {V σ : Type} {m : Map K V} {mm : Map K V × Map K V} (p : K → V → Py σ Bool) (w w' : σ) :
      Reachable m → (m.partition p).exec w = (.ok mm, w') → Grown mm.1
  | partitionSnd {V σ : Type} {m : Map K V} {mm : Map K V × Map K V} (p : K → V → Py σ Bool) (w w' : σ) :
      Reachable m → (m.partition p).exec w = (.ok mm, w') → Grown mm.2
  | map {V R σ : Type} {m : Map K V} {m' : Map K R} (f : K → V → Py σ R) (w w' : σ) :
      Grown m → (m.map f).exec w = (.ok m', w') → Grown m'

/-- One update of a map variable (callbacks without effects). -/
inductive Op (K V : Type) where
  | add (k : K) (v : V)
  | remove (k : K)
  | change (k : K) (f : Option V → Option V)
  | filter (p : K → V → Bool)
  | partitionFst (p : K → V → Bool)
  | partitionSnd (p : K → V → Bool)
  | map (f : K → V → V)

variable {V : Type}

/-- The call made for an update. -/
def Op.call (m : Map K V) : Op K V → Except PyErr (Map K V)
  | .add k v => m.add k v
  | .remove k => m.remove k
  | .change k f => ((m.change (σ := Unit) k (fun o => pure (f o))).exec ()).1
  | .filter p => ((m.filter (σ := Unit) (fun k v => pure (p k v))).exec ()).1
  | .partitionFst p => ((m.partition (σ := Unit) (fun k v => pure (p k v))).exec ()).1.map (·.1)
  | .partitionSnd p => ((m.partition (σ := Unit) (fun k v => pure (p k v))).exec ()).1.map (·.2)
  | .map f => ((m.map (σ := Unit) (fun k v => pure (f k v))).exec ()).1

/-- `try: m = <call> except Exception: pass`: a failed call leaves the variable as it was. -/
def Op.assign (m : Map K V) (op : Op K V) : Map K V :=
  match op.call m with
  | .ok m' => m'
  | .error _ => m

/-- The map variable after a history of updates, starting empty. -/
def runMap (ops : List (Op K V)) : Map K V := ops.foldl Op.assign Map.empty

/-- The same update on a dictionary. -/
def Op.onDict (d : Dict K V) : Op K V → Dict K V
  | .add k v => d.insert k v
  | .remove k => d.erase k
  | .change k f => d.update k f
  | .filter p => d.filter p
  | .partitionFst p => d.filter p
  | .partitionSnd p => d.filter (fun k v => !p k v)
  | .map f => d.mapValues f

/-- The dictionary after the same history. -/
def runDict (ops : List (Op K V)) : Dict K V := ops.foldl Op.onDict Dict.empty

end Expression.Spec
