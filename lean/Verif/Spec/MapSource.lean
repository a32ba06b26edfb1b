import Verif.Model.Map
import Verif.Spec.Loop

/-!
# Specification: making a map from an iterable

The loop that a programmer would write, and the history of an iterator that is asked for pairs.
-/

namespace Expression.Spec

variable {σ α K V S : Type}

/-- `for x, y in src: m = m.add(x, y)`, starting with the empty map -/
def fillMap [PyOrd K] (unpack : α → PyD σ (K × V)) (src : Iterable σ α S) : PyD σ (Map K V) :=
  src.forLoop (fun m x => do
    let kv ← unpack x
    let m' ← PyD.ofPy (Py.ofExcept (m.add kv.1 kv.2))
    pure (.next m')) Map.empty

/-- `Draws unpack src s w kvs s' w'`: an iterator in state `s`, asked again and again from world `w` on, gave one element after the
other, each was taken apart before the next one was asked for, and these were the pairs `kvs`; that left `s'` and `w'`. -/
inductive Draws (unpack : α → PyD σ (K × V)) (src : Iterable σ α S) : S → σ → List (K × V) → S → σ → Prop
  | zero {s w} : Draws unpack src s w [] s w
  | succ {s w x s1 w1 kv w2 kvs s' w'} (pull : (src.next s).exec w = some (.ok (some (x, s1)), w1))
      (split : (unpack x).exec w1 = some (.ok kv, w2)) (rest : Draws unpack src s1 w2 kvs s' w') :
      Draws unpack src s w (kv :: kvs) s' w'

/-- How asking for one more pair ends, if not with a pair. -/
inductive DrawEnds (unpack : α → PyD σ (K × V)) (src : Iterable σ α S) (s : S) (w : σ) : Option (Option PyErr × σ) → Prop
  /-- there is none -/
  | exhausted {w'} (h : (src.next s).exec w = some (.ok none, w')) : DrawEnds unpack src s w (some (none, w'))
  /-- the iterator raises -/
  | raises {e w'} (h : (src.next s).exec w = some (.error e, w')) : DrawEnds unpack src s w (some (some e, w'))
  /-- taking the element apart raises -/
  | splitRaises {x s1 w1 e w'} (h : (src.next s).exec w = some (.ok (some (x, s1)), w1))
      (h2 : (unpack x).exec w1 = some (.error e, w')) : DrawEnds unpack src s w (some (some e, w'))
  /-- the iterator does not return -/
  | hangs (h : (src.next s).exec w = none) : DrawEnds unpack src s w none
  /-- taking the element apart does not return -/
  | splitHangs {x s1 w1} (h : (src.next s).exec w = some (.ok (some (x, s1)), w1)) (h2 : (unpack x).exec w1 = none) :
      DrawEnds unpack src s w none

end Expression.Spec
