import Verif.Model.FromIterable

/-! # Specification: iterating once -/

namespace Expression.Spec

open Expression

variable {σ α β S : Type}

/-- `RestOf src s w r`: an iterator in state `s`, asked again and again from world `w` on until it was exhausted or raised, gave `r`: the elements or the
exception, and the world after that. -/
inductive RestOf (src : Iterable σ α S) : S → σ → Except PyErr (List α) × σ → Prop
  | exhausted {s w w'} (h : (src.next s).exec w = some (.ok none, w')) : RestOf src s w (.ok [], w')
  | raises {s w e w'} (h : (src.next s).exec w = some (.error e, w')) : RestOf src s w (.error e, w')
  | oneMore {s w x s1 w1 xs w'} (h : (src.next s).exec w = some (.ok (some (x, s1)), w1)) (rest : RestOf src s1 w1 (.ok xs, w')) :
      RestOf src s w (.ok (x :: xs), w')
  | raisesLater {s w x s1 w1 e w'} (h : (src.next s).exec w = some (.ok (some (x, s1)), w1)) (rest : RestOf src s1 w1 (.error e, w')) :
      RestOf src s w (.error e, w')

/-- Making one iterator, and asking it to the end. -/
inductive OneIteration (src : Iterable σ α S) (w : σ) : Except PyErr (List α) × σ → Prop
  | noIterator {e w'} (h : src.iter.exec w = some (.error e, w')) : OneIteration src w (.error e, w')
  | iterator {s w1 r} (h : src.iter.exec w = some (.ok s, w1)) (rest : RestOf src s w1 r) : OneIteration src w r

/-- `m` iterates `src` exactly once and does nothing else; the elements become `f` of them; if the iteration raises, so does `m`; if it has no end, `m` has none. -/
def MakesOf (src : Iterable σ α S) (f : List α → Except PyErr β) (m : PyD σ β) : Prop :=
  ∀ w r, m.exec w = some r ↔ ∃ q, OneIteration src w q ∧ r = (q.1.bind f, q.2)

end Expression.Spec
