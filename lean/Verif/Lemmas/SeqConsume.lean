import Verif.Model.SeqConsume
import Verif.Lemmas.SeqStack2
import Verif.Lemmas.AsyncStack

/-! Running through sequences on a bounded stack. -/

namespace Expression.Lemmas.SeqConsume

open Expression Spec PyD Lemmas.SeqStack

variable {σ α β S : Type}

theorem or_both {F : Nat → PyD σ β} {f : PyD σ β} (h : ∀ free, OrRecursionError (F free) f) (free : Nat) : Both Eq (F free) f :=
  Both.of_or (h free)

theorem curried_or {F : Nat → PyD σ β} {f : PyD σ β} (h : ∀ free, Both Eq (F free) f) (free : Nat) :
    OrRecursionError (FrameSeq.curried F free) f :=
  Lemmas.AsyncStack.coroutine_or (fun free => or_both (Lemmas.AsyncStack.coroutine_or (fun free => or_both (Lemmas.AsyncStack.coroutine_or h) free)) free) free

theorem same_genexpr {F : Nat → α → PyD σ β} {f : α → PyD σ β} (hf : ∀ free x, OrRecursionError (F free x) (f x))
    {S' : Type} {q : FrameSeq σ α S} {it : Iterable σ α S'} (h : Same q it) : Same (FrameSeq.genexpr F q) (Seq.map f it) := by
  obtain ⟨R, h⟩ := h
  refine Same.generator ⟨OptR R, fun free => ⟨.pure .none, fun s s' hs => ?_⟩⟩
  refine (started_both (h free) hs).bind fun a b hab => ((h free).next a b hab).bind ?_
  rintro _ _ (_ | ⟨⟨rfl⟩, hr⟩)
  · exact .pure .none
  · refine (Both.of_or (hf free _)).bind ?_
    rintro y _ rfl
    exact .pure (.some rfl (.some hr))

theorem noFirst_genexpr {n : Nat} {q : FrameSeq σ α S} (h : ∀ free, free < n → NoFirst (q free)) (F : Nat → α → PyD σ β) (free : Nat)
    (hf : free < n + 1) : NoFirst (FrameSeq.genexpr F q free) := by
  intro w
  match free with
  | 0 => rfl
  | free + 1 =>
    have h := h free (by omega) w
    show exec (pure none >>= (Seq.map (F free) (q free)).next) w = _
    rw [pure_bind]
    show exec ((q free).iter >>= fun s => (q free).next s >>= _) w = _
    rw [← bind_assoc, exec_bind, h]

theorem genexpr_raises {q : FrameSeq σ α S} {free : Nat} {w w' w'' : σ} {x : α} {s : S} {e : PyErr} {F : Nat → α → PyD σ β}
    (h : ((q free).iter >>= (q free).next).exec w = some (.ok (some (x, s)), w')) (hb : (F free x).exec w' = some (.error e, w'')) :
    ((FrameSeq.genexpr F q (free + 1)).iter >>= (FrameSeq.genexpr F q (free + 1)).next).exec w = some (.error e, w'') := by
  show exec (pure none >>= (Seq.map (F free) (q free)).next) w = _
  rw [pure_bind]
  show exec ((q free).iter >>= fun s => (q free).next s >>= _) w = _
  rw [← bind_assoc, exec_bind, h]
  simp only
  rw [exec_bind, hb]

theorem loop_raises {C : Type} {it : Iterable σ α S} {w w' : σ} {e : PyErr} (h : (it.iter >>= it.next).exec w = some (.error e, w'))
    (body : C → α → PyD σ (Flow C)) (c : C) : (it.forLoop body c).exec w = some (.error e, w') := by
  rw [Iterable.forLoop]
  rw [exec_bind] at h ⊢
  rcases hx : it.iter.exec w with _ | ⟨e | s, w1⟩ <;> rw [hx] at h
  · cases h
  · cases h; rfl
  · simp only at h ⊢
    rw [Iterable.loop_eq, exec_bind, h]

end Expression.Lemmas.SeqConsume
