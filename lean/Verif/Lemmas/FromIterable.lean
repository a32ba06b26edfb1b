import Verif.Spec.FromIterable
import Verif.Lemmas.Seq2
import Verif.Lemmas.Const

/-! # Collections made from any iterable -/

namespace Expression.Lemmas.FromIterable

open Expression Spec PyD Iterable

variable {σ α β S : Type}

/-- the loop of `list(xs)` -/
abbrev add (acc : List α) (x : α) : PyD σ (Flow (List α)) := pure (.next (acc ++ [x]))

theorem loop_of_rest {src : Iterable σ α S} {s : S} {w : σ} {r} (h : RestOf src s w r) :
    ∀ acc, (src.loop add s acc).exec w = some (r.1.map (acc ++ ·), r.2) := by
  induction h with
  | exhausted h => intro acc; rw [Iterable.loop.eq_1, exec_bind, h]; simp [Except.map]
  | raises h => intro acc; rw [Iterable.loop.eq_1, exec_bind, h]; simp [Except.map]
  | @oneMore _ _ x _ _ _ _ h _ ih =>
    intro acc
    rw [Iterable.loop.eq_1, exec_bind, h]
    have := ih (acc ++ [x])
    simp only [add, pure_bind]
    rw [this]
    simp [Except.map]
  | @raisesLater _ _ x _ _ _ _ h _ ih =>
    intro acc
    rw [Iterable.loop.eq_1, exec_bind, h]
    have := ih (acc ++ [x])
    simp only [add, pure_bind]
    rw [this]
    simp [Except.map]

theorem rest_of_loop (src : Iterable σ α S) (s : S) (acc : List α) (w : σ) (r) (h : (src.loop add s acc).exec w = some r) :
    ∃ q, RestOf src s w q ∧ r = (q.1.map (acc ++ ·), q.2) := by
  refine Iterable.loop.fixpoint_induct (it := src) (body := add) _
    (admissible_post2 (fun (s : S) (acc : List α) (w : σ) (r : Except PyErr (List α) × σ) =>
      ∃ q, RestOf src s w q ∧ r = (q.1.map (acc ++ ·), q.2))) ?_ s acc w r h
  intro F hF s acc w r hr
  dsimp only at hr
  rcases exec_bind_some hr with ⟨e, h1, h2⟩ | ⟨o, w1, h1, h2⟩
  · exact ⟨_, .raises h1, by simp only [Except.map]; rw [← h2]⟩
  · rcases o with _ | ⟨x, s1⟩
    · simp only [exec_pure, Option.some.injEq] at h2
      exact ⟨_, .exhausted h1, by simp only [Except.map, List.append_nil]; exact h2.symm⟩
    · simp only [add, pure_bind] at h2
      obtain ⟨⟨q, w'⟩, h3, h4⟩ := hF _ _ _ _ h2
      rcases q with e | xs
      · exact ⟨_, .raisesLater h1 h3, h4⟩
      · refine ⟨_, .oneMore h1 h3, ?_⟩
        rw [h4]
        simp [Except.map]

theorem toList_iff (src : Iterable σ α S) (w : σ) (r) : src.toList.exec w = some r ↔ OneIteration src w r := by
  change PyD.exec (src.iter >>= fun s => src.loop add s []) w = some r ↔ _
  constructor
  · intro h
    rcases exec_bind_some h with ⟨e, h1, h2⟩ | ⟨s, w1, h1, h2⟩
    · obtain ⟨r1, r2⟩ := r
      cases h2
      exact .noIterator h1
    · obtain ⟨⟨q, w'⟩, h3, h4⟩ := rest_of_loop _ _ _ _ _ h2
      subst h4
      rcases q with e | xs <;> exact .iterator h1 h3
  · intro h
    cases h with
    | noIterator h => rw [exec_bind, h]
    | @iterator s w1 _ h hr =>
      rw [exec_bind, h]
      have := loop_of_rest hr []
      dsimp only
      rw [this]
      rcases r with ⟨_ | _, _⟩ <;> simp [Except.map]

theorem makes_of {src : Iterable σ α S} {f : List α → Except PyErr β} {m : PyD σ β}
    (h : m = src.toList >>= fun xs => PyD.ofPy (Py.ofExcept (f xs))) : MakesOf src f m := by
  intro w r
  rw [h]
  constructor
  · intro h
    rcases exec_bind_some h with ⟨e, h1, h2⟩ | ⟨xs, w1, h1, h2⟩
    · refine ⟨_, (toList_iff _ _ _).mp h1, ?_⟩
      simp only [Except.bind]
      rw [← h2]
    · refine ⟨_, (toList_iff _ _ _).mp h1, ?_⟩
      exact (Option.some.inj h2).symm
  · rintro ⟨⟨q, w1⟩, hq, rfl⟩
    rw [exec_bind, (toList_iff _ _ _).mpr hq]
    rcases q with e | xs <;> rfl

theorem ofExcept_ok (b : β) : (PyD.ofPy (Py.ofExcept (.ok b)) : PyD σ β) = pure b := rfl

end Expression.Lemmas.FromIterable
