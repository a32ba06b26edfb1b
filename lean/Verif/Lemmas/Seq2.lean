import Verif.Lemmas.Seq
import Mathlib.Logic.Function.Iterate

/-! # Counting pulls, searching, re-iteration and folds -/

namespace Expression.Lemmas

open Iterable PyD Spec

variable {σ α β γ S T C : Type}

/-! ## inversion -/

theorem exec_bind_some {p : PyD σ α} {f : α → PyD σ β} {w : σ} {r : Except PyErr β × σ}
    (h : exec (p >>= f) w = some r) :
    (∃ e, exec p w = some (.error e, r.2) ∧ r.1 = .error e) ∨
    (∃ a w1, exec p w = some (.ok a, w1) ∧ exec (f a) w1 = some r) := by
  rw [exec_bind] at h
  rcases hp : exec p w with _ | ⟨e | a, w1⟩ <;> rw [hp] at h <;> simp only at h
  · cases h
  · cases h; exact .inl ⟨e, rfl, rfl⟩
  · exact .inr ⟨a, w1, rfl, h⟩

theorem exec_map (g : α → β) (p : PyD σ α) (w : σ) :
    exec (g <$> p) w = (exec p w).map (fun r => (r.1.map g, r.2)) := by
  rw [map_eq_pure_bind, exec_bind]
  rcases exec p w with _ | ⟨_ | _, _⟩ <;> rfl

/-! ## counted -/

theorem counted_iter {src : Iterable σ α S} {w : σ × Nat} {r : Except PyErr S × (σ × Nat)}
    (h : (counted src).iter.exec w = some r) : r.2.2 = w.2 := by
  change (match src.iter.exec w.1 with
    | none => none
    | some (r, w') => some (r, (w', w.2))) = some r at h
  rcases h' : src.iter.exec w.1 with _ | ⟨_, _⟩ <;> rw [h'] at h <;> cases h
  rfl

theorem counted_next {src : Iterable σ α S} {s : S} {w : σ × Nat} {r : Except PyErr (Option (α × S)) × (σ × Nat)}
    (h : ((counted src).next s).exec w = some r) : r.2.2 = w.2 + 1 := by
  change (match (src.next s).exec w.1 with
    | none => none
    | some (r, w') => some (r, (w', w.2 + 1))) = some r at h
  rcases h' : (src.next s).exec w.1 with _ | ⟨_, _⟩ <;> rw [h'] at h <;> cases h
  rfl

/-- the loop that `list(take(n, src))` runs -/
theorem take_count_loop (n : Nat) (src : Iterable σ α S) (s : S) (c : Nat × List α) (w : σ × Nat)
    (r : Except PyErr (Nat × List α) × (σ × Nat))
    (h : ((counted src).loop (takeBody n (fun acc x => pure (.next (acc ++ [x])))) s c).exec w = some r) :
    c.1 < n → r.2.2 ≤ w.2 + (n - c.1) ∧ ∀ i' acc', r.1 = .ok (i', acc') → ∃ d, acc'.length = c.2.length + d ∧
      ((c.1 + d = n ∧ r.2.2 = w.2 + d) ∨ (c.1 + d < n ∧ r.2.2 = w.2 + d + 1)) := by
  refine loop_post (counted src) (takeBody n (fun acc x => pure (.next (acc ++ [x]))))
    (fun s c w r => c.1 < n → r.2.2 ≤ w.2 + (n - c.1) ∧ ∀ i' acc', r.1 = .ok (i', acc') →
      ∃ d, acc'.length = c.2.length + d ∧
      ((c.1 + d = n ∧ r.2.2 = w.2 + d) ∨ (c.1 + d < n ∧ r.2.2 = w.2 + d + 1))) ?_ s c w r h
  intro F hF s c w r hr hlt
  rcases exec_bind_some hr with ⟨e, h1, h2⟩ | ⟨o, w1, h1, h2⟩
  · have := counted_next h1
    refine ⟨by simp only at this; omega, ?_⟩
    intro i' acc' hh
    rw [h2] at hh; cases hh
  · have hc := counted_next h1
    simp only at hc
    rcases o with _ | ⟨x, s'⟩
    · simp only [step_none, exec_pure, Option.some.injEq] at h2
      subst h2
      refine ⟨by simp only; omega, ?_⟩
      intro i' acc' hh
      simp only [Except.ok.injEq] at hh
      subst hh
      exact ⟨0, rfl, .inr ⟨hlt, hc⟩⟩
    · simp only [step_some, takeBody, pure_bind] at h2
      by_cases hn : c.1 + 1 = n
      · rw [if_pos hn, pure_bind, cont_stop, exec_pure] at h2
        cases h2
        refine ⟨by simp only; omega, ?_⟩
        intro i' acc' hh
        simp only [Except.ok.injEq, Prod.mk.injEq] at hh
        refine ⟨1, by rw [← hh.2]; simp, .inl ⟨hn, hc⟩⟩
      · rw [if_neg hn, pure_bind, cont_next] at h2
        have ih := hF _ _ _ _ h2 (by simp only; omega)
        simp only at ih
        refine ⟨by omega, ?_⟩
        intro i' acc' hh
        obtain ⟨d, hd1, hd2⟩ := ih.2 i' acc' hh
        refine ⟨d + 1, by rw [hd1]; simp; omega, ?_⟩
        omega

theorem take_count (n : Nat) (src : Iterable σ α S) (w w' : σ) (k k' : Nat) (r : Except PyErr (List α))
    (h : (toList (Seq.take n (counted src))).exec (w, k) = some (r, (w', k'))) :
    k' ≤ k + n ∧ ∀ ys, r = .ok ys →
      (ys.length = n ∧ k' = k + n) ∨ (ys.length < n ∧ k' = k + ys.length + 1) := by
  rcases Nat.eq_zero_or_pos n with rfl | hn
  · rw [toList, take_zero_forLoop _ (by simp)] at h
    cases h
    refine ⟨by omega, ?_⟩
    rintro ys hh
    cases hh
    exact .inl ⟨rfl, rfl⟩
  · rw [toList, take_forLoop n hn, exec_map] at h
    rcases hq : exec ((counted src).forLoop (takeBody n fun acc x => pure (.next (acc ++ [x]))) (0, [])) (w, k) with
      _ | ⟨r0, w0⟩ <;> rw [hq] at h <;> simp only [Option.map_none, Option.map_some, reduceCtorEq, Option.some.injEq,
        Prod.mk.injEq] at h
    obtain ⟨h1, rfl⟩ := h
    rcases exec_bind_some hq with ⟨e, h2, h3⟩ | ⟨s, w1, h2, h3⟩
    · have := counted_iter h2
      simp only at this h3
      subst h3
      refine ⟨by omega, ?_⟩
      intro ys hh
      rw [← h1] at hh
      cases hh
    · have hc := counted_iter h2
      obtain ⟨q1, q2⟩ := take_count_loop n src s (0, []) w1 _ h3 hn
      simp only at hc q1 q2
      refine ⟨by omega, ?_⟩
      intro ys hh
      rw [← h1] at hh
      rcases r0 with e | ⟨i', acc'⟩
      · cases hh
      · simp only [Except.map, Except.ok.injEq] at hh
        obtain ⟨d, e1, e2⟩ := q2 i' acc' rfl
        subst hh
        simp only [List.length_nil] at e1
        omega

/-! ## searching -/

/-- from a trace of misses: the loop arrives behind them -/
theorem loop_skips {src : Iterable σ α S} {miss : α → σ → σ → Prop} {body : C → α → PyD σ (Flow C)} {up : C → C}
    (hb : ∀ c x w w', miss x w w' → (body c x).exec w = some (.ok (.next (up c)), w')) {s : S} {w : σ} {n : Nat} {s' : S}
    {w' : σ} (h : Skips src miss s w n s' w') (c : C) :
    (src.loop body s c).exec w = (src.loop body s' (up^[n] c)).exec w' := by
  induction h generalizing c with
  | zero => rfl
  | succ pull test rest ih =>
    rw [loop_eq, exec_bind, pull]
    simp only [step_some]
    rw [exec_bind, hb c _ _ _ test]
    simp only [cont_next]
    rw [ih, Function.iterate_succ_apply]

/-- a loop that stops at the first hit -/
def searchBody (test : α → PyD σ (Option β)) (up : C → C) (fin : C → β → C) (c : C) (x : α) : PyD σ (Flow C) := do
  match ← test x with
  | some b => pure (.stop (fin c b))
  | none => pure (.next (up c))

/-- how a search from iterator state `s` can end -/
def SearchEnds (src : Iterable σ α S) (test : α → PyD σ (Option β)) (up : C → C) (fin : C → β → C) (s : S) (c : C) (w : σ)
    (r : Except PyErr C × σ) : Prop :=
  ∃ n s1 w1, Skips src (fun x w w' => (test x).exec w = some (.ok none, w')) s w n s1 w1 ∧
    ((∃ e, (src.next s1).exec w1 = some (.error e, r.2) ∧ r.1 = .error e) ∨
     ((src.next s1).exec w1 = some (.ok none, r.2) ∧ r.1 = .ok (up^[n] c)) ∨
     (∃ x s2 w2, (src.next s1).exec w1 = some (.ok (some (x, s2)), w2) ∧
       ((∃ e, (test x).exec w2 = some (.error e, r.2) ∧ r.1 = .error e) ∨
        (∃ b, (test x).exec w2 = some (.ok (some b), r.2) ∧ r.1 = .ok (fin (up^[n] c) b)))))

theorem search_iff (src : Iterable σ α S) (test : α → PyD σ (Option β)) (up : C → C) (fin : C → β → C) (s : S) (c : C)
    (w : σ) (r : Except PyErr C × σ) :
    (src.loop (searchBody test up fin) s c).exec w = some r ↔ SearchEnds src test up fin s c w r := by
  constructor
  · refine loop_post src _ (SearchEnds src test up fin) ?_ s c w r
    intro F hF s c w r hr
    rcases exec_bind_some hr with ⟨e, h1, h2⟩ | ⟨o, w1, h1, h2⟩
    · exact ⟨0, s, w, .zero, .inl ⟨e, h1, h2⟩⟩
    · rcases o with _ | ⟨x, s'⟩
      · cases h2
        exact ⟨0, s, w, .zero, .inr (.inl ⟨h1, rfl⟩)⟩
      · simp only [step_some, searchBody, bind_assoc] at h2
        rcases exec_bind_some h2 with ⟨e, h3, h4⟩ | ⟨o, w2, h3, h4⟩
        · exact ⟨0, s, w, .zero, .inr (.inr ⟨x, s', w1, h1, .inl ⟨e, h3, h4⟩⟩)⟩
        · cases o with
          | some b =>
            cases h4
            exact ⟨0, s, w, .zero, .inr (.inr ⟨x, s', w1, h1, .inr ⟨b, h3, rfl⟩⟩)⟩
          | none =>
            simp only [pure_bind, cont_next] at h4
            obtain ⟨n, s1, w3, hs, hrest⟩ := hF _ _ _ _ h4
            refine ⟨n + 1, s1, w3, .succ h1 h3 hs, ?_⟩
            rw [Function.iterate_succ_apply]
            exact hrest
  · rintro ⟨n, s1, w1, hs, hrest⟩
    rw [loop_skips (up := up) (body := searchBody test up fin) ?_ hs c]
    · rw [loop_eq, exec_bind]
      rcases hrest with ⟨e, h1, h2⟩ | ⟨h1, h2⟩ | ⟨x, s2, w2, h1, h2⟩
      · rw [h1]; simp only; rw [← h2]
      · rw [h1]; simp only [step_none, exec_pure]; rw [← h2]
      · rw [h1]
        simp only [step_some, searchBody, bind_assoc]
        rw [exec_bind]
        rcases h2 with ⟨e, h3, h4⟩ | ⟨b, h3, h4⟩
        · rw [h3]; simp only; rw [← h4]
        · rw [h3]; simp only [pure_bind, cont_stop, exec_pure]; rw [← h4]
    · intro c x w w' hm
      rw [searchBody, exec_bind, hm]
      rfl

end Expression.Lemmas
