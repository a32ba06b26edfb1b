import Verif.Model.MapSource
import Verif.Spec.MapSource
import Verif.Lemmas.MapApi
import Verif.Lemmas.PyD

/-! Lemmas about making a map from any iterable. -/

namespace Expression.MapSource

open Spec MapTree PyD

variable {σ α K V S : Type} [PyOrd K] [LawfulPyOrd K] {unpack : α → PyD σ (K × V)} {src : Iterable σ α S}

/-- what `mk_from_iterator` makes of the end of the iterator -/
def ending {β : Type} (m : β) : Option (Option PyErr × σ) → Option (Except PyErr β × σ)
  | none => none
  | some (none, w) => some (.ok m, w)
  | some (some .stopIteration, w) => some (.ok m, w)
  | some (some e, w) => some (.error e, w)

omit [PyOrd K] [LawfulPyOrd K] in
theorem nextPair_draw {s : S} {w : σ} {x : α} {s1 : S} {w1 : σ} {kv : K × V} {w2 : σ}
    (pull : (src.next s).exec w = some (.ok (some (x, s1)), w1)) (split : (unpack x).exec w1 = some (.ok kv, w2)) :
    (unlessStopIteration (nextPair unpack src s)).exec w = some (.ok (some (kv, s1)), w2) := by
  have h : (nextPair unpack src s).exec w = some (.ok (kv, s1), w2) := by
    simp only [nextPair, exec_bind, pull, split, exec_pure]
  change caught ((nextPair unpack src s).exec w) = _
  rw [h]; rfl

omit [PyOrd K] [LawfulPyOrd K] in
theorem nextPair_ends {s : S} {w : σ} {o : Option (Option PyErr × σ)} (h : DrawEnds unpack src s w o) :
    (unlessStopIteration (nextPair unpack src s)).exec w = ending none o := by
  change caught ((nextPair unpack src s).exec w) = _
  cases h with
  | exhausted h => simp only [nextPair, exec_bind, h, exec_raise]; rfl
  | @raises e w' h =>
    have h' : (nextPair unpack src s).exec w = some (.error e, w') := by simp only [nextPair, exec_bind, h]
    rw [h']; cases e <;> rfl
  | @splitRaises x s1 w1 e w' h h2 =>
    have h' : (nextPair unpack src s).exec w = some (.error e, w') := by simp only [nextPair, exec_bind, h, h2]
    rw [h']; cases e <;> rfl
  | hangs h => simp only [nextPair, exec_bind, h]; rfl
  | splitHangs h h2 => simp only [nextPair, exec_bind, h, h2]; rfl

theorem mk_enough {s s' : S} {w w' : σ} {kvs : List (K × V)} (h : Draws unpack src s w kvs s' w') {o : Option (Option PyErr × σ)}
    (he : DrawEnds unpack src s' w' o) (frames : Nat) (hf : kvs.length < frames) (acc : Tree K V) (hv : Valid acc) :
    ∃ t, kvs.foldlM (fun acc kv => MapTree.add kv.1 kv.2 acc) acc = .ok t ∧
      (mkFromIterator unpack src frames acc s).exec w = ending t o := by
  induction h generalizing frames acc with
  | zero =>
    obtain ⟨n, rfl⟩ : ∃ n, frames = n + 1 := ⟨frames - 1, by simp at hf; omega⟩
    refine ⟨acc, rfl, ?_⟩
    rw [mkFromIterator, exec_bind, nextPair_ends he]
    rcases o with _ | ⟨_ | e, w'⟩
    · rfl
    · rfl
    · cases e <;> rfl
  | @succ s w x s1 w1 kv w2 kvs s' w' pull split rest ih =>
    obtain ⟨n, rfl⟩ : ∃ n, frames = n + 1 := ⟨frames - 1, by simp at hf; omega⟩
    obtain ⟨acc', e, hv', _⟩ := add_valid kv.1 kv.2 hv
    obtain ⟨t, e2, e3⟩ := ih he n (by simp at hf; omega) acc' hv'
    refine ⟨t, ?_, ?_⟩
    · rw [List.foldlM_cons, e]; exact e2
    · rw [mkFromIterator, exec_bind, nextPair_draw pull split]
      change PyD.exec (PyD.ofPy (Py.ofExcept (MapTree.add kv.1 kv.2 acc)) >>= fun acc' => mkFromIterator unpack src n acc' s1) w2 = _
      rw [e, exec_bind]
      exact e3

theorem mk_exhausted {s s' : S} {w w' : σ} {kvs : List (K × V)} (h : Draws unpack src s w kvs s' w')
    (frames : Nat) (hf : kvs.length = frames) (acc : Tree K V) (hv : Valid acc) :
    (mkFromIterator unpack src frames acc s).exec w = some (.error .recursionError, w') := by
  induction h generalizing frames acc with
  | zero => subst hf; rfl
  | @succ s w x s1 w1 kv w2 kvs s' w' pull split rest ih =>
    subst hf
    obtain ⟨acc', e, hv', _⟩ := add_valid kv.1 kv.2 hv
    rw [List.length_cons, mkFromIterator, exec_bind, nextPair_draw pull split]
    change PyD.exec (PyD.ofPy (Py.ofExcept (MapTree.add kv.1 kv.2 acc)) >>= fun acc' => mkFromIterator unpack src _ acc' s1) w2 = _
    rw [e, exec_bind]
    exact ih _ rfl acc' hv'

omit [PyOrd K] [LawfulPyOrd K] in
/-- one more pair, or the end -/
theorem draw_or_end (unpack : α → PyD σ (K × V)) (src : Iterable σ α S) (s : S) (w : σ) :
    (∃ x s1 w1 kv w2, (src.next s).exec w = some (.ok (some (x, s1)), w1) ∧ (unpack x).exec w1 = some (.ok kv, w2)) ∨
    ∃ o, DrawEnds unpack src s w o := by
  rcases h : (src.next s).exec w with _ | ⟨e | _ | ⟨x, s1⟩, w1⟩
  · exact .inr ⟨_, .hangs h⟩
  · exact .inr ⟨_, .raises h⟩
  · exact .inr ⟨_, .exhausted h⟩
  · rcases h2 : (unpack x).exec w1 with _ | ⟨e | kv, w2⟩
    · exact .inr ⟨_, .splitHangs h h2⟩
    · exact .inr ⟨_, .splitRaises h h2⟩
    · exact .inl ⟨x, s1, w1, kv, w2, rfl, h2⟩

omit [PyOrd K] [LawfulPyOrd K] in
theorem draws_cases (unpack : α → PyD σ (K × V)) (src : Iterable σ α S) (n : Nat) (s : S) (w : σ) :
    ∃ kvs s' w', Draws unpack src s w kvs s' w' ∧ (kvs.length = n ∨ kvs.length < n ∧ ∃ o, DrawEnds unpack src s' w' o) := by
  induction n generalizing s w with
  | zero => exact ⟨[], s, w, .zero, .inl rfl⟩
  | succ n ih =>
    rcases draw_or_end unpack src s w with ⟨x, s1, w1, kv, w2, h1, h2⟩ | h
    · obtain ⟨kvs, s', w', hd, hc⟩ := ih s1 w2
      refine ⟨kv :: kvs, s', w', .succ h1 h2 hd, ?_⟩
      rcases hc with hc | ⟨hc, ho⟩
      · exact .inl (by simp [hc])
      · exact .inr ⟨by simp; omega, ho⟩
    · exact ⟨[], s, w, .zero, .inr ⟨by simp, h⟩⟩

/-- the body of the loop in `fillMap` -/
def fillBody (unpack : α → PyD σ (K × V)) (m : Map K V) (x : α) : PyD σ (Flow (Map K V)) := do
  let kv ← unpack x
  let m' ← PyD.ofPy (Py.ofExcept (m.add kv.1 kv.2))
  pure (.next m')

/-- what a `for` loop makes of the end of the iterator -/
def loopEnding {β : Type} (m : β) : Option (Option PyErr × σ) → Option (Except PyErr β × σ)
  | none => none
  | some (none, w) => some (.ok m, w)
  | some (some e, w) => some (.error e, w)

omit [LawfulPyOrd K] in
theorem loop_ends {s : S} {w : σ} {o : Option (Option PyErr × σ)} (he : DrawEnds unpack src s w o) (m : Map K V) :
    (src.loop (fillBody unpack) s m).exec w = loopEnding m o := by
  rw [Iterable.loop_eq, exec_bind]
  cases he with
  | exhausted h => rw [h]; rfl
  | raises h => rw [h]; rfl
  | splitRaises h h2 =>
    rw [h]
    simp only [Iterable.step_some, fillBody, exec_bind, h2]
    rfl
  | hangs h => rw [h]; rfl
  | splitHangs h h2 =>
    rw [h]
    simp only [Iterable.step_some, fillBody, exec_bind, h2]
    rfl

theorem loop_draws {s s' : S} {w w' : σ} {kvs : List (K × V)} (h : Draws unpack src s w kvs s' w') (m : Map K V) (hv : m.Valid) :
    ∃ m', kvs.foldlM (fun acc kv => MapTree.add kv.1 kv.2 acc) m.tree = .ok m'.tree ∧
      (src.loop (fillBody unpack) s m).exec w = (src.loop (fillBody unpack) s' m').exec w' := by
  induction h generalizing m with
  | zero => exact ⟨m, rfl, rfl⟩
  | @succ s w x s1 w1 kv w2 kvs s' w' pull split rest ih =>
    obtain ⟨t, e, hv', _⟩ := MapTree.add_valid kv.1 kv.2 hv
    obtain ⟨m', e2, e3⟩ := ih ⟨t⟩ hv'
    refine ⟨m', by rw [List.foldlM_cons, e]; exact e2, ?_⟩
    rw [Iterable.loop_eq, exec_bind, pull]
    simp only [Iterable.step_some, fillBody, exec_bind, split, Map.add, e]
    exact e3

/-- a loop that ends has drawn finitely many pairs -/
theorem loop_finite (unpack : α → PyD σ (K × V)) (src : Iterable σ α S) (s : S) (m : Map K V) (hv : m.Valid) (w : σ) (r)
    (hr : (src.loop (fillBody unpack) s m).exec w = some r) :
    ∃ kvs s' w' o, Draws unpack src s w kvs s' w' ∧ DrawEnds unpack src s' w' o := by
  refine Iterable.loop_post src (fillBody unpack) (fun s m w r => m.Valid → ∃ kvs s' w' o, Draws unpack src s w kvs s' w' ∧ DrawEnds unpack src s' w' o)
    ?_ s m w r hr hv
  intro F hF s m w r hr hv
  rcases draw_or_end unpack src s w with ⟨x, s1, w1, kv, w2, h1, h2⟩ | ⟨o, h⟩
  · rw [exec_bind, h1] at hr
    simp only [Iterable.step_some, fillBody, exec_bind, h2] at hr
    obtain ⟨m', ha, hv', _⟩ := Map.add_valid kv.1 kv.2 hv
    rw [ha] at hr
    obtain ⟨kvs, s', w', o, hd, he⟩ := hF s1 m' w2 r hr hv'
    exact ⟨kv :: kvs, s', w', o, .succ h1 h2 hd, he⟩
  · exact ⟨[], s, w, o, .zero, h⟩

omit [PyOrd K] [LawfulPyOrd K] in
/-- an iterator that ended gives no more -/
theorem draws_le {s s' s2 : S} {w w' w2 : σ} {kvs kvs2 : List (K × V)} {o : Option (Option PyErr × σ)}
    (h : Draws unpack src s w kvs s' w') (he : DrawEnds unpack src s' w' o) (h2 : Draws unpack src s w kvs2 s2 w2) :
    kvs2.length ≤ kvs.length := by
  induction h generalizing kvs2 with
  | zero =>
    cases h2 with
    | zero => exact Nat.le_refl _
    | succ pull split rest =>
      cases he with
      | exhausted h => rw [h] at pull; cases pull
      | raises h => rw [h] at pull; cases pull
      | splitRaises h h2 => rw [h] at pull; cases pull; rw [h2] at split; cases split
      | hangs h => rw [h] at pull; cases pull
      | splitHangs h h2 => rw [h] at pull; cases pull; rw [h2] at split; cases split
  | succ pull split rest ih =>
    cases h2 with
    | zero => exact Nat.zero_le _
    | succ pull2 split2 rest2 =>
      rw [pull] at pull2; cases pull2
      rw [split] at split2; cases split2
      have := ih he rest2
      simp; omega

end Expression.MapSource
