import Verif.Lemmas.MapBalance
import Verif.Spec.MapApi

/-! From reachability to the tree invariant; per-operation facts at the level of `Map`. -/

namespace Expression.Map

open Expression Spec MapTree

variable {K V R σ : Type} [PyOrd K] [LawfulPyOrd K]

/-- The invariant of every map. -/
def Valid (m : Map K V) : Prop := MapTree.Valid m.tree

omit [PyOrd K] [LawfulPyOrd K] in
theorem toList_def (m : Map K V) : m.toList = inorder m.tree := toList_eq m.tree

theorem add_valid (k : K) (v : V) {m : Map K V} (h : m.Valid) :
    ∃ m', m.add k v = .ok m' ∧ m'.Valid ∧ m'.toList = insertKV k v m.toList := by
  obtain ⟨t, e, hv, i⟩ := MapTree.add_valid k v h
  refine ⟨⟨t⟩, ?_, hv, ?_⟩
  · simp only [add, e]; rfl
  · rw [toList_def, toList_def]; exact i

theorem remove_valid (k : K) {m : Map K V} (h : m.Valid) :
    ∃ m', m.remove k = .ok m' ∧ m'.Valid ∧ m'.toList = eraseKV k m.toList := by
  obtain ⟨t, e, hv, i⟩ := MapTree.remove_valid k h
  refine ⟨⟨t⟩, ?_, hv, ?_⟩
  · simp only [remove, e]; rfl
  · rw [toList_def, toList_def]; exact i

theorem ofList_valid (xs : List (K × V)) :
    ∃ m, Map.ofList xs = .ok m ∧ m.Valid ∧ m.toList = xs.foldl (fun l kv => insertKV kv.1 kv.2 l) [] ∧ Bal m.tree := by
  obtain ⟨t, e, hv, i⟩ := ofList_fold_ok xs (valid_nothing (K := K) (V := V))
  refine ⟨⟨t⟩, ?_, hv, by rw [toList_def]; exact i, ofList_fold_bal xs valid_nothing trivial e⟩
  simp only [Map.ofList, MapTree.ofList, e]; rfl

omit [LawfulPyOrd K] in
theorem ofSeq_eq_ofList (xs : List (K × V)) : Map.ofSeq xs = Map.ofList xs := by
  simp only [Map.ofSeq, Map.ofList, MapTree.ofSeq, MapTree.ofList, mkFromIterator_eq]

theorem filter_sim (p : K → V → Py σ Bool) {m : Map K V} (h : m.Valid) :
    Sim (fun m' zs => m'.Valid ∧ m'.toList = zs ∧ zs.Sublist m.toList) (m.filter p) (filterLoop p m.toList) := by
  rw [toList_def]
  simp only [filter]
  have := MapTree.filter_sim p h
  conv => arg 3; rw [← bind_pure (filterLoop p (inorder m.tree))]
  refine Sim.bind this ?_
  rintro t zs ⟨h1, h2, h3⟩
  exact Sim.pure ⟨h1, by rw [toList_def]; exact h2, h3⟩

theorem partition_sim (p : K → V → Py σ Bool) {m : Map K V} (h : m.Valid) :
    Sim (fun mm yy => mm.1.Valid ∧ mm.2.Valid ∧ mm.1.toList = yy.1 ∧ mm.2.toList = yy.2)
      (m.partition p) (partitionFromEnd p m.toList) := by
  rw [toList_def]
  simp only [partition]
  have := MapTree.partition_sim p h
  conv => arg 3; rw [← bind_pure (partitionFromEnd p (inorder m.tree))]
  refine Sim.bind this ?_
  rintro t zs ⟨h1, h2, h3, h4, _, _⟩
  exact Sim.pure ⟨h1, h2, by rw [toList_def]; exact h3, by rw [toList_def]; exact h4⟩

omit [PyOrd K] [LawfulPyOrd K] in
theorem map_shape (f : K → V → Py σ R) (m : Map K V) {w w' : σ} {m' : Map K R} (h : (m.map f).exec w = (.ok m', w')) :
    Spec.SameShape m.tree m'.tree := by
  simp only [map, Py.exec_bind] at h
  rcases ht : (MapTree.map f m.tree).exec w with ⟨e | t, w1⟩ <;> rw [ht] at h
  · cases h
  · cases h; exact MapTree.map_shape f m.tree _ _ _ ht

omit [LawfulPyOrd K] in
theorem map_sim (f : K → V → Py σ R) {m : Map K V} (h : m.Valid) :
    Sim (fun m' ys => m'.Valid ∧ m'.toList = ys) (m.map f) (mapLoop f m.toList) := by
  rw [toList_def]
  simp only [map]
  conv => arg 3; rw [← bind_pure (mapLoop f (inorder m.tree))]
  refine Sim.bind (MapTree.map_sim f m.tree) ?_
  rintro t ys ⟨h1, h2, _, h4⟩
  refine Sim.pure ⟨⟨h2 h.wf, ?_⟩, by rw [toList_def]; exact h1⟩
  have hs := h.sorted
  unfold Ascending at hs ⊢
  rw [h1]
  have e : ∀ {A : Type} (l : List (K × A)), l.Pairwise (fun a b => PyOrd.lt a.1 b.1 = true) ↔
      (l.map (·.1)).Pairwise (fun a b => PyOrd.lt a b = true) := by
    intro A l; rw [List.pairwise_map]
  rw [e] at hs ⊢
  rw [h4]; exact hs

/-- What `change` does after its callback has answered. -/
def afterChange (m : Map K V) (k : K) (r : Option V) : Except PyErr (Map K V) := do
  .ok ⟨← changeE k r m.tree⟩

theorem change_eq (m : Map K V) (k : K) (u : Option V → Py σ (Option V)) :
    m.change k u = u (m.tryFind k) >>= fun r => Py.ofExcept (m.afterChange k r) := by
  simp only [change, tryFind, MapTree.change_eq, bind_assoc]
  congr 1; funext r
  simp only [afterChange, MapTree.ofExcept_bind]; rfl

omit [LawfulPyOrd K] in
theorem afterChange_some (m : Map K V) (k : K) (v : V) : m.afterChange k (some v) = m.add k v := by
  simp only [afterChange, changeE_some, add]

theorem afterChange_found (m : Map K V) (k : K) (h : (m.tryFind k).isSome) : m.afterChange k none = m.remove k := by
  simp only [afterChange, changeE_none_found k h, remove]

omit [LawfulPyOrd K] in
theorem afterChange_absent {m : Map K V} (hv : m.Valid) (k : K) (h : m.tryFind k = none) :
    (Spec.runsOff k m.tree = true ∧ m.afterChange k none = .error .effectError) ∨
      (Spec.runsOff k m.tree = false ∧ ∃ m', m.afterChange k none = .ok m' ∧ m'.Valid ∧ m'.toList = m.toList) := by
  rcases changeE_none_absent k hv.wf h with ⟨ho, e⟩ | ⟨ho, t', e, w, i⟩
  · left; refine ⟨ho, ?_⟩; simp only [afterChange, e]; rfl
  · right
    refine ⟨ho, ⟨t'⟩, by simp only [afterChange, e]; rfl, ⟨w, by rw [i]; exact hv.sorted⟩, ?_⟩
    rw [toList_def, toList_def]; exact i

theorem afterChange_valid {m m' : Map K V} (hv : m.Valid) (k : K) (r : Option V) (e : m.afterChange k r = .ok m') :
    m'.Valid := by
  cases r with
  | some v =>
    rw [afterChange_some] at e
    obtain ⟨m2, e2, v2, _⟩ := add_valid k v hv
    rw [e2] at e; cases e; exact v2
  | none =>
    cases hf : m.tryFind k with
    | some x =>
      rw [afterChange_found m k (by simp [hf])] at e
      obtain ⟨m2, e2, v2, _⟩ := remove_valid k hv
      rw [e2] at e; cases e; exact v2
    | none =>
      rcases afterChange_absent hv k hf with ⟨_, h⟩ | ⟨_, m2, e2, v2, _⟩
      · rw [h] at e; cases e
      · rw [e2] at e; cases e; exact v2

theorem change_ok_after {m m' : Map K V} (k : K) (u : Option V → Py σ (Option V)) {w w' : σ}
    (e : (m.change k u).exec w = (.ok m', w')) : ∃ r, m.afterChange k r = .ok m' := by
  rw [change_eq, Py.exec_bind] at e
  rcases hu : (u (m.tryFind k)).exec w with ⟨err | r, w1⟩ <;> rw [hu] at e
  · cases e
  · refine ⟨r, ?_⟩
    cases h : m.afterChange k r with
    | error err =>
      change (Py.ofExcept (m.afterChange k r)).exec w1 = _ at e
      rw [h] at e; cases e
    | ok x =>
      change (Py.ofExcept (m.afterChange k r)).exec w1 = _ at e
      rw [h] at e; cases e; rfl

theorem Reachable.valid {m : Map K V} (h : Reachable m) : m.Valid := by
  induction h with
  | empty => exact valid_nothing
  | ofSeq xs e =>
    rw [ofSeq_eq_ofList] at e
    obtain ⟨m, e', v, _⟩ := ofList_valid xs
    rw [e'] at e; cases e; exact v
  | ofList xs e =>
    obtain ⟨m, e', v, _⟩ := ofList_valid xs
    rw [e'] at e; cases e; exact v
  | ofBlock xs e =>
    obtain ⟨m, e', v, _⟩ := ofList_valid xs
    change Map.ofList xs = _ at e
    rw [e'] at e; cases e; exact v
  | add k v _ e ih =>
    obtain ⟨m, e', v, _⟩ := add_valid k v ih
    rw [e'] at e; cases e; exact v
  | remove k _ e ih =>
    obtain ⟨m, e', v, _⟩ := remove_valid k ih
    rw [e'] at e; cases e; exact v
  | change k f w w' _ e ih =>
    obtain ⟨r, e'⟩ := change_ok_after k f e
    exact afterChange_valid ih k r e'
  | filter p w w' _ e ih =>
    obtain ⟨_, _, h, _⟩ := (filter_sim p ih).of_ok e
    exact h
  | partitionFst p w w' _ e ih =>
    obtain ⟨_, _, h, _⟩ := (partition_sim p ih).of_ok e
    exact h
  | partitionSnd p w w' _ e ih =>
    obtain ⟨_, _, _, h, _⟩ := (partition_sim p ih).of_ok e
    exact h
  | map f w w' _ e ih =>
    obtain ⟨_, _, h, _⟩ := (map_sim f ih).of_ok e
    exact h

theorem tryFind_lookup {m : Map K V} (h : m.Valid) (k : K) : m.tryFind k = (lookupKV k m.toList).map (·.2) := by
  rw [toList_def]; exact tryFind_eq k h

theorem containsKey_lookup {m : Map K V} (h : m.Valid) (k : K) : m.containsKey k = (lookupKV k m.toList).isSome := by
  rw [toList_def]; exact mem_eq k h

end Expression.Map
