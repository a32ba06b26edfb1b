import Verif.Lemmas.MapBalance2

/-! Pure callbacks, exceptions of loops, histories. -/

namespace Expression

open Spec

variable {K V R σ : Type}

theorem filterLoop_pure (p : K → V → Bool) (xs : List (K × V)) :
    filterLoop (σ := σ) (fun k v => pure (p k v)) xs = pure (xs.filter (fun kv => p kv.1 kv.2)) := by
  induction xs with
  | nil => rfl
  | cons x xs ih =>
    simp only [filterLoop, ih, pure_bind, List.filter_cons]

theorem mapLoop_pure (f : K → V → R) (xs : List (K × V)) :
    mapLoop (σ := σ) (fun k v => pure (f k v)) xs = pure (xs.map (fun kv => (kv.1, f kv.1 kv.2))) := by
  induction xs with
  | nil => rfl
  | cons x xs ih => simp only [mapLoop, ih, pure_bind, List.map_cons]

theorem partitionFromEnd_pure (p : K → V → Bool) (xs : List (K × V)) :
    partitionFromEnd (σ := σ) (fun k v => pure (p k v)) xs =
      pure (xs.filter (fun kv => p kv.1 kv.2), xs.filter (fun kv => !p kv.1 kv.2)) := by
  induction xs with
  | nil => rfl
  | cons x xs ih =>
    simp only [partitionFromEnd, ih, pure_bind, List.filter_cons]
    cases p x.1 x.2 <;> rfl

theorem Sim.exec_pure {α β : Type} {Q : α → β → Prop} {p : Py σ α} {b : β} (h : Sim Q p (pure b)) (w : σ) :
    ∃ a, p.exec w = (.ok a, w) ∧ Q a b := by
  have h1 := h w
  rcases hp : p.exec w with ⟨_ | a, w1⟩ <;> rw [hp] at h1 <;> simp only [Py.exec_pure, SameOutcome] at h1
  exact ⟨a, by rw [h1.2], h1.1⟩

/-- `p` raises only exceptions in `E`. -/
def RaisesOnly {α : Type} (E : PyErr → Prop) (p : Py σ α) : Prop := ∀ w e w', p.exec w = (.error e, w') → E e

namespace RaisesOnly

variable {α β : Type} {E : PyErr → Prop}

theorem pure (a : α) : RaisesOnly (σ := σ) E (Pure.pure a) := by intro w e w' h; cases h

theorem bind {p : Py σ α} {f : α → Py σ β} (h : RaisesOnly E p) (hf : ∀ a, RaisesOnly E (f a)) :
    RaisesOnly E (p >>= f) := by
  intro w e w' he
  rw [Py.exec_bind] at he
  rcases hp : p.exec w with ⟨e1 | a, w1⟩ <;> rw [hp] at he
  · cases he; exact h w e w' hp
  · exact hf a w1 e w' he

theorem of_sim {Q : α → β → Prop} {p : Py σ α} {q : Py σ β} (h : Sim Q p q) (hq : RaisesOnly E q) :
    RaisesOnly E p := by
  intro w e w' he
  have h1 := h w
  rw [he] at h1
  rcases hb : q.exec w with ⟨e2 | b, w2⟩ <;> rw [hb] at h1 <;> simp only [SameOutcome] at h1
  rw [h1.1]; exact hq w e2 w2 hb

theorem mono {E' : PyErr → Prop} {p : Py σ α} (h : RaisesOnly E p) (hE : ∀ e, E e → E' e) : RaisesOnly E' p :=
  fun w e w' he => hE e (h w e w' he)

theorem forEach {f : K → V → Py σ Unit} (h : ∀ k v, RaisesOnly E (f k v)) (xs : List (K × V)) :
    RaisesOnly E (Spec.forEach f xs) := by
  induction xs with
  | nil => exact pure _
  | cons x xs ih => exact bind (h _ _) (fun _ => ih)

theorem anyOf {f : K → V → Py σ Bool} (h : ∀ k v, RaisesOnly E (f k v)) (xs : List (K × V)) :
    RaisesOnly E (Spec.anyOf f xs) := by
  induction xs with
  | nil => exact pure _
  | cons x xs ih =>
    refine bind (h _ _) (fun b => ?_)
    cases b
    · exact ih
    · exact pure _

theorem allOf {f : K → V → Py σ Bool} (h : ∀ k v, RaisesOnly E (f k v)) (xs : List (K × V)) :
    RaisesOnly E (Spec.allOf f xs) := by
  induction xs with
  | nil => exact pure _
  | cons x xs ih =>
    refine bind (h _ _) (fun b => ?_)
    cases b
    · exact pure _
    · exact ih

theorem firstSome {f : K → V → Py σ (Option R)} (h : ∀ k v, RaisesOnly E (f k v)) (xs : List (K × V)) :
    RaisesOnly E (Spec.firstSome f xs) := by
  induction xs with
  | nil => exact pure _
  | cons x xs ih =>
    refine bind (h _ _) (fun b => ?_)
    cases b
    · exact ih
    · exact pure _

theorem foldLoop {f : R → K × V → Py σ R} (h : ∀ s kv, RaisesOnly E (f s kv)) (xs : List (K × V)) :
    ∀ s, RaisesOnly E (Spec.foldLoop f s xs) := by
  induction xs with
  | nil => intro s; exact pure _
  | cons x xs ih => intro s; exact bind (h _ _) (fun a => ih a)

theorem filterLoop {f : K → V → Py σ Bool} (h : ∀ k v, RaisesOnly E (f k v)) (xs : List (K × V)) :
    RaisesOnly E (Spec.filterLoop f xs) := by
  induction xs with
  | nil => exact pure _
  | cons x xs ih => exact bind (h _ _) (fun a => bind ih (fun b => pure _))

theorem mapLoop {f : K → V → Py σ R} (h : ∀ k v, RaisesOnly E (f k v)) (xs : List (K × V)) :
    RaisesOnly E (Spec.mapLoop f xs) := by
  induction xs with
  | nil => exact pure _
  | cons x xs ih => exact bind (h _ _) (fun a => bind ih (fun b => pure _))

theorem partitionFromEnd {f : K → V → Py σ Bool} (h : ∀ k v, RaisesOnly E (f k v)) (xs : List (K × V)) :
    RaisesOnly E (Spec.partitionFromEnd f xs) := by
  induction xs with
  | nil => exact pure _
  | cons x xs ih =>
    refine bind ih (fun a => bind (h _ _) (fun b => ?_))
    cases b <;> exact pure _

end RaisesOnly

namespace Map

variable [PyOrd K] [LawfulPyOrd K]

theorem filter_exec (p : K → V → Bool) {m : Map K V} (h : m.Valid) (w : σ) :
    ∃ m', (m.filter (fun k v => pure (p k v))).exec w = (.ok m', w) ∧ m'.Valid ∧
      m'.toList = m.toList.filter (fun kv => p kv.1 kv.2) := by
  have := Map.filter_sim (σ := σ) (fun k v => pure (p k v)) h
  rw [filterLoop_pure] at this
  obtain ⟨m', e, a, b, _⟩ := Sim.exec_pure this w
  exact ⟨m', e, a, b⟩

theorem partition_exec (p : K → V → Bool) {m : Map K V} (h : m.Valid) (w : σ) :
    ∃ m1 m2, (m.partition (fun k v => pure (p k v))).exec w = (.ok (m1, m2), w) ∧ m1.Valid ∧ m2.Valid ∧
      m1.toList = m.toList.filter (fun kv => p kv.1 kv.2) ∧ m2.toList = m.toList.filter (fun kv => !p kv.1 kv.2) := by
  have := Map.partition_sim (σ := σ) (fun k v => pure (p k v)) h
  rw [partitionFromEnd_pure] at this
  obtain ⟨m', e, a, b, c, d⟩ := Sim.exec_pure this w
  exact ⟨m'.1, m'.2, e, a, b, c, d⟩

omit [LawfulPyOrd K] in
theorem map_exec (f : K → V → R) {m : Map K V} (h : m.Valid) (w : σ) :
    ∃ m', (m.map (fun k v => pure (f k v))).exec w = (.ok m', w) ∧ m'.Valid ∧
      m'.toList = m.toList.map (fun kv => (kv.1, f kv.1 kv.2)) := by
  have := Map.map_sim (σ := σ) (fun k v => pure (f k v)) h
  rw [mapLoop_pure] at this
  obtain ⟨m', e, a, b⟩ := Sim.exec_pure this w
  exact ⟨m', e, a, b⟩

/-- A map represents a dictionary. -/
def Repr (m : Map K V) (d : Dict K V) : Prop := m.Valid ∧ ∀ k, lookupKV k m.toList = d k

theorem repr_add {m : Map K V} {d : Dict K V} (h : Repr m d) (k : K) (v : V) :
    ∃ m', m.add k v = .ok m' ∧ Repr m' (d.insert k v) := by
  obtain ⟨m', e, hv, i⟩ := add_valid k v h.1
  refine ⟨m', e, hv, fun k' => ?_⟩
  have hs : Ascending m.toList := by rw [toList_def]; exact h.1.sorted
  rw [i, lookupKV_insertKV k v hs k', h.2]; rfl

theorem repr_remove {m : Map K V} {d : Dict K V} (h : Repr m d) (k : K) :
    ∃ m', m.remove k = .ok m' ∧ Repr m' (d.erase k) := by
  obtain ⟨m', e, hv, i⟩ := remove_valid k h.1
  refine ⟨m', e, hv, fun k' => ?_⟩
  have hs : Ascending m.toList := by rw [toList_def]; exact h.1.sorted
  rw [i, lookupKV_eraseKV k hs k', h.2]; rfl

theorem repr_get {m : Map K V} {d : Dict K V} (h : Repr m d) (k : K) : m.tryFind k = d.get? k := by
  rw [tryFind_lookup h.1, h.2]; rfl

/-- Keys that compare equal are bound alike. -/
theorem repr_congr {m : Map K V} {d : Dict K V} (h : Repr m d) {k k' : K} (he : PyOrd.eq k k' = true) : d k = d k' := by
  rw [← h.2, ← h.2]
  simp only [lookupKV]
  congr 1; funext p
  cases h1 : PyOrd.eq k p.1 with
  | true => exact (LawfulPyOrd.eq_trans _ _ _ (key_eq_symm he) h1).symm
  | false =>
    cases h2 : PyOrd.eq k' p.1 with
    | false => rfl
    | true => rw [LawfulPyOrd.eq_trans _ _ _ he h2] at h1; cases h1

theorem repr_erase_absent {m : Map K V} {d : Dict K V} (h : Repr m d) {k : K} (hn : m.tryFind k = none) :
    d.erase k = d := by
  funext k'
  simp only [Dict.erase]
  split
  · rename_i he
    rw [repr_get h] at hn
    have : d k = none := by simpa [Dict.get?] using hn
    rw [repr_congr h he, this]
  · rfl

theorem repr_assign {m : Map K V} {d : Dict K V} (h : Repr m d) (op : Op K V) :
    Repr (op.assign m) (op.onDict d) := by
  have hs : Ascending m.toList := by rw [toList_def]; exact h.1.sorted
  cases op with
  | add k v =>
    obtain ⟨m', e, r⟩ := repr_add h k v
    simpa only [Op.assign, Op.call, e, Op.onDict] using r
  | remove k =>
    obtain ⟨m', e, r⟩ := repr_remove h k
    simpa only [Op.assign, Op.call, e, Op.onDict] using r
  | change k f =>
    have e : ((m.change (σ := Unit) k (fun o => pure (f o))).exec ()).1 = m.afterChange k (f (m.tryFind k)) := by
      rw [change_eq, pure_bind]
      cases m.afterChange k (f (m.tryFind k)) <;> rfl
    simp only [Op.assign, Op.call, e, Op.onDict, Dict.update]
    rw [← repr_get h]
    cases hf : f (m.tryFind k) with
    | some v =>
      obtain ⟨m', e, r⟩ := repr_add h k v
      simpa only [afterChange_some, e] using r
    | none =>
      cases hn : m.tryFind k with
      | some x =>
        obtain ⟨m', e, r⟩ := repr_remove h k
        simpa only [afterChange_found m k (by simp [hn]), e] using r
      | none =>
        have he : d.erase k = d := repr_erase_absent h hn
        rcases afterChange_absent h.1 k hn with ⟨_, e⟩ | ⟨_, m', e, hv, i⟩
        · simp only [e]
          rw [he]; exact h
        · simp only [e]
          rw [he]; exact ⟨hv, fun k' => by rw [i]; exact h.2 k'⟩
  | filter p =>
    obtain ⟨m', e, hv, i⟩ := filter_exec (σ := Unit) p h.1 ()
    simp only [Op.assign, Op.call, e, Op.onDict]
    exact ⟨hv, fun k => by rw [i, lookupKV_filter _ hs, h.2]; rfl⟩
  | partitionFst p =>
    obtain ⟨m1, m2, e, hv, _, i, _⟩ := partition_exec (σ := Unit) p h.1 ()
    simp only [Op.assign, Op.call, e, Op.onDict, Except.map]
    exact ⟨hv, fun k => by rw [i, lookupKV_filter _ hs, h.2]; rfl⟩
  | partitionSnd p =>
    obtain ⟨m1, m2, e, _, hv, _, i⟩ := partition_exec (σ := Unit) p h.1 ()
    simp only [Op.assign, Op.call, e, Op.onDict, Except.map]
    exact ⟨hv, fun k => by rw [i, lookupKV_filter _ hs, h.2]; rfl⟩
  | map f =>
    obtain ⟨m', e, hv, i⟩ := map_exec (σ := Unit) f h.1 ()
    simp only [Op.assign, Op.call, e, Op.onDict]
    exact ⟨hv, fun k => by rw [i, lookupKV_map, h.2]; rfl⟩

omit [LawfulPyOrd K] in
theorem repr_empty : Repr (Map.empty : Map K V) Dict.empty :=
  ⟨MapTree.valid_nothing, fun _ => rfl⟩

theorem repr_run (ops : List (Op K V)) : Repr (runMap ops) (runDict ops) := by
  have : ∀ (m : Map K V) (d : Dict K V), Repr m d → Repr (ops.foldl Op.assign m) (ops.foldl Op.onDict d) := by
    induction ops with
    | nil => intro m d h; exact h
    | cons op ops ih => intro m d h; exact ih _ _ (repr_assign h op)
  exact this _ _ repr_empty

theorem repr_reachable {m : Map K V} (h : Reachable m) : Repr m (fun k => lookupKV k m.toList) :=
  ⟨Reachable.valid h, fun _ => rfl⟩

theorem Grown.good {m : Map K V} (h : Grown m) : MapTree.Good m.tree := by
  induction h with
  | empty => exact ⟨MapTree.valid_nothing, trivial⟩
  | ofSeq xs e =>
    rw [ofSeq_eq_ofList] at e
    obtain ⟨m, e', v, _, b⟩ := ofList_valid xs
    rw [e'] at e; cases e; exact ⟨v, b⟩
  | ofList xs e =>
    obtain ⟨m, e', v, _, b⟩ := ofList_valid xs
    rw [e'] at e; cases e; exact ⟨v, b⟩
  | ofBlock xs e =>
    obtain ⟨m, e', v, _, b⟩ := ofList_valid xs
    change Map.ofList xs = _ at e
    rw [e'] at e; cases e; exact ⟨v, b⟩
  | @add V m m' k v _ e ih =>
    simp only [Map.add] at e
    cases e2 : MapTree.add k v m.tree with
    | error x => rw [e2] at e; cases e
    | ok t => rw [e2] at e; cases e; exact MapTree.good_add ih e2
  | filter p w w' hr e =>
    exact MapTree.Post.bind (MapTree.filterAux_good p _ _ ⟨MapTree.valid_nothing, trivial⟩)
      (fun t ht => MapTree.Post.pure (Q := fun m : Map K _ => MapTree.Good m.tree) ht) _ _ _ e
  | partitionFst p w w' hr e =>
    exact (MapTree.Post.bind (MapTree.partitionAux_good p _ (.nothing, .nothing)
      ⟨⟨MapTree.valid_nothing, trivial⟩, ⟨MapTree.valid_nothing, trivial⟩⟩)
      (fun t ht => MapTree.Post.pure (Q := fun m : Map K _ × Map K _ => MapTree.Good m.1.tree ∧ MapTree.Good m.2.tree) ht) _ _ _ e).1
  | partitionSnd p w w' hr e =>
    exact (MapTree.Post.bind (MapTree.partitionAux_good p _ (.nothing, .nothing)
      ⟨⟨MapTree.valid_nothing, trivial⟩, ⟨MapTree.valid_nothing, trivial⟩⟩)
      (fun t ht => MapTree.Post.pure (Q := fun m : Map K _ × Map K _ => MapTree.Good m.1.tree ∧ MapTree.Good m.2.tree) ht) _ _ _ e).2
  | map f w w' _ e ih =>
    refine ⟨((Map.map_sim f ih.1).of_ok e).choose_spec.2.1, ?_⟩
    exact (MapTree.Post.bind (MapTree.map_bal f _ ih.2)
      (fun t ht => MapTree.Post.pure (Q := fun m : Map K _ => MapTree.Bal m.tree) ht.2) _ _ _ e)

omit [PyOrd K] [LawfulPyOrd K] in
theorem len_eq (m : Map K V) : m.len = m.toList.length := by
  rw [toList_def]; exact MapTree.size_eq m.tree

/-! ### The comparison loop -/

omit [PyOrd K] [LawfulPyOrd K] in
theorem eqLoop_true_iff (q : K × V → K × V → Bool) (xs ys : List (K × V)) :
    eqLoop q xs ys = true ↔ xs.length ≤ ys.length ∧ ∀ p ∈ xs.zip ys, q p.1 p.2 = true := by
  induction xs generalizing ys with
  | nil => simp [eqLoop]
  | cons x xs ih =>
    cases ys with
    | nil => simp [eqLoop]
    | cons y ys =>
      simp only [eqLoop]
      cases hq : q x y with
      | false => simp [hq]
      | true =>
        simp only [Bool.not_true, Bool.false_eq_true, if_false]
        rw [ih]; simp [hq]

omit [PyOrd K] [LawfulPyOrd K] in
theorem eqLoop_cons (q : K × V → K × V → Bool) (x y : K × V) (xs ys : List (K × V)) :
    eqLoop q (x :: xs) (y :: ys) = (q x y && eqLoop q xs ys) := by
  simp only [eqLoop]; cases q x y <;> rfl

/-- same bindings, on lists -/
def LSame (veq : V → V → Bool) (xs ys : List (K × V)) : Prop :=
  ∀ k, match lookupKV k xs, lookupKV k ys with
    | some p, some p' => veq p.2 p'.2 = true
    | none, none => True
    | _, _ => False

theorem key_eq_left {a b : K} (h : PyOrd.eq a b = true) (k : K) : PyOrd.eq k a = PyOrd.eq k b := by
  cases h1 : PyOrd.eq k a with
  | true => exact (LawfulPyOrd.eq_trans _ _ _ h1 h).symm
  | false =>
    cases h2 : PyOrd.eq k b with
    | false => rfl
    | true => rw [LawfulPyOrd.eq_trans _ _ _ h2 (key_eq_symm h)] at h1; cases h1

theorem lsame_of_eqLoop (veq : V → V → Bool) {xs ys : List (K × V)} (hl : xs.length = ys.length)
    (h : eqLoop (fun a b => PyOrd.eq a.1 b.1 && veq a.2 b.2) xs ys = true) : LSame veq xs ys := by
  induction xs generalizing ys with
  | nil =>
    cases ys with
    | nil => intro k; simp [lookupKV]
    | cons => cases hl
  | cons x xs ih =>
    cases ys with
    | nil => cases hl
    | cons y ys =>
      rw [eqLoop_cons, Bool.and_eq_true, Bool.and_eq_true] at h
      obtain ⟨hq, h⟩ := h
      intro k
      have := ih (by simpa using hl) h k
      rw [lookupKV_cons, lookupKV_cons, key_eq_left hq.1 k]
      cases PyOrd.eq k y.1 with
      | true => simpa using hq.2
      | false => simpa using this

theorem eqLoop_lookup (veq : V → V → Bool) {xs ys : List (K × V)}
    (h : eqLoop (fun a b => PyOrd.eq a.1 b.1 && veq a.2 b.2) xs ys = true) (k : K) {p : K × V}
    (hk : lookupKV k xs = some p) : ∃ p', lookupKV k ys = some p' ∧ veq p.2 p'.2 = true := by
  induction xs generalizing ys with
  | nil => simp [lookupKV] at hk
  | cons x xs ih =>
    cases ys with
    | nil => simp [eqLoop] at h
    | cons y ys =>
      rw [eqLoop_cons, Bool.and_eq_true, Bool.and_eq_true] at h
      obtain ⟨hq, h⟩ := h
      rw [lookupKV_cons, key_eq_left hq.1 k] at hk
      rw [lookupKV_cons]
      cases he : PyOrd.eq k y.1 with
      | true =>
        rw [he, if_pos rfl] at hk
        cases hk
        exact ⟨y, rfl, hq.2⟩
      | false =>
        rw [he, if_neg (by decide)] at hk
        simpa using ih h hk

theorem eqLoop_of_lsame (veq : V → V → Bool) {xs ys : List (K × V)} (hx : Ascending xs) (hy : Ascending ys)
    (h : LSame veq xs ys) :
    eqLoop (fun a b => PyOrd.eq a.1 b.1 && veq a.2 b.2) xs ys = true ∧ xs.length = ys.length := by
  induction xs generalizing ys with
  | nil =>
    cases ys with
    | nil => exact ⟨rfl, rfl⟩
    | cons y ys =>
      have := h y.1
      rw [lookupKV_cons, key_eq_refl] at this
      simp [lookupKV] at this
  | cons x xs ih =>
    cases ys with
    | nil =>
      have := h x.1
      rw [lookupKV_cons, key_eq_refl] at this
      simp [lookupKV] at this
    | cons y ys =>
      have gx : AllGt xs x.1 := (List.pairwise_cons.1 hx).1
      have gy : AllGt ys y.1 := (List.pairwise_cons.1 hy).1
      have hxy : PyOrd.eq x.1 y.1 = true := by
        cases he : PyOrd.eq x.1 y.1 with
        | true => rfl
        | false =>
          exfalso
          have h1 := h x.1
          rw [lookupKV_cons, lookupKV_cons, key_eq_refl, he] at h1
          simp only [if_true, Bool.false_eq_true, if_false] at h1
          cases hl : lookupKV x.1 ys with
          | none => rw [hl] at h1; exact h1
          | some q =>
            obtain ⟨m1, m2⟩ := lookupKV_mem hl
            have hlt : PyOrd.lt y.1 x.1 = true := key_lt_of_lt_of_eq (gy q m1) (key_eq_symm m2)
            have h2 := h y.1
            rw [lookupKV_cons, lookupKV_cons, key_eq_refl, key_lt_not_eq hlt,
              lookupKV_none_of_allGt (gx.weaken hlt)] at h2
            simp at h2
      have hv : veq x.2 y.2 = true := by
        have h1 := h x.1
        rw [lookupKV_cons, lookupKV_cons, key_eq_refl, hxy] at h1
        simpa using h1
      have htl : LSame veq xs ys := by
        intro k
        have h1 := h k
        rw [lookupKV_cons, lookupKV_cons, key_eq_left hxy k] at h1
        cases he : PyOrd.eq k y.1 with
        | false => rw [he] at h1; simpa using h1
        | true =>
          rw [lookupKV_none_of_allGt (gy.weaken_eq he),
            lookupKV_none_of_allGt (gx.weaken_eq (by rw [key_eq_left hxy]; exact he))]
          trivial
      have := ih (List.pairwise_cons.1 hx).2 (List.pairwise_cons.1 hy).2 htl
      refine ⟨?_, by simp [this.2]⟩
      rw [eqLoop_cons, hxy, hv, this.1]; rfl

end Map
end Expression
