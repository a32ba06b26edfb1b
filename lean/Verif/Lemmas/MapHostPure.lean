import Verif.Lemmas.MapHost2

/-! With comparisons that are Boolean functions and calls that are free, the two models of maps agree. -/

namespace Expression.MapHost

open Expression Spec MapTree Tree

variable {σ K V R : Type} [PyOrd K]

theorem plainHost_lt (a b : K) : (plainHost : Host σ K).lt a b = pure (PyOrd.lt a b) := rfl
theorem plainHost_eq (a b : K) : (plainHost : Host σ K).eq a b = pure (PyOrd.eq a b) := rfl
theorem plainHost_call {α : Type} (p : Py σ α) : (plainHost : Host σ K).call p = p := rfl

theorem ofExcept_bind {α β : Type} (e : Except PyErr α) (f : α → Except PyErr β) :
    (Py.ofExcept (e >>= f) : Py σ β) = Py.ofExcept e >>= fun a => Py.ofExcept (f a) := by
  cases e <;> rfl

theorem sizeAux_plain (t : Tree K V) : ∀ acc, sizeAux (plainHost : Host σ K) acc t = pure (MapTree.sizeAux acc t) := by
  induction t with
  | nothing => intro; rfl
  | leaf => intro; rfl
  | node k v l r h ihl ihr => intro acc; simp only [sizeAux, plainHost_call, MapTree.sizeAux, ihl, ihr, pure_bind]

theorem add_plain (k : K) (v : V) (t : Tree K V) :
    add (plainHost : Host σ K) k v t = Py.ofExcept (MapTree.add k v t) := by
  induction t with
  | nothing => rfl
  | leaf key value =>
    simp only [add, MapTree.add, plainHost_lt, plainHost_eq, pure_bind]
    split
    · rfl
    · split <;> rfl
  | node key value l r h ihl ihr =>
    simp only [add, MapTree.add, plainHost_lt, plainHost_eq, plainHost_call, pure_bind, ihl, ihr]
    split
    · rw [ofExcept_bind]
    · split
      · rfl
      · rw [ofExcept_bind]

theorem tryFind_plain (k : K) (t : Tree K V) : tryFind (plainHost : Host σ K) k t = pure (MapTree.tryFind k t) := by
  induction t with
  | nothing => rfl
  | leaf key value =>
    simp only [tryFind, MapTree.tryFind, plainHost_eq, pure_bind]
    split <;> rfl
  | node key value l r h ihl ihr =>
    simp only [tryFind, MapTree.tryFind, plainHost_lt, plainHost_eq, plainHost_call, pure_bind, ihl, ihr]
    split
    · rfl
    · split <;> rfl

theorem find_plain (k : K) (t : Tree K V) : find (plainHost : Host σ K) k t = Py.ofExcept (MapTree.find k t) := by
  simp only [find, MapTree.find, plainHost_call, tryFind_plain, pure_bind]
  cases MapTree.tryFind k t <;> rfl

theorem mem_plain (k : K) (t : Tree K V) : mem (plainHost : Host σ K) k t = pure (MapTree.mem k t) := by
  induction t with
  | nothing => rfl
  | leaf key value => rfl
  | node key value l r h ihl ihr =>
    simp only [mem, MapTree.mem, plainHost_lt, plainHost_eq, plainHost_call, pure_bind, ihl, ihr]
    split
    · rfl
    · cases PyOrd.eq k key <;> rfl

theorem splice_plain (t : Tree K V) :
    spliceOutSuccessor (plainHost : Host σ K) t = Py.ofExcept (MapTree.spliceOutSuccessor t) := by
  induction t with
  | nothing => rfl
  | leaf => rfl
  | node key value l r h ihl ihr =>
    simp only [spliceOutSuccessor, MapTree.spliceOutSuccessor, plainHost_call, ihl]
    split
    · rfl
    · rw [ofExcept_bind]
      rfl

theorem remove_plain (k : K) (t : Tree K V) : remove (plainHost : Host σ K) k t = Py.ofExcept (MapTree.remove k t) := by
  induction t with
  | nothing => rfl
  | leaf key value =>
    simp only [remove, MapTree.remove, plainHost_eq, pure_bind]
    split <;> rfl
  | node key value l r h ihl ihr =>
    simp only [remove, MapTree.remove, plainHost_lt, plainHost_eq, plainHost_call, pure_bind, ihl, ihr, splice_plain]
    split
    · rw [ofExcept_bind]
    · split
      · split
        · rfl
        · split
          · rfl
          · rw [ofExcept_bind]; rfl
      · rw [ofExcept_bind]

theorem change_plain (k : K) (u : Option V → Py σ (Option V)) (t : Tree K V) :
    change plainHost k u t = MapTree.change k u t := by
  induction t with
  | nothing => rfl
  | leaf key value =>
    simp only [change, MapTree.change, plainHost_lt, plainHost_eq, pure_bind]
    rfl
  | node key value l r h ihl ihr =>
    simp only [change, MapTree.change, plainHost_lt, plainHost_eq, plainHost_call, pure_bind, ihl, ihr, splice_plain]
    rfl

theorem filterAux_plain (p : K → V → Py σ Bool) (t : Tree K V) : ∀ acc,
    filterAux plainHost p t acc = MapTree.filterAux p t acc := by
  induction t with
  | nothing => intro; rfl
  | leaf key value => intro acc; simp only [filterAux, MapTree.filterAux, filter1, MapTree.filter1, plainHost_call, add_plain]
  | node key value l r h ihl ihr =>
    intro acc
    simp only [filterAux, MapTree.filterAux, filter1, MapTree.filter1, plainHost_call, add_plain, ihl, ihr]

theorem partitionAux_plain (p : K → V → Py σ Bool) (t : Tree K V) : ∀ acc,
    partitionAux plainHost p t acc = MapTree.partitionAux p t acc := by
  induction t with
  | nothing => intro; rfl
  | leaf key value =>
    intro acc
    simp only [partitionAux, MapTree.partitionAux, partition1, MapTree.partition1, plainHost_call, add_plain]
  | node key value l r h ihl ihr =>
    intro acc
    simp only [partitionAux, MapTree.partitionAux, partition1, MapTree.partition1, plainHost_call, add_plain, ihl, ihr]

theorem iter_plain (f : K → V → Py σ Unit) (t : Tree K V) : iter plainHost f t = MapTree.iter f t := by
  induction t with
  | nothing => rfl
  | leaf => rfl
  | node key value l r h ihl ihr => simp only [iter, MapTree.iter, plainHost_call, ihl, ihr]

theorem tryPick_plain (f : K → V → Py σ (Option R)) (t : Tree K V) : tryPick plainHost f t = MapTree.tryPick f t := by
  induction t with
  | nothing => rfl
  | leaf => rfl
  | node key value l r h ihl ihr => simp only [tryPick, MapTree.tryPick, plainHost_call, ihl, ihr]

theorem exists_plain (f : K → V → Py σ Bool) (t : Tree K V) : MapHost.exists plainHost f t = MapTree.exists f t := by
  induction t with
  | nothing => rfl
  | leaf => rfl
  | node key value l r h ihl ihr => simp only [MapHost.exists, MapTree.exists, plainHost_call, ihl, ihr]

theorem forall_plain (f : K → V → Py σ Bool) (t : Tree K V) : MapHost.forall plainHost f t = MapTree.forall f t := by
  induction t with
  | nothing => rfl
  | leaf => rfl
  | node key value l r h ihl ihr => simp only [MapHost.forall, MapTree.forall, plainHost_call, ihl, ihr]

theorem map_plain (f : K → V → Py σ R) (t : Tree K V) : map plainHost f t = MapTree.map f t := by
  induction t with
  | nothing => rfl
  | leaf => rfl
  | node key value l r h ihl ihr => simp only [map, MapTree.map, plainHost_call, ihl, ihr]

theorem foldBack_plain (f : K × V → R → Py σ R) (t : Tree K V) : ∀ x, foldBack plainHost f t x = MapTree.foldBack f t x := by
  induction t with
  | nothing => intro; rfl
  | leaf => intro; rfl
  | node key value l r h ihl ihr => intro x; simp only [foldBack, MapTree.foldBack, plainHost_call, ihl, ihr]

theorem fold_plain (f : R → K × V → Py σ R) (t : Tree K V) : ∀ x, fold plainHost f x t = MapTree.fold f x t := by
  induction t with
  | nothing => intro; rfl
  | leaf => intro; rfl
  | node key value l r h ihl ihr => intro x; simp only [fold, MapTree.fold, plainHost_call, ihl, ihr]

theorem toListLoop_plain (t : Tree K V) : ∀ acc,
    toListLoop (plainHost : Host σ K) t acc = pure (MapTree.toListLoop t acc) := by
  induction t with
  | nothing => intro; rfl
  | leaf => intro; rfl
  | node key value l r h ihl ihr =>
    intro x; simp only [toListLoop, MapTree.toListLoop, plainHost_call, ihl, ihr, pure_bind]

theorem ofListFrom_plain (xs : List (K × V)) : ∀ acc : Tree K V,
    xs.foldlM (fun acc kv => (plainHost : Host σ K).call ((plainHost : Host σ K).call (add plainHost kv.1 kv.2 acc))) acc =
      Py.ofExcept (xs.foldlM (fun acc kv => MapTree.add kv.1 kv.2 acc) acc) := by
  induction xs with
  | nil => intro acc; rfl
  | cons x xs ih =>
    intro acc
    simp only [plainHost_call, add_plain] at ih ⊢
    rw [List.foldlM_cons, List.foldlM_cons, ofExcept_bind]
    exact bind_congr fun acc => ih acc

theorem mkFromIterator_plain (xs : List (K × V)) : ∀ acc : Tree K V,
    mkFromIterator (plainHost : Host σ K) acc xs = Py.ofExcept (MapTree.mkFromIterator acc xs) := by
  induction xs with
  | nil => intro acc; rfl
  | cons x xs ih =>
    intro acc
    simp only [mkFromIterator, MapTree.mkFromIterator, plainHost_call, add_plain, ih]
    rw [ofExcept_bind]

omit [PyOrd K] in
theorem collapseLHS_free {H : Host σ K} (hc : FreeCalls H) (s : List (Tree K V)) :
    collapseLHS H s = pure (MapTree.collapseLHS s) := by
  induction s using MapTree.collapseLHS.induct with
  | case1 => rw [collapseLHS, MapTree.collapseLHS]
  | case2 key value left right h rest ih => rw [collapseLHS, MapTree.collapseLHS, hc, ih]
  | case3 => rw [collapseLHS, MapTree.collapseLHS]
  | case4 rest ih => rw [collapseLHS, MapTree.collapseLHS, hc, ih]

omit [PyOrd K] in
theorem forEach_free {H : Host σ K} (hc : FreeCalls H) (body : K × V → Py σ Unit) :
    ∀ (fuel : Nat) (s : List (Tree K V)), Collapsed s → (fringe s).length < fuel →
      forEach H body fuel s = (do (fringe s).forM body; pure (some ())) := by
  intro fuel
  induction fuel with
  | zero => intro s _ h; omega
  | succ n ih =>
    intro s hs hn
    match s, hs with
    | [], _ =>
      simp only [forEach, iterNext, hc _, pure_bind]; rfl
    | leaf k v :: rest, _ =>
      simp only [forEach, iterNext, hc _, collapseLHS_free hc, pure_bind]
      have e : fringe (leaf k v :: rest) = (k, v) :: fringe rest := by simp [fringe, inorder]
      rw [e] at hn ⊢
      simp only [List.length_cons] at hn
      rw [ih _ (collapsed_collapseLHS rest) (by rw [fringe_collapseLHS]; omega), fringe_collapseLHS]
      exact (bind_assoc _ _ _).symm

end Expression.MapHost
