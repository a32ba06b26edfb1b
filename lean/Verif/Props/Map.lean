import Verif.Lemmas.MapHistory
import Verif.Lemmas.MapLinear

/-!
# Properties C01-C14: the persistent Map

`Reachable m`: `m` was obtained through the public API.  `K` is any key type with a lawful `<`/`==`.
-/

namespace Expression.Props

open Expression Spec

variable {K V R σ : Type} [PyOrd K] [LawfulPyOrd K]

/-! ## C01 -/

/-- **C01.** After any history of updates the map answers every lookup as the dictionary replaying the same history. -/
theorem C01_lookups_refine_dictionary (ops : List (Op K V)) (k : K) :
    (runMap ops).tryFind k = (runDict ops).get? k ∧
    (runMap ops).containsKey k = ((runDict ops).get? k).isSome ∧
    ((runMap ops).getItem k = match (runDict ops).get? k with
      | some v => .ok v
      | none => .error (.keyError "Key not found")) ∧
    (∀ value : List V, (runMap ops).tryGetValue k value = match (runDict ops).get? k with
      | some v => (value ++ [v], true)
      | none => (value, false)) := by
  have h := Map.repr_run ops
  have h1 := Map.repr_get h k
  refine ⟨h1, ?_, ?_, ?_⟩
  · rw [Map.containsKey_lookup h.1, h.2]
    simp [Dict.get?]
  · simp only [Map.getItem, MapTree.find]
    have : MapTree.tryFind k (runMap ops).tree = (runDict ops).get? k := h1
    rw [this]
    cases (runDict ops).get? k <;> rfl
  · intro value
    simp only [Map.tryGetValue]
    have : MapTree.tryFind k (runMap ops).tree = (runDict ops).get? k := h1
    rw [this]
    cases (runDict ops).get? k <;> rfl

/-- A history with replacement, removal of an inner key, a change and a filter, on keys that are equal without being
identical: `3` is bound by the last `add`, `5` was removed. -/
example :
    let ops : List (Op TaggedKey Nat) :=
      [.add ⟨5, 0⟩ 50, .add ⟨3, 0⟩ 30, .add ⟨8, 0⟩ 80, .add ⟨3, 1⟩ 31, .remove ⟨5, 7⟩,
       .change ⟨8, 2⟩ (fun o => o.map (· + 1)), .filter (fun _ v => v > 10), .map (fun _ v => v + 1)]
    (runMap ops).tryFind ⟨3, 9⟩ = some 32 ∧ (runMap ops).tryFind ⟨8, 9⟩ = some 82 ∧
      (runMap ops).tryFind ⟨5, 0⟩ = none := by decide

/-! ## C02 -/

/-- **C02.** The enumeration of a map is strictly ascending in the keys (so no key appears twice), contains exactly the
bindings that lookups see, and `to_list`, `to_seq`, key iteration and `fold` all enumerate it. -/
theorem C02_enumeration_ascending_complete (m : Map K V) (h : Reachable m) :
    Ascending m.toList ∧
    (∀ k v, m.tryFind k = some v ↔ ∃ k', PyOrd.eq k k' = true ∧ (k', v) ∈ m.toList) ∧
    m.toSeq = .ok m.toList ∧
    m.keys = .ok (m.toList.map (·.1)) ∧
    (∀ w : σ, (m.fold (σ := σ) (fun acc kv => pure (acc ++ [kv])) []).exec w = (.ok m.toList, w)) := by
  have hv := Map.Reachable.valid h
  have hs : Ascending m.toList := by rw [Map.toList_def]; exact hv.sorted
  refine ⟨hs, ?_, ?_, ?_, ?_⟩
  · intro k v
    rw [Map.tryFind_lookup hv]
    constructor
    · intro e
      cases e2 : lookupKV k m.toList with
      | none => rw [e2] at e; cases e
      | some p =>
        rw [e2] at e
        obtain ⟨h1, h2⟩ := lookupKV_mem e2
        refine ⟨p.1, h2, ?_⟩
        cases e; exact h1
    · rintro ⟨k', he, hm⟩
      rw [lookupKV_of_mem hs hm he]; rfl
  · rw [Map.toList_def]; exact MapTree.toSeq_eq m.tree
  · rw [Map.toList_def]
    simp only [Map.keys, MapTree.drain_mkIterator]; rfl
  · intro w
    have : ∀ (xs acc : List (K × V)),
        foldLoop (σ := σ) (fun acc kv => pure (acc ++ [kv])) acc xs = pure (acc ++ xs) := by
      intro xs
      induction xs with
      | nil => intro acc; simp [foldLoop]
      | cons x xs ih => intro acc; simp only [foldLoop, pure_bind, ih]; simp
    simp only [Map.fold, MapTree.fold_eq, ← Map.toList_def]
    rw [this]; simp

/-- Hypotheses hold: a map that went through insertions in descending order and a removal of its root. -/
example : ∃ m : Map Int Nat, Reachable m ∧ m.toList = [(1, 10), (2, 20), (4, 40)] := by
  refine ⟨⟨.node 4 40 (.node 1 10 .nothing (.leaf 2 20) 2) .nothing 3⟩, ?_, by decide⟩
  refine Reachable.remove 3 (m := ⟨.node 3 30 (.node 1 10 .nothing (.leaf 2 20) 2) (.leaf 4 40) 3⟩) ?_ (by decide)
  exact Reachable.ofSeq [(4, 40), (3, 30), (2, 20), (1, 10)] (by decide)

/-! ## C03 -/

/-- **C03.** `len` counts the keys in the map (a list of pairwise different keys that holds, up to `==`, exactly the keys
for which `contains` answers true), emptiness means no key is contained, and `add`/`remove` change `len` accordingly. -/
theorem C03_len_counts_distinct_keys (m : Map K V) (h : Reachable m) :
    (∃ ks : List K, ks.Pairwise (fun a b => PyOrd.eq a b = false) ∧
      (∀ k, m.containsKey k = true ↔ ∃ k' ∈ ks, PyOrd.eq k k' = true) ∧ m.len = ks.length) ∧
    (m.isEmpty = true ↔ ∀ k, m.containsKey k = false) ∧
    (∀ k v m', m.add k v = .ok m' → m'.len = if m.containsKey k then m.len else m.len + 1) ∧
    (∀ k m', m.remove k = .ok m' → m'.len = if m.containsKey k then m.len - 1 else m.len) := by
  have hv := Map.Reachable.valid h
  have hs : Ascending m.toList := by rw [Map.toList_def]; exact hv.sorted
  have hc : ∀ k, m.containsKey k = true ↔ ∃ k' ∈ m.toList.map (·.1), PyOrd.eq k k' = true := by
    intro k
    rw [Map.containsKey_lookup hv]
    constructor
    · intro e
      obtain ⟨p, hp⟩ := Option.isSome_iff_exists.1 e
      obtain ⟨h1, h2⟩ := lookupKV_mem hp
      exact ⟨p.1, List.mem_map.2 ⟨p, h1, rfl⟩, h2⟩
    · rintro ⟨k', hm, he⟩
      obtain ⟨p, hp, rfl⟩ := List.mem_map.1 hm
      rw [lookupKV_of_mem hs hp he]; rfl
  refine ⟨⟨m.toList.map (·.1), ?_, hc, ?_⟩, ?_, ?_, ?_⟩
  · rw [List.pairwise_map]
    exact hs.imp (fun h => key_lt_not_eq h)
  · rw [Map.len_eq, List.length_map]
  · have : m.isEmpty = true ↔ m.toList = [] := by rw [Map.toList_def]; exact MapTree.isEmpty_iff m.tree
    rw [this]
    constructor
    · intro e k
      rw [Bool.eq_false_iff]
      intro hk
      obtain ⟨k', h1, _⟩ := (hc k).1 hk
      rw [e] at h1; cases h1
    · intro hall
      cases e : m.toList with
      | nil => rfl
      | cons p ps =>
        have := (hc p.1).2 ⟨p.1, by rw [e]; simp, key_eq_refl _⟩
        rw [hall] at this; cases this
  · intro k v m' e
    obtain ⟨m2, e2, v2, i⟩ := Map.add_valid k v hv
    rw [e2] at e; cases e
    rw [Map.len_eq, Map.len_eq, i, Map.containsKey_lookup hv]
    generalize m.toList = xs at hs
    induction xs with
    | nil => simp [insertKV, lookupKV]
    | cons p ps ih =>
      have hs' : Ascending ps := (List.pairwise_cons.1 hs).2
      have hgt : AllGt ps p.1 := (List.pairwise_cons.1 hs).1
      rw [insertKV, lookupKV_cons]
      split
      · rename_i hlt
        rw [key_lt_not_eq hlt, lookupKV_none_of_allGt (hgt.weaken hlt)]
        simp
      · split
        · simp
        · rw [List.length_cons, ih hs', List.length_cons]
          split <;> rfl
  · intro k m' e
    obtain ⟨m2, e2, v2, i⟩ := Map.remove_valid k hv
    rw [e2] at e; cases e
    rw [Map.len_eq, Map.len_eq, i, Map.containsKey_lookup hv]
    generalize m.toList = xs
    induction xs with
    | nil => simp [eraseKV, lookupKV]
    | cons p ps ih =>
      rw [eraseKV, lookupKV_cons]
      split
      · simp
      · rw [List.length_cons, ih]
        split
        · rename_i hl
          obtain ⟨q, hq⟩ := Option.isSome_iff_exists.1 hl
          have := (lookupKV_mem hq).1
          have : 0 < ps.length := List.length_pos_of_mem this
          rw [List.length_cons]; omega
        · rfl

example : ∃ m : Map TaggedKey Nat, Reachable m ∧ m.len = 2 ∧ m.containsKey ⟨1, 5⟩ = true :=
  ⟨_, Reachable.ofSeq [(⟨1, 0⟩, 1), (⟨2, 0⟩, 2), (⟨1, 1⟩, 3)] rfl, by decide, by decide⟩

/-! ## C04 -/

/-- **C04.** On a reachable map no operation raises an error of its own: `add`, `remove`, bulk construction, enumeration,
hashing and comparison always succeed, `m[k]` raises nothing but `KeyError`, and an operation with a callback raises only
what the callback raises (`E` is any set of exceptions covering the callback's), except that `change` and `pick` may raise
`EffectError`.  In particular none raises an internal failure, a `ValueError` from a missing subtree, or
`StopIteration`. -/
theorem C04_no_internal_error (m : Map K V) (h : Reachable m) :
    (∀ k v, ∃ m', m.add k v = .ok m') ∧
    (∀ k, ∃ m', m.remove k = .ok m') ∧
    (∀ xs : List (K × V), (∃ m', Map.ofSeq xs = .ok m') ∧ (∃ m', Map.ofList xs = .ok m') ∧
      (∃ m', Map.ofBlock xs = .ok m')) ∧
    (∃ xs, m.toSeq = .ok xs) ∧ (∃ ks, m.keys = .ok ks) ∧
    (∀ hk hv, ∃ n, m.hash hk hv = .ok n) ∧
    (∀ (o : Map K V) kvEq, Reachable o → ∃ b, m.eq kvEq o = .ok b) ∧
    (∀ k e, m.getItem k = .error e → ∃ msg, e = .keyError msg) ∧
    ∀ E : PyErr → Prop,
      (∀ k (f : Option V → Py σ (Option V)), (∀ o, RaisesOnly E (f o)) →
        RaisesOnly (fun e => E e ∨ e = .effectError) (m.change k f)) ∧
      (∀ p : K → V → Py σ Bool, (∀ k v, RaisesOnly E (p k v)) →
        RaisesOnly E (m.filter p) ∧ RaisesOnly E (m.partition p) ∧ RaisesOnly E (m.exists p) ∧
          RaisesOnly E (m.forAll p)) ∧
      (∀ f : K → V → Py σ R, (∀ k v, RaisesOnly E (f k v)) → RaisesOnly E (m.map f)) ∧
      (∀ f : K → V → Py σ Unit, (∀ k v, RaisesOnly E (f k v)) → RaisesOnly E (m.iterate f)) ∧
      (∀ (f : R → K × V → Py σ R) s, (∀ s kv, RaisesOnly E (f s kv)) → RaisesOnly E (m.fold f s)) ∧
      (∀ (f : K × V → R → Py σ R) s, (∀ kv s, RaisesOnly E (f kv s)) → RaisesOnly E (m.foldBack f s)) ∧
      (∀ f : K → V → Py σ (Option R), (∀ k v, RaisesOnly E (f k v)) →
        RaisesOnly E (m.tryPick f) ∧ RaisesOnly (fun e => E e ∨ e = .effectError) (m.pick f)) := by
  have hv := Map.Reachable.valid h
  refine ⟨fun k v => ?_, fun k => ?_, fun xs => ?_, ?_, ?_, fun hk hv' => ?_, fun o kvEq ho => ?_, fun k e he => ?_,
    fun E => ⟨fun k f hf => ?_, fun p hp => ⟨?_, ?_, ?_, ?_⟩, fun f hf => ?_, fun f hf => ?_, fun f s hf => ?_,
      fun f s hf => ?_, fun f hf => ?_⟩⟩
  · obtain ⟨m', e, _⟩ := Map.add_valid k v hv; exact ⟨m', e⟩
  · obtain ⟨m', e, _⟩ := Map.remove_valid k hv; exact ⟨m', e⟩
  · obtain ⟨m', e, _⟩ := Map.ofList_valid xs
    exact ⟨⟨m', by rw [Map.ofSeq_eq_ofList, e]⟩, ⟨m', e⟩, ⟨m', e⟩⟩
  · exact ⟨_, MapTree.toSeq_eq m.tree⟩
  · exact ⟨_, by simp only [Map.keys, MapTree.drain_mkIterator]; rfl⟩
  · exact ⟨_, by simp only [Map.hash, MapTree.drain_mkIterator]; rfl⟩
  · exact ⟨_, by simp only [Map.eq, Map.toSeq, MapTree.toSeq_eq]; rfl⟩
  · simp only [Map.getItem, MapTree.find] at he
    split at he <;> cases he
    exact ⟨_, rfl⟩
  · rw [Map.change_eq]
    refine RaisesOnly.bind ((hf _).mono (fun e he => Or.inl he)) (fun r => ?_)
    intro w e w' he
    cases r with
    | some v =>
      obtain ⟨m', e1, _⟩ := Map.add_valid k v hv
      rw [Map.afterChange_some, e1] at he; cases he
    | none =>
      cases hn : m.tryFind k with
      | some x =>
        obtain ⟨m', e1, _⟩ := Map.remove_valid k hv
        rw [Map.afterChange_found m k (by simp [hn]), e1] at he; cases he
      | none =>
        rcases Map.afterChange_absent hv k hn with ⟨_, e1⟩ | ⟨_, m', e1, _⟩
        · rw [e1] at he; cases he; exact Or.inr rfl
        · rw [e1] at he; cases he
  · exact RaisesOnly.of_sim (Map.filter_sim p hv) (RaisesOnly.filterLoop hp _)
  · exact RaisesOnly.of_sim (Map.partition_sim p hv) (RaisesOnly.partitionFromEnd hp _)
  · simp only [Map.exists, MapTree.exists_eq]; exact RaisesOnly.anyOf hp _
  · simp only [Map.forAll, MapTree.forall_eq]; exact RaisesOnly.allOf hp _
  · exact RaisesOnly.of_sim (Map.map_sim f hv) (RaisesOnly.mapLoop hf _)
  · simp only [Map.iterate, MapTree.iter_eq]; exact RaisesOnly.forEach hf _
  · simp only [Map.fold, MapTree.fold_eq]; exact RaisesOnly.foldLoop hf _ _
  · simp only [Map.foldBack, MapTree.foldBack_eq]; exact RaisesOnly.foldLoop (fun s kv => hf kv s) _ _
  · have h1 : RaisesOnly E (m.tryPick f) := by
      simp only [Map.tryPick, MapTree.tryPick_eq]; exact RaisesOnly.firstSome hf _
    refine ⟨h1, RaisesOnly.bind (h1.mono (fun e he => Or.inl he)) (fun r => ?_)⟩
    intro w e w' he
    cases r with
    | some x => cases he
    | none => cases he; exact Or.inr rfl

/-- The error paths exist in the code: on a malformed tree (not reachable) `add` and iteration do raise internal errors. -/
example : (⟨.node 5 0 (.leaf 1 0) (.node 8 0 .nothing .nothing 9) 10⟩ : Map Int Nat).add 9 0 ≠ .ok ⟨.nothing⟩ ∧
    MapTree.rebalance (.nothing : MapTree.Tree Int Nat) 1 1 (.node 3 3 (.node 2 2 .nothing .nothing 1) .nothing 5)
      = .ok (.node 3 3 (.node 1 1 .nothing (.node 2 2 .nothing .nothing 1) 2) .nothing 3) ∧
    MapTree.spliceOutSuccessor (.nothing : MapTree.Tree Int Nat) =
      .error (.failwith "internal error: Map.splice_out_successor") := by decide

/-! ## C05 -/

omit [PyOrd K] [LawfulPyOrd K] in
/-- A lookup compares its key with the keys on the search path only: orders that agree there give the same answer. -/
theorem C05_lookup_compares_only_on_searchPath (m : Map K V) (k : K) (ord ord' : PyOrd K)
    (hagree : ∀ key ∈ @searchPath K V ord k m.tree, ord'.eq k key = ord.eq k key ∧ ord'.lt k key = ord.lt k key) :
    @Map.tryFind K V ord' m k = @Map.tryFind K V ord m k := by
  obtain ⟨t⟩ := m
  simp only [Map.tryFind]
  simp only at hagree
  induction t with
  | nothing => rfl
  | leaf key v =>
    have := (hagree key (by simp [searchPath])).1
    simp only [MapTree.tryFind, this]
  | node key v l r h ihl ihr =>
    have h1 := hagree key (by simp [searchPath])
    simp only [MapTree.tryFind, h1.1, h1.2]
    by_cases heq : ord.eq k key = true
    · simp only [heq, if_true]
    · by_cases hlt : ord.lt k key = true
      · simp only [heq, hlt, if_true]
        refine congrArg _ (ihl (fun q hq => hagree q ?_))
        simp only [searchPath, heq, hlt, if_true, List.mem_cons]; exact Or.inr hq
      · simp only [heq, hlt]
        refine congrArg _ (ihr (fun q hq => hagree q ?_))
        simp only [searchPath, heq, hlt, List.mem_cons]; exact Or.inr hq

/-- **C05.** A map built without deletions is balanced, its depth `d` satisfies `2^d ≤ (len + 1)²`, i.e.
`d ≤ 2·log₂(len + 1)`, and a lookup visits at most that many nodes. -/
theorem C05_insertion_built_balanced (m : Map K V) (h : Grown m) :
    Balanced m.tree ∧ 2 ^ depth m.tree ≤ (m.len + 1) ^ 2 ∧
    ∀ k, 2 ^ (searchPath k m.tree).length ≤ (m.len + 1) ^ 2 := by
  obtain ⟨hv, hb⟩ := Map.Grown.good h
  have h2 : 2 ^ depth m.tree ≤ (m.len + 1) ^ 2 := by
    rw [hv.wf.depth_eq, Map.len_eq, Map.toList_def]
    exact MapTree.two_pow_height_le hv.wf hb
  refine ⟨hb.balanced hv.wf, h2, fun k => ?_⟩
  exact Nat.le_trans (Nat.pow_le_pow_right (by omega) (MapTree.length_searchPath_le k m.tree)) h2

/-- Ascending insertion, the worst case for a naive search tree: seven keys, depth 4, a lookup visits at most 4 nodes. -/
example : ∃ m : Map Int Nat, Grown m ∧ m.len = 7 ∧ depth m.tree = 4 :=
  ⟨_, Grown.ofSeq [(1, 0), (2, 0), (3, 0), (4, 0), (5, 0), (6, 0), (7, 0)] rfl, by decide, by decide⟩

/-! ## C06 -/

/-- The full statement of C06: every reachable map is balanced. -/
def C06_full_statement : Prop :=
  ∀ (K V : Type) [PyOrd K] [LawfulPyOrd K] (m : Map K V), Reachable m → Balanced m.tree

/-- How far the two sides of the root differ can be made as large as one likes by removals. -/
theorem C06_violated_unboundedly (n : Nat) :
    ∃ (m : Map Int Unit), Reachable m ∧ ∃ k v l r h, m.tree = .node k v l r h ∧ depth r + n ≤ depth l := by
  obtain ⟨m, e, hv, hl, hb⟩ := Map.ofList_valid ((List.range (2 ^ (n + 5))).map (fun i : Nat => ((i : Int), ())))
  have hlen : (MapTree.inorder m.tree).length = 2 ^ (n + 5) := by
    rw [← Map.toList_def, hl]
    have := MapTree.foldl_insertKV_ascending ((List.range (2 ^ (n + 5))).map (fun i : Nat => ((i : Int), ()))) [] (by
      simp only [List.nil_append, Ascending, List.pairwise_map]
      refine List.Pairwise.imp ?_ List.pairwise_lt_range
      intro a b hab
      simp only [PyOrd.lt, decide_eq_true_eq]; omega)
    rw [this]; simp
  have hd : n + 5 < depth m.tree := by
    have h1 := MapTree.length_lt_two_pow_depth m.tree
    rw [hlen] at h1
    exact (Nat.pow_lt_pow_iff_right (by omega)).1 h1
  have hr : Reachable m := Reachable.ofList _ e
  obtain ⟨t⟩ := m
  simp only at *
  cases t with
  | nothing => simp [depth] at hd
  | leaf => simp [depth] at hd
  | node k v l r h =>
    have hbal := hb.balanced hv.wf
    obtain ⟨_, _, b1, b2⟩ := hbal
    simp only [depth] at hd
    have hdl : n + 1 ≤ depth l := by omega
    obtain ⟨k', v', h', hr'⟩ := MapTree.drain_right (l := l) (by rintro rfl; simp [depth] at hdl) _ k v r h rfl hr
    exact ⟨_, hr', k', v', l, .nothing, h', rfl, by simp only [depth]; omega⟩

/-- **C06 is false of the code.** -/
theorem C06_full_statement_false : ¬ C06_full_statement := by
  intro hfull
  obtain ⟨m, hr, k, v, l, r, h, e, hd⟩ := C06_violated_unboundedly 3
  have := hfull Int Unit m hr
  rw [e] at this
  have := this.2.2.1
  omega

/-- How bad it can get: a map may have as many levels as entries, so that a lookup passes all of them. -/
theorem C06_violated_linear (n : Nat) :
    ∃ m : Map Int Unit, Reachable m ∧ m.len = n ∧ depth m.tree = n ∧ ∃ k, (searchPath k m.tree).length = n := by
  cases n with
  | zero => exact ⟨Map.empty, Reachable.empty, rfl, rfl, 0, rfl⟩
  | succ n =>
    obtain ⟨t, p, hl, hw⟩ := MapTree.thin_full n n 0 (Nat.le_refl _)
    have hr := p.reachable (MapTree.full_reachable n n (Nat.le_refl _))
    have hd : depth t = n + 1 := by rw [hw.depth_eq]; have := p.last; omega
    have hv : MapTree.Valid t := Map.Reachable.valid hr
    obtain ⟨kv, _, e⟩ := MapTree.deepest hv (by rintro rfl; simp [depth] at hd)
    refine ⟨⟨t⟩, hr, ?_, hd, kv.1, by rw [e, hd]⟩
    rw [Map.len_eq, Map.toList_def, hl]

omit [LawfulPyOrd K] [PyOrd K] in
/-- It cannot get worse: no map, however made, has more levels than entries. -/
theorem C06_depth_at_most_len (m : Map K V) : depth m.tree ≤ m.len := by
  rw [Map.len_eq, Map.toList_def]
  exact MapTree.depth_le_length m.tree

/-- **C06, partial.** What does hold of removals: one never makes the tree deeper, so a map built without deletions and
then only shrunk by `remove` has depth logarithmic in the size it had at its largest.
Missing from the full statement: depth logarithmic in the current size, which is false (`C06_violated_linear`). -/
theorem C06_removal_never_deepens_partial (m : Map K V) (h : Grown m) (ks : List K) (m' : Map K V)
    (e : ks.foldlM (fun m k => m.remove k) m = .ok m') :
    depth m'.tree ≤ depth m.tree ∧ 2 ^ depth m'.tree ≤ (m.len + 1) ^ 2 := by
  have key : ∀ (ks : List K) (m m' : Map K V), m.Valid → ks.foldlM (fun m k => m.remove k) m = .ok m' →
      depth m'.tree ≤ depth m.tree := by
    intro ks
    induction ks with
    | nil => intro m m' _ e; cases e; exact Nat.le_refl _
    | cons k ks ih =>
      intro m m' hv e
      obtain ⟨m1, e1, v1, _⟩ := Map.remove_valid k hv
      rw [List.foldlM_cons, e1] at e
      have h1 := ih m1 m' v1 e
      have h2 : depth m1.tree ≤ depth m.tree := by
        rw [v1.wf.depth_eq, hv.wf.depth_eq]
        simp only [Map.remove] at e1
        cases e2 : MapTree.remove k m.tree with
        | error x => rw [e2] at e1; cases e1
        | ok t => rw [e2] at e1; cases e1; exact MapTree.remove_height k hv e2
      omega
  have h1 := key ks m m' (Map.Grown.good h).1 e
  exact ⟨h1, Nat.le_trans (Nat.pow_le_pow_right (by omega) h1) (C05_insertion_built_balanced m h).2.1⟩

example : ∃ (m m' : Map Int Nat), Grown m ∧ [2, 1].foldlM (fun m k => m.remove k) m = .ok m' ∧ m'.len = 2 :=
  ⟨_, ⟨MapTree.mk .nothing 3 0 (.leaf 4 0)⟩, Grown.ofSeq (m := ⟨MapTree.mk (.leaf 1 0) 2 0 (MapTree.mk (.leaf 3 0) 4 0 .nothing)⟩) [(1, 0), (2, 0), (3, 0), (4, 0)] rfl, by decide, by decide⟩

/-! ## C07 -/

/-- The full statement of C07: `change` calls the callback once with the current binding and returns a map with exactly
that key rebound (or unbound). -/
def C07_full_statement : Prop :=
  ∀ (K V : Type) [PyOrd K] [LawfulPyOrd K] (m : Map K V) (k : K), Reachable m →
    ∃ after : Option V → Map K V,
      (∀ (σ : Type) (u : Option V → Py σ (Option V)), m.change k u = u (m.tryFind k) >>= fun r => pure (after r)) ∧
      ∀ r k', (after r).tryFind k' = if PyOrd.eq k' k then r else m.tryFind k'

/-- **C07 is false of the code**: `Map.empty().change(1, lambda _: Nothing)` raises `EffectError`. -/
theorem C07_full_statement_false : ¬ C07_full_statement := by
  intro hfull
  obtain ⟨after, h1, _⟩ := hfull Int Nat Map.empty 1 Reachable.empty
  have := congrArg (fun p : Py Unit (Map Int Nat) => (p.exec ()).1.isOk) (h1 Unit (fun _ => pure none))
  exact absurd (this : false = true) Bool.false_ne_true

/-- **C07, partial.** The callback is called exactly once, with the current binding, whatever its effects; what follows is
determined by its answer alone: `EffectError` when the key was absent, the callback answered `Nothing` and the search for
the key runs off the map's tree (always so for the empty map); otherwise the map with that key (and no other) rebound or
unbound.
Missing from the full statement: that last case should return the map unchanged. -/
theorem C07_change_updates_one_key_partial (m : Map K V) (h : Reachable m) (k : K) :
    ∃ after : Option V → Except PyErr (Map K V),
      (∀ (σ : Type) (u : Option V → Py σ (Option V)),
        m.change k u = u (m.tryFind k) >>= fun r => Py.ofExcept (after r)) ∧
      ∀ r, (¬ (r = none ∧ m.tryFind k = none ∧ runsOff k m.tree = true) ∧
          ∃ m', after r = .ok m' ∧ ∀ k', m'.tryFind k' = if PyOrd.eq k' k then r else m.tryFind k') ∨
        ((r = none ∧ m.tryFind k = none ∧ runsOff k m.tree = true) ∧ after r = .error .effectError) := by
  have hv := Map.Reachable.valid h
  have hrep := Map.repr_reachable h
  refine ⟨m.afterChange k, fun σ u => Map.change_eq m k u, fun r => ?_⟩
  cases r with
  | some v =>
    obtain ⟨m', e, hr⟩ := Map.repr_add hrep k v
    refine Or.inl ⟨(fun h => nomatch h.1), m', by rw [Map.afterChange_some, e], fun k' => ?_⟩
    rw [Map.repr_get hr, Map.repr_get hrep]
    simp only [Dict.get?, Dict.insert]
    split <;> rfl
  | none =>
    cases hn : m.tryFind k with
    | some x =>
      obtain ⟨m', e, hr⟩ := Map.repr_remove hrep k
      refine Or.inl ⟨(fun h => by cases h.2.1), m', by rw [Map.afterChange_found m k (by simp [hn]), e], fun k' => ?_⟩
      rw [Map.repr_get hr, Map.repr_get hrep]
      simp only [Dict.get?, Dict.erase]
      split <;> rfl
    | none =>
      rcases Map.afterChange_absent hv k hn with ⟨ho, e⟩ | ⟨ho, m', e, hv', i⟩
      · exact Or.inr ⟨⟨rfl, rfl, ho⟩, e⟩
      · refine Or.inl ⟨fun h => Bool.false_ne_true (ho.symm.trans h.2.2), m', e, fun k' => ?_⟩
        have : m'.tryFind k' = m.tryFind k' := by rw [Map.tryFind_lookup hv', Map.tryFind_lookup hv, i]
        rw [this]
        split
        · rename_i he
          rw [Map.repr_get hrep] at hn ⊢
          have hc := Map.repr_congr hrep he
          simp only [Dict.get?] at hn ⊢
          rw [hc]; exact hn
        · rfl

/-- An effectful callback (it counts its calls) on a key of a three-element map. -/
example :
    let m : Map Int Nat := ⟨.node 2 20 (.leaf 1 10) (.leaf 3 30) 2⟩
    let u : Option Nat → Py Nat (Option Nat) := fun o => do modify (· + 1); pure (o.map (· + 5))
    ((m.change 3 u).exec 0).2 = 1 ∧ ((m.change 3 u).exec 0).1.map Map.toList = .ok [(1, 10), (2, 20), (3, 35)] := by
  decide

/-- Both outcomes of answering `Nothing` for an absent key, on maps a program can build: with the bindings 1 and 2 (added in
this order) the root is 2 with nothing on its right, so key 3 raises and key 0 does not. -/
example :
    let m : Map Int Nat := ⟨.node 2 20 (.leaf 1 10) .nothing 2⟩
    (Map.empty.add (1 : Int) (10 : Nat) >>= fun m => m.add 2 20) = .ok m ∧ runsOff 3 m.tree = true ∧ runsOff 0 m.tree = false ∧
      ((m.change (σ := Unit) 3 (fun _ => pure none)).exec ()).1.map Map.toList = .error .effectError ∧
      ((m.change (σ := Unit) 0 (fun _ => pure none)).exec ()).1.map Map.toList = .ok [(1, 10), (2, 20)] := by
  decide

/-! ## C08 -/

/-- **C08 (filter).** For any predicate, with any effects: `filter` calls it once per binding in ascending order, raises
what it raises, and returns the map whose bindings are exactly those satisfying it, unaltered. -/
theorem C08_filter (p : K → V → Py σ Bool) (m : Map K V) (h : Reachable m) :
    Sim (fun m' kvs => m'.toList = kvs) (m.filter p) (filterLoop p m.toList) :=
  (Map.filter_sim p (Map.Reachable.valid h)).mono (fun _ _ hh => hh.2.1)

/-- **C08 (partition).** The same for `partition`, which asks about the largest key first. -/
theorem C08_partition (p : K → V → Py σ Bool) (m : Map K V) (h : Reachable m) :
    Sim (fun mm kvs => mm.1.toList = kvs.1 ∧ mm.2.toList = kvs.2) (m.partition p) (partitionFromEnd p m.toList) :=
  (Map.partition_sim p (Map.Reachable.valid h)).mono (fun _ _ hh => hh.2.2)

/-- **C08 (lookup).** For a predicate without effects: a key is found in the filtered map exactly when it is found in the
original and its stored binding satisfies the predicate, and `partition` splits the bindings into those satisfying it and
those not, sizes adding up. -/
theorem C08_filter_partition_lookup (p : K → V → Bool) (m : Map K V) (h : Reachable m) (w : σ) :
    (∃ m', (m.filter (fun k v => pure (p k v))).exec w = (.ok m', w) ∧
      ∀ kv, kv ∈ m'.toList ↔ kv ∈ m.toList ∧ p kv.1 kv.2 = true) ∧
    (∃ m1 m2, (m.partition (fun k v => pure (p k v))).exec w = (.ok (m1, m2), w) ∧
      (∀ kv, kv ∈ m1.toList ↔ kv ∈ m.toList ∧ p kv.1 kv.2 = true) ∧
      (∀ kv, kv ∈ m2.toList ↔ kv ∈ m.toList ∧ p kv.1 kv.2 = false) ∧ m1.len + m2.len = m.len) := by
  have hv := Map.Reachable.valid h
  obtain ⟨m', e, _, i⟩ := Map.filter_exec p hv w
  obtain ⟨m1, m2, e2, _, _, i1, i2⟩ := Map.partition_exec p hv w
  refine ⟨⟨m', e, fun kv => ?_⟩, ⟨m1, m2, e2, fun kv => ?_, fun kv => ?_, ?_⟩⟩
  · rw [i, List.mem_filter]
  · rw [i1, List.mem_filter]
  · rw [i2, List.mem_filter]; simp
  · rw [Map.len_eq, Map.len_eq, Map.len_eq, i1, i2, ← List.countP_eq_length_filter, ← List.countP_eq_length_filter]
    have := List.length_eq_countP_add_countP (fun kv : K × V => p kv.1 kv.2) (l := m.toList)
    simp only [Bool.not_eq_true, Bool.decide_eq_false] at this
    omega

/-- A raising predicate: it logs the keys it is asked about and raises on key 2; bindings after it are not asked. -/
example :
    let m : Map Int Nat := ⟨.node 2 20 (.leaf 1 10) (.leaf 3 30) 2⟩
    let p : Int → Nat → Py (List Int) Bool := fun k _ => do
      modify (· ++ [k]); if k = 2 then Py.raise (.user 7) else pure true
    (m.filter p).exec [] = (.error (.user 7), [1, 2]) ∧ (m.partition p).exec [] = (.error (.user 7), [3, 2]) := by
  decide

/-! ## C09 -/

/-- **C09.** Every traversal is the plain loop over the ascending enumeration (`fold_back`: over its reverse), for any
callback with any effects: one call per binding in that order, stopping at the first deciding answer or exception. -/
theorem C09_traversals (m : Map K V) (h : Reachable m) :
    Ascending m.toList ∧
    (∀ f : K → V → Py σ Unit, m.iterate f = forEach f m.toList) ∧
    (∀ (f : R → K × V → Py σ R) s, m.fold f s = foldLoop f s m.toList) ∧
    (∀ (f : K × V → R → Py σ R) s, m.foldBack f s = foldLoop (fun s kv => f kv s) s m.toList.reverse) ∧
    (∀ p : K → V → Py σ Bool, m.exists p = anyOf p m.toList) ∧
    (∀ p : K → V → Py σ Bool, m.forAll p = allOf p m.toList) ∧
    (∀ f : K → V → Py σ (Option R), m.tryPick f = firstSome f m.toList) := by
  have hv := Map.Reachable.valid h
  refine ⟨by rw [Map.toList_def]; exact hv.sorted, ?_, ?_, ?_, ?_, ?_, ?_⟩ <;> rw [Map.toList_def]
  · exact fun f => MapTree.iter_eq f m.tree
  · exact fun f s => MapTree.fold_eq f s m.tree
  · exact fun f s => MapTree.foldBack_eq f m.tree s
  · exact fun p => MapTree.exists_eq p m.tree
  · exact fun p => MapTree.forall_eq p m.tree
  · exact fun f => MapTree.tryPick_eq f m.tree

/-- The loop stops: a predicate true on key 2 is never asked about key 3. -/
example :
    let m : Map Int Nat := ⟨.node 2 20 (.leaf 1 10) (.leaf 3 30) 2⟩
    let p : Int → Nat → Py (List Int) Bool := fun k _ => do modify (· ++ [k]); pure (k == 2)
    (m.exists p).exec [] = (.ok true, [1, 2]) := by decide

/-! ## C10 -/

/-- Both maps bind the same keys, to values equal under `veq`. -/
def SameBindings (veq : V → V → Bool) (m o : Map K V) : Prop :=
  ∀ k, match m.tryFind k, o.tryFind k with
    | some v, some v' => veq v v' = true
    | none, none => True
    | _, _ => False

/-- Python's `==` on `(key, value)` tuples. -/
def pairEq (veq : V → V → Bool) (a b : K × V) : Bool := PyOrd.eq a.1 b.1 && veq a.2 b.2

/-- The full statement of C10. -/
def C10_full_statement : Prop :=
  ∀ (K V : Type) [PyOrd K] [LawfulPyOrd K] (veq : V → V → Bool) (m o : Map K V), Reachable m → Reachable o →
    (m.eq (pairEq veq) o = .ok true ↔ SameBindings veq m o)

/-- **C10 is false of the code**: the empty map `==` every map (and not conversely). -/
theorem C10_full_statement_false : ¬ C10_full_statement := by
  intro hfull
  have h1 := (hfull Int Nat (fun a b => a == b) Map.empty ⟨.leaf 1 1⟩ Reachable.empty
    (Reachable.add 1 1 Reachable.empty rfl)).1 (by
      simp only [Map.eq, Map.toSeq, MapTree.toSeq_eq]; rfl)
  exact h1 1

theorem C10_not_symmetric : ∃ m o : Map Int Nat, Reachable m ∧ Reachable o ∧
    m.eq (pairEq (fun a b => a == b)) o = .ok true ∧ o.eq (pairEq (fun a b => a == b)) m = .ok false :=
  ⟨Map.empty, ⟨.leaf 1 1⟩, Reachable.empty, Reachable.add 1 1 Reachable.empty rfl, by
    simp only [Map.eq, Map.toSeq, MapTree.toSeq_eq]; rfl, by
    simp only [Map.eq, Map.toSeq, MapTree.toSeq_eq]; rfl⟩

/-- **C10, partial.** The comparison answers `True` exactly when the left map's enumeration matches, pair by pair, an
initial part of the right map's; so it is correct for maps with the same number of bindings, `True` for all maps with the
same bindings, and a `True` answer means every binding of the left map is in the right map.
Missing from the full statement: a left map whose bindings are the smallest ones of the right map also compares equal. -/
theorem C10_equality_partial (veq : V → V → Bool) (m o : Map K V) (hm : Reachable m) (ho : Reachable o) :
    (m.eq (pairEq veq) o = .ok true ↔
      m.len ≤ o.len ∧ ∀ p ∈ m.toList.zip o.toList, PyOrd.eq p.1.1 p.2.1 = true ∧ veq p.1.2 p.2.2 = true) ∧
    (m.len = o.len → (m.eq (pairEq veq) o = .ok true ↔ SameBindings veq m o)) ∧
    (SameBindings veq m o → m.eq (pairEq veq) o = .ok true ∧ m.len = o.len) ∧
    (m.eq (pairEq veq) o = .ok true → ∀ k v, m.tryFind k = some v → ∃ v', o.tryFind k = some v' ∧ veq v v' = true) := by
  have vm := Map.Reachable.valid hm
  have vo := Map.Reachable.valid ho
  have sm : Ascending m.toList := by rw [Map.toList_def]; exact vm.sorted
  have so : Ascending o.toList := by rw [Map.toList_def]; exact vo.sorted
  have he : m.eq (pairEq veq) o = .ok (Map.eqLoop (pairEq veq) m.toList o.toList) := by
    simp only [Map.eq, Map.toSeq, MapTree.toSeq_eq, Map.toList_def]; rfl
  have hok : m.eq (pairEq veq) o = .ok true ↔ Map.eqLoop (pairEq veq) m.toList o.toList = true := by
    rw [he]; exact ⟨fun h => Except.ok.inj h, fun h => by rw [h]⟩
  have hsame : SameBindings veq m o ↔ Map.LSame veq m.toList o.toList := by
    simp only [SameBindings, Map.LSame]
    refine forall_congr' (fun k => ?_)
    rw [Map.tryFind_lookup vm, Map.tryFind_lookup vo]
    cases lookupKV k m.toList <;> cases lookupKV k o.toList <;> rfl
  have hpe : (pairEq veq : K × V → K × V → Bool) = fun a b => PyOrd.eq a.1 b.1 && veq a.2 b.2 := rfl
  refine ⟨?_, ?_, ?_, ?_⟩
  · rw [hok, Map.eqLoop_true_iff, Map.len_eq, Map.len_eq]
    simp only [pairEq, Bool.and_eq_true]
  · intro hl
    rw [Map.len_eq, Map.len_eq] at hl
    rw [hok, hsame, hpe]
    exact ⟨fun h => Map.lsame_of_eqLoop veq hl h, fun h => (Map.eqLoop_of_lsame veq sm so h).1⟩
  · intro h
    rw [hok, Map.len_eq, Map.len_eq, hpe]
    exact Map.eqLoop_of_lsame veq sm so (hsame.1 h)
  · intro h k v hk
    rw [hok, hpe] at h
    rw [Map.tryFind_lookup vm] at hk
    cases e : lookupKV k m.toList with
    | none => rw [e] at hk; cases hk
    | some p =>
      rw [e] at hk; cases hk
      obtain ⟨p', e', hv⟩ := Map.eqLoop_lookup veq h k e
      exact ⟨p'.2, by rw [Map.tryFind_lookup vo, e']; rfl, hv⟩

/-- Two maps with the same bindings built in different orders (with different tree shapes). -/
example : ∃ m o : Map Int Nat, Reachable m ∧ Reachable o ∧ m.len = o.len ∧ m.tree ≠ o.tree ∧
    SameBindings (fun a b => a == b) m o := by
  refine ⟨⟨.node 2 20 (.leaf 1 10) .nothing 2⟩, ⟨.node 1 10 .nothing (.leaf 2 20) 2⟩,
    Reachable.ofSeq [(1, 10), (2, 20)] rfl, Reachable.ofSeq [(2, 20), (1, 10)] rfl, by decide, by decide, ?_⟩
  intro k
  simp only [Map.tryFind, MapTree.tryFind, PyOrd.eq, PyOrd.lt]
  by_cases h2 : k = 2
  · subst h2; simp
  · by_cases h1 : k = 1
    · subst h1; simp
    · by_cases hlt : k < 2 <;> by_cases hlt1 : k < 1 <;> simp [h1, h2, hlt, hlt1]

/-! ## C11 -/

/-- Hash functions compatible with the equalities. -/
def HashOk (veq : V → V → Bool) (hk : K → Int) (hv : V → Int) : Prop :=
  (∀ a b, PyOrd.eq a b = true → hk a = hk b) ∧ ∀ a b, veq a b = true → hv a = hv b

/-- The full statement of C11. -/
def C11_full_statement : Prop :=
  ∀ (K V : Type) [PyOrd K] [LawfulPyOrd K] (veq : V → V → Bool) (hk : K → Int) (hv : V → Int) (m o : Map K V),
    HashOk veq hk hv → Reachable m → Reachable o → m.eq (pairEq veq) o = .ok true → m.hash hk hv = o.hash hk hv

/-- **C11 is false of the code**: the empty map is `==` to `{1: 1}` but hashes differently. -/
theorem C11_full_statement_false : ¬ C11_full_statement := by
  intro hfull
  have h1 := hfull Int Nat (fun a b => a == b) (fun a => a) (fun a => a) Map.empty ⟨.leaf 1 1⟩
    ⟨fun a b h => by simpa [PyOrd.eq] using h, fun a b h => by have := eq_of_beq h; rw [this]⟩ Reachable.empty
    (Reachable.add 1 1 Reachable.empty rfl) (by simp only [Map.eq, Map.toSeq, MapTree.toSeq_eq]; rfl)
  simp only [Map.hash, MapTree.drain_mkIterator] at h1
  exact absurd h1 (by decide)

/-- **C11, partial.** Maps with the same bindings - in particular maps that compare equal and have the same number of
bindings - have the same hash, whatever histories built them.
Missing: maps that wrongly compare equal (C10). -/
theorem C11_hash_partial (veq : V → V → Bool) (hk : K → Int) (hv : V → Int) (m o : Map K V) (hh : HashOk veq hk hv)
    (hm : Reachable m) (ho : Reachable o) :
    (SameBindings veq m o → m.hash hk hv = o.hash hk hv) ∧
    (m.len = o.len → m.eq (pairEq veq) o = .ok true → m.hash hk hv = o.hash hk hv) := by
  have hlist : ∀ (xs ys : List (K × V)) (acc : Int), xs.length = ys.length → Map.eqLoop (pairEq veq) xs ys = true →
      xs.foldl (fun res kv => Map.combineHash (Map.combineHash res (hk kv.1)) (hv kv.2)) acc =
      ys.foldl (fun res kv => Map.combineHash (Map.combineHash res (hk kv.1)) (hv kv.2)) acc := by
    intro xs
    induction xs with
    | nil => intro ys acc hl _; cases ys with
      | nil => rfl
      | cons => cases hl
    | cons x xs ih =>
      intro ys acc hl he
      cases ys with
      | nil => cases hl
      | cons y ys =>
        rw [Map.eqLoop_cons, Bool.and_eq_true, pairEq, Bool.and_eq_true] at he
        obtain ⟨hq, he⟩ := he
        simp only [List.foldl_cons]
        rw [hh.1 _ _ hq.1, hh.2 _ _ hq.2]
        exact ih ys _ (by simpa using hl) he
  have hE : m.len = o.len → m.eq (pairEq veq) o = .ok true → m.hash hk hv = o.hash hk hv := by
    intro hl he
    rw [Map.len_eq, Map.len_eq, Map.toList_def, Map.toList_def] at hl
    have he' : Map.eqLoop (pairEq veq) (MapTree.inorder m.tree) (MapTree.inorder o.tree) = true := by
      simp only [Map.eq, Map.toSeq, MapTree.toSeq_eq] at he
      exact Except.ok.inj he
    simp only [Map.hash, MapTree.drain_mkIterator]
    exact congrArg Except.ok (hlist _ _ 0 hl he')
  refine ⟨fun hs => ?_, hE⟩
  have := (C10_equality_partial veq m o hm ho).2.2.1 hs
  exact hE this.2 this.1

example : HashOk (K := TaggedKey) (fun a b : Nat => a == b) (fun k => k.val * 31) (fun v => v) :=
  ⟨fun a b h => by simp [PyOrd.eq] at h; simp [h], fun a b h => by have := eq_of_beq h; rw [this]⟩

/-! ## C12 -/

/-- **C12.** Bulk construction always succeeds and binds each key to the value of its last occurrence; rebuilding a map
from its own enumeration gives the same bindings. -/
theorem C12_last_binding_wins (xs : List (K × V)) :
    (∃ m, Map.ofSeq xs = .ok m ∧ Map.ofList xs = .ok m ∧ Map.ofBlock xs = .ok m ∧
      ∀ k, m.tryFind k = (xs.reverse.find? (fun kv => PyOrd.eq k kv.1)).map (·.2)) ∧
    (∀ m : Map K V, Reachable m → ∃ m', Map.ofSeq m.toList = .ok m' ∧ m'.toList = m.toList) := by
  constructor
  · obtain ⟨m, e, hv, hl, _⟩ := Map.ofList_valid xs
    refine ⟨m, by rw [Map.ofSeq_eq_ofList, e], e, e, fun k => ?_⟩
    rw [Map.tryFind_lookup hv, hl]
    congr 1
    have key : ∀ (xs acc : List (K × V)), Ascending acc →
        lookupKV k (xs.foldl (fun l kv => insertKV kv.1 kv.2 l) acc) =
          (xs.reverse.find? (fun kv => PyOrd.eq k kv.1)).or (lookupKV k acc) := by
      intro xs
      induction xs with
      | nil => intro acc _; rfl
      | cons x xs ih =>
        intro acc hacc
        rw [List.foldl_cons, ih _ (ascending_insertKV _ _ hacc), lookupKV_insertKV _ _ hacc, List.reverse_cons,
          List.find?_append]
        simp only [List.find?]
        cases PyOrd.eq k x.1 <;> simp
    rw [key xs [] List.Pairwise.nil]
    simp [lookupKV]
  · intro m hm
    have hv := Map.Reachable.valid hm
    have hs : Ascending m.toList := by rw [Map.toList_def]; exact hv.sorted
    obtain ⟨m', e, _, hl, _⟩ := Map.ofList_valid m.toList
    refine ⟨m', by rw [Map.ofSeq_eq_ofList, e], ?_⟩
    rw [hl, MapTree.foldl_insertKV_ascending _ [] (by simpa using hs)]; rfl

example : (Map.ofSeq [((⟨1, 0⟩ : TaggedKey), 10), (⟨2, 0⟩, 20), (⟨1, 1⟩, 11)]).map Map.toList =
    .ok [(⟨1, 1⟩, 11), (⟨2, 0⟩, 20)] := by decide

/-! ## C13 -/

/-- The full statement of C13 about `pick`. -/
def C13_full_statement : Prop :=
  ∀ (K V R σ : Type) [PyOrd K] [LawfulPyOrd K] (m : Map K V) (f : K → V → Py σ (Option R)), Reachable m →
    ∃ msg, m.pick f = firstSome f m.toList >>= fun r => match r with
      | some x => pure x
      | none => Py.raise (.keyError msg)

/-- **C13 is false of the code**: `pick` on the empty map raises `EffectError`, not `KeyError`. -/
theorem C13_full_statement_false : ¬ C13_full_statement := by
  intro hfull
  obtain ⟨msg, h⟩ := hfull Int Nat Nat Unit Map.empty (fun _ _ => pure none) Reachable.empty
  have := congrArg (fun p : Py Unit Nat => (p.exec ()).1) h
  have h2 : (Except.error PyErr.effectError : Except PyErr Nat) = .error (.keyError msg) := this
  cases h2

/-- **C13, partial.** `try_pick` returns the chooser's first `Some` answer in ascending key order, calling it on no later
binding; `pick` returns the same answer, and when there is none it raises (`EffectError` in place of `KeyError`). -/
theorem C13_pick_partial (f : K → V → Py σ (Option R)) (m : Map K V) (h : Reachable m) :
    Ascending m.toList ∧ m.tryPick f = firstSome f m.toList ∧
    m.pick f = firstSome f m.toList >>= fun r => match r with
      | some x => pure x
      | none => Py.raise .effectError := by
  have hp := (C09_traversals (σ := σ) (R := R) m h)
  refine ⟨hp.1, hp.2.2.2.2.2.2 f, ?_⟩
  simp only [Map.pick, hp.2.2.2.2.2.2 f]
  congr 1

example :
    let m : Map Int Nat := ⟨.node 2 20 (.leaf 1 10) (.leaf 3 30) 2⟩
    let f : Int → Nat → Py (List Int) (Option Nat) := fun k v => do
      modify (· ++ [k]); pure (if k ≥ 2 then some v else none)
    (m.pick f).exec [] = (.ok 20, [1, 2]) := by decide

/-! ## C14 -/

/-- **C14.** For any mapper with any effects: one call per binding in ascending key order; the result has the same keys,
each bound to what the mapper returned for it. -/
theorem C14_map (f : K → V → Py σ R) (m : Map K V) (h : Reachable m) :
    Sim (fun m' kvs => m'.toList = kvs) (m.map f) (mapLoop f m.toList) :=
  (Map.map_sim f (Map.Reachable.valid h)).mono (fun _ _ hh => hh.2)

omit [LawfulPyOrd K] in
/-- **C14 (shape).** Whatever the function's effects, a map returned by `map` has the tree of the original: the same keys in
the same positions with the same stored heights; so it is searched along the same path. -/
theorem C14_shape (f : K → V → Py σ R) (m : Map K V) (w w' : σ) (m' : Map K R)
    (h : (m.map f).exec w = (.ok m', w')) : SameShape m.tree m'.tree ∧ ∀ k, searchPath k m'.tree = searchPath k m.tree := by
  have hs := Map.map_shape f m h
  exact ⟨hs, fun k => (MapTree.searchPath_shape k hs).symm⟩

/-- **C14 (laws).** Without effects: lookups see the mapped value; mapping the identity changes nothing and mapping twice
is mapping the composition. -/
theorem C14_map_laws {S : Type} (f : K → V → R) (g : K → R → S) (m : Map K V) (h : Reachable m) (w : σ) :
    ∃ mf mgf, (m.map (fun k v => pure (f k v))).exec w = (.ok mf, w) ∧
      (mf.map (fun k v => pure (g k v))).exec w = (.ok mgf, w) ∧
      mf.toList = m.toList.map (fun kv => (kv.1, f kv.1 kv.2)) ∧
      (∃ m2, (m.map (fun k v => pure (g k (f k v)))).exec w = (.ok m2, w) ∧ m2.toList = mgf.toList) ∧
      (∃ m3, (m.map (fun _ v => pure v)).exec w = (.ok m3, w) ∧ m3.toList = m.toList) := by
  have hv := Map.Reachable.valid h
  obtain ⟨mf, e1, v1, i1⟩ := Map.map_exec f hv w
  obtain ⟨mgf, e2, v2, i2⟩ := Map.map_exec g v1 w
  obtain ⟨m2, e3, _, i3⟩ := Map.map_exec (fun k v => g k (f k v)) hv w
  obtain ⟨m3, e4, _, i4⟩ := Map.map_exec (fun _ v => v) hv w
  refine ⟨mf, mgf, e1, e2, i1, ⟨m2, e3, ?_⟩, ⟨m3, e4, ?_⟩⟩
  · rw [i3, i2, i1]; simp
  · rw [i4]; simp

example :
    let m : Map Int Nat := ⟨.node 2 20 (.leaf 1 10) (.leaf 3 30) 2⟩
    let f : Int → Nat → Py (List Int) Nat := fun k v => do modify (· ++ [k]); pure (v + 1)
    ((m.map f).exec []).2 = [1, 2, 3] ∧ ((m.map f).exec []).1.map Map.toList = .ok [(1, 11), (2, 21), (3, 31)] := by
  decide

end Expression.Props
