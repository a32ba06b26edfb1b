import Verif.Lemmas.MapView

/-! # C109: a map is a mapping -/

namespace Expression.Props

open Expression Spec Lemmas.MapView

variable {K V : Type} [PyOrd K] [LawfulPyOrd K]

omit [LawfulPyOrd K] in
/-- **C109 (get).** `m.get(key, default)` never raises: the value of the key if there is one, else the default. -/
theorem C109_get (m : Map K V) (k : K) (default : V) : m.mapping.get k default = .ok ((m.tryFind k).getD default) := by
  show (match m.getItem k with | .error (.keyError _) => Except.ok default | r => r) = _
  rw [getItem_map]
  cases m.tryFind k <;> rfl

/-- **C109 (keys and values).** Iterating over `m.keys()` and `m.values()` gives the keys and the values of all bindings, in the order of the
keys; looking a value up in `m.values()` compares it with all of them; neither hashes anything or raises. -/
theorem C109_keys_values (veq : V → V → Bool) (m : Map K V) (h : Reachable m) :
    m.mapping.keysList = .ok (m.toList.map (·.1)) ∧
    m.mapping.valuesList = .ok (m.toList.map (·.2)) ∧
    m.mapping.len = m.toList.length ∧
    ∀ v, m.mapping.valuesContains veq v = .ok (m.toList.any (fun kv => veq kv.2 v)) := by
  have hk : m.keys = .ok (m.toList.map (·.1)) := by
    rw [Map.toList_def]
    simp only [Map.keys, MapTree.drain_mkIterator]; rfl
  have hg : ∀ x ∈ m.toList, m.getItem x.1 = .ok x.2 := by
    intro x hx
    rw [getItem_map, tryFind_mem h hx]
  refine ⟨hk, ?_, Map.len_eq m, fun v => ?_⟩
  · show (do (← m.keys).mapM m.getItem) = _
    rw [hk]
    show (m.toList.map (·.1)).mapM m.getItem = _
    have : ∀ xs : List (K × V), (∀ x ∈ xs, m.getItem x.1 = .ok x.2) → (xs.map (·.1)).mapM m.getItem = .ok (xs.map (·.2)) := by
      intro xs hx
      induction xs with
      | nil => rfl
      | cons x xs ih =>
        rw [List.map_cons, List.mapM_cons, hx x (by simp), ih (fun y hy => hx y (by simp [hy]))]
        rfl
    exact this _ hg
  · show (do PyMapping.valuesContains.go veq m.mapping v (← m.keys)) = _
    rw [hk]
    show PyMapping.valuesContains.go veq m.mapping v (m.toList.map (·.1)) = _
    have : ∀ xs : List (K × V), (∀ x ∈ xs, m.getItem x.1 = .ok x.2) →
        PyMapping.valuesContains.go veq m.mapping v (xs.map (·.1)) = .ok (xs.any (fun kv => veq kv.2 v)) := by
      intro xs hx
      induction xs with
      | nil => rfl
      | cons x xs ih =>
        rw [List.map_cons, PyMapping.valuesContains.go]
        show (do let v' ← m.getItem x.1; if veq v' v then Except.ok true else PyMapping.valuesContains.go veq m.mapping v (xs.map (fun y : K × V => y.1))) = _
        rw [hx x (by simp)]
        show (if veq x.2 v then Except.ok true else PyMapping.valuesContains.go veq m.mapping v (xs.map (fun y : K × V => y.1))) = _
        rw [ih (fun y hy => hx y (by simp [hy]))]
        cases e : veq x.2 v <;> simp [e]
    exact this _ hg

/-- **C109 (items).** If all keys of the map can be hashed, `m.items()` shows all bindings, in the order of the keys, whatever the hashes are. -/
theorem C109_items (hash : K → Except PyErr Int) (m : Map K V) (h : Reachable m) (hh : Hashable hash (m.toList.map (·.1))) :
    ∃ view, m.items hash = .ok view ∧ view.itemsList = .ok m.toList ∧ view.len = m.len := by
  have hv := Map.Reachable.valid h
  have hs : Ascending m.toList := by rw [Map.toList_def]; exact hv.sorted
  have h1 := ofItems_apart (hash := hash) m.toList (apart_of_ascending hs) hh
  have ht : m.toSeq = .ok m.toList := by rw [Map.toList_def]; exact MapTree.toSeq_eq m.tree
  refine ⟨_, by rw [Map.items, ht]; show (do let d ← PyDict.ofItems hash m.toList; Except.ok (d.mapping hash)) = _; rw [h1]; rfl, ?_, ?_⟩
  · show List.mapM (fun key => do Except.ok (key, ← PyDict.getItem hash ⟨entriesOf hash m.toList⟩ key))
      ((entriesOf hash m.toList).map (·.2.1)) = _
    have hm : (entriesOf hash m.toList).map (·.2.1) = m.toList.map (·.1) := by simp [entriesOf, Function.comp_def]
    rw [hm]
    have : ∀ xs : List (K × V), (∀ x ∈ xs, PyDict.getItem hash ⟨entriesOf hash m.toList⟩ x.1 = .ok x.2) →
        List.mapM (fun key => do Except.ok (key, ← PyDict.getItem hash ⟨entriesOf hash m.toList⟩ key)) (xs.map (·.1)) = .ok xs := by
      intro xs hx
      induction xs with
      | nil => rfl
      | cons x xs ih =>
        rw [List.map_cons, List.mapM_cons, hx x (by simp), ih (fun y hy => hx y (by simp [hy]))]
        rfl
    exact this _ (fun x hx => getItem_mem m.toList hs hx hh)
  · show (entriesOf hash m.toList).length = _
    rw [entriesOf, List.length_map, Map.len_eq]

/-- **C109 (looking a pair up).** If equal keys have equal hashes, `(k, v) in m.items()` says whether the map binds `k` to a value equal to `v`. -/
theorem C109_items_contains (veq : V → V → Bool) (hash : K → Except PyErr Int) (hr : HashRespectsEq hash) (m : Map K V) (h : Reachable m)
    (hh : Hashable hash (m.toList.map (·.1))) :
    ∃ view, m.items hash = .ok view ∧ ∀ k, (∃ n, hash k = .ok n) → ∀ v,
      view.itemsContains veq k v = .ok (match m.tryFind k with | some v' => veq v' v | none => false) := by
  have hv := Map.Reachable.valid h
  have hs : Ascending m.toList := by rw [Map.toList_def]; exact hv.sorted
  have h1 := ofItems_apart (hash := hash) m.toList (apart_of_ascending hs) hh
  have ht : m.toSeq = .ok m.toList := by rw [Map.toList_def]; exact MapTree.toSeq_eq m.tree
  refine ⟨_, by rw [Map.items, ht]; show (do let d ← PyDict.ofItems hash m.toList; Except.ok (d.mapping hash)) = _; rw [h1]; rfl,
    fun k ⟨n, hk⟩ v => ?_⟩
  rw [Map.tryFind_lookup hv]
  show (match PyDict.getItem hash ⟨entriesOf hash m.toList⟩ k with
    | .error (.keyError _) => Except.ok false | .error e => .error e | .ok v' => .ok (veq v' v)) = _
  rw [getItem_entries _ _ hr hk]
  cases lookupKV k m.toList <;> rfl

/-- **C109 (keys without hash).** If a key of the map cannot be hashed, `m.items()` raises, with the exception of the first such key
(though lookups, `keys` and `values` work, and the map could be built). -/
theorem C109_unhashable (hash : K → Except PyErr Int) (m : Map K V) (h : Reachable m) (pre post : List (K × V)) (x : K × V)
    (hm : m.toList = pre ++ x :: post) (hh : Hashable hash (pre.map (·.1))) (e : PyErr) (he : hash x.1 = .error e) :
    m.items hash = .error e := by
  have hv := Map.Reachable.valid h
  have hs : Ascending m.toList := by rw [Map.toList_def]; exact hv.sorted
  have ht : m.toSeq = .ok m.toList := by rw [Map.toList_def]; exact MapTree.toSeq_eq m.tree
  have ha : Apart pre := by
    have := apart_of_ascending hs
    rw [hm] at this
    exact (List.pairwise_append.1 this).1
  rw [Map.items, ht, hm]
  show (do let d ← PyDict.ofItems hash (pre ++ x :: post); Except.ok (d.mapping hash)) = _
  rw [ofItems_unhashable pre x post ha hh he]
  rfl

/-- **C109 (dict).** `dict(m)` has the bindings of the map, in the order of the keys. -/
theorem C109_dict (hash : K → Except PyErr Int) (m : Map K V) (h : Reachable m) (hh : Hashable hash (m.toList.map (·.1))) :
    ∃ d, m.toDict hash = .ok d ∧ d.items = m.toList := by
  have hv := Map.Reachable.valid h
  have hs : Ascending m.toList := by rw [Map.toList_def]; exact hv.sorted
  have hk : m.keys = .ok (m.toList.map (·.1)) := by
    rw [Map.toList_def]
    simp only [Map.keys, MapTree.drain_mkIterator]; rfl
  refine ⟨_, toDict_eq h hh, ?_⟩
  simp [PyDict.items, entriesOf, Function.comp_def]

omit [LawfulPyOrd K] in
/-- **C109 (patterns).** `case {k1: x1, ..., kn: xn}` matches exactly if the map has all the keys, and binds the names to their values. -/
theorem C109_pattern (m : Map K V) (keys : List K) : m.matchKeys keys = .ok (keys.mapM m.tryFind) := by
  induction keys with
  | nil => rfl
  | cons k ks ih =>
    rw [Map.matchKeys, List.mapM_cons, ih]
    show (match m.getItem k with
      | .error (.keyError _) => Except.ok none
      | .error e => .error e
      | .ok v => do match ← (Except.ok (ks.mapM m.tryFind) : Except PyErr (Option (List V))) with | none => .ok none | some vs => .ok (some (v :: vs))) = _
    rw [getItem_map]
    cases m.tryFind k with
    | none => rfl
    | some v => cases ks.mapM m.tryFind <;> rfl

/-- **C109 (the rest of a pattern).** In `case {k1: x1, ..., kn: xn, **rest}`, for a map that has these keys, `rest` is a `dict` of the other
bindings, in the order of the keys. -/
theorem C109_pattern_rest (hash : K → Except PyErr Int) (hr : HashRespectsEq hash) (m : Map K V) (h : Reachable m)
    (hh : Hashable hash (m.toList.map (·.1))) (keys : List K) (hd : keys.Pairwise (fun a b => PyOrd.eq a b = false))
    (hc : ∀ k ∈ keys, m.containsKey k = true) :
    ∃ rest, m.matchRest hash keys = .ok rest ∧ rest.items = m.toList.filter (fun kv => !keys.any (fun k => PyOrd.eq k kv.1)) := by
  have hv := Map.Reachable.valid h
  have hs : Ascending m.toList := by rw [Map.toList_def]; exact hv.sorted
  have hk : ∀ k ∈ keys, ∃ x ∈ m.toList, PyOrd.eq k x.1 = true := by
    intro k hk
    have := hc k hk
    rw [Map.containsKey_lookup hv] at this
    obtain ⟨p, hp⟩ := Option.isSome_iff_exists.1 this
    obtain ⟨h1, h2⟩ := lookupKV_mem hp
    exact ⟨p, h1, h2⟩
  refine ⟨_, by rw [Map.matchRest, toDict_eq h hh]; exact foldlM_delete hr keys m.toList hd hk hh, ?_⟩
  simp [PyDict.items, entriesOf, Function.comp_def]

/-- C109 is not vacuous: integers hash as themselves, and everything is hashable. -/
example : HashRespectsEq (fun k : Int => (.ok k : Except PyErr Int)) ∧ ∀ ks, Hashable (fun k : Int => (.ok k : Except PyErr Int)) ks :=
  ⟨fun a b h => by simp [PyOrd.eq] at h; rw [h], fun _ k _ => ⟨k, rfl⟩⟩
example : ∃ m : Map Int Nat, Reachable m ∧ m.matchKeys [2] = .ok (some [20]) ∧ m.matchKeys [2, 5] = .ok none ∧
    m.mapping.get 7 0 = .ok 0 ∧ m.mapping.valuesList = .ok [10, 20, 30, 40] :=
  ⟨⟨.node 3 30 (.node 1 10 .nothing (.leaf 2 20) 2) (.leaf 4 40) 3⟩, Reachable.ofSeq [(4, 40), (3, 30), (2, 20), (1, 10)] (by decide),
    by decide, by decide, by decide, (C109_keys_values (fun _ _ => true) _ (Reachable.ofSeq [(4, 40), (3, 30), (2, 20), (1, 10)] (by decide))).2.1⟩
/-- a map with a key that cannot be hashed -/
example : (⟨.leaf 1 10⟩ : Map Int Nat).items (fun _ => .error (.typeError "unhashable type")) = .error (.typeError "unhashable type") :=
  C109_unhashable _ _ (Reachable.ofSeq [(1, 10)] (by decide)) [] [] (1, 10) rfl (by intro k hk; cases hk) _ rfl

end Expression.Props
