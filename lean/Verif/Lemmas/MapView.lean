import Verif.Model.MapView
import Verif.Spec.MapView
import Verif.Lemmas.MapHistory

/-! # Lemmas about dictionaries made of maps -/

namespace Expression.Lemmas.MapView

open Spec

variable {K V : Type} [PyOrd K]

/-- the hash of a key that has one -/
def hashOf (hash : K → Except PyErr Int) (k : K) : Int := match hash k with | .ok n => n | .error _ => 0

omit [PyOrd K] in
theorem hash_eq {hash : K → Except PyErr Int} {ks : List K} (h : Hashable hash ks) {k : K} (hk : k ∈ ks) : hash k = .ok (hashOf hash k) := by
  obtain ⟨n, hn⟩ := h k hk
  simp [hashOf, hn]

/-- keys that are pairwise different -/
def Apart (xs : List (K × V)) : Prop := xs.Pairwise (fun a b => PyOrd.eq a.1 b.1 = false)

/-- the entries of a dictionary with these items -/
def entriesOf (hash : K → Except PyErr Int) (xs : List (K × V)) : List (Int × K × V) := xs.map (fun x => (hashOf hash x.1, x))

theorem set_new {hash : K → Except PyErr Int} {d : PyDict K V} {k : K} {v : V} {n : Int} (hk : hash k = .ok n)
    (h : ∀ e ∈ d.entries, PyOrd.eq e.2.1 k = false) : d.set hash k v = .ok ⟨d.entries ++ [(n, k, v)]⟩ := by
  have : d.entries.any (PyDict.hit n k) = false := by
    rw [List.any_eq_false]
    intro e he
    simp [PyDict.hit, h e he]
  simp only [PyDict.set, hk]
  show (if d.entries.any (PyDict.hit n k) then _ else _) = _
  rw [this]
  rfl

theorem foldlM_set {hash : K → Except PyErr Int} (xs : List (K × V)) (ys : List (K × V)) (ha : Apart (ys ++ xs))
    (hh : Hashable hash (xs.map (·.1))) :
    xs.foldlM (fun d kv => PyDict.set hash d kv.1 kv.2) (⟨entriesOf hash ys⟩ : PyDict K V) = .ok ⟨entriesOf hash (ys ++ xs)⟩ := by
  induction xs generalizing ys with
  | nil => simp; rfl
  | cons x xs ih =>
    have h1 := set_new (d := ⟨entriesOf hash ys⟩) (v := x.2) (hash_eq hh (k := x.1) (by simp)) (by
      intro e he
      obtain ⟨y, hy, rfl⟩ := List.mem_map.1 he
      exact (List.pairwise_append.1 ha).2.2 y hy x (by simp))
    have h2 := ih (ys ++ [x]) (by simpa using ha) (fun k hk => hh k (by simp at hk ⊢; exact .inr hk))
    rw [List.foldlM_cons, h1]
    simp only [List.append_assoc, List.singleton_append] at h2
    rw [← h2]
    simp [entriesOf]
    rfl

theorem ofItems_apart {hash : K → Except PyErr Int} (xs : List (K × V)) (ha : Apart xs) (hh : Hashable hash (xs.map (·.1))) :
    PyDict.ofItems hash xs = .ok ⟨entriesOf hash xs⟩ := foldlM_set xs [] ha hh

/-- the first key without a hash decides -/
theorem ofItems_unhashable {hash : K → Except PyErr Int} (pre : List (K × V)) (x : K × V) (post : List (K × V)) (ha : Apart pre)
    (hh : Hashable hash (pre.map (·.1))) {e : PyErr} (he : hash x.1 = .error e) :
    PyDict.ofItems hash (pre ++ x :: post) = .error e := by
  have h := ofItems_apart pre ha hh
  simp only [PyDict.ofItems] at h ⊢
  rw [List.foldlM_append, h]
  simp only [List.foldlM_cons, PyDict.set, he]
  rfl

/-- finding the entry of a key -/
theorem find_entry {hash : K → Except PyErr Int} (xs : List (K × V)) (k : K) (hr : ∀ x ∈ xs, PyOrd.eq x.1 k = true → hashOf hash x.1 = hashOf hash k) :
    (entriesOf hash xs).find? (PyDict.hit (hashOf hash k) k) =
      (xs.find? (fun p => PyOrd.eq p.1 k)).map (fun x => (hashOf hash x.1, x)) := by
  rw [entriesOf, List.find?_map]
  congr 1
  induction xs with
  | nil => rfl
  | cons x xs ih =>
    have hx : (PyDict.hit (hashOf hash k) k ∘ fun x : K × V => (hashOf hash x.1, x)) x = PyOrd.eq x.1 k := by
      simp only [Function.comp, PyDict.hit]
      cases he : PyOrd.eq x.1 k with
      | false => simp
      | true => simp [hr x (by simp) he]
    rw [List.find?_cons, List.find?_cons, hx, ih (fun y hy => hr y (by simp [hy]))]

section

variable [LawfulPyOrd K]

theorem find_lookup (xs : List (K × V)) (k : K) : xs.find? (fun p => PyOrd.eq p.1 k) = lookupKV k xs := by
  unfold lookupKV
  congr 1
  funext p
  exact key_eq_comm _ _

theorem apart_of_ascending {xs : List (K × V)} (h : Ascending xs) : Apart xs := h.imp (fun h => key_lt_not_eq h)

theorem getItem_entries {hash : K → Except PyErr Int} (xs : List (K × V)) (k : K) (hr : HashRespectsEq hash) {n : Int} (hk : hash k = .ok n) :
    (PyDict.mk (entriesOf hash xs)).getItem hash k =
      match lookupKV k xs with | some p => .ok p.2 | none => .error (.keyError "") := by
  have hn : n = hashOf hash k := by simp [hashOf, hk]
  subst hn
  have h1 := find_entry (hash := hash) xs k (fun x _ he => by simp [hashOf, hr x.1 k he])
  rw [find_lookup] at h1
  simp only [PyDict.getItem, hk]
  show (match (entriesOf hash xs).find? (PyDict.hit (hashOf hash k) k) with | some e => Except.ok e.2.2 | none => _) = _
  rw [h1]
  cases lookupKV k xs <;> rfl

/-- the value of a key that is in the list, whatever the hashes of others are -/
theorem getItem_mem {hash : K → Except PyErr Int} (xs : List (K × V)) (hs : Ascending xs) {x : K × V} (hx : x ∈ xs)
    (hh : Hashable hash (xs.map (·.1))) : (PyDict.mk (entriesOf hash xs)).getItem hash x.1 = .ok x.2 := by
  have hk := hash_eq hh (k := x.1) (List.mem_map.2 ⟨x, hx, rfl⟩)
  have only : ∀ y ∈ xs, PyOrd.eq y.1 x.1 = true → y = x := by
    intro y hy he
    have h1 := lookupKV_of_mem hs hy (k := x.1) (by rw [key_eq_comm]; exact he)
    have h2 := lookupKV_of_mem hs hx (k := x.1) (key_eq_refl _)
    rw [h1] at h2; cases h2; rfl
  have h1 := find_entry (hash := hash) xs x.1 (fun y hy he => by rw [only y hy he])
  rw [find_lookup, lookupKV_of_mem hs hx (key_eq_refl _)] at h1
  simp only [PyDict.getItem, hk]
  show (match (entriesOf hash xs).find? (PyDict.hit (hashOf hash x.1) x.1) with | some e => Except.ok e.2.2 | none => _) = _
  rw [h1]
  rfl

omit [LawfulPyOrd K] in
theorem getItem_map (m : Map K V) (k : K) :
    m.getItem k = match m.tryFind k with | some v => .ok v | none => .error (.keyError "Key not found") := by
  unfold Map.getItem MapTree.find Map.tryFind
  rfl

theorem tryFind_mem {m : Map K V} (h : Reachable m) {x : K × V} (hx : x ∈ m.toList) : m.tryFind x.1 = some x.2 := by
  have hv := Map.Reachable.valid h
  have hs : Ascending m.toList := by rw [Map.toList_def]; exact hv.sorted
  rw [Map.tryFind_lookup hv, lookupKV_of_mem hs hx (key_eq_refl _)]
  rfl

theorem toDict_eq {hash : K → Except PyErr Int} {m : Map K V} (h : Reachable m) (hh : Hashable hash (m.toList.map (·.1))) :
    m.toDict hash = .ok ⟨entriesOf hash m.toList⟩ := by
  have hv := Map.Reachable.valid h
  have hs : Ascending m.toList := by rw [Map.toList_def]; exact hv.sorted
  have hk : m.keys = .ok (m.toList.map (·.1)) := by
    rw [Map.toList_def]
    simp only [Map.keys, MapTree.drain_mkIterator]; rfl
  show (do (← m.keys).foldlM (fun d key => do PyDict.set hash d key (← m.getItem key)) (⟨[]⟩ : PyDict K V)) = _
  rw [hk]
  show (m.toList.map (·.1)).foldlM (fun d key => do PyDict.set hash d key (← m.getItem key)) (⟨[]⟩ : PyDict K V) = _
  have : ∀ (xs : List (K × V)) (d : PyDict K V), (∀ x ∈ xs, m.getItem x.1 = .ok x.2) →
      (xs.map (·.1)).foldlM (fun d key => do PyDict.set hash d key (← m.getItem key)) d = xs.foldlM (fun d kv => PyDict.set hash d kv.1 kv.2) d := by
    intro xs
    induction xs with
    | nil => intro d _; rfl
    | cons x xs ih =>
      intro d hx
      rw [List.map_cons, List.foldlM_cons, List.foldlM_cons, hx x (by simp)]
      show (PyDict.set hash d x.1 x.2 >>= _) = _
      congr 1
      funext d'
      exact ih d' (fun y hy => hx y (by simp [hy]))
  rw [this _ _ (fun x hx => by rw [getItem_map, tryFind_mem h hx])]
  exact ofItems_apart m.toList (apart_of_ascending hs) hh

theorem delete_entries {hash : K → Except PyErr Int} (hr : HashRespectsEq hash) (k : K) (xs : List (K × V))
    (hk : ∃ x ∈ xs, PyOrd.eq k x.1 = true) (hh : Hashable hash (xs.map (·.1))) :
    PyDict.delete hash ⟨entriesOf hash xs⟩ k = .ok ⟨entriesOf hash (xs.filter (fun x => !PyOrd.eq k x.1))⟩ := by
  obtain ⟨x, hx, he⟩ := hk
  have hn : hash k = .ok (hashOf hash k) := by
    have h1 := hash_eq hh (k := x.1) (List.mem_map.2 ⟨x, hx, rfl⟩)
    rw [hr k x.1 he, h1]
    simp [hashOf, hr k x.1 he]
  have hit : ∀ y : K × V, PyDict.hit (hashOf hash k) k (hashOf hash y.1, y) = PyOrd.eq k y.1 := by
    intro y
    simp only [PyDict.hit]
    rw [key_eq_comm y.1 k]
    cases e : PyOrd.eq k y.1 with
    | false => simp
    | true => simp [hashOf, hr k y.1 e]
  have hany : (entriesOf hash xs).any (PyDict.hit (hashOf hash k) k) = true := by
    rw [entriesOf, List.any_map, List.any_eq_true]
    exact ⟨x, hx, by simp [Function.comp, hit, he]⟩
  simp only [PyDict.delete, hn]
  show (if (entriesOf hash xs).any (PyDict.hit (hashOf hash k) k) then _ else _) = _
  rw [hany]
  show Except.ok (PyDict.mk ((entriesOf hash xs).filter _)) = _
  rw [entriesOf, List.filter_map, entriesOf]
  congr 3
  apply List.filter_congr
  intro y _
  simp [Function.comp, hit]

theorem foldlM_delete {hash : K → Except PyErr Int} (hr : HashRespectsEq hash) (keys : List K) (xs : List (K × V))
    (hd : keys.Pairwise (fun a b => PyOrd.eq a b = false)) (hk : ∀ k ∈ keys, ∃ x ∈ xs, PyOrd.eq k x.1 = true) (hh : Hashable hash (xs.map (·.1))) :
    keys.foldlM (fun d key => PyDict.delete hash d key) (⟨entriesOf hash xs⟩ : PyDict K V) =
      .ok ⟨entriesOf hash (xs.filter (fun x => !keys.any (fun k => PyOrd.eq k x.1)))⟩ := by
  induction keys generalizing xs with
  | nil =>
    have : xs.filter (fun x => !([] : List K).any (fun k => PyOrd.eq k x.1)) = xs := List.filter_eq_self.2 (by simp)
    rw [this]
    rfl
  | cons k ks ih =>
    rw [List.foldlM_cons, delete_entries hr k xs (hk k (by simp)) hh]
    have h1 := ih (xs.filter (fun x => !PyOrd.eq k x.1)) (List.pairwise_cons.1 hd).2 (by
      intro k' hk'
      obtain ⟨x, hx, he⟩ := hk k' (by simp [hk'])
      refine ⟨x, List.mem_filter.2 ⟨hx, ?_⟩, he⟩
      cases e : PyOrd.eq k x.1 with
      | false => rfl
      | true =>
        have h2 := (List.pairwise_cons.1 hd).1 k' hk'
        rw [LawfulPyOrd.eq_trans k x.1 k' e (key_eq_symm he)] at h2
        cases h2) (by
      intro y hy
      obtain ⟨z, hz, rfl⟩ := List.mem_map.1 hy
      exact hh _ (List.mem_map.2 ⟨z, (List.mem_filter.1 hz).1, rfl⟩))
    refine h1.trans ?_
    rw [List.filter_filter]
    congr 3
    apply List.filter_congr
    intro y _
    simp [Bool.and_comm]

end

end Expression.Lemmas.MapView
