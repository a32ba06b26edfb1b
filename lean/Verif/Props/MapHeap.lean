import Verif.Lemmas.MapHeap2
import Verif.Lemmas.MapHost2
import Verif.Props.Map

/-!
# C129, C130: maps as objects in memory

The specification is in `Verif/Spec/MapHeap.lean`.  Every statement is about any world, thus about any work of other threads between the steps.
-/

namespace Expression.Props

open Expression MapTree MapHeap Spec Spec.MapHeap Lemmas.MapHeap

variable {K V : Type}

private theorem shares_of {n : Nat} {p : PyD (World K V) Ref} {w : World K V} {os : List Nat} {res : Except PyErr (Tree K V)}
    (h : Gives Holds n p w os res) : Shares n p w os res := by
  cases res with
  | error e => exact h
  | ok t => obtain ⟨r, w', new, as, h⟩ := h; exact ⟨r, as, w', new, h⟩

private theorem gives_of {α : Type} {d : Nat} {p : PyD (World K V) α} {res : Except PyErr α} (h : Answers d p res) (w : World K V) : Gives Same d p w [] res := by
  obtain ⟨w', new, h1, h2, h3⟩ := h w
  cases res with
  | error e => exact ⟨w', new, h1, h2, h3⟩
  | ok a => exact ⟨a, w', new, [], h1, h2, h3, ⟨rfl, rfl⟩, by simp⟩

/-! ## C129 -/

/-- **C129.** No function ever changes a node that exists, whatever it is given, and however it ends. -/
theorem C129_nothing_changes [PyOrd K] (k : K) (v : V) (m : Ref) (w : World K V)
    {u : Option V → PyD (World K V) (Option V)} (hu : ∀ x w r, (u x).exec w = some r → Kept w.heap r.2.heap)
    {f : K → V → PyD (World K V) V} (hf : ∀ k v w r, (f k v).exec w = some r → Kept w.heap r.2.heap)
    {p : K → V → PyD (World K V) Bool} (hp : ∀ k v w r, (p k v).exec w = some r → Kept w.heap r.2.heap) :
    (∀ r, (MapHeap.add k v m).exec w = some r → Kept w.heap r.2.heap) ∧
    (∀ r, (MapHeap.remove k m : PyD (World K V) Ref).exec w = some r → Kept w.heap r.2.heap) ∧
    (∀ r, (MapHeap.tryFind k m : PyD (World K V) _).exec w = some r → Kept w.heap r.2.heap) ∧
    (∀ r, (MapHeap.change k u m).exec w = some r → Kept w.heap r.2.heap) ∧
    (∀ r, (MapHeap.map f m).exec w = some r → Kept w.heap r.2.heap) ∧
    (∀ r, (MapHeap.filter p m).exec w = some r → Kept w.heap r.2.heap) ∧
    (∀ r, (MapHeap.partition p m).exec w = some r → Kept w.heap r.2.heap) :=
  ⟨keeps_add k v m w, keeps_remove k m w, keeps_tryFind k m w, keeps_change k hu m w, keeps_map hf m w, keeps_filterAux hp m none w, keeps_partitionAux hp m (none, none) w⟩

/-- **C129.** So whatever map there was is there still. -/
theorem C129_old_maps_remain {h h' : List (Cell K V)} (k : Kept h h') {r : Ref} {t : Tree K V} {as : List Nat} (e : Holds h r t as) : Holds h' r t as := e.mono k

/-- **C129.** What is stored at a reference is determined. -/
theorem C129_one_tree {h : List (Cell K V)} {r : Ref} {t t' : Tree K V} {as as' : List Nat} (e : Holds h r t as) (e' : Holds h r t' as') : t = t' ∧ as = as' := by
  induction e generalizing t' as' with
  | nothing => cases e'; exact ⟨rfl, rfl⟩
  | leaf q =>
    cases e' with
    | leaf q' => rw [q] at q'; cases q'; exact ⟨rfl, rfl⟩
    | node q' => rw [q] at q'; cases q'
  | node q _ _ i1 i2 =>
    cases e' with
    | leaf q' => rw [q] at q'; cases q'
    | node q' a b =>
      rw [q] at q'; cases q'
      obtain ⟨rfl, rfl⟩ := i1 a
      obtain ⟨rfl, rfl⟩ := i2 b
      exact ⟨rfl, rfl⟩

/-- **C129.** Adding a pair makes at most three nodes for each level of the map, and one: all other nodes of the new map are nodes of the old one. -/
theorem C129_add [PyOrd K] (k : K) (v : V) {w : World K V} {r : Ref} {t : Tree K V} {as : List Nat} (h : Holds w.heap r t as) :
    Shares (3 * depth t + 1) (MapHeap.add k v r) w as (MapTree.add k v t) := shares_of (add_gives k v h (fun _ h => h))

/-- **C129.** So does removing a key. -/
theorem C129_remove [PyOrd K] (k : K) {w : World K V} {r : Ref} {t : Tree K V} {as : List Nat} (h : Holds w.heap r t as) :
    Shares (3 * depth t) (MapHeap.remove k r) w as (MapTree.remove k t) := shares_of (remove_gives k h (fun _ h => h))

/-- **C129.** So does changing the value at a key, apart from the nodes that the callback makes. -/
theorem C129_change [PyOrd K] (k : K) {u : Option V → PyD (World K V) (Option V)} {o : Option V → Except PyErr (Option V)} {d : Nat} (hu : ∀ x, Answers d (u x) (o x))
    {w : World K V} {r : Ref} {t : Tree K V} {as : List Nat} (h : Holds w.heap r t as) :
    Shares (3 * depth t + 1 + d) (MapHeap.change k u r) w as ((MapTree.change k (fun x => (Py.ofExcept (o x) : Py Unit _)) t).exec ()).1 :=
  shares_of (change_gives k u o d (fun x w => gives_of (hu x) w) h (fun _ h => h))

/-- **C129.** Mapping makes as many nodes as there are pairs, and uses no old one. -/
theorem C129_map {f : K → V → PyD (World K V) V} {o : K → V → Except PyErr V} {d : Nat} (hf : ∀ k v, Answers d (f k v) (o k v))
    {w : World K V} {r : Ref} {t : Tree K V} {as : List Nat} (h : Holds w.heap r t as) :
    Shares ((MapTree.toList t).length * (d + 1)) (MapHeap.map f r) w [] ((MapTree.map (fun k v => (Py.ofExcept (o k v) : Py Unit _)) t).exec ()).1 := by
  rw [toList_eq]
  exact shares_of (map_gives (fun k v w => gives_of (hf k v) w) h)

/-- **C129.** Filtering makes a map of its own. -/
theorem C129_filter [PyOrd K] {p : K → V → PyD (World K V) Bool} {o : K → V → Except PyErr Bool} {d : Nat} (hp : ∀ k v, Answers d (p k v) (o k v)) (t : Tree K V) :
    ∃ n, ∀ {w : World K V} {r : Ref} {as : List Nat}, Holds w.heap r t as →
    Shares n (MapHeap.filter p r) w [] ((MapTree.filter (fun k v => (Py.ofExcept (o k v) : Py Unit _)) t).exec ()).1 := by
  obtain ⟨n, hn⟩ := filterAux_gives (fun k v w => gives_of (hp k v) w) (t := t) .nothing
  exact ⟨n, fun h => shares_of (hn h .nothing (by simp))⟩

/-- **C129.** So does partitioning: two maps. -/
theorem C129_partition [PyOrd K] {p : K → V → PyD (World K V) Bool} {o : K → V → Except PyErr Bool} {d : Nat} (hp : ∀ k v, Answers d (p k v) (o k v))
    {w : World K V} {r : Ref} {t : Tree K V} {as : List Nat} (h : Holds w.heap r t as) :
    match ((MapTree.partition (fun k v => (Py.ofExcept (o k v) : Py Unit _)) t).exec ()).1 with
    | .ok (t1, t2) => ∃ r1 r2 as1 as2 w' new, (MapHeap.partition p r).exec w = some (.ok (r1, r2), w') ∧ Made new w w' ∧
        Holds w'.heap r1 t1 as1 ∧ Holds w'.heap r2 t2 as2 ∧ ∀ a, a ∈ as1 ∨ a ∈ as2 → a ∈ new
    | .error e => ∃ w' new, (MapHeap.partition p r).exec w = some (.error e, w') ∧ Made new w w' := by
  obtain ⟨n, hn⟩ := partitionAux_gives (fun k v w => gives_of (hp k v) w) (t := t) (.nothing, .nothing)
  have q := hn h (s := (none, none)) (bs := []) (os := []) ⟨[], [], .nothing, .nothing, by simp⟩ (by simp)
  have e : ((MapTree.partition (fun k v => (Py.ofExcept (o k v) : Py Unit _)) t).exec ()).1 = val (MapTree.partitionAux (fun k v => Py.ofExcept (o k v)) t (.nothing, .nothing)) := rfl
  rw [e]
  revert q
  generalize val (MapTree.partitionAux (fun k v => Py.ofExcept (o k v)) t (.nothing, .nothing)) = res
  intro q
  rcases res with er | ⟨t1, t2⟩
  · obtain ⟨w', new, q1, q2, _⟩ := q; exact ⟨w', new, q1, q2⟩
  · obtain ⟨⟨r1, r2⟩, w', new, as', q1, q2, _, ⟨xs, ys, q3, q4, q5⟩, q6⟩ := q
    exact ⟨r1, r2, xs, ys, w', new, q1, q2, q3, q4, fun a ha => (q6 a ((q5 a).2 ha)).resolve_left (by simp)⟩

/-- **C129.** Looking up a key makes no node, and finds what is in the tree, whatever others do meanwhile. -/
theorem C129_tryFind [PyOrd K] (k : K) {w : World K V} {r : Ref} {t : Tree K V} {as : List Nat} (h : Holds w.heap r t as) :
    ∃ w', (MapHeap.tryFind k r).exec w = some (.ok (MapTree.tryFind k t), w') ∧ Made [] w w' := by
  obtain ⟨a, w', new, _, h1, h2, h3, ⟨rfl, _⟩, _⟩ := tryFind_gives k h
  cases List.length_eq_zero_iff.1 (Nat.le_zero.1 h3)
  exact ⟨w', h1, h2⟩

/-- **C129.** In maps made by insertions that is logarithmic in the number of pairs. -/
theorem C129_logarithmic [PyOrd K] [LawfulPyOrd K] (k : K) (v : V) {m : Map K V} (hm : Grown m) {w : World K V} {r : Ref} {as : List Nat} (h : Holds w.heap r m.tree as) :
    Shares (3 * depthBound m.len + 1) (MapHeap.add k v r) w as (MapTree.add k v m.tree) ∧
    Shares (3 * depthBound m.len) (MapHeap.remove k r) w as (MapTree.remove k m.tree) := by
  have hd : depth m.tree ≤ depthBound m.len :=
    (Nat.le_log2 (Nat.pos_iff_ne_zero.1 (Nat.pow_pos (Nat.succ_pos _)))).2 (C05_insertion_built_balanced m hm).2.1
  exact ⟨shares_of ((add_gives k v h (fun _ h => h)).weaken (by omega) (fun _ h => h)), shares_of ((remove_gives k h (fun _ h => h)).weaken (by omega) (fun _ h => h))⟩

private theorem onHeap_shares [PyOrd K] (u : Update K V) {w : World K V} {r : Ref} {t : Tree K V} {as : List Nat} (h : Holds w.heap r t as) :
    Gives Holds (3 * depth t + 1) (u.onHeap r) w as (u.onTree t) := by
  cases u with
  | add k v => exact add_gives k v h (fun _ h => h)
  | remove k => exact (remove_gives k h (fun _ h => h)).weaken (by omega) (fun _ h => h)

/-- **C129.** A program may keep every map it has made and update any of them at any time: each is what it was when it was made, and the nodes
made are at most three for each level of a map and one, for each update. -/
theorem C129_history [PyOrd K] (us : List (Nat × Update K V)) : ∀ {rs : List Ref} {ts ts' : List (Tree K V)} {w : World K V}, AllHold w.heap rs ts →
    historyOnTrees us ts = .ok ts' → ∀ (D : Nat), (∀ t ∈ ts', depth t ≤ D) →
    ∃ rs' w' new, (historyOnHeap us rs).exec w = some (.ok rs', w') ∧ rs <+: rs' ∧ ts <+: ts' ∧ AllHold w'.heap rs' ts' ∧ Made new w w' ∧
      new.length ≤ us.length * (3 * D + 1) := by
  induction us with
  | nil =>
    intro rs ts ts' w h e D _
    cases e
    exact ⟨rs, w, [], rfl, List.prefix_refl _, List.prefix_refl _, h, ⟨Kept.refl _, by simp⟩, by simp⟩
  | cons iu us ih =>
    obtain ⟨i, u⟩ := iu
    intro rs ts ts' w h e D hD
    simp only [historyOnTrees, historyOnHeap] at e ⊢
    cases e1 : rs[i]? with
    | none =>
      have e2 : ts[i]? = none := by
        rw [List.getElem?_eq_none_iff] at e1 ⊢; rw [← h.1]; exact e1
      rw [e2] at e
      obtain ⟨rs', w', new, q⟩ := ih h e D hD
      exact ⟨rs', w', new, q.1, q.2.1, q.2.2.1, q.2.2.2.1, q.2.2.2.2.1, Nat.le_trans q.2.2.2.2.2 (Nat.mul_le_mul_right _ (by simp))⟩
    | some r =>
      have hi : i < ts.length := by
        rw [← h.1]; exact (List.getElem?_eq_some_iff.1 e1).1
      have e2 : ts[i]? = some ts[i] := List.getElem?_eq_getElem hi
      rw [e2] at e
      obtain ⟨as, ha⟩ := h.2 i r _ e1 e2
      have g := onHeap_shares u ha
      simp only at e ⊢
      cases e3 : u.onTree ts[i] with
      | error er => rw [e3] at e; cases e
      | ok t' =>
        rw [e3] at e g
        obtain ⟨r', w1, new1, as', g1, g2, g3, g4, _⟩ := g
        have h1 : AllHold w1.heap (rs ++ [r']) (ts ++ [t']) := by
          refine ⟨by simp [h.1], fun j r t a b => ?_⟩
          rcases Nat.lt_trichotomy j rs.length with q | q | q
          · rw [List.getElem?_append_left q] at a
            rw [List.getElem?_append_left (by rw [← h.1]; exact q)] at b
            obtain ⟨as, x⟩ := h.2 j r t a b
            exact ⟨as, x.mono g2.1⟩
          · subst q
            simp only [List.getElem?_concat_length, Option.some.injEq] at a
            rw [h.1] at b
            simp only [List.getElem?_concat_length, Option.some.injEq] at b
            subst a b
            exact ⟨as', g4⟩
          · rw [List.getElem?_eq_none (by simp; omega)] at a; cases a
        obtain ⟨rs', w', new, q1, q2, q3, q4, q5, q6⟩ := ih h1 e D hD
        have hd : depth ts[i] ≤ D := hD _ (q3.subset (by simp))
        refine ⟨rs', w', new1 ++ new, by rw [PyD.exec_bind, g1]; exact q1, (List.prefix_append _ _).trans q2, (List.prefix_append _ _).trans q3, q4, g2.trans q5, ?_⟩
        simp only [List.length_append, List.length_cons, Nat.add_mul, Nat.one_mul]
        simp only [Nat.mul_add, Nat.mul_one] at q6 ⊢
        omega

/-- three nodes, one of which another thread has made; others go on making nodes before every step of ours -/
private def someWorld : World Int String where
  heap := [.leaf 1 "a", .node 2 "b" (some 0) (some 2) 2, .leaf 3 "c"]
  mine := []
  others i := [.leaf (Int.ofNat i) "junk"]
  clock := 0

private theorem some_holds : Holds someWorld.heap (some 1) (.node 2 "b" (.leaf 1 "a") (.leaf 3 "c") 2) [1, 0, 2] :=
  .node (l := some 0) (r := some 2) (as := [0]) (bs := [2]) rfl (.leaf rfl) (.leaf rfl)

example : ∃ r as w' new, (MapHeap.add 4 "d" (some 1)).exec someWorld = some (.ok r, w') ∧ Made new someWorld w' ∧ new.length ≤ 7 ∧
    Holds w'.heap r (.node 2 "b" (.leaf 1 "a") (.node 4 "d" (.leaf 3 "c") .nothing 2) 3) as ∧ Holds w'.heap (some 1) (.node 2 "b" (.leaf 1 "a") (.leaf 3 "c") 2) [1, 0, 2] := by
  obtain ⟨r, as, w', new, h1, h2, h3, h4, _⟩ := C129_add 4 "d" some_holds
  exact ⟨r, as, w', new, h1, h2, h3, h4, C129_old_maps_remain h2.1 some_holds⟩

example : ∃ u : Option String → PyD (World Int String) (Option String), ∀ x, Answers 1 (u x) (.ok (x.map (· ++ "!"))) :=
  ⟨fun x => do let _ ← alloc (.leaf 0 ""); pure (x.map (· ++ "!")), fun x w =>
    ⟨_, [w.wait.heap.length], rfl, ⟨(kept_wait w).trans (Kept.append _ _), rfl⟩, by simp⟩⟩

/-- the first map updated twice, in two ways -/
example : ∃ rs' w' new, (historyOnHeap [(0, .add 4 "d"), (0, .remove 1)] [some 1]).exec someWorld = some (.ok rs', w') ∧ [some 1] <+: rs' ∧
    AllHold w'.heap rs' [.node 2 "b" (.leaf 1 "a") (.leaf 3 "c") 2, .node 2 "b" (.leaf 1 "a") (.node 4 "d" (.leaf 3 "c") .nothing 2) 3, .node 2 "b" .nothing (.leaf 3 "c") 2] ∧
    Made new someWorld w' ∧ new.length ≤ 2 * (3 * 3 + 1) := by
  obtain ⟨rs', w', new, h1, h2, _, h4, h5, h6⟩ := C129_history [(0, .add 4 "d"), (0, .remove 1)] (rs := [some 1]) (w := someWorld)
    (ts := [.node 2 "b" (.leaf 1 "a") (.leaf 3 "c") 2])
    (ts' := [.node 2 "b" (.leaf 1 "a") (.leaf 3 "c") 2, .node 2 "b" (.leaf 1 "a") (.node 4 "d" (.leaf 3 "c") .nothing 2) 3, .node 2 "b" .nothing (.leaf 3 "c") 2])
    ⟨rfl, fun i r t a b => by
      match i with
      | 0 => simp at a b; subst a b; exact ⟨_, some_holds⟩
      | i + 1 => simp at a⟩ rfl 3 (by decide)
  exact ⟨rs', w', new, h1, h2, h4, h5, h6⟩

/-! ## C130 -/

/-- **C130.** A loop over a map calls its body with the pairs that the map had when the loop began, in order, until the body breaks, raises or hangs, whatever
the body and others do to maps meanwhile; and the loop raises and hangs only where the body does. -/
theorem C130_loop {C : Type} {body : C → K × V → PyD (World K V) (Flow C)} (hb : ∀ c x w r, (body c x).exec w = some r → Kept w.heap r.2.heap)
    {w : World K V} {m : Ref} {t : Tree K V} {as : List Nat} (h : Holds w.heap m t as) (c : C) :
    Loop body (MapTree.toList t) c w (((iterable m).forLoop body c).exec w) := by
  rw [toList_eq]
  exact forLoop_spec hb h c

/-- **C130.** A loop whose body always returns collects all pairs. -/
theorem C130_collect {body : K × V → PyD (World K V) Unit} (hb : ∀ x w r, (body x).exec w = some r → Kept w.heap r.2.heap)
    {w : World K V} (hr : ∀ x w1, Kept w.heap w1.heap → ∃ w', (body x).exec w1 = some (.ok (), w')) {m : Ref} {t : Tree K V} {as : List Nat} (h : Holds w.heap m t as) :
    ∃ w', ((iterable m).forLoop (fun acc x => do body x; pure (.next (acc ++ [x]))) []).exec w = some (.ok (MapTree.toList t), w') ∧ Holds w'.heap m t as := by
  have hb' : ∀ (acc : List (K × V)) x w1, Kept w.heap w1.heap →
      ∃ w', (do body x; pure (Flow.next (acc ++ [x])) : PyD (World K V) _).exec w1 = some (.ok (.next (acc ++ [x])), w') ∧ Kept w1.heap w'.heap := by
    intro acc x w1 k
    obtain ⟨w', e⟩ := hr x w1 k
    exact ⟨w', by rw [PyD.exec_bind, e]; rfl, hb _ _ _ e⟩
  have key : ∀ (xs acc : List (K × V)) (w1 : World K V) res, Loop (fun acc x => do body x; pure (Flow.next (acc ++ [x]))) xs acc w1 res →
      Kept w.heap w1.heap → ∃ w', res = some (.ok (acc ++ xs), w') ∧ Kept w.heap w'.heap := by
    intro xs acc w1 res l
    induction l with
    | done k => exact fun k' => ⟨_, by simp, k'.trans k⟩
    | @next x xs c c' w1 w2 w3 res k e _ ih =>
      intro q
      obtain ⟨w', e', k'⟩ := hb' c x w2 (q.trans k)
      rw [e'] at e; cases e
      obtain ⟨w3, e3, k3⟩ := ih (q.trans (k.trans k'))
      exact ⟨w3, by simpa using e3, k3⟩
    | @stop x xs c c' w1 w2 w3 k e =>
      intro q
      obtain ⟨w', e', k'⟩ := hb' c x w2 (q.trans k)
      rw [e'] at e; cases e
    | @raises x xs c er w1 w2 w3 k e =>
      intro q
      obtain ⟨w', e', k'⟩ := hb' c x w2 (q.trans k)
      rw [e'] at e; cases e
    | @hangs x xs c w1 w2 k e =>
      intro q
      obtain ⟨w', e', k'⟩ := hb' c x w2 (q.trans k)
      rw [e'] at e; cases e
  have l := C130_loop (body := fun acc x => do body x; pure (Flow.next (acc ++ [x])))
    (fun c x => keeps_bind (hb x) (fun _ => keeps_pure _)) h []
  obtain ⟨w', e, k⟩ := key _ _ _ _ l (Kept.refl _)
  exact ⟨w', by simpa using e, h.mono k⟩

/-- The body removes the key from the map that the loop goes over. -/
example : ∃ w', ((iterable (some 1)).forLoop (fun acc (x : Int × String) => do (do let _ ← MapHeap.remove x.1 (some 1)); pure (.next (acc ++ [x]))) []).exec someWorld
    = some (.ok [(1, "a"), (2, "b"), (3, "c")], w') ∧ Holds w'.heap (some 1) (.node 2 "b" (.leaf 1 "a") (.leaf 3 "c") 2) [1, 0, 2] := by
  refine C130_collect (body := fun x => do let _ ← MapHeap.remove x.1 (some 1)) (fun x => keeps_bind (keeps_remove _ _) (fun _ => keeps_pure _)) ?_ some_holds
  intro x w1 k
  have q := C129_remove x.1 (some_holds.mono k)
  cases e : MapTree.remove x.1 (.node (2 : Int) "b" (.leaf 1 "a") (.leaf 3 "c") 2) with
  | ok t =>
    rw [e] at q
    obtain ⟨r, as, w', new, q1, _⟩ := q
    exact ⟨w', by rw [PyD.exec_bind, q1]; rfl⟩
  | error er =>
    exfalso
    revert e
    simp only [MapTree.remove, MapTree.rebalance, MapTree.isEmpty, MapTree.spliceOutSuccessor]
    by_cases h2 : PyOrd.lt x.1 (2 : Int) = true <;> by_cases h3 : PyOrd.eq x.1 (2 : Int) = true <;>
      by_cases h4 : PyOrd.eq x.1 (1 : Int) = true <;> by_cases h5 : PyOrd.eq x.1 (3 : Int) = true <;> simp [h2, h3, h4, h5, MapTree.height, TOLERANCE, bind, Except.bind]

end Expression.Props
