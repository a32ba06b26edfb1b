import Verif.Lemmas.MapHeap
import Verif.Lemmas.Seq2

/-! # Maps in a heap: no function changes a node; loops over maps -/

namespace Expression.Lemmas.MapHeap

open Expression MapTree MapHeap Spec Spec.MapHeap

variable {K V α β γ δ C : Type}

/-- existing nodes remain as they are -/
def Keeps (p : PyD (World K V) α) : Prop := ∀ w r, p.exec w = some r → Kept w.heap r.2.heap

theorem keeps_pure (a : α) : Keeps (pure a : PyD (World K V) α) := by
  intro w r h; cases h; exact Kept.refl _

theorem keeps_raise (e : PyErr) : Keeps (PyD.raise e : PyD (World K V) α) := by
  intro w r h; cases h; exact Kept.refl _

theorem keeps_bind {p : PyD (World K V) α} {f : α → PyD (World K V) β} (hp : Keeps p) (hf : ∀ a, Keeps (f a)) : Keeps (p >>= f) := by
  intro w r h
  rcases exec_bind_some h with ⟨e, h1, _⟩ | ⟨a, w1, h1, h2⟩
  · exact hp _ _ h1
  · exact (hp _ _ h1).trans (hf a _ _ h2)

theorem keeps_read (a : Nat) : Keeps (MapHeap.read a : PyD (World K V) _) := by
  intro w r h
  simp only [MapHeap.read, PyD.exec] at h
  split at h <;> cases h <;> exact kept_wait w

theorem keeps_alloc (c : Cell K V) : Keeps (alloc c) := by
  intro w r h
  cases h
  exact (kept_wait w).trans (Kept.append _ _)

theorem keeps_look (m : Ref) : Keeps (look m : PyD (World K V) _) := by
  cases m with
  | none => exact keeps_pure _
  | some a => exact keeps_bind (keeps_read a) (fun _ => keeps_pure _)

theorem keeps_value (m : Ref) : Keeps (value m : PyD (World K V) _) := by
  cases m with
  | none => exact keeps_raise _
  | some a => exact keeps_read a

/-- go through a function -/
syntax "keeps_tac" term,* : tactic
macro_rules
  | `(tactic| keeps_tac $ts,*) => `(tactic| repeat' (first
      | exact keeps_pure _ | exact keeps_raise _ | exact keeps_alloc _ | exact keeps_look _ | exact keeps_value _
      $[| exact $ts]* | refine keeps_bind ?_ (fun _ => ?_) | split))

theorem keeps_height (m : Ref) : Keeps (MapHeap.height m : PyD (World K V) _) := by
  unfold MapHeap.height
  keeps_tac

theorem keeps_mk (l : Ref) (k : K) (v : V) (r : Ref) : Keeps (MapHeap.mk l k v r) := by
  simp only [MapHeap.mk]
  keeps_tac (keeps_height _)

theorem keeps_rebalance (l : Ref) (k : K) (v : V) (r : Ref) : Keeps (MapHeap.rebalance l k v r) := by
  unfold MapHeap.rebalance
  keeps_tac (keeps_height _), (keeps_mk _ _ _ _)

theorem keeps_splice (m : Ref) : Keeps (MapHeap.spliceOutSuccessor m : PyD (World K V) _) := by
  revert m
  refine MapHeap.spliceOutSuccessor.fixpoint_induct (fun f => ∀ m w r, (f m).exec w = some r → Kept w.heap r.2.heap)
    (PyD.admissible_post1 (σ := World K V) (fun _ w r => Kept w.heap r.2.heap)) (fun f ih => ?_)
  intro m
  change Keeps _
  have ih' : ∀ m, Keeps (f m) := ih
  keeps_tac (ih' _), (keeps_mk _ _ _ _)

theorem keeps_map {f : K → V → PyD (World K V) V} (hf : ∀ k v, Keeps (f k v)) (m : Ref) : Keeps (MapHeap.map f m) := by
  revert m
  refine MapHeap.map.fixpoint_induct f (fun f => ∀ m w r, (f m).exec w = some r → Kept w.heap r.2.heap)
    (PyD.admissible_post1 (σ := World K V) (fun _ w r => Kept w.heap r.2.heap)) (fun g ih => ?_)
  intro m
  change Keeps _
  have ih' : ∀ m, Keeps (g m) := ih
  keeps_tac (ih' _), (hf _ _)

theorem keeps_collapse (s : List Ref) : Keeps (MapHeap.collapseLHS s : PyD (World K V) _) := by
  revert s
  refine MapHeap.collapseLHS.fixpoint_induct (fun f => ∀ m w r, (f m).exec w = some r → Kept w.heap r.2.heap)
    (PyD.admissible_post1 (σ := World K V) (fun _ w r => Kept w.heap r.2.heap)) (fun g ih => ?_)
  intro m
  change Keeps _
  have ih' : ∀ m, Keeps (g m) := ih
  cases m <;> simp only <;> keeps_tac (ih' _)

theorem keeps_next (s : List Ref) : Keeps (MapHeap.iterNext s : PyD (World K V) _) := by
  cases s <;> simp only [MapHeap.iterNext] <;> keeps_tac (keeps_collapse _)

section
variable [PyOrd K]

theorem keeps_add (k : K) (v : V) (m : Ref) : Keeps (MapHeap.add k v m) := by
  revert m
  refine MapHeap.add.fixpoint_induct k v (fun f => ∀ m w r, (f m).exec w = some r → Kept w.heap r.2.heap)
    (PyD.admissible_post1 (σ := World K V) (fun _ w r => Kept w.heap r.2.heap)) (fun g ih => ?_)
  intro m
  change Keeps _
  have ih' : ∀ m, Keeps (g m) := ih
  keeps_tac (ih' _), (keeps_rebalance _ _ _ _)

theorem keeps_tryFind (k : K) (m : Ref) : Keeps (MapHeap.tryFind k m : PyD (World K V) _) := by
  revert m
  refine MapHeap.tryFind.fixpoint_induct k (fun f => ∀ m w r, (f m).exec w = some r → Kept w.heap r.2.heap)
    (PyD.admissible_post1 (σ := World K V) (fun _ w r => Kept w.heap r.2.heap)) (fun g ih => ?_)
  intro m
  change Keeps _
  have ih' : ∀ m, Keeps (g m) := ih
  keeps_tac (ih' _)

theorem keeps_remove (k : K) (m : Ref) : Keeps (MapHeap.remove k m : PyD (World K V) _) := by
  revert m
  refine MapHeap.remove.fixpoint_induct k (fun f => ∀ m w r, (f m).exec w = some r → Kept w.heap r.2.heap)
    (PyD.admissible_post1 (σ := World K V) (fun _ w r => Kept w.heap r.2.heap)) (fun g ih => ?_)
  intro m
  change Keeps _
  have ih' : ∀ m, Keeps (g m) := ih
  keeps_tac (ih' _), (keeps_rebalance _ _ _ _), (keeps_splice _), (keeps_mk _ _ _ _)

theorem keeps_change (k : K) {u : Option V → PyD (World K V) (Option V)} (hu : ∀ x, Keeps (u x)) (m : Ref) : Keeps (MapHeap.change k u m) := by
  revert m
  refine MapHeap.change.fixpoint_induct k u (fun f => ∀ m w r, (f m).exec w = some r → Kept w.heap r.2.heap)
    (PyD.admissible_post1 (σ := World K V) (fun _ w r => Kept w.heap r.2.heap)) (fun g ih => ?_)
  intro m
  change Keeps _
  have ih' : ∀ m, Keeps (g m) := ih
  keeps_tac (ih' _), (keeps_rebalance _ _ _ _), (keeps_splice _), (keeps_mk _ _ _ _), (hu _)

theorem keeps_filter1 {f : K → V → PyD (World K V) Bool} (hf : ∀ k v, Keeps (f k v)) (k : K) (v : V) (acc : Ref) : Keeps (MapHeap.filter1 f k v acc) := by
  unfold MapHeap.filter1
  keeps_tac (keeps_add _ _ _), (hf _ _)

theorem keeps_filterAux {f : K → V → PyD (World K V) Bool} (hf : ∀ k v, Keeps (f k v)) (m acc : Ref) : Keeps (MapHeap.filterAux f m acc) := by
  revert m acc
  refine MapHeap.filterAux.fixpoint_induct f (fun f => ∀ m acc w r, (f m acc).exec w = some r → Kept w.heap r.2.heap)
    (PyD.admissible_post2 (σ := World K V) (fun _ _ w r => Kept w.heap r.2.heap)) (fun g ih => ?_)
  intro m acc
  change Keeps _
  have ih' : ∀ m acc, Keeps (g m acc) := ih
  keeps_tac (ih' _ _), (keeps_filter1 hf _ _ _)

theorem keeps_partition1 {f : K → V → PyD (World K V) Bool} (hf : ∀ k v, Keeps (f k v)) (k : K) (v : V) (acc : Ref × Ref) : Keeps (MapHeap.partition1 f k v acc) := by
  unfold MapHeap.partition1
  keeps_tac (keeps_add _ _ _), (hf _ _)

theorem keeps_partitionAux {f : K → V → PyD (World K V) Bool} (hf : ∀ k v, Keeps (f k v)) (m : Ref) (acc : Ref × Ref) : Keeps (MapHeap.partitionAux f m acc) := by
  revert m acc
  refine MapHeap.partitionAux.fixpoint_induct f (fun f => ∀ m acc w r, (f m acc).exec w = some r → Kept w.heap r.2.heap)
    (PyD.admissible_post2 (σ := World K V) (fun _ _ w r => Kept w.heap r.2.heap)) (fun g ih => ?_)
  intro m acc
  change Keeps _
  have ih' : ∀ m acc, Keeps (g m acc) := ih
  keeps_tac (ih' _ _), (keeps_partition1 hf _ _ _)

end

/-! ## `map` and `filter` -/

theorem map_gives {f : K → V → PyD (World K V) V} {o : K → V → Except PyErr V} {d : Nat} (hf : ∀ k v w, Gives Same d (f k v) w [] (o k v))
    {t : Tree K V} : ∀ {w : World K V} {r : Ref} {as : List Nat}, Holds w.heap r t as →
    Gives Holds ((inorder t).length * (d + 1)) (MapHeap.map f r) w [] (val (MapTree.map (fun k v => Py.ofExcept (o k v)) t)) := by
  have hf' : ∀ k v w os, Gives Same d (f k v) w os (o k v) := fun k v w os => (hf k v w).weaken (Nat.le_refl _) (by simp)
  induction t with
  | nothing =>
    intro w r as h
    cases h
    rw [MapHeap.map]
    exact gives_read (c := none) (w1 := w) rfl ⟨Kept.refl _, by simp⟩ (Gives.weaken (gives_pure (H := Holds) .nothing (by simp)) (by omega) (fun _ h => h))
  | leaf key old =>
    intro w r as h
    cases h with
    | leaf e =>
    rw [MapHeap.map]
    refine gives_read (look_some e) (made_wait _) ?_
    simp only [MapTree.map, val_bind, val_ofExcept]
    refine Gives.weaken (gives_bind (n := d) (m := 1) (hf' key old _ []) ?_) (by simp [inorder]) (fun _ h => h)
    rintro b a w1 xs q1 q2 ⟨rfl, rfl⟩
    exact alloc_gives fun h' a _ e => ⟨[a], .leaf e, by simp⟩
  | node key old tl tr n il ir =>
    intro w r as h
    cases h with
    | node e hl hr =>
    rw [MapHeap.map]
    refine gives_read (look_some e) (made_wait _) ?_
    replace hl := hl.mono (kept_wait w)
    replace hr := hr.mono (kept_wait w)
    simp only [MapTree.map, val_bind, val_ofExcept]
    refine Gives.weaken (gives_bind (n := (inorder tl).length * (d + 1)) (m := d + ((inorder tr).length * (d + 1) + 1)) (il hl) ?_) ?_ (fun _ h => h)
    · intro l2 a w1 xs q1 q2 q3
      refine gives_bind (hf' key old _ _) ?_
      rintro b a w2 ys p1 p2 ⟨rfl, rfl⟩
      refine gives_bind ((ir (hr.mono (q2.trans p2))).weaken (Nat.le_refl _) (by simp)) ?_
      intro r2 c w3 zs s1 s2 s3
      refine alloc_gives fun h' x q e' => ⟨_, .node e' (q3.mono (p2.trans (s2.trans q))) (s3.mono q), ?_⟩
      intro x hx
      simp only [List.mem_cons, List.mem_append] at hx ⊢
      rcases hx with h | h | h <;> simp [h]
    · simp only [inorder, List.length_append, List.length_cons, Nat.add_mul, Nat.mul_add]
      omega

section
variable [PyOrd K]

theorem filterAux_gives {f : K → V → PyD (World K V) Bool} {o : K → V → Except PyErr Bool} {d : Nat} (hf : ∀ k v w, Gives Same d (f k v) w [] (o k v))
    {t : Tree K V} : ∀ (acc : Tree K V), ∃ n, ∀ {w : World K V} {r s : Ref} {as bs os : List Nat}, Holds w.heap r t as → Holds w.heap s acc bs → (∀ x ∈ bs, x ∈ os) →
    Gives Holds n (MapHeap.filterAux f r s) w os (val (MapTree.filterAux (fun k v => Py.ofExcept (o k v)) t acc)) := by
  have one : ∀ (k : K) (v : V) (acc : Tree K V), ∃ n, ∀ {w : World K V} {s : Ref} {bs os : List Nat}, Holds w.heap s acc bs → (∀ x ∈ bs, x ∈ os) →
      Gives Holds n (MapHeap.filter1 f k v s) w os (val (MapTree.filter1 (fun k v => Py.ofExcept (o k v)) k v acc)) := by
    intro k v acc
    refine ⟨d + (3 * depth acc + 1), fun {w s bs os} h ho => ?_⟩
    simp only [MapTree.filter1, val_bind, val_ofExcept]
    refine gives_bind ((hf k v w).weaken (Nat.le_refl _) (by simp)) ?_
    rintro b a w1 xs q1 q2 ⟨rfl, rfl⟩
    cases a with
    | true => exact add_gives k v (h.mono q2) (by simpa using ho)
    | false => exact Gives.weaken (gives_pure (h.mono q2) (by simpa using ho)) (by omega) (fun _ h => h)
  induction t with
  | nothing =>
    intro acc
    refine ⟨0, fun {w r s as bs os} h h2 ho => ?_⟩
    cases h
    rw [MapHeap.filterAux]
    exact gives_read (c := none) (w1 := w) rfl ⟨Kept.refl _, by simp⟩ (gives_pure h2 ho)
  | leaf key old =>
    intro acc
    obtain ⟨n, hn⟩ := one key old acc
    refine ⟨n, fun {w r s as bs os} h h2 ho => ?_⟩
    cases h with
    | leaf e =>
    rw [MapHeap.filterAux]
    exact gives_read (look_some e) (made_wait _) (hn (h2.mono (kept_wait w)) ho)
  | node key old tl tr n il ir =>
    intro acc
    obtain ⟨n1, h1⟩ := il acc
    obtain ⟨n2, h2⟩ : ∃ n, ∀ acc1, val (MapTree.filterAux (fun k v => Py.ofExcept (o k v)) tl acc) = .ok acc1 →
        ∀ {w : World K V} {s : Ref} {bs os : List Nat}, Holds w.heap s acc1 bs → (∀ x ∈ bs, x ∈ os) →
        Gives Holds n (MapHeap.filter1 f key old s) w os (val (MapTree.filter1 (fun k v => Py.ofExcept (o k v)) key old acc1)) := by
      cases e : val (MapTree.filterAux (fun k v => Py.ofExcept (o k v)) tl acc) with
      | error => exact ⟨0, fun _ h => by cases h⟩
      | ok acc1 => obtain ⟨n, hn⟩ := one key old acc1; exact ⟨n, fun _ h => by cases h; exact hn⟩
    obtain ⟨n3, h3⟩ : ∃ n, ∀ acc2, (val (MapTree.filterAux (fun k v => Py.ofExcept (o k v)) tl acc) >>= fun acc1 => val (MapTree.filter1 (fun k v => Py.ofExcept (o k v)) key old acc1)) = .ok acc2 →
        ∀ {w : World K V} {r s : Ref} {as bs os : List Nat}, Holds w.heap r tr as → Holds w.heap s acc2 bs → (∀ x ∈ bs, x ∈ os) →
        Gives Holds n (MapHeap.filterAux f r s) w os (val (MapTree.filterAux (fun k v => Py.ofExcept (o k v)) tr acc2)) := by
      cases e : (val (MapTree.filterAux (fun k v => Py.ofExcept (o k v)) tl acc) >>= fun acc1 => val (MapTree.filter1 (fun k v => Py.ofExcept (o k v)) key old acc1)) with
      | error => exact ⟨0, fun _ h => by cases h⟩
      | ok acc2 => obtain ⟨n, hn⟩ := ir acc2; exact ⟨n, fun _ h => by cases h; exact hn⟩
    refine ⟨n1 + (n2 + n3), fun {w r s as bs os} h h4 ho => ?_⟩
    cases h with
    | node e hl hr =>
    rw [MapHeap.filterAux]
    refine gives_read (look_some e) (made_wait _) ?_
    simp only [MapTree.filterAux, val_bind]
    refine gives_bind (h1 (hl.mono (kept_wait w)) (h4.mono (kept_wait w)) ho) ?_
    intro b a w1 xs q1 q2 q3
    refine gives_bind (h2 b q1 q3 (fun x hx => by simp [hx])) ?_
    intro c a w1 xs p1 p2 p3
    exact h3 c (by rw [q1]; exact p1) (hr.mono ((kept_wait w).trans (q2.trans p2))) p3 (fun x hx => by simp [hx])

/-- two references -/
def HoldsTwo (h : List (Cell K V)) (a : Ref × Ref) (b : Tree K V × Tree K V) (as : List Nat) : Prop :=
  ∃ xs ys, Holds h a.1 b.1 xs ∧ Holds h a.2 b.2 ys ∧ ∀ x, x ∈ as ↔ x ∈ xs ∨ x ∈ ys

omit [PyOrd K] in
theorem HoldsTwo.mono {h h' : List (Cell K V)} (k : Kept h h') {a : Ref × Ref} {b : Tree K V × Tree K V} {as : List Nat} (e : HoldsTwo h a b as) : HoldsTwo h' a b as := by
  obtain ⟨xs, ys, e1, e2, e3⟩ := e
  exact ⟨xs, ys, e1.mono k, e2.mono k, e3⟩

theorem partitionAux_gives {f : K → V → PyD (World K V) Bool} {o : K → V → Except PyErr Bool} {d : Nat} (hf : ∀ k v w, Gives Same d (f k v) w [] (o k v))
    {t : Tree K V} : ∀ (acc : Tree K V × Tree K V), ∃ n, ∀ {w : World K V} {r : Ref} {s : Ref × Ref} {as bs os : List Nat}, Holds w.heap r t as → HoldsTwo w.heap s acc bs → (∀ x ∈ bs, x ∈ os) →
    Gives HoldsTwo n (MapHeap.partitionAux f r s) w os (val (MapTree.partitionAux (fun k v => Py.ofExcept (o k v)) t acc)) := by
  have one : ∀ (k : K) (v : V) (acc : Tree K V × Tree K V), ∃ n, ∀ {w : World K V} {s : Ref × Ref} {bs os : List Nat}, HoldsTwo w.heap s acc bs → (∀ x ∈ bs, x ∈ os) →
      Gives HoldsTwo n (MapHeap.partition1 f k v s) w os (val (MapTree.partition1 (fun k v => Py.ofExcept (o k v)) k v acc)) := by
    rintro k v ⟨t1, t2⟩
    refine ⟨d + (3 * depth t1 + 3 * depth t2 + 1), fun {w s bs os} h ho => ?_⟩
    simp only [MapTree.partition1, val_bind, val_ofExcept]
    refine gives_bind ((hf k v w).weaken (Nat.le_refl _) (by simp)) ?_
    rintro b a w1 zs q1 q2 ⟨rfl, rfl⟩
    obtain ⟨xs, ys, e1, e2, e3⟩ := HoldsTwo.mono q2 h
    cases a with
    | true =>
      simp only [if_true, val_bind, val_ofExcept]
      refine Gives.weaken (gives_bind (n := 3 * depth t1 + 1) (m := 0) (add_gives k v e1 (os := os) (fun x hx => ho x ((e3 x).2 (.inl hx)))) ?_) (by omega) (by simp)
      intro b c w2 us p1 p2 p3
      refine gives_pure (as := us ++ ys) (b := (b, t2)) ⟨us, ys, p3, e2.mono p2, by simp⟩ ?_
      intro x hx
      simp only [List.mem_append] at hx ⊢
      exact hx.imp id (fun h => ho x ((e3 x).2 (.inr h)))
    | false =>
      simp only [Bool.false_eq_true, if_false, val_bind, val_ofExcept]
      refine Gives.weaken (gives_bind (n := 3 * depth t2 + 1) (m := 0) (add_gives k v e2 (os := os) (fun x hx => ho x ((e3 x).2 (.inr hx)))) ?_) (by omega) (by simp)
      intro b c w2 us p1 p2 p3
      refine gives_pure (as := us ++ xs) (b := (t1, b)) ⟨xs, us, e1.mono p2, p3, by simp [or_comm]⟩ ?_
      intro x hx
      simp only [List.mem_append] at hx ⊢
      exact hx.imp id (fun h => ho x ((e3 x).2 (.inl h)))
  induction t with
  | nothing =>
    intro acc
    refine ⟨0, fun {w r s as bs os} h h2 ho => ?_⟩
    cases h
    rw [MapHeap.partitionAux]
    exact gives_read (c := none) (w1 := w) rfl ⟨Kept.refl _, by simp⟩ (gives_pure h2 ho)
  | leaf key old =>
    intro acc
    obtain ⟨n, hn⟩ := one key old acc
    refine ⟨n, fun {w r s as bs os} h h2 ho => ?_⟩
    cases h with
    | leaf e =>
    rw [MapHeap.partitionAux]
    exact gives_read (look_some e) (made_wait _) (hn (HoldsTwo.mono (kept_wait w) h2) ho)
  | node key old tl tr n il ir =>
    intro acc
    obtain ⟨n1, h1⟩ := ir acc
    obtain ⟨n2, h2⟩ : ∃ n, ∀ acc1, val (MapTree.partitionAux (fun k v => Py.ofExcept (o k v)) tr acc) = .ok acc1 →
        ∀ {w : World K V} {s : Ref × Ref} {bs os : List Nat}, HoldsTwo w.heap s acc1 bs → (∀ x ∈ bs, x ∈ os) →
        Gives HoldsTwo n (MapHeap.partition1 f key old s) w os (val (MapTree.partition1 (fun k v => Py.ofExcept (o k v)) key old acc1)) := by
      cases e : val (MapTree.partitionAux (fun k v => Py.ofExcept (o k v)) tr acc) with
      | error => exact ⟨0, fun _ h => by cases h⟩
      | ok acc1 => obtain ⟨n, hn⟩ := one key old acc1; exact ⟨n, fun _ h => by cases h; exact hn⟩
    obtain ⟨n3, h3⟩ : ∃ n, ∀ acc2, (val (MapTree.partitionAux (fun k v => Py.ofExcept (o k v)) tr acc) >>= fun acc1 => val (MapTree.partition1 (fun k v => Py.ofExcept (o k v)) key old acc1)) = .ok acc2 →
        ∀ {w : World K V} {r : Ref} {s : Ref × Ref} {as bs os : List Nat}, Holds w.heap r tl as → HoldsTwo w.heap s acc2 bs → (∀ x ∈ bs, x ∈ os) →
        Gives HoldsTwo n (MapHeap.partitionAux f r s) w os (val (MapTree.partitionAux (fun k v => Py.ofExcept (o k v)) tl acc2)) := by
      cases e : (val (MapTree.partitionAux (fun k v => Py.ofExcept (o k v)) tr acc) >>= fun acc1 => val (MapTree.partition1 (fun k v => Py.ofExcept (o k v)) key old acc1)) with
      | error => exact ⟨0, fun _ h => by cases h⟩
      | ok acc2 => obtain ⟨n, hn⟩ := il acc2; exact ⟨n, fun _ h => by cases h; exact hn⟩
    refine ⟨n1 + (n2 + n3), fun {w r s as bs os} h h4 ho => ?_⟩
    cases h with
    | node e hl hr =>
    rw [MapHeap.partitionAux]
    refine gives_read (look_some e) (made_wait _) ?_
    simp only [MapTree.partitionAux, val_bind]
    refine gives_bind (h1 (hr.mono (kept_wait w)) (HoldsTwo.mono (kept_wait w) h4) ho) ?_
    intro b a w1 xs q1 q2 q3
    refine gives_bind (h2 b q1 q3 (fun x hx => by simp [hx])) ?_
    intro c a w1 xs p1 p2 p3
    exact h3 c (by rw [q1]; exact p1) (hl.mono ((kept_wait w).trans (q2.trans p2))) p3 (fun x hx => by simp [hx])

end

/-! ## loops -/

/-- a stack of trees -/
inductive HoldsAll (h : List (Cell K V)) : List Ref → List (Tree K V) → Prop where
  | nil : HoldsAll h [] []
  | cons {r s t ts} : (∃ as, Holds h r t as) → HoldsAll h s ts → HoldsAll h (r :: s) (t :: ts)

theorem HoldsAll.mono {h h' : List (Cell K V)} (k : Kept h h') {s : List Ref} {ts : List (Tree K V)} (e : HoldsAll h s ts) : HoldsAll h' s ts := by
  induction e with
  | nil => exact .nil
  | cons q _ ih => exact .cons (q.imp fun _ q => q.mono k) ih

theorem collapse_gives (ts : List (Tree K V)) : ∀ {w : World K V} {s : List Ref}, HoldsAll w.heap s ts →
    ∃ s' w', (MapHeap.collapseLHS s : PyD (World K V) _).exec w = some (.ok s', w') ∧ Kept w.heap w'.heap ∧ HoldsAll w'.heap s' (MapTree.collapseLHS ts) := by
  induction ts using MapTree.collapseLHS.induct with
  | case1 =>
    intro w s h
    cases h
    rw [MapHeap.collapseLHS, MapTree.collapseLHS]
    exact ⟨[], w, rfl, Kept.refl _, .nil⟩
  | case2 key v left right n rest ih =>
    intro w s h
    rcases h with _ | ⟨⟨as, h1⟩, h2⟩
    cases h1 with
    | @node a _ _ l r _ _ _ as bs e hl hr =>
    rename_i s
    obtain ⟨_, w2, _, _, e2, m2, _, h3, _⟩ : Gives Holds 1 (alloc (.leaf key v)) w.wait [] (.ok (.leaf key v)) :=
      alloc_gives fun h' a _ e => ⟨[a], .leaf e, by simp⟩
    have k2 := (kept_wait w).trans m2.1
    obtain ⟨s', w', q1, q2, q3⟩ := ih (w := w2) (s := l :: _ :: r :: s) (.cons ⟨_, hl.mono k2⟩ (.cons ⟨_, h3⟩ (.cons ⟨_, hr.mono k2⟩ (HoldsAll.mono k2 h2))))
    refine ⟨s', w', ?_, k2.trans q2, by rw [MapTree.collapseLHS]; exact q3⟩
    rw [MapHeap.collapseLHS, PyD.exec_bind, look_some e]
    show (alloc (.leaf key v) >>= fun tree => MapHeap.collapseLHS (l :: tree :: r :: s)).exec w.wait = _
    rw [PyD.exec_bind, e2]
    exact q1
  | case3 key v rest =>
    intro w s h
    rcases h with _ | ⟨⟨as, h1⟩, h2⟩
    cases h1 with
    | leaf e =>
    rename_i s a
    refine ⟨some a :: s, w.wait, ?_, kept_wait w, ?_⟩
    · rw [MapHeap.collapseLHS, PyD.exec_bind, look_some e]; rfl
    · rw [MapTree.collapseLHS]
      exact .cons ⟨_, .leaf (kept_wait w _ _ e)⟩ (HoldsAll.mono (kept_wait w) h2)
  | case4 rest ih =>
    intro w s h
    rcases h with _ | ⟨⟨as, h1⟩, h2⟩
    cases h1
    obtain ⟨s', w', q1, q2, q3⟩ := ih h2
    exact ⟨s', w', by rw [MapHeap.collapseLHS, PyD.exec_bind]; exact q1, q2, by rw [MapTree.collapseLHS]; exact q3⟩

theorem loop_spec {body : C → K × V → PyD (World K V) (Flow C)} (hb : ∀ c x, Keeps (body c x)) (m : Ref) : ∀ (n : Nat) (ts : List (Tree K V)), stackWeight ts ≤ n → Collapsed ts →
    ∀ (s : List Ref) (w : World K V) (c : C), HoldsAll w.heap s ts → Loop body (fringe ts) c w (((iterable m).loop body s c).exec w) := by
  intro n
  induction n with
  | zero =>
    intro ts hn hc s w c h
    cases ts with
    | nil =>
      cases h
      rw [Iterable.loop]
      exact .done (Kept.refl _)
    | cons t ts => cases t <;> simp [stackWeight, weight] at hn
  | succ n ih =>
    intro ts hn hc s w c h
    match ts, hc, h with
    | [], _, h =>
      cases h
      rw [Iterable.loop]
      exact .done (Kept.refl _)
    | .leaf k v :: rest, _, h =>
      rcases h with _ | ⟨⟨as, h1⟩, h2⟩
      cases h1 with
      | leaf e =>
      rename_i s a
      obtain ⟨s', w', q1, q2, q3⟩ := collapse_gives rest (HoldsAll.mono (kept_wait w) h2)
      have e1 : ((iterable m).next (some a :: s)).exec w = some (.ok (some ((k, v), s')), w') := by
        show (look (some a) >>= _ : PyD (World K V) _).exec w = _
        rw [PyD.exec_bind, look_some e]
        show (MapHeap.collapseLHS s >>= _ : PyD (World K V) _).exec w.wait = _
        rw [PyD.exec_bind, q1]
        rfl
      rw [Iterable.loop, PyD.exec_bind, e1]
      show Loop body ((k, v) :: fringe rest) c w ((body c (k, v) >>= _ : PyD (World K V) _).exec w')
      rw [PyD.exec_bind]
      have kk := (kept_wait w).trans q2
      rcases hx : (body c (k, v)).exec w' with _ | ⟨er | fl, w2⟩
      · exact .hangs kk hx
      · exact .raises kk hx
      · cases fl with
        | stop c' => exact .stop kk hx
        | next c' =>
          refine .next kk hx ?_
          rw [← fringe_collapseLHS]
          refine ih _ ?_ (collapsed_collapseLHS _) s' w2 c' (HoldsAll.mono (hb _ _ _ _ hx) q3)
          refine Nat.le_trans (stackWeight_collapseLHS rest) ?_
          simp only [stackWeight, List.map_cons, List.sum_cons, weight] at hn ⊢
          omega

theorem forLoop_spec {body : C → K × V → PyD (World K V) (Flow C)} (hb : ∀ c x, Keeps (body c x)) {m : Ref} {t : Tree K V} {as : List Nat} {w : World K V} (h : Holds w.heap m t as) (c : C) :
    Loop body (inorder t) c w (((iterable m).forLoop body c).exec w) := by
  obtain ⟨s', w', q1, q2, q3⟩ := collapse_gives [t] (w := w) (s := [m]) (.cons ⟨_, h⟩ .nil)
  have e : ((iterable m).iter : PyD (World K V) _).exec w = some (.ok s', w') := q1
  rw [Iterable.forLoop, PyD.exec_bind, e]
  have := loop_spec hb m _ _ (Nat.le_refl _) (collapsed_collapseLHS [t]) s' w' c q3
  rw [fringe_collapseLHS] at this
  simp only [fringe, List.flatMap_cons, List.flatMap_nil, List.append_nil] at this
  simp only
  revert this
  generalize ((iterable m).loop body s' c).exec w' = res
  generalize inorder t = xs
  intro h
  cases h with
  | done k => exact .done (q2.trans k)
  | next k e h => exact .next (q2.trans k) e h
  | stop k e => exact .stop (q2.trans k) e
  | raises k e => exact .raises (q2.trans k) e
  | hangs k e => exact .hangs (q2.trans k) e

end Expression.Lemmas.MapHeap
