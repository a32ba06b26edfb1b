import Verif.Spec.MapHeap
import Verif.Lemmas.PyD
import Verif.Lemmas.MapTree

/-! # Maps in a heap: every operation does what the one on trees does -/

namespace Expression.Lemmas.MapHeap

open Expression MapTree MapHeap Spec Spec.MapHeap

variable {K V α β γ δ C : Type}

theorem _root_.Expression.Spec.MapHeap.Kept.refl (h : List (Cell K V)) : Kept h h := fun _ _ e => e
theorem _root_.Expression.Spec.MapHeap.Kept.trans {h1 h2 h3 : List (Cell K V)} (a : Kept h1 h2) (b : Kept h2 h3) : Kept h1 h3 := fun i c e => b i c (a i c e)
theorem _root_.Expression.Spec.MapHeap.Kept.append (h x : List (Cell K V)) : Kept h (h ++ x) := by
  intro a c e
  have : a < h.length := by
    rcases Nat.lt_or_ge a h.length with q | q
    · exact q
    · rw [List.getElem?_eq_none q] at e; cases e
  rw [List.getElem?_append_left this]; exact e

theorem _root_.Expression.Spec.MapHeap.Holds.mono {h h' : List (Cell K V)} (k : Kept h h') {r : Ref} {t : Tree K V} {as : List Nat} (e : Holds h r t as) : Holds h' r t as := by
  induction e with
  | nothing => exact .nothing
  | leaf e => exact .leaf (k _ _ e)
  | node e _ _ i1 i2 => exact .node (k _ _ e) i1 i2

theorem kept_wait (w : World K V) : Kept w.heap w.wait.heap := Kept.append _ _

/-- what a computation comes to: `b` (or an error), with at most `n` new nodes, every node of the result being one of `olds` or new -/
def Gives (H : List (Cell K V) → α → β → List Nat → Prop) (n : Nat) (p : PyD (World K V) α) (w : World K V) (olds : List Nat) : Except PyErr β → Prop
  | .ok b => ∃ a w' new as, p.exec w = some (.ok a, w') ∧ Made new w w' ∧ new.length ≤ n ∧ H w'.heap a b as ∧ ∀ x ∈ as, x ∈ olds ∨ x ∈ new
  | .error e => ∃ w' new, p.exec w = some (.error e, w') ∧ Made new w w' ∧ new.length ≤ n

variable {H : List (Cell K V) → α → β → List Nat → Prop} {H2 : List (Cell K V) → γ → δ → List Nat → Prop}

theorem Gives.weaken {n m : Nat} {p : PyD (World K V) α} {w : World K V} {os os' : List Nat} {res : Except PyErr β}
    (h : Gives H n p w os res) (hn : n ≤ m) (ho : ∀ x ∈ os, x ∈ os') : Gives H m p w os' res := by
  cases res with
  | error e => obtain ⟨w', new, h1, h2, h3⟩ := h; exact ⟨w', new, h1, h2, Nat.le_trans h3 hn⟩
  | ok b =>
    obtain ⟨a, w', new, as, h1, h2, h3, h4, h5⟩ := h
    exact ⟨a, w', new, as, h1, h2, Nat.le_trans h3 hn, h4, fun x hx => (h5 x hx).imp (ho x) id⟩

theorem _root_.Expression.Spec.MapHeap.Made.trans {a b : List Nat} {w1 w2 w3 : World K V} (x : Made a w1 w2) (y : Made b w2 w3) : Made (a ++ b) w1 w3 :=
  ⟨x.1.trans y.1, by rw [y.2, x.2, List.append_assoc]⟩

/-- first something that only reads -/
theorem gives_read {n : Nat} {p : PyD (World K V) γ} {f : γ → PyD (World K V) α} {w w1 : World K V} {c : γ} {os : List Nat} {res : Except PyErr β}
    (e : p.exec w = some (.ok c, w1)) (m : Made [] w w1) (h : Gives H n (f c) w1 os res) : Gives H n (p >>= f) w os res := by
  cases res with
  | error er =>
    obtain ⟨w', new, h1, h2, h3⟩ := h
    exact ⟨w', new, by rw [PyD.exec_bind, e]; exact h1, by have := m.trans h2; simpa using this, h3⟩
  | ok b =>
    obtain ⟨a, w', new, as, h1, h2, h3, h4, h5⟩ := h
    exact ⟨a, w', new, as, by rw [PyD.exec_bind, e]; exact h1, by have := m.trans h2; simpa using this, h3, h4, h5⟩

theorem gives_bind {n m : Nat} {p : PyD (World K V) α} {f : α → PyD (World K V) γ} {w : World K V} {os : List Nat} {res : Except PyErr β} {g : β → Except PyErr δ}
    (h : Gives H n p w os res)
    (hf : ∀ b a w1 as, res = .ok b → Kept w.heap w1.heap → H w1.heap a b as → Gives H2 m (f a) w1 (as ++ os) (g b)) :
    Gives H2 (n + m) (p >>= f) w os (res >>= g) := by
  cases res with
  | error e =>
    obtain ⟨w', new, h1, h2, h3⟩ := h
    exact ⟨w', new, by rw [PyD.exec_bind, h1], h2, by omega⟩
  | ok b =>
    obtain ⟨a, w', new, as, h1, h2, h3, h4, h5⟩ := h
    have q := hf b a w' as rfl h2.1 h4
    change Gives H2 _ _ _ _ (g b)
    cases e : g b with
    | error er =>
      rw [e] at q
      obtain ⟨w2, new2, k1, k2, k3⟩ := q
      exact ⟨w2, new ++ new2, by rw [PyD.exec_bind, h1]; exact k1, h2.trans k2, by simp; omega⟩
    | ok d =>
      rw [e] at q
      obtain ⟨a2, w2, new2, as2, k1, k2, k3, k4, k5⟩ := q
      refine ⟨a2, w2, new ++ new2, as2, by rw [PyD.exec_bind, h1]; exact k1, h2.trans k2, by simp; omega, k4, fun x hx => ?_⟩
      rcases k5 x hx with q | q
      · rcases List.mem_append.1 q with q | q
        · rcases h5 x q with q | q
          · exact .inl q
          · exact .inr (List.mem_append.2 (.inl q))
        · exact .inl q
      · exact .inr (List.mem_append.2 (.inr q))

theorem gives_pure {w : World K V} {os as : List Nat} {a : α} {b : β} (h : H w.heap a b as) (ho : ∀ x ∈ as, x ∈ os) : Gives H 0 (pure a) w os (.ok b) :=
  ⟨a, w, [], as, rfl, ⟨Kept.refl _, by simp⟩, Nat.le_refl _, h, fun x hx => .inl (ho x hx)⟩

theorem gives_raise {w : World K V} {os : List Nat} {e : PyErr} : Gives H 0 (PyD.raise e) w os (.error e) :=
  ⟨w, [], rfl, ⟨Kept.refl _, by simp⟩, Nat.le_refl _⟩

/-! ## the primitives -/

theorem look_some {w : World K V} {a : Nat} {c : Cell K V} (h : w.heap[a]? = some c) :
    (look (some a) : PyD (World K V) _).exec w = some (.ok (some c), w.wait) := by
  have : w.wait.heap[a]? = some c := kept_wait w _ _ h
  show (read a >>= fun c => pure (some c) : PyD (World K V) _).exec w = _
  rw [PyD.exec_bind]
  simp only [MapHeap.read, PyD.exec, this]
  rfl

theorem value_some {w : World K V} {a : Nat} {c : Cell K V} (h : w.heap[a]? = some c) :
    (value (some a) : PyD (World K V) _).exec w = some (.ok c, w.wait) := by
  have : w.wait.heap[a]? = some c := kept_wait w _ _ h
  simp only [value, MapHeap.read, PyD.exec, this]

theorem made_wait (w : World K V) : Made [] w w.wait := ⟨kept_wait w, by simp [World.wait]⟩

theorem height_exec {w : World K V} {r : Ref} {t : Tree K V} {as : List Nat} (h : Holds w.heap r t as) :
    ∃ w1, (MapHeap.height r : PyD (World K V) Nat).exec w = some (.ok (MapTree.height t), w1) ∧ Made [] w w1 := by
  cases h with
  | nothing => exact ⟨w, rfl, Kept.refl _, by simp⟩
  | leaf e => exact ⟨w.wait, by rw [MapHeap.height, PyD.exec_bind, look_some e]; rfl, made_wait w⟩
  | node e _ _ => exact ⟨w.wait, by rw [MapHeap.height, PyD.exec_bind, look_some e]; rfl, made_wait w⟩

theorem alloc_gives {w : World K V} {os : List Nat} {c : Cell K V} {b : β} {H : List (Cell K V) → Ref → β → List Nat → Prop}
    (h : ∀ h' a, Kept w.heap h' → h'[a]? = some c → ∃ as, H h' (some a) b as ∧ ∀ x ∈ as, x = a ∨ x ∈ os) :
    Gives H 1 (alloc c) w os (.ok b) := by
  have e : (w.wait.heap ++ [c])[w.wait.heap.length]? = some c := by simp
  have k : Kept w.heap (w.wait.heap ++ [c]) := (kept_wait w).trans (Kept.append _ _)
  obtain ⟨as, h1, h2⟩ := h _ _ k e
  refine ⟨some w.wait.heap.length, _, [w.wait.heap.length], as, rfl, ⟨k, rfl⟩, by simp, h1, fun x hx => ?_⟩
  rcases h2 x hx with q | q
  · exact .inr (by simp [q])
  · exact .inl q

theorem mk_gives {w : World K V} {l r : Ref} {tl tr : Tree K V} {as bs os : List Nat} (k : K) (v : V)
    (hl : Holds w.heap l tl as) (hr : Holds w.heap r tr bs) (ha : ∀ x ∈ as, x ∈ os) (hb : ∀ x ∈ bs, x ∈ os) :
    Gives Holds 1 (MapHeap.mk l k v r) w os (.ok (MapTree.mk tl k v tr)) := by
  obtain ⟨w1, e1, m1⟩ := height_exec hl
  obtain ⟨w2, e2, m2⟩ := height_exec (hr.mono m1.1)
  refine gives_read e1 m1 (gives_read e2 m2 ?_)
  have kk := m1.1.trans m2.1
  simp only [MapTree.mk]
  generalize (if MapTree.height tl < MapTree.height tr then MapTree.height tr else MapTree.height tl) = m
  split
  · exact alloc_gives fun h' a _ e => ⟨[a], .leaf e, by simp⟩
  · refine alloc_gives fun h' a q e => ⟨_, .node e (hl.mono (kk.trans q)) (hr.mono (kk.trans q)), ?_⟩
    intro x hx
    simp only [List.mem_cons, List.mem_append] at hx
    rcases hx with h | h | h
    · exact .inl h
    · exact .inr (ha x h)
    · exact .inr (hb x h)

theorem rebalance_gives {w : World K V} {l r : Ref} {tl tr : Tree K V} {as bs os : List Nat} (k : K) (v : V)
    (hl : Holds w.heap l tl as) (hr : Holds w.heap r tr bs) (ha : ∀ x ∈ as, x ∈ os) (hb : ∀ x ∈ bs, x ∈ os) :
    Gives Holds 3 (MapHeap.rebalance l k v r) w os (MapTree.rebalance tl k v tr) := by
  obtain ⟨w1, e1, m1⟩ := height_exec hl
  obtain ⟨w2, e2, m2⟩ := height_exec (hr.mono m1.1)
  refine gives_read e1 m1 (gives_read e2 m2 ?_)
  replace hl := hl.mono (m1.1.trans m2.1)
  replace hr := hr.mono (m1.1.trans m2.1)
  clear e1 m1 e2 m2 w1 w
  simp only [MapTree.rebalance]
  split
  · cases hr with
    | nothing => exact Gives.weaken gives_raise (by omega) (fun _ h => h)
    | leaf e => exact gives_read (value_some e) (made_wait _) (Gives.weaken gives_raise (by omega) (fun _ h => h))
    | @node a k2 v2 l2 r2 n t2l t2r as2 bs2 e h2l h2r =>
      refine gives_read (value_some e) (made_wait _) ?_
      replace hl := hl.mono (kept_wait w2)
      replace h2l := h2l.mono (kept_wait w2)
      replace h2r := h2r.mono (kept_wait w2)
      generalize w2.wait = w at *
      have hb1 : ∀ x ∈ as2, x ∈ os := fun x hx => hb x (by simp [hx])
      have hb2 : ∀ x ∈ bs2, x ∈ os := fun x hx => hb x (by simp [hx])
      obtain ⟨w3, e3, m3⟩ := height_exec h2l
      refine gives_read e3 m3 ?_
      replace hl := hl.mono m3.1
      replace h2l := h2l.mono m3.1
      replace h2r := h2r.mono m3.1
      clear e3 m3 w e
      simp only
      split
      · cases h2l with
        | nothing => exact Gives.weaken gives_raise (by omega) (fun _ h => h)
        | leaf e => exact gives_read (value_some e) (made_wait _) (Gives.weaken gives_raise (by omega) (fun _ h => h))
        | node e hll hlr =>
          refine gives_read (value_some e) (made_wait _) ?_
          replace hl := hl.mono (kept_wait w3)
          replace hll := hll.mono (kept_wait w3)
          replace hlr := hlr.mono (kept_wait w3)
          replace h2r := h2r.mono (kept_wait w3)
          refine gives_bind (n := 1) (m := 2) (res := .ok _) (g := fun b => .ok (MapTree.mk b _ _ (MapTree.mk _ _ _ _)))
            (mk_gives _ _ hl hll ha (fun x hx => hb1 x (by simp [hx]))) ?_
          intro b a w4 xs q1 q2 q3
          cases q1
          refine gives_bind (n := 1) (m := 1) (res := .ok _) (g := fun c => .ok (MapTree.mk _ _ _ c))
            (mk_gives _ _ (hlr.mono q2) (h2r.mono q2) (fun x hx => by simp [hb1 x (by simp [hx])]) (fun x hx => by simp [hb2 x hx])) ?_
          intro b2 a2 w5 ys p1 p2 p3
          cases p1
          exact mk_gives _ _ (q3.mono p2) p3 (fun x hx => by simp [hx]) (fun x hx => by simp [hx])
      · refine Gives.weaken ?_ (show 2 ≤ 3 by omega) (fun _ h => h)
        refine gives_bind (n := 1) (m := 1) (res := .ok _) (g := fun b => .ok (MapTree.mk b _ _ _)) (mk_gives _ _ hl h2l ha hb1) ?_
        intro b a w4 xs q1 q2 q3
        cases q1
        exact mk_gives _ _ q3 (h2r.mono q2) (fun x hx => by simp [hx]) (fun x hx => by simp [hb2 x hx])
  · split
    · cases hl with
      | nothing => exact Gives.weaken gives_raise (by omega) (fun _ h => h)
      | leaf e => exact gives_read (value_some e) (made_wait _) (Gives.weaken gives_raise (by omega) (fun _ h => h))
      | @node a k1 v1 l1 r1 n t1l t1r as2 bs2 e h1l h1r =>
        refine gives_read (value_some e) (made_wait _) ?_
        replace hr := hr.mono (kept_wait w2)
        replace h1l := h1l.mono (kept_wait w2)
        replace h1r := h1r.mono (kept_wait w2)
        generalize w2.wait = w at *
        have ha1 : ∀ x ∈ as2, x ∈ os := fun x hx => ha x (by simp [hx])
        have ha2 : ∀ x ∈ bs2, x ∈ os := fun x hx => ha x (by simp [hx])
        obtain ⟨w3, e3, m3⟩ := height_exec h1r
        refine gives_read e3 m3 ?_
        replace hr := hr.mono m3.1
        replace h1l := h1l.mono m3.1
        replace h1r := h1r.mono m3.1
        clear e3 m3 w e
        simp only
        split
        · cases h1r with
          | nothing => exact Gives.weaken gives_raise (by omega) (fun _ h => h)
          | leaf e => exact gives_read (value_some e) (made_wait _) (Gives.weaken gives_raise (by omega) (fun _ h => h))
          | node e hrl hrr =>
            refine gives_read (value_some e) (made_wait _) ?_
            replace hr := hr.mono (kept_wait w3)
            replace hrl := hrl.mono (kept_wait w3)
            replace hrr := hrr.mono (kept_wait w3)
            replace h1l := h1l.mono (kept_wait w3)
            refine gives_bind (n := 1) (m := 2) (res := .ok _) (g := fun b => .ok (MapTree.mk b _ _ (MapTree.mk _ _ _ _)))
              (mk_gives _ _ h1l hrl ha1 (fun x hx => ha2 x (by simp [hx]))) ?_
            intro b a w4 xs q1 q2 q3
            cases q1
            refine gives_bind (n := 1) (m := 1) (res := .ok _) (g := fun c => .ok (MapTree.mk _ _ _ c))
              (mk_gives _ _ (hrr.mono q2) (hr.mono q2) (fun x hx => by simp [ha2 x (by simp [hx])]) (fun x hx => by simp [hb x hx])) ?_
            intro b2 a2 w5 ys p1 p2 p3
            cases p1
            exact mk_gives _ _ (q3.mono p2) p3 (fun x hx => by simp [hx]) (fun x hx => by simp [hx])
        · refine Gives.weaken ?_ (show 2 ≤ 3 by omega) (fun _ h => h)
          refine gives_bind (n := 1) (m := 1) (res := .ok _) (g := fun b => .ok (MapTree.mk _ _ _ b)) (mk_gives _ _ h1r hr ha2 hb) ?_
          intro b a w4 xs q1 q2 q3
          cases q1
          exact mk_gives _ _ (h1l.mono q2) q3 (fun x hx => by simp [ha1 x hx]) (fun x hx => by simp [hx])
    · exact Gives.weaken (mk_gives _ _ hl hr ha hb) (by omega) (fun _ h => h)

/-! ## the operations -/

/-- a key, a value and a reference -/
def HoldsWith (h : List (Cell K V)) (a : K × V × Ref) (b : K × V × Tree K V) (as : List Nat) : Prop :=
  a.1 = b.1 ∧ a.2.1 = b.2.1 ∧ Holds h a.2.2 b.2.2 as

/-- a plain value -/
def Same (_ : List (Cell K V)) (a b : α) (as : List Nat) : Prop := a = b ∧ as = []

theorem isEmpty_eq {h : List (Cell K V)} {r : Ref} {t : Tree K V} {as : List Nat} (e : Holds h r t as) : MapHeap.isEmpty r = MapTree.isEmpty t := by
  cases e <;> rfl

theorem splice_gives {t : Tree K V} : ∀ {w : World K V} {r : Ref} {as os : List Nat}, Holds w.heap r t as → (∀ x ∈ as, x ∈ os) →
    Gives HoldsWith (depth t) (MapHeap.spliceOutSuccessor r) w os (MapTree.spliceOutSuccessor t) := by
  induction t with
  | nothing =>
    intro w r as os h ho
    cases h
    rw [MapHeap.spliceOutSuccessor]
    exact gives_read (c := none) (w1 := w) rfl ⟨Kept.refl _, by simp⟩ gives_raise
  | leaf k v =>
    intro w r as os h ho
    cases h with
    | leaf e =>
    rw [MapHeap.spliceOutSuccessor]
    refine gives_read (look_some e) (made_wait _) ?_
    exact Gives.weaken (gives_pure (as := []) (b := (k, v, Tree.nothing)) ⟨rfl, rfl, .nothing⟩ (by simp)) (by simp) (fun _ h => h)
  | node k v tl tr n il ir =>
    intro w r as os h ho
    cases h with
    | @node a _ _ l r _ _ _ as bs e hl hr =>
    have ho1 : ∀ x ∈ as, x ∈ os := fun x hx => ho x (by simp [hx])
    have ho2 : ∀ x ∈ bs, x ∈ os := fun x hx => ho x (by simp [hx])
    rw [MapHeap.spliceOutSuccessor]
    refine gives_read (look_some e) (made_wait _) ?_
    replace hl := hl.mono (kept_wait w)
    replace hr := hr.mono (kept_wait w)
    simp only [MapTree.spliceOutSuccessor, isEmpty_eq hl]
    split
    · exact Gives.weaken (gives_pure (b := (k, v, tr)) ⟨rfl, rfl, hr⟩ ho2) (by simp) (fun _ h => h)
    · refine Gives.weaken (gives_bind (n := depth tl) (m := 1) (il hl ho1) ?_) (by simp only [depth]; omega) (fun _ h => h)
      rintro ⟨k3, v3, t'⟩ ⟨k3', v3', l'⟩ w1 xs q1 q2 ⟨rfl, rfl, q3⟩
      refine gives_bind (n := 1) (m := 0) (res := .ok _) (g := fun c => .ok (_, _, c)) (mk_gives k v q3 (hr.mono q2) (fun x hx => by simp [hx]) (fun x hx => by simp [ho2 x hx])) ?_
      intro b a w2 ys p1 p2 p3
      cases p1
      exact gives_pure ⟨rfl, rfl, p3⟩ (fun x hx => by simp [hx])

section
variable [PyOrd K]

theorem add_gives (k : K) (v : V) {t : Tree K V} : ∀ {w : World K V} {r : Ref} {as os : List Nat}, Holds w.heap r t as → (∀ x ∈ as, x ∈ os) →
    Gives Holds (3 * depth t + 1) (MapHeap.add k v r) w os (MapTree.add k v t) := by
  induction t with
  | nothing =>
    intro w r as os h ho
    cases h
    rw [MapHeap.add]
    exact gives_read (c := none) (w1 := w) rfl ⟨Kept.refl _, by simp⟩ (alloc_gives fun h' a _ e => ⟨[a], .leaf e, by simp⟩)
  | leaf key old =>
    intro w r as os h ho
    cases h with
    | leaf e =>
    rw [MapHeap.add]
    refine gives_read (look_some e) (made_wait _) ?_
    simp only [MapTree.add]
    refine Gives.weaken (n := 1) ?_ (by simp [depth]) (fun _ h => h)
    split
    · refine alloc_gives fun h' a q e' => ⟨_, .node e' .nothing (.leaf (q _ _ (kept_wait w _ _ e))), ?_⟩
      intro x hx; simp at hx ho
      rcases hx with hx | hx <;> simp [hx, ho]
    · split
      · exact alloc_gives fun h' a _ e => ⟨[a], .leaf e, by simp⟩
      · refine alloc_gives fun h' a q e' => ⟨_, .node e' (.leaf (q _ _ (kept_wait w _ _ e))) .nothing, ?_⟩
        intro x hx; simp at hx ho
        rcases hx with hx | hx <;> simp [hx, ho]
  | node key old tl tr n il ir =>
    intro w r as os h ho
    cases h with
    | @node a _ _ l r _ _ _ as bs e hl hr =>
    have ho1 : ∀ x ∈ as, x ∈ os := fun x hx => ho x (by simp [hx])
    have ho2 : ∀ x ∈ bs, x ∈ os := fun x hx => ho x (by simp [hx])
    rw [MapHeap.add]
    refine gives_read (look_some e) (made_wait _) ?_
    replace hl := hl.mono (kept_wait w)
    replace hr := hr.mono (kept_wait w)
    simp only [MapTree.add]
    split
    · refine Gives.weaken (gives_bind (n := 3 * depth tl + 1) (m := 3) (il hl ho1) ?_) (by simp only [depth]; omega) (fun _ h => h)
      intro b a w1 xs q1 q2 q3
      exact rebalance_gives _ _ q3 (hr.mono q2) (fun x hx => by simp [hx]) (fun x hx => by simp [ho2 x hx])
    · split
      · refine Gives.weaken (n := 1) ?_ (by omega) (fun _ h => h)
        refine alloc_gives fun h' a q e' => ⟨_, .node e' (hl.mono q) (hr.mono q), ?_⟩
        intro x hx
        simp only [List.mem_cons, List.mem_append] at hx
        exact hx.imp id (fun h => h.elim (ho1 x) (ho2 x))
      · refine Gives.weaken (gives_bind (n := 3 * depth tr + 1) (m := 3) (ir hr ho2) ?_) (by simp only [depth]; omega) (fun _ h => h)
        intro b a w1 xs q1 q2 q3
        exact rebalance_gives _ _ (hl.mono q2) q3 (fun x hx => by simp [ho1 x hx]) (fun x hx => by simp [hx])

theorem tryFind_gives (k : K) {t : Tree K V} : ∀ {w : World K V} {r : Ref} {as : List Nat}, Holds w.heap r t as →
    Gives Same 0 (MapHeap.tryFind k r) w [] (.ok (MapTree.tryFind k t)) := by
  induction t with
  | nothing =>
    intro w r as h
    cases h
    rw [MapHeap.tryFind]
    exact gives_read (c := none) (w1 := w) rfl ⟨Kept.refl _, by simp⟩ (gives_pure ⟨rfl, rfl⟩ (by simp))
  | leaf key old =>
    intro w r as h
    cases h with
    | leaf e =>
    rw [MapHeap.tryFind]
    exact gives_read (look_some e) (made_wait _) (gives_pure ⟨rfl, rfl⟩ (by simp))
  | node key old tl tr n il ir =>
    intro w r as h
    cases h with
    | node e hl hr =>
    rw [MapHeap.tryFind]
    refine gives_read (look_some e) (made_wait _) ?_
    replace hl := hl.mono (kept_wait w)
    replace hr := hr.mono (kept_wait w)
    simp only [MapTree.tryFind]
    split
    · exact gives_pure ⟨rfl, rfl⟩ (by simp)
    · split
      · exact il hl
      · exact ir hr

theorem remove_gives (k : K) {t : Tree K V} : ∀ {w : World K V} {r : Ref} {as os : List Nat}, Holds w.heap r t as → (∀ x ∈ as, x ∈ os) →
    Gives Holds (3 * depth t) (MapHeap.remove k r) w os (MapTree.remove k t) := by
  induction t with
  | nothing =>
    intro w r as os h ho
    cases h
    rw [MapHeap.remove]
    exact gives_read (c := none) (w1 := w) rfl ⟨Kept.refl _, by simp⟩ (gives_pure .nothing (by simp))
  | leaf key old =>
    intro w r as os h ho
    cases h with
    | leaf e =>
    rw [MapHeap.remove]
    refine gives_read (look_some e) (made_wait _) ?_
    simp only [MapTree.remove]
    refine Gives.weaken (n := 0) ?_ (by simp [depth]) (fun _ h => h)
    split
    · exact gives_pure .nothing (by simp)
    · exact gives_pure (.leaf (kept_wait w _ _ e)) ho
  | node key old tl tr n il ir =>
    intro w r as os h ho
    cases h with
    | @node a _ _ l r _ _ _ as bs e hl hr =>
    have ho1 : ∀ x ∈ as, x ∈ os := fun x hx => ho x (by simp [hx])
    have ho2 : ∀ x ∈ bs, x ∈ os := fun x hx => ho x (by simp [hx])
    rw [MapHeap.remove]
    refine gives_read (look_some e) (made_wait _) ?_
    replace hl := hl.mono (kept_wait w)
    replace hr := hr.mono (kept_wait w)
    simp only [MapTree.remove]
    split
    · refine Gives.weaken (gives_bind (n := 3 * depth tl) (m := 3) (il hl ho1) ?_) (by simp only [depth]; omega) (fun _ h => h)
      intro b a w1 xs q1 q2 q3
      exact rebalance_gives _ _ q3 (hr.mono q2) (fun x hx => by simp [hx]) (fun x hx => by simp [ho2 x hx])
    · split
      · simp only [isEmpty_eq hl, isEmpty_eq hr]
        split
        · exact Gives.weaken (gives_pure hr ho2) (by omega) (fun _ h => h)
        · split
          · exact Gives.weaken (gives_pure hl ho1) (by omega) (fun _ h => h)
          · refine Gives.weaken (gives_bind (n := depth tr) (m := 1) (splice_gives hr ho2) ?_) (by simp only [depth]; omega) (fun _ h => h)
            rintro ⟨k3, v3, t'⟩ ⟨k3', v3', l'⟩ w1 xs q1 q2 ⟨rfl, rfl, q3⟩
            exact mk_gives _ _ (hl.mono q2) q3 (fun x hx => by simp [ho1 x hx]) (fun x hx => by simp [hx])
      · refine Gives.weaken (gives_bind (n := 3 * depth tr) (m := 3) (ir hr ho2) ?_) (by simp only [depth]; omega) (fun _ h => h)
        intro b a w1 xs q1 q2 q3
        exact rebalance_gives _ _ (hl.mono q2) q3 (fun x hx => by simp [ho1 x hx]) (fun x hx => by simp [hx])

end

/-- what a computation without a world comes to -/
def val (p : Py Unit α) : Except PyErr α := (p.exec ()).1

theorem val_bind (p : Py Unit α) (f : α → Py Unit β) : val (p >>= f) = val p >>= fun a => val (f a) := by
  simp only [val, Py.exec_bind]
  rcases p.exec () with ⟨_ | _, _⟩ <;> rfl

theorem val_ofExcept (e : Except PyErr α) : val (Py.ofExcept e) = e := rfl
theorem val_pure (a : α) : val (pure a : Py Unit α) = .ok a := rfl

section
variable [PyOrd K]

theorem change_gives (k : K) (u : Option V → PyD (World K V) (Option V)) (o : Option V → Except PyErr (Option V)) (d : Nat)
    (hu : ∀ x w, Gives Same d (u x) w [] (o x))
    {t : Tree K V} : ∀ {w : World K V} {r : Ref} {as os : List Nat}, Holds w.heap r t as → (∀ x ∈ as, x ∈ os) →
    Gives Holds (3 * depth t + 1 + d) (MapHeap.change k u r) w os (val (MapTree.change k (fun x => Py.ofExcept (o x)) t)) := by
  have hu' : ∀ x w os, Gives Same d (u x) w os (o x) := fun x w os => (hu x w).weaken (Nat.le_refl _) (by simp)
  induction t with
  | nothing =>
    intro w r as os h ho
    cases h
    rw [MapHeap.change]
    refine gives_read (c := none) (w1 := w) rfl ⟨Kept.refl _, by simp⟩ ?_
    simp only [MapTree.change, val_bind, val_ofExcept]
    refine Gives.weaken (gives_bind (n := d) (m := 1) (hu' none w os) ?_) (by omega) (fun _ h => h)
    rintro b a w1 xs q1 q2 ⟨rfl, rfl⟩
    cases a with
    | none => exact Gives.weaken gives_raise (by omega) (fun _ h => h)
    | some v => exact alloc_gives fun h' a _ e => ⟨[a], .leaf e, by simp⟩
  | leaf key old =>
    intro w r as os h ho
    cases h with
    | leaf e =>
    rw [MapHeap.change]
    refine gives_read (look_some e) (made_wait _) ?_
    replace e := kept_wait w _ _ e
    generalize w.wait = w at *
    simp only [MapTree.change]
    refine Gives.weaken (n := d + 1) ?_ (by omega) (fun _ h => h)
    split
    · rw [val_bind, val_ofExcept]
      refine gives_bind (hu' none w os) ?_
      rintro b a w1 xs q1 q2 ⟨rfl, rfl⟩
      cases a with
      | none => exact Gives.weaken (gives_pure (.leaf (q2 _ _ e)) (by simpa using ho)) (by omega) (fun _ h => h)
      | some v =>
        refine alloc_gives fun h' a q e' => ⟨_, .node e' .nothing (.leaf (q _ _ (q2 _ _ e))), ?_⟩
        intro x hx; simp at hx ho
        rcases hx with hx | hx <;> simp [hx, ho]
    · split
      · rw [val_bind, val_ofExcept]
        refine gives_bind (hu' (some old) w os) ?_
        rintro b a w1 xs q1 q2 ⟨rfl, rfl⟩
        cases a with
        | none => exact Gives.weaken (gives_pure .nothing (by simp)) (by omega) (fun _ h => h)
        | some v => exact alloc_gives fun h' a _ e => ⟨[a], .leaf e, by simp⟩
      · rw [val_bind, val_ofExcept]
        refine gives_bind (hu' none w os) ?_
        rintro b a w1 xs q1 q2 ⟨rfl, rfl⟩
        cases a with
        | none => exact Gives.weaken (gives_pure (.leaf (q2 _ _ e)) (by simpa using ho)) (by omega) (fun _ h => h)
        | some v =>
          refine alloc_gives fun h' a q e' => ⟨_, .node e' (.leaf (q _ _ (q2 _ _ e))) .nothing, ?_⟩
          intro x hx; simp at hx ho
          rcases hx with hx | hx <;> simp [hx, ho]
  | node key old tl tr n il ir =>
    intro w r as os h ho
    cases h with
    | @node a _ _ l r _ _ _ as bs e hl hr =>
    have ho1 : ∀ x ∈ as, x ∈ os := fun x hx => ho x (by simp [hx])
    have ho2 : ∀ x ∈ bs, x ∈ os := fun x hx => ho x (by simp [hx])
    rw [MapHeap.change]
    refine gives_read (look_some e) (made_wait _) ?_
    replace hl := hl.mono (kept_wait w)
    replace hr := hr.mono (kept_wait w)
    generalize w.wait = w at *
    simp only [MapTree.change]
    split
    · rw [val_bind]
      refine Gives.weaken (gives_bind (n := 3 * depth tl + 1 + d) (m := 3) (il hl ho1) ?_) (by simp only [depth]; omega) (fun _ h => h)
      intro b a w1 xs q1 q2 q3
      exact rebalance_gives _ _ q3 (hr.mono q2) (fun x hx => by simp [hx]) (fun x hx => by simp [ho2 x hx])
    · split
      · rw [val_bind, val_ofExcept]
        refine Gives.weaken (gives_bind (n := d) (m := 3 * depth (.node key old tl tr n) + 1) (hu' (some old) w os) ?_) (by omega) (fun _ h => h)
        rintro b a w1 xs q1 q2 ⟨rfl, rfl⟩
        replace hl := hl.mono q2
        replace hr := hr.mono q2
        cases a with
        | some v =>
          refine Gives.weaken (n := 1) ?_ (by omega) (fun _ h => h)
          refine alloc_gives fun h' a q e' => ⟨_, .node e' (hl.mono q) (hr.mono q), ?_⟩
          intro x hx
          simp only [List.mem_cons, List.mem_append] at hx
          exact hx.imp id (fun h => by simpa using h.elim (ho1 x) (ho2 x))
        | none =>
          simp only [isEmpty_eq hl, isEmpty_eq hr]
          split
          · exact Gives.weaken (gives_pure hr (by simpa using ho2)) (by omega) (fun _ h => h)
          · split
            · exact Gives.weaken (gives_pure hl (by simpa using ho1)) (by omega) (fun _ h => h)
            · rw [val_bind, val_ofExcept]
              refine Gives.weaken (gives_bind (n := depth tr) (m := 1) (splice_gives hr (os := os) ho2) ?_) (by simp only [depth]; omega) (by simp)
              rintro ⟨k3, v3, t'⟩ ⟨k3', v3', l'⟩ w2 xs q1 q2 ⟨rfl, rfl, q3⟩
              exact mk_gives _ _ (hl.mono q2) q3 (fun x hx => by simp [ho1 x hx]) (fun x hx => by simp [hx])
      · rw [val_bind]
        refine Gives.weaken (gives_bind (n := 3 * depth tr + 1 + d) (m := 3) (ir hr ho2) ?_) (by simp only [depth]; omega) (fun _ h => h)
        intro b a w1 xs q1 q2 q3
        exact rebalance_gives _ _ (hl.mono q2) q3 (fun x hx => by simp [ho1 x hx]) (fun x hx => by simp [hx])

end

end Expression.Lemmas.MapHeap
