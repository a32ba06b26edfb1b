import Verif.Lemmas.MapHost2

/-! What the operations of maps cost, with calls counted. -/

namespace Expression.MapHost

open Expression Spec MapTree Tree

variable {σ K V R α β : Type} {E : PyErr → Prop} {cost : σ → Nat} {c d : Nat} {H : Host σ K}

/-- A call costs one more than its body. -/
def Metered (E : PyErr → Prop) (cost : σ → Nat) (H : Host σ K) : Prop :=
  ∀ (α : Type) (n : Nat) (p : Py σ α) (Q : α → Prop), Does E cost n p Q → Does E cost (n + 1) (H.call p) Q

theorem metered_metered {lt eq : K → K → Py (σ × Nat) Bool} : Metered E Prod.snd (Host.metered lt eq) := by
  intro α n p Q h w
  have := h (w.1, w.2 + 1)
  refine ⟨?_, this.2⟩
  have h1 := this.1
  have e : ((Host.metered lt eq).call p).exec w = p.exec (w.1, w.2 + 1) := rfl
  rw [e]
  simp only at h1
  omega

/-- Costs of a node out of the costs of its children. -/
private theorem two_levels (c : Nat) (l r : Nat) :
    (2 * c + 1) * l ≤ (2 * c + 1) * max l r ∧ (2 * c + 1) * r ≤ (2 * c + 1) * max l r ∧ r ≤ (2 * c + 1) * max l r ∧
      (2 * c + 1) * (max l r + 1) = c + (c + ((2 * c + 1) * max l r + 1 + 0)) := by
  refine ⟨Nat.mul_le_mul_left _ (Nat.le_max_left _ _), Nat.mul_le_mul_left _ (Nat.le_max_right _ _), ?_, ?_⟩
  · refine Nat.le_trans (Nat.le_max_right l r) ?_
    exact Nat.le_mul_of_pos_left _ (by omega)
  · rw [Nat.mul_add]; omega

theorem add_pays (hc : Metered E cost H) (hH : Compares E cost c H) (k : K) (v : V) (t : Tree K V) (hw : WF t) :
    Does E cost ((2 * c + 1) * depth t) (add H k v t) (AddPost H k v t) := by
  induction t with
  | nothing =>
    exact Does.pure ⟨trivial, Or.inl ⟨[], [], rfl, rfl⟩, fun _ => ⟨trivial, Or.inr ⟨rfl, trivial⟩⟩⟩
  | leaf key value =>
    have e : (2 * c + 1) * depth (leaf key value : Tree K V) = c + (c + 1) := by simp only [depth]; omega
    rw [e]
    refine Does.bind (hH.lt k key) fun b _ => Does.ite (fun _ => ?_) fun _ => Does.bind (hH.eq k key) fun b hb =>
      Does.ite (fun hb' => ?_) fun _ => ?_
    · exact Does.pure ⟨⟨trivial, trivial, rfl, by simp [height]⟩, Or.inl ⟨[], [(key, value)], rfl, rfl⟩,
        fun _ => ⟨by simp [Bal, height], Or.inr ⟨rfl, by simp [Skew, height]⟩⟩⟩
    · exact Does.pure ⟨trivial, Or.inr ⟨[], key, value, [], rfl, rfl, hb hb'⟩, fun _ => ⟨trivial, Or.inl rfl⟩⟩
    · exact Does.pure ⟨⟨trivial, trivial, rfl, by simp [height]⟩, Or.inl ⟨[(key, value)], [], rfl, rfl⟩,
        fun _ => ⟨by simp [Bal, height], Or.inr ⟨rfl, by simp [Skew, height]⟩⟩⟩
  | node key value l r h ihl ihr =>
    obtain ⟨hl, hr, _, e⟩ := two_levels c (depth l) (depth r)
    simp only [depth]
    rw [e]
    refine Does.bind (hH.lt k key) fun b _ => Does.ite (fun _ => ?_) fun _ => Does.bind (hH.eq k key) fun b hb =>
      Does.ite (fun hb' => ?_) fun _ => ?_
    · refine Does.weaken (Does.bind (m := 0) (hc _ _ _ _ (ihl hw.1)) fun l' hl' => ?_) (by omega) (fun _ h => h)
      obtain ⟨t, e, ht⟩ := addPost_left hw hl'
      exact Does.ofOk e ht
    · refine Does.pure ⟨hw, Or.inr ⟨inorder l, key, value, inorder r, rfl, rfl, hb hb'⟩, fun hb => ⟨hb, Or.inl rfl⟩⟩
    · refine Does.weaken (Does.bind (m := 0) (hc _ _ _ _ (ihr hw.2.1)) fun r' hr' => ?_) (by omega) (fun _ h => h)
      obtain ⟨t, e, ht⟩ := addPost_right hw hr'
      exact Does.ofOk e ht

/-- Any result and any exception. -/
abbrev Pays (cost : σ → Nat) (n : Nat) (p : Py σ α) : Prop := Does (fun _ => True) cost n p (fun _ => True)

theorem pays_of {n : Nat} {p : Py σ α} (h : CostsAtMost cost n p) : Pays cost n p :=
  fun w => ⟨h w, fun _ _ => trivial, fun _ _ => trivial⟩

section
variable (hc : Metered (fun _ => True) cost H) (hl : ∀ a b, Pays cost c (H.lt a b)) (he : ∀ a b, Pays cost c (H.eq a b))
include hc

theorem Pays.call {n : Nat} {p : Py σ α} (h : Pays cost n p) : Pays cost (n + 1) (H.call p) := hc _ _ _ _ h

omit hc in
theorem Pays.bind {n m : Nat} {p : Py σ α} {f : α → Py σ β} (h : Pays cost n p) (hf : ∀ a, Pays cost m (f a)) :
    Pays cost (n + m) (p >>= f) := Does.bind h fun a _ => hf a

omit hc in
theorem Pays.pure {n : Nat} {a : α} : Pays cost n (Pure.pure a) := Does.pure trivial

omit hc in
theorem Pays.mono {n m : Nat} {p : Py σ α} (h : Pays cost n p) (hn : n ≤ m) : Pays cost m p := h.weaken hn fun _ h => h

omit hc in
theorem Pays.ofExcept {n : Nat} (a : Except PyErr α) : Pays cost n (Py.ofExcept a) := by
  cases a with
  | error e => exact Does.raise trivial
  | ok a => exact Does.pure trivial

omit hc in
theorem Pays.ite {n : Nat} {b : Bool} {p q : Py σ α} (hp : Pays cost n p) (hq : Pays cost n q) :
    Pays cost n (if b = true then p else q) := Does.ite (fun _ => hp) fun _ => hq

include hl he

/-- Also for a tree that is not well formed. -/
theorem add_costs (k : K) (v : V) (t : Tree K V) : Pays cost ((2 * c + 1) * depth t) (add H k v t) := by
  induction t with
  | nothing => exact Pays.pure
  | leaf key value =>
    refine Pays.mono (Pays.bind (hl k key) fun b => Pays.ite Pays.pure (Pays.bind (m := 0) (he k key) fun b =>
      Pays.ite Pays.pure Pays.pure)) ?_
    simp only [depth]; omega
  | node key value l r h ihl ihr =>
    obtain ⟨h1, h2, _, e⟩ := two_levels c (depth l) (depth r)
    simp only [depth]
    rw [e]
    refine Pays.bind (hl k key) fun b => Pays.ite ?_ (Pays.bind (he k key) fun b => Pays.ite Pays.pure ?_)
    · exact (Pays.bind (m := 0) (Pays.call hc ihl) fun _ => Pays.ofExcept _).mono (by omega)
    · exact (Pays.bind (m := 0) (Pays.call hc ihr) fun _ => Pays.ofExcept _).mono (by omega)

theorem tryFind_pays (k : K) (t : Tree K V) : Pays cost ((2 * c + 1) * depth t) (tryFind H k t) := by
  induction t with
  | nothing => exact Pays.pure
  | leaf key value =>
    refine Pays.mono (Pays.bind (m := 0) (he k key) fun b => Pays.ite Pays.pure Pays.pure) ?_
    simp only [depth]; omega
  | node key value l r h ihl ihr =>
    obtain ⟨h1, h2, _, e⟩ := two_levels c (depth l) (depth r)
    simp only [depth]
    rw [e]
    exact Pays.bind (he k key) fun b => Pays.ite Pays.pure (Pays.bind (hl k key) fun b => Pays.ite
      ((Pays.call hc ihl).mono (by omega)) ((Pays.call hc ihr).mono (by omega)))

theorem mem_pays (k : K) (t : Tree K V) : Pays cost ((2 * c + 1) * depth t) (mem H k t) := by
  induction t with
  | nothing => exact Pays.pure
  | leaf key value => exact (he k key).mono (by simp only [depth]; omega)
  | node key value l r h ihl ihr =>
    obtain ⟨h1, h2, _, e⟩ := two_levels c (depth l) (depth r)
    simp only [depth]
    rw [e]
    exact Pays.bind (hl k key) fun b => Pays.ite ((Pays.call hc ihl).mono (by omega))
      (Pays.bind (he k key) fun b => Pays.ite Pays.pure ((Pays.call hc ihr).mono (by omega)))

omit hl he in
theorem splice_pays (t : Tree K V) : Pays cost (depth t) (spliceOutSuccessor H t) := by
  induction t with
  | nothing => exact Does.raise trivial
  | leaf k v => exact Pays.pure
  | node k v l r h ihl _ =>
    refine Pays.ite Pays.pure (Pays.mono (Pays.bind (m := 0) (Pays.call hc ihl) fun x => Pays.pure) ?_)
    simp only [depth]; omega

omit hl he in
theorem removeRoot_pays (l r : Tree K V) :
    Pays cost (depth r + 1) (if isEmpty l = true then pure r else if isEmpty r = true then pure l else
      (do
        let (sk, sv, r') ← H.call (spliceOutSuccessor H r)
        pure (mk l sk sv r'))) :=
  Pays.ite Pays.pure (Pays.ite Pays.pure (Pays.bind (m := 0) (Pays.call hc (splice_pays hc r)) fun _ => Pays.pure))

theorem remove_pays (k : K) (t : Tree K V) : Pays cost ((2 * c + 1) * depth t) (remove H k t) := by
  induction t with
  | nothing => exact Pays.pure
  | leaf key value =>
    refine Pays.mono (Pays.bind (m := 0) (he k key) fun b => Pays.ite Pays.pure Pays.pure) ?_
    simp only [depth]; omega
  | node key value l r h ihl ihr =>
    obtain ⟨h1, h2, h3, e⟩ := two_levels c (depth l) (depth r)
    simp only [depth]
    rw [e]
    refine Pays.bind (hl k key) fun b => Pays.ite ?_ (Pays.bind (he k key) fun b => Pays.ite ?_ ?_)
    · exact (Pays.bind (m := 0) (Pays.call hc ihl) fun _ => Pays.ofExcept _).mono (by omega)
    · exact (removeRoot_pays hc l r).mono (by omega)
    · exact (Pays.bind (m := 0) (Pays.call hc ihr) fun _ => Pays.ofExcept _).mono (by omega)

theorem change_pays (k : K) (u : Option V → Py σ (Option V)) (hu : ∀ o, Pays cost d (u o)) (t : Tree K V) :
    Pays cost ((2 * c + 1) * depth t + d) (change H k u t) := by
  have opt : ∀ (o : Option V) (f : V → Tree K V) (q : Py σ (Tree K V)) (n : Nat), Pays cost n q →
      Pays cost (d + n) (do match ← u o with | some v => pure (f v) | none => q) := by
    intro o f q n hq
    refine Pays.bind (hu o) fun r => ?_
    cases r with
    | none => exact hq
    | some v => exact Pays.pure
  induction t with
  | nothing => exact (opt none (leaf k) (Py.raise .effectError) 0 (Does.raise trivial)).mono (by simp only [depth]; omega)
  | leaf key value =>
    have e : (2 * c + 1) * depth (leaf key value : Tree K V) + d = c + (c + (d + 1)) := by simp only [depth]; omega
    rw [e]
    refine Pays.bind (hl k key) fun b => Pays.ite ?_ (Pays.bind (he k key) fun b => Pays.ite ?_ ?_)
    · exact (opt none (fun v => node k v nothing (leaf key value) 2) _ 0 Pays.pure).mono (by omega)
    · exact (opt (some value) (leaf k) _ 0 Pays.pure).mono (by omega)
    · exact (opt none (fun v => node k v (leaf key value) nothing 2) _ 0 Pays.pure).mono (by omega)
  | node key value l r h ihl ihr =>
    obtain ⟨h1, h2, h3, e⟩ := two_levels c (depth l) (depth r)
    simp only [depth]
    rw [e, Nat.add_assoc, Nat.add_assoc]
    refine Pays.bind (hl k key) fun b => Pays.ite ?_ (Pays.bind (he k key) fun b => Pays.ite ?_ ?_)
    · exact (Pays.bind (m := 0) (Pays.call hc ihl) fun _ => Pays.ofExcept _).mono (by omega)
    · exact (opt (some value) (fun v => node k v l r h) _ _ (removeRoot_pays hc l r)).mono (by omega)
    · exact (Pays.bind (m := 0) (Pays.call hc ihr) fun _ => Pays.ofExcept _).mono (by omega)

end

/-! ### Traversals -/

section
variable (hc : Metered (fun _ => True) cost H)
include hc

omit hc in
/-- Costs of a node out of the costs of its children. -/
private theorem node_cost (k : K) (v : V) (l r : Tree K V) (h x : Nat) :
    (inorder (node k v l r h)).length * x = (inorder l).length * x + x + (inorder r).length * x := by
  simp only [inorder, List.length_append, List.length_cons, Nat.add_mul]; omega

theorem sizeAux_pays (t : Tree K V) : ∀ acc, Pays cost ((inorder t).length * 2) (sizeAux H acc t) := by
  induction t with
  | nothing => intro acc; exact Pays.pure
  | leaf k v => intro acc; exact Pays.pure
  | node k v l r h ihl ihr =>
    intro acc
    rw [node_cost]
    exact (Pays.bind (Pays.call hc (ihl _)) fun _ => Pays.call hc (ihr _)).mono (by omega)

theorem iter_pays {f : K → V → Py σ Unit} (hf : ∀ k v, Pays cost d (f k v)) (t : Tree K V) :
    Pays cost ((inorder t).length * (d + 2)) (iter H f t) := by
  induction t with
  | nothing => exact Pays.pure
  | leaf k v => exact (hf k v).mono (by simp [inorder])
  | node k v l r h ihl ihr =>
    rw [node_cost]
    exact (Pays.bind (Pays.call hc ihl) fun _ => Pays.bind (hf k v) fun _ => Pays.call hc ihr).mono (by omega)

theorem tryPick_pays {f : K → V → Py σ (Option R)} (hf : ∀ k v, Pays cost d (f k v)) (t : Tree K V) :
    Pays cost ((inorder t).length * (d + 2)) (tryPick H f t) := by
  induction t with
  | nothing => exact Pays.pure
  | leaf k v => exact (hf k v).mono (by simp [inorder])
  | node k v l r h ihl ihr =>
    rw [node_cost]
    exact (Pays.bind (Pays.call hc ihl) fun _ => Pays.ite Pays.pure (Pays.bind (hf k v) fun _ => Pays.ite Pays.pure
      (Pays.call hc ihr))).mono (by omega)

theorem exists_pays {f : K → V → Py σ Bool} (hf : ∀ k v, Pays cost d (f k v)) (t : Tree K V) :
    Pays cost ((inorder t).length * (d + 2)) («exists» H f t) := by
  induction t with
  | nothing => exact Pays.pure
  | leaf k v => exact (hf k v).mono (by simp [inorder])
  | node k v l r h ihl ihr =>
    rw [node_cost]
    exact (Pays.bind (Pays.call hc ihl) fun _ => Pays.ite Pays.pure (Pays.bind (hf k v) fun _ => Pays.ite Pays.pure
      (Pays.call hc ihr))).mono (by omega)

theorem forall_pays {f : K → V → Py σ Bool} (hf : ∀ k v, Pays cost d (f k v)) (t : Tree K V) :
    Pays cost ((inorder t).length * (d + 2)) («forall» H f t) := by
  induction t with
  | nothing => exact Pays.pure
  | leaf k v => exact (hf k v).mono (by simp [inorder])
  | node k v l r h ihl ihr =>
    rw [node_cost]
    exact (Pays.bind (Pays.call hc ihl) fun _ => Pays.ite (Pays.bind (hf k v) fun _ => Pays.ite (Pays.call hc ihr)
      Pays.pure) Pays.pure).mono (by omega)

theorem map_pays {f : K → V → Py σ R} (hf : ∀ k v, Pays cost d (f k v)) (t : Tree K V) :
    Pays cost ((inorder t).length * (d + 2)) (map H f t) := by
  induction t with
  | nothing => exact Pays.pure
  | leaf k v => exact (Pays.bind (m := 0) (hf k v) fun _ => Pays.pure).mono (by simp [inorder])
  | node k v l r h ihl ihr =>
    rw [node_cost]
    exact (Pays.bind (Pays.call hc ihl) fun _ => Pays.bind (hf k v) fun _ => Pays.bind (m := 0) (Pays.call hc ihr) fun _ =>
      Pays.pure).mono (by omega)

theorem foldBack_pays {f : K × V → R → Py σ R} (hf : ∀ kv x, Pays cost d (f kv x)) (t : Tree K V) :
    ∀ x, Pays cost ((inorder t).length * (d + 2)) (foldBack H f t x) := by
  induction t with
  | nothing => intro x; exact Pays.pure
  | leaf k v => intro x; exact (hf _ x).mono (by simp [inorder])
  | node k v l r h ihl ihr =>
    intro x
    rw [node_cost]
    exact (Pays.bind (Pays.call hc (ihr x)) fun _ => Pays.bind (hf _ _) fun _ => Pays.call hc (ihl _)).mono (by omega)

theorem fold_pays {f : R → K × V → Py σ R} (hf : ∀ x kv, Pays cost d (f x kv)) (t : Tree K V) :
    ∀ x, Pays cost ((inorder t).length * (d + 2)) (fold H f x t) := by
  induction t with
  | nothing => intro x; exact Pays.pure
  | leaf k v => intro x; exact (hf x _).mono (by simp [inorder])
  | node k v l r h ihl ihr =>
    intro x
    rw [node_cost]
    exact (Pays.bind (Pays.call hc (ihl x)) fun _ => Pays.bind (hf _ _) fun _ => Pays.call hc (ihr _)).mono (by omega)

theorem toListLoop_pays (t : Tree K V) : ∀ acc, Pays cost ((inorder t).length * 2) (toListLoop H t acc) := by
  induction t with
  | nothing => intro acc; exact Pays.pure
  | leaf k v => intro acc; exact Pays.pure
  | node k v l r h ihl ihr =>
    intro acc
    rw [node_cost]
    exact (Pays.bind (Pays.call hc (ihr _)) fun _ => Pays.call hc (ihl _)).mono (by omega)

end

/-! ### Operations that rebuild -/

section
variable (hc : Metered (fun _ => True) cost H) (hH : Compares (fun _ => True) cost c H)
include hc hH

/-- Only the shape of the accumulator matters. -/
abbrev Any : K × V → Prop := fun _ => True

theorem add_acc_pays {n D : Nat} (hD : depthBound n ≤ D) (k : K) (v : V) {t : Tree K V} (ht : Acc Any n t) :
    Does (fun _ => True) cost ((2 * c + 1) * D) (add H k v t) (Acc Any (n + 1)) := by
  refine (add_pays hc hH k v t ht.wf).weaken ?_ fun t' h => ?_
  · exact Nat.mul_le_mul_left _ (Nat.le_trans (Nat.le_trans (depth_le ht.wf ht.bal) (depthBound_mono ht.len)) hD)
  · exact ⟨h.wf, (h.bal ht.bal).1, Nat.le_trans h.put.length_le (Nat.succ_le_succ ht.len), fun _ _ => trivial⟩

theorem filterAux_pays {p : K → V → Py σ Bool} (hp : ∀ k v, Pays cost d (p k v)) {N D : Nat} (hD : depthBound N ≤ D)
    (t : Tree K V) : ∀ (n : Nat) (acc : Tree K V), n + (inorder t).length ≤ N → Acc Any n acc →
      Does (fun _ => True) cost ((inorder t).length * (d + 4 + (2 * c + 1) * D)) (filterAux H p t acc)
        (Acc Any (n + (inorder t).length)) := by
  have h1 : ∀ (k : K) (v : V) (n : Nat) (acc : Tree K V), n + 1 ≤ N → Acc Any n acc →
      Does (fun _ => True) cost (d + 2 + (2 * c + 1) * D) (H.call (filter1 H p k v acc)) (Acc Any (n + 1)) := by
    intro k v n acc hn ha
    have : Does (fun _ => True) cost (d + ((2 * c + 1) * D + 1)) (filter1 H p k v acc) (Acc Any (n + 1)) := by
      refine Does.bind (hp k v) fun b _ => Does.ite (fun _ => ?_) fun _ => ?_
      · exact hc _ _ _ _ (add_acc_pays hc hH (Nat.le_trans (depthBound_mono (by omega)) hD) k v ha)
      · exact Does.pure (ha.weaken (by omega) fun _ h => h)
    exact (hc _ _ _ _ this).weaken (by omega) fun _ h => h
  induction t with
  | nothing => intro n acc _ ha; exact Does.pure (ha.weaken (by omega) fun _ h => h)
  | leaf k v =>
    intro n acc hn ha
    simp only [inorder, List.length_singleton, Nat.one_mul] at hn ⊢
    exact (h1 k v n acc hn ha).weaken (by omega) fun _ h => h
  | node k v l r h ihl ihr =>
    intro n acc hn ha
    rw [node_cost]
    have e : (inorder (node k v l r h)).length = (inorder l).length + 1 + (inorder r).length := by simp [inorder]; omega
    rw [e] at hn ⊢
    refine Does.weaken (Does.bind (hc _ _ _ _ (ihl n acc (by omega) ha)) fun acc ha => ?_) (m := _) (n := (_ + 1) + ((d + 2 + (2 * c + 1) * D) +
      ((inorder r).length * (d + 4 + (2 * c + 1) * D) + 1))) (by omega) fun _ h => h
    refine Does.bind (h1 k v _ acc (by omega) ha) fun acc ha => ?_
    exact (hc _ _ _ _ (ihr _ acc (by omega) ha)).weaken (Nat.le_refl _) fun t h => h.weaken (by omega) fun _ h => h

theorem partitionAux_pays {p : K → V → Py σ Bool} (hp : ∀ k v, Pays cost d (p k v)) {N D : Nat} (hD : depthBound N ≤ D)
    (t : Tree K V) : ∀ (n : Nat) (acc : Tree K V × Tree K V), n + (inorder t).length ≤ N → Acc Any n acc.1 → Acc Any n acc.2 →
      Does (fun _ => True) cost ((inorder t).length * (d + 4 + (2 * c + 1) * D)) (partitionAux H p t acc)
        (fun a => Acc Any (n + (inorder t).length) a.1 ∧ Acc Any (n + (inorder t).length) a.2) := by
  have h1 : ∀ (k : K) (v : V) (n : Nat) (acc : Tree K V × Tree K V), n + 1 ≤ N → Acc Any n acc.1 → Acc Any n acc.2 →
      Does (fun _ => True) cost (d + 2 + (2 * c + 1) * D) (H.call (partition1 H p k v acc))
        (fun a => Acc Any (n + 1) a.1 ∧ Acc Any (n + 1) a.2) := by
    intro k v n acc hn ha hb
    have hD' : depthBound n ≤ D := Nat.le_trans (depthBound_mono (by omega)) hD
    have : Does (fun _ => True) cost (d + ((2 * c + 1) * D + 1 + 0)) (partition1 H p k v acc)
        (fun a => Acc Any (n + 1) a.1 ∧ Acc Any (n + 1) a.2) := by
      refine Does.bind (hp k v) fun b _ => Does.ite (fun _ => ?_) fun _ => ?_
      · exact Does.bind (hc _ _ _ _ (add_acc_pays hc hH hD' k v ha)) fun a h =>
          Does.pure ⟨h, hb.weaken (by omega) fun _ h => h⟩
      · exact Does.bind (hc _ _ _ _ (add_acc_pays hc hH hD' k v hb)) fun a h =>
          Does.pure ⟨ha.weaken (by omega) fun _ h => h, h⟩
    exact (hc _ _ _ _ this).weaken (by omega) fun _ h => h
  induction t with
  | nothing =>
    intro n acc _ ha hb
    exact Does.pure ⟨ha.weaken (by omega) fun _ h => h, hb.weaken (by omega) fun _ h => h⟩
  | leaf k v =>
    intro n acc hn ha hb
    simp only [inorder, List.length_singleton, Nat.one_mul] at hn ⊢
    exact (h1 k v n acc hn ha hb).weaken (by omega) fun _ h => h
  | node k v l r h ihl ihr =>
    intro n acc hn ha hb
    rw [node_cost]
    have e : (inorder (node k v l r h)).length = (inorder l).length + 1 + (inorder r).length := by simp [inorder]; omega
    rw [e] at hn ⊢
    refine Does.weaken (Does.bind (hc _ _ _ _ (ihr n acc (by omega) ha hb)) fun acc ha => ?_) (m := _) (n := (_ + 1) + ((d + 2 + (2 * c + 1) * D) +
      ((inorder l).length * (d + 4 + (2 * c + 1) * D) + 1))) (by omega) fun _ h => h
    refine Does.bind (h1 k v _ acc (by omega) ha.1 ha.2) fun acc ha => ?_
    exact (hc _ _ _ _ (ihl _ acc (by omega) ha.1 ha.2)).weaken (Nat.le_refl _) fun t h =>
      ⟨h.1.weaken (by omega) fun _ h => h, h.2.weaken (by omega) fun _ h => h⟩

theorem ofListFrom_pays {N D : Nat} (hD : depthBound N ≤ D) (xs : List (K × V)) :
    ∀ (n : Nat) (acc : Tree K V), n + xs.length ≤ N → Acc Any n acc →
    Does (fun _ => True) cost (xs.length * (2 + (2 * c + 1) * D))
      (xs.foldlM (fun acc kv => H.call (H.call (add H kv.1 kv.2 acc))) acc) (Acc Any (n + xs.length)) := by
  induction xs with
  | nil => intro n acc _ ha; exact Does.pure ha
  | cons x xs ih =>
    intro n acc hn ha
    simp only [List.length_cons] at hn ⊢
    have e : (xs.length + 1) * (2 + (2 * c + 1) * D) = ((2 * c + 1) * D + 1 + 1) + xs.length * (2 + (2 * c + 1) * D) := by
      rw [Nat.add_mul, Nat.one_mul]; omega
    rw [List.foldlM_cons, e]
    refine Does.bind (hc _ _ _ _ (hc _ _ _ _ (add_acc_pays hc hH (Nat.le_trans (depthBound_mono (by omega)) hD) x.1 x.2 ha)))
      fun acc ha => ?_
    exact (ih _ acc (by omega) ha).weaken (Nat.le_refl _) fun t h => h.weaken (by omega) fun _ h => h

theorem mkFromIterator_pays {N D : Nat} (hD : depthBound N ≤ D) (xs : List (K × V)) :
    ∀ (n : Nat) (acc : Tree K V), n + xs.length ≤ N → Acc Any n acc →
    Does (fun _ => True) cost (xs.length * (2 + (2 * c + 1) * D)) (mkFromIterator H acc xs) (Acc Any (n + xs.length)) := by
  induction xs with
  | nil => intro n acc _ ha; exact Does.pure ha
  | cons x xs ih =>
    intro n acc hn ha
    simp only [List.length_cons] at hn ⊢
    have e : (xs.length + 1) * (2 + (2 * c + 1) * D) = ((2 * c + 1) * D + 1) + (xs.length * (2 + (2 * c + 1) * D) + 1) := by
      rw [Nat.add_mul, Nat.one_mul]; omega
    rw [e]
    refine Does.bind (hc _ _ _ _ (add_acc_pays hc hH (Nat.le_trans (depthBound_mono (by omega)) hD) x.1 x.2 ha))
      fun acc ha => ?_
    exact hc _ _ _ _ ((ih _ acc (by omega) ha).weaken (Nat.le_refl _) fun t h => h.weaken (by omega) fun _ h => h)

end

/-! ### Maps made by insertion -/

theorem map_shape (hc : Metered (fun _ => True) cost H) (f : K → V → Py σ R) (h0 : ∀ w, cost w = 0) (t : Tree K V) (hw : WF t) :
    Does (fun _ => True) cost 0 (map H f t) (fun t' => WF t' ∧ height t' = height t ∧ (Bal t → Bal t')) := by
  have free : ∀ {α : Type} {n : Nat} {p : Py σ α} {Q : α → Prop}, Does (fun _ => True) cost n p Q →
      Does (fun _ => True) cost 0 p Q := fun h w => ⟨by rw [h0, h0]; exact Nat.le_refl _, (h w).2⟩
  have hf : ∀ k v, Pays cost 0 (f k v) := fun k v w => ⟨by rw [h0, h0]; exact Nat.le_refl _, fun _ _ => trivial, fun _ _ => trivial⟩
  induction t with
  | nothing => exact Does.pure ⟨trivial, rfl, fun _ => trivial⟩
  | leaf k v => exact Does.bind0 (hf k v) fun v2 _ => Does.pure ⟨trivial, rfl, fun _ => trivial⟩
  | node k v l r h ihl ihr =>
    refine Does.bind0 (free (hc _ _ _ _ (ihl hw.1))) fun l' hl => Does.bind0 (hf k v) fun v2 _ =>
      Does.bind0 (free (hc _ _ _ _ (ihr hw.2.1))) fun r' hr => ?_
    refine Does.pure ⟨⟨hl.1, hr.1, ?_, ?_⟩, rfl, ?_⟩
    · rw [hl.2.1, hr.2.1]; exact hw.2.2.1
    · rw [hl.2.1, hr.2.1]; exact hw.2.2.2
    · rintro ⟨b1, b2, d1, d2⟩
      exact ⟨hl.2.2 b1, hr.2.2 b2, by rw [hl.2.1, hr.2.1]; exact d1, by rw [hl.2.1, hr.2.1]; exact d2⟩

/-- The maps are balanced also where calls are counted (`Metered` at cost nothing says that a call gives what its body gives). -/
theorem madeByInsertion_metered (hc : Metered (fun _ => True) (fun _ => 0) H) {m : Map K V} (h : MadeByInsertion H m) :
    WF m.tree ∧ Bal m.tree := by
  have res : ∀ {α β : Type} {n : Nat} {p : Py σ α} {g : α → β} {Q : α → Prop} {w w' : σ} {b : β},
      Does (fun _ => True) (fun _ => 0) n p Q → (H.call (do pure (g (← H.call p)))).exec w = (.ok b, w') →
      ∃ a, Q a ∧ g a = b := by
    intro α β n p g Q w w' b hp e
    exact (hc _ _ _ _ ((hc _ _ _ _ hp).bind (m := 0) (S := fun b => ∃ a, Q a ∧ g a = b)
      fun a ha => Does.pure ⟨a, ha, rfl⟩)).result e
  have hp : ∀ {V : Type} (p : K → V → Py σ Bool) k v, Pays (fun _ => 0) 0 (p k v) :=
    fun p k v w => ⟨Nat.le_refl _, fun _ _ => trivial, fun _ _ => trivial⟩
  induction h with
  | empty => exact ⟨trivial, trivial⟩
  | ofList xs w w' e =>
    have := hc _ _ _ _ (hc _ _ _ _ ((hc _ _ _ _ (hc _ _ _ _ (ofListFrom_pays hc (compares_any H) (Nat.le_refl _) xs 0 nothing
      (Nat.le_refl _) Acc.nothing))).bind (m := 0) (S := fun m : Map K _ => WF m.tree ∧ Bal m.tree)
      fun a ha => Does.pure ⟨ha.wf, ha.bal⟩))
    exact this.result e
  | ofSeq xs w w' e =>
    have := hc _ _ _ _ (hc _ _ _ _ ((hc _ _ _ _ (hc _ _ _ _ (mkFromIterator_pays hc (compares_any H) (Nat.le_refl _) xs 0
      nothing (Nat.le_refl _) Acc.nothing))).bind (m := 0) (S := fun m : Map K _ => WF m.tree ∧ Bal m.tree)
      fun a ha => Does.pure ⟨ha.wf, ha.bal⟩))
    exact this.result e
  | add k v w w' _ e ih =>
    obtain ⟨t, ht, rfl⟩ := res (add_pays hc (compares_any H) k v _ ih.1) e
    exact ⟨ht.wf, (ht.bal ih.2).1⟩
  | filter p w w' _ e =>
    obtain ⟨t, ht, rfl⟩ := res (hc _ _ _ _ (filterAux_pays hc (compares_any H) (hp p) (Nat.le_refl _) _ 0 nothing (Nat.le_refl _)
      Acc.nothing)) e
    exact ⟨ht.wf, ht.bal⟩
  | partitionFst p w w' _ e =>
    obtain ⟨t, ht, rfl⟩ := res (hc _ _ _ _ (partitionAux_pays hc (compares_any H) (hp p) (Nat.le_refl _) _ 0 (nothing, nothing)
      (Nat.le_refl _) Acc.nothing Acc.nothing)) e
    exact ⟨ht.1.wf, ht.1.bal⟩
  | partitionSnd p w w' _ e =>
    obtain ⟨t, ht, rfl⟩ := res (hc _ _ _ _ (partitionAux_pays hc (compares_any H) (hp p) (Nat.le_refl _) _ 0 (nothing, nothing)
      (Nat.le_refl _) Acc.nothing Acc.nothing)) e
    exact ⟨ht.2.wf, ht.2.bal⟩
  | map f w w' _ e ih =>
    obtain ⟨t, ht, rfl⟩ := res (map_shape hc f (fun _ => rfl) _ ih.1) e
    exact ⟨ht.1, ht.2.2 ih.2⟩

/-! ### Iterators -/

/-- The calls a tree on the stack of an iterator is still going to cause. -/
def credit : Tree K V → Nat
  | node _ _ left right _ => credit left + credit right + 1
  | leaf _ _ => 0
  | nothing => 1

/-- The same for a whole stack, with the entries that are still to come. -/
def stackCredit (s : List (Tree K V)) : Nat := (s.map credit).sum

theorem credit_le (t : Tree K V) : credit t ≤ 2 * (inorder t).length + 1 := by
  induction t with
  | nothing => simp [credit, inorder]
  | leaf k v => simp [credit]
  | node k v l r h ihl ihr => simp only [credit, inorder, List.length_append, List.length_cons]; omega

theorem stackCredit_cons (t : Tree K V) (s : List (Tree K V)) : stackCredit (t :: s) = credit t + stackCredit s := by
  simp [stackCredit]

theorem stackCredit_collapse (s : List (Tree K V)) : stackCredit (MapTree.collapseLHS s) ≤ stackCredit s := by
  induction s using MapTree.collapseLHS.induct with
  | case1 => simp [MapTree.collapseLHS]
  | case2 key value left right h rest ih =>
    rw [MapTree.collapseLHS]
    simp only [stackCredit_cons, credit] at ih ⊢
    omega
  | case3 key value rest => simp [MapTree.collapseLHS]
  | case4 rest ih =>
    rw [MapTree.collapseLHS]
    simp only [stackCredit_cons, credit] at ih ⊢
    omega

section
variable (hc : Metered (fun _ => True) cost H)
include hc

theorem collapseLHS_pays (s : List (Tree K V)) : ∀ n, stackCredit s ≤ stackCredit (MapTree.collapseLHS s) + n →
    Does (fun _ => True) cost n (collapseLHS H s) (fun s' => s' = MapTree.collapseLHS s) := by
  induction s using MapTree.collapseLHS.induct with
  | case1 => intro n _; rw [collapseLHS, MapTree.collapseLHS]; exact Does.pure rfl
  | case2 key value left right h rest ih =>
    intro n hn
    have hle := stackCredit_collapse (left :: leaf key value :: right :: rest)
    rw [MapTree.collapseLHS] at hn ⊢
    rw [collapseLHS]
    simp only [stackCredit_cons, credit] at hn hle ih
    exact (hc _ _ _ _ (ih (n - 1) (by omega))).weaken (by omega) fun _ h => h
  | case3 key value rest => intro n _; rw [collapseLHS, MapTree.collapseLHS]; exact Does.pure rfl
  | case4 rest ih =>
    intro n hn
    have hle := stackCredit_collapse rest
    rw [MapTree.collapseLHS] at hn ⊢
    rw [collapseLHS]
    simp only [stackCredit_cons, credit] at hn
    exact (hc _ _ _ _ (ih (n - 1) (by omega))).weaken (by omega) fun _ h => h

theorem forEach_pays {body : K × V → Py σ Unit} (hb : ∀ kv, Pays cost d (body kv)) :
    ∀ (rounds : Nat) (s : List (Tree K V)),
      Pays cost (stackCredit s + (fringe s).length * (d + 2) + 1) (forEach H body rounds s)
  | 0, _ => Pays.pure
  | rounds + 1, s => by
    have fin : ∀ {p : Py σ (Option ((K × V) × List (Tree K V)))} {f : Option ((K × V) × List (Tree K V)) → Py σ (Option Unit)}
        {n m x : Nat} {Q : Option ((K × V) × List (Tree K V)) → Prop}, Does (fun _ => True) cost n p Q →
        (∀ o, Q o → Pays cost m (f o)) → n + 1 + m ≤ x → Pays cost x (H.call p >>= f) := fun hp hf hx =>
      Does.weaken (Does.bind (hc _ _ _ _ hp) hf) hx fun _ h => h
    rw [forEach]
    match s with
    | [] => exact fin (n := 0) (m := 0) (Q := fun o => o = none) (Does.pure rfl) (by rintro _ rfl; exact Pays.pure) (by omega)
    | node _ _ _ _ _ :: _ =>
      exact fin (n := 0) (m := 0) (Q := fun _ => False) (Does.raise trivial) (fun _ h => h.elim) (by omega)
    | nothing :: _ =>
      exact fin (n := 0) (m := 0) (Q := fun _ => False) (Does.raise trivial) (fun _ h => h.elim) (by omega)
    | leaf key value :: rest =>
      have hle := stackCredit_collapse rest
      have h1 : Does (fun _ => True) cost (stackCredit rest - stackCredit (MapTree.collapseLHS rest) + 1 + 0)
          (iterNext H (leaf key value :: rest)) (fun o => o = some ((key, value), MapTree.collapseLHS rest)) :=
        Does.bind (hc _ _ _ _ (collapseLHS_pays hc rest _ (by omega))) fun s' hs => Does.pure (by rw [hs])
      refine fin h1 (m := d + (stackCredit (MapTree.collapseLHS rest) + (fringe (MapTree.collapseLHS rest)).length * (d + 2) + 1))
        ?_ ?_
      · rintro _ rfl
        exact Pays.bind (hb _) fun _ => forEach_pays hb rounds _
      · rw [fringe_collapseLHS]
        have e : (fringe (leaf key value :: rest)).length = (fringe rest).length + 1 := by simp [fringe, inorder]
        rw [stackCredit_cons, credit, e, Nat.add_mul, Nat.one_mul]
        omega

theorem iterate_pays {body : K × V → Py σ Unit} (hb : ∀ kv, Pays cost d (body kv)) (rounds : Nat) (t : Tree K V) :
    Pays cost ((inorder t).length * (d + 4) + 4) (do
      let stack ← H.call (mkIterator H t)
      forEach H body rounds stack) := by
  have hle := stackCredit_collapse [t]
  have hcr := credit_le t
  have e : stackCredit [t] = credit t := by simp [stackCredit]
  have h1 : Does (fun _ => True) cost (stackCredit [t] - stackCredit (MapTree.collapseLHS [t]) + 1 + 1)
      (H.call (mkIterator H t)) (fun s => s = MapTree.collapseLHS [t]) :=
    hc _ _ _ _ (hc _ _ _ _ (collapseLHS_pays hc [t] _ (by omega)))
  refine Does.weaken (Does.bind h1 (m := stackCredit (MapTree.collapseLHS [t]) +
    (fringe (MapTree.collapseLHS [t])).length * (d + 2) + 1) ?_) ?_ fun _ h => h
  · rintro _ rfl
    exact forEach_pays hc hb rounds _
  · rw [fringe_collapseLHS]
    have e2 : (fringe [t]).length = (inorder t).length := by simp [fringe]
    rw [e2, Nat.mul_add, Nat.mul_add]
    omega

end
end Expression.MapHost
