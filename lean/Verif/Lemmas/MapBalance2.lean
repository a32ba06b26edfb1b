import Verif.Lemmas.MapApi

/-! Balance of rebuilt maps, depth under removal, and unbounded imbalance. -/

namespace Expression.MapTree

open Expression Spec Tree

variable {K V R σ : Type}

/-- Every successful result of `p` satisfies `Q`. -/
def Post {α : Type} (Q : α → Prop) (p : Py σ α) : Prop := ∀ w a w', p.exec w = (.ok a, w') → Q a

theorem Post.pure {α : Type} {Q : α → Prop} {a : α} (h : Q a) : Post (σ := σ) Q (Pure.pure a) := by
  intro w b w' e; cases e; exact h

theorem Post.ofExcept {α : Type} {Q : α → Prop} {a : Except PyErr α} (h : ∀ b, a = .ok b → Q b) :
    Post (σ := σ) Q (Py.ofExcept a) := by
  intro w b w' e
  cases a with
  | error _ => cases e
  | ok x => cases e; exact h _ rfl

theorem Post.bind {α β : Type} {Q : α → Prop} {S : β → Prop} {p : Py σ α} {f : α → Py σ β}
    (h : Post Q p) (hf : ∀ a, Q a → Post S (f a)) : Post S (p >>= f) := by
  intro w b w' e
  rw [Py.exec_bind] at e
  rcases hp : p.exec w with ⟨_ | a, w1⟩
  · rw [hp] at e; cases e
  · rw [hp] at e; exact hf a (h w a w1 hp) w1 b w' e

theorem Post.true {α : Type} (p : Py σ α) : Post (fun _ => True) p := fun _ _ _ _ => trivial

section
variable [PyOrd K] [LawfulPyOrd K]

/-- the invariant of trees built by insertion -/
def Good (t : Tree K V) : Prop := Valid t ∧ Bal t

theorem good_add {k : K} {v : V} {t t' : Tree K V} (h : Good t) (e : add k v t = .ok t') : Good t' := by
  obtain ⟨t2, e2, v2, _⟩ := add_valid k v h.1
  rw [e2] at e; cases e
  exact ⟨v2, (add_bal k v h.1 h.2 e2).1⟩

theorem filterAux_good (p : K → V → Py σ Bool) (t : Tree K V) :
    ∀ acc, Good acc → Post Good (filterAux p t acc) := by
  have h1 : ∀ k v (acc : Tree K V), Good acc → Post Good (filter1 p k v acc) := by
    intro k v acc h
    simp only [filter1]
    refine Post.bind (Post.true _) ?_
    intro b _
    cases b
    · exact Post.pure h
    · exact Post.ofExcept (fun b e => good_add h e)
  induction t with
  | nothing => intro acc h; exact Post.pure h
  | leaf k v => intro acc h; exact h1 k v acc h
  | node k v l r hh ihl ihr =>
    intro acc h
    simp only [filterAux]
    exact Post.bind (ihl acc h) (fun a ha => Post.bind (h1 k v a ha) (fun b hb => ihr b hb))

theorem partitionAux_good (p : K → V → Py σ Bool) (t : Tree K V) :
    ∀ acc, Good acc.1 ∧ Good acc.2 → Post (fun a : Tree K V × Tree K V => Good a.1 ∧ Good a.2) (partitionAux p t acc) := by
  have h1 : ∀ k v (acc : Tree K V × Tree K V), Good acc.1 ∧ Good acc.2 →
      Post (fun a : Tree K V × Tree K V => Good a.1 ∧ Good a.2) (partition1 p k v acc) := by
    intro k v acc h
    simp only [partition1]
    refine Post.bind (Post.true _) ?_
    intro b _
    cases b
    · exact Post.bind (Post.ofExcept (fun b e => good_add h.2 e)) (fun a ha => Post.pure ⟨h.1, ha⟩)
    · exact Post.bind (Post.ofExcept (fun b e => good_add h.1 e)) (fun a ha => Post.pure ⟨ha, h.2⟩)
  induction t with
  | nothing => intro acc h; exact Post.pure h
  | leaf k v => intro acc h; exact h1 k v acc h
  | node k v l r hh ihl ihr =>
    intro acc h
    simp only [partitionAux]
    exact Post.bind (ihr acc h) (fun a ha => Post.bind (h1 k v a ha) (fun b hb => ihl b hb))

end

theorem map_bal (f : K → V → Py σ R) (t : Tree K V) (hb : Bal t) :
    Post (fun t' : Tree K R => height t' = height t ∧ Bal t') (map f t) := by
  induction t with
  | nothing => exact Post.pure ⟨rfl, trivial⟩
  | leaf k v =>
    simp only [map]
    exact Post.bind (Post.true _) (fun a _ => Post.pure ⟨rfl, trivial⟩)
  | node k v l r hh ihl ihr =>
    simp only [map]
    refine Post.bind (ihl hb.1) (fun l' hl => Post.bind (Post.true _) (fun v' _ => Post.bind (ihr hb.2.1) (fun r' hr => ?_)))
    refine Post.pure ⟨rfl, hl.2, hr.2, ?_⟩
    rw [hl.1, hr.1]; exact hb.2.2

/-! ### Depth under removal -/

theorem rebalance_height {t1 t2 : Tree K V} (k : K) (v : V) (h1 : WF t1) (h2 : WF t2) :
    ∃ t, rebalance t1 k v t2 = .ok t ∧ height t ≤ max (height t1) (height t2) + 1 := by
  unfold rebalance
  have hT : TOLERANCE = 2 := rfl
  simp only
  split
  · rename_i hgt
    match t2, h2 with
    | nothing, h2 => rw [height_nothing] at hgt; omega
    | leaf _ _, h2 => rw [height_leaf] at hgt; omega
    | node k2 v2 l2 r2 hh, h2 =>
      obtain ⟨hl2, hr2, e, g⟩ := h2
      simp only
      rw [height_node] at *
      split
      · rename_i hgt2
        match l2, hl2 with
        | nothing, _ => rw [height_nothing] at hgt2; omega
        | leaf _ _, _ => rw [height_leaf] at hgt2; omega
        | node k2l v2l l2l r2l _, ⟨a, b, c, d⟩ =>
          refine ⟨_, rfl, ?_⟩
          simp only [height_mk, height_node] at *
          omega
      · refine ⟨_, rfl, ?_⟩
        simp only [height_mk]
        omega
  · split
    · rename_i hgt
      match t1, h1 with
      | nothing, h1 => rw [height_nothing] at hgt; omega
      | leaf _ _, h1 => rw [height_leaf] at hgt; omega
      | node k1 v1 l1 r1 hh, h1 =>
        obtain ⟨hl1, hr1, e, g⟩ := h1
        simp only
        rw [height_node] at *
        split
        · rename_i hgt2
          match r1, hr1 with
          | nothing, _ => rw [height_nothing] at hgt2; omega
          | leaf _ _, _ => rw [height_leaf] at hgt2; omega
          | node k1r v1r l1r r1r _, ⟨a, b, c, d⟩ =>
            refine ⟨_, rfl, ?_⟩
            simp only [height_mk, height_node] at *
            omega
        · refine ⟨_, rfl, ?_⟩
          simp only [height_mk]
          omega
    · refine ⟨_, rfl, ?_⟩
      rw [height_mk]; omega

theorem splice_height {t : Tree K V} (h : WF t) (hne : t ≠ nothing) :
    ∃ k v t', spliceOutSuccessor t = .ok (k, v, t') ∧ height t' ≤ height t := by
  induction t with
  | nothing => exact absurd rfl hne
  | leaf k v => exact ⟨k, v, nothing, rfl, by rw [height_nothing]; omega⟩
  | node k v l r hh ihl _ =>
    obtain ⟨hl, hr, e, _⟩ := h
    simp only [spliceOutSuccessor]
    rw [height_node]
    split
    · exact ⟨k, v, r, rfl, by omega⟩
    · rename_i he
      obtain ⟨k3, v3, l', e1, h1⟩ := ihl hl (isEmpty_false he)
      refine ⟨k3, v3, mk l' k v r, by rw [e1]; rfl, ?_⟩
      rw [height_mk]; omega

section
variable [PyOrd K] [LawfulPyOrd K]

theorem remove_height (k : K) {t t' : Tree K V} (hv : Valid t) (e : remove k t = .ok t') : height t' ≤ height t := by
  induction t generalizing t' with
  | nothing => cases e; exact Nat.le_refl _
  | leaf key value =>
    simp only [remove] at e
    split at e
    · cases e; rw [height_nothing]; omega
    · cases e; exact Nat.le_refl _
  | node key value l r hh ihl ihr =>
    have hw := hv.wf
    obtain ⟨hl, hr, e1, _⟩ := hw
    simp only [remove] at e
    rw [height_node]
    split at e
    · obtain ⟨l', el, vl, _⟩ := remove_valid k hv.left
      have := ihl hv.left el
      rw [el] at e
      obtain ⟨t2, e2, h2⟩ := rebalance_height key value vl.wf hr
      change rebalance l' key value r = _ at e
      rw [e2] at e; cases e; omega
    · split at e
      · split at e
        · cases e; omega
        · split at e
          · cases e; omega
          · rename_i _ _ he2
            obtain ⟨sk, sv, r', es, hs⟩ := splice_height hr (isEmpty_false he2)
            rw [es] at e
            cases e
            change height (mk l sk sv r') ≤ hh
            rw [height_mk]; omega
      · obtain ⟨r', er, vr, _⟩ := remove_valid k hv.right
        have := ihr hv.right er
        rw [er] at e
        obtain ⟨t2, e2, h2⟩ := rebalance_height key value hl vr.wf
        change rebalance l key value r' = _ at e
        rw [e2] at e; cases e; omega

end

/-! ### Imbalance: removing the root over and over -/

/-- Any tree of `n` bindings has at least `log₂ (n + 1)` levels. -/
theorem length_lt_two_pow_depth (t : Tree K V) : (inorder t).length < 2 ^ depth t := by
  induction t with
  | nothing => simp [inorder, depth]
  | leaf => simp [inorder, depth]
  | node k v l r h ihl ihr =>
    simp only [inorder, depth, List.length_append, List.length_cons, Nat.pow_succ]
    have hl : 2 ^ depth l ≤ 2 ^ max (depth l) (depth r) := Nat.pow_le_pow_right (by omega) (by omega)
    have hr : 2 ^ depth r ≤ 2 ^ max (depth l) (depth r) := Nat.pow_le_pow_right (by omega) (by omega)
    omega

variable [PyOrd K] [LawfulPyOrd K]

/-- Removing the root key of `node k v l r _` leaves `l` in place and takes the least binding of `r` as the new root. -/
theorem remove_root {k : K} {v : V} {l r : Tree K V} {h : Nat} (hw : WF (node k v l r h)) (hl : l ≠ nothing)
    (hr : r ≠ nothing) : ∃ k' v' r' h', remove k (node k v l r h) = .ok (node k' v' l r' h') ∧
      (inorder r').length + 1 = (inorder r).length := by
  obtain ⟨wl, wr, _, _⟩ := hw
  obtain ⟨sk, sv, r', es, ws, i⟩ := splice_ok wr hr
  have hl' : ¬ isEmpty l = true := fun h => hl (by cases l <;> simp_all [isEmpty])
  have hr' : ¬ isEmpty r = true := fun h => hr (by cases r <;> simp_all [isEmpty])
  have hlh : height l ≠ 0 := fun h0 => hl (wl.height_zero h0)
  have hm : mk l sk sv r' = node sk sv l r' (max (height l) (height r') + 1) := by
    rcases mk_cases l sk sv r' with ⟨h1, _, _⟩ | ⟨_, e⟩
    · exact absurd h1 hlh
    · exact e
  refine ⟨sk, sv, r', max (height l) (height r') + 1, ?_, by rw [i]; rfl⟩
  simp only [remove, LawfulPyOrd.irrefl, key_eq_refl, if_true, hl', hr', Bool.false_eq_true, if_false, es]
  change Except.ok (mk l sk sv r') = _
  rw [hm]

/-- From any map with a root, removals lead to one whose left subtree is the same and whose right subtree is empty. -/
theorem drain_right {l : Tree K V} (hl : l ≠ nothing) : ∀ (n : Nat) (k : K) (v : V) (r : Tree K V) (h : Nat),
    (inorder r).length = n → Reachable (⟨node k v l r h⟩ : Map K V) →
    ∃ k' v' h', Reachable (⟨node k' v' l nothing h'⟩ : Map K V) := by
  intro n
  induction n with
  | zero =>
    intro k v r h hn hr
    have : inorder r = [] := List.length_eq_zero_iff.1 hn
    have : r = nothing := by
      cases r with
      | nothing => rfl
      | leaf => simp [inorder] at this
      | node => simp [inorder] at this
    subst this
    exact ⟨k, v, h, hr⟩
  | succ n ih =>
    intro k v r h hn hr
    have hv : MapTree.Valid (node k v l r h) := Map.Reachable.valid hr
    obtain ⟨k', v', r', h', e, i⟩ := remove_root hv.wf hl (by rintro rfl; simp [inorder] at hn)
    refine ih k' v' r' h' (by omega) (Reachable.remove k hr ?_)
    simp only [Map.remove, e]; rfl

end Expression.MapTree
