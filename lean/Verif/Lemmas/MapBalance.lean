import Verif.Lemmas.MapTraverse
import Verif.Spec.Balance

/-! Balance of trees built by insertion. -/

namespace Expression.MapTree

open Expression Spec Tree

variable {K V R σ : Type}

theorem WF.depth_eq {t : Tree K V} (h : WF t) : depth t = height t := by
  induction t with
  | nothing => rfl
  | leaf => rfl
  | node k v l r hh ihl ihr =>
    obtain ⟨h1, h2, h3, _⟩ := h
    simp [depth, height, ihl h1, ihr h2, h3]

/-- `Balanced` in terms of cached heights. -/
def Bal : Tree K V → Prop
  | nothing => True
  | leaf _ _ => True
  | node _ _ l r _ => Bal l ∧ Bal r ∧ height l ≤ height r + 2 ∧ height r ≤ height l + 2

theorem Bal.balanced {t : Tree K V} (hw : WF t) (h : Bal t) : Balanced t := by
  induction t with
  | nothing => trivial
  | leaf => trivial
  | node k v l r hh ihl ihr =>
    obtain ⟨h1, h2, _, _⟩ := hw
    obtain ⟨b1, b2, b3, b4⟩ := h
    exact ⟨ihl h1 b1, ihr h2 b2, by rw [h1.depth_eq, h2.depth_eq]; exact b3,
      by rw [h1.depth_eq, h2.depth_eq]; exact b4⟩

/-- The two subtrees have different heights. -/
def Skew : Tree K V → Prop
  | node _ _ l r _ => height l ≠ height r
  | _ => True

theorem Bal_mk {l r : Tree K V} (k : K) (v : V) (hl : Bal l) (hr : Bal r)
    (h1 : height l ≤ height r + 2) (h2 : height r ≤ height l + 2) : Bal (mk l k v r) := by
  rcases mk_cases l k v r with ⟨_, _, e⟩ | ⟨_, e⟩
  · rw [e]; trivial
  · rw [e]; exact ⟨hl, hr, h1, h2⟩

theorem Skew_mk {l r : Tree K V} (k : K) (v : V) (h : height l ≠ height r) : Skew (mk l k v r) := by
  rcases mk_cases l k v r with ⟨h1, h2, e⟩ | ⟨_, e⟩
  · omega
  · rw [e]; exact h

/-- Rebalancing after the right subtree has grown by one. -/
theorem rebalance_grow_right {t1 t2 : Tree K V} (k : K) (v : V) (n : Nat) (h2 : WF t2)
    (b1 : Bal t1) (b2 : Bal t2) (hs : height t2 = n ∨ (height t2 = n + 1 ∧ Skew t2))
    (hn1 : height t1 ≤ n + 2) (hn2 : n ≤ height t1 + 2) :
    ∃ t, rebalance t1 k v t2 = .ok t ∧ Bal t ∧
      (height t = max (height t1) n + 1 ∨ (height t = max (height t1) n + 2 ∧ Skew t)) := by
  unfold rebalance
  have hT : TOLERANCE = 2 := rfl
  simp only
  split
  · rename_i hgt
    obtain ⟨e1, hskew⟩ : height t2 = n + 1 ∧ Skew t2 := by
      rcases hs with h | h
      · omega
      · exact h
    have en : n = height t1 + 2 := by omega
    match t2, h2, b2, hskew, e1, hgt with
    | nothing, _, _, _, e1, hgt => rw [height_nothing] at hgt; omega
    | leaf _ _, _, _, _, e1, hgt => rw [height_leaf] at hgt; omega
    | node k2 v2 l2 r2 hh, ⟨wl2, wr2, eh, _⟩, ⟨bl2, br2, d1, d2⟩, hskew, e1, hgt =>
      simp only [height_node] at e1 hgt
      simp only [Skew] at hskew
      simp only
      split
      · rename_i hgt2
        match l2, wl2, bl2, hgt2, d1, d2, hskew, eh with
        | nothing, _, _, hgt2, _, _, _, _ => simp [height] at hgt2
        | leaf _ _, _, _, hgt2, _, _, _, _ => simp [height] at hgt2
        | node k2l v2l l2l r2l hl, ⟨wa, wb, ehl, _⟩, ⟨ba, bb, da, db⟩, hgt2, d1, d2, hskew, eh =>
          simp only [height_node] at hgt2 d1 d2 hskew eh
          refine ⟨_, rfl, ?_, ?_⟩
          · apply Bal_mk
            · exact Bal_mk _ _ b1 ba (by omega) (by omega)
            · exact Bal_mk _ _ bb br2 (by omega) (by omega)
            · rw [height_mk, height_mk]; omega
            · rw [height_mk, height_mk]; omega
          · left; rw [height_mk, height_mk, height_mk]; omega
      · rename_i hgt2
        refine ⟨_, rfl, ?_, ?_⟩
        · apply Bal_mk
          · exact Bal_mk _ _ b1 bl2 (by omega) (by omega)
          · exact br2
          · rw [height_mk]; omega
          · rw [height_mk]; omega
        · left; rw [height_mk, height_mk]; omega
  · rename_i hgt
    rw [if_neg (by omega)]
    refine ⟨_, rfl, Bal_mk _ _ b1 b2 (by omega) (by omega), ?_⟩
    rw [height_mk]
    by_cases hlt : height t1 < height t2
    · rcases hs with h | ⟨h, _⟩
      · left; omega
      · by_cases h' : height t1 ≤ n
        · right; exact ⟨by omega, Skew_mk _ _ (by omega)⟩
        · omega
    · left; omega

/-- Rebalancing after the left subtree has grown by one. -/
theorem rebalance_grow_left {t1 t2 : Tree K V} (k : K) (v : V) (n : Nat) (h1 : WF t1)
    (b1 : Bal t1) (b2 : Bal t2) (hs : height t1 = n ∨ (height t1 = n + 1 ∧ Skew t1))
    (hn1 : height t2 ≤ n + 2) (hn2 : n ≤ height t2 + 2) :
    ∃ t, rebalance t1 k v t2 = .ok t ∧ Bal t ∧
      (height t = max n (height t2) + 1 ∨ (height t = max n (height t2) + 2 ∧ Skew t)) := by
  unfold rebalance
  have hT : TOLERANCE = 2 := rfl
  simp only
  rw [if_neg (by omega)]
  split
  · rename_i hgt
    obtain ⟨e1, hskew⟩ : height t1 = n + 1 ∧ Skew t1 := by
      rcases hs with h | h
      · omega
      · exact h
    have en : n = height t2 + 2 := by omega
    match t1, h1, b1, hskew, e1, hgt with
    | nothing, _, _, _, e1, hgt => rw [height_nothing] at hgt; omega
    | leaf _ _, _, _, _, e1, hgt => rw [height_leaf] at hgt; omega
    | node k2 v2 l2 r2 hh, ⟨wl2, wr2, eh, _⟩, ⟨bl2, br2, d1, d2⟩, hskew, e1, hgt =>
      simp only [height_node] at e1 hgt
      simp only [Skew] at hskew
      simp only
      split
      · rename_i hgt2
        match r2, wr2, br2, hgt2, d1, d2, hskew, eh with
        | nothing, _, _, hgt2, _, _, _, _ => simp [height] at hgt2
        | leaf _ _, _, _, hgt2, _, _, _, _ => simp [height] at hgt2
        | node k2l v2l l2l r2l hl, ⟨wa, wb, ehl, _⟩, ⟨ba, bb, da, db⟩, hgt2, d1, d2, hskew, eh =>
          simp only [height_node] at hgt2 d1 d2 hskew eh
          refine ⟨_, rfl, ?_, ?_⟩
          · apply Bal_mk
            · exact Bal_mk _ _ bl2 ba (by omega) (by omega)
            · exact Bal_mk _ _ bb b2 (by omega) (by omega)
            · rw [height_mk, height_mk]; omega
            · rw [height_mk, height_mk]; omega
          · left; rw [height_mk, height_mk, height_mk]; omega
      · rename_i hgt2
        refine ⟨_, rfl, ?_, ?_⟩
        · apply Bal_mk
          · exact bl2
          · exact Bal_mk _ _ br2 b2 (by omega) (by omega)
          · rw [height_mk]; omega
          · rw [height_mk]; omega
        · left; rw [height_mk, height_mk]; omega
  · rename_i hgt
    refine ⟨_, rfl, Bal_mk _ _ b1 b2 (by omega) (by omega), ?_⟩
    rw [height_mk]
    by_cases hlt : height t2 < height t1
    · rcases hs with h | ⟨h, _⟩
      · left; omega
      · by_cases h' : height t2 ≤ n
        · right; exact ⟨by omega, Skew_mk _ _ (by omega)⟩
        · omega
    · left; omega

section
variable [PyOrd K] [LawfulPyOrd K]

theorem add_bal (k : K) (v : V) {t t' : Tree K V} (hv : Valid t) (hb : Bal t) (e : add k v t = .ok t') :
    Bal t' ∧ (height t' = height t ∨ (height t' = height t + 1 ∧ Skew t')) := by
  induction t generalizing t' with
  | nothing =>
    simp only [add, Except.ok.injEq] at e; subst e
    exact ⟨trivial, Or.inr ⟨rfl, trivial⟩⟩
  | leaf key value =>
    simp only [add] at e
    split at e
    · simp only [Except.ok.injEq] at e; subst e
      exact ⟨by simp [Bal, height], Or.inr ⟨rfl, by simp [Skew, height]⟩⟩
    · split at e <;> simp only [Except.ok.injEq] at e <;> subst e
      · exact ⟨trivial, Or.inl rfl⟩
      · exact ⟨by simp [Bal, height], Or.inr ⟨rfl, by simp [Skew, height]⟩⟩
  | node key value l r h ihl ihr =>
    obtain ⟨bl, br, d1, d2⟩ := hb
    have hw := hv.wf
    simp only [add] at e
    split at e
    · obtain ⟨l', el, wl, _⟩ := add_ok k v hv.left
      obtain ⟨bl', hl'⟩ := ihl hv.left bl el
      obtain ⟨t'', e2, b2, h2⟩ := rebalance_grow_left key value (height l) wl bl' br hl' (by omega) (by omega)
      rw [el] at e
      have : t' = t'' := by have := e.symm.trans e2; simpa using this
      subst this
      refine ⟨b2, ?_⟩
      rw [height_node, hw.2.2.1]
      omega
    · split at e
      · simp only [Except.ok.injEq] at e; subst e
        exact ⟨⟨bl, br, d1, d2⟩, Or.inl rfl⟩
      · obtain ⟨r', er, wr, _⟩ := add_ok k v hv.right
        obtain ⟨br', hr'⟩ := ihr hv.right br er
        obtain ⟨t'', e2, b2, h2⟩ := rebalance_grow_right key value (height r) wr bl br' hr' (by omega) (by omega)
        rw [er] at e
        have : t' = t'' := by have := e.symm.trans e2; simpa using this
        subst this
        refine ⟨b2, ?_⟩
        rw [height_node, hw.2.2.1]
        omega

theorem ofList_fold_bal (xs : List (K × V)) {acc t : Tree K V} (hv : Valid acc) (hb : Bal acc)
    (e : xs.foldlM (fun acc kv => add kv.1 kv.2 acc) acc = .ok t) : Bal t := by
  induction xs generalizing acc with
  | nil => simp only [List.foldlM_nil] at e; cases e; exact hb
  | cons x xs ih =>
    obtain ⟨t1, e1, v1, _⟩ := add_valid x.1 x.2 hv
    simp only [List.foldlM_cons, e1] at e
    exact ih v1 (add_bal _ _ hv hb e1).1 e

end

/-! ### depth and size -/

theorem two_pow_height_le {t : Tree K V} (hw : WF t) (hb : Bal t) :
    2 ^ height t ≤ ((inorder t).length + 1) ^ 2 := by
  induction t with
  | nothing => simp [height, inorder]
  | leaf => simp [height, inorder]
  | node k v l r h ihl ihr =>
    obtain ⟨wl, wr, eh, g⟩ := hw
    obtain ⟨bl, br, d1, d2⟩ := hb
    have il := ihl wl bl
    have ir := ihr wr br
    rw [height_node, eh]
    simp only [inorder, List.length_append, List.length_cons]
    generalize (inorder l).length = a' at il ⊢
    generalize (inorder r).length = b' at ir ⊢
    have key : ∀ (m n a b : Nat), m ≤ n → n ≤ m + 2 → 2 ^ m ≤ a ^ 2 → 2 ^ n ≤ b ^ 2 → 2 ^ (n + 1) ≤ (a + b) ^ 2 := by
      intro m n a b h1 h2 h3 h4
      -- 4 * 2^m ≥ 2^n, so (2a)^2 ≥ b0^2 where 2^n ≤ ...
      have h5 : 2 ^ n ≤ (2 * a) ^ 2 := by
        calc 2 ^ n ≤ 2 ^ (m + 2) := Nat.pow_le_pow_right (by omega) h2
          _ = 4 * 2 ^ m := by rw [Nat.pow_add]; omega
          _ ≤ 4 * a ^ 2 := by omega
          _ = (2 * a) ^ 2 := by rw [Nat.mul_pow]
      have h6 : 2 ^ n ≤ 2 * a * b := by
        by_cases hc : 2 * a ≤ b
        · calc 2 ^ n ≤ (2 * a) ^ 2 := h5
            _ = (2 * a) * (2 * a) := by rw [Nat.pow_two]
            _ ≤ 2 * a * b := Nat.mul_le_mul_left _ hc
        · calc 2 ^ n ≤ b ^ 2 := h4
            _ = b * b := by rw [Nat.pow_two]
            _ ≤ 2 * a * b := Nat.mul_le_mul_right _ (by omega)
      have e2 : (a + b) ^ 2 = a ^ 2 + 2 * a * b + b ^ 2 := by
        rw [Nat.pow_two, Nat.pow_two, Nat.pow_two, Nat.add_mul, Nat.mul_add, Nat.mul_add, Nat.mul_assoc, Nat.mul_comm b a]
        omega
      rw [e2, Nat.pow_succ]
      omega
    rcases Nat.le_total (height l) (height r) with hle | hle
    · rw [Nat.max_eq_right hle]
      have := key (height l) (height r) (a' + 1) (b' + 1) hle (by omega) il ir
      calc 2 ^ (height r + 1) ≤ ((a' + 1) + (b' + 1)) ^ 2 := this
        _ ≤ _ := Nat.pow_le_pow_left (by omega) 2
    · rw [Nat.max_eq_left hle]
      have := key (height r) (height l) (b' + 1) (a' + 1) hle (by omega) ir il
      calc 2 ^ (height l + 1) ≤ (b' + 1 + (a' + 1)) ^ 2 := this
        _ ≤ _ := Nat.pow_le_pow_left (by omega) 2

theorem length_searchPath_le [PyOrd K] (k : K) (t : Tree K V) : (searchPath k t).length ≤ depth t := by
  induction t with
  | nothing => simp [searchPath, depth]
  | leaf => simp [searchPath, depth]
  | node key v l r h ihl ihr =>
    simp only [searchPath, depth, List.length_cons]
    split
    · simp
    · split <;> omega

end Expression.MapTree
