import Verif.Lemmas.MapBalance2

/-! Removals can make a map as deep as it is long. -/

namespace Expression.MapTree

open Expression Spec Tree

/-- From `t` to `t'` by additions and removals of keys from `lo` up to `hi` (exclusive), through trees of heights from `a` to `b` only. -/
inductive Path (lo hi : Int) (a b : Nat) : Tree Int Unit → Tree Int Unit → Prop
  | refl {t} : a ≤ height t → height t ≤ b → Path lo hi a b t t
  | add {t t1 t2} (k : Int) : Path lo hi a b t t1 → lo ≤ k → k < hi → add k () t1 = .ok t2 → a ≤ height t2 → height t2 ≤ b → Path lo hi a b t t2
  | remove {t t1 t2} (k : Int) : Path lo hi a b t t1 → lo ≤ k → k < hi → remove k t1 = .ok t2 → a ≤ height t2 → height t2 ≤ b →
      Path lo hi a b t t2

namespace Path

variable {lo hi lo' hi' : Int} {a b a' b' : Nat} {t t1 t2 l l' r r' : Tree Int Unit}

theorem trans (h : Path lo hi a b t t1) (h' : Path lo hi a b t1 t2) : Path lo hi a b t t2 := by
  induction h' with
  | refl => exact h
  | add k _ h1 h2 e h3 h4 ih => exact .add k ih h1 h2 e h3 h4
  | remove k _ h1 h2 e h3 h4 ih => exact .remove k ih h1 h2 e h3 h4

theorem mono (h : Path lo hi a b t t1) (h1 : lo' ≤ lo) (h2 : hi ≤ hi') (h3 : a' ≤ a) (h4 : b ≤ b') : Path lo' hi' a' b' t t1 := by
  induction h with
  | refl h5 h6 => exact .refl (by omega) (by omega)
  | add k _ h5 h6 e h7 h8 ih => exact .add k ih (by omega) (by omega) e (by omega) (by omega)
  | remove k _ h5 h6 e h7 h8 ih => exact .remove k ih (by omega) (by omega) e (by omega) (by omega)

theorem last (h : Path lo hi a b t t1) : a ≤ height t1 ∧ height t1 ≤ b := by
  cases h <;> exact ⟨by assumption, by assumption⟩

theorem reachable (h : Path lo hi a b t t1) (hr : Reachable (⟨t⟩ : Map Int Unit)) : Reachable (⟨t1⟩ : Map Int Unit) := by
  induction h with
  | refl => exact hr
  | add k _ _ _ e _ _ ih => exact Reachable.add k () ih (by simp only [Map.add, e]; rfl)
  | remove k _ _ _ e _ _ ih => exact Reachable.remove k ih (by simp only [Map.remove, e]; rfl)

theorem rebalance_mk (l r : Tree Int Unit) (k : Int) (h1 : height l ≤ height r + 2) (h2 : height r ≤ height l + 2) (h3 : 1 ≤ max (height l) (height r)) :
    rebalance l k () r = .ok (node k () l r (max (height l) (height r) + 1)) := by
  have hm : mk l k () r = node k () l r (max (height l) (height r) + 1) := by
    rcases mk_cases l k () r with ⟨e1, e2, _⟩ | ⟨_, e⟩
    · omega
    · exact e
  have hT : TOLERANCE = 2 := rfl
  simp only [rebalance]
  rw [if_neg (by omega), if_neg (by omega), hm]

/-- work in the left subtree -/
theorem left {key : Int} (h : Path lo key a b l l') (ha : 1 ≤ a) (hb : b ≤ height r + 2) (hr : height r ≤ a + 2) (hkey : key ≤ hi)
    (h1 : a' ≤ max a (height r) + 1) (h2 : max b (height r) + 1 ≤ b') :
    Path lo hi a' b' (node key () l r (max (height l) (height r) + 1)) (node key () l' r (max (height l') (height r) + 1)) := by
  induction h with
  | refl h3 h4 => exact .refl (by rw [height_node]; omega) (by rw [height_node]; omega)
  | @add t1 t2 k hp h3 h4 e h5 h6 ih =>
    refine .add k ih h3 (by omega) ?_ (by rw [height_node]; omega) (by rw [height_node]; omega)
    have : PyOrd.lt k key = true := by simp only [PyOrd.lt, decide_eq_true_eq]; omega
    simp only [MapTree.add, this, if_true, e]
    exact rebalance_mk t2 r key (by omega) (by omega) (by omega)
  | @remove t1 t2 k hp h3 h4 e h5 h6 ih =>
    refine .remove k ih h3 (by omega) ?_ (by rw [height_node]; omega) (by rw [height_node]; omega)
    have : PyOrd.lt k key = true := by simp only [PyOrd.lt, decide_eq_true_eq]; omega
    simp only [MapTree.remove, this, if_true, e]
    exact rebalance_mk t2 r key (by omega) (by omega) (by omega)

/-- work in the right subtree -/
theorem right {key : Int} (h : Path (key + 1) hi a b r r') (ha : 1 ≤ a) (hb : b ≤ height l + 2) (hl : height l ≤ a + 2) (hkey : lo ≤ key)
    (h1 : a' ≤ max (height l) a + 1) (h2 : max (height l) b + 1 ≤ b') :
    Path lo hi a' b' (node key () l r (max (height l) (height r) + 1)) (node key () l r' (max (height l) (height r') + 1)) := by
  induction h with
  | refl h3 h4 => exact .refl (by rw [height_node]; omega) (by rw [height_node]; omega)
  | @add t1 t2 k hp h3 h4 e h5 h6 ih =>
    refine .add k ih (by omega) h4 ?_ (by rw [height_node]; omega) (by rw [height_node]; omega)
    have h7 : PyOrd.lt k key = false := by simp only [PyOrd.lt, decide_eq_false_iff_not]; omega
    have h8 : PyOrd.eq k key = false := by simp only [PyOrd.eq, decide_eq_false_iff_not]; omega
    simp only [MapTree.add, h7, h8, Bool.false_eq_true, if_false, e]
    exact rebalance_mk l t2 key (by omega) (by omega) (by omega)
  | @remove t1 t2 k hp h3 h4 e h5 h6 ih =>
    refine .remove k ih (by omega) h4 ?_ (by rw [height_node]; omega) (by rw [height_node]; omega)
    have h7 : PyOrd.lt k key = false := by simp only [PyOrd.lt, decide_eq_false_iff_not]; omega
    have h8 : PyOrd.eq k key = false := by simp only [PyOrd.eq, decide_eq_false_iff_not]; omega
    simp only [MapTree.remove, h7, h8, Bool.false_eq_true, if_false, e]
    exact rebalance_mk l t2 key (by omega) (by omega) (by omega)

end Path

/-- a full tree of `d + 1` levels with keys from `lo` up to `lo + 4 ^ k` (exclusive) -/
def full : Nat → Nat → Int → Tree Int Unit
  | 0, _, lo => leaf lo ()
  | d + 1, k, lo => node (lo + 4 ^ (k - 1)) () (full d (k - 1) lo) (full d (k - 1) (lo + 4 ^ (k - 1) + 1)) (d + 2)

theorem height_full (d k : Nat) (lo : Int) : height (full d k lo) = d + 1 := by
  cases d <;> rfl

theorem wf_full (d k : Nat) (lo : Int) : WF (full d k lo) := by
  induction d generalizing k lo with
  | zero => trivial
  | succ d ih => exact ⟨ih _ _, ih _ _, by simp only [height_full]; omega, by simp only [height_full]; omega⟩

theorem keys_full (d k : Nat) (lo : Int) (h : d ≤ k) : ∀ kv ∈ inorder (full d k lo), lo ≤ kv.1 ∧ kv.1 < lo + 4 ^ k := by
  induction d generalizing k lo with
  | zero =>
    intro kv hkv
    simp only [full, inorder, List.mem_singleton] at hkv
    subst hkv
    have : (0 : Int) < 4 ^ k := Int.pow_pos (by decide)
    simp only; omega
  | succ d ih =>
    obtain ⟨k, rfl⟩ : ∃ j, k = j + 1 := ⟨k - 1, by omega⟩
    intro kv hkv
    simp only [full, inorder, List.mem_append, List.mem_cons, Nat.add_sub_cancel] at hkv
    have hp : (0 : Int) < 4 ^ k := Int.pow_pos (by decide)
    have hs : (4 : Int) ^ (k + 1) = 4 ^ k * 4 := Int.pow_succ ..
    rcases hkv with hkv | rfl | hkv
    · have := ih k lo (by omega) kv hkv; omega
    · simp only; omega
    · have := ih k (lo + 4 ^ k + 1) (by omega) kv hkv; omega

/-- one more level -/
theorem grow_full (d k : Nat) (lo : Int) (h : d + 1 ≤ k) : Path lo (lo + 4 ^ k) (d + 1) (d + 2) (full d k lo) (full (d + 1) k lo) := by
  induction d generalizing k lo with
  | zero =>
    obtain ⟨k, rfl⟩ : ∃ j, k = j + 1 := ⟨k - 1, by omega⟩
    have hp : (0 : Int) < 4 ^ k := Int.pow_pos (by decide)
    have hs : (4 : Int) ^ (k + 1) = 4 ^ k * 4 := Int.pow_succ ..
    simp only [full, Nat.add_sub_cancel]
    have p0 : Path lo (lo + 4 ^ (k + 1)) 1 2 (leaf lo ()) (leaf lo ()) := .refl (Nat.le_refl _) (by rw [height_leaf]; omega)
    have p1 : Path lo (lo + 4 ^ (k + 1)) 1 2 (leaf lo ()) (node (lo + 4 ^ k) () (leaf lo ()) nothing 2) := by
      refine .add (lo + 4 ^ k) p0 (by omega) (by omega) ?_ (by rw [height_node]; omega) (Nat.le_refl _)
      have h7 : PyOrd.lt (lo + 4 ^ k) lo = false := by simp only [PyOrd.lt, decide_eq_false_iff_not]; omega
      have h8 : PyOrd.eq (lo + 4 ^ k) lo = false := by simp only [PyOrd.eq, decide_eq_false_iff_not]; omega
      simp only [MapTree.add, h7, h8, Bool.false_eq_true, if_false]
    refine .add (lo + 4 ^ k + 1) p1 (by omega) (by omega) ?_ (by rw [height_node]; omega) (Nat.le_refl _)
    have h7 : PyOrd.lt (lo + 4 ^ k + 1) (lo + 4 ^ k) = false := by simp only [PyOrd.lt, decide_eq_false_iff_not]; omega
    have h8 : PyOrd.eq (lo + 4 ^ k + 1) (lo + 4 ^ k) = false := by simp only [PyOrd.eq, decide_eq_false_iff_not]; omega
    simp only [MapTree.add, h7, h8, Bool.false_eq_true, if_false]
    rfl
  | succ d ih =>
    obtain ⟨k, rfl⟩ : ∃ j, k = j + 1 := ⟨k - 1, by omega⟩
    have hp : (0 : Int) < 4 ^ k := Int.pow_pos (by decide)
    have hs : (4 : Int) ^ (k + 1) = 4 ^ k * 4 := Int.pow_succ ..
    have e1 : full (d + 1) (k + 1) lo = node (lo + 4 ^ k) () (full d k lo) (full d k (lo + 4 ^ k + 1)) (d + 2) := rfl
    have e2 : full (d + 1 + 1) (k + 1) lo = node (lo + 4 ^ k) () (full (d + 1) k lo) (full (d + 1) k (lo + 4 ^ k + 1)) (d + 3) := rfl
    have hL := Path.left (r := full d k (lo + 4 ^ k + 1)) (hi := lo + 4 ^ (k + 1)) (a' := d + 2) (b' := d + 3) (ih k lo (by omega)) (by omega)
      (by rw [height_full]; omega) (by rw [height_full]; omega) (by omega) (by rw [height_full]; omega) (by rw [height_full]; omega)
    have hR := Path.right (l := full (d + 1) k lo) (lo := lo) (hi := lo + 4 ^ (k + 1)) (a' := d + 2) (b' := d + 3) (key := lo + 4 ^ k)
      ((ih k (lo + 4 ^ k + 1) (by omega)).mono (Int.le_refl _) (by omega) (Nat.le_refl _) (Nat.le_refl _)) (by omega)
      (by rw [height_full]; omega) (by rw [height_full]; omega) (by omega) (by rw [height_full]; omega) (by rw [height_full]; omega)
    simp only [height_full] at hL hR
    rw [e1, e2]
    have m1 : max (d + 1) (d + 1) + 1 = d + 2 := by omega
    have m2 : max (d + 1 + 1) (d + 1 + 1) + 1 = d + 3 := by omega
    rw [m1] at hL
    rw [m2] at hR
    exact hL.trans hR

/-- Removing the root over and over empties the right subtree. -/
theorem drain_path {lo hi : Int} {n : Nat} {l : Tree Int Unit} (hl : height l = n + 1) (wl : WF l) : ∀ (c : Nat) (key : Int) (r : Tree Int Unit),
    (inorder r).length = c → WF r → height r ≤ n + 1 → lo ≤ key → key < hi → (∀ kv ∈ inorder r, lo ≤ kv.1 ∧ kv.1 < hi) →
    ∃ key', Path lo hi (n + 2) (n + 2) (node key () l r (n + 2)) (node key' () l nothing (n + 2)) := by
  have hne : l ≠ nothing := by rintro rfl; rw [height_nothing] at hl; omega
  intro c
  induction c with
  | zero =>
    intro key r hc _ _ _ _ _
    have : inorder r = [] := List.length_eq_zero_iff.1 hc
    have : r = nothing := by
      cases r with
      | nothing => rfl
      | leaf => simp [inorder] at this
      | node => simp [inorder] at this
    subst this
    exact ⟨key, .refl (Nat.le_refl _) (Nat.le_refl _)⟩
  | succ c ih =>
    intro key r hc wr hr h1 h2 h3
    have hrn : r ≠ nothing := by rintro rfl; simp [inorder] at hc
    obtain ⟨sk, sv, r', es, ws, i⟩ := splice_ok wr hrn
    obtain ⟨sk2, sv2, r2, es2, hh⟩ := splice_height wr hrn
    rw [es] at es2; cases es2
    rw [i] at h3 hc
    obtain ⟨h4, h5⟩ := h3 (sk, sv) (List.mem_cons_self ..)
    obtain ⟨key', p⟩ := ih sk r' (by simpa using hc) ws (by omega) h4 h5 (fun kv hkv => h3 kv (List.mem_cons_of_mem _ hkv))
    refine ⟨key', Path.trans (.remove key (.refl (Nat.le_refl _) (Nat.le_refl _)) h1 h2 ?_ (Nat.le_refl _) (Nat.le_refl _)) p⟩
    have hl' : ¬ isEmpty l = true := fun h => hne (by cases l <;> simp_all [isEmpty])
    have hr' : ¬ isEmpty r = true := fun h => hrn (by cases r <;> simp_all [isEmpty])
    have hm : mk l sk sv r' = node sk sv l r' (n + 2) := by
      rcases mk_cases l sk sv r' with ⟨h1, _, _⟩ | ⟨_, e⟩
      · omega
      · rw [e]; congr 1; omega
    simp only [MapTree.remove, LawfulPyOrd.irrefl, key_eq_refl, if_true, hl', hr', Bool.false_eq_true, if_false, es]
    change Except.ok (mk l sk sv r') = _
    rw [hm]

/-- A full tree can be thinned out to one entry per level. -/
theorem thin_full (d k : Nat) (lo : Int) (h : d ≤ k) :
    ∃ t, Path lo (lo + 4 ^ k) (d + 1) (d + 1) (full d k lo) t ∧ (inorder t).length = d + 1 ∧ WF t := by
  induction d generalizing k lo with
  | zero => exact ⟨leaf lo (), .refl (by rw [height_full]; omega) (by rw [height_full]; omega), rfl, trivial⟩
  | succ d ih =>
    obtain ⟨k, rfl⟩ : ∃ j, k = j + 1 := ⟨k - 1, by omega⟩
    have hp : (0 : Int) < 4 ^ k := Int.pow_pos (by decide)
    have hs : (4 : Int) ^ (k + 1) = 4 ^ k * 4 := Int.pow_succ ..
    obtain ⟨t, p, hl, hw⟩ := ih k lo (by omega)
    have hh := p.last
    have ht : height t = d + 1 := by omega
    have hL := Path.left (r := full d k (lo + 4 ^ k + 1)) (hi := lo + 4 ^ (k + 1)) (a' := d + 2) (b' := d + 2) p (by omega)
      (by rw [height_full]; omega) (by rw [height_full]; omega) (by omega) (by rw [height_full]; omega) (by rw [height_full]; omega)
    simp only [height_full, ht] at hL
    have m1 : max (d + 1) (d + 1) + 1 = d + 2 := by omega
    rw [m1] at hL
    obtain ⟨key', q⟩ := drain_path (lo := lo) (hi := lo + 4 ^ (k + 1)) ht hw _ (lo + 4 ^ k) (full d k (lo + 4 ^ k + 1)) rfl (wf_full ..)
      (by rw [height_full]; omega) (by omega) (by omega) (fun kv hkv => by have := keys_full d k (lo + 4 ^ k + 1) (by omega) kv hkv; omega)
    refine ⟨_, hL.trans q, ?_, ?_⟩
    · simp only [inorder, List.length_append, List.length_cons, List.length_nil, hl]
    · exact ⟨hw, trivial, by rw [ht, height_nothing]; omega, by rw [ht]; omega⟩

theorem full_reachable (d k : Nat) (h : d ≤ k) : Reachable (⟨full d k 0⟩ : Map Int Unit) := by
  induction d with
  | zero => exact Reachable.add 0 () Reachable.empty rfl
  | succ d ih => exact (grow_full d k 0 h).reachable (ih (by omega))

/-- A tree has no more levels than entries. -/
theorem depth_le_length {K V : Type} (t : Tree K V) : depth t ≤ (inorder t).length := by
  induction t with
  | nothing => exact Nat.le_refl _
  | leaf => exact Nat.le_refl _
  | node k v l r h ihl ihr => simp only [depth, inorder, List.length_append, List.length_cons]; omega

/-- Some entry is on the lowest level: looking it up passes all levels. -/
theorem deepest {K V : Type} [PyOrd K] [LawfulPyOrd K] {t : Tree K V} (hv : Valid t) (hne : t ≠ nothing) :
    ∃ kv ∈ inorder t, (searchPath kv.1 t).length = depth t := by
  induction t with
  | nothing => exact absurd rfl hne
  | leaf k v => exact ⟨(k, v), List.mem_cons_self .., rfl⟩
  | node k v l r h ihl ihr =>
    by_cases hd : depth r ≤ depth l
    · have hl : l ≠ nothing := by
        rintro rfl
        have h1 := hv.wf.2.2.2
        have h2 := hv.wf.2.1.depth_eq
        rw [height_nothing] at h1
        simp only [depth] at hd
        omega
      obtain ⟨kv, hm, e⟩ := ihl hv.left hl
      have hlt := hv.allLt kv hm
      refine ⟨kv, by simp only [inorder, List.mem_append]; exact .inl hm, ?_⟩
      simp only [searchPath, hlt, key_lt_not_eq hlt, Bool.false_eq_true, if_false, if_true, List.length_cons, depth, e]
      omega
    · have hr : r ≠ nothing := by rintro rfl; simp only [depth] at hd; omega
      obtain ⟨kv, hm, e⟩ := ihr hv.right hr
      have hgt := hv.allGt kv hm
      refine ⟨kv, by simp only [inorder, List.mem_append, List.mem_cons]; exact .inr (.inr hm), ?_⟩
      simp only [searchPath, key_lt_asymm hgt, key_gt_not_eq hgt, Bool.false_eq_true, if_false, List.length_cons, depth, e]
      omega

end Expression.MapTree
