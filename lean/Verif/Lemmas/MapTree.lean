import Verif.Model.Map
import Verif.Spec.Balance
import Verif.Lemmas.SortedAssoc

/-! Lemmas about the tree: exact cached heights, in-order lists of all operations. -/

namespace Expression.MapTree

open Expression Spec Tree

variable {K V R σ : Type}

/-- In-order list of bindings. -/
def inorder : Tree K V → List (K × V)
  | nothing => []
  | leaf k v => [(k, v)]
  | node k v l r _ => inorder l ++ (k, v) :: inorder r

/-- Cached heights are exact; a node has a child. -/
def WF : Tree K V → Prop
  | nothing => True
  | leaf _ _ => True
  | node _ _ l r h => WF l ∧ WF r ∧ h = max (height l) (height r) + 1 ∧ 1 ≤ max (height l) (height r)

theorem height_node (k : K) (v : V) (l r : Tree K V) (h : Nat) : height (node k v l r h) = h := rfl
theorem height_leaf (k : K) (v : V) : height (leaf k v) = 1 := rfl
theorem height_nothing : height (nothing : Tree K V) = 0 := rfl

theorem WF.height_zero {t : Tree K V} (h : WF t) (h0 : height t = 0) : t = nothing := by
  cases t with
  | nothing => rfl
  | leaf => simp [height] at h0
  | node k v l r hh => obtain ⟨_, _, h3, _⟩ := h; simp only [height] at h0; omega

theorem toListLoop_eq (t : Tree K V) : ∀ acc, toListLoop t acc = inorder t ++ acc := by
  induction t with
  | nothing => intro acc; rfl
  | leaf => intro acc; rfl
  | node k v l r h ihl ihr => intro acc; simp [toListLoop, inorder, ihl, ihr]

theorem toList_eq (t : Tree K V) : toList t = inorder t := by simp [toList, toListLoop_eq]

theorem sizeAux_eq (t : Tree K V) : ∀ acc, sizeAux acc t = acc + (inorder t).length := by
  induction t with
  | nothing => intro acc; rfl
  | leaf => intro acc; rfl
  | node k v l r h ihl ihr => intro acc; simp only [sizeAux, inorder, ihl, ihr]; simp; omega

theorem size_eq (t : Tree K V) : size t = (inorder t).length := by simp [size, sizeAux_eq]

theorem isEmpty_iff (t : Tree K V) : isEmpty t = true ↔ inorder t = [] := by
  cases t <;> simp [isEmpty, inorder]

theorem isEmpty_false {t : Tree K V} (h : ¬ isEmpty t = true) : t ≠ nothing := by
  rintro rfl; exact h rfl

/-! ### mk and rebalance -/

theorem mk_cases (l : Tree K V) (k : K) (v : V) (r : Tree K V) :
    (height l = 0 ∧ height r = 0 ∧ mk l k v r = leaf k v) ∨
    (1 ≤ max (height l) (height r) ∧ mk l k v r = node k v l r (max (height l) (height r) + 1)) := by
  have hm : (if height l < height r then height r else height l) = max (height l) (height r) := by
    split <;> omega
  simp only [mk, hm]
  by_cases h : max (height l) (height r) = 0
  · left; rw [if_pos h]; exact ⟨by omega, by omega, rfl⟩
  · right; rw [if_neg h]; exact ⟨by omega, rfl⟩

theorem inorder_mk (l : Tree K V) (k : K) (v : V) (r : Tree K V) (hl : WF l) (hr : WF r) :
    inorder (mk l k v r) = inorder l ++ (k, v) :: inorder r := by
  rcases mk_cases l k v r with ⟨h1, h2, e⟩ | ⟨_, e⟩
  · rw [e, hl.height_zero h1, hr.height_zero h2]; rfl
  · rw [e]; rfl

theorem WF_mk (l : Tree K V) (k : K) (v : V) (r : Tree K V) (hl : WF l) (hr : WF r) : WF (mk l k v r) := by
  rcases mk_cases l k v r with ⟨_, _, e⟩ | ⟨h, e⟩
  · rw [e]; trivial
  · rw [e]; exact ⟨hl, hr, rfl, h⟩

theorem height_mk (l : Tree K V) (k : K) (v : V) (r : Tree K V) :
    height (mk l k v r) = max (height l) (height r) + 1 := by
  rcases mk_cases l k v r with ⟨h1, h2, e⟩ | ⟨_, e⟩
  · rw [e, height_leaf]; omega
  · rw [e, height_node]

theorem rebalance_ok {t1 t2 : Tree K V} (k : K) (v : V) (h1 : WF t1) (h2 : WF t2) :
    ∃ t, rebalance t1 k v t2 = .ok t ∧ WF t ∧ inorder t = inorder t1 ++ (k, v) :: inorder t2 := by
  unfold rebalance
  simp only
  split
  · rename_i hgt
    match t2, h2 with
    | nothing, h2 => simp [height, TOLERANCE] at hgt
    | leaf _ _, h2 => simp [height, TOLERANCE] at hgt
    | node k2 v2 l2 r2 hh, h2 =>
      obtain ⟨hl2, hr2, e, g⟩ := h2
      simp only
      split
      · rename_i hgt2
        match l2, hl2 with
        | nothing, _ => simp [height] at hgt2
        | leaf _ _, _ => simp [height] at hgt2
        | node k2l v2l l2l r2l _, ⟨a, b, _, _⟩ =>
          have w1 := WF_mk t1 k v l2l h1 a
          have w2 := WF_mk r2l k2 v2 r2 b hr2
          refine ⟨_, rfl, WF_mk _ _ _ _ w1 w2, ?_⟩
          rw [inorder_mk _ _ _ _ w1 w2, inorder_mk _ _ _ _ h1 a, inorder_mk _ _ _ _ b hr2]
          simp [inorder]
      · have w1 := WF_mk t1 k v l2 h1 hl2
        refine ⟨_, rfl, WF_mk _ _ _ _ w1 hr2, ?_⟩
        rw [inorder_mk _ _ _ _ w1 hr2, inorder_mk _ _ _ _ h1 hl2]
        simp [inorder]
  · split
    · rename_i hgt
      match t1, h1 with
      | nothing, h1 => simp [height, TOLERANCE] at hgt
      | leaf _ _, h1 => simp [height, TOLERANCE] at hgt
      | node k1 v1 l1 r1 hh, h1 =>
        obtain ⟨hl1, hr1, e, g⟩ := h1
        simp only
        split
        · rename_i hgt2
          match r1, hr1 with
          | nothing, _ => simp [height] at hgt2
          | leaf _ _, _ => simp [height] at hgt2
          | node k1r v1r l1r r1r _, ⟨a, b, _, _⟩ =>
            have w1 := WF_mk l1 k1 v1 l1r hl1 a
            have w2 := WF_mk r1r k v t2 b h2
            refine ⟨_, rfl, WF_mk _ _ _ _ w1 w2, ?_⟩
            rw [inorder_mk _ _ _ _ w1 w2, inorder_mk _ _ _ _ hl1 a, inorder_mk _ _ _ _ b h2]
            simp [inorder]
        · have w1 := WF_mk r1 k v t2 hr1 h2
          refine ⟨_, rfl, WF_mk _ _ _ _ hl1 w1, ?_⟩
          rw [inorder_mk _ _ _ _ hl1 w1, inorder_mk _ _ _ _ hr1 h2]
          simp [inorder]
    · exact ⟨_, rfl, WF_mk _ _ _ _ h1 h2, inorder_mk _ _ _ _ h1 h2⟩

/-! ### splice -/

theorem splice_ok {t : Tree K V} (h : WF t) (hne : t ≠ nothing) :
    ∃ k v t', spliceOutSuccessor t = .ok (k, v, t') ∧ WF t' ∧ inorder t = (k, v) :: inorder t' := by
  induction t with
  | nothing => exact absurd rfl hne
  | leaf k v => exact ⟨k, v, nothing, rfl, trivial, rfl⟩
  | node k v l r hh ihl _ =>
    obtain ⟨hl, hr, _, _⟩ := h
    simp only [spliceOutSuccessor]
    split
    · rename_i he
      refine ⟨k, v, r, rfl, hr, ?_⟩
      simp [inorder, (isEmpty_iff l).1 he]
    · rename_i he
      obtain ⟨k3, v3, l', e1, w1, i1⟩ := ihl hl (isEmpty_false he)
      refine ⟨k3, v3, mk l' k v r, ?_, WF_mk _ _ _ _ w1 hr, ?_⟩
      · rw [e1]; rfl
      · rw [inorder_mk _ _ _ _ w1 hr]; simp [inorder, i1]

section
variable [PyOrd K]

/-- Everything the operations rely on and preserve. -/
structure Valid (t : Tree K V) : Prop where
  wf : WF t
  sorted : Ascending (inorder t)

variable [LawfulPyOrd K]
open PyOrd

omit [LawfulPyOrd K] in
theorem Valid.left {k : K} {v : V} {l r : Tree K V} {h : Nat} (hv : Valid (node k v l r h)) : Valid l :=
  ⟨hv.wf.1, (ascending_append_cons.1 hv.sorted).1⟩

omit [LawfulPyOrd K] in
theorem Valid.right {k : K} {v : V} {l r : Tree K V} {h : Nat} (hv : Valid (node k v l r h)) : Valid r :=
  ⟨hv.wf.2.1, (ascending_append_cons.1 hv.sorted).2.1⟩

omit [LawfulPyOrd K] in
theorem Valid.allLt {k : K} {v : V} {l r : Tree K V} {h : Nat} (hv : Valid (node k v l r h)) :
    AllLt (inorder l) k := (ascending_append_cons.1 hv.sorted).2.2.1

omit [LawfulPyOrd K] in
theorem Valid.allGt {k : K} {v : V} {l r : Tree K V} {h : Nat} (hv : Valid (node k v l r h)) :
    AllGt (inorder r) k := (ascending_append_cons.1 hv.sorted).2.2.2.1

omit [LawfulPyOrd K] in
theorem valid_nothing : Valid (nothing : Tree K V) := ⟨trivial, List.Pairwise.nil⟩

/-! ### add -/

theorem add_ok (k : K) (v : V) {t : Tree K V} (hv : Valid t) :
    ∃ t', add k v t = .ok t' ∧ WF t' ∧ inorder t' = insertKV k v (inorder t) := by
  induction t with
  | nothing => exact ⟨_, rfl, trivial, rfl⟩
  | leaf key value =>
    simp only [add, inorder, insertKV]
    split
    · exact ⟨_, rfl, by simp [WF, height], rfl⟩
    · split
      · exact ⟨_, rfl, trivial, rfl⟩
      · exact ⟨_, rfl, by simp [WF, height], rfl⟩
  | node key value l r h ihl ihr =>
    simp only [add, inorder]
    split
    · rename_i hlt
      obtain ⟨l', e, w, i⟩ := ihl hv.left
      obtain ⟨t', e2, w2, i2⟩ := rebalance_ok key value w hv.wf.2.1
      refine ⟨t', by rw [e]; exact e2, w2, ?_⟩
      rw [i2, i, insertKV_lt (p := (key, value)) _ _ hlt]
    · rename_i hlt
      split
      · rename_i heq
        refine ⟨_, rfl, hv.wf, ?_⟩
        rw [insertKV_gt _ _ (hv.allLt.weaken_eq (key_eq_symm heq))]
        simp [insertKV, hlt, heq, inorder]
      · rename_i heq
        have hgt := key_gt_of (a := k) (b := key) (by simpa using hlt) (by simpa using heq)
        obtain ⟨r', e, w, i⟩ := ihr hv.right
        obtain ⟨t', e2, w2, i2⟩ := rebalance_ok key value hv.wf.1 w
        refine ⟨t', by rw [e]; exact e2, w2, ?_⟩
        rw [i2, i, insertKV_gt _ _ (hv.allLt.weaken hgt)]
        simp [insertKV, hlt, heq]

theorem add_valid (k : K) (v : V) {t : Tree K V} (hv : Valid t) :
    ∃ t', add k v t = .ok t' ∧ Valid t' ∧ inorder t' = insertKV k v (inorder t) := by
  obtain ⟨t', e, w, i⟩ := add_ok k v hv
  exact ⟨t', e, ⟨w, by rw [i]; exact ascending_insertKV k v hv.sorted⟩, i⟩

/-! ### lookups -/

theorem tryFind_eq (k : K) {t : Tree K V} (hv : Valid t) :
    tryFind k t = (lookupKV k (inorder t)).map (·.2) := by
  induction t with
  | nothing => rfl
  | leaf key value => simp only [tryFind, inorder, lookupKV_cons]; split <;> rfl
  | node key value l r h ihl ihr =>
    simp only [tryFind, inorder]
    split
    · rename_i heq; rw [lookupKV_node_eq hv.allLt heq]; rfl
    · rename_i heq
      split
      · rename_i hlt; rw [lookupKV_node_lt hv.allGt hlt]; exact ihl hv.left
      · rename_i hlt
        have hgt := key_gt_of (a := k) (b := key) (by simpa using hlt) (by simpa using heq)
        rw [lookupKV_node_gt hv.allLt hgt]; exact ihr hv.right

theorem mem_eq (k : K) {t : Tree K V} (hv : Valid t) :
    mem k t = (lookupKV k (inorder t)).isSome := by
  induction t with
  | nothing => rfl
  | leaf key value => simp only [mem, inorder, lookupKV_cons]; split <;> simp_all [lookupKV]
  | node key value l r h ihl ihr =>
    simp only [mem, inorder]
    split
    · rename_i hlt; rw [lookupKV_node_lt hv.allGt hlt]; exact ihl hv.left
    · rename_i hlt
      cases heq : eq k key with
      | true => rw [lookupKV_node_eq hv.allLt heq]; rfl
      | false =>
        have hgt := key_gt_of (a := k) (b := key) (by simpa using hlt) heq
        rw [lookupKV_node_gt hv.allLt hgt]; simpa using ihr hv.right

/-! ### remove -/

theorem remove_ok (k : K) {t : Tree K V} (hv : Valid t) :
    ∃ t', remove k t = .ok t' ∧ WF t' ∧ inorder t' = eraseKV k (inorder t) := by
  induction t with
  | nothing => exact ⟨_, rfl, trivial, rfl⟩
  | leaf key value =>
    simp only [remove, inorder, eraseKV]
    split
    · exact ⟨_, rfl, trivial, rfl⟩
    · exact ⟨_, rfl, trivial, rfl⟩
  | node key value l r h ihl ihr =>
    simp only [remove, inorder]
    split
    · rename_i hlt
      obtain ⟨l', e, w, i⟩ := ihl hv.left
      obtain ⟨t', e2, w2, i2⟩ := rebalance_ok key value w hv.wf.2.1
      refine ⟨t', by rw [e]; exact e2, w2, ?_⟩
      rw [i2, i, eraseKV_lt _ _ hv.allGt hlt]
    · rename_i hlt
      split
      · rename_i heq
        rw [eraseKV_gt _ _ (hv.allLt.weaken_eq (key_eq_symm heq))]
        simp only [eraseKV, heq, if_true]
        split
        · rename_i he
          exact ⟨_, rfl, hv.wf.2.1, by simp [(isEmpty_iff l).1 he]⟩
        · split
          · rename_i he
            exact ⟨_, rfl, hv.wf.1, by simp [(isEmpty_iff r).1 he]⟩
          · rename_i he
            obtain ⟨sk, sv, r', e, w, i⟩ := splice_ok hv.wf.2.1 (isEmpty_false he)
            refine ⟨mk l sk sv r', by rw [e]; rfl, WF_mk _ _ _ _ hv.wf.1 w, ?_⟩
            rw [inorder_mk _ _ _ _ hv.wf.1 w, i]
      · rename_i heq
        have hgt := key_gt_of (a := k) (b := key) (by simpa using hlt) (by simpa using heq)
        obtain ⟨r', e, w, i⟩ := ihr hv.right
        obtain ⟨t', e2, w2, i2⟩ := rebalance_ok key value hv.wf.1 w
        refine ⟨t', by rw [e]; exact e2, w2, ?_⟩
        rw [i2, i, eraseKV_gt _ _ (hv.allLt.weaken hgt)]
        simp [eraseKV, heq]

theorem remove_valid (k : K) {t : Tree K V} (hv : Valid t) :
    ∃ t', remove k t = .ok t' ∧ Valid t' ∧ inorder t' = eraseKV k (inorder t) := by
  obtain ⟨t', e, w, i⟩ := remove_ok k hv
  exact ⟨t', e, ⟨w, by rw [i]; exact ascending_eraseKV k hv.sorted⟩, i⟩

/-! ### change -/

/-- What `change` does once the callback has answered `r`. -/
def changeE (k : K) (r : Option V) : Tree K V → Except PyErr (Tree K V)
  | node key value left right h =>
    if PyOrd.lt k key then do rebalance (← changeE k r left) key value right
    else if PyOrd.eq k key then
      match r with
      | some v => .ok (node k v left right h)
      | none =>
        if isEmpty left then .ok right
        else if isEmpty right then .ok left
        else do
          let (sk, sv, r') ← spliceOutSuccessor right
          .ok (mk left sk sv r')
    else do rebalance left key value (← changeE k r right)
  | leaf key value =>
    if PyOrd.lt k key then
      match r with
      | some v => .ok (node k v nothing (leaf key value) 2)
      | none => .ok (leaf key value)
    else if PyOrd.eq k key then
      match r with
      | some v => .ok (leaf k v)
      | none => .ok nothing
    else
      match r with
      | some v => .ok (node k v (leaf key value) nothing 2)
      | none => .ok (leaf key value)
  | nothing =>
    match r with
    | some v => .ok (leaf k v)
    | none => .error .effectError

theorem ofExcept_bind {α β : Type} (e : Except PyErr α) (f : α → Except PyErr β) :
    (Py.ofExcept (e >>= f) : Py σ β) = Py.ofExcept e >>= fun a => Py.ofExcept (f a) := by
  cases e <;> rfl

/-- `change` calls its callback once, with the current binding, and then proceeds without further effects. -/
theorem change_eq (k : K) (u : Option V → Py σ (Option V)) (t : Tree K V) :
    change k u t = u (tryFind k t) >>= fun r => Py.ofExcept (changeE k r t) := by
  induction t with
  | nothing =>
    simp only [change, tryFind]
    congr 1; funext r; cases r <;> rfl
  | leaf key value =>
    simp only [change, tryFind, changeE]
    split
    · rename_i hlt
      simp only [key_lt_not_eq hlt]
      simp only [Bool.false_eq_true, if_false]
      congr 1; funext r; cases r <;> rfl
    · rename_i hlt
      split <;> (congr 1; funext r; cases r <;> rfl)
  | node key value l r h ihl ihr =>
    simp only [change, tryFind, changeE]
    split
    · rename_i hlt
      simp only [key_lt_not_eq hlt, Bool.false_eq_true, if_false]
      rw [ihl, bind_assoc]
      congr 1; funext r'; rw [ofExcept_bind]
    · rename_i hlt
      split
      · congr 1; funext r'
        cases r' with
        | some v => rfl
        | none =>
          simp only
          split
          · rfl
          · split
            · rfl
            · rw [ofExcept_bind]; rfl
      · rw [ihr, bind_assoc]
        congr 1; funext r'; rw [ofExcept_bind]

omit [LawfulPyOrd K] in
theorem changeE_some (k : K) (v : V) (t : Tree K V) : changeE k (some v) t = add k v t := by
  induction t with
  | nothing => rfl
  | leaf => rfl
  | node key value l r h ihl ihr => simp only [changeE, add, ihl, ihr]

theorem changeE_none_found (k : K) {t : Tree K V} (hf : (tryFind k t).isSome) :
    changeE k none t = remove k t := by
  induction t with
  | nothing => simp [tryFind] at hf
  | leaf key value =>
    simp only [tryFind] at hf
    split at hf
    · rename_i heq
      have := ((LawfulPyOrd.eq_iff k key).1 heq).1
      simp [changeE, remove, heq, this]
    · simp at hf
  | node key value l r h ihl ihr =>
    simp only [tryFind] at hf
    simp only [changeE, remove]
    split
    · rename_i hlt
      simp only [key_lt_not_eq hlt, Bool.false_eq_true, if_false, hlt, if_true] at hf
      rw [ihl hf]
    · rename_i hlt
      split
      · rfl
      · rename_i heq
        simp only [heq, hlt, Bool.false_eq_true, if_false] at hf
        rw [ihr hf]

omit [LawfulPyOrd K] in
theorem changeE_none_absent (k : K) {t : Tree K V} (hw : WF t) (hf : tryFind k t = none) :
    (runsOff k t = true ∧ changeE k none t = .error .effectError) ∨
    (runsOff k t = false ∧ ∃ t', changeE k none t = .ok t' ∧ WF t' ∧ inorder t' = inorder t) := by
  induction t with
  | nothing => exact Or.inl ⟨rfl, rfl⟩
  | leaf key value =>
    right
    simp only [tryFind] at hf
    split at hf
    · cases hf
    · rename_i heq
      refine ⟨rfl, leaf key value, ?_, trivial, rfl⟩
      simp only [changeE]
      split
      · rfl
      · rfl
  | node key value l r h ihl ihr =>
    simp only [tryFind] at hf
    split at hf
    · cases hf
    · rename_i heq
      simp only [changeE, runsOff]
      split at hf
      · rename_i hlt
        simp only [hlt, if_true]
        rcases ihl hw.1 hf with ⟨h1, h2⟩ | ⟨h1, l', e, w, i⟩
        · left; exact ⟨h1, by rw [h2]; rfl⟩
        · right
          obtain ⟨t', e2, w2, i2⟩ := rebalance_ok key value w hw.2.1
          exact ⟨h1, t', by rw [e]; exact e2, w2, by rw [i2, i]; rfl⟩
      · rename_i hlt
        simp only [hlt, heq, Bool.false_eq_true, if_false]
        rcases ihr hw.2.1 hf with ⟨h1, h2⟩ | ⟨h1, r', e, w, i⟩
        · left; exact ⟨h1, by rw [h2]; rfl⟩
        · right
          obtain ⟨t', e2, w2, i2⟩ := rebalance_ok key value hw.1 w
          exact ⟨h1, t', by rw [e]; exact e2, w2, by rw [i2, i]; rfl⟩

end

/-! ### iterator -/

/-- Pending bindings of an iterator stack. -/
def fringe (s : List (Tree K V)) : List (K × V) := s.flatMap inorder

theorem fringe_collapseLHS (s : List (Tree K V)) : fringe (collapseLHS s) = fringe s := by
  induction s using collapseLHS.induct with
  | case1 => rw [collapseLHS]
  | case2 key value left right h rest ih =>
    rw [collapseLHS, ih]; simp [fringe, inorder]
  | case3 => rw [collapseLHS]
  | case4 rest ih => rw [collapseLHS, ih]; simp [fringe, inorder]

/-- A collapsed stack is empty or starts with a leaf. -/
def Collapsed : List (Tree K V) → Prop
  | [] => True
  | leaf _ _ :: _ => True
  | _ => False

theorem collapsed_collapseLHS (s : List (Tree K V)) : Collapsed (collapseLHS s) := by
  induction s using collapseLHS.induct with
  | case1 => rw [collapseLHS]; trivial
  | case2 key value left right h rest ih => rw [collapseLHS]; exact ih
  | case3 => rw [collapseLHS]; trivial
  | case4 rest ih => rw [collapseLHS]; exact ih

theorem drain_eq (s : List (Tree K V)) (hs : Collapsed s) : drain s = .ok (fringe s) := by
  induction s using drain.induct with
  | case1 s e he =>
    exfalso
    match s, hs, he with
    | [], _, he => cases he
    | leaf _ _ :: _, _, he => cases he
  | case2 s he =>
    unfold drain
    match s, hs, he with
    | [], _, he => simp [iterNext, fringe]
    | leaf _ _ :: _, _, he => cases he
  | case3 s current it he ih =>
    unfold drain
    match s, hs, he with
    | [], _, he => cases he
    | leaf key value :: rest, _, he =>
      simp only [iterNext, Except.ok.injEq, Option.some.injEq, Prod.mk.injEq] at he
      obtain ⟨rfl, rfl⟩ := he
      simp only [iterNext]
      rw [ih (collapsed_collapseLHS rest), fringe_collapseLHS]
      simp [fringe, inorder]; rfl

theorem drain_mkIterator (t : Tree K V) : drain (mkIterator t) = .ok (inorder t) := by
  rw [mkIterator, drain_eq _ (collapsed_collapseLHS _), fringe_collapseLHS]; simp [fringe]

theorem toSeq_eq (t : Tree K V) : toSeq t = .ok (inorder t) := drain_mkIterator t

end Expression.MapTree
