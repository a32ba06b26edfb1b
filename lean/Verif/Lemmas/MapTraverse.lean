import Verif.Lemmas.MapTree
import Verif.Spec.Sim
import Verif.Spec.ListLoops

/-! Traversals, filter, partition, map and bulk construction in terms of the in-order list. -/

namespace Expression.MapTree

open Expression Spec Tree

variable {K V R σ : Type}

/-! ### loops over appended lists -/

theorem forEach_append (f : K → V → Py σ Unit) (xs ys : List (K × V)) :
    forEach f (xs ++ ys) = (do forEach f xs; forEach f ys) := by
  induction xs with
  | nil => simp [forEach]
  | cons x xs ih => simp [forEach, ih]

theorem anyOf_append (p : K → V → Py σ Bool) (xs ys : List (K × V)) :
    anyOf p (xs ++ ys) = (do if ← anyOf p xs then pure true else anyOf p ys) := by
  induction xs with
  | nil => simp [anyOf]
  | cons x xs ih =>
    simp only [anyOf, List.cons_append, bind_assoc]
    congr 1; funext b; cases b <;> simp [ih]

theorem allOf_append (p : K → V → Py σ Bool) (xs ys : List (K × V)) :
    allOf p (xs ++ ys) = (do if ← allOf p xs then allOf p ys else pure false) := by
  induction xs with
  | nil => simp [allOf]
  | cons x xs ih =>
    simp only [allOf, List.cons_append, bind_assoc]
    congr 1; funext b; cases b <;> simp [ih]

theorem firstSome_append (f : K → V → Py σ (Option R)) (xs ys : List (K × V)) :
    firstSome f (xs ++ ys) = (do
      let r ← firstSome f xs
      if r.isSome then pure r else firstSome f ys) := by
  induction xs with
  | nil => simp [firstSome]
  | cons x xs ih =>
    simp only [firstSome, List.cons_append, bind_assoc]
    congr 1; funext b; cases b <;> simp [ih]

theorem foldLoop_append (f : R → K × V → Py σ R) (x : R) (xs ys : List (K × V)) :
    foldLoop f x (xs ++ ys) = (do foldLoop f (← foldLoop f x xs) ys) := by
  induction xs generalizing x with
  | nil => simp [foldLoop]
  | cons a xs ih => simp [foldLoop, ih]

/-! ### traversals -/

theorem iter_eq (f : K → V → Py σ Unit) (t : Tree K V) : iter f t = forEach f (inorder t) := by
  induction t with
  | nothing => rfl
  | leaf => simp [iter, inorder, forEach]
  | node k v l r h ihl ihr => simp only [iter, inorder, forEach_append, forEach, ihl, ihr]

theorem exists_eq (p : K → V → Py σ Bool) (t : Tree K V) : «exists» p t = anyOf p (inorder t) := by
  induction t with
  | nothing => rfl
  | leaf =>
    simp only [«exists», inorder, anyOf]
    conv => lhs; rw [← bind_pure (p _ _)]
    congr 1; funext b; cases b <;> rfl
  | node k v l r h ihl ihr => simp only [«exists», inorder, anyOf_append, anyOf, ihl, ihr]

theorem forall_eq (p : K → V → Py σ Bool) (t : Tree K V) : «forall» p t = allOf p (inorder t) := by
  induction t with
  | nothing => rfl
  | leaf =>
    simp only [«forall», inorder, allOf]
    conv => lhs; rw [← bind_pure (p _ _)]
    congr 1; funext b; cases b <;> rfl
  | node k v l r h ihl ihr => simp only [«forall», inorder, allOf_append, allOf, ihl, ihr]

theorem tryPick_eq (f : K → V → Py σ (Option R)) (t : Tree K V) : tryPick f t = firstSome f (inorder t) := by
  induction t with
  | nothing => rfl
  | leaf =>
    simp only [tryPick, inorder, firstSome]
    conv => lhs; rw [← bind_pure (f _ _)]
    congr 1; funext b; cases b <;> rfl
  | node k v l r h ihl ihr =>
    simp only [tryPick, inorder, firstSome_append, firstSome, ihl, ihr]
    congr 1; funext b; cases b with
    | some b => rfl
    | none =>
      simp only [Option.isSome_none, Bool.false_eq_true, if_false]
      congr 1; funext c; cases c <;> rfl

theorem fold_eq (f : R → K × V → Py σ R) (x : R) (t : Tree K V) : fold f x t = foldLoop f x (inorder t) := by
  induction t generalizing x with
  | nothing => rfl
  | leaf => simp [fold, inorder, foldLoop]
  | node k v l r h ihl ihr => simp only [fold, inorder, foldLoop_append, foldLoop, ihl, ihr]

theorem foldBack_eq (f : K × V → R → Py σ R) (t : Tree K V) (x : R) :
    foldBack f t x = foldLoop (fun s kv => f kv s) x (inorder t).reverse := by
  induction t generalizing x with
  | nothing => rfl
  | leaf => simp [foldBack, inorder, foldLoop]
  | node k v l r h ihl ihr =>
    simp only [foldBack, inorder, ihl, ihr, List.reverse_append, List.reverse_cons, List.append_assoc,
      foldLoop_append, foldLoop, List.cons_append, List.nil_append]

/-! ### map -/

theorem map_shape (f : K → V → Py σ R) (t : Tree K V) (w w' : σ) (t' : Tree K R)
    (h : (map f t).exec w = (.ok t', w')) : SameShape t t' := by
  induction t generalizing w w' t' with
  | nothing => cases h; trivial
  | leaf k v =>
    simp only [map, Py.exec_bind] at h
    rcases hv : (f k v).exec w with ⟨e | a, w1⟩ <;> rw [hv] at h
    · cases h
    · cases h; rfl
  | node k v l r ht ihl ihr =>
    simp only [map, Py.exec_bind] at h
    rcases hl : (map f l).exec w with ⟨e | a, w1⟩ <;> rw [hl] at h
    · cases h
    · rcases hv : (f k v).exec w1 with ⟨e | b, w2⟩ <;> simp only [hv] at h
      · cases h
      · rcases hr : (map f r).exec w2 with ⟨e | c, w3⟩ <;> simp only [hr] at h
        · cases h
        · cases h
          exact ⟨rfl, rfl, ihl _ _ _ hl, ihr _ _ _ hr⟩

theorem searchPath_shape [PyOrd K] (k : K) {t : Tree K V} {t' : Tree K R} (h : SameShape t t') :
    searchPath k t = searchPath k t' := by
  induction t generalizing t' with
  | nothing => cases t' <;> first | rfl | cases h
  | leaf k1 v => cases t' <;> first | (cases h; rfl) | cases h
  | node k1 v l r ht ihl ihr =>
    cases t' with
    | nothing => cases h
    | leaf => cases h
    | node k2 v2 l2 r2 h2 =>
      obtain ⟨rfl, _, hl, hr⟩ := h
      simp only [searchPath, ihl hl, ihr hr]

theorem map_sim (f : K → V → Py σ R) (t : Tree K V) :
    Sim (fun t' ys => inorder t' = ys ∧ (WF t → WF t') ∧ height t' = height t ∧ ys.map (·.1) = (inorder t).map (·.1))
      (map f t) (mapLoop f (inorder t)) := by
  have happ : ∀ (xs ys : List (K × V)), mapLoop f (xs ++ ys) = (do
      let a ← mapLoop f xs
      let b ← mapLoop f ys
      pure (a ++ b)) := by
    intro xs ys
    induction xs with
    | nil => simp [mapLoop]
    | cons x xs ih => simp [mapLoop, ih]
  induction t with
  | nothing => exact Sim.pure ⟨rfl, fun _ => trivial, rfl, rfl⟩
  | leaf k v =>
    simp only [map, inorder, mapLoop, pure_bind]
    refine Sim.bind (Sim.refl _) ?_
    rintro a b rfl
    exact Sim.pure ⟨rfl, fun _ => trivial, rfl, rfl⟩
  | node k v l r h ihl ihr =>
    simp only [map, inorder, happ, mapLoop]
    refine Sim.bind ihl ?_
    rintro l' a ⟨h1, h2, h3, h4⟩
    simp only [bind_assoc]
    refine Sim.bind (Sim.refl _) ?_
    rintro v' _ rfl
    refine Sim.bind ihr ?_
    rintro r' b ⟨g1, g2, g3, g4⟩
    simp only [pure_bind]
    refine Sim.pure ⟨?_, ?_, ?_, ?_⟩
    · simp [inorder, h1, g1]
    · rintro ⟨w1, w2, w3, w4⟩; exact ⟨h2 w1, g2 w2, by rw [h3, g3]; exact w3, by rw [h3, g3]; exact w4⟩
    · rfl
    · simp [h4, g4]

section
variable [PyOrd K] [LawfulPyOrd K]
open PyOrd

theorem insertKV_append_of_allLt {k : K} {v : V} {xs : List (K × V)} (h : AllLt xs k) :
    insertKV k v xs = xs ++ [(k, v)] := by
  have := insertKV_gt (v := v) xs [] h
  simpa [insertKV] using this

omit [LawfulPyOrd K] in
theorem insertKV_cons_of_allGt {k : K} {v : V} {xs : List (K × V)} (h : AllGt xs k) :
    insertKV k v xs = (k, v) :: xs := by
  cases xs with
  | nil => rfl
  | cons x xs => simp [insertKV, h x (List.mem_cons_self ..)]

/-! ### bulk construction -/

theorem ofList_fold_ok (xs : List (K × V)) {acc : Tree K V} (hv : Valid acc) :
    ∃ t, xs.foldlM (fun acc kv => add kv.1 kv.2 acc) acc = .ok t ∧ Valid t ∧
      inorder t = xs.foldl (fun l kv => insertKV kv.1 kv.2 l) (inorder acc) := by
  induction xs generalizing acc with
  | nil => exact ⟨acc, rfl, hv, rfl⟩
  | cons x xs ih =>
    obtain ⟨t, e, v, i⟩ := add_valid x.1 x.2 hv
    obtain ⟨t', e', v', i'⟩ := ih v
    refine ⟨t', ?_, v', ?_⟩
    · simp only [List.foldlM_cons, e]; exact e'
    · simp only [List.foldl_cons, ← i]; exact i'

omit [LawfulPyOrd K] in
theorem mkFromIterator_eq (xs : List (K × V)) (acc : Tree K V) :
    mkFromIterator acc xs = xs.foldlM (fun acc kv => add kv.1 kv.2 acc) acc := by
  induction xs generalizing acc with
  | nil => rfl
  | cons x xs ih =>
    simp only [mkFromIterator, List.foldlM_cons]
    cases add x.1 x.2 acc with
    | error => rfl
    | ok a => exact ih a

theorem foldl_insertKV_ascending (xs ys : List (K × V)) (h : Ascending (ys ++ xs)) :
    xs.foldl (fun l kv => insertKV kv.1 kv.2 l) ys = ys ++ xs := by
  induction xs generalizing ys with
  | nil => simp
  | cons x xs ih =>
    have h1 : AllLt ys x.1 := (ascending_append_cons.1 h).2.2.1
    simp only [List.foldl_cons, insertKV_append_of_allLt h1]
    rw [ih (ys ++ [(x.1, x.2)]) (by simpa using h)]
    simp

/-! ### filter -/

theorem filter_sim_aux (p : K → V → Py σ Bool) (t : Tree K V) (acc : Tree K V)
    (hv : Valid acc) (hasc : Ascending (inorder acc ++ inorder t)) :
    Sim (fun t' zs => Valid t' ∧ inorder t' = inorder acc ++ zs ∧ zs.Sublist (inorder t))
      (filterAux p t acc) (filterLoop p (inorder t)) := by
  have happ : ∀ (xs ys : List (K × V)), filterLoop p (xs ++ ys) = (do
      let a ← filterLoop p xs
      let b ← filterLoop p ys
      pure (a ++ b)) := by
    intro xs ys
    induction xs with
    | nil => simp [filterLoop]
    | cons x xs ih =>
      simp only [filterLoop, List.cons_append, ih, bind_assoc, pure_bind]
      congr 1; funext b; congr 1; funext c; congr 1; funext d
      cases b <;> rfl
  have h1 : ∀ (k : K) (v : V) (acc : Tree K V), Valid acc → AllLt (inorder acc) k →
      Sim (fun t' (b : Bool) => Valid t' ∧ inorder t' = inorder acc ++ (if b then [(k, v)] else []))
        (filter1 p k v acc) (p k v) := by
    intro k v acc hv hlt
    simp only [filter1]
    conv => arg 3; rw [← bind_pure (p k v)]
    refine Sim.bind (Sim.refl _) ?_
    rintro b _ rfl
    cases b with
    | false => exact Sim.pure ⟨hv, by simp⟩
    | true =>
      obtain ⟨t', e, v', i⟩ := add_valid k v hv
      simp only [if_true, e]
      exact Sim.pure ⟨v', by rw [i, insertKV_append_of_allLt hlt]; rfl⟩
  induction t generalizing acc with
  | nothing => exact Sim.pure ⟨hv, by simp, List.Sublist.refl _⟩
  | leaf k v =>
    simp only [filterAux, inorder, filterLoop, pure_bind]
    conv => arg 2; rw [← bind_pure (filter1 p k v acc)]
    refine Sim.bind (h1 k v acc hv (ascending_append_cons.1 hasc).2.2.1) ?_
    rintro t' b ⟨g1, g2⟩
    refine Sim.pure ⟨g1, ?_, ?_⟩
    · rw [g2]
    · cases b <;> simp
  | node k v l r h ihl ihr =>
    simp only [filterAux, inorder, happ, filterLoop]
    have hasc' : Ascending (inorder acc ++ inorder l ++ (k, v) :: inorder r) := by simpa [inorder] using hasc
    have hparts := ascending_append_cons.1 hasc'
    refine Sim.bind (ihl acc hv hparts.1) ?_
    rintro acc1 a ⟨v1, i1, s1⟩
    have hsub1 : (inorder acc ++ a).Sublist (inorder acc ++ inorder l) := (List.Sublist.refl _).append s1
    simp only [bind_assoc]
    refine Sim.bind (h1 k v acc1 v1 (fun q hq => ?_)) ?_
    · rw [i1] at hq; exact hparts.2.2.1 q (hsub1.subset hq)
    · rintro acc2 b ⟨v2, i2⟩
      conv => arg 2; rw [← bind_pure (filterAux p r acc2)]
      refine Sim.bind (ihr acc2 v2 ?_) ?_
      · rw [i2, i1]
        refine List.Pairwise.sublist (List.Sublist.append (hsub1.append (?_ : List.Sublist _ [(k, v)])) (List.Sublist.refl _)) ?_
        · cases b <;> simp
        · simpa [Ascending] using hasc'
      · rintro t' c ⟨v3, i3, s3⟩
        simp only [pure_bind]
        refine Sim.pure ⟨v3, ?_, ?_⟩
        · rw [i3, i2, i1]; cases b <;> simp
        · refine s1.append ?_
          cases b
          · exact s3.cons _
          · exact s3.cons_cons _

theorem filter_sim (p : K → V → Py σ Bool) {t : Tree K V} (hv : Valid t) :
    Sim (fun t' zs => Valid t' ∧ inorder t' = zs ∧ zs.Sublist (inorder t))
      (filter p t) (filterLoop p (inorder t)) := by
  have := filter_sim_aux p t nothing valid_nothing (by simpa [inorder] using hv.sorted)
  simpa [filter, inorder] using this

/-! ### partition -/

theorem partition_sim_aux (p : K → V → Py σ Bool) (t : Tree K V) (zs : List (K × V))
    (hasc : Ascending (inorder t ++ zs)) (q0 : Py σ (List (K × V) × List (K × V)))
    (q : Py σ (List (K × V) × List (K × V))) (hq0 : q0 = partitionFromEnd p zs)
    (hq : q = partitionFromEnd p (inorder t ++ zs)) (c : Py σ (Tree K V × Tree K V))
    (hc : Sim (fun tt yy => Valid tt.1 ∧ Valid tt.2 ∧ inorder tt.1 = yy.1 ∧ inorder tt.2 = yy.2 ∧
        yy.1.Sublist zs ∧ yy.2.Sublist zs) c q0) :
    Sim (fun tt yy => Valid tt.1 ∧ Valid tt.2 ∧ inorder tt.1 = yy.1 ∧ inorder tt.2 = yy.2 ∧
        yy.1.Sublist (inorder t ++ zs) ∧ yy.2.Sublist (inorder t ++ zs)) (c >>= partitionAux p t) q := by
  subst hq0 hq
  have h1 : ∀ (k : K) (v : V) (zs : List (K × V)) (c : Py σ (Tree K V × Tree K V)), AllGt zs k →
      Sim (fun tt yy => Valid tt.1 ∧ Valid tt.2 ∧ inorder tt.1 = yy.1 ∧ inorder tt.2 = yy.2 ∧
        yy.1.Sublist zs ∧ yy.2.Sublist zs) c (partitionFromEnd p zs) →
      Sim (fun tt yy => Valid tt.1 ∧ Valid tt.2 ∧ inorder tt.1 = yy.1 ∧ inorder tt.2 = yy.2 ∧
        yy.1.Sublist ((k, v) :: zs) ∧ yy.2.Sublist ((k, v) :: zs)) (c >>= partition1 p k v)
        (partitionFromEnd p ((k, v) :: zs)) := by
    intro k v zs c hgt hc
    simp only [partitionFromEnd]
    refine Sim.bind hc ?_
    rintro ⟨t1, t2⟩ ⟨y1, y2⟩ ⟨a1, a2, a3, a4, a5, a6⟩
    simp only at a1 a2 a3 a4 a5 a6
    simp only [partition1]
    refine Sim.bind (Sim.refl _) ?_
    rintro b _ rfl
    cases b with
    | true =>
      obtain ⟨t', e, v', i⟩ := add_valid k v a1
      simp only [e, if_true, Py.ofExcept_ok, pure_bind]
      refine Sim.pure ⟨v', a2, ?_, a4, a5.cons_cons _, a6.cons _⟩
      rw [i, a3]; exact insertKV_cons_of_allGt (fun q hq => hgt q (a5.subset hq))
    | false =>
      obtain ⟨t', e, v', i⟩ := add_valid k v a2
      simp only [e, Bool.false_eq_true, if_false, Py.ofExcept_ok, pure_bind]
      refine Sim.pure ⟨a1, v', a3, ?_, a5.cons _, a6.cons_cons _⟩
      rw [i, a4]; exact insertKV_cons_of_allGt (fun q hq => hgt q (a6.subset hq))
  induction t generalizing c zs with
  | nothing => simpa [partitionAux, inorder] using hc
  | leaf k v =>
    simp only [inorder, List.cons_append, List.nil_append]
    exact h1 k v zs c ((List.pairwise_cons.1 hasc).1) hc
  | node k v l r h ihl ihr =>
    have e : inorder (node k v l r h) ++ zs = inorder l ++ (k, v) :: (inorder r ++ zs) := by simp [inorder]
    rw [e] at hasc
    have hparts := ascending_append_cons.1 hasc
    have s1 := ihr zs hparts.2.1 c hc
    have s2 := h1 k v _ _ hparts.2.2.2.1 s1
    have s3 := ihl ((k, v) :: (inorder r ++ zs)) hasc _ s2
    rw [e]
    simpa only [partitionAux, bind_assoc] using s3

theorem partition_sim (p : K → V → Py σ Bool) {t : Tree K V} (hv : Valid t) :
    Sim (fun tt yy => Valid tt.1 ∧ Valid tt.2 ∧ inorder tt.1 = yy.1 ∧ inorder tt.2 = yy.2 ∧
        yy.1.Sublist (inorder t) ∧ yy.2.Sublist (inorder t))
      (partition p t) (partitionFromEnd p (inorder t)) := by
  have := partition_sim_aux p t [] (by simpa using hv.sorted) _ _ rfl rfl (pure (nothing, nothing))
    (Sim.pure ⟨valid_nothing, valid_nothing, rfl, rfl, List.Sublist.refl _, List.Sublist.refl _⟩)
  simpa [partition] using this

end

end Expression.MapTree
