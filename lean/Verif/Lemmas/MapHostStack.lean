import Verif.Lemmas.MapHostPure

/-! Maps on a bounded stack do what they do on an unbounded one, given enough free frames. -/

namespace Expression.MapHost

open Expression Spec MapTree Tree

variable {σ K V R α β : Type}

namespace SW

variable {n m : Nat}

theorem pure (a : α) : SameWithin (σ := σ) n (Pure.pure a) (Pure.pure a) := fun _ _ _ => rfl

theorem ofExcept (a : Except PyErr α) : SameWithin (σ := σ) n (Py.ofExcept a) (Py.ofExcept a) := fun _ _ _ => rfl

theorem mono {q : Py (σ × Nat) α} {p : Py σ α} (h : SameWithin n q p) (hn : n ≤ m) : SameWithin m q p :=
  fun w f hf => h w f (Nat.le_trans hn hf)

theorem bindOf {q : Py (σ × Nat) α} {p : Py σ α} {g : α → Py (σ × Nat) β} {f : α → Py σ β} (h : SameWithin n q p)
    (hf : ∀ a, (∃ w w', p.exec w = (.ok a, w')) → SameWithin n (g a) (f a)) : SameWithin n (q >>= g) (p >>= f) := by
  intro w fr hn
  rw [Py.exec_bind, Py.exec_bind, h w fr hn]
  rcases hp : p.exec w with ⟨_ | a, w1⟩
  · rfl
  · exact hf a ⟨w, w1, hp⟩ w1 fr hn

theorem bind {q : Py (σ × Nat) α} {p : Py σ α} {g : α → Py (σ × Nat) β} {f : α → Py σ β} (h : SameWithin n q p)
    (hf : ∀ a, SameWithin n (g a) (f a)) : SameWithin n (q >>= g) (p >>= f) := bindOf h fun a _ => hf a

theorem ite {c : Bool} {q q' : Py (σ × Nat) α} {p p' : Py σ α} (h : SameWithin n q p)
    (h' : SameWithin n q' p') : SameWithin n (if c = true then q else q') (if c = true then p else p') := by
  cases c with
  | true => exact h
  | false => exact h'

theorem frame {q : Py (σ × Nat) α} {p : Py σ α} (h : SameWithin n q p) : SameWithin (n + 1) (Host.frame q) p := by
  intro w f hf
  obtain ⟨f, rfl⟩ : ∃ g, f = g + 1 := ⟨f - 1, by omega⟩
  have := h w f (by omega)
  change (let (r, (w', _)) := q.exec (w, f); (r, (w', f + 1))) = _
  rw [this]

end SW

variable {lt' eq' : K → K → Py (σ × Nat) Bool} {lt eq : K → K → Py σ Bool} {c : Nat}

/-- A call on the bounded stack against a free call. -/
theorem SW.call {n : Nat} {q : Py (σ × Nat) α} {p : Py σ α} (h : SameWithin n q p) :
    SameWithin (n + 1) ((Host.bounded lt' eq').call q) ((Host.unbounded lt eq).call p) := SW.frame h

theorem free_unbounded : FreeCalls (Host.unbounded lt eq) := fun _ _ => rfl

theorem sizeAux_sw (t : Tree K V) : ∀ acc, SameWithin (depth t) (sizeAux (Host.bounded lt' eq') acc t)
    (sizeAux (Host.unbounded lt eq) acc t) := by
  induction t with
  | nothing => intro acc; exact SW.pure _
  | leaf => intro acc; exact SW.pure _
  | node k v l r h ihl ihr =>
    intro acc
    simp only [sizeAux, depth]
    exact SW.bind (SW.mono (SW.call (ihl _)) (by omega)) fun _ => SW.mono (SW.call (ihr _)) (by omega)

theorem toListLoop_sw (t : Tree K V) : ∀ acc, SameWithin (depth t) (toListLoop (Host.bounded lt' eq') t acc)
    (toListLoop (Host.unbounded lt eq) t acc) := by
  induction t with
  | nothing => intro acc; exact SW.pure _
  | leaf => intro acc; exact SW.pure _
  | node k v l r h ihl ihr =>
    intro acc
    simp only [toListLoop, depth]
    exact SW.bind (SW.mono (SW.call (ihr _)) (by omega)) fun _ => SW.mono (SW.call (ihl _)) (by omega)

theorem splice_sw (t : Tree K V) : SameWithin (depth t) (spliceOutSuccessor (Host.bounded lt' eq') t)
    (spliceOutSuccessor (Host.unbounded lt eq) t) := by
  induction t with
  | nothing => exact SW.ofExcept _
  | leaf => exact SW.pure _
  | node k v l r h ihl _ =>
    simp only [spliceOutSuccessor, depth]
    exact SW.ite (SW.pure _) (SW.bind (SW.mono (SW.call ihl) (by omega)) fun _ => SW.pure _)

section
variable (hlt : ∀ a b, SameWithin c (lt' a b) (lt a b)) (heq : ∀ a b, SameWithin c (eq' a b) (eq a b))
include hlt heq

theorem add_sw (k : K) (v : V) (t : Tree K V) : SameWithin (depth t + c) (add (Host.bounded lt' eq') k v t)
    (add (Host.unbounded lt eq) k v t) := by
  induction t with
  | nothing => exact SW.pure _
  | leaf key value =>
    simp only [add, depth]
    exact SW.bind (SW.mono (hlt _ _) (by omega)) fun _ => SW.ite (SW.pure _) (SW.bind (SW.mono (heq _ _) (by omega)) fun _ =>
      SW.ite (SW.pure _) (SW.pure _))
  | node key value l r h ihl ihr =>
    simp only [add, depth]
    exact SW.bind (SW.mono (hlt _ _) (by omega)) fun _ =>
      SW.ite (SW.bind (SW.mono (SW.call ihl) (by omega)) fun _ => SW.ofExcept _)
        (SW.bind (SW.mono (heq _ _) (by omega)) fun _ => SW.ite (SW.pure _)
          (SW.bind (SW.mono (SW.call ihr) (by omega)) fun _ => SW.ofExcept _))

theorem tryFind_sw (k : K) (t : Tree K V) : SameWithin (depth t + c) (tryFind (Host.bounded lt' eq') k t)
    (tryFind (Host.unbounded lt eq) k t) := by
  induction t with
  | nothing => exact SW.pure _
  | leaf key value =>
    simp only [tryFind, depth]
    exact SW.bind (SW.mono (heq _ _) (by omega)) fun _ => SW.ite (SW.pure _) (SW.pure _)
  | node key value l r h ihl ihr =>
    simp only [tryFind, depth]
    exact SW.bind (SW.mono (heq _ _) (by omega)) fun _ => SW.ite (SW.pure _)
      (SW.bind (SW.mono (hlt _ _) (by omega)) fun _ => SW.ite (SW.mono (SW.call ihl) (by omega))
        (SW.mono (SW.call ihr) (by omega)))

theorem find_sw (k : K) (t : Tree K V) : SameWithin (depth t + c + 1) (find (Host.bounded lt' eq') k t)
    (find (Host.unbounded lt eq) k t) := by
  refine SW.bind (SW.call (tryFind_sw hlt heq k t)) fun o => ?_
  cases o with
  | none => exact SW.ofExcept _
  | some v => exact SW.pure _

theorem mem_sw (k : K) (t : Tree K V) : SameWithin (depth t + c) (mem (Host.bounded lt' eq') k t)
    (mem (Host.unbounded lt eq) k t) := by
  induction t with
  | nothing => exact SW.pure _
  | leaf key value => exact SW.mono (heq _ _) (by omega)
  | node key value l r h ihl ihr =>
    simp only [mem, depth]
    exact SW.bind (SW.mono (hlt _ _) (by omega)) fun _ => SW.ite (SW.mono (SW.call ihl) (by omega))
      (SW.bind (SW.mono (heq _ _) (by omega)) fun _ => SW.ite (SW.pure _) (SW.mono (SW.call ihr) (by omega)))

theorem remove_sw (k : K) (t : Tree K V) : SameWithin (depth t + c) (remove (Host.bounded lt' eq') k t)
    (remove (Host.unbounded lt eq) k t) := by
  induction t with
  | nothing => exact SW.pure _
  | leaf key value =>
    simp only [remove, depth]
    exact SW.bind (SW.mono (heq _ _) (by omega)) fun _ => SW.ite (SW.pure _) (SW.pure _)
  | node key value l r h ihl ihr =>
    simp only [remove, depth]
    exact SW.bind (SW.mono (hlt _ _) (by omega)) fun _ =>
      SW.ite (SW.bind (SW.mono (SW.call ihl) (by omega)) fun _ => SW.ofExcept _)
        (SW.bind (SW.mono (heq _ _) (by omega)) fun _ => SW.ite
          (SW.ite (SW.pure _) (SW.ite (SW.pure _) (SW.bind (SW.mono (SW.call (splice_sw r)) (by omega)) fun _ => SW.pure _)))
          (SW.bind (SW.mono (SW.call ihr) (by omega)) fun _ => SW.ofExcept _))

theorem change_sw (k : K) {u' : Option V → Py (σ × Nat) (Option V)} {u : Option V → Py σ (Option V)}
    (hu : ∀ o, SameWithin c (u' o) (u o)) (t : Tree K V) :
    SameWithin (depth t + c) (change (Host.bounded lt' eq') k u' t) (change (Host.unbounded lt eq) k u t) := by
  induction t with
  | nothing =>
    refine SW.bind (SW.mono (hu _) (by omega)) fun o => ?_
    cases o with
    | none => exact SW.ofExcept _
    | some v => exact SW.pure _
  | leaf key value =>
    simp only [change, depth]
    refine SW.bind (SW.mono (hlt _ _) (by omega)) fun _ => SW.ite ?_ (SW.bind (SW.mono (heq _ _) (by omega)) fun _ =>
      SW.ite ?_ ?_)
    all_goals
      refine SW.bind (SW.mono (hu _) (by omega)) fun o => ?_
      cases o <;> exact SW.pure _
  | node key value l r h ihl ihr =>
    simp only [change, depth]
    refine SW.bind (SW.mono (hlt _ _) (by omega)) fun _ =>
      SW.ite (SW.bind (SW.mono (SW.call ihl) (by omega)) fun _ => SW.ofExcept _)
        (SW.bind (SW.mono (heq _ _) (by omega)) fun _ => SW.ite ?_
          (SW.bind (SW.mono (SW.call ihr) (by omega)) fun _ => SW.ofExcept _))
    refine SW.bind (SW.mono (hu _) (by omega)) fun o => ?_
    cases o with
    | none => exact SW.ite (SW.pure _) (SW.ite (SW.pure _) (SW.bind (SW.mono (SW.call (splice_sw r)) (by omega)) fun _ =>
        SW.pure _))
    | some v => exact SW.pure _

theorem filterAux_sw {p' : K → V → Py (σ × Nat) Bool} {p : K → V → Py σ Bool} (hp : ∀ k v, SameWithin c (p' k v) (p k v))
    {N : Nat} (t : Tree K V) : ∀ (n : Nat) (acc : Tree K V), n + (inorder t).length ≤ N → Acc (fun _ => True) n acc →
    SameWithin (depth t + 2 + depthBound N + c) (filterAux (Host.bounded lt' eq') p' t acc)
      (filterAux (Host.unbounded lt eq) p t acc) := by
  have h1 : ∀ (k : K) (v : V) (n : Nat) (acc : Tree K V), n ≤ N → Acc (fun _ => True) n acc →
      SameWithin (1 + depthBound N + c) (filter1 (Host.bounded lt' eq') p' k v acc)
        (filter1 (Host.unbounded lt eq) p k v acc) := by
    intro k v n acc hn ha
    have := Nat.le_trans (depth_le ha.wf ha.bal) (depthBound_mono (Nat.le_trans ha.len hn))
    exact SW.bind (SW.mono (hp k v) (by omega)) fun _ => SW.ite (SW.mono (SW.call (add_sw hlt heq k v acc)) (by omega))
      (SW.pure _)
  have hpost : ∀ (t : Tree K V) (n : Nat) (acc : Tree K V), Acc (fun _ => True) n acc → ∀ a,
      (∃ w w', (filterAux (Host.unbounded lt eq) p t acc).exec w = (.ok a, w')) →
      Acc (fun _ => True) (n + (inorder t).length) a := by
    rintro t n acc ha a ⟨w, w', e⟩
    exact (filterAux_does free_unbounded (compares_any _) (fun k v => does_any _) (P := fun _ => True) (Nat.le_refl _) t
      (fun _ _ _ => trivial) n acc (Nat.le_refl _) ha).result e
  have hpost1 : ∀ (k : K) (v : V) (n : Nat) (acc : Tree K V), Acc (fun _ => True) n acc → ∀ a,
      (∃ w w', (filter1 (Host.unbounded lt eq) p k v acc).exec w = (.ok a, w')) →
      Acc (fun _ => True) (n + 1) a := by
    intro k v n acc ha a h
    exact hpost (leaf k v) n acc ha a h
  induction t with
  | nothing => intro n acc _ _; exact SW.pure _
  | leaf k v =>
    intro n acc hn ha
    simp only [filterAux, inorder, List.length_singleton, depth] at hn ⊢
    exact SW.mono (SW.call (h1 k v n acc (by omega) ha)) (by omega)
  | node k v l r h ihl ihr =>
    intro n acc hn ha
    simp only [filterAux, depth]
    have e : (inorder (node k v l r h)).length = (inorder l).length + 1 + (inorder r).length := by simp [inorder]; omega
    rw [e] at hn
    refine SW.bindOf (SW.mono (SW.call (ihl n acc (by omega) ha)) (by omega)) fun a1 hx1 => ?_
    have p1 := hpost l n acc ha a1 hx1
    refine SW.bindOf (SW.mono (SW.call (h1 k v _ a1 (by omega) p1)) (by omega)) fun a2 hx2 => ?_
    have p2 := hpost1 k v _ a1 p1 a2 hx2
    exact SW.mono (SW.call (ihr _ a2 (by omega) p2)) (by omega)

theorem partitionAux_sw {p' : K → V → Py (σ × Nat) Bool} {p : K → V → Py σ Bool}
    (hp : ∀ k v, SameWithin c (p' k v) (p k v))
    {N : Nat} (t : Tree K V) : ∀ (n : Nat) (acc : Tree K V × Tree K V), n + (inorder t).length ≤ N →
    Acc (fun _ => True) n acc.1 → Acc (fun _ => True) n acc.2 →
    SameWithin (depth t + 2 + depthBound N + c) (partitionAux (Host.bounded lt' eq') p' t acc)
      (partitionAux (Host.unbounded lt eq) p t acc) := by
  have h1 : ∀ (k : K) (v : V) (n : Nat) (acc : Tree K V × Tree K V), n ≤ N → Acc (fun _ => True) n acc.1 →
      Acc (fun _ => True) n acc.2 →
      SameWithin (1 + depthBound N + c) (partition1 (Host.bounded lt' eq') p' k v acc)
        (partition1 (Host.unbounded lt eq) p k v acc) := by
    intro k v n acc hn ha hb
    have d1 := Nat.le_trans (depth_le ha.wf ha.bal) (depthBound_mono (Nat.le_trans ha.len hn))
    have d2 := Nat.le_trans (depth_le hb.wf hb.bal) (depthBound_mono (Nat.le_trans hb.len hn))
    exact SW.bind (SW.mono (hp k v) (by omega)) fun _ => SW.ite
      (SW.bind (SW.mono (SW.call (add_sw hlt heq k v acc.1)) (by omega)) fun _ => SW.pure _)
      (SW.bind (SW.mono (SW.call (add_sw hlt heq k v acc.2)) (by omega)) fun _ => SW.pure _)
  have hpost : ∀ (t : Tree K V) (n : Nat) (acc : Tree K V × Tree K V), Acc (fun _ => True) n acc.1 →
      Acc (fun _ => True) n acc.2 → ∀ a,
      (∃ w w', (partitionAux (Host.unbounded lt eq) p t acc).exec w = (.ok a, w')) →
      Acc (fun _ => True) (n + (inorder t).length) a.1 ∧ Acc (fun _ => True) (n + (inorder t).length) a.2 := by
    rintro t n acc ha hb a ⟨w, w', e⟩
    exact (partitionAux_does free_unbounded (compares_any _) (fun k v => does_any _) (P := fun _ => True)
      (Q := fun _ => True) (Nat.le_refl _) t (fun _ _ _ => trivial) (fun _ _ _ => trivial) n acc (Nat.le_refl _) ha
      hb).result e
  induction t with
  | nothing => intro n acc _ _ _; exact SW.pure _
  | leaf k v =>
    intro n acc hn ha hb
    simp only [partitionAux, inorder, List.length_singleton, depth] at hn ⊢
    exact SW.mono (SW.call (h1 k v n acc (by omega) ha hb)) (by omega)
  | node k v l r h ihl ihr =>
    intro n acc hn ha hb
    simp only [partitionAux, depth]
    have e : (inorder (node k v l r h)).length = (inorder r).length + 1 + (inorder l).length := by simp [inorder]; omega
    rw [e] at hn
    refine SW.bindOf (SW.mono (SW.call (ihr n acc (by omega) ha hb)) (by omega)) fun a1 hx1 => ?_
    have p1 := hpost r n acc ha hb a1 hx1
    refine SW.bindOf (SW.mono (SW.call (h1 k v _ a1 (by omega) p1.1 p1.2)) (by omega)) fun a2 hx2 => ?_
    have p2 := hpost (leaf k v) _ a1 p1.1 p1.2 a2 hx2
    simp only [inorder, List.length_singleton] at p2
    exact SW.mono (SW.call (ihl _ a2 (by omega) p2.1 p2.2)) (by omega)

theorem ofListFrom_sw {N : Nat} (xs : List (K × V)) : ∀ (n : Nat) (acc : Tree K V), n + xs.length ≤ N →
    Acc (fun _ => True) n acc →
    SameWithin (depthBound N + 2 + c)
      (xs.foldlM (fun acc kv => (Host.bounded lt' eq').call ((Host.bounded lt' eq').call
        (add (Host.bounded lt' eq') kv.1 kv.2 acc))) acc)
      (xs.foldlM (fun acc kv => (Host.unbounded lt eq).call ((Host.unbounded lt eq).call
        (add (Host.unbounded lt eq) kv.1 kv.2 acc))) acc) := by
  induction xs with
  | nil => intro n acc _ _; exact SW.pure _
  | cons x xs ih =>
    intro n acc hn ha
    simp only [List.length_cons] at hn
    rw [List.foldlM_cons, List.foldlM_cons]
    have := Nat.le_trans (depth_le ha.wf ha.bal) (depthBound_mono (Nat.le_trans ha.len (show n ≤ N by omega)))
    refine SW.bindOf (SW.mono (SW.call (SW.call (add_sw hlt heq x.1 x.2 acc))) (by omega)) ?_
    rintro a ⟨w, w', e⟩
    exact ih (n + 1) a (by omega) ((add_acc free_unbounded (compares_any (Host.unbounded lt eq)) (P := fun _ => True)
      (Nat.le_refl _) ha trivial).result e)

theorem mkFromIterator_sw {N : Nat} (xs : List (K × V)) : ∀ (n : Nat) (acc : Tree K V), n + xs.length ≤ N →
    Acc (fun _ => True) n acc →
    SameWithin (xs.length + depthBound N + c) (mkFromIterator (Host.bounded lt' eq') acc xs)
      (mkFromIterator (Host.unbounded lt eq) acc xs) := by
  induction xs with
  | nil => intro n acc _ _; exact SW.pure _
  | cons x xs ih =>
    intro n acc hn ha
    simp only [List.length_cons, mkFromIterator] at hn ⊢
    have := Nat.le_trans (depth_le ha.wf ha.bal) (depthBound_mono (Nat.le_trans ha.len (show n ≤ N by omega)))
    refine SW.bindOf (SW.mono (SW.call (add_sw hlt heq x.1 x.2 acc)) (by omega)) ?_
    rintro a ⟨w, w', e⟩
    exact SW.mono (SW.call (ih (n + 1) a (by omega) ((add_acc free_unbounded (compares_any (Host.unbounded lt eq))
      (P := fun _ => True) (Nat.le_refl _) ha trivial).result e))) (by omega)

end

theorem iter_sw {f' : K → V → Py (σ × Nat) Unit} {f : K → V → Py σ Unit} (hf : ∀ k v, SameWithin c (f' k v) (f k v))
    (t : Tree K V) : SameWithin (depth t + c) (iter (Host.bounded lt' eq') f' t) (iter (Host.unbounded lt eq) f t) := by
  induction t with
  | nothing => exact SW.pure _
  | leaf k v => exact SW.mono (hf k v) (by omega)
  | node k v l r h ihl ihr =>
    simp only [iter, depth]
    exact SW.bind (SW.mono (SW.call ihl) (by omega)) fun _ => SW.bind (SW.mono (hf k v) (by omega)) fun _ =>
      SW.mono (SW.call ihr) (by omega)

theorem tryPick_sw {f' : K → V → Py (σ × Nat) (Option R)} {f : K → V → Py σ (Option R)}
    (hf : ∀ k v, SameWithin c (f' k v) (f k v)) (t : Tree K V) :
    SameWithin (depth t + c) (tryPick (Host.bounded lt' eq') f' t) (tryPick (Host.unbounded lt eq) f t) := by
  induction t with
  | nothing => exact SW.pure _
  | leaf k v => exact SW.mono (hf k v) (by omega)
  | node k v l r h ihl ihr =>
    simp only [tryPick, depth]
    exact SW.bind (SW.mono (SW.call ihl) (by omega)) fun _ => SW.ite (SW.pure _)
      (SW.bind (SW.mono (hf k v) (by omega)) fun _ => SW.ite (SW.pure _) (SW.mono (SW.call ihr) (by omega)))

theorem exists_sw {f' : K → V → Py (σ × Nat) Bool} {f : K → V → Py σ Bool} (hf : ∀ k v, SameWithin c (f' k v) (f k v))
    (t : Tree K V) :
    SameWithin (depth t + c) (MapHost.exists (Host.bounded lt' eq') f' t) (MapHost.exists (Host.unbounded lt eq) f t) := by
  induction t with
  | nothing => exact SW.pure _
  | leaf k v => exact SW.mono (hf k v) (by omega)
  | node k v l r h ihl ihr =>
    simp only [MapHost.exists, depth]
    exact SW.bind (SW.mono (SW.call ihl) (by omega)) fun _ => SW.ite (SW.pure _)
      (SW.bind (SW.mono (hf k v) (by omega)) fun _ => SW.ite (SW.pure _) (SW.mono (SW.call ihr) (by omega)))

theorem forall_sw {f' : K → V → Py (σ × Nat) Bool} {f : K → V → Py σ Bool} (hf : ∀ k v, SameWithin c (f' k v) (f k v))
    (t : Tree K V) :
    SameWithin (depth t + c) (MapHost.forall (Host.bounded lt' eq') f' t) (MapHost.forall (Host.unbounded lt eq) f t) := by
  induction t with
  | nothing => exact SW.pure _
  | leaf k v => exact SW.mono (hf k v) (by omega)
  | node k v l r h ihl ihr =>
    simp only [MapHost.forall, depth]
    exact SW.bind (SW.mono (SW.call ihl) (by omega)) fun _ => SW.ite
      (SW.bind (SW.mono (hf k v) (by omega)) fun _ => SW.ite (SW.mono (SW.call ihr) (by omega)) (SW.pure _)) (SW.pure _)

theorem map_sw {f' : K → V → Py (σ × Nat) R} {f : K → V → Py σ R} (hf : ∀ k v, SameWithin c (f' k v) (f k v))
    (t : Tree K V) : SameWithin (depth t + c) (map (Host.bounded lt' eq') f' t) (map (Host.unbounded lt eq) f t) := by
  induction t with
  | nothing => exact SW.pure _
  | leaf k v => exact SW.bind (SW.mono (hf k v) (by omega)) fun _ => SW.pure _
  | node k v l r h ihl ihr =>
    simp only [map, depth]
    exact SW.bind (SW.mono (SW.call ihl) (by omega)) fun _ => SW.bind (SW.mono (hf k v) (by omega)) fun _ =>
      SW.bind (SW.mono (SW.call ihr) (by omega)) fun _ => SW.pure _

theorem foldBack_sw {f' : K × V → R → Py (σ × Nat) R} {f : K × V → R → Py σ R}
    (hf : ∀ kv x, SameWithin c (f' kv x) (f kv x)) (t : Tree K V) : ∀ x,
    SameWithin (depth t + c) (foldBack (Host.bounded lt' eq') f' t x) (foldBack (Host.unbounded lt eq) f t x) := by
  induction t with
  | nothing => intro x; exact SW.pure _
  | leaf k v => intro x; exact SW.mono (hf _ _) (by omega)
  | node k v l r h ihl ihr =>
    intro x
    simp only [foldBack, depth]
    exact SW.bind (SW.mono (SW.call (ihr _)) (by omega)) fun _ => SW.bind (SW.mono (hf _ _) (by omega)) fun _ =>
      SW.mono (SW.call (ihl _)) (by omega)

theorem fold_sw {f' : R → K × V → Py (σ × Nat) R} {f : R → K × V → Py σ R}
    (hf : ∀ x kv, SameWithin c (f' x kv) (f x kv)) (t : Tree K V) : ∀ x,
    SameWithin (depth t + c) (fold (Host.bounded lt' eq') f' x t) (fold (Host.unbounded lt eq) f x t) := by
  induction t with
  | nothing => intro x; exact SW.pure _
  | leaf k v => intro x; exact SW.mono (hf _ _) (by omega)
  | node k v l r h ihl ihr =>
    intro x
    simp only [fold, depth]
    exact SW.bind (SW.mono (SW.call (ihl _)) (by omega)) fun _ => SW.bind (SW.mono (hf _ _) (by omega)) fun _ =>
      SW.mono (SW.call (ihr _)) (by omega)

/-! ### The iterator -/

def isLeaf : Tree K V → Bool
  | leaf _ _ => true
  | _ => false

/-- The stacks of an iterator: no tree deeper than `D`, and of two neighbours one is a leaf. -/
def Stack (D : Nat) : List (Tree K V) → Prop
  | [] => True
  | [t] => depth t ≤ D
  | t :: u :: rest => depth t ≤ D ∧ (isLeaf t = true ∨ isLeaf u = true) ∧ Stack D (u :: rest)

theorem Stack.tail {D : Nat} {t : Tree K V} {s : List (Tree K V)} (h : Stack D (t :: s)) : Stack D s := by
  cases s with
  | nil => trivial
  | cons u s => exact h.2.2

theorem Stack.head {D : Nat} {t : Tree K V} {s : List (Tree K V)} (h : Stack D (t :: s)) : depth t ≤ D := by
  cases s with
  | nil => exact h
  | cons u s => exact h.1

theorem Stack.unfold {D : Nat} {k : K} {v : V} {l r : Tree K V} {h : Nat} {s : List (Tree K V)}
    (hs : Stack D (node k v l r h :: s)) : Stack D (l :: leaf k v :: r :: s) := by
  have hd := hs.head
  simp only [depth] at hd
  refine ⟨by omega, Or.inr rfl, ⟨by simp only [depth]; omega, Or.inl rfl, ?_⟩⟩
  cases s with
  | nil => exact (by omega : depth r ≤ D)
  | cons u s => exact ⟨by omega, Or.inr (hs.2.1.resolve_left (by simp [isLeaf])), hs.2.2⟩

theorem Stack.collapse {D : Nat} {s : List (Tree K V)} (hs : Stack D s) : Stack D (MapTree.collapseLHS s) := by
  induction s using MapTree.collapseLHS.induct with
  | case1 => rw [MapTree.collapseLHS]; exact hs
  | case2 key value left right h rest ih => rw [MapTree.collapseLHS]; exact ih hs.unfold
  | case3 => rw [MapTree.collapseLHS]; exact hs
  | case4 rest ih => rw [MapTree.collapseLHS]; exact ih hs.tail

theorem collapse_sw {D : Nat} (s : List (Tree K V)) (hs : Stack D s) : ∀ d, (∀ t rest, s = t :: rest → depth t ≤ d) →
    SameWithin (d + 1) (collapseLHS (Host.bounded lt' eq') s) (collapseLHS (Host.unbounded lt eq) s) := by
  induction s using MapTree.collapseLHS.induct with
  | case1 => intro d _; rw [collapseLHS, collapseLHS]; exact SW.pure _
  | case2 key value left right h rest ih =>
    intro d hd
    rw [collapseLHS, collapseLHS]
    have hd := hd _ _ rfl
    simp only [depth] at hd
    refine SW.mono (SW.call (ih hs.unfold (d - 1) ?_)) (by omega)
    intro t r e
    cases e
    omega
  | case3 => intro d _; rw [collapseLHS, collapseLHS]; exact SW.pure _
  | case4 rest ih =>
    intro d _
    rw [collapseLHS, collapseLHS]
    match rest, hs with
    | [], _ => rw [collapseLHS, collapseLHS]; exact SW.mono (SW.call (SW.pure (n := 0) _)) (by omega)
    | leaf k v :: rest, _ => rw [collapseLHS, collapseLHS]; exact SW.mono (SW.call (SW.pure (n := 0) _)) (by omega)
    | node _ _ _ _ _ :: rest, hs => exact absurd hs.2.1 (by simp [isLeaf])
    | nothing :: rest, hs => exact absurd hs.2.1 (by simp [isLeaf])

theorem Stack.heads {D : Nat} {s : List (Tree K V)} (hs : Stack D s) : ∀ t rest, s = t :: rest → depth t ≤ D := by
  rintro t rest rfl
  exact hs.head

theorem mkIterator_sw (t : Tree K V) :
    SameWithin (depth t + 2) (mkIterator (Host.bounded lt' eq') t) (mkIterator (Host.unbounded lt eq) t) :=
  SW.call (collapse_sw (D := depth t) [t] (Nat.le_refl _) _ (Stack.heads (Nat.le_refl _)))

theorem forEach_sw {body' : K × V → Py (σ × Nat) Unit} {body : K × V → Py σ Unit}
    (hb : ∀ kv, SameWithin c (body' kv) (body kv)) {D : Nat} : ∀ (fuel : Nat) (s : List (Tree K V)), Stack D s →
    SameWithin (max (D + 3) c) (forEach (Host.bounded lt' eq') body' fuel s)
      (forEach (Host.unbounded lt eq) body fuel s) := by
  intro fuel
  induction fuel with
  | zero => intro s _; exact SW.pure _
  | succ n ih =>
    intro s hs
    simp only [forEach]
    refine SW.bindOf (SW.mono (SW.call (n := D + 2) ?_) (by omega)) ?_
    · match s, hs with
      | [], _ => exact SW.pure _
      | node _ _ _ _ _ :: _, _ => exact SW.ofExcept _
      | nothing :: _, _ => exact SW.ofExcept _
      | leaf k v :: rest, hs => exact SW.bind (SW.call (collapse_sw rest hs.tail D hs.tail.heads)) fun _ => SW.pure _
    · rintro o ⟨w, w', e⟩
      match s, hs with
      | [], _ => cases e; exact SW.pure _
      | node _ _ _ _ _ :: _, _ => cases e
      | nothing :: _, _ => cases e
      | leaf k v :: rest, hs =>
        have hi : (Host.unbounded lt eq).call (iterNext (Host.unbounded lt eq) (leaf k v :: rest)) =
            pure (some ((k, v), MapTree.collapseLHS rest)) := by
          simp only [iterNext, free_unbounded _, collapseLHS_free free_unbounded, pure_bind]
        rw [hi] at e
        cases e
        exact SW.bind (SW.mono (hb _) (by omega)) fun _ => ih _ hs.tail.collapse

end Expression.MapHost
