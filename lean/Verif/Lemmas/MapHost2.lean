import Verif.Lemmas.MapHost

/-! Maps whose keys compare as they like: operations that rebuild, and the invariants of all maps. -/

namespace Expression.MapHost

open Expression Spec MapTree Tree

variable {σ K V R α β : Type} {E : PyErr → Prop} {cost : σ → Nat} {c d : Nat} {H : Host σ K}

theorem depthBound_mono {n m : Nat} (h : n ≤ m) : depthBound n ≤ depthBound m := by
  unfold depthBound
  have h1 : (n + 1) ^ 2 ≤ (m + 1) ^ 2 := Nat.pow_le_pow_left (by omega) 2
  have h2 : 2 ^ Nat.log2 ((n + 1) ^ 2) ≤ (n + 1) ^ 2 := Nat.log2_self_le (Nat.pos_iff_ne_zero.1 (Nat.pow_pos (Nat.succ_pos n)))
  exact (Nat.le_log2 (Nat.pos_iff_ne_zero.1 (Nat.pow_pos (Nat.succ_pos m)))).2 (Nat.le_trans h2 h1)

theorem depth_le {t : Tree K V} (hw : WF t) (hb : Bal t) : depth t ≤ depthBound (inorder t).length := by
  have := two_pow_height_le hw hb
  rw [hw.depth_eq]
  exact (Nat.le_log2 (Nat.pos_iff_ne_zero.1 (Nat.pow_pos (Nat.succ_pos _)))).2 this

theorem _root_.Expression.Spec.PutIn.length_le {k : K} {v : V} {a b : List (K × V)} (h : PutIn H k v a b) :
    b.length ≤ a.length + 1 := by
  rcases h with ⟨xs, ys, rfl, rfl⟩ | ⟨xs, key, old, ys, rfl, rfl, _⟩ <;> simp <;> omega

theorem _root_.Expression.Spec.PutIn.mem {k : K} {v : V} {a b : List (K × V)} (h : PutIn H k v a b)
    {x : K × V} (hx : x ∈ b) : x ∈ a ∨ x = (k, v) := by
  rcases h with ⟨xs, ys, rfl, rfl⟩ | ⟨xs, key, old, ys, rfl, rfl, _⟩ <;> simp at hx ⊢ <;> grind

/-- An accumulator that holds only entries satisfying `P`, at most `n` of them. -/
structure Acc (P : K × V → Prop) (n : Nat) (t : Tree K V) : Prop where
  wf : WF t
  bal : Bal t
  len : (inorder t).length ≤ n
  all : ∀ x ∈ inorder t, P x

theorem Acc.weaken {P Q : K × V → Prop} {n m : Nat} {t : Tree K V} (h : Acc P n t) (hn : n ≤ m) (hP : ∀ x, P x → Q x) :
    Acc Q m t := ⟨h.wf, h.bal, Nat.le_trans h.len hn, fun x hx => hP x (h.all x hx)⟩

theorem Acc.nothing {P : K × V → Prop} {n : Nat} : Acc P n (Tree.nothing : Tree K V) :=
  ⟨trivial, trivial, Nat.zero_le _, by simp [inorder]⟩

theorem add_acc (hc : FreeCalls H) (hH : Compares E cost c H) {P : K × V → Prop} {n D : Nat} (hD : depthBound n ≤ D)
    {k : K} {v : V} {t : Tree K V} (ht : Acc P n t) (hp : P (k, v)) :
    Does E cost (2 * c * D) (add H k v t) (Acc P (n + 1)) := by
  refine (add_does hc hH k v t ht.wf).weaken ?_ fun t' h => ?_
  · exact Nat.mul_le_mul_left _ (Nat.le_trans (Nat.le_trans (depth_le ht.wf ht.bal) (depthBound_mono ht.len)) hD)
  · refine ⟨h.wf, (h.bal ht.bal).1, Nat.le_trans h.put.length_le (Nat.succ_le_succ ht.len), fun x hx => ?_⟩
    rcases h.put.mem hx with hx | rfl
    · exact ht.all x hx
    · exact hp

theorem filterAux_does (hc : FreeCalls H) (hH : Compares E cost c H) {p : K → V → Py σ Bool}
    (hp : ∀ k v, Does E cost d (p k v) (fun b => Judged p b (k, v))) {P : K × V → Prop} {N D : Nat}
    (hD : depthBound N ≤ D) (t : Tree K V) (hP : ∀ x ∈ inorder t, Judged p true x → P x) :
    ∀ (n : Nat) (acc : Tree K V), n + (inorder t).length ≤ N → Acc P n acc →
      Does E cost ((inorder t).length * (d + 2 * c * D)) (filterAux H p t acc) (Acc P (n + (inorder t).length)) := by
  have h1 : ∀ (k : K) (v : V), (Judged p true (k, v) → P (k, v)) → ∀ (n : Nat) (acc : Tree K V), n + 1 ≤ N →
      Acc P n acc → Does E cost (d + 2 * c * D) (filter1 H p k v acc) (Acc P (n + 1)) := by
    intro k v hP n acc hn ha
    simp only [filter1, hc _]
    refine Does.bind (hp k v) fun b hb => Does.ite (fun hb' => ?_) fun _ => ?_
    · subst hb'
      exact add_acc hc hH (Nat.le_trans (depthBound_mono (by omega)) hD) ha (hP hb)
    · exact Does.pure (ha.weaken (by omega) fun _ h => h)
  induction t with
  | nothing => intro n acc _ ha; exact Does.pure (ha.weaken (by omega) fun _ h => h)
  | leaf k v =>
    intro n acc hn ha
    simp only [filterAux, hc _, inorder, List.length_singleton, Nat.one_mul] at hn ⊢
    exact h1 k v (hP _ (by simp [inorder])) n acc hn ha
  | node k v l r h ihl ihr =>
    intro n acc hn ha
    simp only [filterAux, hc _]
    have e : (inorder (node k v l r h)).length = (inorder l).length + 1 + (inorder r).length := by simp [inorder]; omega
    rw [e] at hn ⊢
    have e2 : ((inorder l).length + 1 + (inorder r).length) * (d + 2 * c * D) = (inorder l).length * (d + 2 * c * D) +
        ((d + 2 * c * D) + (inorder r).length * (d + 2 * c * D)) := by simp only [Nat.add_mul, Nat.one_mul]; omega
    rw [e2]
    refine Does.bind (ihl (fun x hx => hP x (by simp [inorder, hx])) n acc (by omega) ha) fun acc ha => ?_
    refine Does.bind (h1 k v (hP _ (by simp [inorder])) _ acc (by omega) ha) fun acc ha => ?_
    exact (ihr (fun x hx => hP x (by simp [inorder, hx])) _ acc (by omega) ha).weaken (Nat.le_refl _) fun t h =>
      h.weaken (by omega) fun _ h => h

theorem partitionAux_does (hc : FreeCalls H) (hH : Compares E cost c H) {p : K → V → Py σ Bool}
    (hp : ∀ k v, Does E cost d (p k v) (fun b => Judged p b (k, v))) {P Q : K × V → Prop} {N D : Nat}
    (hD : depthBound N ≤ D) (t : Tree K V) (hP : ∀ x ∈ inorder t, Judged p true x → P x)
    (hQ : ∀ x ∈ inorder t, Judged p false x → Q x) :
    ∀ (n : Nat) (acc : Tree K V × Tree K V), n + (inorder t).length ≤ N → Acc P n acc.1 → Acc Q n acc.2 →
      Does E cost ((inorder t).length * (d + 2 * c * D)) (partitionAux H p t acc)
        (fun a => Acc P (n + (inorder t).length) a.1 ∧ Acc Q (n + (inorder t).length) a.2) := by
  have h1 : ∀ (k : K) (v : V), (Judged p true (k, v) → P (k, v)) → (Judged p false (k, v) → Q (k, v)) →
      ∀ (n : Nat) (acc : Tree K V × Tree K V), n + 1 ≤ N → Acc P n acc.1 → Acc Q n acc.2 →
      Does E cost (d + 2 * c * D) (partition1 H p k v acc) (fun a => Acc P (n + 1) a.1 ∧ Acc Q (n + 1) a.2) := by
    intro k v hP hQ n acc hn ha hb
    simp only [partition1, hc _]
    refine Does.bind (hp k v) fun b hj => Does.ite (fun hb' => ?_) fun hb' => ?_
    · subst hb'
      refine Does.weaken (Does.bind (m := 0) (add_acc hc hH (Nat.le_trans (depthBound_mono (by omega)) hD) ha (hP hj))
        fun a h => Does.pure ⟨h, hb.weaken (by omega) fun _ h => h⟩) (by omega) fun _ h => h
    · subst hb'
      refine Does.weaken (Does.bind (m := 0) (add_acc hc hH (Nat.le_trans (depthBound_mono (by omega)) hD) hb (hQ hj))
        fun a h => Does.pure ⟨ha.weaken (by omega) fun _ h => h, h⟩) (by omega) fun _ h => h
  induction t with
  | nothing =>
    intro n acc _ ha hb
    exact Does.pure ⟨ha.weaken (by omega) fun _ h => h, hb.weaken (by omega) fun _ h => h⟩
  | leaf k v =>
    intro n acc hn ha hb
    simp only [partitionAux, hc _, inorder, List.length_singleton, Nat.one_mul] at hn ⊢
    exact h1 k v (hP _ (by simp [inorder])) (hQ _ (by simp [inorder])) n acc hn ha hb
  | node k v l r h ihl ihr =>
    intro n acc hn ha hb
    simp only [partitionAux, hc _]
    have e : (inorder (node k v l r h)).length = (inorder r).length + 1 + (inorder l).length := by simp [inorder]; omega
    rw [e] at hn ⊢
    have e2 : ((inorder r).length + 1 + (inorder l).length) * (d + 2 * c * D) = (inorder r).length * (d + 2 * c * D) +
        ((d + 2 * c * D) + (inorder l).length * (d + 2 * c * D)) := by simp only [Nat.add_mul, Nat.one_mul]; omega
    rw [e2]
    refine Does.bind (ihr (fun x hx => hP x (by simp [inorder, hx])) (fun x hx => hQ x (by simp [inorder, hx])) n acc
      (by omega) ha hb) fun acc ha => ?_
    refine Does.bind (h1 k v (hP _ (by simp [inorder])) (hQ _ (by simp [inorder])) _ acc (by omega) ha.1 ha.2) fun acc ha => ?_
    exact (ihl (fun x hx => hP x (by simp [inorder, hx])) (fun x hx => hQ x (by simp [inorder, hx])) _ acc (by omega)
      ha.1 ha.2).weaken (Nat.le_refl _) fun t h => ⟨h.1.weaken (by omega) fun _ h => h, h.2.weaken (by omega) fun _ h => h⟩

theorem ofListFrom_does (hc : FreeCalls H) (hH : Compares E cost c H) {P : K × V → Prop} {N D : Nat} (hD : depthBound N ≤ D)
    (xs : List (K × V)) (hP : ∀ x ∈ xs, P x) : ∀ (n : Nat) (acc : Tree K V), n + xs.length ≤ N → Acc P n acc →
    Does E cost (xs.length * (2 * c * D)) (xs.foldlM (fun acc kv => H.call (H.call (add H kv.1 kv.2 acc))) acc)
      (Acc P (n + xs.length)) := by
  induction xs with
  | nil => intro n acc _ ha; exact Does.pure ha
  | cons x xs ih =>
    intro n acc hn ha
    simp only [List.length_cons, hc _] at hn ih ⊢
    have e : (xs.length + 1) * (2 * c * D) = 2 * c * D + xs.length * (2 * c * D) := by
      rw [Nat.add_mul, Nat.one_mul, Nat.add_comm]
    rw [List.foldlM_cons, e]
    refine Does.bind (add_acc hc hH (Nat.le_trans (depthBound_mono (by omega)) hD) ha (hP x (by simp))) fun acc ha => ?_
    exact (ih (fun x hx => hP x (by simp [hx])) _ acc (by omega) ha).weaken (Nat.le_refl _) fun t h =>
      h.weaken (by omega) fun _ h => h

theorem mkFromIterator_does (hc : FreeCalls H) (hH : Compares E cost c H) {P : K × V → Prop} {N D : Nat}
    (hD : depthBound N ≤ D)
    (xs : List (K × V)) (hP : ∀ x ∈ xs, P x) : ∀ (n : Nat) (acc : Tree K V), n + xs.length ≤ N → Acc P n acc →
    Does E cost (xs.length * (2 * c * D)) (mkFromIterator H acc xs) (Acc P (n + xs.length)) := by
  induction xs with
  | nil => intro n acc _ ha; exact Does.pure ha
  | cons x xs ih =>
    intro n acc hn ha
    simp only [List.length_cons, hc _, mkFromIterator] at hn ih ⊢
    have e : (xs.length + 1) * (2 * c * D) = 2 * c * D + xs.length * (2 * c * D) := by
      rw [Nat.add_mul, Nat.one_mul, Nat.add_comm]
    rw [e]
    refine Does.bind (add_acc hc hH (Nat.le_trans (depthBound_mono (by omega)) hD) ha (hP _ (by simp))) fun acc ha => ?_
    exact (ih (fun x hx => hP x (by simp [hx])) _ acc (by omega) ha).weaken (Nat.le_refl _) fun t h =>
      h.weaken (by omega) fun _ h => h

theorem map_does (hc : FreeCalls H) {f : K → V → Py σ R} (hf : ∀ k v, Does E cost d (f k v) (fun _ => True)) (t : Tree K V)
    (hw : WF t) : Does E cost ((inorder t).length * d) (map H f t)
      (fun t' => WF t' ∧ height t' = height t ∧ (Bal t → Bal t')) := by
  induction t with
  | nothing => exact Does.pure ⟨trivial, rfl, fun _ => trivial⟩
  | leaf k v =>
    exact Does.weaken (Does.bind (m := 0) (hf k v) fun v2 _ => Does.pure ⟨trivial, rfl, fun _ => trivial⟩)
      (by simp [inorder]) fun _ h => h
  | node k v l r h ihl ihr =>
    simp only [map, hc _]
    have e : (inorder (node k v l r h)).length * d = (inorder l).length * d + (d + ((inorder r).length * d + 0)) := by
      simp only [inorder, List.length_append, List.length_cons, Nat.add_mul]; omega
    rw [e]
    refine Does.bind (ihl hw.1) fun l' hl => Does.bind (hf k v) fun v2 _ => Does.bind (ihr hw.2.1) fun r' hr => ?_
    refine Does.pure ⟨⟨hl.1, hr.1, ?_, ?_⟩, rfl, ?_⟩
    · rw [hl.2.1, hr.2.1]; exact hw.2.2.1
    · rw [hl.2.1, hr.2.1]; exact hw.2.2.2
    · rintro ⟨b1, b2, d1, d2⟩
      exact ⟨hl.2.2 b1, hr.2.2 b2, by rw [hl.2.1, hr.2.1]; exact d1, by rw [hl.2.1, hr.2.1]; exact d2⟩

/-! ### Any comparisons will do -/

theorem does_any (p : Py σ α) : Does (fun _ => True) (fun _ => 0) 0 p (fun a => ∃ w w', p.exec w = (.ok a, w')) := by
  intro w
  exact ⟨Nat.le_refl _, fun a h => ⟨w, (p.exec w).2, by rw [← h]⟩, fun _ _ => trivial⟩

theorem compares_any (H : Host σ K) : Compares (fun _ => True) (fun _ => 0) 0 H where
  lt a b := (does_any _).weaken (Nat.le_refl _) fun _ _ => trivial
  eq a b := (does_any _).weaken (Nat.le_refl _) fun r h hr => by subst hr; exact h

theorem exec_wrap {α β : Type} {p : Py σ α} {g : α → β} {w w' : σ} {b : β} (h : (p >>= fun a => pure (g a)).exec w = (.ok b, w')) :
    ∃ a, p.exec w = (.ok a, w') ∧ g a = b := by
  rw [Py.exec_bind] at h
  rcases hp : p.exec w with ⟨_ | a, w1⟩
  · rw [hp] at h; cases h
  · rw [hp] at h
    have : (Except.ok (g a), w1) = ((Except.ok b : Except PyErr β), w') := h
    cases this
    exact ⟨a, rfl, rfl⟩

theorem made_wf (hc : FreeCalls H) {m : Map K V} (h : Made H m) : WF m.tree := by
  induction h with
  | empty => trivial
  | ofList xs w w' e =>
    simp only [HostMap.ofList, hc _] at e
    obtain ⟨t, e1, rfl⟩ := exec_wrap e
    exact ((ofListFrom_does hc (compares_any H) (P := fun _ => True) (Nat.le_refl _) xs (fun _ _ => trivial) 0 nothing
      (Nat.le_refl _) Acc.nothing).result e1).wf
  | ofSeq xs w w' e =>
    simp only [HostMap.ofSeq, MapHost.ofSeq, hc _] at e
    obtain ⟨t, e1, rfl⟩ := exec_wrap e
    exact ((mkFromIterator_does hc (compares_any H) (P := fun _ => True) (Nat.le_refl _) xs (fun _ _ => trivial) 0 nothing
      (Nat.le_refl _) Acc.nothing).result e1).wf
  | add k v w w' _ e ih =>
    simp only [HostMap.add, hc _] at e
    obtain ⟨t, e1, rfl⟩ := exec_wrap e
    exact ((add_does hc (compares_any H) k v _ ih).result e1).wf
  | remove k w w' _ e ih =>
    simp only [HostMap.remove, hc _] at e
    obtain ⟨t, e1, rfl⟩ := exec_wrap e
    exact ((remove_does hc (compares_any H) k _ ih).result e1).1
  | change k f w w' _ e ih =>
    simp only [HostMap.change, hc _] at e
    obtain ⟨t, e1, rfl⟩ := exec_wrap e
    exact ((change_does hc (compares_any H) trivial k 0 f (fun o => does_any _) _ ih).result e1).1
  | filter p w w' _ e ih =>
    simp only [HostMap.filter, MapHost.filter, hc _] at e
    obtain ⟨t, e1, rfl⟩ := exec_wrap e
    exact ((filterAux_does hc (compares_any H) (fun k v => does_any _) (P := fun _ => True) (Nat.le_refl _) _
      (fun _ _ _ => trivial) 0 nothing (Nat.le_refl _) Acc.nothing).result e1).wf
  | partitionFst p w w' _ e ih =>
    simp only [HostMap.partition, MapHost.partition, hc _] at e
    obtain ⟨t, e1, rfl⟩ := exec_wrap e
    exact ((partitionAux_does hc (compares_any H) (fun k v => does_any _) (P := fun _ => True) (Q := fun _ => True)
      (Nat.le_refl _) _ (fun _ _ _ => trivial) (fun _ _ _ => trivial) 0 (nothing, nothing) (Nat.le_refl _) Acc.nothing
      Acc.nothing).result e1).1.wf
  | partitionSnd p w w' _ e ih =>
    simp only [HostMap.partition, MapHost.partition, hc _] at e
    obtain ⟨t, e1, rfl⟩ := exec_wrap e
    exact ((partitionAux_does hc (compares_any H) (fun k v => does_any _) (P := fun _ => True) (Q := fun _ => True)
      (Nat.le_refl _) _ (fun _ _ _ => trivial) (fun _ _ _ => trivial) 0 (nothing, nothing) (Nat.le_refl _) Acc.nothing
      Acc.nothing).result e1).2.wf
  | map f w w' _ e ih =>
    simp only [HostMap.map, hc _] at e
    obtain ⟨t, e1, rfl⟩ := exec_wrap e
    exact ((map_does hc (fun k v => (does_any _).weaken (Nat.le_refl _) fun _ _ => trivial) _ ih).result e1).1

theorem madeByInsertion_good (hc : FreeCalls H) {m : Map K V} (h : MadeByInsertion H m) : WF m.tree ∧ Bal m.tree := by
  induction h with
  | empty => exact ⟨trivial, trivial⟩
  | ofList xs w w' e =>
    simp only [HostMap.ofList, hc _] at e
    obtain ⟨t, e1, rfl⟩ := exec_wrap e
    have := (ofListFrom_does hc (compares_any H) (P := fun _ => True) (Nat.le_refl _) xs (fun _ _ => trivial) 0 nothing
      (Nat.le_refl _) Acc.nothing).result e1
    exact ⟨this.wf, this.bal⟩
  | ofSeq xs w w' e =>
    simp only [HostMap.ofSeq, MapHost.ofSeq, hc _] at e
    obtain ⟨t, e1, rfl⟩ := exec_wrap e
    have := (mkFromIterator_does hc (compares_any H) (P := fun _ => True) (Nat.le_refl _) xs (fun _ _ => trivial) 0 nothing
      (Nat.le_refl _) Acc.nothing).result e1
    exact ⟨this.wf, this.bal⟩
  | add k v w w' _ e ih =>
    simp only [HostMap.add, hc _] at e
    obtain ⟨t, e1, rfl⟩ := exec_wrap e
    have := (add_does hc (compares_any H) k v _ ih.1).result e1
    exact ⟨this.wf, (this.bal ih.2).1⟩
  | filter p w w' _ e =>
    simp only [HostMap.filter, MapHost.filter, hc _] at e
    obtain ⟨t, e1, rfl⟩ := exec_wrap e
    have := (filterAux_does hc (compares_any H) (fun k v => does_any _) (P := fun _ => True) (Nat.le_refl _) _
      (fun _ _ _ => trivial) 0 nothing (Nat.le_refl _) Acc.nothing).result e1
    exact ⟨this.wf, this.bal⟩
  | partitionFst p w w' _ e =>
    simp only [HostMap.partition, MapHost.partition, hc _] at e
    obtain ⟨t, e1, rfl⟩ := exec_wrap e
    have := ((partitionAux_does hc (compares_any H) (fun k v => does_any _) (P := fun _ => True) (Q := fun _ => True)
      (Nat.le_refl _) _ (fun _ _ _ => trivial) (fun _ _ _ => trivial) 0 (nothing, nothing) (Nat.le_refl _) Acc.nothing
      Acc.nothing).result e1).1
    exact ⟨this.wf, this.bal⟩
  | partitionSnd p w w' _ e =>
    simp only [HostMap.partition, MapHost.partition, hc _] at e
    obtain ⟨t, e1, rfl⟩ := exec_wrap e
    have := ((partitionAux_does hc (compares_any H) (fun k v => does_any _) (P := fun _ => True) (Q := fun _ => True)
      (Nat.le_refl _) _ (fun _ _ _ => trivial) (fun _ _ _ => trivial) 0 (nothing, nothing) (Nat.le_refl _) Acc.nothing
      Acc.nothing).result e1).2
    exact ⟨this.wf, this.bal⟩
  | map f w w' _ e ih =>
    simp only [HostMap.map, hc _] at e
    obtain ⟨t, e1, rfl⟩ := exec_wrap e
    have := (map_does hc (fun k v => (does_any _).weaken (Nat.le_refl _) fun _ _ => trivial) _ ih.1).result e1
    exact ⟨this.1, this.2.2 ih.2⟩

end Expression.MapHost
