import Verif.Lemmas.MapBalance
import Verif.Lemmas.MapHistory
import Verif.Spec.MapHost

/-! Maps whose keys compare as they like: contents, errors, cost. -/

namespace Expression.MapHost

open Expression Spec MapTree Tree

variable {σ K V R α β : Type}

/-! ### A triple: result, errors and cost -/

/-- Whatever world `p` starts in: a result satisfies `Q`, an exception satisfies `E`, the cost is at most `n`. -/
def Does (E : PyErr → Prop) (cost : σ → Nat) (n : Nat) (p : Py σ α) (Q : α → Prop) : Prop :=
  ∀ w, cost (p.exec w).2 ≤ cost w + n ∧ (∀ a, (p.exec w).1 = .ok a → Q a) ∧ ∀ e, (p.exec w).1 = .error e → E e

namespace Does

variable {E : PyErr → Prop} {cost : σ → Nat} {n m : Nat}

theorem pure {a : α} {Q : α → Prop} (h : Q a) : Does E cost n (Pure.pure a) Q := by
  intro w
  refine ⟨Nat.le_add_right _ _, ?_, ?_⟩
  · intro b e; cases e; exact h
  · intro e h; cases h

theorem raise {e : PyErr} {Q : α → Prop} (h : E e) : Does E cost n (Py.raise e) Q := by
  intro w
  refine ⟨Nat.le_add_right _ _, ?_, ?_⟩
  · intro b e; cases e
  · intro e h; cases h; assumption

theorem ofOk {a : Except PyErr α} {b : α} {Q : α → Prop} (e : a = .ok b) (h : Q b) :
    Does E cost n (Py.ofExcept a) Q := by
  subst e; exact pure h

theorem weaken {p : Py σ α} {Q Q' : α → Prop} (h : Does E cost n p Q) (hn : n ≤ m) (hQ : ∀ a, Q a → Q' a) :
    Does E cost m p Q' := by
  intro w
  obtain ⟨h1, h2, h3⟩ := h w
  exact ⟨by omega, fun a e => hQ a (h2 a e), h3⟩

theorem bind {p : Py σ α} {f : α → Py σ β} {Q : α → Prop} {S : β → Prop} (h : Does E cost n p Q)
    (hf : ∀ a, Q a → Does E cost m (f a) S) : Does E cost (n + m) (p >>= f) S := by
  intro w
  obtain ⟨h1, h2, h3⟩ := h w
  rw [Py.exec_bind]
  rcases hp : p.exec w with ⟨_ | a, w1⟩
  · rw [hp] at h1 h3
    simp only at h1 h3 ⊢
    refine ⟨by omega, ?_, ?_⟩
    · intro a e; cases e
    · intro e he; cases he; exact h3 _ rfl
  · rw [hp] at h1 h2
    simp only at h1 ⊢
    obtain ⟨g1, g2, g3⟩ := hf a (h2 a rfl) w1
    exact ⟨by omega, g2, g3⟩

/-- `bind` where the first part costs nothing. -/
theorem bind0 {p : Py σ α} {f : α → Py σ β} {Q : α → Prop} {S : β → Prop} (h : Does E cost 0 p Q)
    (hf : ∀ a, Q a → Does E cost m (f a) S) : Does E cost m (p >>= f) S := by
  have := bind h hf
  rwa [Nat.zero_add] at this

theorem ite {c : Bool} {p q : Py σ α} {Q : α → Prop} (hp : c = true → Does E cost n p Q)
    (hq : c = false → Does E cost n q Q) : Does E cost n (if c = true then p else q) Q := by
  cases c with
  | true => exact hp rfl
  | false => exact hq rfl

theorem raisesOnly {p : Py σ α} {Q : α → Prop} (h : Does E cost n p Q) : RaisesOnly E p := by
  intro w e w' he
  exact (h w).2.2 e (by rw [he])

theorem costs {p : Py σ α} {Q : α → Prop} (h : Does E cost n p Q) : CostsAtMost cost n p := fun w => (h w).1

theorem result {p : Py σ α} {Q : α → Prop} (h : Does E cost n p Q) {w w' : σ} {a : α}
    (e : p.exec w = (.ok a, w')) : Q a := (h w).2.1 a (by rw [e])

end Does

/-- The calls of this host are free. -/
def FreeCalls (H : Host σ K) : Prop := ∀ (α : Type) (p : Py σ α), H.call p = p

/-- What is assumed of the comparisons. -/
structure Compares (E : PyErr → Prop) (cost : σ → Nat) (c : Nat) (H : Host σ K) : Prop where
  lt : ∀ a b, Does E cost c (H.lt a b) (fun _ => True)
  eq : ∀ a b, Does E cost c (H.eq a b) (fun r => r = true → SaidEqual H a b)

theorem compares_of {E : PyErr → Prop} {cost : σ → Nat} {c : Nat} {H : Host σ K}
    (e1 : ∀ a b, RaisesOnly E (H.lt a b)) (e2 : ∀ a b, RaisesOnly E (H.eq a b))
    (c1 : ∀ a b, CostsAtMost cost c (H.lt a b)) (c2 : ∀ a b, CostsAtMost cost c (H.eq a b)) :
    Compares E cost c H where
  lt a b w := ⟨c1 a b w, fun _ _ => trivial, fun e h => e1 a b w e ((H.lt a b).exec w).2 (by rw [← h])⟩
  eq a b w := ⟨c2 a b w, fun r h hr => ⟨w, ((H.eq a b).exec w).2, by rw [← hr, ← h]⟩,
    fun e h => e2 a b w e ((H.eq a b).exec w).2 (by rw [← h])⟩

/-- What every insertion needs to know about its result. -/
structure AddPost (H : Host σ K) (k : K) (v : V) (t t' : Tree K V) : Prop where
  wf : WF t'
  put : PutIn H k v (inorder t) (inorder t')
  bal : Bal t → Bal t' ∧ (height t' = height t ∨ (height t' = height t + 1 ∧ Skew t'))

theorem _root_.Expression.Spec.PutIn.append_left {H : Host σ K} {k : K} {v : V} {a b : List (K × V)} (h : PutIn H k v a b)
    (xs : List (K × V)) : PutIn H k v (xs ++ a) (xs ++ b) := by
  rcases h with ⟨p, q, rfl, rfl⟩ | ⟨p, key, old, q, rfl, rfl, hs⟩
  · exact Or.inl ⟨xs ++ p, q, by simp, by simp⟩
  · exact Or.inr ⟨xs ++ p, key, old, q, by simp, by simp, hs⟩

theorem _root_.Expression.Spec.PutIn.append_right {H : Host σ K} {k : K} {v : V} {a b : List (K × V)} (h : PutIn H k v a b)
    (ys : List (K × V)) : PutIn H k v (a ++ ys) (b ++ ys) := by
  rcases h with ⟨p, q, rfl, rfl⟩ | ⟨p, key, old, q, rfl, rfl, hs⟩
  · exact Or.inl ⟨p, q ++ ys, by simp, by simp⟩
  · exact Or.inr ⟨p, key, old, q ++ ys, by simp, by simp, hs⟩

theorem _root_.Expression.Spec.TakenOut.append_left {H : Host σ K} {k : K} {a b : List (K × V)} (h : TakenOut H k a b)
    (xs : List (K × V)) : TakenOut H k (xs ++ a) (xs ++ b) := by
  rcases h with rfl | ⟨p, key, old, q, rfl, rfl, hs⟩
  · exact Or.inl rfl
  · exact Or.inr ⟨xs ++ p, key, old, q, by simp, by simp, hs⟩

theorem _root_.Expression.Spec.TakenOut.append_right {H : Host σ K} {k : K} {a b : List (K × V)} (h : TakenOut H k a b)
    (ys : List (K × V)) : TakenOut H k (a ++ ys) (b ++ ys) := by
  rcases h with rfl | ⟨p, key, old, q, rfl, rfl, hs⟩
  · exact Or.inl rfl
  · exact Or.inr ⟨p, key, old, q ++ ys, by simp, by simp, hs⟩

variable {E : PyErr → Prop} {cost : σ → Nat} {c : Nat} {H : Host σ K}

theorem addPost_left {k : K} {v : V} {key : K} {value : V} {l l' r : Tree K V} {h : Nat}
    (hw : WF (node key value l r h)) (hl : AddPost H k v l l') :
    ∃ t, rebalance l' key value r = .ok t ∧ AddPost H k v (node key value l r h) t := by
  obtain ⟨t, e, w, i⟩ := rebalance_ok key value hl.wf hw.2.1
  refine ⟨t, e, w, ?_, ?_⟩
  · rw [i]; exact hl.put.append_right _
  · rintro ⟨bl, br, d1, d2⟩
    obtain ⟨bl', hl'⟩ := hl.bal bl
    obtain ⟨t2, e2, b2, h2⟩ := rebalance_grow_left key value (height l) hl.wf bl' br hl' (by omega) (by omega)
    obtain rfl : t = t2 := by simpa using e.symm.trans e2
    refine ⟨b2, ?_⟩
    rw [height_node, hw.2.2.1]
    omega

theorem addPost_right {k : K} {v : V} {key : K} {value : V} {l r r' : Tree K V} {h : Nat}
    (hw : WF (node key value l r h)) (hr : AddPost H k v r r') :
    ∃ t, rebalance l key value r' = .ok t ∧ AddPost H k v (node key value l r h) t := by
  obtain ⟨t, e, w, i⟩ := rebalance_ok key value hw.1 hr.wf
  refine ⟨t, e, w, ?_, ?_⟩
  · rw [i]
    simp only [inorder]
    have := hr.put.append_left (inorder l ++ [(key, value)])
    simpa using this
  · rintro ⟨bl, br, d1, d2⟩
    obtain ⟨br', hr'⟩ := hr.bal br
    obtain ⟨t2, e2, b2, h2⟩ := rebalance_grow_right key value (height r) hr.wf bl br' hr' (by omega) (by omega)
    obtain rfl : t = t2 := by simpa using e.symm.trans e2
    refine ⟨b2, ?_⟩
    rw [height_node, hw.2.2.1]
    omega

theorem add_does (hc : FreeCalls H) (hH : Compares E cost c H) (k : K) (v : V) (t : Tree K V) (hw : WF t) :
    Does E cost (2 * c * depth t) (add H k v t) (AddPost H k v t) := by
  induction t with
  | nothing =>
    exact Does.pure ⟨trivial, Or.inl ⟨[], [], rfl, rfl⟩, fun _ => ⟨trivial, Or.inr ⟨rfl, trivial⟩⟩⟩
  | leaf key value =>
    have e : 2 * c * depth (leaf key value : Tree K V) = c + (c + 0) := by simp only [depth]; omega
    rw [e]
    refine Does.bind (hH.lt k key) fun b _ => Does.ite (fun _ => ?_) fun _ => Does.bind (hH.eq k key) fun b hb =>
      Does.ite (fun hb' => ?_) fun _ => ?_
    · exact Does.pure ⟨⟨trivial, trivial, rfl, by simp [height]⟩, Or.inl ⟨[], [(key, value)], rfl, rfl⟩,
        fun _ => ⟨by simp [Bal, height], Or.inr ⟨rfl, by simp [Skew, height]⟩⟩⟩
    · exact Does.pure ⟨trivial, Or.inr ⟨[], key, value, [], rfl, rfl, hb hb'⟩, fun _ => ⟨trivial, Or.inl rfl⟩⟩
    · exact Does.pure ⟨⟨trivial, trivial, rfl, by simp [height]⟩, Or.inl ⟨[(key, value)], [], rfl, rfl⟩,
        fun _ => ⟨by simp [Bal, height], Or.inr ⟨rfl, by simp [Skew, height]⟩⟩⟩
  | node key value l r h ihl ihr =>
    have hl : 2 * c * depth l ≤ 2 * c * max (depth l) (depth r) := Nat.mul_le_mul_left _ (Nat.le_max_left _ _)
    have hr : 2 * c * depth r ≤ 2 * c * max (depth l) (depth r) := Nat.mul_le_mul_left _ (Nat.le_max_right _ _)
    have e : 2 * c * depth (node key value l r h) = c + (c + (2 * c * max (depth l) (depth r) + 0)) := by
      simp only [depth, Nat.mul_add]; omega
    rw [e]
    simp only [add, hc _]
    refine Does.bind (hH.lt k key) fun b _ => Does.ite (fun _ => ?_) fun _ => Does.bind (hH.eq k key) fun b hb =>
      Does.ite (fun hb' => ?_) fun _ => ?_
    · refine Does.weaken (Does.bind (m := 0) (ihl hw.1) fun l' hl' => ?_) (by omega) (fun _ h => h)
      obtain ⟨t, e, ht⟩ := addPost_left hw hl'
      exact Does.ofOk e ht
    · refine Does.pure ⟨hw, Or.inr ⟨inorder l, key, value, inorder r, rfl, rfl, hb hb'⟩, fun hb => ⟨hb, Or.inl rfl⟩⟩
    · refine Does.weaken (Does.bind (m := 0) (ihr hw.2.1) fun r' hr' => ?_) (by omega) (fun _ h => h)
      obtain ⟨t, e, ht⟩ := addPost_right hw hr'
      exact Does.ofOk e ht

theorem tryFind_does (hc : FreeCalls H) (hH : Compares E cost c H) (k : K) (t : Tree K V) :
    Does E cost (2 * c * depth t) (tryFind H k t)
      (fun o => ∀ v, o = some v → ∃ key, (key, v) ∈ inorder t ∧ SaidEqual H k key) := by
  induction t with
  | nothing => exact Does.pure (by intro v h; cases h)
  | leaf key value =>
    have e : 2 * c * depth (leaf key value : Tree K V) = c + c := by simp only [depth]; omega
    rw [e]
    refine Does.bind (hH.eq k key) fun b hb => Does.ite (fun hb' => ?_) fun _ => ?_
    · exact Does.pure (by intro v h; cases h; exact ⟨key, by simp [inorder], hb hb'⟩)
    · exact Does.pure (by intro v h; cases h)
  | node key value l r h ihl ihr =>
    have hl : 2 * c * depth l ≤ 2 * c * max (depth l) (depth r) := Nat.mul_le_mul_left _ (Nat.le_max_left _ _)
    have hr : 2 * c * depth r ≤ 2 * c * max (depth l) (depth r) := Nat.mul_le_mul_left _ (Nat.le_max_right _ _)
    have e : 2 * c * depth (node key value l r h) = c + (c + (2 * c * max (depth l) (depth r))) := by
      simp only [depth, Nat.mul_add]; omega
    rw [e]
    simp only [tryFind, hc _]
    refine Does.bind (hH.eq k key) fun b hb => Does.ite (fun hb' => ?_) fun _ => Does.bind (hH.lt k key) fun b _ =>
      Does.ite (fun _ => ?_) fun _ => ?_
    · exact Does.pure (by intro v h; cases h; exact ⟨key, by simp [inorder], hb hb'⟩)
    · refine ihl.weaken hl fun o ho v hv => ?_
      obtain ⟨key', h1, h2⟩ := ho v hv
      exact ⟨key', by simp [inorder, h1], h2⟩
    · refine ihr.weaken hr fun o ho v hv => ?_
      obtain ⟨key', h1, h2⟩ := ho v hv
      exact ⟨key', by simp [inorder, h1], h2⟩

theorem mem_does (hc : FreeCalls H) (hH : Compares E cost c H) (k : K) (t : Tree K V) :
    Does E cost (2 * c * depth t) (mem H k t)
      (fun b => b = true → ∃ key v, (key, v) ∈ inorder t ∧ SaidEqual H k key) := by
  induction t with
  | nothing => exact Does.pure (by intro h; cases h)
  | leaf key value =>
    have e : 2 * c * depth (leaf key value : Tree K V) = c + c := by simp only [depth]; omega
    rw [e]
    exact (hH.eq k key).weaken (by omega) fun b hb hb' => ⟨key, value, by simp [inorder], hb hb'⟩
  | node key value l r h ihl ihr =>
    have hl : 2 * c * depth l ≤ 2 * c * max (depth l) (depth r) := Nat.mul_le_mul_left _ (Nat.le_max_left _ _)
    have hr : 2 * c * depth r ≤ 2 * c * max (depth l) (depth r) := Nat.mul_le_mul_left _ (Nat.le_max_right _ _)
    have e : 2 * c * depth (node key value l r h) = c + (c + (2 * c * max (depth l) (depth r))) := by
      simp only [depth, Nat.mul_add]; omega
    rw [e]
    simp only [mem, hc _]
    refine Does.bind (hH.lt k key) fun b _ => Does.ite (fun _ => ?_) fun _ => Does.bind (hH.eq k key) fun b hb =>
      Does.ite (fun hb' => ?_) fun _ => ?_
    · refine ihl.weaken (by omega) fun o ho hv => ?_
      obtain ⟨key', v, h1, h2⟩ := ho hv
      exact ⟨key', v, by simp [inorder, h1], h2⟩
    · exact Does.pure fun _ => ⟨key, value, by simp [inorder], hb hb'⟩
    · refine ihr.weaken hr fun o ho hv => ?_
      obtain ⟨key', v, h1, h2⟩ := ho hv
      exact ⟨key', v, by simp [inorder, h1], h2⟩

theorem splice_does (hc : FreeCalls H) {t : Tree K V} (hw : WF t) (hne : t ≠ nothing) :
    Does E cost 0 (spliceOutSuccessor H t) (fun r => WF r.2.2 ∧ inorder t = (r.1, r.2.1) :: inorder r.2.2) := by
  induction t with
  | nothing => exact absurd rfl hne
  | leaf k v => exact Does.pure ⟨trivial, rfl⟩
  | node k v l r h ihl _ =>
    simp only [spliceOutSuccessor, hc _]
    refine Does.ite (fun he => ?_) fun he => ?_
    · refine Does.pure ⟨hw.2.1, ?_⟩
      cases l with
      | nothing => rfl
      | leaf => cases he
      | node => cases he
    · refine Does.bind0 (ihl hw.1 (isEmpty_false (by simp [he]))) ?_
      rintro ⟨k3, v3, l'⟩ ⟨w, i⟩
      refine Does.pure ⟨WF_mk _ _ _ _ w hw.2.1, ?_⟩
      simp only [inorder] at i ⊢
      rw [inorder_mk _ _ _ _ w hw.2.1, i]; rfl

/-- What removal of the root of a subtree does. -/
theorem removeRoot_does (hc : FreeCalls H) {key : K} {value : V} {l r : Tree K V} {h : Nat}
    (hw : WF (node key value l r h)) :
    Does E cost 0 (if isEmpty l = true then pure r else if isEmpty r = true then pure l else
      (do
        let (sk, sv, r') ← H.call (spliceOutSuccessor H r)
        pure (mk l sk sv r')))
      (fun t' => WF t' ∧ inorder t' = inorder l ++ inorder r) := by
  refine Does.ite (fun he => ?_) fun he => Does.ite (fun he' => ?_) fun he' => ?_
  · refine Does.pure ⟨hw.2.1, ?_⟩
    rw [(isEmpty_iff l).1 he]; rfl
  · refine Does.pure ⟨hw.1, ?_⟩
    rw [(isEmpty_iff r).1 he']; simp
  · rw [hc]
    refine Does.bind0 (splice_does hc hw.2.1 (isEmpty_false (by simp [he']))) ?_
    rintro ⟨sk, sv, r'⟩ ⟨w, i⟩
    refine Does.pure ⟨WF_mk _ _ _ _ hw.1 w, ?_⟩
    rw [inorder_mk _ _ _ _ hw.1 w, i]

theorem remove_does (hc : FreeCalls H) (hH : Compares E cost c H) (k : K) (t : Tree K V) (hw : WF t) :
    Does E cost (2 * c * depth t) (remove H k t) (fun t' => WF t' ∧ TakenOut H k (inorder t) (inorder t')) := by
  induction t with
  | nothing => exact Does.pure ⟨trivial, Or.inl rfl⟩
  | leaf key value =>
    have e : 2 * c * depth (leaf key value : Tree K V) = c + c := by simp only [depth]; omega
    rw [e]
    refine Does.bind (hH.eq k key) fun b hb => Does.ite (fun hb' => ?_) fun _ => ?_
    · exact Does.pure ⟨trivial, Or.inr ⟨[], key, value, [], rfl, rfl, hb hb'⟩⟩
    · exact Does.pure ⟨trivial, Or.inl rfl⟩
  | node key value l r h ihl ihr =>
    have hl : 2 * c * depth l ≤ 2 * c * max (depth l) (depth r) := Nat.mul_le_mul_left _ (Nat.le_max_left _ _)
    have hr : 2 * c * depth r ≤ 2 * c * max (depth l) (depth r) := Nat.mul_le_mul_left _ (Nat.le_max_right _ _)
    have e : 2 * c * depth (node key value l r h) = c + (c + (2 * c * max (depth l) (depth r) + 0)) := by
      simp only [depth, Nat.mul_add]; omega
    rw [e]
    simp only [remove]
    refine Does.bind (hH.lt k key) fun b _ => Does.ite (fun _ => ?_) fun _ => Does.bind (hH.eq k key) fun b hb =>
      Does.ite (fun hb' => ?_) fun _ => ?_
    · rw [hc]
      refine Does.weaken (Does.bind (m := 0) (ihl hw.1) fun l' hl' => ?_) (by omega) (fun _ h => h)
      obtain ⟨t, e, w, i⟩ := rebalance_ok key value hl'.1 hw.2.1
      exact Does.ofOk e ⟨w, by rw [i]; exact hl'.2.append_right _⟩
    · refine (removeRoot_does hc hw).weaken (Nat.zero_le _) fun t' ht' => ⟨ht'.1, Or.inr ⟨inorder l, key, value, inorder r,
        rfl, ht'.2, hb hb'⟩⟩
    · rw [hc]
      refine Does.weaken (Does.bind (m := 0) (ihr hw.2.1) fun r' hr' => ?_) (by omega) (fun _ h => h)
      obtain ⟨t, e, w, i⟩ := rebalance_ok key value hw.1 hr'.1
      refine Does.ofOk e ⟨w, ?_⟩
      rw [i]
      have := hr'.2.append_left (inorder l ++ [(key, value)])
      simpa [inorder] using this

theorem _root_.Expression.Spec.Changed.append_left {u : Option V → Py σ (Option V)} {k : K} {a b : List (K × V)}
    (h : Changed H u k a b) (xs : List (K × V)) : Changed H u k (xs ++ a) (xs ++ b) := by
  rcases h with ⟨rfl, h⟩ | ⟨p, q, v, rfl, rfl, h⟩ | ⟨p, key, old, q, rfl, hs, h⟩
  · exact Or.inl ⟨rfl, h⟩
  · exact Or.inr (Or.inl ⟨xs ++ p, q, v, by simp, by simp, h⟩)
  · refine Or.inr (Or.inr ⟨xs ++ p, key, old, q, by simp, hs, ?_⟩)
    rcases h with ⟨v, h, rfl⟩ | ⟨h, rfl⟩
    · exact Or.inl ⟨v, h, by simp⟩
    · exact Or.inr ⟨h, by simp⟩

theorem _root_.Expression.Spec.Changed.append_right {u : Option V → Py σ (Option V)} {k : K} {a b : List (K × V)}
    (h : Changed H u k a b) (ys : List (K × V)) : Changed H u k (a ++ ys) (b ++ ys) := by
  rcases h with ⟨rfl, h⟩ | ⟨p, q, v, rfl, rfl, h⟩ | ⟨p, key, old, q, rfl, hs, h⟩
  · exact Or.inl ⟨rfl, h⟩
  · exact Or.inr (Or.inl ⟨p, q ++ ys, v, by simp, by simp, h⟩)
  · refine Or.inr (Or.inr ⟨p, key, old, q ++ ys, by simp, hs, ?_⟩)
    rcases h with ⟨v, h, rfl⟩ | ⟨h, rfl⟩
    · exact Or.inl ⟨v, h, by simp⟩
    · exact Or.inr ⟨h, by simp⟩

theorem change_does (hc : FreeCalls H) (hH : Compares E cost c H) (hE : E .effectError) (k : K) (d : Nat)
    (u : Option V → Py σ (Option V))
    (hu : ∀ o, Does E cost d (u o) (Answers u o)) (t : Tree K V) (hw : WF t) :
    Does E cost (2 * c * depth t + d) (change H k u t) (fun t' => WF t' ∧ Changed H u k (inorder t) (inorder t')) := by
  induction t with
  | nothing =>
    refine Does.weaken (Does.bind (m := 0) (hu none) fun o ho => ?_) (by simp only [depth]; omega) (fun _ h => h)
    cases o with
    | none => exact Does.raise hE
    | some v => exact Does.pure ⟨trivial, Or.inr (Or.inl ⟨[], [], v, rfl, rfl, ho⟩)⟩
  | leaf key value =>
    have e : 2 * c * depth (leaf key value : Tree K V) + d = c + (c + (d + 0)) := by simp only [depth]; omega
    rw [e]
    refine Does.bind (hH.lt k key) fun b _ => Does.ite (fun _ => ?_) fun _ => Does.bind (hH.eq k key) fun b hb =>
      Does.ite (fun hb' => ?_) fun _ => ?_
    · refine Does.weaken (Does.bind (m := 0) (hu none) fun o ho => ?_) (by omega) (fun _ h => h)
      cases o with
      | none => exact Does.pure ⟨trivial, Or.inl ⟨rfl, ho⟩⟩
      | some v => exact Does.pure ⟨⟨trivial, trivial, rfl, by simp [height]⟩, Or.inr (Or.inl ⟨[], [(key, value)], v, rfl, rfl, ho⟩)⟩
    · refine Does.bind (hu _) fun o ho => ?_
      cases o with
      | none => exact Does.pure ⟨trivial, Or.inr (Or.inr ⟨[], key, value, [], rfl, hb hb', Or.inr ⟨ho, rfl⟩⟩)⟩
      | some v => exact Does.pure ⟨trivial, Or.inr (Or.inr ⟨[], key, value, [], rfl, hb hb', Or.inl ⟨v, ho, rfl⟩⟩)⟩
    · refine Does.bind (hu none) fun o ho => ?_
      cases o with
      | none => exact Does.pure ⟨trivial, Or.inl ⟨rfl, ho⟩⟩
      | some v => exact Does.pure ⟨⟨trivial, trivial, rfl, by simp [height]⟩, Or.inr (Or.inl ⟨[(key, value)], [], v, rfl, rfl, ho⟩)⟩
  | node key value l r h ihl ihr =>
    have hl : 2 * c * depth l ≤ 2 * c * max (depth l) (depth r) := Nat.mul_le_mul_left _ (Nat.le_max_left _ _)
    have hr : 2 * c * depth r ≤ 2 * c * max (depth l) (depth r) := Nat.mul_le_mul_left _ (Nat.le_max_right _ _)
    have e : 2 * c * depth (node key value l r h) + d = c + (c + (d + 2 * c * max (depth l) (depth r) + 0)) := by
      simp only [depth, Nat.mul_add]; omega
    rw [e]
    simp only [change]
    refine Does.bind (hH.lt k key) fun b _ => Does.ite (fun _ => ?_) fun _ => Does.bind (hH.eq k key) fun b hb =>
      Does.ite (fun hb' => ?_) fun _ => ?_
    · rw [hc]
      refine Does.weaken (Does.bind (m := 0) (ihl hw.1) fun l' hl' => ?_) (by omega) (fun _ h => h)
      obtain ⟨t, e, w, i⟩ := rebalance_ok key value hl'.1 hw.2.1
      exact Does.ofOk e ⟨w, by rw [i]; exact hl'.2.append_right _⟩
    · refine Does.weaken (Does.bind (m := 0) (hu (some value)) fun o ho => ?_) (by omega) (fun _ h => h)
      cases o with
      | none => exact (removeRoot_does hc hw).weaken (Nat.zero_le _) fun t' ht' => ⟨ht'.1, Or.inr (Or.inr ⟨inorder l, key,
          value, inorder r, rfl, hb hb', Or.inr ⟨ho, ht'.2⟩⟩)⟩
      | some v => exact Does.pure ⟨hw, Or.inr (Or.inr ⟨inorder l, key, value, inorder r, rfl, hb hb', Or.inl ⟨v, ho, rfl⟩⟩)⟩
    · rw [hc]
      refine Does.weaken (Does.bind (m := 0) (ihr hw.2.1) fun r' hr' => ?_) (by omega) (fun _ h => h)
      obtain ⟨t, e, w, i⟩ := rebalance_ok key value hw.1 hr'.1
      refine Does.ofOk e ⟨w, ?_⟩
      rw [i]
      have := hr'.2.append_left (inorder l ++ [(key, value)])
      simpa [inorder] using this

end Expression.MapHost
