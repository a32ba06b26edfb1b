import Verif.Model.Block
import Verif.Spec.Loops
import Verif.Spec.Sorting
import Verif.Spec.Unfold

namespace Expression

open Builtins Spec

variable {σ α β γ S : Type}

/-! ## Loops with accumulators are the structural loops -/

theorem tupleMap_go (f : α → Py σ β) (xs : List α) (acc : List β) :
    tupleMap.go f xs acc = (fun ys => acc ++ ys) <$> each f xs := by
  induction xs generalizing acc with
  | nil => simp [tupleMap.go, each]
  | cons x xs ih => simp [tupleMap.go, each, ih]

theorem tupleMap_eq (f : α → Py σ β) (xs : List α) : tupleMap f xs = each f xs := by
  simp [tupleMap, tupleMap_go]

theorem tupleFilter_go (p : α → Py σ Bool) (xs : List α) (acc : List α) :
    tupleFilter.go p xs acc = (fun ys => acc ++ ys) <$> keep p xs := by
  induction xs generalizing acc with
  | nil => simp [tupleFilter.go, keep]
  | cons x xs ih =>
    simp only [tupleFilter.go, keep, ih, map_bind]
    congr 1; funext b; cases b <;> simp

theorem tupleFilter_eq (p : α → Py σ Bool) (xs : List α) : tupleFilter p xs = keep p xs := by
  simp [tupleFilter, tupleFilter_go]

theorem reduce_eq (f : β → α → Py σ β) (xs : List α) (s : β) : Builtins.reduce f xs s = foldLeft f s xs := by
  induction xs generalizing s with
  | nil => rfl
  | cons x xs ih => simp [Builtins.reduce, foldLeft, ih]

theorem all_eq (p : α → Py σ Bool) (xs : List α) : Builtins.all p xs = every p xs := by
  induction xs with
  | nil => rfl
  | cons x xs ih => simp [Builtins.all, every, ih]

theorem enumerate_each (f : Int → α → Py σ β) (xs : List α) (i : Int) :
    each (fun p => f p.1 p.2) (enumerate xs i) = eachWithIndex f i xs := by
  induction xs generalizing i with
  | nil => rfl
  | cons x xs ih => simp [enumerate, each, eachWithIndex, ih]

theorem enumerate_eq (xs : List α) (i : Int) :
    enumerate xs i = xs.zipIdx.map (fun p => (i + (p.2 : Int), p.1)) := by
  have h : ∀ (n : Nat), enumerate xs (i + n) = (xs.zipIdx n).map (fun p => (i + (p.2 : Int), p.1)) := by
    induction xs with
    | nil => intro n; rfl
    | cons x xs ih =>
      intro n
      simp only [enumerate, List.zipIdx_cons, List.map_cons]
      have := ih (n + 1)
      rw [← this]
      simp [Int.add_assoc]
  simpa using h 0

theorem zip_eq (xs : List α) (ys : List β) : Builtins.zip xs ys = List.zip xs ys := by
  induction xs generalizing ys with
  | nil => simp [Builtins.zip]
  | cons x xs ih => cases ys <;> simp [Builtins.zip, ih]

theorem Block.collect_go (f : α → Py σ (Block β)) (xs : List α) (acc : List β) :
    Block.collect.go f xs acc = (fun ys => acc ++ ys) <$> flatEach (fun x => Block.value <$> f x) xs := by
  induction xs generalizing acc with
  | nil => simp [Block.collect.go, flatEach]
  | cons x xs ih => simp [Block.collect.go, flatEach, ih]

theorem Block.collect_eq (b : Block α) (f : α → Py σ (Block β)) :
    b.collect f = Block.mk <$> flatEach (fun x => Block.value <$> f x) b.value := by
  simp [Block.collect, Block.collect_go]

theorem flatEach_pick (f : α → Py σ (Option β)) (xs : List α) :
    flatEach (fun x => (fun o => Block.optionToSeq o) <$> f x) xs = pick f xs := by
  induction xs with
  | nil => rfl
  | cons x xs ih =>
    simp only [flatEach, pick, ih, bind_map_left]
    congr 1; funext o; cases o <;> rfl

theorem Block.partition_go (p : α → Py σ Bool) (xs l1 l2 : List α) :
    Block.partition.go p xs l1 l2 = (fun r => (⟨l1 ++ r.1⟩, ⟨l2 ++ r.2⟩)) <$> split p xs := by
  induction xs generalizing l1 l2 with
  | nil => simp [Block.partition.go, split]
  | cons x xs ih =>
    simp only [Block.partition.go, split, ih, map_bind]
    congr 1; funext b; cases b <;> simp

theorem each_pure (f : α → β) (xs : List α) : each (fun x => (pure (f x) : Py σ β)) xs = pure (xs.map f) := by
  induction xs with
  | nil => rfl
  | cons x xs ih => simp [each, ih]

theorem flatEach_pure (f : α → List β) (xs : List α) :
    flatEach (fun x => (pure (f x) : Py σ (List β))) xs = pure (xs.flatMap f) := by
  induction xs with
  | nil => rfl
  | cons x xs ih => simp [flatEach, ih]

theorem keep_pure (p : α → Bool) (xs : List α) : keep (fun x => (pure (p x) : Py σ Bool)) xs = pure (xs.filter p) := by
  induction xs with
  | nil => rfl
  | cons x xs ih =>
    simp only [keep, ih, pure_bind, List.filter_cons]

theorem split_pure (p : α → Bool) (xs : List α) :
    split (fun x => (pure (p x) : Py σ Bool)) xs = pure (xs.filter p, xs.filter (fun x => !p x)) := by
  induction xs with
  | nil => rfl
  | cons x xs ih =>
    simp only [split, ih, pure_bind, List.filter_cons]
    cases h : p x <;> simp

/-- filtering and partitioning ask the same questions in the same order -/
theorem split_fst (p : α → Py σ Bool) (xs : List α) : Prod.fst <$> split p xs = keep p xs := by
  induction xs with
  | nil => simp [split, keep]
  | cons x xs ih =>
    simp only [split, keep, map_bind, ← ih, bind_map_left]
    congr 1; funext b; congr 1; funext r; cases b <;> simp

theorem split_lengths (p : α → Py σ Bool) (xs : List α) (w w' : σ) (yes no : List α)
    (h : (split p xs).exec w = (.ok (yes, no), w')) : yes.length + no.length = xs.length := by
  induction xs generalizing w yes no with
  | nil => simp [split] at h; obtain ⟨⟨rfl, rfl⟩, _⟩ := h; rfl
  | cons x xs ih =>
    simp only [split, Py.exec_bind] at h
    rcases h1 : (p x).exec w with ⟨_ | b, w1⟩ <;> rw [h1] at h <;> simp only at h
    · simp at h
    · rcases h2 : (split p xs).exec w1 with ⟨_ | r, w2⟩ <;> rw [h2] at h <;> simp only at h
      · simp at h
      · have := ih w1 r.1 r.2 (by rw [h2]; cases b <;> simp at h <;> simp [h.2])
        cases b <;> simp at h <;> obtain ⟨⟨rfl, rfl⟩, _⟩ := h <;> simp only [List.length_cons] <;> omega

/-! ## Slices -/

theorem slice_prefix (xs : List α) (i : Int) :
    slice xs none (some i) = xs.take (adjustIndex xs.length i) := by simp [slice]

theorem slice_suffix (xs : List α) (i : Int) :
    slice xs (some i) none = xs.drop (adjustIndex xs.length i) := by simp [slice]

theorem adjustIndex_nonneg (len n : Nat) : adjustIndex len n = min n len := by
  unfold adjustIndex
  rw [if_neg (by omega)]; simp

theorem adjustIndex_neg (len n : Nat) (hn : 0 < n) : adjustIndex len (-n) = len - n := by
  unfold adjustIndex
  split <;> omega

/-! ## Sorting -/

section sorting
variable [PyOrd γ] [LawfulPyOrd γ]

/-- ascending order of keys -/
def Asc (xs : List (γ × α)) : Prop := xs.Pairwise (fun a b => PyOrd.lt b.1 a.1 = false)

omit [PyOrd γ] [LawfulPyOrd γ] in
theorem insertSorted_perm (lt : γ → γ → Bool) (x : γ × α) (xs : List (γ × α)) :
    (insertSorted lt x xs).Perm (x :: xs) := by
  induction xs with
  | nil => simp [insertSorted]
  | cons y ys ih =>
    simp only [insertSorted]
    split
    · exact List.Perm.refl _
    · exact (List.Perm.cons y ih).trans (List.Perm.swap x y ys)

/-- incomparability is transitive, so `<` is negatively transitive -/
theorem lt_of_lt_of_not_lt {a b c : γ} (h1 : PyOrd.lt a b = true) (h2 : PyOrd.lt c b = false) :
    PyOrd.lt a c = true := by
  cases h : PyOrd.lt a c with
  | true => rfl
  | false =>
    cases hbc : PyOrd.lt b c with
    | true => rw [LawfulPyOrd.trans _ _ _ h1 hbc] at h; exact h.symm
    | false =>
      cases hca : PyOrd.lt c a with
      | true => rw [LawfulPyOrd.trans _ _ _ hca h1] at h2; cases h2
      | false =>
        have e1 : PyOrd.eq a c = true := (LawfulPyOrd.eq_iff _ _).2 ⟨h, hca⟩
        have e2 : PyOrd.eq c b = true := (LawfulPyOrd.eq_iff _ _).2 ⟨h2, hbc⟩
        have e3 := LawfulPyOrd.eq_trans _ _ _ e1 e2
        rw [((LawfulPyOrd.eq_iff _ _).1 e3).1] at h1; cases h1

theorem not_lt_trans {a b c : γ} (h1 : PyOrd.lt b a = false) (h2 : PyOrd.lt c b = false) : PyOrd.lt c a = false := by
  cases h : PyOrd.lt c a with
  | false => rfl
  | true => rw [lt_of_lt_of_not_lt h h1] at h2; exact h2

theorem lt_asymm {a b : γ} (h : PyOrd.lt a b = true) : PyOrd.lt b a = false := by
  cases h' : PyOrd.lt b a with
  | false => rfl
  | true => have := LawfulPyOrd.trans _ _ _ h h'; rw [LawfulPyOrd.irrefl] at this; exact this.symm

theorem insertSorted_asc (x : γ × α) (xs : List (γ × α)) (h : Asc xs) : Asc (insertSorted PyOrd.lt x xs) := by
  induction xs with
  | nil => simp [insertSorted, Asc]
  | cons y ys ih =>
    rw [Asc, List.pairwise_cons] at h
    simp only [insertSorted]
    split
    · rename_i hlt
      rw [Asc, List.pairwise_cons, List.pairwise_cons]
      refine ⟨?_, h⟩
      intro z hz
      rcases List.mem_cons.1 hz with rfl | hz
      · exact lt_asymm hlt
      · exact not_lt_trans (lt_asymm hlt) (h.1 z hz)
    · rename_i hlt
      rw [Asc, List.pairwise_cons]
      refine ⟨?_, ih h.2⟩
      intro z hz
      rcases List.mem_cons.1 ((insertSorted_perm _ x ys).mem_iff.1 hz) with rfl | hz
      · simpa using hlt
      · exact h.1 z hz

theorem insertSorted_filter (x : γ × α) (xs : List (γ × α)) (h : Asc xs) (k : γ) :
    (insertSorted PyOrd.lt x xs).filter (sameKey k) = xs.filter (sameKey k) ++ [x].filter (sameKey k) := by
  induction xs with
  | nil => simp [insertSorted]
  | cons y ys ih =>
    rw [Asc, List.pairwise_cons] at h
    simp only [insertSorted]
    split
    · rename_i hlt
      cases hx : sameKey k x with
      | false => simp [hx]
      | true =>
        have hnone : (y :: ys).filter (sameKey k) = [] := by
          rw [List.filter_eq_nil_iff]
          intro z hz hzk
          have hxz : PyOrd.lt x.1 z.1 = true := by
            rcases List.mem_cons.1 hz with rfl | hz
            · exact hlt
            · exact lt_of_lt_of_not_lt hlt (h.1 z hz) |> fun h' => by
                cases hc : PyOrd.lt x.1 z.1 with
                | true => rfl
                | false =>
                  have : PyOrd.lt x.1 y.1 = false := not_lt_trans (h.1 z hz) hc
                  rw [this] at hlt; cases hlt
          simp only [sameKey, Bool.and_eq_true, Bool.not_eq_true'] at hx hzk
          have e := not_lt_trans (a := z.1) (b := k) (c := x.1) hzk.1 hx.2
          rw [hxz] at e; cases e
        rw [hnone, List.filter_cons, if_pos hx, hnone]; simp [hx]
    · rw [List.filter_cons, List.filter_cons, ih h.2]
      split <;> simp

theorem sortPairs_aux (xs acc : List (γ × α)) (h : Asc acc) :
    (xs.foldl (fun acc x => insertSorted PyOrd.lt x acc) acc).Perm (acc ++ xs) ∧
    Asc (xs.foldl (fun acc x => insertSorted PyOrd.lt x acc) acc) ∧
    ∀ k, (xs.foldl (fun acc x => insertSorted PyOrd.lt x acc) acc).filter (sameKey k) =
      (acc ++ xs).filter (sameKey k) := by
  induction xs generalizing acc with
  | nil => simp [h]
  | cons x xs ih =>
    obtain ⟨h1, h2, h3⟩ := ih (insertSorted PyOrd.lt x acc) (insertSorted_asc x acc h)
    refine ⟨?_, h2, ?_⟩
    · refine h1.trans ?_
      refine ((insertSorted_perm _ x acc).append_right xs).trans ?_
      exact (List.perm_middle (l₁ := acc) (l₂ := xs) (a := x)).symm
    · intro k
      simp only [List.foldl_cons]
      rw [h3 k, List.filter_append, insertSorted_filter x acc h k, List.append_assoc, ← List.filter_append,
        ← List.filter_append]
      rfl

theorem sortPairs_stable (xs : List (γ × α)) : IsStableSort false xs (sortPairs PyOrd.lt xs) := by
  obtain ⟨h1, h2, h3⟩ := sortPairs_aux xs [] (by simp [Asc])
  exact ⟨by simpa [sortPairs] using h1, by simpa [sortPairs, Asc] using h2, by simpa [sortPairs] using h3⟩

theorem sortPairs_stable_rev (xs : List (γ × α)) :
    IsStableSort true xs (sortPairs PyOrd.lt xs.reverse).reverse := by
  have h := sortPairs_stable xs.reverse
  refine ⟨(List.reverse_perm _).trans (h.perm.trans (List.reverse_perm _)), ?_, ?_⟩
  · rw [List.pairwise_reverse]
    simpa using h.ordered
  · intro k
    rw [List.filter_reverse, h.stable k, List.filter_reverse, List.reverse_reverse]

/-- a list's order is determined by its elements being sorted and by the order among equals -/
theorem sorted_unique (R : γ → γ → Prop) (hR : ∀ a b, R a b → R b a → ∀ k (z : α), sameKey k (a, z) = sameKey k (b, z))
    (a b : List (γ × α)) (hp : a.Perm b) (ha : a.Pairwise (fun x y => R x.1 y.1)) (hb : b.Pairwise (fun x y => R x.1 y.1))
    (hf : ∀ k, a.filter (sameKey k) = b.filter (sameKey k)) : a = b := by
  induction a generalizing b with
  | nil => exact (List.nil_perm.1 hp).symm
  | cons x a ih =>
    cases b with
    | nil => exact absurd hp.length_eq (by simp)
    | cons y b =>
      rw [List.pairwise_cons] at ha hb
      have hself : ∀ z : γ × α, sameKey z.1 z = true := by
        intro z; simp [sameKey, LawfulPyOrd.irrefl]
      have hxy : x = y := by
        by_cases hne : x = y
        · exact hne
        have hx : x ∈ b := by
          have := hp.mem_iff.1 (List.mem_cons_self (a := x) (l := a))
          rcases List.mem_cons.1 this with h | h
          · exact absurd h hne
          · exact h
        have hy : y ∈ a := by
          have := hp.mem_iff.2 (List.mem_cons_self (a := y) (l := b))
          rcases List.mem_cons.1 this with h | h
          · exact absurd h.symm hne
          · exact h
        have e := hR x.1 y.1 (ha.1 y hy) (hb.1 x hx) x.1
        have e1 : sameKey x.1 y = true := by
          exact (e y.2).symm.trans (hself (x.1, y.2))
        have := hf x.1
        rw [List.filter_cons, if_pos (hself x), List.filter_cons, if_pos e1] at this
        exact (List.cons.inj this).1
      subst hxy
      congr 1
      refine ih b (List.Perm.cons_inv hp) ha.2 hb.2 ?_
      intro k
      have := hf k
      rw [List.filter_cons, List.filter_cons] at this
      split at this
      · exact (List.cons.inj this).2
      · exact this

theorem stableSort_unique {desc : Bool} {input a b : List (γ × α)} (ha : IsStableSort desc input a)
    (hb : IsStableSort desc input b) : a = b := by
  have key : ∀ u v : γ, PyOrd.lt u v = false → PyOrd.lt v u = false → ∀ k (z : α),
      sameKey k (u, z) = sameKey k (v, z) := by
    intro u v h1 h2 k z
    simp only [sameKey]
    have a1 : PyOrd.lt k u = PyOrd.lt k v := by
      cases h : PyOrd.lt k u
      · cases h' : PyOrd.lt k v
        · rfl
        · rw [lt_of_lt_of_not_lt h' h1] at h; cases h
      · rw [lt_of_lt_of_not_lt h h2]
    have a2 : PyOrd.lt u k = PyOrd.lt v k := by
      cases h : PyOrd.lt u k
      · cases h' : PyOrd.lt v k
        · rfl
        · have := not_lt_trans (a := k) (b := u) (c := v) h h2; rw [h'] at this; cases this
      · cases h' : PyOrd.lt v k
        · have := not_lt_trans (a := k) (b := v) (c := u) h' h1; rw [h] at this; cases this
        · rfl
    rw [a1, a2]
  have hp := ha.perm.trans hb.perm.symm
  have hf : ∀ k, a.filter (sameKey k) = b.filter (sameKey k) := fun k => (ha.stable k).trans (hb.stable k).symm
  have ha' := ha.ordered
  have hb' := hb.ordered
  cases desc with
  | false =>
    exact sorted_unique (fun x y => PyOrd.lt y x = false) (fun u v h1 h2 => key u v h2 h1) a b hp
      (by simpa using ha') (by simpa using hb') hf
  | true =>
    exact sorted_unique (fun x y => PyOrd.lt x y = false) (fun u v h1 h2 => key u v h1 h2) a b hp
      (by simpa using ha') (by simpa using hb') hf

end sorting

theorem each_pair (key : α → Py σ γ) (xs : List α) :
    each (fun x => do let k ← key x; pure (k, x)) xs = (fun ks => List.zip ks xs) <$> each key xs := by
  induction xs with
  | nil => simp [each]
  | cons x xs ih =>
    simp only [each, ih, bind_assoc, pure_bind, map_bind, bind_map_left, map_pure, List.zip_cons_cons]

/-! ## Unfold -/

/-- how the loop reports the end of the generator function -/
def unfoldResult (acc : List α) : Option PyErr → Except PyErr (Block α)
  | none => .ok ⟨acc⟩
  | some e => .error e


theorem unfoldLoop_of_generates (g : S → Py σ (Option (α × S))) {s w xs r w'} (h : Generates g s w xs r w')
    (acc : List α) :
    Block.unfoldLoop g s acc w = some (unfoldResult (acc ++ xs) r, w') := by
  induction h generalizing acc with
  | stop h => rw [Block.unfoldLoop, h]; simp [unfoldResult]
  | raise h => rw [Block.unfoldLoop, h]; simp [unfoldResult]
  | step h _ ih => rw [Block.unfoldLoop, h]; simp [ih]

theorem generates_of_unfoldLoop (g : S → Py σ (Option (α × S))) (s : S) (acc : List α) (w : σ)
    (res : Except PyErr (Block α) × σ) (h : Block.unfoldLoop g s acc w = some res) :
    ∃ xs r, Generates g s w xs r res.2 ∧ res.1 = unfoldResult (acc ++ xs) r := by
  refine Block.unfoldLoop.partial_correctness g (fun s acc w res => ∃ xs r, Generates g s w xs r res.2 ∧
    res.1 = unfoldResult (acc ++ xs) r) ?_ s acc w res h
  intro f ih s acc w res hres
  split at hres
  · rename_i e w' hg
    cases hres
    exact ⟨[], some e, .raise hg, rfl⟩
  · rename_i w' hg
    cases hres
    exact ⟨[], none, .stop hg, by simp [unfoldResult]⟩
  · rename_i x s' w' hg
    obtain ⟨xs, r, h1, h2⟩ := ih s' (acc ++ [x]) w' res hres
    refine ⟨x :: xs, r, .step hg h1, ?_⟩
    rw [h2]; simp

theorem generates_det {g : S → Py σ (Option (α × S))} {s w xs r w' xs2 r2 w2}
    (h : Generates g s w xs r w') (h2 : Generates g s w xs2 r2 w2) : xs = xs2 ∧ r = r2 ∧ w' = w2 := by
  induction h generalizing xs2 r2 w2 with
  | stop h => cases h2 <;> simp_all
  | raise h => cases h2 <;> simp_all
  | step h _ ih =>
    cases h2 with
    | stop h' => simp_all
    | raise h' => simp_all
    | step h' rest' =>
      rw [h] at h'
      simp only [Prod.mk.injEq, Except.ok.injEq, Option.some.injEq] at h'
      obtain ⟨⟨rfl, rfl⟩, rfl⟩ := h'
      obtain ⟨rfl, rfl, rfl⟩ := ih rest'
      exact ⟨rfl, rfl, rfl⟩

theorem neverStops_iff (g : S → Py σ (Option (α × S))) (s : S) (w : σ) :
    NeverStops g s w ↔ ¬ ∃ xs r w', Generates g s w xs r w' := by
  constructor
  · rintro ⟨c, h0, hc⟩ ⟨xs, r, w', h⟩
    have : ∀ n s w, c n = (s, w) → ∀ xs r w', Generates g s w xs r w' → False := by
      intro n s w hn xs r w' h
      induction h generalizing n with
      | stop h => obtain ⟨x, hx⟩ := hc n; rw [hn] at hx; simp_all
      | raise h => obtain ⟨x, hx⟩ := hc n; rw [hn] at hx; simp_all
      | step h _ ih =>
        obtain ⟨x, hx⟩ := hc n
        rw [hn] at hx
        refine ih (n + 1) ?_
        simp only at hx
        rw [h] at hx
        simp only [Prod.mk.injEq, Except.ok.injEq, Option.some.injEq] at hx
        obtain ⟨⟨-, h1⟩, h2⟩ := hx
        rw [h1, h2]
    exact this 0 s w h0 xs r w' h
  · intro hno
    let St := { p : S × σ // ¬ ∃ xs r w', Generates g p.1 p.2 xs r w' }
    have hstep : ∀ p : St, ∃ q : St, ∃ x, (g p.1.1).exec p.1.2 = (.ok (some (x, q.1.1)), q.1.2) := by
      rintro ⟨⟨s, w⟩, hp⟩
      rcases h : (g s).exec w with ⟨e | _ | ⟨x, s'⟩, w'⟩
      · exact absurd ⟨[], some e, w', .raise h⟩ hp
      · exact absurd ⟨[], none, w', .stop h⟩ hp
      · have hp' : ¬ ∃ xs r w2, Generates g s' w' xs r w2 := by
          rintro ⟨xs, r, w2, hg⟩
          exact hp ⟨x :: xs, r, w2, .step h hg⟩
        exact ⟨⟨(s', w'), hp'⟩, x, rfl⟩
    let next : St → St := fun p => Classical.choose (hstep p)
    let c : Nat → St := fun n => Nat.rec ⟨(s, w), hno⟩ (fun _ p => next p) n
    exact ⟨fun n => (c n).1, rfl, fun n => Classical.choose_spec (hstep (c n))⟩

end Expression
