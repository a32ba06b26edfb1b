import Verif.Lemmas.Block

/-!
# Properties of `Block` (C15 - C21)
-/

namespace Expression.Props

open Expression Expression.Spec

variable {σ α β γ S : Type}

/-! ## C15 take and skip -/

/-- The two parts make up the block, whatever the integer. -/
theorem C15_take_append_skip (xs : Block α) (n : Int) : (xs.take n).append (xs.skip n) = xs := by
  simp [Block.take, Block.skip, Block.append, slice_prefix, slice_suffix]

/-- `take n` is the first `min n len` elements. -/
theorem C15_take (xs : Block α) (n : Nat) :
    (xs.take n).value = xs.value.take n ∧ (xs.take n).len = min n xs.len := by
  simp only [Block.take, slice_prefix, adjustIndex_nonneg, Block.len]
  rw [← List.take_eq_take_min, List.length_take]
  exact ⟨rfl, rfl⟩

/-- `skip n` is what follows the first `n` elements. -/
theorem C15_skip (xs : Block α) (n : Nat) :
    (xs.skip n).value = xs.value.drop n ∧ (xs.skip n).len = xs.len - n := by
  simp only [Block.skip, slice_suffix, adjustIndex_nonneg, Block.len]
  refine ⟨?_, by rw [List.length_drop]; omega⟩
  rcases Nat.le_total n xs.value.length with h | h
  · rw [Nat.min_eq_left h]
  · rw [Nat.min_eq_right h, List.drop_length, List.drop_eq_nil_of_le h]

/-- A negative count counts from the end: `take(-n)` drops the last `n`, `skip(-n)` keeps the last `n`. -/
theorem C15_negative (xs : Block α) (n : Nat) (hn : 0 < n) :
    (xs.take (-n)).value = xs.value.take (xs.value.length - n) ∧
    (xs.skip (-n)).value = xs.value.drop (xs.value.length - n) := by
  have := adjustIndex_neg xs.value.length n hn
  simp [Block.take, Block.skip, slice_prefix, slice_suffix, this]

example : ((⟨[1, 2, 3]⟩ : Block Nat).take 2).value = [1, 2] ∧ ((⟨[1, 2, 3]⟩ : Block Nat).skip 7).value = [] ∧
    ((⟨[1, 2, 3]⟩ : Block Nat).take (-1)).value = [1, 2] := by decide

/-! ## C16 take_last and skip_last -/

/-- What the property says. -/
def C16_full_statement : Prop :=
  ∀ (α : Type) (xs : Block α) (n : Nat),
    (xs.takeLast n).value = xs.value.drop (xs.value.length - n) ∧
    (xs.skipLast n).value = xs.value.take (xs.value.length - n) ∧
    (xs.skipLast n).append (xs.takeLast n) = xs

/-- The code violates it at `n = 0`: `take_last(0)` is the whole block and `skip_last(0)` is empty. -/
theorem C16_full_statement_false : ¬ C16_full_statement := by
  intro h
  exact absurd (h Nat ⟨[1, 2]⟩ 0).1 (by decide)

/-- For `n > 0` it holds. -/
theorem C16_take_last_partial (xs : Block α) (n : Nat) (hn : 0 < n) :
    (xs.takeLast n).value = xs.value.drop (xs.value.length - n) ∧
    (xs.skipLast n).value = xs.value.take (xs.value.length - n) ∧
    (xs.takeLast n).len = min n xs.len ∧ (xs.skipLast n).len = xs.len - n := by
  have := adjustIndex_neg xs.value.length n hn
  simp [Block.takeLast, Block.skipLast, slice_prefix, slice_suffix, this, Block.len]
  omega

/-- The two parts make up the block for every integer, 0 included. -/
theorem C16_skip_last_append_take_last (xs : Block α) (n : Int) : (xs.skipLast n).append (xs.takeLast n) = xs := by
  simp [Block.takeLast, Block.skipLast, Block.append, slice_prefix, slice_suffix]

/-- What happens at 0: everything is taken and everything is skipped. -/
theorem C16_at_zero (xs : Block α) : xs.takeLast 0 = xs ∧ xs.skipLast 0 = Block.empty := by
  cases xs
  simp [Block.takeLast, Block.skipLast, Block.empty, slice_prefix, slice_suffix, Builtins.adjustIndex]

example : ((⟨[1, 2, 3]⟩ : Block Nat).takeLast 2).value = [2, 3] ∧ 0 < 2 := by decide

/-! ## C17 stable sorts -/

section
variable [PyOrd γ] [LawfulPyOrd γ]

/-- `sort_with` computes the key of every element once, left to right, and then returns the stable sort by these keys.
The result list is the elements of *the* stable sort (`C17_unique`). -/
theorem C17_sort_with (reverse : Bool) :
    ∃ out : List (γ × α) → List (γ × α), (∀ input, IsStableSort reverse input (out input)) ∧
      ∀ (xs : Block α) (func : α → Py σ γ),
        xs.sortWith PyOrd.lt func reverse = (do
          let keys ← each func xs.value
          pure ⟨(out (List.zip keys xs.value)).map Prod.snd⟩) := by
  refine ⟨fun l => if reverse then (Builtins.sortPairs PyOrd.lt l.reverse).reverse else Builtins.sortPairs PyOrd.lt l,
    ?_, ?_⟩
  · intro input
    cases reverse
    · exact sortPairs_stable input
    · exact sortPairs_stable_rev input
  · intro xs func
    simp only [Block.sortWith, Builtins.sorted, tupleMap_eq, each_pair, bind_assoc, pure_bind, bind_map_left]

/-- `sort` does the same with the elements themselves as keys. -/
theorem C17_sort (reverse : Bool) (xs : Block γ) :
    ∃ ys : Block γ, (xs.sort PyOrd.lt reverse : Py σ (Block γ)) = pure ys ∧
      IsStableSort reverse (xs.value.map (fun x => (x, x))) (ys.value.map (fun x => (x, x))) := by
  have hz : ∀ l : List γ, List.zip l l = l.map (fun x => (x, x)) := by
    intro l; induction l with
    | nil => rfl
    | cons x l ih => simp [ih]
  have hback : ∀ l l' : List (γ × γ), l'.Perm l → (∀ p ∈ l, p.1 = p.2) →
      (l'.map Prod.snd).map (fun x => (x, x)) = l' := by
    intro l l' hp h
    rw [List.map_map]
    conv => rhs; rw [← List.map_id l']
    apply List.map_congr_left
    intro p hp'
    have := h p (hp.mem_iff.1 hp')
    cases p; simp_all
  have hdiag : ∀ p ∈ xs.value.map (fun x => (x, x)), p.1 = p.2 := by
    intro p hp
    obtain ⟨x, _, rfl⟩ := List.mem_map.1 hp
    rfl
  obtain ⟨out, hout, heq⟩ := C17_sort_with (σ := σ) (γ := γ) (α := γ) reverse
  refine ⟨⟨(out (xs.value.map (fun x => (x, x)))).map Prod.snd⟩, ?_, ?_⟩
  · have := heq xs (fun x => pure x)
    rw [each_pure, List.map_id'] at this
    rw [← hz, Block.sort, ← Block.sortWith, this]; simp
  · have h := hout (xs.value.map (fun x => (x, x)))
    rw [hback _ _ h.perm hdiag]
    exact h

/-- Without `reverse`, the least elements, and the elements with the least keys, come first. -/
theorem C17_ascending (xs : Block α) (ks : Block γ) (func : α → Py σ γ) :
    (∃ ys : Block γ, (ks.sort PyOrd.lt : Py σ (Block γ)) = pure ys ∧
      IsStableSort false (ks.value.map (fun x => (x, x))) (ys.value.map (fun x => (x, x)))) ∧
    ∃ out : List (γ × α) → List (γ × α), (∀ input, IsStableSort false input (out input)) ∧
      xs.sortWith PyOrd.lt func = (do
        let keys ← each func xs.value
        pure ⟨(out (List.zip keys xs.value)).map Prod.snd⟩) := by
  obtain ⟨out, h1, h2⟩ := C17_sort_with (σ := σ) (γ := γ) (α := α) false
  exact ⟨C17_sort false ks, out, h1, h2 xs func⟩

/-- There is only one stable sort of a list. -/
theorem C17_unique {descending : Bool} {input a b : List (γ × α)} (ha : IsStableSort descending input a)
    (hb : IsStableSort descending input b) : a = b := stableSort_unique ha hb

end

example : ((⟨[⟨2, 0⟩, ⟨1, 0⟩, ⟨2, 1⟩, ⟨1, 1⟩]⟩ : Block TaggedKey).sort PyOrd.lt true : Py Unit _).exec () =
    (.ok ⟨[⟨2, 0⟩, ⟨2, 1⟩, ⟨1, 0⟩, ⟨1, 1⟩]⟩, ()) := by decide

/-! ## C18 element-wise operations -/

theorem C18_map (xs : Block α) (f : α → Py σ β) : xs.map f = Block.mk <$> each f xs.value := by
  simp [Block.map, tupleMap_eq]

theorem C18_starmap {α' : Type} (xs : Block (α × α')) (f : α → α' → Py σ β) :
    xs.starmap f = Block.mk <$> each (fun p => f p.1 p.2) xs.value := by
  simp [Block.starmap, C18_map]

theorem C18_filter (xs : Block α) (p : α → Py σ Bool) : xs.filter p = Block.mk <$> keep p xs.value := by
  simp [Block.filter, tupleFilter_eq]

theorem C18_choose (xs : Block α) (f : α → Py σ (Option β)) : xs.choose f = Block.mk <$> pick f xs.value := by
  simp [Block.choose, Block.collect_eq, ← flatEach_pick]

theorem C18_collect (xs : Block α) (f : α → Py σ (Block β)) :
    xs.collect f = Block.mk <$> flatEach (fun x => Block.value <$> f x) xs.value := Block.collect_eq xs f

theorem C18_partition (xs : Block α) (p : α → Py σ Bool) :
    xs.partition p = (fun r => (⟨r.1⟩, ⟨r.2⟩)) <$> split p xs.value := by
  simp [Block.partition, Block.partition_go]

/-- the first half of `partition` is `filter` -/
theorem C18_partition_filter (xs : Block α) (p : α → Py σ Bool) : Prod.fst <$> xs.partition p = xs.filter p := by
  rw [C18_partition, C18_filter, ← split_fst]; simp

/-- no element is lost or duplicated by `partition` -/
theorem C18_partition_sizes (xs yes no : Block α) (p : α → Py σ Bool) (w w' : σ)
    (h : (xs.partition p).exec w = (.ok (yes, no), w')) : yes.len + no.len = xs.len := by
  rw [C18_partition] at h
  rw [map_eq_pure_bind, Py.exec_bind] at h
  rcases h2 : (split p xs.value).exec w with ⟨_ | ⟨a, b⟩, w2⟩ <;> rw [h2] at h <;> simp at h
  obtain ⟨⟨rfl, rfl⟩, rfl⟩ := h
  exact split_lengths p xs.value w _ a b h2

theorem C18_mapi (xs : Block α) (f : Int → α → Py σ β) : xs.mapi f = Block.mk <$> eachWithIndex f 0 xs.value := by
  simp [Block.mapi, tupleMap_eq, enumerate_each]

theorem C18_zip (xs : Block α) (ys : Block β) : (xs.zip ys).value = List.zip xs.value ys.value := by
  simp [Block.zip, zip_eq]

theorem C18_fold (xs : Block α) (f : β → α → Py σ β) (s : β) : xs.fold f s = foldLeft f s xs.value := by
  simp [Block.fold, reduce_eq]

/-- `reduce` folds the rest from the first element; on an empty block it raises `ValueError`. -/
theorem C18_reduce (xs : Block α) (f : α → α → Py σ α) :
    xs.reduce f = match xs.value with
      | [] => Py.raise (.valueError "Collection was empty")
      | x :: rest => foldLeft f x rest := by
  obtain ⟨v⟩ := xs
  cases v with
  | nil => rfl
  | cons x rest => simp [Block.reduce, Block.isEmpty, Block.tail, Block.head, C18_fold]

theorem C18_sum_by (plus : β → β → Py σ β) (zero : β) (xs : Block α) (f : α → Py σ β) :
    xs.sumBy plus zero f = (each f xs.value >>= foldLeft plus zero) := by
  simp [Block.sumBy, Block.sum, C18_map, reduce_eq]

/-- `forall` stops at the first `False` -/
theorem C18_forall (xs : Block α) (p : α → Py σ Bool) : xs.forall' p = every p xs.value := by
  simp [Block.forall', all_eq]

theorem C18_append_assoc (xs ys zs : Block α) : (xs.append ys).append zs = xs.append (ys.append zs) := by
  simp [Block.append]

theorem C18_append_empty (xs : Block α) : xs.append Block.empty = xs ∧ Block.empty.append xs = xs := by
  simp [Block.append, Block.empty]

theorem C18_concat (xss : List (Block α)) : (Block.concat xss).value = (xss.map Block.value).flatten := by
  have h : ∀ acc : Block α, (xss.foldl (fun t s => t.append s) acc).value = acc.value ++ (xss.map Block.value).flatten := by
    induction xss with
    | nil => simp
    | cons x xss ih => intro acc; rw [List.foldl_cons, ih]; simp [Block.append]
  simpa [Block.concat, Block.empty] using h Block.empty

theorem C18_cons_head_tail (xs : Block α) (x : α) :
    (xs.cons x).head = .ok x ∧ (xs.cons x).tail = .ok xs ∧ (xs.cons x).tryHead = some x ∧
    (xs.cons x).isEmpty = false := by
  cases xs; simp [Block.cons, Block.head, Block.tail, Block.tryHead, Block.isEmpty]

/-- the empty block has no head and no tail -/
theorem C18_empty : (∃ m, (Block.empty : Block α).head = .error (.valueError m)) ∧
    (∃ m, (Block.empty : Block α).tail = .error (.valueError m)) ∧
    (Block.empty : Block α).tryHead = none ∧ (Block.empty : Block α).isEmpty = true :=
  ⟨⟨_, rfl⟩, ⟨_, rfl⟩, rfl, rfl⟩

/-- `item(i)` for `-len ≤ i < len` is the i-th element, counting from the end if negative; otherwise `IndexError`. -/
theorem C18_item (xs : Block α) (i : Int) :
    (∀ h : 0 ≤ i ∧ i < xs.len, xs.item i = .ok (xs.value[i.toNat]'(by have := h.2; simp only [Block.len] at this; omega))) ∧
    (∀ h : i < 0 ∧ -(xs.len : Int) ≤ i,
      xs.item i = .ok (xs.value[xs.len - (-i).toNat]'(by have := h.1; simp only [Block.len] at *; omega))) ∧
    ((i < -(xs.len : Int) ∨ (xs.len : Int) ≤ i) → xs.item i = .error .indexError) := by
  simp only [Block.item, Builtins.item, Block.len]
  refine ⟨?_, ?_, ?_⟩
  · rintro ⟨h0, h1⟩
    rw [if_neg (by omega : ¬ i < 0), if_neg (by omega : ¬ i < 0)]
    rw [List.getElem?_eq_getElem (by omega)]
  · rintro ⟨h0, h1⟩
    rw [if_pos h0, if_neg (by omega : ¬ i + (xs.value.length : Int) < 0)]
    rw [List.getElem?_eq_getElem (by omega)]
    simp only [Except.ok.injEq]
    congr 1; omega
  · intro h
    by_cases h0 : i < 0
    · rw [if_pos h0]
      by_cases h1 : i + (xs.value.length : Int) < 0
      · rw [if_pos h1]
      · rw [if_neg h1, List.getElem?_eq_none (by omega)]
    · rw [if_neg h0, if_neg h0, List.getElem?_eq_none (by omega)]

example : ((⟨[1, 2, 3]⟩ : Block Nat).item (-1)) = .ok 3 ∧ (⟨[1, 2, 3]⟩ : Block Nat).item 3 = .error .indexError := by decide

/-- Effects happen once per element, left to right: the log written by a callback is the list of elements. -/
example : ((⟨[3, 1, 2]⟩ : Block Nat).map (fun x => (do modify (· ++ [x]); pure (x + 1) : Py (List Nat) Nat))).exec [] =
    (.ok ⟨[4, 2, 3]⟩, [3, 1, 2]) := by decide

/-- A callback that raises stops the operation at once. -/
example : ((⟨[3, 1, 2]⟩ : Block Nat).partition
    (fun x => (do modify (· ++ [x]); if x = 1 then Py.raise (.user 7) else pure true : Py (List Nat) Bool))).exec [] =
    (.error (.user 7), [3, 1]) := by decide

/-! ## C19 indexed -/

/-- What the property says. -/
def C19_full_statement : Prop :=
  ∀ (α : Type) (xs : Block α) (start : Int),
    (xs.indexed start).value = xs.value.zipIdx.map (fun p => (start + (p.2 : Int), p.1))

/-- The code violates it: `start` is ignored. -/
theorem C19_full_statement_false : ¬ C19_full_statement := by
  intro h
  exact absurd (h Nat ⟨[7]⟩ 5) (by decide)

/-- With `start = 0` (the default, and all that the module-level `indexed` offers) it holds. -/
theorem C19_indexed_partial (xs : Block α) :
    (xs.indexed 0).value = xs.value.zipIdx.map (fun p => ((p.2 : Int), p.1)) := by
  simp [Block.indexed, enumerate_eq]

/-- Whatever `start` is, the result is the one for 0. -/
theorem C19_start_ignored (xs : Block α) (start : Int) : xs.indexed start = xs.indexed 0 := rfl

example : ((⟨[7, 8]⟩ : Block Nat).indexed 0).value = [(0, 7), (1, 8)] := by decide

/-! ## C20 collect is a monadic bind -/

theorem C20_left_identity (x : α) (f : α → Py σ (Block β)) : (Block.singleton x).collect f = f x := by
  simp [Block.collect_eq, Block.singleton, flatEach]

theorem C20_right_identity (xs : Block α) :
    (xs.collect (fun x => pure (Block.singleton x)) : Py σ (Block α)) = pure xs := by
  have h := flatEach_pure (σ := σ) (fun x : α => [x]) xs.value
  simp only [Block.collect_eq, Block.singleton, map_pure, h]
  cases xs; simp

/-- Associativity, for callbacks without effects. -/
theorem C20_assoc {δ : Type} (xs : Block α) (f : α → Block β) (g : β → Block δ) :
    (do let ys ← xs.collect (fun x => pure (f x))
        ys.collect (fun y => pure (g y)) : Py σ (Block δ)) =
    xs.collect (fun x => (f x).collect (fun y => pure (g y))) := by
  simp only [Block.collect_eq, map_pure, flatEach_pure, pure_bind]
  simp [List.flatMap_assoc]

/-- With effects the two sides make the same calls in different orders: the left calls every `f` first. -/
theorem C20_assoc_effects_differ : ∃ (f g : Nat → Py (List Nat) (Block Nat)) (xs : Block Nat) (w : List Nat),
    (do let ys ← xs.collect f
        ys.collect g).exec w ≠ (xs.collect (fun x => do (← f x).collect g)).exec w :=
  ⟨fun x => do modify (· ++ [x]); pure ⟨[x]⟩, fun x => do modify (· ++ [x + 10]); pure ⟨[x]⟩, ⟨[1, 2]⟩, [], by decide⟩

/-- `map` and `choose` are special cases, effects included. -/
theorem C20_map_choose (xs : Block α) (f : α → Py σ β) (g : α → Py σ (Option β)) :
    xs.map f = xs.collect (fun x => do pure (Block.singleton (← f x))) ∧
    xs.choose g = xs.collect (fun x => do pure (Block.ofOption (← g x))) := by
  constructor
  · simp only [C18_map, Block.collect_eq, Block.singleton]
    congr 1
    generalize xs.value = l
    induction l with
    | nil => rfl
    | cons x l ih => simp [each, flatEach, ih]
  · simp only [Block.choose]
    congr 1; funext x; congr 1; funext o
    cases o <;> rfl

example : (((⟨[1, 2]⟩ : Block Nat).collect (fun x => pure ⟨[x, x * 10]⟩) : Py Unit (Block Nat)).exec ()).1 =
    .ok ⟨[1, 10, 2, 20]⟩ := by decide

/-! ## C21 unfold -/

/-- `unfold` returns the block of what the generator function produces, exactly when that function eventually stops. -/
theorem C21_unfold_returns (g : S → Py σ (Option (α × S))) (s : S) (w w' : σ) (xs : Block α) :
    Block.unfold g s w = some (.ok xs, w') ↔ Generates g s w xs.value none w' := by
  constructor
  · intro h
    obtain ⟨ys, r, h1, h2⟩ := generates_of_unfoldLoop g s [] w _ h
    cases r with
    | none => simp only [unfoldResult, List.nil_append, Except.ok.injEq] at h2; subst h2; exact h1
    | some e => simp [unfoldResult] at h2
  · intro h
    have := unfoldLoop_of_generates g h []
    simpa [Block.unfold, unfoldResult] using this

/-- It raises exactly when the generator function raises after finitely many elements. -/
theorem C21_unfold_raises (g : S → Py σ (Option (α × S))) (s : S) (w w' : σ) (e : PyErr) :
    Block.unfold g s w = some (.error e, w') ↔ ∃ xs, Generates g s w xs (some e) w' := by
  constructor
  · intro h
    obtain ⟨ys, r, h1, h2⟩ := generates_of_unfoldLoop g s [] w _ h
    cases r with
    | none => simp [unfoldResult] at h2
    | some e' => simp only [unfoldResult, Except.error.injEq] at h2; subst h2; exact ⟨ys, h1⟩
  · rintro ⟨xs, h⟩
    have := unfoldLoop_of_generates g h []
    simpa [Block.unfold, unfoldResult] using this

/-- It diverges exactly when the generator function never stops. -/
theorem C21_unfold_diverges (g : S → Py σ (Option (α × S))) (s : S) (w : σ) :
    Block.unfold g s w = none ↔ NeverStops g s w := by
  rw [neverStops_iff]
  constructor
  · rintro h ⟨xs, r, w', hg⟩
    rw [Block.unfold, unfoldLoop_of_generates g hg []] at h; cases h
  · intro h
    cases hu : Block.unfold g s w with
    | none => rfl
    | some res =>
      obtain ⟨ys, r, h1, _⟩ := generates_of_unfoldLoop g s [] w _ hu
      exact absurd ⟨ys, r, _, h1⟩ h

/-- counts down from 3 -/
example : Generates (fun s => (pure (if s = 0 then none else some (s * 2, s - 1)) : Py Unit (Option (Nat × Nat))))
    2 () [4, 2] none () :=
  .step rfl (.step rfl (.stop rfl))

/-- counts up for ever -/
example : NeverStops (fun s => (pure (some (s, s + 1)) : Py Unit (Option (Nat × Nat)))) 0 () :=
  ⟨fun n => (n, ()), rfl, fun n => ⟨n, rfl⟩⟩

end Expression.Props
