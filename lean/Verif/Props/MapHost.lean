import Verif.Lemmas.MapHostKeep
import Verif.Lemmas.MapHostStack
import Verif.Props.Map

/-!
# C103: maps whose keys compare as they like; C104: maps on a bounded stack

`lt` and `eq` are the comparisons of the keys: any code at all.  Nothing relates them to each other or to an order, they may
answer differently each time, raise, and have effects on the world.
-/

namespace Expression.Props

open Expression Spec MapHost MapTree

variable {σ K V R : Type} {lt eq : K → K → Py σ Bool}

/-! ## C103 -/

/-- **C103.** `m.add(k, v)` puts in one entry or replaces one whose key was said to be equal; nothing else changes. -/
theorem C103_add {m m' : Map K V} (hm : Made (Host.unbounded lt eq) m) {k : K} {v : V} {w w' : σ}
    (e : (HostMap.add (Host.unbounded lt eq) m k v).exec w = (.ok m', w')) :
    PutIn (Host.unbounded lt eq) k v m.toList m'.toList := by
  obtain ⟨t, e1, rfl⟩ := exec_wrap e
  simp only [Map.toList, toList_eq]
  exact ((add_does free_unbounded (compares_any _) k v _ (made_wf free_unbounded hm)).result e1).put

/-- **C103.** `m.remove(k)` takes out at most one entry, whose key was said to be equal; nothing else changes. -/
theorem C103_remove {m m' : Map K V} (hm : Made (Host.unbounded lt eq) m) {k : K} {w w' : σ}
    (e : (HostMap.remove (Host.unbounded lt eq) m k).exec w = (.ok m', w')) :
    TakenOut (Host.unbounded lt eq) k m.toList m'.toList := by
  obtain ⟨t, e1, rfl⟩ := exec_wrap e
  simp only [Map.toList, toList_eq]
  exact ((remove_does free_unbounded (compares_any _) k _ (made_wf free_unbounded hm)).result e1).2

/-- **C103.** `m.change(k, f)` changes at most one entry, as the callback said; nothing else changes. -/
theorem C103_change {m m' : Map K V} (hm : Made (Host.unbounded lt eq) m) {k : K} {f : Option V → Py σ (Option V)} {w w' : σ}
    (e : (HostMap.change (Host.unbounded lt eq) m k f).exec w = (.ok m', w')) :
    Changed (Host.unbounded lt eq) f k m.toList m'.toList := by
  obtain ⟨t, e1, rfl⟩ := exec_wrap e
  simp only [Map.toList, toList_eq]
  exact ((change_does free_unbounded (compares_any _) trivial k 0 f (fun o => does_any _) _
    (made_wf free_unbounded hm)).result e1).2

/-- **C103.** What a lookup finds is in the map, under a key that was said to be equal. -/
theorem C103_lookup (m : Map K V) (k : K) (w w' : σ) :
    (∀ v, (HostMap.tryFind (Host.unbounded lt eq) m k).exec w = (.ok (some v), w') →
      ∃ key, (key, v) ∈ m.toList ∧ SaidEqual (Host.unbounded lt eq) k key) ∧
    (∀ v, (HostMap.getItem (Host.unbounded lt eq) m k).exec w = (.ok v, w') →
      ∃ key, (key, v) ∈ m.toList ∧ SaidEqual (Host.unbounded lt eq) k key) ∧
    ((HostMap.containsKey (Host.unbounded lt eq) m k).exec w = (.ok true, w') →
      ∃ key v, (key, v) ∈ m.toList ∧ SaidEqual (Host.unbounded lt eq) k key) := by
  simp only [Map.toList, toList_eq]
  have h := tryFind_does free_unbounded (compares_any (Host.unbounded lt eq)) k m.tree
  refine ⟨fun v e => h.result e v rfl, fun v e => ?_, fun e =>
    (mem_does free_unbounded (compares_any (Host.unbounded lt eq)) k m.tree).result e rfl⟩
  change (MapHost.tryFind (Host.unbounded lt eq) k m.tree >>= _).exec w = _ at e
  rw [Py.exec_bind] at e
  rcases hp : (MapHost.tryFind (Host.unbounded lt eq) k m.tree).exec w with ⟨_ | _ | a, w1⟩
  · rw [hp] at e; cases e
  · rw [hp] at e; cases e
  · rw [hp] at e; cases e; exact h.result hp v rfl

/-- **C103.** `filter` and `partition` give only entries of the map, judged as wanted; never more than there were. -/
theorem C103_filter (m : Map K V) (p : K → V → Py σ Bool) (w w' : σ) :
    (∀ m', (HostMap.filter (Host.unbounded lt eq) m p).exec w = (.ok m', w') →
      m'.len ≤ m.len ∧ ∀ kv ∈ m'.toList, kv ∈ m.toList ∧ Judged p true kv) ∧
    (∀ yes no, (HostMap.partition (Host.unbounded lt eq) m p).exec w = (.ok (yes, no), w') →
      yes.len ≤ m.len ∧ no.len ≤ m.len ∧ (∀ kv ∈ yes.toList, kv ∈ m.toList ∧ Judged p true kv) ∧
      ∀ kv ∈ no.toList, kv ∈ m.toList ∧ Judged p false kv) := by
  simp only [Map.toList, toList_eq, Map.len, size_eq]
  constructor
  · intro m' e
    obtain ⟨t, e1, rfl⟩ := exec_wrap e
    have := (filterAux_does free_unbounded (compares_any (Host.unbounded lt eq)) (fun k v => does_any (p k v))
      (P := fun kv => kv ∈ inorder m.tree ∧ Judged p true kv) (Nat.le_refl _) m.tree (fun x h h' => ⟨h, h'⟩) 0 .nothing
      (Nat.le_refl _) Acc.nothing).result e1
    exact ⟨by simpa using this.len, this.all⟩
  · intro yes no e
    obtain ⟨t, e1, e2⟩ := exec_wrap e
    cases e2
    have := (partitionAux_does free_unbounded (compares_any (Host.unbounded lt eq)) (fun k v => does_any (p k v))
      (P := fun kv => kv ∈ inorder m.tree ∧ Judged p true kv) (Q := fun kv => kv ∈ inorder m.tree ∧ Judged p false kv)
      (Nat.le_refl _) m.tree (fun x h h' => ⟨h, h'⟩) (fun x h h' => ⟨h, h'⟩) 0 (.nothing, .nothing)
      (Nat.le_refl _) Acc.nothing Acc.nothing).result e1
    exact ⟨by simpa using this.1.len, by simpa using this.2.len, this.1.all, this.2.all⟩

/-- **C103.** A map built from a list or sequence holds only entries of it, never more than there were. -/
theorem C103_construction (xs : List (K × V)) (w w' : σ) (m : Map K V)
    (e : (HostMap.ofList (Host.unbounded lt eq) xs).exec w = (.ok m, w') ∨
      (HostMap.ofSeq (Host.unbounded lt eq) xs).exec w = (.ok m, w')) :
    m.len ≤ xs.length ∧ ∀ kv ∈ m.toList, kv ∈ xs := by
  simp only [Map.toList, toList_eq, Map.len, size_eq]
  rcases e with e | e
  · obtain ⟨t, e1, rfl⟩ := exec_wrap e
    have := (ofListFrom_does free_unbounded (compares_any (Host.unbounded lt eq)) (P := fun kv => kv ∈ xs)
      (Nat.le_refl _) xs (fun x h => h) 0 .nothing (Nat.le_refl _) Acc.nothing).result e1
    exact ⟨by simpa using this.len, this.all⟩
  · obtain ⟨t, e1, rfl⟩ := exec_wrap e
    have := (mkFromIterator_does free_unbounded (compares_any (Host.unbounded lt eq)) (P := fun kv => kv ∈ xs)
      (Nat.le_refl _) xs (fun x h => h) 0 .nothing (Nat.le_refl _) Acc.nothing).result e1
    exact ⟨by simpa using this.len, this.all⟩

/-- Costs of nothing, used where only exceptions matter. -/
theorem costs_zero {α : Type} (p : Py σ α) : CostsAtMost (fun _ => 0) 0 p := fun _ => Nat.le_refl _

/-- **C103.** The operations raise nothing of their own, however the keys compare: whatever set `E` of exceptions covers those
of the comparisons and callbacks covers those of the operations.  Besides, `m[k]` may raise `KeyError` and `change`
`EffectError`. -/
theorem C103_errors {m : Map K V} (hm : Made (Host.unbounded lt eq) m) (E : PyErr → Prop)
    (hlt : ∀ a b, RaisesOnly E (lt a b)) (heq : ∀ a b, RaisesOnly E (eq a b)) :
    (∀ k v, RaisesOnly E (HostMap.add (Host.unbounded lt eq) m k v)) ∧
    (∀ k, RaisesOnly E (HostMap.remove (Host.unbounded lt eq) m k)) ∧
    (∀ k, RaisesOnly E (HostMap.tryFind (Host.unbounded lt eq) m k)) ∧
    (∀ k, RaisesOnly E (HostMap.containsKey (Host.unbounded lt eq) m k)) ∧
    (∀ k, RaisesOnly (fun e => E e ∨ e = .keyError "Key not found") (HostMap.getItem (Host.unbounded lt eq) m k)) ∧
    (∀ k (f : Option V → Py σ (Option V)), (∀ o, RaisesOnly E (f o)) →
      RaisesOnly (fun e => E e ∨ e = .effectError) (HostMap.change (Host.unbounded lt eq) m k f)) ∧
    (∀ p : K → V → Py σ Bool, (∀ k v, RaisesOnly E (p k v)) →
      RaisesOnly E (HostMap.filter (Host.unbounded lt eq) m p) ∧
      RaisesOnly E (HostMap.partition (Host.unbounded lt eq) m p)) ∧
    (∀ xs : List (K × V), RaisesOnly E (HostMap.ofList (Host.unbounded lt eq) xs) ∧
      RaisesOnly E (HostMap.ofSeq (Host.unbounded lt eq) xs)) := by
  have hw := made_wf free_unbounded hm
  have hH : Compares E (fun _ => 0) 0 (Host.unbounded lt eq) :=
    compares_of hlt heq (fun a b => costs_zero (lt a b)) (fun a b => costs_zero (eq a b))
  have wrap : ∀ {α β : Type} {p : Py σ α} {g : α → β}, RaisesOnly E p → RaisesOnly E (p >>= fun a => pure (g a)) :=
    fun h => h.bind fun a => RaisesOnly.pure _
  have any : ∀ {α : Type} {E : PyErr → Prop} {p : Py σ α}, RaisesOnly E p →
      Does E (fun _ => 0) 0 p (fun a => ∃ w w', p.exec w = (.ok a, w')) := by
    intro α E p h w
    exact ⟨Nat.le_refl _, fun a e => ⟨w, (p.exec w).2, by rw [← e]⟩, fun e he => h w e (p.exec w).2 (by rw [← he])⟩
  refine ⟨fun k v => wrap (add_does free_unbounded hH k v _ hw).raisesOnly,
    fun k => wrap (remove_does free_unbounded hH k _ hw).raisesOnly,
    fun k => (tryFind_does free_unbounded hH k m.tree).raisesOnly,
    fun k => (mem_does free_unbounded hH k m.tree).raisesOnly, fun k => ?_, fun k f hf => ?_, fun p hp => ⟨?_, ?_⟩,
    fun xs => ⟨?_, ?_⟩⟩
  · have h : RaisesOnly (fun e => E e ∨ e = .keyError "Key not found")
        (MapHost.tryFind (Host.unbounded lt eq) k m.tree) :=
      fun w e w' h => Or.inl ((tryFind_does free_unbounded hH k m.tree).raisesOnly w e w' h)
    refine h.bind fun o => ?_
    cases o with
    | some v => exact RaisesOnly.pure _
    | none => intro w e w' he; cases he; exact Or.inr rfl
  · have hE : ∀ {α : Type} {p : Py σ α}, RaisesOnly E p → RaisesOnly (fun e => E e ∨ e = .effectError) p :=
      fun h w e w' he => Or.inl (h w e w' he)
    have hH' : Compares (fun e => E e ∨ e = .effectError) (fun _ => 0) 0 (Host.unbounded lt eq) :=
      compares_of (fun a b => hE (hlt a b)) (fun a b => hE (heq a b)) (fun a b => costs_zero (lt a b))
        (fun a b => costs_zero (eq a b))
    exact (change_does free_unbounded hH' (Or.inr rfl) k 0 f (fun o => any (hE (hf o))) _ hw).raisesOnly.bind
      fun a => RaisesOnly.pure _
  · exact wrap (filterAux_does free_unbounded hH (fun k v => any (hp k v)) (P := fun _ => True) (Nat.le_refl _) _
      (fun _ _ _ => trivial) 0 .nothing (Nat.le_refl _) Acc.nothing).raisesOnly
  · exact wrap (partitionAux_does free_unbounded hH (fun k v => any (hp k v)) (P := fun _ => True) (Q := fun _ => True)
      (Nat.le_refl _) _ (fun _ _ _ => trivial) (fun _ _ _ => trivial) 0 (.nothing, .nothing) (Nat.le_refl _) Acc.nothing
      Acc.nothing).raisesOnly
  · exact wrap (ofListFrom_does free_unbounded hH (P := fun _ => True) (Nat.le_refl _) xs (fun _ _ => trivial) 0 .nothing
      (Nat.le_refl _) Acc.nothing).raisesOnly
  · exact wrap (mkFromIterator_does free_unbounded hH (P := fun _ => True) (Nat.le_refl _) xs (fun _ _ => trivial) 0 .nothing
      (Nat.le_refl _) Acc.nothing).raisesOnly

/-- **C103.** Exceptions are passed on: if an operation returns, nothing that it called has raised (whatever `I` comparisons and
callbacks that return keep true, an operation that returns keeps true). -/
theorem C103_propagates (m : Map K V) (I : σ → Prop)
    (hlt : ∀ a b, ReturnsKeep I (lt a b)) (heq : ∀ a b, ReturnsKeep I (eq a b)) :
    (∀ k v, ReturnsKeep I (HostMap.add (Host.unbounded lt eq) m k v)) ∧
    (∀ k, ReturnsKeep I (HostMap.remove (Host.unbounded lt eq) m k)) ∧
    (∀ k, ReturnsKeep I (HostMap.tryFind (Host.unbounded lt eq) m k)) ∧
    (∀ k, ReturnsKeep I (HostMap.containsKey (Host.unbounded lt eq) m k)) ∧
    (∀ k, ReturnsKeep I (HostMap.getItem (Host.unbounded lt eq) m k)) ∧
    (∀ k (f : Option V → Py σ (Option V)), (∀ o, ReturnsKeep I (f o)) →
      ReturnsKeep I (HostMap.change (Host.unbounded lt eq) m k f)) ∧
    (∀ p : K → V → Py σ Bool, (∀ k v, ReturnsKeep I (p k v)) →
      ReturnsKeep I (HostMap.filter (Host.unbounded lt eq) m p) ∧ ReturnsKeep I (HostMap.partition (Host.unbounded lt eq) m p) ∧
      ReturnsKeep I (HostMap.exists (Host.unbounded lt eq) m p) ∧ ReturnsKeep I (HostMap.forAll (Host.unbounded lt eq) m p)) ∧
    (∀ f : K → V → Py σ R, (∀ k v, ReturnsKeep I (f k v)) → ReturnsKeep I (HostMap.map (Host.unbounded lt eq) m f)) ∧
    (∀ f : K → V → Py σ Unit, (∀ k v, ReturnsKeep I (f k v)) → ReturnsKeep I (HostMap.iterate (Host.unbounded lt eq) m f)) ∧
    (∀ (f : R → K × V → Py σ R) s, (∀ s kv, ReturnsKeep I (f s kv)) →
      ReturnsKeep I (HostMap.fold (Host.unbounded lt eq) m f s)) ∧
    (∀ (f : K × V → R → Py σ R) s, (∀ kv s, ReturnsKeep I (f kv s)) →
      ReturnsKeep I (HostMap.foldBack (Host.unbounded lt eq) m f s)) ∧
    (∀ f : K → V → Py σ (Option R), (∀ k v, ReturnsKeep I (f k v)) →
      ReturnsKeep I (HostMap.tryPick (Host.unbounded lt eq) m f)) ∧
    (∀ xs : List (K × V), ReturnsKeep I (HostMap.ofList (Host.unbounded lt eq) xs) ∧
      ReturnsKeep I (HostMap.ofSeq (Host.unbounded lt eq) xs)) := by
  have hc : ∀ (α : Type) (p : Py σ α), ReturnsKeep I p → ReturnsKeep I ((Host.unbounded lt eq).call p) := fun _ _ h => h
  exact ⟨fun k v => RK.bind (add_rk hc hlt heq k v _) fun _ => RK.pure _,
    fun k => RK.bind (remove_rk hc hlt heq k _) fun _ => RK.pure _, fun k => tryFind_rk hc hlt heq k _,
    fun k => mem_rk hc hlt heq k _, fun k => find_rk hc hlt heq k _,
    fun k f hf => RK.bind (change_rk hc hlt heq k hf _) fun _ => RK.pure _,
    fun p hp => ⟨RK.bind (filterAux_rk hc hlt heq hp _ _) fun _ => RK.pure _,
      RK.bind (partitionAux_rk hc hlt heq hp _ _) fun _ => RK.pure _, exists_rk hc hp _, forall_rk hc hp _⟩,
    fun f hf => RK.bind (map_rk hc hf _) fun _ => RK.pure _, fun f hf => iter_rk hc hf _, fun f s hf => fold_rk hc hf _ s,
    fun f s hf => foldBack_rk hc hf _ s, fun f hf => tryPick_rk hc hf _,
    fun xs => ⟨RK.bind (ofListFrom_rk hc hlt heq xs _) fun _ => RK.pure _,
      RK.bind (mkFromIterator_rk hc hlt heq xs _) fun _ => RK.pure _⟩⟩

/-- **C103.** Maps made by insertion are balanced however the keys compare, so that their depth is at most twice the logarithm
of their length. -/
theorem C103_depth {m : Map K V} (hm : MadeByInsertion (Host.unbounded lt eq) m) :
    Balanced m.tree ∧ 2 ^ depth m.tree ≤ (m.len + 1) ^ 2 ∧ depth m.tree ≤ depthBound m.len := by
  obtain ⟨hw, hb⟩ := madeByInsertion_good free_unbounded hm
  simp only [Map.len, size_eq]
  exact ⟨hb.balanced hw, by rw [hw.depth_eq]; exact two_pow_height_le hw hb, depth_le hw hb⟩

/-- **C103.** Lookups and updates make at most two comparisons for each level of the tree, also if they end in an exception
(`cost` is any measure that a comparison raises by at most one and `f` by at most `d`, such as the length of a log of
comparisons). -/
theorem C103_comparisons {m : Map K V} (hm : Made (Host.unbounded lt eq) m) (cost : σ → Nat)
    (hlt : ∀ a b, CostsAtMost cost 1 (lt a b)) (heq : ∀ a b, CostsAtMost cost 1 (eq a b)) :
    (∀ k v, CostsAtMost cost (2 * depth m.tree) (HostMap.add (Host.unbounded lt eq) m k v)) ∧
    (∀ k, CostsAtMost cost (2 * depth m.tree) (HostMap.remove (Host.unbounded lt eq) m k)) ∧
    (∀ k, CostsAtMost cost (2 * depth m.tree) (HostMap.tryFind (Host.unbounded lt eq) m k)) ∧
    (∀ k, CostsAtMost cost (2 * depth m.tree) (HostMap.containsKey (Host.unbounded lt eq) m k)) ∧
    (∀ k, CostsAtMost cost (2 * depth m.tree) (HostMap.getItem (Host.unbounded lt eq) m k)) ∧
    (∀ k d (f : Option V → Py σ (Option V)), (∀ o, CostsAtMost cost d (f o)) →
      CostsAtMost cost (2 * depth m.tree + d) (HostMap.change (Host.unbounded lt eq) m k f)) := by
  have hw := made_wf free_unbounded hm
  have any : ∀ {α : Type} {n : Nat} {p : Py σ α}, CostsAtMost cost n p →
      Does (fun _ => True) cost n p (fun a => ∃ w w', p.exec w = (.ok a, w')) := by
    intro α n p h w
    exact ⟨h w, fun a e => ⟨w, (p.exec w).2, by rw [← e]⟩, fun _ _ => trivial⟩
  have hH : Compares (fun _ => True) cost 1 (Host.unbounded lt eq) :=
    compares_of (fun _ _ _ _ _ _ => trivial) (fun _ _ _ _ _ _ => trivial) hlt heq
  have wrap : ∀ {α β : Type} {n : Nat} {p : Py σ α} {g : α → β} {Q : α → Prop}, Does (fun _ => True) cost n p Q →
      CostsAtMost cost n (p >>= fun a => pure (g a)) :=
    fun h => (h.bind (m := 0) (S := fun _ => True) fun a _ => Does.pure trivial).costs
  refine ⟨fun k v => wrap (add_does free_unbounded hH k v _ hw), fun k => wrap (remove_does free_unbounded hH k _ hw),
    fun k => (tryFind_does free_unbounded hH k m.tree).costs, fun k => (mem_does free_unbounded hH k m.tree).costs,
    fun k => ?_, fun k d f hf => wrap (change_does free_unbounded hH trivial k d f (fun o => any (hf o)) _ hw)⟩
  refine ((tryFind_does free_unbounded hH k m.tree).bind (m := 0) (S := fun _ => True) fun o _ => ?_).costs
  cases o with
  | none => exact Does.raise trivial
  | some v => exact Does.pure trivial

/-- **C103.** Operations that rebuild make at most `2·depthBound n` comparisons for each of `n` entries. -/
theorem C103_comparisons_rebuilding (cost : σ → Nat)
    (hlt : ∀ a b, CostsAtMost cost 1 (lt a b)) (heq : ∀ a b, CostsAtMost cost 1 (eq a b)) :
    (∀ (m : Map K V) (p : K → V → Py σ Bool) d, (∀ k v, CostsAtMost cost d (p k v)) →
      CostsAtMost cost (m.len * (d + 2 * depthBound m.len)) (HostMap.filter (Host.unbounded lt eq) m p) ∧
      CostsAtMost cost (m.len * (d + 2 * depthBound m.len)) (HostMap.partition (Host.unbounded lt eq) m p)) ∧
    (∀ xs : List (K × V),
      CostsAtMost cost (xs.length * (2 * depthBound xs.length)) (HostMap.ofList (Host.unbounded lt eq) xs) ∧
      CostsAtMost cost (xs.length * (2 * depthBound xs.length)) (HostMap.ofSeq (Host.unbounded lt eq) xs)) := by
  have any : ∀ {α : Type} {n : Nat} {p : Py σ α}, CostsAtMost cost n p →
      Does (fun _ => True) cost n p (fun a => ∃ w w', p.exec w = (.ok a, w')) := by
    intro α n p h w
    exact ⟨h w, fun a e => ⟨w, (p.exec w).2, by rw [← e]⟩, fun _ _ => trivial⟩
  have hH : Compares (fun _ => True) cost 1 (Host.unbounded lt eq) :=
    compares_of (fun _ _ _ _ _ _ => trivial) (fun _ _ _ _ _ _ => trivial) hlt heq
  have wrap : ∀ {α β : Type} {n : Nat} {p : Py σ α} {g : α → β} {Q : α → Prop}, Does (fun _ => True) cost n p Q →
      CostsAtMost cost n (p >>= fun a => pure (g a)) :=
    fun h => (h.bind (m := 0) (S := fun _ => True) fun a _ => Does.pure trivial).costs
  refine ⟨fun m p d hp => ?_, fun xs => ⟨?_, ?_⟩⟩
  · simp only [Map.len, size_eq]
    exact ⟨wrap (filterAux_does free_unbounded hH (fun k v => any (hp k v)) (P := fun _ => True) (Nat.le_refl _) m.tree
        (fun _ _ _ => trivial) 0 .nothing (by simp) Acc.nothing),
      wrap (partitionAux_does free_unbounded hH (fun k v => any (hp k v)) (P := fun _ => True) (Q := fun _ => True)
        (Nat.le_refl _) m.tree (fun _ _ _ => trivial) (fun _ _ _ => trivial) 0 (.nothing, .nothing) (by simp) Acc.nothing
        Acc.nothing)⟩
  · exact wrap (ofListFrom_does free_unbounded hH (P := fun _ => True) (Nat.le_refl _) xs (fun _ _ => trivial) 0 .nothing
      (by simp) Acc.nothing)
  · exact wrap (mkFromIterator_does free_unbounded hH (P := fun _ => True) (Nat.le_refl _) xs (fun _ _ => trivial) 0 .nothing
      (by simp) Acc.nothing)

/-- **C103.** If the comparisons are Boolean functions, the operations are those that C01–C14 speak of. -/
theorem C103_plain [PyOrd K] (m : Map K V) :
    (∀ k v, HostMap.add (plainHost : Host σ K) m k v = Py.ofExcept (m.add k v)) ∧
    (∀ k, HostMap.remove (plainHost : Host σ K) m k = Py.ofExcept (m.remove k)) ∧
    (∀ k, HostMap.tryFind (plainHost : Host σ K) m k = pure (m.tryFind k)) ∧
    (∀ k, HostMap.getItem (plainHost : Host σ K) m k = Py.ofExcept (m.getItem k)) ∧
    (∀ k, HostMap.containsKey (plainHost : Host σ K) m k = pure (m.containsKey k)) ∧
    (∀ k (f : Option V → Py σ (Option V)), HostMap.change plainHost m k f = m.change k f) ∧
    (∀ p : K → V → Py σ Bool, HostMap.filter plainHost m p = m.filter p ∧ HostMap.partition plainHost m p = m.partition p ∧
      HostMap.exists plainHost m p = m.exists p ∧ HostMap.forAll plainHost m p = m.forAll p) ∧
    (∀ f : K → V → Py σ R, HostMap.map plainHost m f = m.map f) ∧
    (∀ f : K → V → Py σ Unit, HostMap.iterate plainHost m f = m.iterate f) ∧
    (∀ (f : R → K × V → Py σ R) s, HostMap.fold plainHost m f s = m.fold f s) ∧
    (∀ (f : K × V → R → Py σ R) s, HostMap.foldBack plainHost m f s = m.foldBack f s) ∧
    (∀ f : K → V → Py σ (Option R), HostMap.tryPick plainHost m f = m.tryPick f) ∧
    HostMap.len (plainHost : Host σ K) m = pure m.len ∧
    HostMap.toList (plainHost : Host σ K) m = pure m.toList ∧
    (∀ xs : List (K × V), HostMap.ofList (plainHost : Host σ K) xs = Py.ofExcept (Map.ofList xs) ∧
      HostMap.ofSeq (plainHost : Host σ K) xs = Py.ofExcept (Map.ofSeq xs)) := by
  have w : ∀ {α β : Type} (e : Except PyErr α) (g : α → β),
      (Py.ofExcept e >>= fun a => pure (g a) : Py σ β) = Py.ofExcept (e >>= fun a => .ok (g a)) := by
    intro α β e g; cases e <;> rfl
  refine ⟨fun k v => ?_, fun k => ?_, fun k => tryFind_plain k _, fun k => find_plain k _, fun k => mem_plain k _,
    fun k f => ?_, fun p => ⟨?_, ?_, exists_plain p _, forall_plain p _⟩, fun f => ?_, fun f => iter_plain f _,
    fun f s => fold_plain f _ s, fun f s => foldBack_plain f _ s, fun f => tryPick_plain f _, sizeAux_plain _ _,
    toListLoop_plain _ _, fun xs => ⟨?_, ?_⟩⟩
  · simp only [HostMap.add, plainHost_call, add_plain]; exact w _ _
  · simp only [HostMap.remove, plainHost_call, remove_plain]; exact w _ _
  · simp only [HostMap.change, plainHost_call, change_plain]; rfl
  · simp only [HostMap.filter, MapHost.filter, plainHost_call, filterAux_plain]; rfl
  · simp only [HostMap.partition, MapHost.partition, plainHost_call, partitionAux_plain]; rfl
  · simp only [HostMap.map, plainHost_call, map_plain]; rfl
  · have h := ofListFrom_plain (σ := σ) xs .nothing
    simp only [HostMap.ofList, MapHost.ofList, plainHost_call, add_plain] at h ⊢
    rw [h]; exact w _ _
  · simp only [HostMap.ofSeq, MapHost.ofSeq, plainHost_call, mkFromIterator_plain]; exact w _ _

/-! ## C104 -/

variable {lt' eq' : K → K → Py (σ × Nat) Bool} {c : Nat}

/-- **C104.** Lookups and updates: besides the frames a comparison or callback needs (`c`), one frame for each level of the
tree and two or three for the call itself are enough to get exactly what an unbounded stack gives. -/
theorem C104_updates (hlt : ∀ a b, SameWithin c (lt' a b) (lt a b)) (heq : ∀ a b, SameWithin c (eq' a b) (eq a b))
    (m : Map K V) :
    (∀ k v, SameWithin (depth m.tree + c + 2) (HostMap.add (Host.bounded lt' eq') m k v)
      (HostMap.add (Host.unbounded lt eq) m k v)) ∧
    (∀ k, SameWithin (depth m.tree + c + 2) (HostMap.remove (Host.bounded lt' eq') m k)
      (HostMap.remove (Host.unbounded lt eq) m k)) ∧
    (∀ k, SameWithin (depth m.tree + c + 2) (HostMap.tryFind (Host.bounded lt' eq') m k)
      (HostMap.tryFind (Host.unbounded lt eq) m k)) ∧
    (∀ k, SameWithin (depth m.tree + c + 2) (HostMap.containsKey (Host.bounded lt' eq') m k)
      (HostMap.containsKey (Host.unbounded lt eq) m k)) ∧
    (∀ k, SameWithin (depth m.tree + c + 3) (HostMap.getItem (Host.bounded lt' eq') m k)
      (HostMap.getItem (Host.unbounded lt eq) m k)) ∧
    (∀ k (f' : Option V → Py (σ × Nat) (Option V)) f, (∀ o, SameWithin c (f' o) (f o)) →
      SameWithin (depth m.tree + c + 2) (HostMap.change (Host.bounded lt' eq') m k f')
        (HostMap.change (Host.unbounded lt eq) m k f)) := by
  refine ⟨fun k v => SW.call (SW.bind (SW.call (add_sw hlt heq k v _)) fun _ => SW.pure _),
    fun k => SW.call (SW.bind (SW.call (remove_sw hlt heq k _)) fun _ => SW.pure _),
    fun k => SW.call (SW.call (tryFind_sw hlt heq k _)), fun k => SW.call (SW.call (mem_sw hlt heq k _)),
    fun k => SW.call (SW.call (find_sw hlt heq k _)),
    fun k f' f hf => SW.call (SW.bind (SW.call (change_sw hlt heq k hf _)) fun _ => SW.pure _)⟩

/-- **C104.** Traversals: the same. -/
theorem C104_traversals (m : Map K V) :
    (SameWithin (depth m.tree + 3) (HostMap.len (Host.bounded lt' eq') m) (HostMap.len (Host.unbounded lt eq) m)) ∧
    (SameWithin (depth m.tree + 3) (HostMap.toList (Host.bounded lt' eq') m) (HostMap.toList (Host.unbounded lt eq) m)) ∧
    (∀ (p' : K → V → Py (σ × Nat) Bool) p, (∀ k v, SameWithin c (p' k v) (p k v)) →
      SameWithin (depth m.tree + c + 2) (HostMap.exists (Host.bounded lt' eq') m p')
        (HostMap.exists (Host.unbounded lt eq) m p) ∧
      SameWithin (depth m.tree + c + 2) (HostMap.forAll (Host.bounded lt' eq') m p')
        (HostMap.forAll (Host.unbounded lt eq) m p)) ∧
    (∀ (f' : K → V → Py (σ × Nat) R) f, (∀ k v, SameWithin c (f' k v) (f k v)) →
      SameWithin (depth m.tree + c + 2) (HostMap.map (Host.bounded lt' eq') m f') (HostMap.map (Host.unbounded lt eq) m f)) ∧
    (∀ (f' : K → V → Py (σ × Nat) Unit) f, (∀ k v, SameWithin c (f' k v) (f k v)) →
      SameWithin (depth m.tree + c + 2) (HostMap.iterate (Host.bounded lt' eq') m f')
        (HostMap.iterate (Host.unbounded lt eq) m f)) ∧
    (∀ (f' : R → K × V → Py (σ × Nat) R) f s, (∀ s kv, SameWithin c (f' s kv) (f s kv)) →
      SameWithin (depth m.tree + c + 2) (HostMap.fold (Host.bounded lt' eq') m f' s)
        (HostMap.fold (Host.unbounded lt eq) m f s)) ∧
    (∀ (f' : K × V → R → Py (σ × Nat) R) f s, (∀ kv s, SameWithin c (f' kv s) (f kv s)) →
      SameWithin (depth m.tree + c + 2) (HostMap.foldBack (Host.bounded lt' eq') m f' s)
        (HostMap.foldBack (Host.unbounded lt eq) m f s)) ∧
    (∀ (f' : K → V → Py (σ × Nat) (Option R)) f, (∀ k v, SameWithin c (f' k v) (f k v)) →
      SameWithin (depth m.tree + c + 2) (HostMap.tryPick (Host.bounded lt' eq') m f')
        (HostMap.tryPick (Host.unbounded lt eq) m f)) :=
  ⟨SW.call (SW.call (SW.call (sizeAux_sw _ _))), SW.call (SW.call (SW.call (toListLoop_sw _ _))),
    fun _ _ hp => ⟨SW.call (SW.call (exists_sw hp _)), SW.call (SW.call (forall_sw hp _))⟩,
    fun _ _ hf => SW.call (SW.bind (SW.call (map_sw hf _)) fun _ => SW.pure _),
    fun _ _ hf => SW.call (SW.call (iter_sw hf _)),
    fun _ _ s hf => SW.call (SW.call (fold_sw hf _ s)), fun _ _ s hf => SW.call (SW.call (foldBack_sw hf _ s)),
    fun _ _ hf => SW.call (SW.call (tryPick_sw hf _))⟩

/-- **C104.** Operations that rebuild need the frames of the traversal and those of an insertion into the map being built;
`of_list` only the latter. -/
theorem C104_rebuilding (hlt : ∀ a b, SameWithin c (lt' a b) (lt a b)) (heq : ∀ a b, SameWithin c (eq' a b) (eq a b)) :
    (∀ (m : Map K V) (p' : K → V → Py (σ × Nat) Bool) p, (∀ k v, SameWithin c (p' k v) (p k v)) →
      SameWithin (depth m.tree + depthBound m.len + c + 5) (HostMap.filter (Host.bounded lt' eq') m p')
        (HostMap.filter (Host.unbounded lt eq) m p) ∧
      SameWithin (depth m.tree + depthBound m.len + c + 5) (HostMap.partition (Host.bounded lt' eq') m p')
        (HostMap.partition (Host.unbounded lt eq) m p)) ∧
    (∀ xs : List (K × V), SameWithin (depthBound xs.length + c + 6) (HostMap.ofList (Host.bounded lt' eq') xs)
      (HostMap.ofList (Host.unbounded lt eq) xs)) ∧
    (∀ xs : List (K × V), SameWithin (xs.length + depthBound xs.length + c + 4) (HostMap.ofSeq (Host.bounded lt' eq') xs)
      (HostMap.ofSeq (Host.unbounded lt eq) xs)) := by
  refine ⟨fun m p' p hp => ?_, fun xs => ?_, fun xs => ?_⟩
  · simp only [Map.len, size_eq]
    exact ⟨SW.mono (SW.call (SW.bind (SW.call (SW.call (filterAux_sw hlt heq hp (N := (inorder m.tree).length) m.tree 0 .nothing (by simp) Acc.nothing)))
      fun _ => SW.pure _)) (by omega),
      SW.mono (SW.call (SW.bind (SW.call (SW.call (partitionAux_sw hlt heq hp (N := (inorder m.tree).length) m.tree 0 (.nothing, .nothing) (by simp)
        Acc.nothing Acc.nothing))) fun _ => SW.pure _)) (by omega)⟩
  · exact SW.mono (SW.call (SW.call (SW.bind (SW.call (SW.call (ofListFrom_sw hlt heq (N := xs.length) xs 0 .nothing (by simp)
      Acc.nothing))) fun _ => SW.pure _))) (by omega)
  · exact SW.mono (SW.call (SW.call (SW.bind (SW.call (SW.call (mkFromIterator_sw hlt heq (N := xs.length) xs 0 .nothing (by simp)
      Acc.nothing))) fun _ => SW.pure _))) (by omega)

/-- **C104.** A loop over the map: the frames a round needs, and it is the loop over the entries. -/
theorem C104_iteration (m : Map K V) (body' : K × V → Py (σ × Nat) Unit) (body : K × V → Py σ Unit)
    (hb : ∀ kv, SameWithin c (body' kv) (body kv)) :
    (∀ rounds, SameWithin (depth m.tree + c + 3) (HostMap.forEach (Host.bounded lt' eq') m body' rounds)
      (HostMap.forEach (Host.unbounded lt eq) m body rounds)) ∧
    HostMap.forEach (Host.unbounded lt eq) m body (m.len + 1) = (do m.toList.forM body; pure (some ())) := by
  have hi : (Host.unbounded lt eq).call (MapHost.mkIterator (Host.unbounded lt eq) m.tree) =
      pure (MapTree.collapseLHS [m.tree]) := by
    simp only [MapHost.mkIterator, free_unbounded _, collapseLHS_free free_unbounded]
  refine ⟨fun rounds => ?_, ?_⟩
  · refine SW.bindOf (SW.mono (SW.call (mkIterator_sw m.tree)) (by omega)) ?_
    rintro s ⟨w, w', e⟩
    rw [hi] at e
    cases e
    exact SW.mono (forEach_sw hb rounds _ (Stack.collapse (D := depth m.tree) (s := [m.tree]) (Nat.le_refl _))) (by omega)
  · have hl : (fringe (MapTree.collapseLHS [m.tree])) = m.toList := by
      rw [fringe_collapseLHS, Map.toList, toList_eq]; simp [fringe]
    simp only [HostMap.forEach, hi, pure_bind]
    rw [forEach_free free_unbounded body _ _ (collapsed_collapseLHS _) (by rw [hl, Map.len, size_eq, Map.toList, toList_eq]; omega),
      hl]

/-- **C104.** How many frames that is: for a map made by insertion the depth is at most `depthBound` of its length, which
for fewer than `2ⁿ` entries is at most `2n`. -/
theorem C104_depth {m : Map K V} (hm : MadeByInsertion (Host.unbounded lt eq) m) :
    depth m.tree ≤ depthBound m.len ∧ ∀ len n, len < 2 ^ n → depthBound len ≤ 2 * n := by
  refine ⟨(C103_depth hm).2.2, fun len n h => ?_⟩
  have h1 : (len + 1) ^ 2 ≤ (2 ^ n) ^ 2 := Nat.pow_le_pow_left h 2
  rw [← Nat.pow_mul] at h1
  have h2 : 2 ^ depthBound len ≤ (len + 1) ^ 2 := Nat.log2_self_le (Nat.pos_iff_ne_zero.1 (Nat.pow_pos (Nat.succ_pos _)))
  have h3 : 2 ^ depthBound len ≤ 2 ^ (n * 2) := Nat.le_trans h2 h1
  have := (Nat.pow_le_pow_iff_right (by omega : 1 < 2)).1 h3
  omega

/-- **C104.** With keys that compare as an order should and need no frames to do so: no operation on a map built without
deletions raises `RecursionError` while `depthBound len + 3` frames are free; each has the outcome C01–C07 speak of. -/
theorem C104_no_recursion_error [PyOrd K] [LawfulPyOrd K] {m : Map K V} (h : Grown m) (w : σ) (free : Nat)
    (hf : depthBound m.len + 3 ≤ free) (k : K) (v : V) (H : Host (σ × Nat) K)
    (hH : H = Host.bounded (fun a b => pure (PyOrd.lt a b)) (fun a b => pure (PyOrd.eq a b))) :
    (HostMap.add H m k v).exec (w, free) = (m.add k v, (w, free)) ∧
    (HostMap.remove H m k).exec (w, free) = (m.remove k, (w, free)) ∧
    (HostMap.tryFind H m k).exec (w, free) = (.ok (m.tryFind k), (w, free)) ∧
    (HostMap.getItem H m k).exec (w, free) = (m.getItem k, (w, free)) ∧
    (HostMap.containsKey H m k).exec (w, free) = (.ok (m.containsKey k), (w, free)) ∧
    (HostMap.len H m).exec (w, free) = (.ok m.len, (w, free)) ∧
    (HostMap.toList H m).exec (w, free) = (.ok m.toList, (w, free)) := by
  subst hH
  have hd : depth m.tree ≤ depthBound m.len :=
    (Nat.le_log2 (Nat.pos_iff_ne_zero.1 (Nat.pow_pos (Nat.succ_pos _)))).2 (C05_insertion_built_balanced m h).2.1
  have sw : ∀ b : Bool, SameWithin (σ := σ) 0 (pure b) (pure b) := fun b => SW.pure b
  obtain ⟨a1, a2, a3, a4, a5, _⟩ := C104_updates (σ := σ) (c := 0) (fun a b => sw (PyOrd.lt a b)) (fun a b => sw (PyOrd.eq a b)) m
  obtain ⟨b1, b2, _⟩ := C104_traversals (σ := σ) (R := Unit) (c := 0) (lt := fun a b => pure (PyOrd.lt a b))
    (eq := fun a b => pure (PyOrd.eq a b)) (lt' := fun a b => pure (PyOrd.lt a b)) (eq' := fun a b => pure (PyOrd.eq a b)) m
  obtain ⟨c1, c2, c3, c4, c5, _, _, _, _, _, _, _, c6, c7, _⟩ := C103_plain (σ := σ) (R := Unit) m
  refine ⟨?_, ?_, ?_, ?_, ?_, ?_, ?_⟩
  · rw [a1 k v w free (by omega)]; exact congrArg (fun p : Py σ _ => ((p.exec w).1, ((p.exec w).2, free))) (c1 k v)
  · rw [a2 k w free (by omega)]; exact congrArg (fun p : Py σ _ => ((p.exec w).1, ((p.exec w).2, free))) (c2 k)
  · rw [a3 k w free (by omega)]; exact congrArg (fun p : Py σ _ => ((p.exec w).1, ((p.exec w).2, free))) (c3 k)
  · rw [a5 k w free (by omega)]; exact congrArg (fun p : Py σ _ => ((p.exec w).1, ((p.exec w).2, free))) (c4 k)
  · rw [a4 k w free (by omega)]; exact congrArg (fun p : Py σ _ => ((p.exec w).1, ((p.exec w).2, free))) (c5 k)
  · rw [b1 w free (by omega)]; exact congrArg (fun p : Py σ _ => ((p.exec w).1, ((p.exec w).2, free))) c6
  · rw [b2 w free (by omega)]; exact congrArg (fun p : Py σ _ => ((p.exec w).1, ((p.exec w).2, free))) c7

/-! ### Concrete cases -/

/-- Comparisons of `float("nan")`: always false.  Adding twice gives two entries, neither of which is found. -/
example : ((do
      let m ← HostMap.add (Host.unbounded (σ := Unit) (fun _ _ => pure false) (fun _ _ => pure false)) Map.empty 0 'a'
      let m ← HostMap.add (Host.unbounded (fun _ _ => pure false) (fun _ _ => pure false)) m 0 'b'
      let o ← HostMap.tryFind (Host.unbounded (fun _ _ => pure false) (fun _ _ => pure false)) m 0
      pure (m.toList, o)).exec ()).1 = .ok ([((0 : Nat), 'a'), (0, 'b')], none) := by decide +kernel

/-- Comparisons that raise: keys of different kinds. -/
example : ((do
      let m ← HostMap.add (Host.unbounded (σ := Unit) (fun _ _ => Py.raise (.typeError "<")) (fun _ _ => pure false))
        Map.empty 0 'a'
      HostMap.add (Host.unbounded (fun _ _ => Py.raise (.typeError "<")) (fun _ _ => pure false)) m 1 'b').exec ()).1 =
    (.error (.typeError "<") : Except PyErr (Map Nat Char)) := by decide +kernel

/-- keys that count the comparisons, and say that all keys below 10 are equal and that nothing is less than anything else -/
def vagueEq (a b : Nat) : Py Nat Bool := ExceptT.mk fun n => (.ok (decide (a < 10 ∧ b < 10)), n + 1)

/-- nothing is less -/
def vagueLt (_ _ : Nat) : Py Nat Bool := ExceptT.mk fun n => (.ok false, n + 1)

/-- the hypotheses of `C103_add`, `C103_remove`, `C103_change`, `C103_depth` and `C103_construction` with these -/
example : ∃ m m1 m2 : Map Nat Char, MadeByInsertion (Host.unbounded vagueLt vagueEq) m ∧ Made (Host.unbounded vagueLt vagueEq) m ∧
    (HostMap.ofList (Host.unbounded vagueLt vagueEq) [(3, 'a'), (20, 'b'), (4, 'c')]).exec 0 = (.ok m, 4) ∧
    m.toList = [(3, 'a'), (20, 'b'), (4, 'c')] ∧
    (HostMap.add (Host.unbounded vagueLt vagueEq) m 7 'd').exec 4 = (.ok m1, 8) ∧ m1.toList = [(3, 'a'), (20, 'b'), (7, 'd')] ∧
    (HostMap.remove (Host.unbounded vagueLt vagueEq) m1 1).exec 8 = (.ok m2, 11) ∧ m2.toList = [(3, 'a'), (20, 'b')] := by
  have h0 : (HostMap.ofList (Host.unbounded vagueLt vagueEq) [(3, 'a'), (20, 'b'), (4, 'c')]).exec 0 =
      (.ok ⟨.node 20 'b' (.leaf 3 'a') (.leaf 4 'c') 2⟩, 4) := by decide +kernel
  exact ⟨⟨.node 20 'b' (.leaf 3 'a') (.leaf 4 'c') 2⟩, ⟨.node 20 'b' (.leaf 3 'a') (.leaf 7 'd') 2⟩, ⟨.node 20 'b' (.leaf 3 'a') .nothing 2⟩,
    .ofList _ _ _ h0, .ofList _ _ _ h0, h0, rfl, by decide +kernel, rfl, by decide +kernel, rfl⟩

/-- the hypotheses of `C103_comparisons`, `C103_comparisons_rebuilding` and `C103_errors` -/
example : (∀ a b, CostsAtMost (fun n => n) 1 (vagueLt a b)) ∧ (∀ a b, CostsAtMost (fun n => n) 1 (vagueEq a b)) ∧
    (∀ a b, RaisesOnly (fun _ => False) (vagueLt a b)) ∧ ∀ a b, RaisesOnly (fun _ => False) (vagueEq a b) :=
  ⟨fun _ _ _ => Nat.le_refl _, fun _ _ _ => Nat.le_refl _, (fun _ _ _ _ _ h => by cases h), (fun _ _ _ _ _ h => by cases h)⟩

/-- A comparison that raises and counts that: `I` is that the count is zero, which comparisons that return keep. -/
example : ReturnsKeep (fun n : Nat => n = 0) (ExceptT.mk fun n => (.error (.user 1), n + 1) : Py Nat Bool) := by
  intro w a w' _ e; cases e

/-- Comparisons that log: `SameWithin` is met by any comparison that does not look at the stack. -/
example (p : Py Nat Bool) : SameWithin 0 (ExceptT.mk fun ws => ((p.exec ws.1).1, ((p.exec ws.1).2, ws.2))) p :=
  fun _ _ _ => rfl

/-- Without enough frames the same call raises `RecursionError`; with them it succeeds. -/
example : ((HostMap.len (Host.bounded (K := Nat) (σ := Unit) (fun _ _ => pure false) (fun _ _ => pure false))
      (⟨.node 1 'a' (.leaf 0 'b') .nothing 2⟩ : Map Nat Char)).exec ((), 3)).1 = .error .recursionError ∧
    ((HostMap.len (Host.bounded (K := Nat) (σ := Unit) (fun _ _ => pure false) (fun _ _ => pure false))
      (⟨.node 1 'a' (.leaf 0 'b') .nothing 2⟩ : Map Nat Char)).exec ((), 5)).1 = .ok 2 := by decide +kernel

/-- A map of a thousand million entries made by insertion: 60 levels. -/
example : depthBound 1000000000 ≤ 60 := (C104_depth (σ := Unit) (K := Nat) (V := Nat) (lt := fun _ _ => pure false)
  (eq := fun _ _ => pure false) MadeByInsertion.empty).2 _ 30 (by decide)

end Expression.Props
