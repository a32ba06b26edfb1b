import Verif.Lemmas.MapHostCost
import Verif.Props.MapHost

/-!
# C127: what operations on maps cost

Calls of the library's functions are counted (`Host.metered`), and so is what comparisons and callbacks add to the count: at most
`c` for a comparison, at most `d` for a callback.  With `c = 1` and `d = 1` the count is that of calls, comparisons and callbacks
together; `c` and `d` are larger if these use the library in turn.
-/

namespace Expression.Props

open Expression Spec MapTree MapHost

variable {σ K V R : Type} {lt eq : K → K → Py (σ × Nat) Bool} {c d : Nat}

/-- However `p` ends, the count is then at most `n` higher. -/
local notation "Adds" => CostsAtMost (Prod.snd : σ × Nat → Nat)

private theorem wrap {α β : Type} {n : Nat} {p : Py (σ × Nat) α} {g : α → β} {Q : α → Prop}
    (h : Does (fun _ => True) Prod.snd n p Q) :
    Adds (n + 2) ((Host.metered lt eq).call (do pure (g (← (Host.metered lt eq).call p)))) :=
  (metered_metered _ _ _ _ ((metered_metered _ _ _ _ h).bind (m := 0) (S := fun _ => True) fun _ _ => Does.pure trivial)).costs

private theorem twice {α : Type} {n : Nat} {p : Py (σ × Nat) α} (h : Pays Prod.snd n p) :
    Adds (n + 2) ((Host.metered lt eq).call ((Host.metered lt eq).call p)) :=
  (metered_metered _ _ _ _ (metered_metered _ _ _ _ h)).costs

/-- **C127.** Lookups and updates: two comparisons and one call for each level of the tree, and two or three calls, however they
end. -/
theorem C127_updates (hlt : ∀ a b, Adds c (lt a b)) (heq : ∀ a b, Adds c (eq a b)) (m : Map K V) :
    (∀ k v, Adds ((2 * c + 1) * depth m.tree + 2) (HostMap.add (Host.metered lt eq) m k v)) ∧
    (∀ k, Adds ((2 * c + 1) * depth m.tree + 2) (HostMap.remove (Host.metered lt eq) m k)) ∧
    (∀ k, Adds ((2 * c + 1) * depth m.tree + 2) (HostMap.tryFind (Host.metered lt eq) m k)) ∧
    (∀ k, Adds ((2 * c + 1) * depth m.tree + 2) (HostMap.containsKey (Host.metered lt eq) m k)) ∧
    (∀ k, Adds ((2 * c + 1) * depth m.tree + 3) (HostMap.getItem (Host.metered lt eq) m k)) ∧
    (∀ k (f : Option V → Py (σ × Nat) (Option V)), (∀ o, Adds d (f o)) →
      Adds ((2 * c + 1) * depth m.tree + d + 2) (HostMap.change (Host.metered lt eq) m k f)) := by
  have hc : Metered (fun _ => True) Prod.snd (Host.metered lt eq) := metered_metered
  have h1 : ∀ a b, Pays Prod.snd c ((Host.metered lt eq).lt a b) := fun a b => pays_of (hlt a b)
  have h2 : ∀ a b, Pays Prod.snd c ((Host.metered lt eq).eq a b) := fun a b => pays_of (heq a b)
  refine ⟨fun k v => wrap (add_costs hc h1 h2 k v _), fun k => wrap (remove_pays hc h1 h2 k _),
    fun k => twice (tryFind_pays hc h1 h2 k _), fun k => twice (mem_pays hc h1 h2 k _), fun k => ?_,
    fun k f hf => wrap (change_pays hc h1 h2 k f (fun o => pays_of (hf o)) _)⟩
  refine twice (n := _ + 1) (Pays.bind (m := 0) (Pays.call hc (tryFind_pays hc h1 h2 k _)) fun o => ?_)
  cases o with
  | none => exact Does.raise trivial
  | some v => exact Pays.pure

/-- **C127.** That is logarithmic: a map built by insertion has a depth of at most `depthBound len`, which is at most `2·n` if it
has fewer than `2ⁿ` entries. -/
theorem C127_logarithmic {m : Map K V} (hm : MadeByInsertion (Host.metered lt eq) m) :
    depth m.tree ≤ depthBound m.len ∧ ∀ n, m.len < 2 ^ n → depth m.tree ≤ 2 * n := by
  obtain ⟨hw, hb⟩ := madeByInsertion_metered (H := Host.metered lt eq) (fun α n p Q h w => ⟨Nat.zero_le _, (h (w.1, w.2 + 1)).2⟩) hm
  have h1 : depth m.tree ≤ depthBound m.len := by
    simp only [Map.len, size_eq]
    exact depth_le hw hb
  exact ⟨h1, fun n hn => Nat.le_trans h1 ((C104_depth (σ := Unit) (lt := fun _ _ => pure false) (eq := fun _ _ => pure false)
    (MadeByInsertion.empty (K := K) (V := V))).2 _ _ hn)⟩

/-- **C127.** Traversals: a callback and two calls for each entry, and two or three calls. -/
theorem C127_traversals (m : Map K V) :
    Adds (m.len * 2 + 3) (HostMap.len (Host.metered lt eq) m) ∧
    Adds (m.len * 2 + 3) (HostMap.toList (Host.metered lt eq) m) ∧
    (∀ f : K → V → Py (σ × Nat) Unit, (∀ k v, Adds d (f k v)) →
      Adds (m.len * (d + 2) + 2) (HostMap.iterate (Host.metered lt eq) m f)) ∧
    (∀ f : K → V → Py (σ × Nat) R, (∀ k v, Adds d (f k v)) →
      Adds (m.len * (d + 2) + 2) (HostMap.map (Host.metered lt eq) m f)) ∧
    (∀ p : K → V → Py (σ × Nat) Bool, (∀ k v, Adds d (p k v)) →
      Adds (m.len * (d + 2) + 2) (HostMap.exists (Host.metered lt eq) m p) ∧
      Adds (m.len * (d + 2) + 2) (HostMap.forAll (Host.metered lt eq) m p)) ∧
    (∀ f : K → V → Py (σ × Nat) (Option R), (∀ k v, Adds d (f k v)) →
      Adds (m.len * (d + 2) + 2) (HostMap.tryPick (Host.metered lt eq) m f)) ∧
    (∀ (f : R → K × V → Py (σ × Nat) R) s, (∀ x kv, Adds d (f x kv)) →
      Adds (m.len * (d + 2) + 2) (HostMap.fold (Host.metered lt eq) m f s)) ∧
    (∀ (f : K × V → R → Py (σ × Nat) R) s, (∀ kv x, Adds d (f kv x)) →
      Adds (m.len * (d + 2) + 2) (HostMap.foldBack (Host.metered lt eq) m f s)) := by
  have hc : Metered (fun _ => True) Prod.snd (Host.metered lt eq) := metered_metered
  simp only [Map.len, size_eq]
  exact ⟨twice (Pays.call hc (sizeAux_pays hc _ _)), twice (Pays.call hc (toListLoop_pays hc _ _)),
    fun f hf => twice (iter_pays hc (fun k v => pays_of (hf k v)) _),
    fun f hf => wrap (map_pays hc (fun k v => pays_of (hf k v)) _),
    fun p hp => ⟨twice (exists_pays hc (fun k v => pays_of (hp k v)) _), twice (forall_pays hc (fun k v => pays_of (hp k v)) _)⟩,
    fun f hf => twice (tryPick_pays hc (fun k v => pays_of (hf k v)) _),
    fun f s hf => twice (fold_pays hc (fun x kv => pays_of (hf x kv)) _ s),
    fun f s hf => twice (foldBack_pays hc (fun kv x => pays_of (hf kv x)) _ s)⟩

/-- **C127.** A loop over the map: the body and four calls for each entry, and four calls, however many rounds are made.  A round
may take as many calls as the tree is deep, the loop as a whole does not. -/
theorem C127_iteration (m : Map K V) (body : K × V → Py (σ × Nat) Unit) (hb : ∀ kv, Adds d (body kv)) (rounds : Nat) :
    Adds (m.len * (d + 4) + 4) (HostMap.forEach (Host.metered lt eq) m body rounds) := by
  simp only [Map.len, size_eq]
  exact (iterate_pays metered_metered (fun kv => pays_of (hb kv)) rounds m.tree).costs

/-- **C127.** Operations that rebuild: an insertion into a balanced map for each entry, so `n·log n`, also for a map that is
itself not balanced. -/
theorem C127_rebuilding (hlt : ∀ a b, Adds c (lt a b)) (heq : ∀ a b, Adds c (eq a b)) :
    (∀ (m : Map K V) (p : K → V → Py (σ × Nat) Bool), (∀ k v, Adds d (p k v)) →
      Adds (m.len * (d + 4 + (2 * c + 1) * depthBound m.len) + 3) (HostMap.filter (Host.metered lt eq) m p) ∧
      Adds (m.len * (d + 4 + (2 * c + 1) * depthBound m.len) + 3) (HostMap.partition (Host.metered lt eq) m p)) ∧
    (∀ xs : List (K × V),
      Adds (xs.length * (2 + (2 * c + 1) * depthBound xs.length) + 4) (HostMap.ofList (Host.metered lt eq) xs) ∧
      Adds (xs.length * (2 + (2 * c + 1) * depthBound xs.length) + 4) (HostMap.ofSeq (Host.metered lt eq) xs)) := by
  have hc : Metered (fun _ => True) Prod.snd (Host.metered lt eq) := metered_metered
  have hH : Compares (fun _ => True) Prod.snd c (Host.metered lt eq) :=
    compares_of (fun _ _ _ _ _ _ => trivial) (fun _ _ _ _ _ _ => trivial) hlt heq
  refine ⟨fun m p hp => ?_, fun xs => ⟨?_, ?_⟩⟩
  · simp only [Map.len, size_eq]
    exact ⟨wrap (hc _ _ _ _ (filterAux_pays hc hH (fun k v => pays_of (hp k v)) (Nat.le_refl _) m.tree 0 .nothing (by simp)
        Acc.nothing)),
      wrap (hc _ _ _ _ (partitionAux_pays hc hH (fun k v => pays_of (hp k v)) (Nat.le_refl _) m.tree 0 (.nothing, .nothing)
        (by simp) Acc.nothing Acc.nothing))⟩
  · exact (hc _ _ _ _ (hc _ _ _ _ ((hc _ _ _ _ (hc _ _ _ _ (ofListFrom_pays hc hH (Nat.le_refl _) xs 0 .nothing (by simp)
      Acc.nothing))).bind (m := 0) (S := fun _ => True) fun _ _ => Does.pure trivial))).costs
  · exact (hc _ _ _ _ (hc _ _ _ _ ((hc _ _ _ _ (hc _ _ _ _ (mkFromIterator_pays hc hH (Nat.le_refl _) xs 0 .nothing (by simp)
      Acc.nothing))).bind (m := 0) (S := fun _ => True) fun _ _ => Does.pure trivial))).costs

/-! ### Concrete cases -/

/-- A comparison that is counted. -/
private def counted (f : Nat → Nat → Bool) (a b : Nat) : Py (Unit × Nat) Bool := Host.tick (pure (f a b))

/-- Seven insertions in order, then what single operations add to the count: an insertion at the end (four levels), a lookup of a
key at the root, a traversal and a loop. -/
example :
    let H : Host (Unit × Nat) Nat := Host.metered (counted (· < ·)) (counted (· == ·))
    (((do
      let m ← HostMap.ofList H ((List.range 7).map fun n => (n, 'x'))
      let start := fun (p : Py (Unit × Nat) Unit) => (do
        let before ← (get : Py (Unit × Nat) (Unit × Nat))
        p
        let after ← (get : Py (Unit × Nat) (Unit × Nat))
        pure (after.2 - before.2) : Py (Unit × Nat) Nat)
      let a ← start (do let _ ← HostMap.add H m 7 'y'; pure ())
      let b ← start (do let _ ← HostMap.tryFind H m 3; pure ())
      let c ← start (do let _ ← HostMap.len H m; pure ())
      let d ← start (do let _ ← HostMap.forEach H m (fun _ => pure ()) 8; pure ())
      pure (depth m.tree, a, b, c, d)).exec ((), 0)).1) = .ok (4, 13, 6, 9, 20) := by decide +kernel

end Expression.Props
