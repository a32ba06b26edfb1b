import Verif.Lemmas.Interleave

/-!
# C114: several iterations of one sequence at the same time
-/

namespace Expression.Props

open Iterable PyD Spec Lemmas

variable {σ α β S T : Type}

/-- The full property, for `filter` over a list: however two or more iterations of one sequence are interleaved, each gets the
elements of the sequence, in order, from the first. -/
def C114_full_statement : Prop :=
  ∀ (p : Nat → Bool) (xs : List Nat) (us : List Use) (its : List (Iteration Nat Unit)) (w' : Unit × Option (List Nat)),
    (play (Seq.oneShot (Seq.filter (fun x => (pure (p x) : PyD Unit Bool)) (ofList xs))) us []).exec ((), some xs) =
      some (.ok its, w') →
    ∀ i t, its[i]? = some t → t.got = (xs.filter p).take (timesAsked i 0 us)

/-- It is false: of two iterations of `filter(...)` that are asked in turn, the first gets 1 and the second gets 2. -/
theorem C114_full_statement_false : ¬ C114_full_statement := by
  intro h
  have e : (play (Seq.oneShot (Seq.filter (fun _ => (pure true : PyD Unit Bool)) (ofList [1, 2])))
      [.begin, .begin, .pull 0, .pull 1] []).exec ((), some [1, 2]) =
      some (.ok [⟨[1], some (), none⟩, ⟨[2], some (), none⟩], ((), some [])) := by
    have e1 : ∀ (x : Nat) (s : List Nat), ((Seq.oneShot (Seq.filter (fun _ => (pure true : PyD Unit Bool)) (ofList [1, 2]))).next ()).exec
        ((), some (x :: s)) = some (.ok (some (x, ())), ((), some s)) := by
      intro x s
      rw [oneShot_next]
      simp only [Seq.filter]
      rw [Seq.filterNext]
      rfl
    simp only [play, use]
    rw [exec_bind, exec_bind]
    change exec _ _ = _
    simp only [List.nil_append]
    rw [exec_bind, exec_bind]
    change exec (do
      let its ← (do pure ([⟨[], some (), none⟩, ⟨[], some (), none⟩].set 0 (← pull (Seq.oneShot _) ⟨[], some (), none⟩)))
      _) _ = _
    rw [exec_bind, exec_bind, exec_pull_some _ _ () rfl, e1]
    change exec (do
      let its ← (do pure ([⟨[1], some (), none⟩, ⟨[], some (), none⟩].set 1 (← pull (Seq.oneShot _) ⟨[], some (), none⟩)))
      _) _ = _
    rw [exec_bind, exec_bind, exec_pull_some _ _ () rfl, e1]
    rfl
  exact absurd (h (fun _ => true) [1, 2] _ _ _ e 1 _ rfl) (by decide)

/-- What happens with such an object instead (what `filter`, `scan`, `zip` and `unfold` return), whatever it is made of: the
iterations share one. However they are interleaved, the elements of that one iteration (`T`, asked as many times as all of them
together) are dealt out among them: each element, in order, goes to the iteration that asked for it (`D`), and to no other. -/
theorem C114_shared (it : Iterable σ α S) (s : S) (us : List Use) (its : List (Iteration α Unit)) (w w' : σ) (o : Option S)
    (h : (play (Seq.oneShot it) us []).exec (w, some s) = some (.ok its, (w', o))) :
    ∃ (T : Iteration α S) (D : List (Nat × α)),
      (pulls it (timesAskedAny 0 us) ⟨[], some s, none⟩).exec w = some (.ok T, w') ∧
      D.map (·.2) = T.got ∧ (∀ d ∈ D, d.1 < its.length) ∧
      ∀ i t, its[i]? = some t → t.got = (D.filter (fun d => d.1 = i)).map (·.2) := by
  obtain ⟨T, D, h1, _, h2⟩ := oneShot_play it us [] its [] ⟨[], some s, none⟩
    ⟨rfl, fun i t hi => by simp at hi, fun d hd => by simp at hd, fun t ht => by simp at ht⟩ w w' o h
  exact ⟨T, D, h1, h2.all, h2.there, h2.each⟩

/-- Proved: if what the iterators of `it` deliver depends on nothing but themselves, then however any number of iterations are
interleaved, each gets, and raises, what it would by itself, in every world, when asked that many times. -/
theorem C114_alone_partial (it : Iterable σ α S) (hit : Independent it) (us : List Use) (its : List (Iteration α S)) (w w' : σ)
    (h : (play it us []).exec w = some (.ok its, w')) (i : Nat) (t : Iteration α S) (ht : its[i]? = some t) (w0 : σ) :
    ∃ w1, (alone it (timesAsked i 0 us)).exec w0 = some (.ok t, w1) := by
  have := play_asAlone hit us [] its (fun _ => 0) (fun _ _ => rfl) (fun i t hi => by simp at hi) w w' h i t ht
  simpa using this.2 w0

/-- In particular, if `list(it)` gives `xs`, each iteration gets the elements of `xs` in order from the first. -/
theorem C114_elements_partial (it : Iterable σ α S) (hit : Independent it) (us : List Use) (its : List (Iteration α S)) (w w' : σ)
    (h : (play it us []).exec w = some (.ok its, w')) (w0 w1 : σ) (xs : List α) (hl : it.toList.exec w0 = some (.ok xs, w1))
    (i : Nat) (t : Iteration α S) (ht : its[i]? = some t) : t.got = xs.take (timesAsked i 0 us) ∧ t.error = none := by
  obtain ⟨w2, h2⟩ := C114_alone_partial it hit us its w w' h i t ht w0
  obtain ⟨t', w3, h3, h4, h5⟩ := alone_list it w0 w1 xs hl (timesAsked i 0 us)
  rw [h2] at h3
  cases h3
  exact ⟨h4, h5⟩

/-- The combinators that return a new iterator for each iteration preserve this, if the results of the functions they are given do
not depend on the world (they may have effects); so does every composition of them. -/
theorem C114_combinators_partial :
    (∀ xs : List α, Independent (ofList xs : Iterable σ α _)) ∧
    (∀ f : Nat → PyD σ α, (∀ i, SameResult (f i)) → Independent (Seq.initInfinite f)) ∧
    (∀ (f : α → PyD σ β) (src : Iterable σ α S), (∀ x, SameResult (f x)) → Independent src → Independent (Seq.map f src)) ∧
    (∀ (f : α → PyD σ (Option β)) (src : Iterable σ α S), (∀ x, SameResult (f x)) → Independent src →
      Independent (Seq.choose f src)) ∧
    (∀ (m : α → PyD σ (Iterable σ β T)) (src : Iterable σ α S), (∀ x, SameResult (m x)) →
      (∀ x w it w', (m x).exec w = some (.ok it, w') → Independent it) → Independent src → Independent (Seq.collect m src)) ∧
    (∀ its : List (Iterable σ α T), (∀ it ∈ its, Independent it) → Independent (Seq.concat its)) ∧
    (∀ (n : Int) (src : Iterable σ α S), Independent src → Independent (Seq.skip n src)) ∧
    (∀ (n : Int) (src : Iterable σ α S), Independent src → Independent (Seq.take n src)) ∧
    (∀ src : Iterable σ α S, Independent src → Independent (Seq.pairwise src)) ∧
    (∀ g : PyD σ (Iterable σ α T), SameResult g → (∀ w it w', g.exec w = some (.ok it, w') → Independent it) →
      Independent (Seq.delay g)) :=
  ⟨independent_ofList, fun _ => independent_initInfinite, fun _ _ hf hs => independent_map hf hs,
    fun _ _ hf hs => independent_choose hf hs, fun _ _ h1 h2 hs => independent_collect h1 h2 hs,
    fun _ => independent_concat, fun n _ => independent_skip n, fun n _ => independent_take n,
    fun _ => independent_pairwise, fun _ h1 h2 => independent_delay h1 h2⟩

/-- a function that counts its calls in the world -/
def countedDouble (x : Nat) : PyD Nat Nat := fun w => some (.ok (2 * x), w + 1)

/-- Two iterations of `pairwise(map(f)([1, 2, 3]))`, where `f` doubles and counts its calls. -/
example : let it := Seq.pairwise (Seq.map countedDouble (ofList [1, 2, 3]))
    Independent it ∧ ((play it [.begin, .pull 0, .begin, .pull 1, .pull 0, .pull 1, .pull 1] []).exec 0).map
      (fun r => (r.1.map (fun its => its.map (·.got)), r.2)) = some (.ok [[(2, 4), (4, 6)], [(2, 4), (4, 6)]], 6) :=
  ⟨independent_pairwise (independent_map (fun x w r hr => by cases hr; exact fun w' => ⟨w' + 1, rfl⟩) (independent_ofList _)), rfl⟩

end Expression.Props
