import Verif.Lemmas.Seq2

/-! # Computations that depend on nothing, and re-iteration -/

namespace Expression.Spec

open Iterable PyD Lemmas

variable {σ α β γ S T C : Type}

theorem Const.pure (a : α) : Const (pure a : PyD σ α) := ⟨some (.ok a), fun _ => rfl⟩

theorem Const.raise (e : PyErr) : Const (raise e : PyD σ α) := ⟨some (.error e), fun _ => rfl⟩

theorem Const.bind_of {p : PyD σ α} {f : α → PyD σ β} (hp : Const p)
    (hf : ∀ w a w', p.exec w = some (.ok a, w') → Const (f a)) : Const (p >>= f) := by
  obtain ⟨r, hr⟩ := hp
  rcases r with _ | (e | a)
  · exact ⟨none, fun w => by rw [exec_bind, hr]; rfl⟩
  · exact ⟨some (.error e), fun w => by rw [exec_bind, hr]; rfl⟩
  · by_cases hn : Nonempty σ
    · obtain ⟨w0⟩ := hn
      obtain ⟨r', hr'⟩ := hf w0 a w0 (hr w0)
      exact ⟨r', fun w => by rw [exec_bind, hr]; exact hr' w⟩
    · exact ⟨none, fun w => absurd ⟨w⟩ hn⟩

theorem Const.bind {p : PyD σ α} {f : α → PyD σ β} (hp : Const p) (hf : ∀ a, Const (f a)) : Const (p >>= f) :=
  hp.bind_of fun _ a _ _ => hf a

theorem Const.map {p : PyD σ α} (f : α → β) (hp : Const p) : Const (f <$> p) := by
  rw [map_eq_pure_bind]
  exact hp.bind fun a => Const.pure _

theorem const_of_forall {p : PyD σ α} (h : ∀ w r, p.exec w = some r → r.2 = w ∧ ∀ w', p.exec w' = some (r.1, w')) :
    Const p := by
  by_cases hx : ∃ w r, p.exec w = some r
  · obtain ⟨w, r, hr⟩ := hx
    exact ⟨some r.1, fun w' => (h w r hr).2 w'⟩
  · refine ⟨none, fun w => ?_⟩
    rcases hp : p.exec w with _ | r
    · rfl
    · exact absurd ⟨w, r, hp⟩ hx

theorem Const.apply {p : PyD σ α} (h : Const p) {w : σ} {r : Except PyErr α × σ} (hr : p.exec w = some r) :
    r.2 = w ∧ ∀ w', p.exec w' = some (r.1, w') := by
  obtain ⟨q, hq⟩ := h
  rw [hq] at hr
  rcases q with _ | q
  · cases hr
  · cases hr
    exact ⟨rfl, fun w' => by rw [hq]; rfl⟩

/-- `p` depends on nothing where it ends, and `q` does the same -/
def Stable (p q : PyD σ α) : Prop := ∀ w r, p.exec w = some r → r.2 = w ∧ ∀ w', q.exec w' = some (r.1, w')

theorem Const.stable {p : PyD σ α} (h : Const p) : Stable p p := fun _ _ hr => h.apply hr

theorem Stable.const {p : PyD σ α} (h : Stable p p) : Const p := const_of_forall h

theorem Stable.bind {p p' : PyD σ α} {f f' : α → PyD σ β} (hp : Stable p p') (hf : ∀ a, Stable (f a) (f' a)) :
    Stable (p >>= f) (p' >>= f') := by
  intro w r hr
  rcases exec_bind_some hr with ⟨e, h1, h2⟩ | ⟨a, w1, h1, h2⟩
  · obtain ⟨h3, h4⟩ := hp _ _ h1
    refine ⟨h3, fun w' => ?_⟩
    rw [exec_bind, h4, h2]
  · obtain ⟨h3, h4⟩ := hp _ _ h1
    simp only at h3
    subst h3
    obtain ⟨h5, h6⟩ := hf a _ _ h2
    refine ⟨h5, fun w' => ?_⟩
    rw [exec_bind, h4]
    exact h6 w'

/-- sources whose iterators depend on nothing are re-iterable -/
theorem repeatable_of_next {it : Iterable σ α S} (h1 : Const it.iter) (h2 : ∀ s, Const (it.next s)) : Repeatable it := by
  intro C body c hb
  refine h1.bind fun s => ?_
  apply Stable.const
  refine loop_post it body (fun s c w r => r.2 = w ∧ ∀ w', (it.loop body s c).exec w' = some (r.1, w')) ?_ s c
  intro F hF s c
  rw [loop_eq]
  refine Stable.bind (h2 s).stable fun o => ?_
  rcases o with _ | ⟨x, s'⟩
  · exact (Const.pure c).stable
  · refine Stable.bind (hb c x).stable fun fl => ?_
    cases fl with
    | stop c' => exact (Const.pure c').stable
    | next c' => exact hF s' c'

theorem repeatable_ofList (xs : List α) : Repeatable (ofList xs : Iterable σ α _) :=
  repeatable_of_next (Const.pure xs) fun s => by cases s <;> exact Const.pure _

theorem repeatable_map {f : α → PyD σ β} (hf : ∀ x, Const (f x)) {src : Iterable σ α S} (hs : Repeatable src) :
    Repeatable (Seq.map f src) := by
  intro C body c hb
  rw [map_forLoop]
  exact hs C _ c fun c x => (hf x).bind fun y => hb c y

theorem const_nested {it : Iterable σ α S} (hit : Repeatable it) {body : C → α → PyD σ (Flow C)}
    (hb : ∀ c x, Const (body c x)) (c : C) : Const (nested it body c) := by
  refine hit _ _ _ fun fc y => (hb _ y).bind fun fl => ?_
  cases fl <;> exact Const.pure _

theorem repeatable_collect {m : α → PyD σ (Iterable σ β T)} (hm : ∀ x, Const (m x))
    (hm' : ∀ x w it w', (m x).exec w = some (.ok it, w') → Repeatable it) {src : Iterable σ α S} (hs : Repeatable src) :
    Repeatable (Seq.collect m src) := by
  intro C body c hb
  rw [collect_forLoop]
  exact hs C _ c fun c x => (hm x).bind_of fun w it w' h => const_nested (hm' x w it w' h) hb c

theorem repeatable_choose {f : α → PyD σ (Option β)} (hf : ∀ x, Const (f x)) {src : Iterable σ α S} (hs : Repeatable src) :
    Repeatable (Seq.choose f src) := by
  intro C body c hb
  rw [choose_forLoop]
  refine hs C _ c fun c x => (hf x).bind fun o => ?_
  cases o
  · exact Const.pure _
  · exact hb _ _

/-- a loop over an argument tuple -/
theorem const_loop_list {C : Type} (base : List α) {body : C → α → PyD σ (Flow C)} (xs : List α)
    (hb : ∀ c, ∀ x ∈ xs, Const (body c x)) (c : C) : Const ((ofList base).loop body xs c) := by
  induction xs generalizing c with
  | nil => rw [loop_ofList_nil]; exact Const.pure _
  | cons x xs ih =>
    rw [loop_ofList_cons]
    refine (hb c x (by simp)).bind fun fl => ?_
    cases fl with
    | stop c' => exact Const.pure _
    | next c' => exact ih (fun c x hx => hb c x (by simp [hx])) c'

theorem repeatable_concat {its : List (Iterable σ α T)} (h : ∀ it ∈ its, Repeatable it) : Repeatable (Seq.concat its) := by
  intro C body c hb
  rw [Seq.concat, collect_forLoop]
  change Const (Pure.pure its >>= fun s => loop (ofList its) _ s c)
  rw [pure_bind]
  refine const_loop_list its its (fun c it hit => ?_) c
  rw [collectBody, pure_bind]
  exact const_nested (h it hit) hb c

theorem repeatable_skip (n : Int) {src : Iterable σ α S} (hs : Repeatable src) : Repeatable (Seq.skip n src) := by
  intro C body c hb
  rw [skip_forLoop]
  refine (hs _ _ _ fun c x => ?_).map _
  unfold skipBody
  split
  · exact Const.pure _
  · exact (hb _ _).bind fun _ => Const.pure _

theorem repeatable_take (n : Int) {src : Iterable σ α S} (hs : Repeatable src) : Repeatable (Seq.take n src) := by
  intro C body c hb
  by_cases hn : n ≤ 0
  · rw [take_zero_forLoop n hn]; exact Const.pure _
  · obtain ⟨k, rfl⟩ : ∃ k : Nat, n = k := ⟨n.toNat, by omega⟩
    rw [take_forLoop k (by omega)]
    refine (hs _ _ _ fun c x => ?_).map _
    unfold takeBody
    refine (hb _ _).bind fun fl => ?_
    cases fl with
    | stop c' => exact Const.pure _
    | next c' => simp only; split <;> exact Const.pure _

theorem repeatable_pairwise {src : Iterable σ α S} (hs : Repeatable src) : Repeatable (Seq.pairwise src) := by
  intro C body c hb
  rw [pairwise_forLoop]
  refine (hs _ _ _ fun c x => ?_).map _
  unfold pairBody
  split
  · exact Const.pure _
  · exact (hb _ _).bind fun _ => Const.pure _

theorem repeatable_delay {g : PyD σ (Iterable σ α T)} (hg : Const g)
    (hg' : ∀ w it w', g.exec w = some (.ok it, w') → Repeatable it) : Repeatable (Seq.delay g) := by
  intro C body c hb
  rw [delay_forLoop]
  exact hg.bind_of fun w it w' h => hg' w it w' h C body c hb

theorem repeatable_initInfinite {f : Nat → PyD σ α} (hf : ∀ i, Const (f i)) : Repeatable (Seq.initInfinite f) :=
  repeatable_of_next (Const.pure _) fun s => (hf s).bind fun _ => Const.pure _

end Expression.Spec

namespace Expression.Lemmas

open Iterable PyD Spec

variable {σ α β γ S T C : Type}

/-! ## searching -/

theorem tryFindIndex_iff (p : α → PyD σ Bool) (src : Iterable σ α S) (w w0 : σ) (s : S) (r : Except PyErr (Option Nat))
    (w' : σ) (hs : src.iter.exec w = some (.ok s, w0)) :
    (Seq.tryFindIndex p src).exec w = some (r, w') ↔
      ∃ n s1 w1, Skips src (fun x v v' => (p x).exec v = some (.ok false, v')) s w0 n s1 w1 ∧
        ((∃ e, (src.next s1).exec w1 = some (.error e, w') ∧ r = .error e) ∨
         ((src.next s1).exec w1 = some (.ok none, w') ∧ r = .ok none) ∨
         (∃ x s2 w2, (src.next s1).exec w1 = some (.ok (some (x, s2)), w2) ∧
           ((∃ e, (p x).exec w2 = some (.error e, w') ∧ r = .error e) ∨
            ((p x).exec w2 = some (.ok true, w') ∧ r = .ok (some n))))) := by
  let test : α → PyD σ (Option Unit) := fun x => (fun b => if b then some () else none) <$> p x
  have htest : ∀ x v, (test x).exec v = ((p x).exec v).map (fun r => (r.1.map (fun b => if b then some () else none), r.2)) :=
    fun x v => exec_map _ _ _
  have hno : ∀ x v v', (test x).exec v = some (.ok none, v') ↔ (p x).exec v = some (.ok false, v') := by
    intro x v v'
    rw [htest]
    rcases (p x).exec v with _ | ⟨_ | (_ | _), _⟩ <;> simp [Except.map]
  have hyes : ∀ x v v', (test x).exec v = some (.ok (some ()), v') ↔ (p x).exec v = some (.ok true, v') := by
    intro x v v'
    rw [htest]
    rcases (p x).exec v with _ | ⟨_ | (_ | _), _⟩ <;> simp [Except.map]
  have herr : ∀ x v e v', (test x).exec v = some (.error e, v') ↔ (p x).exec v = some (.error e, v') := by
    intro x v e v'
    rw [htest]
    rcases (p x).exec v with _ | ⟨_ | (_ | _), _⟩ <;> simp [Except.map]
  have hbody : (fun (c : Nat × Option Nat) x => (do
      if ← p x then pure (.stop (c.1, some c.1)) else pure (.next (c.1 + 1, none)) : PyD σ (Flow (Nat × Option Nat)))) =
      searchBody test (fun c => (c.1 + 1, none)) (fun c _ => (c.1, some c.1)) := by
    funext c x
    simp only [searchBody, test, bind_map_left]
    refine bind_congr fun b => ?_
    cases b <;> rfl
  have hit : ∀ n k : Nat, (fun c : Nat × Option Nat => (c.1 + 1, (none : Option Nat)))^[n] (k, none) = (k + n, none) := by
    intro n
    induction n with
    | zero => intro k; rfl
    | succ n ih => intro k; rw [Function.iterate_succ_apply, ih]; simp; omega
  rw [Seq.tryFindIndex, hbody, ← map_eq_pure_bind, exec_map, forLoop, exec_bind, hs]
  simp only
  have hsk : (fun x v v' => (test x).exec v = some (.ok none, v')) =
      (fun x v v' => (p x).exec v = some (.ok false, v')) := by
    funext x v v'; exact propext (hno x v v')
  have hmain := search_iff src test (fun c => (c.1 + 1, none)) (fun c _ => (c.1, some c.1)) s ((0 : Nat), none) w0
  simp only [SearchEnds, hsk, herr, hit] at hmain
  constructor
  · intro h
    rcases hl : exec (src.loop (searchBody test (fun c => (c.1 + 1, none)) fun c _ => (c.1, some c.1)) s (0, none)) w0 with
      _ | ⟨q, w2⟩ <;> rw [hl] at h <;> simp only [Option.map_none, Option.map_some, reduceCtorEq, Option.some.injEq,
        Prod.mk.injEq] at h
    obtain ⟨h1, rfl⟩ := h
    obtain ⟨n, s1, w1, hsk', hrest⟩ := (hmain _).1 hl
    simp only at hrest
    refine ⟨n, s1, w1, hsk', ?_⟩
    subst h1
    rcases hrest with ⟨e, a, b⟩ | ⟨a, b⟩ | ⟨x, s2, w3, a, ⟨e, b, c⟩ | ⟨u, b, c⟩⟩
    · exact .inl ⟨e, a, by rw [b]; rfl⟩
    · exact .inr (.inl ⟨a, by rw [b]; rfl⟩)
    · exact .inr (.inr ⟨x, s2, w3, a, .inl ⟨e, b, by rw [c]; rfl⟩⟩)
    · exact .inr (.inr ⟨x, s2, w3, a, .inr ⟨(hyes _ _ _).1 b, by rw [c]; simp [Except.map]⟩⟩)
  · rintro ⟨n, s1, w1, hsk', hrest⟩
    have hd := fun q => (hmain q).2
    rcases hrest with ⟨e, a, b⟩ | ⟨a, b⟩ | ⟨x, s2, w3, a, ⟨e, b, c⟩ | ⟨b, c⟩⟩
    · rw [hd (.error e, w') ⟨n, s1, w1, hsk', .inl ⟨e, a, rfl⟩⟩, b]; rfl
    · rw [hd (.ok (0 + n, none), w') ⟨n, s1, w1, hsk', .inr (.inl ⟨a, rfl⟩)⟩, b]; rfl
    · rw [hd (.error e, w') ⟨n, s1, w1, hsk', .inr (.inr ⟨x, s2, w3, a, .inl ⟨e, b, rfl⟩⟩)⟩, c]; rfl
    · rw [hd (.ok (0 + n, some (0 + n)), w') ⟨n, s1, w1, hsk', .inr (.inr ⟨x, s2, w3, a, .inr ⟨(), (hyes _ _ _).2 b, rfl⟩⟩)⟩,
        c]
      simp [Except.map]

theorem tryPick_iff (f : α → PyD σ (Option β)) (src : Iterable σ α S) (w w0 : σ) (s : S) (r : Except PyErr (Option β))
    (w' : σ) (hs : src.iter.exec w = some (.ok s, w0)) :
    (Seq.tryPick f src).exec w = some (r, w') ↔
      ∃ n s1 w1, Skips src (fun x v v' => (f x).exec v = some (.ok none, v')) s w0 n s1 w1 ∧
        ((∃ e, (src.next s1).exec w1 = some (.error e, w') ∧ r = .error e) ∨
         ((src.next s1).exec w1 = some (.ok none, w') ∧ r = .ok none) ∨
         (∃ x s2 w2, (src.next s1).exec w1 = some (.ok (some (x, s2)), w2) ∧
           ((∃ e, (f x).exec w2 = some (.error e, w') ∧ r = .error e) ∨
            (∃ y, (f x).exec w2 = some (.ok (some y), w') ∧ r = .ok (some y))))) := by
  have hbody : Seq.tryPick f src = src.forLoop (searchBody f (fun _ => none) (fun _ b => some b)) none := by
    rfl
  have hit : ∀ n, (fun _ : Option β => (none : Option β))^[n] none = none := by
    intro n
    induction n with
    | zero => rfl
    | succ n ih => rw [Function.iterate_succ_apply, ih]
  rw [hbody, forLoop, exec_bind, hs]
  simp only
  rw [search_iff]
  simp only [SearchEnds, hit]

/-! ## loops that never end -/

theorem loop_infinite (f : Nat → α) (body : C → α → PyD σ (Flow C)) (hb : ∀ c x, ∃ c', body c x = pure (.next c')) (s : Nat)
    (c : C) (w : σ) : exec ((Seq.initInfinite (fun i => pure (f i))).loop body s c) w = none := by
  rcases h : exec ((Seq.initInfinite (fun i => pure (f i))).loop body s c) w with _ | r
  · rfl
  · refine absurd h ?_
    intro h
    refine loop_post (Seq.initInfinite (fun i => pure (f i))) body (fun _ _ _ _ => False) ?_ s c w r h
    intro F hF s c w r hr
    simp only [Seq.initInfinite, pure_bind, step_some] at hr
    obtain ⟨c', hc⟩ := hb c (f s)
    rw [hc, pure_bind, cont_next] at hr
    exact hF _ _ _ _ hr

/-! ## loops over lists -/

theorem loop_list_map (g : α → β) (b1 : List β) (b2 xs : List α) (body1 : C → β → PyD σ (Flow C))
    (body2 : C → α → PyD σ (Flow C)) (h : ∀ c x, body1 c (g x) = body2 c x) (c : C) :
    (ofList b1).loop body1 (xs.map g) c = (ofList b2).loop body2 xs c := by
  induction xs generalizing c with
  | nil => rw [List.map_nil, loop_ofList_nil, loop_ofList_nil]
  | cons x xs ih =>
    rw [List.map_cons, loop_ofList_cons, loop_ofList_cons, h]
    refine bind_congr fun fl => ?_
    cases fl with
    | stop c' => rfl
    | next c' => exact ih c'

/-! ## one-shot objects -/

theorem oneShot_next (it : Iterable σ α S) (s : S) (w : σ) :
    ((Seq.oneShot it).next ()).exec (w, some s) = match (it.next s).exec w with
      | none => none
      | some (.error e, w') => some (.error e, (w', none))
      | some (.ok none, w') => some (.ok none, (w', none))
      | some (.ok (some (x, s')), w') => some (.ok (some (x, ())), (w', some s')) := rfl

theorem oneShot_exhausted (it : Iterable σ α S) (w : σ) :
    (Seq.oneShot it).toList.exec (w, none) = some (.ok [], (w, none)) := by
  change (loop (Seq.oneShot it) _ () []).exec (w, none) = _
  rw [loop_eq]
  rfl

theorem oneShot_loop_none (it : Iterable σ α S) (c : List α) (w : σ × Option S) (r : Except PyErr (List α) × (σ × Option S))
    (h : ((Seq.oneShot it).loop (fun acc x => pure (.next (acc ++ [x]))) () c).exec w = some r) : r.2.2 = none := by
  refine loop_post (Seq.oneShot it) (fun acc x => pure (.next (acc ++ [x]))) (fun _ _ _ r => r.2.2 = none) ?_ () c w r h
  intro F hF s c w r hr
  have hnext : ∀ o w', ((Seq.oneShot it).next s).exec w = some (o, w') →
      (∃ x, o = .ok (some x)) ∨ w'.2 = none := by
    intro o w' h
    rcases w with ⟨w, _ | s0⟩
    · cases h; exact .inr rfl
    · rw [oneShot_next] at h
      rcases h' : (it.next s0).exec w with _ | ⟨e | (_ | ⟨x, s'⟩), w2⟩ <;> rw [h'] at h <;> cases h
      · exact .inr rfl
      · exact .inr rfl
      · exact .inl ⟨_, rfl⟩
  rcases exec_bind_some hr with ⟨e, h1, h2⟩ | ⟨o, w1, h1, h2⟩
  · rcases hnext _ _ h1 with ⟨_, h⟩ | h
    · cases h
    · exact h
  · rcases o with _ | ⟨x, s'⟩
    · rcases hnext _ _ h1 with ⟨_, h⟩ | h
      · cases h
      · cases h2; exact h
    · simp only [step_some, pure_bind, cont_next] at h2
      exact hF _ _ _ _ h2

/-! ## folds -/

theorem foldLeftD_append (f : β → α → PyD σ β) (xs ys : List α) (s : β) :
    foldLeftD f s (xs ++ ys) = (foldLeftD f s xs >>= fun s' => foldLeftD f s' ys) := by
  induction xs generalizing s with
  | nil => simp [foldLeftD]
  | cons x xs ih => simp [foldLeftD, ih, bind_assoc]

theorem loop_fold_list (base : List α) (f : β → α → PyD σ β) (xs : List α) (s : β) :
    (ofList base).loop (fun acc x => do pure (.next (← f acc x))) xs s = foldLeftD f s xs := by
  induction xs generalizing s with
  | nil => rw [loop_ofList_nil]; rfl
  | cons x xs ih =>
    rw [loop_ofList_cons]
    simp only [bind_assoc, pure_bind, cont_next, ih, foldLeftD]

theorem fold_list (f : β → α → PyD σ β) (s : β) (xs : List α) : Seq.fold f s (ofList xs) = foldLeftD f s xs := by
  rw [Seq.fold, forLoop]
  exact (pure_bind _ _).trans (loop_fold_list xs f xs s)

theorem foldRight_reverse (f : α → β → PyD σ β) (xs : List α) (s : β) :
    foldLeftD (fun acc y => f y acc) s xs.reverse = foldRight f xs s := by
  induction xs with
  | nil => rfl
  | cons x xs ih => simp [foldLeftD_append, ih, foldLeftD, foldRight]

theorem foldBack_eq (f : α → β → PyD σ β) (src : Iterable σ α S) (s : β) :
    Seq.foldBack f src s = (do let xs ← src.toList; foldRight f xs s) := by
  rw [Seq.foldBack]
  refine bind_congr fun xs => ?_
  rw [← foldRight_reverse, forLoop]
  exact (pure_bind _ _).trans (loop_fold_list xs.reverse (fun acc y => f y acc) xs.reverse s)

theorem toList_loop_list (base xs acc : List α) :
    (ofList base : Iterable σ α _).loop (fun acc x => pure (.next (acc ++ [x]))) xs acc = pure (acc ++ xs) := by
  induction xs generalizing acc with
  | nil => rw [loop_ofList_nil]; simp
  | cons x xs ih =>
    rw [loop_ofList_cons]
    simp only [pure_bind, cont_next, ih]
    simp

theorem toList_ofList (xs : List α) : (ofList xs : Iterable σ α _).toList = pure xs := by
  rw [toList, forLoop]
  refine (pure_bind _ _).trans ?_
  rw [toList_loop_list]; rfl

theorem map_list_pure (g : α → β) (xs : List α) : (Seq.map (fun x => (pure (g x) : PyD σ β)) (ofList xs)).toList =
    pure (xs.map g) := by
  rw [toList, map_forLoop, forLoop]
  refine (pure_bind _ _).trans ?_
  rw [← loop_list_map g (xs.map g) xs xs (fun acc x => pure (.next (acc ++ [x])))]
  · rw [toList_loop_list]; rfl
  · intro c x; rw [mapBody, pure_bind]

/-- the loop of `list(scan(...))` and the loop of a counting `fold` -/
theorem scan_fold_loop (f : γ → α → PyD σ γ) (src : Iterable σ α S) (s : S) (acc : List γ) (z : γ) :
    (fun c : List γ × γ => (c.1.getLast?, c.1.length)) <$>
        src.loop (scanBody f (fun acc x => pure (.next (acc ++ [x])))) s (acc ++ [z], z) =
      (fun t : γ × Nat => (some t.1, t.2)) <$>
        src.loop (fun t x => do pure (.next (← (do pure (← f t.1 x, t.2 + 1))))) s (z, acc.length + 1) := by
  apply Refines.antisymm
  · rw [map_eq_pure_bind]
    refine loop_bind_le src _ (fun i : S × List γ × γ => i.1) (fun i => (i.2.1 ++ [i.2.2], i.2.2))
      (fun _ c => pure (c.1.getLast?, c.1.length))
      (fun i => (fun t : γ × Nat => (some t.1, t.2)) <$>
        src.loop (fun t x => do pure (.next (← (do pure (← f t.1 x, t.2 + 1))))) i.1 (i.2.2, i.2.1.length + 1)) ?_
      (s, acc, z)
    rintro F hF ⟨s, acc, z⟩
    simp only at hF ⊢
    rw [loop_eq, map_bind, bind_assoc]
    refine Refines.bind_right fun o => ?_
    rcases o with _ | ⟨x, s'⟩
    · simp only [step_none, pure_bind, map_pure]
      exact .of_eq (by simp)
    · simp only [step_some, scanBody, bind_assoc, pure_bind, Flow.map, cont_next, map_bind]
      refine Refines.bind_right fun t => ?_
      have := hF (s', acc ++ [z], t)
      simpa using this
  · rw [map_eq_pure_bind]
    refine loop_bind_le src _ (fun i : S × List γ × γ => i.1) (fun i => (i.2.2, i.2.1.length + 1))
      (fun _ t => pure (some t.1, t.2))
      (fun i => (fun c : List γ × γ => (c.1.getLast?, c.1.length)) <$>
        src.loop (scanBody f (fun acc x => pure (.next (acc ++ [x])))) i.1 (i.2.1 ++ [i.2.2], i.2.2)) ?_ (s, acc, z)
    rintro F hF ⟨s, acc, z⟩
    simp only at hF ⊢
    rw [loop_eq, map_bind, bind_assoc]
    refine Refines.bind_right fun o => ?_
    rcases o with _ | ⟨x, s'⟩
    · simp only [step_none, pure_bind, map_pure]
      exact .of_eq (by simp)
    · simp only [step_some, scanBody, bind_assoc, pure_bind, Flow.map, cont_next, map_bind]
      refine Refines.bind_right fun t => ?_
      have := hF (s', acc ++ [z], t)
      simpa using this

theorem fold_pair_loop (f : γ → α → PyD σ γ) (src : Iterable σ α S) (s : S) (z : γ) (n : Nat) :
    Prod.fst <$> src.loop (fun t x => do pure (.next (← (do pure (← f t.1 x, t.2 + 1))))) s (z, n) =
      src.loop (fun t x => do pure (.next (← f t x))) s z := by
  apply Refines.antisymm
  · refine loop_map_le Prod.fst src _ (fun s t => src.loop (fun t x => do pure (.next (← f t x))) s t.1) ?_ s (z, n)
    intro F hF s t
    rw [loop_eq, map_bind]
    refine Refines.bind_right fun o => ?_
    rcases o with _ | ⟨x, s'⟩
    · exact .of_eq (by simp)
    · simp only [step_some, bind_assoc, pure_bind, cont_next, map_bind]
      exact Refines.bind_right fun t' => hF s' (t', _)
  · rw [← bind_pure (src.loop _ s z)]
    refine loop_bind_le src _ (fun i : S × γ × Nat => i.1) (fun i => i.2.1) (fun _ t => pure t)
      (fun i => Prod.fst <$> src.loop (fun t x => do pure (.next (← (do pure (← f t.1 x, t.2 + 1))))) i.1 i.2) ?_
      (s, z, n)
    rintro F hF ⟨s, z, n⟩
    simp only at hF ⊢
    rw [loop_eq, map_bind, bind_assoc]
    refine Refines.bind_right fun o => ?_
    rcases o with _ | ⟨x, s'⟩
    · exact .of_eq (by simp)
    · simp only [step_some, bind_assoc, pure_bind, cont_next, map_bind]
      exact Refines.bind_right fun t' => by simpa only [bind_assoc, pure_bind] using hF (s', t', n + 1)

theorem scan_fold_count (f : γ → α → PyD σ γ) (z : γ) (src : Iterable σ α S) :
    (fun ys : List γ => (ys.getLast?, ys.length)) <$> (Seq.scan f z src).toList =
      (fun t : γ × Nat => (some t.1, t.2)) <$> Seq.fold (fun t x => do pure (← f t.1 x, t.2 + 1)) (z, 1) src := by
  rw [toList, scan_forLoop, Seq.fold, forLoop]
  simp only [pure_bind, map_bind]
  refine bind_congr fun s => ?_
  rw [← comp_map]
  exact scan_fold_loop f src s [] z

theorem scan_fold (f : γ → α → PyD σ γ) (z : γ) (src : Iterable σ α S) :
    List.getLast? <$> (Seq.scan f z src).toList = some <$> Seq.fold f z src := by
  have h := congrArg (Prod.fst <$> ·) (scan_fold_count f z src)
  simp only [← comp_map] at h
  refine h.trans ?_
  have e : (Prod.fst ∘ fun t : γ × Nat => (some t.1, t.2)) = some ∘ Prod.fst := rfl
  rw [e, comp_map]
  congr 1
  simp only [Seq.fold, forLoop, map_bind]
  exact bind_congr fun s => fold_pair_loop f src s z 1

theorem scan_list_loop (base : List α) (f : γ → α → PyD σ γ) (xs : List α) (acc : List γ) (z : γ) :
    Prod.fst <$> (ofList base).loop (scanBody f (fun acc x => pure (.next (acc ++ [x])))) xs (acc ++ [z], z) =
      (fun ys => acc ++ ys) <$> foldStates f z xs := by
  induction xs generalizing acc z with
  | nil => rw [loop_ofList_nil]; simp [foldStates]
  | cons x xs ih =>
    rw [loop_ofList_cons]
    simp only [scanBody, bind_assoc, pure_bind, Flow.map, cont_next, map_bind, foldStates, map_pure]
    refine bind_congr fun t => ?_
    rw [ih]
    simp

theorem scan_list (f : γ → α → PyD σ γ) (z : γ) (xs : List α) :
    (Seq.scan f z (ofList xs)).toList = foldStates f z xs := by
  rw [toList, scan_forLoop]
  refine (pure_bind _ _).trans ?_
  simp only [pure_bind]
  refine (scan_list_loop xs f xs [] z).trans ?_
  simp

end Expression.Lemmas
