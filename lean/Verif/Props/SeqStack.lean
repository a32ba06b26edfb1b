import Verif.Lemmas.SeqStack2

/-!
# C139, C140: sequences on a bounded stack, and how much work it is to iterate over them
-/

namespace Expression.Props

open Expression Spec PyD Lemmas.SeqStack

variable {σ ρ α β γ ε S T C : Type}

/-! ## C139 -/

/-- The full property: there is a stack on which the values of every `effect.seq` block can be listed. -/
def C139_full_statement : Prop :=
  ∃ free, ∀ (α : Type) (S : Type) (g : Gen Unit α Empty S) (ys : List (Obj α)), (echo g).exec () = some (.ok (ys, .returned .none), ()) →
    ∃ p, (SeqBuilder.call g).exec () = some (.ok p, ()) ∧ ((p.frames (pure ()) free).toList).exec () = some (.ok ys, ())

/-- **C139 (never a wrong answer).** However a sequence is made by the functions of the library: a `for` loop over it, with any body, on a stack with
any number of free frames does what it does on an unbounded stack, or raises `RecursionError`. -/
theorem C139_same_or_overflow {S' : Type} {q : FrameSeq σ α S} {it : Iterable σ α S'} (h : SameSeq q it) (free : Nat)
    (body : C → α → PyD σ (Flow C)) (c : C) (w : σ) :
    ((q free).forLoop body c).exec w = (it.forLoop body c).exec w ∨
      ∃ w', ((q free).forLoop body c).exec w = some (.error .recursionError, w') :=
  forLoop_or h free body c w

/-- **C139 (what suffices).** Two frames more than for the parts and for the callbacks suffice for `map`, `collect`, `concat`, `skip` and `take`;
one more for `Seq(xs)` and `unfold`; none more for `filter`, `scan` and `zip`. -/
theorem C139_frames {n m : Nat} {q : FrameSeq σ α S} {it : Iterable σ α S} (h : EnoughForSeq n q it) :
    EnoughForSeq (n + 1) (.seq (pure ()) q) it ∧
    (∀ (F : Nat → α → PyD σ β) f, (∀ free, m ≤ free → F free = f) → EnoughForSeq (max n m + 2) (.map (pure ()) F q) (Seq.map f it)) ∧
    (∀ (ι : Type) (F : Nat → α → PyD σ ι) f (qs : ι → FrameSeq σ β T) (its : ι → Iterable σ β T), (∀ free, m ≤ free → F free = f) →
      (∀ i, EnoughForSeq m (qs i) (its i)) →
      EnoughForSeq (max n m + 2) (.collect (pure ()) (fun free x => do pure (qs (← F free x))) q)
        (Seq.collect (fun x => do pure (its (← f x))) it)) ∧
    (∀ (ι : Type) (qs : ι → FrameSeq σ β T) (its : ι → Iterable σ β T) (is : List ι), (∀ i, EnoughForSeq m (qs i) (its i)) →
      EnoughForSeq (m + 2) (.concat (pure ()) (is.map qs)) (Seq.concat (is.map its))) ∧
    (∀ (F : Nat → α → PyD σ Bool) f, (∀ free, m ≤ free → F free = f) → EnoughForSeq (max n m) (.filter F q) (Seq.filter f it)) ∧
    (∀ (F : Nat → γ → α → PyD σ γ) f c, (∀ free, m ≤ free → F free = f) → EnoughForSeq (max n m) (.scan F c q) (Seq.scan f c it)) ∧
    (∀ (q' : FrameSeq σ β T) it', EnoughForSeq m q' it' → EnoughForSeq (max n m) (.zip q q') (Seq.zip it it')) ∧
    (∀ (F : Nat → S → PyD σ (Option (α × S))) f s, (∀ free, m ≤ free → F free = f) →
      EnoughForSeq (m + 1) (.unfold (pure ()) F s) (Seq.unfold f s)) ∧
    (∀ count, EnoughForSeq (n + 2) (.skip (pure ()) count q) (Seq.skip count it)) ∧
    (∀ count, EnoughForSeq (n + 2) (.take (pure ()) count q) (Seq.take count it)) := by
  refine ⟨seq_enough h, ?_, ?_, ?_, ?_, ?_, ?_, ?_, ?_, ?_⟩
  · intro F f hf
    refine seqGen_enough (n := max n m) fun free hm => ?_
    simp only [h free (by omega), hf free (by omega)]
  · intro ι F f qs its hf hi
    refine seqGen_enough (n := max n m) fun free hm => ?_
    simp only [h free (by omega), hf free (by omega), bind_assoc, pure_bind]
    simp only [show ∀ i, qs i free = its i from fun i => hi i free (by omega)]
  · intro ι qs its is hi
    refine seqGen_enough fun free hm => ?_
    rw [List.map_map]
    congr 1
    exact List.map_congr_left fun i _ => hi i free hm
  · intro F f hf free hm
    simp only [FrameSeq.filter, h free (by omega), hf free (by omega)]
  · intro F f c hf free hm
    simp only [FrameSeq.scan, h free (by omega), hf free (by omega)]
  · intro q' it' h' free hm
    simp only [FrameSeq.zip, h free (by omega), h' free (by omega)]
  · intro F f s hf
    exact seq_enough fun free hm => by simp only [hf free hm]
  · intro count
    exact seqGen_enough fun free hm => by simp only [h free hm]
  · intro count
    unfold FrameSeq.take
    split
    · exact seqGen_enough fun free hm => by simp only [h free hm]
    · have := seq_enough (n := n) (q := fun free => Seq.take count (q free)) (it := Seq.take count it) fun free hm => by simp only [h free hm]
      exact fun free hf => this free (by omega)

/-- **C139 (what suffices, continued).** `delay` needs one frame more than the function and the sequence that it returns, `pairwise` two more than its
source, `init_infinite` one or what the initializer needs. -/
theorem C139_frames_more {n m : Nat} :
    (∀ (ι : Type) (F : Nat → PyD σ ι) f (qs : ι → FrameSeq σ α S) (its : ι → Iterable σ α S), (∀ free, m ≤ free → F free = f) →
      (∀ i, EnoughForSeq n (qs i) (its i)) →
      EnoughForSeq (max n m + 1) (.delay (pure ()) (fun free => do pure (qs (← F free)))) (Seq.delay (do pure (its (← f))))) ∧
    (∀ (q : FrameSeq σ α S) it, EnoughForSeq n q it → EnoughForSeq (n + 2) (.pairwise (pure ()) q) (Seq.pairwise it)) ∧
    (∀ (F : Nat → Nat → PyD σ α) f, (∀ free, m ≤ free → F free = f) → EnoughForSeq (max m 1) (.initInfinite F) (Seq.initInfinite f)) := by
  refine ⟨fun ι F f qs its hF hi => seq_enough fun free hm => ?_, fun q it h free hm => ?_, fun F f hF free hm => ?_⟩
  · simp only [hF free (by omega), bind_assoc, pure_bind, fun i => hi i free (by omega)]
  · match free with
    | 0 => omega
    | 1 => omega
    | free + 2 =>
      simp only [FrameSeq.pairwise, h free (by omega), h (free + 1) (by omega), pure_bind]
  · match free with
    | 0 => omega
    | free + 1 => simp only [FrameSeq.initInfinite, hF (free + 1) (by omega)]

/-- **C139 (what is needed, continued).** If with fewer than `n` frames the first element of a sequence cannot be obtained, then with fewer than `n + 1`
not that of a `delay` that returns it; with fewer than two no iterator of a `pairwise` can be made, and with none none of an `init_infinite`. -/
theorem C139_needs_more {n : Nat} {q : FrameSeq σ α S} (h : ∀ free, free < n → NoFirst (q free)) :
    (∀ free, free < n + 1 → NoFirst (FrameSeq.delay (pure ()) (fun _ => pure q) free)) ∧
    (∀ free, free < 2 → ∀ w, ((FrameSeq.pairwise (pure ()) q free).iter).exec w = some (.error .recursionError, w)) ∧
    (∀ F : Nat → Nat → PyD σ α, NoFirst (FrameSeq.initInfinite F 0)) := by
  refine ⟨fun free hf w => ?_, fun free hf w => ?_, fun F w => rfl⟩
  · match free with
    | 0 => rfl
    | free + 1 =>
      show exec ((Seq.delay (pure q >>= fun xs => pure (xs free))).iter >>= (Seq.delay (pure q >>= fun xs => pure (xs free))).next) w = _
      simp only [Seq.delay, pure_bind, bind_assoc]
      rw [← bind_assoc, exec_bind, h free (by omega) w]
  · match free with
    | 0 => rfl
    | 1 => rfl

/-- **C139 (what is needed).** If with fewer than `n` frames not even the first element of a sequence can be obtained, then with fewer than `n + 2` not
the first of what `map`, `skip` or `take` make of it or of a `concat` that begins with it, and with fewer than `n + 1` not that of `Seq(xs)`. -/
theorem C139_needs {n : Nat} {q : FrameSeq σ α S} (h : ∀ free, free < n → NoFirst (q free)) :
    (∀ free, free < n + 1 → NoFirst (FrameSeq.seq (pure ()) q free)) ∧
    (∀ (F : Nat → α → PyD σ β) free, free < n + 2 → NoFirst (FrameSeq.map (pure ()) F q free)) ∧
    (∀ count free, free < n + 2 → NoFirst (FrameSeq.skip (pure ()) count q free)) ∧
    (∀ count free, 0 < count → free < n + 2 → NoFirst (FrameSeq.take (pure ()) count q free)) ∧
    (∀ qs free, free < n + 2 → NoFirst (FrameSeq.concat (pure ()) (q :: qs) free)) := by
  have hs : ∀ {T β : Type} (b : FrameSeq σ β T), (∀ free, free < n → NoFirst (b free)) →
      ∀ free, free < n + 1 → NoFirst (FrameSeq.generator (pure ()) b free) := by
    intro T β b hb free hf
    match free with
    | 0 => exact fun _ => rfl
    | free + 1 => exact hb free (by omega)
  have hg : ∀ {T β : Type} (b : FrameSeq σ β T), (∀ free, free < n → NoFirst (b free)) →
      ∀ free, free < n + 2 → NoFirst (FrameSeq.seqGen (pure ()) b free) := by
    intro T β b hb free hf
    match free with
    | 0 => exact fun _ => rfl
    | 1 => exact fun _ => rfl
    | free + 2 => exact hb free (by omega)
  have hb : ∀ {T : Type} (it : Iterable σ α S) (k : Option (α × S) → PyD σ T), NoFirst it → ∀ w,
      exec (it.iter >>= fun s => it.next s >>= k) w = some (.error .recursionError, w) := by
    intro T it k hi w
    have hi := hi w
    rw [← bind_assoc, exec_bind, hi]
  refine ⟨hs q h, ?_, ?_, ?_, ?_⟩
  · intro F
    exact hg _ fun free hf => fun w => hb (q free) _ (h free hf) w
  · intro count
    refine hg _ fun free hf => fun w => ?_
    simp only [Seq.skip, pure_bind]
    have := fun s : S => Seq.skipNext.eq_1 count (q free) (s, 0)
    simp only [this]
    exact hb (q free) _ (h free hf) w
  · intro count free hc
    rw [FrameSeq.take, if_pos hc]
    refine hg _ (fun free hf => fun w => ?_) free
    simp only [Seq.take, if_pos hc, Seq.takeGen, pure_bind]
    exact hb (q free) _ (h free hf) w
  · intro qs
    refine hg _ fun free hf => fun w => ?_
    simp only [Seq.concat, Seq.collect, pure_bind, List.map_cons]
    rw [cn_fresh, Seq.collectNext.eq_def]
    simp only [Iterable.ofList, pure_bind]
    have := fun t : S => Seq.collectNext.eq_def (fun it => (pure it : PyD σ (Iterable σ α S)))
      (Iterable.ofList (q free :: List.map (fun q => q free) qs)) (.inner (List.map (fun q => q free) qs) (q free) t)
    simp only [Iterable.ofList] at this
    simp only [this]
    exact hb (q free) _ (h free hf) w

/-- **C139 (`effect.seq`).** If a block yields the values `ys` and returns `v`, then calling it gives an object; listing that object gives all the
values, if `2 n - 1` frames are free where `n` is their number (one frame if there are none), and raises `RecursionError` otherwise. -/
theorem C139_effect_seq_partial (g : Gen σ α ε S) (w w' : σ) (ys zs : List (Obj α)) (v : Obj α)
    (hz : zs = match v with | .none => ys | .val _ => ys ++ [v]) (h : (echo g).exec w = some (.ok (ys, .returned v), w')) :
    ∃ p, (SeqBuilder.call g).exec w = some (.ok p, w') ∧ ∀ free (w1 : ρ),
      (max 1 (2 * zs.length - 1) ≤ free → ((p.frames (pure ()) free).toList).exec w1 = some (.ok zs, w1)) ∧
      (free < max 1 (2 * zs.length - 1) → ((p.frames (pure ()) free).toList).exec w1 = some (.error .recursionError, w1)) := by
  have hz' : zs = ys ++ returnedValues v := by
    subst hz
    cases v <;> simp [returnedValues]
  refine ⟨objectOf zs, hz' ▸ call_object h, fun free w1 => ⟨fun hf => ?_, fun hf => fails_toList (object_fails zs free hf) w1⟩⟩
  obtain ⟨s, hi, hr⟩ := object_gives (ε := ε) (id : ρ → ρ) zs free hf
  have := toList_of hi hr w1
  rw [Function.iterate_id] at this
  exact this

/-- **C139 (no stack is large enough).** Whatever the number of frames: there is an `effect.seq` block that just yields some values and whose result
cannot be listed; not even its first value can be obtained. -/
theorem C139_no_stack (free : Nat) : ∃ n, ∃ ys : List (Obj Nat), ys.length = n ∧
    (echo (countdown n)).exec () = some (.ok (ys, .returned .none), ()) ∧
    ∃ p, (SeqBuilder.call (countdown n)).exec () = some (.ok p, ()) ∧
      ((p.frames (pure ()) free).toList).exec () = some (.error .recursionError, ()) ∧
      ∃ w', (Seq.head (p.frames (pure ()) free)).exec () = some (.error .recursionError, w') := by
  obtain ⟨ys, h1, h2⟩ := countdown_echo (free + 2) (free + 2) .none []
  simp only [List.length_nil, Nat.zero_add] at h1
  have hc := call_object (show (echo (countdown (free + 2))).exec () = _ from h2)
  simp only [returnedValues, List.append_nil] at hc
  have hf := object_fails (σ := Unit) (ε := Empty) ys free (by rw [h1]; omega)
  refine ⟨free + 2, ys, h1, h2, _, hc, fails_toList hf (), (), ?_⟩
  have hf := hf ()
  rw [Seq.head, exec_bind, Iterable.forLoop]
  rw [exec_bind] at hf ⊢
  rcases hx : ((objectOf (ε := Empty) ys).frames (pure ()) free).iter.exec () with _ | ⟨e | s, w1⟩ <;> rw [hx] at hf
  · cases hf
  · cases hf; rfl
  · simp only at hf ⊢
    rw [Iterable.loop_eq, exec_bind, hf]

/-- **C139.** The full property fails. -/
theorem C139_full_statement_false : ¬ C139_full_statement := by
  rintro ⟨free, h⟩
  obtain ⟨n, ys, -, he, p, hc, ho, -⟩ := C139_no_stack free
  obtain ⟨p', hc', hl⟩ := h Nat Nat (countdown n) ys he
  rw [hc] at hc'
  cases hc'
  rw [ho] at hl
  cases hl

/-- C139 is not vacuous: `Seq([1, 2]).append(Seq([3])).map(f)` -/
example (f : Nat → PyD σ Nat) : SameSeq
    (.map (pure ()) (fun _ => f) (.concat (pure ()) [.seq (pure ()) (.ofList [1, 2]), .seq (pure ()) (.ofList [3])]))
    (Seq.map f (Seq.concat [.ofList [1, 2], .ofList [3]])) := by
  have h := SameSeq.concat (σ := σ) (qs := fun xs : List Nat => .seq (pure ()) (.ofList xs)) (its := fun xs => .ofList xs)
    (fun xs => .seq (.ofList xs)) [[1, 2], [3]]
  exact SameSeq.map (F := fun _ => f) (f := f) (fun _ _ _ => .inl rfl) h

/-- that needs five frames -/
example (f : Nat → PyD σ Nat) : EnoughForSeq 5
    (.map (pure ()) (fun _ => f) (.concat (pure ()) [.seq (pure ()) (.ofList [1, 2]), .seq (pure ()) (.ofList [3])]))
    (Seq.map f (Seq.concat [.ofList [1, 2], .ofList [3]])) ∧ ∀ free, free < 5 → NoFirst
    ((FrameSeq.map (pure ()) (fun _ => f) (.concat (pure ()) [.seq (pure ()) (.ofList [1, 2]), .seq (pure ()) (.ofList [3])])) free) := by
  have h0 : ∀ xs : List Nat, EnoughForSeq (σ := σ) 0 (.ofList xs) (.ofList xs) := fun _ _ _ => rfl
  have h1 := (C139_frames (T := List Nat) (β := Nat) (γ := Nat) (m := 1) (h0 [])).2.2.2.1 _ (fun xs => .seq (pure ()) (.ofList xs)) (fun xs => .ofList xs) [[1, 2], [3]]
    (fun xs => (C139_frames (T := Nat) (β := Nat) (γ := Nat) (m := 0) (h0 xs)).1)
  have n0 : ∀ free, free < 0 → NoFirst ((FrameSeq.ofList [1, 2] : FrameSeq σ Nat (List Nat)) free) := fun _ h => absurd h (Nat.not_lt_zero _)
  have n1 := (C139_needs (β := Nat) n0).1
  have n2 := (C139_needs (β := Nat) n1).2.2.2.2 [.seq (pure ()) (.ofList [3])]
  exact ⟨(C139_frames (T := Nat) (γ := Nat) (m := 0) h1).2.1 (fun _ => f) f (fun _ _ => rfl), (C139_needs n2).2.1 (fun _ => f)⟩

/-- `pairwise(delay(lambda: Seq([1, 2, 3])))`: the same or an overflow; four frames suffice, and with one no iterator can be made -/
example : SameSeq (σ := σ) (.pairwise (pure ()) (.delay (pure ()) (fun _ => do pure (FrameSeq.seq (pure ()) (.ofList (← pure [1, 2, 3]))))))
      (Seq.pairwise (Seq.delay (do pure (.ofList (← pure [1, 2, 3]))))) ∧
    EnoughForSeq (σ := σ) 4 (.pairwise (pure ()) (.delay (pure ()) (fun _ => do pure (FrameSeq.seq (pure ()) (.ofList (← pure [1, 2, 3]))))))
      (Seq.pairwise (Seq.delay (do pure (.ofList (← pure [1, 2, 3]))))) := by
  refine ⟨.pairwise (.delay (F := fun _ => pure [1, 2, 3]) (f := pure [1, 2, 3]) (fun _ _ => .inl rfl) (qs := fun xs => .seq (pure ()) (.ofList xs))
    (its := fun xs => .ofList xs) fun xs => .seq (.ofList xs)), ?_⟩
  refine (C139_frames_more (n := 2) (m := 0)).2.1 _ _ ?_
  exact (C139_frames_more (n := 1) (m := 0)).1 (List Nat) (fun _ => pure [1, 2, 3]) (pure [1, 2, 3]) (fun xs => .seq (pure ()) (.ofList xs))
    (fun xs => .ofList xs) (fun _ _ => rfl) fun xs => (C139_frames (T := Nat) (β := Nat) (γ := Nat) (n := 0) (m := 0) (fun _ _ => rfl)).1

/-- a block that yields 2, 1 and 0: five frames are needed -/
example : ∃ p, (SeqBuilder.call (countdown 3)).exec () = some (.ok p, ()) ∧
    ((p.frames (σ := Unit) (pure ()) 5).toList).exec () = some (.ok [.val 2, .val 1, .val 0], ()) ∧
    ((p.frames (σ := Unit) (pure ()) 4).toList).exec () = some (.error .recursionError, ()) := by
  have he : (echo (countdown 3)).exec () = some (.ok ([.val 2, .val 1, .val 0], .returned .none), ()) := by
    rw [echo, Lemmas.echoFrom_yield _ rfl, Lemmas.echoFrom_yield _ rfl, Lemmas.echoFrom_yield _ rfl, Lemmas.echoFrom_returned _ rfl]
    rfl
  obtain ⟨p, hp, h⟩ := C139_effect_seq_partial (ρ := Unit) (countdown 3) _ _ _ [.val 2, .val 1, .val 0] .none rfl he
  exact ⟨p, hp, (h 5 ()).1 (by decide), (h 4 ()).2 (by decide)⟩

/-! ## C140 -/

/-- The full property: listing the values of an `effect.seq` block takes time linear in their number. -/
def C140_full_statement : Prop :=
  ∃ c, ∀ (α : Type) (S : Type) (g : Gen Unit α Empty S) (ys : List (Obj α)), (echo g).exec () = some (.ok (ys, .returned .none), ()) →
    ∃ p, (SeqBuilder.call g).exec () = some (.ok p, ()) ∧ ∀ free k, ((p.frames resumed free).toList).exec 0 = some (.ok ys, k) →
      k ≤ c * ys.length + c

/-- **C140.** Listing the `n` values (one or more) of an `effect.seq` block resumes generators exactly `n² + 3 n - 2` times. -/
theorem C140_effect_seq_partial (g : Gen σ α ε S) (w w' : σ) (ys zs : List (Obj α)) (v : Obj α)
    (hz : zs = match v with | .none => ys | .val _ => ys ++ [v]) (h : (echo g).exec w = some (.ok (ys, .returned v), w')) (hne : zs ≠ []) :
    ∃ p, (SeqBuilder.call g).exec w = some (.ok p, w') ∧ ∀ free start, 2 * zs.length ≤ free + 1 →
      ((p.frames resumed free).toList).exec start = some (.ok zs, start + (zs.length * zs.length + 3 * zs.length - 2)) := by
  have hz' : zs = ys ++ returnedValues v := by
    subst hz
    cases v <;> simp [returnedValues]
  refine ⟨objectOf zs, hz' ▸ call_object h, fun free start hf => ?_⟩
  have hl : zs.length ≠ 0 := by simpa using hne
  obtain ⟨s, hi, hr⟩ := object_gives (ε := ε) Nat.succ zs free (by omega)
  have := toList_of hi hr start
  rw [succ_times, if_neg hne] at this
  exact this

/-- **C140.** The full property fails: the work is quadratic. -/
theorem C140_full_statement_false : ¬ C140_full_statement := by
  rintro ⟨c, h⟩
  obtain ⟨ys, h1, h2⟩ := countdown_echo (c + 1) (c + 1) .none []
  simp only [List.length_nil, Nat.zero_add] at h1
  obtain ⟨p, hc, hk⟩ := h Nat Nat (countdown (c + 1)) ys h2
  obtain ⟨p', hc', hb⟩ := C140_effect_seq_partial _ _ _ _ ys .none rfl h2 (by rintro rfl; simp at h1)
  rw [hc] at hc'
  cases hc'
  have hk := hk _ _ (hb (2 * ys.length) 0 (by omega))
  rw [h1] at hk
  have e : (c + 1) * (c + 1) = c * (c + 1) + (c + 1) := by ring
  omega

/-- C140 is not vacuous: three values take sixteen resumptions -/
example : ∃ p, (SeqBuilder.call (countdown 3)).exec () = some (.ok p, ()) ∧
    ((p.frames resumed 5).toList).exec 0 = some (.ok [.val 2, .val 1, .val 0], 16) := by
  have he : (echo (countdown 3)).exec () = some (.ok ([.val 2, .val 1, .val 0], .returned .none), ()) := by
    rw [echo, Lemmas.echoFrom_yield _ rfl, Lemmas.echoFrom_yield _ rfl, Lemmas.echoFrom_yield _ rfl, Lemmas.echoFrom_returned _ rfl]
    rfl
  obtain ⟨p, hp, h⟩ := C140_effect_seq_partial (countdown 3) _ _ _ [.val 2, .val 1, .val 0] .none rfl he (by simp)
  exact ⟨p, hp, h 5 0 (by decide)⟩

end Expression.Props
