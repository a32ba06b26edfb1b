import Verif.Lemmas.AsyncStack
import Verif.Lemmas.AsyncSeq2
import Verif.Lemmas.SeqStack2

/-!
# C154, C155: asynchronous sequences on a bounded stack, and how much work it is to iterate over them
-/

namespace Expression.Props

open Expression Spec PyD Lemmas.SeqStack Lemmas.AsyncStack

variable {σ α β γ S T C : Type}

/-- **C154 (never a wrong answer).** However an asynchronous sequence is made by the functions of the library: an `async for` loop over it, with any
body, on a stack with any number of free frames does what it does on an unbounded stack, or raises `RecursionError`. -/
theorem C154_same_or_overflow {S' : Type} {q : FrameSeq σ α S} {it : Iterable σ α S'} (h : SameAsync q it) (free : Nat)
    (body : C → α → PyD σ (Flow C)) (c : C) (w : σ) :
    ((q free).forLoop body c).exec w = (it.forLoop body c).exec w ∨
      ∃ w', ((q free).forLoop body c).exec w = some (.error .recursionError, w') :=
  forLoop_same (same_of h) free body c w

/-- **C154 (what suffices).** To make an iterator of what the functions return takes no frame; to obtain its elements takes one frame more than to make
the iterators of the parts, to obtain their elements and to call the callbacks.  `AsyncSeq(xs)` takes one frame more to make the iterator, and none more
later. -/
theorem C154_frames {a n m : Nat} {q : FrameSeq σ α S} {it : Iterable σ α S} (h : EnoughForAsync a n q it) :
    EnoughForAsync (a + 1) n (FrameAsync.asyncSeq q) it ∧
    (∀ (F : Nat → α → PyD σ β) f, (∀ free, m ≤ free → F free = f) →
      EnoughForAsync 0 (max (max a n) m + 1) (FrameAsync.map F q) (AsyncSeq.map f it)) ∧
    (∀ (F : Nat → α → PyD σ Bool) f, (∀ free, m ≤ free → F free = f) →
      EnoughForAsync 0 (max (max a n) m + 1) (FrameAsync.filter F q) (AsyncSeq.filter f it)) ∧
    (∀ (F : Nat → α → PyD σ (Option β)) f, (∀ free, m ≤ free → F free = f) →
      EnoughForAsync 0 (max (max a n) (max m 1) + 1) (FrameAsync.choose F q) (AsyncSeq.choose f it)) ∧
    (∀ (ι : Type) (F : Nat → α → PyD σ ι) f (qs : ι → FrameSeq σ β T) (its : ι → Iterable σ β T), (∀ free, m ≤ free → F free = f) →
      (∀ i, EnoughForAsync m m (qs i) (its i)) →
      EnoughForAsync 0 (max (max a n) m + 1) (FrameAsync.collect (fun free x => do pure (qs (← F free x))) q)
        (AsyncSeq.collect (fun x => do pure (its (← f x))) it)) ∧
    (∀ (F : Nat → γ → α → PyD σ γ) f c, (∀ free, m ≤ free → F free = f) →
      EnoughForAsync 0 (max (max a n) m + 1) (FrameAsync.scan F c q) (AsyncSeq.scan f c it)) ∧
    (∀ (q' : FrameSeq σ α T) it', EnoughForAsync m m q' it' →
      EnoughForAsync 0 (max (max a n) m + 1) (FrameAsync.append q' q) (AsyncSeq.append it' it)) ∧
    (∀ count, EnoughForAsync 0 (max a n + 1) (FrameAsync.take count q) (AsyncSeq.take count it)) ∧
    (∀ count, EnoughForAsync 0 (max a n + 1) (FrameAsync.skip count q) (AsyncSeq.skip count it)) ∧
    EnoughForAsync 0 (max a n + 1) (FrameAsync.tail q) (AsyncSeq.tail it) := by
  refine ⟨⟨fun free hf => ?_, h.anext⟩, ?_, ?_, ?_, ?_, ?_, ?_, ?_, ?_, ?_⟩
  · match free with
    | 0 => omega
    | free + 1 => exact h.aiter free (by omega)
  · exact fun F f hF => generator_enough (fun _ => rfl) fun free hf => by rw [hF free (by omega), h.eq (free := free) (by omega) (by omega)]
  · exact fun F f hF => generator_enough (fun _ => rfl) fun free hf => by rw [hF free (by omega), h.eq (free := free) (by omega) (by omega)]
  · exact fun F f hF => generator_enough (fun _ => rfl) fun free hf => by
      simp only [hF free (by omega), h.eq (free := free) (by omega) (by omega), returns_eq free (by omega), bind_pure]
  · refine fun ι F f qs its hF hi => generator_enough (fun _ => rfl) fun free hf => ?_
    simp only [hF free (by omega), h.eq (free := free) (by omega) (by omega), bind_assoc, pure_bind,
      fun i => (hi i).eq (free := free) (by omega) (by omega)]
  · exact fun F f c hF => generator_enough (fun _ => rfl) fun free hf => by rw [hF free (by omega), h.eq (free := free) (by omega) (by omega)]
  · exact fun q' it' h' => generator_enough (fun _ => rfl) fun free hf => by
      rw [h'.eq (free := free) (by omega) (by omega), h.eq (free := free) (by omega) (by omega)]
  · exact fun count => generator_enough (fun _ => rfl) fun free hf => by rw [h.eq (free := free) (by omega) (by omega)]
  · exact fun count => generator_enough (fun _ => rfl) fun free hf => by rw [h.eq (free := free) (by omega) (by omega)]
  · exact generator_enough (fun _ => rfl) fun free hf => by rw [h.eq (free := free) (by omega) (by omega)]

/-- **C154 (what suffices, sources).** `range` and `repeat` take one frame. -/
theorem C154_sources (start stop step : Int) (v : α) (times : Option Int) :
    EnoughForAsync (σ := σ) 0 1 (FrameAsync.range start stop step) (AsyncSeq.range start stop step) ∧
    EnoughForAsync (σ := σ) 0 1 (FrameAsync.repeat v times) (AsyncSeq.repeat v times) ∧
    NoFirst (FrameAsync.range (σ := σ) start stop step 0) ∧ NoFirst (FrameAsync.repeat (σ := σ) v times 0) :=
  ⟨generator_enough (fun _ => rfl) fun _ _ => rfl, generator_enough (fun _ => rfl) fun _ _ => rfl, fun _ => rfl, fun _ => rfl⟩

/-- **C154 (enough for a loop).** With enough frames a loop does what it does on an unbounded stack. -/
theorem C154_loop {a n free : Nat} {q : FrameSeq σ α S} {it : Iterable σ α S} (h : EnoughForAsync a n q it) (hf : max a n ≤ free)
    (body : C → α → PyD σ (Flow C)) (c : C) : (q free).forLoop body c = it.forLoop body c := by
  rw [h.eq (free := free) (by omega) (by omega)]

/-- **C154 (what is needed).** If with fewer than `n` frames not even the first element of a sequence can be obtained, then with fewer than `n + 1` not
the first of what `map`, `filter`, `choose`, `collect`, `take`, `skip`, `tail` or `append` make of it.  (The first element of a `scan` is its initial
state, for which the source is not asked: that takes one frame.)  Without a free frame there is no iterator of `AsyncSeq(xs)`. -/
theorem C154_needs {n : Nat} {q : FrameSeq σ α S} (h : ∀ free, free < n → NoFirst (q free)) :
    (∀ (F : Nat → α → PyD σ β) free, free < n + 1 → NoFirst (FrameAsync.map F q free)) ∧
    (∀ (F : Nat → α → PyD σ Bool) free, free < n + 1 → NoFirst (FrameAsync.filter F q free)) ∧
    (∀ (F : Nat → α → PyD σ (Option β)) free, free < n + 1 → NoFirst (FrameAsync.choose F q free)) ∧
    (∀ (F : Nat → α → PyD σ (FrameSeq σ β T)) free, free < n + 1 → NoFirst (FrameAsync.collect F q free)) ∧
    (∀ count free, free < n + 1 → NoFirst (FrameAsync.take count q free)) ∧
    (∀ count free, free < n + 1 → NoFirst (FrameAsync.skip count q free)) ∧
    (∀ free, free < n + 1 → NoFirst (FrameAsync.tail q free)) ∧
    (∀ (q' : FrameSeq σ α T) free, free < n + 1 → NoFirst (FrameAsync.append q' q free)) ∧
    (∀ (F : Nat → γ → α → PyD σ γ) c, NoFirst (FrameAsync.scan F c q 0)) ∧
    (∀ w, ((FrameAsync.asyncSeq q 0).iter).exec w = some (.error .recursionError, w)) := by
  have hb : ∀ {T : Type} (it : Iterable σ α S) (k : Option (α × S) → PyD σ T), NoFirst it → ∀ w,
      exec (it.iter >>= fun s => it.next s >>= k) w = some (.error .recursionError, w) := by
    intro T it k hi w
    have hi := hi w
    rw [← bind_assoc, exec_bind, hi]
  have hg : ∀ {C β : Type} (c : C) (B : Nat → C → α → PyD σ (AsyncSeq.Act C β)) free, free < n + 1 →
      NoFirst (FrameAsync.generator (fun free => AsyncSeq.generator c (B free) (q free)) free) := by
    intro C β c B free hf w
    match free with
    | 0 => rfl
    | free + 1 =>
      show exec (pure none >>= AsyncSeq.resume c (B free) (q free)) w = _
      rw [pure_bind, AsyncSeq.resume]
      have := fun s : S => AsyncSeq.loopNext.eq_1 (B free) (q free) (s, c)
      simp only [this, bind_assoc]
      exact hb (q free) _ (h free (by omega)) w
  refine ⟨fun F => hg () _, fun F => hg () _, fun F => hg () _, fun F free hf w => ?_, fun count => hg 0 _, fun count => hg 0 _, hg true _,
    fun q' free hf w => ?_, fun F c w => rfl, fun w => rfl⟩
  · match free with
    | 0 => rfl
    | free + 1 =>
      show exec (pure .fresh >>= Seq.collectNext _ (q free)) w = _
      rw [pure_bind, Seq.collectNext.eq_def]
      have := fun s : S => Seq.collectNext.eq_def (fun x => F free x >>= fun xs => pure (xs free)) (q free) (.outer s)
      simp only [this]
      exact hb (q free) _ (h free (by omega)) w
  · match free with
    | 0 => rfl
    | free + 1 =>
      show exec (pure .fresh >>= (AsyncSeq.append (q' free) (q free)).next) w = _
      rw [pure_bind]
      exact hb (q free) _ (h free (by omega)) w

/-- **C154 (appending one at a time).** A sequence of values that was made by appending them one at a time can be listed on a stack with as many free
frames as there are values; with fewer, listing it raises `RecursionError`. -/
theorem C154_grown (v : α) (xs : List α) (free : Nat) (w : σ) :
    (xs.length + 1 ≤ free → (((grown v xs).seq free).toList).exec w = some (.ok (v :: xs), w)) ∧
    (free < xs.length + 1 → (((grown v xs).seq free).toList).exec w = some (.error .recursionError, w)) := by
  obtain ⟨it, h1, h2, h3⟩ : ∃ it : Iterable σ α (grown (σ := σ) v xs).State, EnoughForAsync 0 (xs.length + 1) (grown v xs).seq it ∧
      it.toList = pure (v :: xs) ∧ ∀ free, free < xs.length + 1 → NoFirst ((grown (σ := σ) v xs).seq free) := by
    have hr : ∀ x : α, (AsyncSeq.repeat x (some 1) : Iterable σ α _).toList = pure [x] := fun x => Lemmas.toList_ofList [x]
    obtain ⟨ys, rfl⟩ : ∃ ys : List α, xs = ys.reverse := ⟨xs.reverse, by simp⟩
    induction ys with
    | nil =>
      refine ⟨AsyncSeq.repeat v (some 1), (C154_sources 0 0 1 v (some 1)).2.1, hr v, fun free hf => ?_⟩
      obtain rfl : free = 0 := by simpa using hf
      exact (C154_sources 0 0 1 v (some 1)).2.2.2
    | cons x ys ih =>
      obtain ⟨it, h1, h2, h3⟩ := ih
      rw [List.reverse_cons]
      generalize ys.reverse = xs at *
      have hx : grown (σ := σ) v (xs ++ [x]) = ⟨_, FrameAsync.append (FrameAsync.repeat x (some 1)) (grown v xs).seq⟩ := by
        simp only [grown, List.foldl_append, List.foldl_cons, List.foldl_nil]
      rw [hx, List.length_append, List.length_singleton]
      have hs := (C154_sources (σ := σ) 0 0 1 x (some 1)).2.1
      refine ⟨AsyncSeq.append (AsyncSeq.repeat x (some 1)) it, ?_, ?_, ?_⟩
      · have := (C154_frames (β := α) (γ := α) (m := 1) h1).2.2.2.2.2.2.1 _ _ (⟨fun free _ => hs.aiter free (by omega), hs.anext⟩)
        have e : max (max 0 (xs.length + 1)) 1 + 1 = xs.length + 1 + 1 := by omega
        rwa [e] at this
      · rw [Lemmas.append_toList, h2, hr, pure_bind, pure_bind]; rfl
      · exact (C154_needs (β := α) (T := List α) (γ := α) h3).2.2.2.2.2.2.2.1 _
  refine ⟨fun hf => ?_, fun hf => ?_⟩
  · rw [h1.eq (free := free) (by omega) hf, h2]; rfl
  · exact fails_toList (h3 free hf) w

/-- **C154 (what is needed, `AsyncSeq`).** If making the iterator takes no frames, as with all the generators of the library, and with fewer than `n`
frames the first element cannot be obtained, then it cannot through `AsyncSeq(xs)`. -/
theorem C154_needs_wrapped {n : Nat} {q : FrameSeq σ α S} (hi : ∀ free free', (q free).iter = (q free').iter)
    (h : ∀ free, free < n → NoFirst (q free)) (free : Nat) (hf : free < n) : NoFirst (FrameAsync.asyncSeq q free) := by
  match free with
  | 0 => exact fun w => rfl
  | free + 1 =>
    intro w
    have := h (free + 1) hf w
    rw [hi (free + 1) free] at this
    exact this

/-- **C154 (mapping many times).** A range to which `n` functions are mapped, one after the other, can be listed through `AsyncSeq` if `n + 1` frames
are free: the elements are those of the range with the functions applied in that order.  With fewer frames `RecursionError` is raised. -/
theorem C154_mapped (start stop step : Int) (hs : step ≠ 0) : ∃ ys, RangeElements start stop step ys ∧
    ∀ (gs : List (Int → Int)) (free : Nat) (w : σ),
      (gs.length + 1 ≤ free → ((FrameAsync.asyncSeq (mapped start stop step gs).seq free).toList).exec w =
        some (.ok (ys.map (fun y => gs.foldl (fun y g => g y) y)), w)) ∧
      (free < gs.length + 1 → ((FrameAsync.asyncSeq (mapped start stop step gs).seq free).toList).exec w =
        some (.error .recursionError, w)) := by
  obtain ⟨ys, hy, hr⟩ := Lemmas.range_elements start stop step hs
  refine ⟨ys, hr, fun gs free w => ?_⟩
  obtain ⟨it, h1, h2, h3⟩ : ∃ it : Iterable σ Int (mapped (σ := σ) start stop step gs).State,
      EnoughForAsync 0 (gs.length + 1) (mapped start stop step gs).seq it ∧
      it.toList = pure (ys.map (fun y => gs.foldl (fun y g => g y) y)) ∧
      ∀ free, free < gs.length + 1 → NoFirst ((mapped (σ := σ) start stop step gs).seq free) := by
    obtain ⟨hs, rfl⟩ : ∃ hs : List (Int → Int), gs = hs.reverse := ⟨gs.reverse, by simp⟩
    induction hs with
    | nil =>
      refine ⟨AsyncSeq.range start stop step, (C154_sources start stop step () none).1, ?_, fun free hf => ?_⟩
      · have h := Lemmas.arange_forLoop start stop step (fun (acc : List Int) x => (pure (.next (acc ++ [x])) : PyD σ _)) []
        rw [hy] at h
        refine Eq.trans h (Eq.trans (Lemmas.toList_ofList ys) ?_)
        simp
      · obtain rfl : free = 0 := by simpa using hf
        exact (C154_sources start stop step () none).2.2.1
    | cons g hs ih =>
      obtain ⟨it, h1, h2, h3⟩ := ih
      rw [List.reverse_cons]
      generalize hs.reverse = gs at *
      have hx : mapped (σ := σ) start stop step (gs ++ [g]) = ⟨_, FrameAsync.map (fun _ x => pure (g x)) (mapped start stop step gs).seq⟩ := by
        simp only [mapped, List.foldl_append, List.foldl_cons, List.foldl_nil]
      rw [hx, List.length_append, List.length_singleton]
      refine ⟨AsyncSeq.map (fun x => pure (g x)) it, ?_, ?_, ?_⟩
      · have := (C154_frames (β := Int) (γ := Int) (T := Int) (m := 0) h1).2.1 (fun _ x => pure (g x)) (fun x => pure (g x)) (fun _ _ => rfl)
        have e : max (max 0 (gs.length + 1)) 0 + 1 = gs.length + 1 + 1 := by omega
        rwa [e] at this
      · rw [Lemmas.amap_toList, h2, map_pure, List.map_map]
        simp only [List.foldl_append, List.foldl_cons, List.foldl_nil]
        rfl
      · exact (C154_needs (β := Int) (T := Int) (γ := Int) h3).1 _
  refine ⟨fun hf => ?_, fun hf => ?_⟩
  · have hw := (C154_frames (β := Int) (γ := Int) (T := Int) (m := 0) h1).1
    rw [hw.eq (free := free) (by omega) hf, h2]; rfl
  · exact fails_toList (C154_needs_wrapped (fun free free' => by rw [h1.aiter free (Nat.zero_le _), h1.aiter free' (Nat.zero_le _)]) h3 free hf) w

/-- **C154 (functions that run through a sequence).** `fold`, `fold_back`, `head`, `length`, `sum` and `max` (`min`) do on a stack with any number of free
frames what they do on an unbounded stack, or raise `RecursionError`. -/
theorem C154_consumers {S' : Type} {q : FrameSeq σ α S} {it : Iterable σ α S'} (h : SameAsync q it) (free : Nat) :
    (∀ (F : Nat → β → α → PyD σ β) f s, (∀ free c x, OrRecursionError (F free c x) (f c x)) →
      OrRecursionError (FrameAsync.fold F s q free) (AsyncSeq.fold f s it)) ∧
    (∀ (F : Nat → α → β → PyD σ β) f s, (∀ free x c, OrRecursionError (F free x c) (f x c)) →
      OrRecursionError (FrameAsync.foldBack F s q free) (AsyncSeq.foldBack f s it)) ∧
    OrRecursionError (FrameAsync.head q free) (AsyncSeq.head it) ∧
    OrRecursionError (FrameAsync.length q free) (AsyncSeq.length it) ∧
    (∀ (F : Nat → α → α → PyD σ α) f z, (∀ free x y, OrRecursionError (F free x y) (f x y)) →
      OrRecursionError (FrameAsync.sum F z q free) (AsyncSeq.sum f z it)) ∧
    (∀ gt, OrRecursionError (FrameAsync.max gt q free) (AsyncSeq.max gt it)) := by
  obtain ⟨R, h⟩ := same_of h
  have hl : ∀ free, Both Eq (q free).toList it.toList := fun free => bodies_forLoop (h free) (fun _ _ => .refl _) []
  refine ⟨fun F f s hf => ?_, fun F f s hf => ?_, ?_, ?_, fun F f z hf => ?_, fun gt => ?_⟩
  · refine coroutine_or (fun free => bodies_forLoop (h free) (fun c x => (Both.of_or (hf free c x)).bind ?_) s) free
    rintro a _ rfl
    exact .refl _
  · refine coroutine_or (fun free => (hl free).bind ?_) free
    rintro items _ rfl
    have hi : Follows (σ := σ) Eq Eq (Iterable.ofList items.reverse) (Iterable.ofList items.reverse) := by
      refine ⟨.refl _, ?_⟩
      rintro l _ rfl
      exact (Both.refl _).mono (by rintro a _ rfl; exact Nexts.refl a)
    refine bodies_forLoop hi (fun c x => (Both.of_or (hf free x c)).bind ?_) s
    rintro a _ rfl
    exact .refl _
  · refine coroutine_or (fun free => (bodies_forLoop (h free) (fun _ _ => .refl _) none).bind ?_) free
    rintro a _ rfl
    exact .refl _
  · exact coroutine_or (fun free => bodies_forLoop (h free) (fun _ _ => .refl _) 0) free
  · refine coroutine_or (fun free => ?_) free
    rw [← pure_bind z (fun z => AsyncSeq.sum f z it)]
    refine (returns_both z free).bind ?_
    rintro z _ rfl
    refine bodies_forLoop (h free) (fun c x => (then_returns (Both.of_or (hf free c x)) free).bind ?_) z
    rintro a _ rfl
    exact .refl _
  · refine coroutine_or (fun free => (hl free).bind ?_) free
    rintro a _ rfl
    exact .refl _

/-- **C154 (functions that run through a sequence, frames).** They need one frame more than the sequence and the callbacks, and `sum` two. -/
theorem C154_consumers_frames {a n m : Nat} {q : FrameSeq σ α S} {it : Iterable σ α S} (h : EnoughForAsync a n q it) (free : Nat)
    (hm : max (max a n) m + 1 ≤ free) :
    (∀ (F : Nat → β → α → PyD σ β) f s, (∀ free, m ≤ free → F free = f) → FrameAsync.fold F s q free = AsyncSeq.fold f s it) ∧
    (∀ (F : Nat → α → β → PyD σ β) f s, (∀ free, m ≤ free → F free = f) → FrameAsync.foldBack F s q free = AsyncSeq.foldBack f s it) ∧
    FrameAsync.head q free = AsyncSeq.head it ∧ FrameAsync.length q free = AsyncSeq.length it ∧
    (∀ (F : Nat → α → α → PyD σ α) f z, (∀ free, m ≤ free → F free = f) → 2 ≤ free → FrameAsync.sum F z q free = AsyncSeq.sum f z it) ∧
    (∀ gt, FrameAsync.max gt q free = AsyncSeq.max gt it) := by
  match free with
  | 0 => omega
  | free + 1 =>
    have e := h.eq (free := free) (by omega) (by omega)
    refine ⟨fun F f s hf => ?_, fun F f s hf => ?_, ?_, ?_, fun F f z hf h2 => ?_, fun gt => ?_⟩
    · rw [FrameAsync.fold, FrameAsync.coroutine, e, hf free (by omega)]
    · rw [FrameAsync.foldBack, FrameAsync.coroutine, e, hf free (by omega)]
    · rw [FrameAsync.head, FrameAsync.coroutine, e]
    · rw [FrameAsync.length, FrameAsync.coroutine, e]
    · have h1 : ∀ x : α, FrameAsync.returns (σ := σ) x free = pure x := congrFun (returns_eq free (by omega))
      simp only [FrameAsync.sum, FrameAsync.coroutine, e, hf free (by omega), h1, bind_pure, pure_bind]
    · rw [FrameAsync.max, FrameAsync.coroutine, e]

/-- **C154 (functions that run through a sequence, what is needed).** If with fewer than `n` frames not even the first element of a sequence can be
obtained, these functions raise `RecursionError` with fewer than `n + 1`. -/
theorem C154_consumers_need {n : Nat} {q : FrameSeq σ α S} (h : ∀ free, free < n → NoFirst (q free)) (free : Nat) (hf : free < n + 1) (w : σ) :
    (∀ (F : Nat → β → α → PyD σ β) s, (FrameAsync.fold F s q free).exec w = some (.error .recursionError, w)) ∧
    (∀ (F : Nat → α → β → PyD σ β) s, (FrameAsync.foldBack F s q free).exec w = some (.error .recursionError, w)) ∧
    (FrameAsync.head q free).exec w = some (.error .recursionError, w) ∧
    (FrameAsync.length q free).exec w = some (.error .recursionError, w) ∧
    (∀ (F : Nat → α → α → PyD σ α) z, (FrameAsync.sum F z q free).exec w = some (.error .recursionError, w)) ∧
    (∀ gt, (FrameAsync.max gt q free).exec w = some (.error .recursionError, w)) := by
  match free with
  | 0 => exact ⟨fun _ _ => rfl, fun _ _ => rfl, rfl, rfl, fun _ _ => rfl, fun _ => rfl⟩
  | free + 1 =>
    have h := h free (by omega)
    refine ⟨fun F s => fails_forLoop h _ _ w, fun F s => ?_, ?_, fails_forLoop h _ _ w, fun F z => ?_, fun gt => ?_⟩
    · rw [FrameAsync.foldBack, FrameAsync.coroutine, AsyncSeq.foldBack, exec_bind, fails_toList h]
    · rw [FrameAsync.head, FrameAsync.coroutine, AsyncSeq.head, exec_bind, fails_forLoop h]
    · match free with
      | 0 => rfl
      | free + 1 => exact fails_forLoop h _ _ w
    · rw [FrameAsync.max, FrameAsync.coroutine, AsyncSeq.max, exec_bind, fails_toList h]

/-- **C154 (calls of the library's own).** With one free frame, which they occupy themselves, `choose` and `sum` raise `RecursionError`, even if the
sequence and the callbacks need none: `choose` asks the answer of the chooser whether it is `Nothing`, and `sum` calls `cast` on the zero to begin with. -/
theorem C154_own_calls {q : FrameSeq σ α S} :
    (∀ (F : Nat → α → PyD σ (Option β)) (w w' w'' : σ) x s r, ((q 0).iter >>= (q 0).next).exec w = some (.ok (some (x, s)), w') →
      (F 0 x).exec w' = some (.ok r, w'') →
      ((FrameAsync.choose F q 1).iter >>= (FrameAsync.choose F q 1).next).exec w = some (.error .recursionError, w'')) ∧
    (∀ (F : Nat → α → α → PyD σ α) z w, (FrameAsync.sum F z q 1).exec w = some (.error .recursionError, w)) := by
  refine ⟨fun F w w' w'' x s r h hF => ?_, fun F z w => rfl⟩
  refine act_raises h _ () ?_
  rw [exec_bind, exec_bind, hF]
  rfl

/-- **C154 (the frames callbacks have).** What a callback raises on the first element, called with `free` free frames, comes out of what `map`, `filter`,
`choose`, `collect`, `scan`, `fold` and `sum` do with one more.  So with a callback that needs `m` frames they raise `RecursionError` if there are
fewer than `m + 1`. -/
theorem C154_callbacks {q : FrameSeq σ α S} {free : Nat} {w w' w'' : σ} {x : α} {s : S} {e : PyErr}
    (h : ((q free).iter >>= (q free).next).exec w = some (.ok (some (x, s)), w')) :
    (∀ (F : Nat → α → PyD σ β), (F free x).exec w' = some (.error e, w'') →
      ((FrameAsync.map F q (free + 1)).iter >>= (FrameAsync.map F q (free + 1)).next).exec w = some (.error e, w'')) ∧
    (∀ (F : Nat → α → PyD σ Bool), (F free x).exec w' = some (.error e, w'') →
      ((FrameAsync.filter F q (free + 1)).iter >>= (FrameAsync.filter F q (free + 1)).next).exec w = some (.error e, w'')) ∧
    (∀ (F : Nat → α → PyD σ (Option β)), (F free x).exec w' = some (.error e, w'') →
      ((FrameAsync.choose F q (free + 1)).iter >>= (FrameAsync.choose F q (free + 1)).next).exec w = some (.error e, w'')) ∧
    (∀ (F : Nat → α → PyD σ (FrameSeq σ β T)), (F free x).exec w' = some (.error e, w'') →
      ((FrameAsync.collect F q (free + 1)).iter >>= (FrameAsync.collect F q (free + 1)).next).exec w = some (.error e, w'')) ∧
    (∀ (F : Nat → γ → α → PyD σ γ) c, (F free c x).exec w' = some (.error e, w'') →
      (FrameAsync.scan F c q (free + 1)).toList.exec w = some (.error e, w'')) ∧
    (∀ (F : Nat → γ → α → PyD σ γ) c, (F free c x).exec w' = some (.error e, w'') →
      (FrameAsync.fold F c q (free + 1)).exec w = some (.error e, w'')) ∧
    (∀ (F : Nat → α → α → PyD σ α) z, 1 ≤ free → (F free z x).exec w' = some (.error e, w'') →
      (FrameAsync.sum F z q (free + 1)).exec w = some (.error e, w'')) := by
  refine ⟨fun F hF => ?_, fun F hF => ?_, fun F hF => ?_, fun F hF => ?_, fun F c hF => ?_, fun F c hF => ?_, fun F z h1 hF => ?_⟩
  · refine act_raises h _ () ?_
    rw [exec_bind, hF]
  · refine act_raises h _ () ?_
    rw [exec_bind, hF]
  · refine act_raises h _ () ?_
    rw [exec_bind, exec_bind, hF]
  · refine mapping_raises h _ ?_
    rw [exec_bind, hF]
  · rw [Iterable.toList, Iterable.forLoop]
    show exec (Iterable.loop _ _ AsyncSeq.ScanState.fresh []) w = _
    rw [Iterable.loop_eq]
    show exec (Iterable.loop _ _ AsyncSeq.ScanState.began [c]) w = _
    rw [Iterable.loop_eq]
    have e1 : ((FrameAsync.scan F c q (free + 1)).next .began).exec w = some (.error e, w'') := by
      show exec ((q free).iter >>= fun s => (q free).next s >>= _) w = _
      rw [← bind_assoc, exec_bind, h]
      simp only
      rw [exec_bind, hF]
    rw [exec_bind, e1]
  · refine first_raises h _ c ?_
    rw [exec_bind, hF]
  · match free with
    | free + 1 =>
      refine first_raises h _ z ?_
      rw [exec_bind, exec_bind, hF]

/-- **C154 (the frames a folder of `fold_back` has).** One fewer than `fold_back`; it is called first on the last element. -/
theorem C154_callback_back {q : FrameSeq σ α S} {free : Nat} {w w' w'' : σ} {xs : List α} {x : α} {e : PyErr}
    (h : (q free).toList.exec w = some (.ok (xs ++ [x]), w')) (F : Nat → α → β → PyD σ β) (c : β)
    (hF : (F free x c).exec w' = some (.error e, w'')) : (FrameAsync.foldBack F c q (free + 1)).exec w = some (.error e, w'') := by
  rw [FrameAsync.foldBack, FrameAsync.coroutine, AsyncSeq.foldBack, exec_bind, h]
  simp only [List.reverse_append, List.reverse_cons, List.reverse_nil, List.nil_append, List.singleton_append]
  refine first_raises (x := x) (s := xs.reverse) rfl _ c ?_
  rw [exec_bind, hF]

/-- C154 is not vacuous: `AsyncSeq(filter(p)(AsyncSeq(range(0, 5, 1))))`, mapped; three frames suffice -/
example (p : Int → PyD σ Bool) (f : Int → PyD σ Int) :
    SameAsync (FrameAsync.map (fun _ => f) (FrameAsync.asyncSeq (FrameAsync.filter (fun _ => p) (FrameAsync.asyncSeq (FrameAsync.range 0 5 1)))))
      (AsyncSeq.map f (AsyncSeq.filter p (AsyncSeq.range 0 5 1))) ∧
    EnoughForAsync 0 3 (FrameAsync.map (fun _ => f) (FrameAsync.asyncSeq (FrameAsync.filter (fun _ => p) (FrameAsync.asyncSeq (FrameAsync.range 0 5 1)))))
      (AsyncSeq.map f (AsyncSeq.filter p (AsyncSeq.range 0 5 1))) := by
  have hs := SameAsync.filter (σ := σ) (F := fun _ => p) (f := p) (fun _ _ _ => .inl rfl) (.asyncSeq (.range 0 5 1))
  refine ⟨SameAsync.map (F := fun _ => f) (f := f) (fun _ _ _ => .inl rfl) (.asyncSeq hs), ?_⟩
  have h1 := (C154_frames (β := Int) (γ := Int) (T := Int) (m := 0) (C154_sources (σ := σ) 0 5 1 () none).1).1
  have h2 := (C154_frames (β := Int) (γ := Int) (T := Int) (m := 0) h1).2.2.1 (fun _ => p) p (fun _ _ => rfl)
  have h3 := (C154_frames (β := Int) (γ := Int) (T := Int) (m := 0) h2).1
  exact (C154_frames (β := Int) (γ := Int) (T := Int) (m := 0) h3).2.1 (fun _ => f) f (fun _ _ => rfl)

/-- and two frames are not enough for a map of a filter of a range -/
example (p : Int → PyD σ Bool) (f : Int → PyD σ Int) (free : Nat) (h : free < 3) :
    NoFirst (FrameAsync.map (fun _ => f) (FrameAsync.filter (fun _ => p) (FrameAsync.range 0 5 1)) free) := by
  have h0 : ∀ free, free < 1 → NoFirst (FrameAsync.range (σ := σ) 0 5 1 free) := by
    intro free hf
    obtain rfl : free = 0 := by omega
    exact (C154_sources 0 5 1 () none).2.2.1
  have h1 := (C154_needs (β := Int) (γ := Int) (T := Int) h0).2.1 (fun _ => p)
  exact (C154_needs (β := Int) (γ := Int) (T := Int) h1).1 (fun _ => f) free h

/-- `await AsyncSeq(range(0, 5, 1)).length()`: two frames, not one -/
example (w : σ) : FrameAsync.length (σ := σ) (FrameAsync.asyncSeq (FrameAsync.range 0 5 1)) 2 = AsyncSeq.length (AsyncSeq.range 0 5 1) ∧
    (FrameAsync.length (σ := σ) (FrameAsync.asyncSeq (FrameAsync.range 0 5 1)) 1).exec w = some (.error .recursionError, w) := by
  have h1 := (C154_frames (β := Int) (γ := Int) (T := Int) (m := 0) (C154_sources (σ := σ) 0 5 1 () none).1).1
  refine ⟨(C154_consumers_frames (β := Int) (m := 0) h1 2 (by decide)).2.2.2.1, ?_⟩
  refine (C154_consumers_need (β := Int) (n := 1) (fun free hf => ?_) 1 (by decide) w).2.2.2.1
  obtain rfl : free = 0 := by omega
  exact fun _ => rfl

/-- a mapper that needs two frames, called with one -/
example (w : σ) : ((FrameAsync.map (σ := σ) (fun free (x : Nat) => if free < 2 then PyD.raise .recursionError else pure x) (FrameSeq.ofList [1, 2]) 2).iter >>=
    (FrameAsync.map (fun free x => if free < 2 then PyD.raise .recursionError else pure x) (FrameSeq.ofList [1, 2]) 2).next).exec w =
    some (.error .recursionError, w) :=
  (C154_callbacks (γ := Nat) (T := Nat) (q := FrameSeq.ofList [1, 2]) (free := 1) (x := 1) (s := [2]) rfl).1 _ rfl

/-- the sum of a sequence that needs no frames, with one free frame and with two -/
example (w : σ) : (FrameAsync.sum (σ := σ) (fun _ x y => pure (x + y)) 0 (fun _ => Iterable.ofList [1, 2, (3 : Nat)]) 1).exec w = some (.error .recursionError, w) ∧
    FrameAsync.sum (σ := σ) (fun _ x y => pure (x + y)) 0 (fun _ => Iterable.ofList [1, 2, (3 : Nat)]) 2 =
      AsyncSeq.sum (fun x y => pure (x + y)) 0 (Iterable.ofList [1, 2, 3]) :=
  ⟨(C154_own_calls (β := Nat)).2 _ _ _,
    (C154_consumers_frames (β := Nat) (m := 0) (a := 0) (n := 0) ⟨fun _ _ => rfl, fun _ _ => rfl⟩ 2 (by decide)).2.2.2.2.1 _ _ _ (fun _ _ => rfl) (by decide)⟩

/-- a chooser that takes all elements of a sequence that needs no frames -/
example (w : σ) : ((FrameAsync.choose (σ := σ) (fun _ x => pure (some x)) (fun _ => Iterable.ofList [1, 2, (3 : Nat)]) 1).iter >>=
    (FrameAsync.choose (fun _ x => pure (some x)) (fun _ => Iterable.ofList [1, 2, 3]) 1).next).exec w = some (.error .recursionError, w) :=
  (C154_own_calls (β := Nat)).1 _ w w w 1 [2, 3] (some 1) rfl rfl

/-- two functions mapped to `range(0, 3)`: two frames are not enough -/
example : ((FrameAsync.asyncSeq (mapped (σ := Unit) 0 3 1 [(· + 1), (· * 10)]).seq 2).toList).exec () = some (.error .recursionError, ()) := by
  obtain ⟨ys, -, h⟩ := C154_mapped (σ := Unit) 0 3 1 (by decide)
  exact (h [(· + 1), (· * 10)] 2 ()).2 (by decide)

/-- three values appended one at a time: three frames, not two -/
example : (((grown (σ := Unit) 1 [2, 3]).seq 3).toList).exec () = some (.ok [1, 2, 3], ()) ∧
    (((grown (σ := Unit) 1 [2, 3]).seq 2).toList).exec () = some (.error .recursionError, ()) :=
  ⟨(C154_grown 1 [2, 3] 3 ()).1 (by decide), (C154_grown 1 [2, 3] 2 ()).2 (by decide)⟩

/-! ## C155 -/

/-- The full property: listing an asynchronous sequence that was made by appending values one at a time takes time linear in their number. -/
def C155_full_statement : Prop :=
  ∃ c, ∀ (v : Nat) (xs : List Nat) (free k : Nat), (((grownTallied v xs).seq free).toList).exec 0 = some (.ok (v :: xs), k) →
    k ≤ c * (xs.length + 1) + c

/-- **C155.** Listing the `n` values that were appended one at a time resumes generators exactly `(n² + 7 n - 4) / 2` times. -/
theorem C155_grown_partial (v : α) (xs : List α) (free : Nat) (hf : xs.length + 1 ≤ free) (start : Nat) :
    ∃ k, 2 * k + 4 = (xs.length + 1) * (xs.length + 1) + 7 * (xs.length + 1) ∧
      (((grownTallied v xs).seq free).toList).exec start = some (.ok (v :: xs), start + k) := by
  obtain ⟨k, s, hk, hi, hr⟩ : ∃ k, ∃ s : (grownTallied v xs).State, 2 * k + 4 = (xs.length + 1) * (xs.length + 1) + 7 * (xs.length + 1) ∧
      ((grownTallied v xs).seq free).iter = pure s ∧ Run ((grownTallied v xs).seq free) s (v :: xs) k := by
    obtain ⟨ys, rfl⟩ : ∃ ys : List α, xs = ys.reverse := ⟨xs.reverse, by simp⟩
    induction ys generalizing free with
    | nil =>
      match free with
      | 0 => omega
      | free + 1 => exact ⟨2, [v], rfl, rfl, run_repeat v free⟩
    | cons x ys ih =>
      rw [List.reverse_cons] at hf ⊢
      generalize ys.reverse = xs at *
      rw [List.length_append, List.length_singleton] at hf
      match free with
      | 0 => omega
      | 1 => omega
      | free + 2 =>
        obtain ⟨k, s, hk, hi, hr⟩ := ih (free + 1) (by omega)
        have hx : grownTallied v (xs ++ [x]) =
            ⟨_, tallied (FrameAsync.append (tallied (FrameAsync.repeat x (some 1))) (grownTallied v xs).seq)⟩ := by
          simp only [grownTallied, List.foldl_append, List.foldl_cons, List.foldl_nil]
        rw [hx, List.length_append, List.length_singleton]
        have h1 := Run.fresh hi (hr.left (other := tallied (FrameAsync.repeat x (some 1)) (free + 1)) (t := [x]) rfl (run_repeat x free))
        have h2 := (Run.framed (q := fun free => AsyncSeq.append (tallied (FrameAsync.repeat x (some 1)) free) ((grownTallied v xs).seq free)) h1).tallied
        refine ⟨_, .fresh, ?_, rfl, h2⟩
        rw [List.length_append, List.length_cons, List.length_singleton]
        have e : (xs.length + 1 + 1) * (xs.length + 1 + 1) = (xs.length + 1) * (xs.length + 1) + 2 * (xs.length + 1) + 1 := by ring
        omega
  exact ⟨k, hk, hr.toList hi start⟩

/-- **C155.** The full property fails: the work is quadratic. -/
theorem C155_full_statement_false : ¬ C155_full_statement := by
  rintro ⟨c, h⟩
  obtain ⟨k, hk, hl⟩ := C155_grown_partial 0 (List.replicate (2 * c) 0) (2 * c + 1) (by simp) 0
  have := h 0 _ _ _ hl
  rw [List.length_replicate] at this hk
  have e : (2 * c + 1) * (2 * c + 1) = 2 * (c * (2 * c + 1)) + (2 * c + 1) := by ring
  omega

/-- C155 is not vacuous: three values take thirteen resumptions -/
example : (((grownTallied 1 [2, 3]).seq 3).toList).exec 0 = some (.ok [1, 2, 3], 13) := by
  obtain ⟨k, hk, h⟩ := C155_grown_partial 1 [2, 3] 3 (by decide) 0
  obtain rfl : k = 13 := by simp at hk; omega
  exact h

end Expression.Props
