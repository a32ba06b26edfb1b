import Verif.Lemmas.SeqClose

/-! Lemmas about iterators left before their end: apart from clean-up, they are the iterators of `Model/Seq.lean`. -/

namespace Expression.Lemmas.SeqCloseSim

open PyD Expression.SeqClose Spec.SeqClose Lemmas.SeqClose

variable {σ α β γ δ S S' T T' C : Type}

/-- the same exception, or related values -/
def RelR (R : α → β → Prop) : Except PyErr α → Except PyErr β → Prop
  | .ok a, .ok b => R a b
  | .error e, .error e' => e = e'
  | _, _ => False

/-- With the ledger and without: `true`, what the first does the second does; `false`, the other way round. -/
def Dir : Bool → PyD (Ledger σ) α → PyD σ β → (α → β → Prop) → Prop
  | true, p, q, R => ∀ l r l', p.exec l = some (r, l') → ∃ r', q.exec l.world = some (r', l'.world) ∧ RelR R r r'
  | false, p, q, R => ∀ l r' w', q.exec l.world = some (r', w') → ∃ r l', p.exec l = some (r, l') ∧ l'.world = w' ∧ RelR R r r'

variable {d : Bool}

theorem Dir.pure {a : α} {b : β} {R : α → β → Prop} (h : R a b) : Dir (σ := σ) d (Pure.pure a) (Pure.pure b) R := by
  cases d
  · intro l r' w' e
    obtain ⟨rfl, rfl⟩ := Prod.mk.inj (Option.some.inj e)
    exact ⟨.ok a, l, rfl, rfl, h⟩
  · intro l r l' e
    obtain ⟨rfl, rfl⟩ := Prod.mk.inj (Option.some.inj e)
    exact ⟨.ok b, rfl, h⟩

theorem Dir.bind {p : PyD (Ledger σ) α} {q : PyD σ β} {f : α → PyD (Ledger σ) γ} {g : β → PyD σ δ} {R : α → β → Prop} {Q : γ → δ → Prop}
    (h : Dir d p q R) (hf : ∀ a b, R a b → Dir d (f a) (g b) Q) : Dir d (p >>= f) (q >>= g) Q := by
  cases d
  · intro l r' w' e
    rw [exec_bind] at e
    rcases hq : q.exec l.world with _ | ⟨er | b, w1⟩ <;> rw [hq] at e <;> simp only at e
    · cases e
    · obtain ⟨rfl, rfl⟩ := Prod.mk.inj (Option.some.inj e)
      obtain ⟨r, l', hp, hw, hr⟩ := h l _ _ hq
      rcases r with e1 | a
      · cases hr
        exact ⟨.error er, l', by rw [exec_bind, hp], hw, rfl⟩
      · cases hr
    · obtain ⟨r, l', hp, hw, hr⟩ := h l _ _ hq
      rcases r with e1 | a
      · cases hr
      · subst hw
        obtain ⟨r2, l2, h2, hw2, hr2⟩ := hf a b hr l' _ _ e
        exact ⟨r2, l2, by rw [exec_bind, hp]; exact h2, hw2, hr2⟩
  · intro l r l' e
    rw [exec_bind] at e
    rcases hp : p.exec l with _ | ⟨er | a, l1⟩ <;> rw [hp] at e <;> simp only at e
    · cases e
    · obtain ⟨rfl, rfl⟩ := Prod.mk.inj (Option.some.inj e)
      obtain ⟨r', hq, hr⟩ := h l _ _ hp
      rcases r' with e1 | b
      · cases hr
        exact ⟨.error er, by rw [exec_bind, hq], rfl⟩
      · cases hr
    · obtain ⟨r', hq, hr⟩ := h l _ _ hp
      rcases r' with e1 | b
      · cases hr
      · obtain ⟨r2, h2, hr2⟩ := hf a b hr l1 _ _ e
        exact ⟨r2, by rw [exec_bind, hq]; exact h2, hr2⟩

/-- it ends and leaves the world as it is -/
def Mute (p : PyD (Ledger σ) α) : Prop := ∀ l, ∃ r l', p.exec l = some (r, l') ∧ l'.world = l.world

theorem Mute.quietly {p : PyD (Ledger σ) Unit} (h : Mute p) : Mute (quietly p) := by
  intro l
  obtain ⟨r, l', e, hw⟩ := h l
  exact ⟨_, l', quietly_exec e, hw⟩

theorem Mute.pure (a : α) : Mute (σ := σ) (Pure.pure a) := fun l => ⟨_, l, rfl, rfl⟩

/-- something without effects on the world that does not raise, first -/
theorem Dir.after {p : PyD (Ledger σ) Unit} (h : Mute p) {f : Unit → PyD (Ledger σ) α} {q : PyD σ β} {R : α → β → Prop}
    (hf : Dir d (f ()) q R) : Dir d (SeqClose.quietly p >>= f) q R := by
  cases d
  · intro l r' w' e
    obtain ⟨r1, l1, e1, hw1⟩ := h l
    obtain ⟨r, l', h2, hw, hr⟩ := hf l1 r' w' (by rw [hw1]; exact e)
    exact ⟨r, l', (exec_bind_ok (quietly_exec e1)).trans h2, hw, hr⟩
  · intro l r l' e
    obtain ⟨r1, l1, e1, hw1⟩ := h l
    rw [exec_bind_ok (quietly_exec e1)] at e
    rw [← hw1]
    exact hf l1 r l' e

theorem Mute.bind {p : PyD (Ledger σ) Unit} (h : Mute p) {f : Unit → PyD (Ledger σ) α} (hf : Mute (f ())) : Mute (SeqClose.quietly p >>= f) := by
  intro l
  obtain ⟨r1, l1, e1, hw1⟩ := h l
  obtain ⟨r2, l2, e2, hw2⟩ := hf l1
  exact ⟨r2, l2, (exec_bind_ok (quietly_exec e1)).trans e2, hw2.trans hw1⟩

theorem Dir.leaving {drop : PyD (Ledger σ) Unit} (hd : Mute drop) {p : PyD (Ledger σ) α} {q : PyD σ β} {R : α → β → Prop}
    (h : Dir d p q R) : Dir d (leaving drop p) q R := by
  cases d
  · intro l r' w' e
    obtain ⟨r, l', hp, hw, hr⟩ := h l r' w' e
    rcases r with er | a
    · obtain ⟨r1, l1, e1, hw1⟩ := hd l'
      refine ⟨.error er, l1, ?_, hw1.trans hw, hr⟩
      change SeqClose.leaving drop p l = _
      unfold SeqClose.leaving
      rw [hp]
      simp only
      rw [e1]
    · exact ⟨.ok a, l', leaving_exec hp, hw, hr⟩
  · intro l r l' e
    change SeqClose.leaving drop p l = _ at e
    unfold SeqClose.leaving at e
    rcases hp : p.exec l with _ | ⟨er | a, l1⟩ <;> rw [hp] at e <;> simp only at e
    · cases e
    · obtain ⟨r1, l2, e1, hw1⟩ := hd l1
      rw [e1] at e
      obtain ⟨rfl, rfl⟩ := Prod.mk.inj (Option.some.inj e)
      rw [hw1]
      exact h l _ _ hp
    · obtain ⟨rfl, rfl⟩ := Prod.mk.inj (Option.some.inj e)
      exact h l _ _ hp

theorem Dir.lift (p : PyD σ α) : Dir d (lift p) p Eq := by
  cases d
  · intro l r' w' e
    refine ⟨r', _, lift_exec e, rfl, ?_⟩
    cases r' <;> rfl
  · intro l r l' e
    change SeqClose.lift p l = _ at e
    unfold SeqClose.lift at e
    rcases hp : p.exec l.world with _ | ⟨r1, w1⟩ <;> rw [hp] at e <;> simp only at e
    · cases e
    · obtain ⟨rfl, rfl⟩ := Prod.mk.inj (Option.some.inj e)
      refine ⟨r1, rfl, ?_⟩
      cases r1 <;> rfl

/-- a fact about all values of `p` -/
theorem Dir.lift_post {p : PyD σ α} {P : α → Prop} (h : ∀ w a w', p.exec w = some (.ok a, w') → P a) :
    Dir d (SeqClose.lift p) p (fun a b => a = b ∧ P a) := by
  cases d
  · intro l r' w' e
    refine ⟨r', _, lift_exec e, rfl, ?_⟩
    rcases r' with er | a
    · rfl
    · exact ⟨rfl, h _ _ _ e⟩
  · intro l r l' e
    change SeqClose.lift p l = _ at e
    unfold SeqClose.lift at e
    rcases hp : p.exec l.world with _ | ⟨r1, w1⟩ <;> rw [hp] at e <;> simp only at e
    · cases e
    · obtain ⟨rfl, rfl⟩ := Prod.mk.inj (Option.some.inj e)
      refine ⟨r1, rfl, ?_⟩
      rcases r1 with er | a
      · rfl
      · exact ⟨rfl, h _ _ _ hp⟩

theorem Dir.mono {p : PyD (Ledger σ) α} {q : PyD σ β} {R Q : α → β → Prop} (h : Dir d p q R) (hR : ∀ a b, R a b → Q a b) : Dir d p q Q := by
  have hr : ∀ r r', RelR R r r' → RelR Q r r' := by
    rintro (_ | _) (_ | _) h
    · exact h
    · cases h
    · cases h
    · exact hR _ _ h
  cases d
  · intro l r' w' e
    obtain ⟨r, l', hp, hw, h1⟩ := h l r' w' e
    exact ⟨r, l', hp, hw, hr _ _ h1⟩
  · intro l r l' e
    obtain ⟨r', hq, h1⟩ := h l r l' e
    exact ⟨r', hq, hr _ _ h1⟩

/-- both ended, or both delivered the same element -/
def NextR (R : S → S' → Prop) : Option (α × S) → Option (α × S') → Prop
  | none, none => True
  | some (x, s), some (y, s') => x = y ∧ R s s'
  | _, _ => False

/-- `src` does what `it` does, if its clean-up is left aside -/
structure Agrees (src : Source (Ledger σ) α S) (it : Iterable σ α S') (R : S → S' → Prop) : Prop where
  iter : ∀ d, Dir d src.iter it.iter R
  next : ∀ d s s', R s s' → Dir d (src.next s) (it.next s') (NextR R)
  release : ∀ s s', R s s' → Mute (src.release s)
  close : ∀ s s', R s s' → Mute (src.close s)

/-- `next`, and what is done with the outcome -/
theorem Dir.next {src : Source (Ledger σ) α S} {it : Iterable σ α S'} {R : S → S' → Prop} (h : Agrees src it R) {s : S} {s' : S'} (hs : R s s')
    {f : Option (α × S) → PyD (Ledger σ) γ} {g : Option (α × S') → PyD σ δ} {Q : γ → δ → Prop} (hn : Dir d (f none) (g none) Q)
    (hx : ∀ x t t', R t t' → Dir d (f (some (x, t))) (g (some (x, t'))) Q) : Dir d (src.next s >>= f) (it.next s' >>= g) Q := by
  refine Dir.bind (h.next d s s' hs) ?_
  rintro (_ | ⟨x, t⟩) (_ | ⟨y, t'⟩) h1
  · exact hn
  · cases h1
  · cases h1
  · obtain ⟨rfl, h1⟩ := h1
    exact hx x t t' h1

/-- the same, when another iterator is dropped if `next` raises -/
theorem Dir.nextLeaving {src : Source (Ledger σ) α S} {it : Iterable σ α S'} {R : S → S' → Prop} (h : Agrees src it R) {s : S} {s' : S'} (hs : R s s')
    {drop : PyD (Ledger σ) Unit} (hd : Mute drop)
    {f : Option (α × S) → PyD (Ledger σ) γ} {g : Option (α × S') → PyD σ δ} {Q : γ → δ → Prop} (hn : Dir d (f none) (g none) Q)
    (hx : ∀ x t t', R t t' → Dir d (f (some (x, t))) (g (some (x, t'))) Q) :
    Dir d (SeqClose.leaving drop (src.next s) >>= f) (it.next s' >>= g) Q := by
  refine Dir.bind (Dir.leaving hd (h.next d s s' hs)) ?_
  rintro (_ | ⟨x, t⟩) (_ | ⟨y, t'⟩) h1
  · exact hn
  · cases h1
  · cases h1
  · obtain ⟨rfl, h1⟩ := h1
    exact hx x t t' h1

/-- ### The loop -/
theorem loop_step {src : Source (Ledger σ) α S} {it : Iterable σ α S'} {R : S → S' → Prop} (h : Agrees src it R) (body : C → α → PyD σ (Flow C))
    {f : S → C → PyD (Ledger σ) C} {g : S' → C → PyD σ C} (hfg : ∀ s s' c, R s s' → Dir d (f s c) (g s' c) Eq) (s : S) (s' : S') (c : C)
    (hs : R s s') :
    Dir d (do
      match ← src.next s with
      | none => pure c
      | some (x, s') =>
        match ← leaving (src.release s') (lift (body c x)) with
        | .stop c' =>
          quietly (src.release s')
          pure c'
        | .next c' => f s' c')
      (do
      match ← it.next s' with
      | none => pure c
      | some (x, s') =>
        match ← body c x with
        | .stop c' => pure c'
        | .next c' => g s' c') Eq := by
  refine Dir.next h hs (Dir.pure rfl) fun x t t' ht => ?_
  refine Dir.bind (Dir.leaving (h.release _ _ ht) (Dir.lift (body c x))) ?_
  rintro (c' | c') _ rfl
  · exact hfg t t' c' ht
  · exact Dir.after (h.release _ _ ht) (Dir.pure rfl)

theorem loop_dir {src : Source (Ledger σ) α S} {it : Iterable σ α S'} {R : S → S' → Prop} (h : Agrees src it R) (body : C → α → PyD σ (Flow C)) :
    ∀ d s s' c, R s s' → Dir d (loop src (fun c x => lift (body c x)) s c) (it.loop body s' c) Eq := by
  intro d
  cases d
  · suffices H : ∀ s' c w r, (it.loop body s' c).exec w = some r → ∀ s (l : Ledger σ), R s s' → l.world = w →
        ∃ r1 l', (loop src (fun c x => lift (body c x)) s c).exec l = some (r1, l') ∧ l'.world = r.2 ∧ RelR Eq r1 r.1 from
      fun s s' c hs l r' w' e => H s' c _ _ e s l hs rfl
    refine Iterable.loop.fixpoint_induct it body (fun g => ∀ s' c w r, (g s' c).exec w = some r → ∀ s (l : Ledger σ), R s s' → l.world = w →
        ∃ r1 l', (loop src (fun c x => lift (body c x)) s c).exec l = some (r1, l') ∧ l'.world = r.2 ∧ RelR Eq r1 r.1)
      (admissible_post2 (fun s' c w r => ∀ s (l : Ledger σ), R s s' → l.world = w →
        ∃ r1 l', (loop src (fun c x => lift (body c x)) s c).exec l = some (r1, l') ∧ l'.world = r.2 ∧ RelR Eq r1 r.1)) ?_
    rintro g ih s' c w ⟨r, w'⟩ e s l hs rfl
    rw [SeqClose.loop.eq_1]
    exact loop_step (d := false) h body (fun s s' c hs l r' w' e => ih s' c _ _ e s l hs rfl) s s' c hs l r w' e
  · suffices H : ∀ s c l r, (loop src (fun c x => lift (body c x)) s c).exec l = some r → ∀ s', R s s' →
        ∃ r', (it.loop body s' c).exec l.world = some (r', r.2.world) ∧ RelR Eq r.1 r' from
      fun s s' c hs l r l' e => H s c l _ e s' hs
    refine SeqClose.loop.fixpoint_induct src (fun c x => lift (body c x)) (fun f => ∀ s c l r, (f s c).exec l = some r → ∀ s', R s s' →
        ∃ r', (it.loop body s' c).exec l.world = some (r', r.2.world) ∧ RelR Eq r.1 r')
      (admissible_post2 (fun s c (l : Ledger σ) (r : Except PyErr C × Ledger σ) => ∀ s', R s s' →
        ∃ r', (it.loop body s' c).exec l.world = some (r', r.2.world) ∧ RelR Eq r.1 r')) ?_
    rintro f ih s c l ⟨r, l'⟩ e s' hs
    rw [Iterable.loop.eq_1]
    exact loop_step (d := true) h body (fun s s' c hs l r l' e => ih s c l _ e s' hs) s s' c hs l r l' e

theorem forLoop_agrees {src : Source (Ledger σ) α S} {it : Iterable σ α S'} {R : S → S' → Prop} (h : Agrees src it R)
    (body : C → α → PyD σ (Flow C)) (c : C) (l : Ledger σ) :
    inWorld ((forLoop src (fun c x => lift (body c x)) c).exec l) = (it.forLoop body c).exec l.world := by
  have hd : ∀ d, Dir d (forLoop src (fun c x => lift (body c x)) c) (it.forLoop body c) Eq := fun d =>
    Dir.bind (h.iter d) fun s s' hs => loop_dir h body d s s' c hs
  have hr : ∀ {r r' : Except PyErr C}, RelR Eq r r' → r = r' := by
    rintro (_ | _) (_ | _) h
    · cases h; rfl
    · cases h
    · cases h
    · cases h; rfl
  rcases hp : (forLoop src (fun c x => lift (body c x)) c).exec l with _ | ⟨r, l'⟩
  · rcases hq : (it.forLoop body c).exec l.world with _ | ⟨r', w'⟩
    · rfl
    · obtain ⟨r, l', e, _⟩ := hd false l r' w' hq
      rw [hp] at e
      cases e
  · obtain ⟨r', e, h1⟩ := hd true l r l' hp
    rw [e, ← hr h1]
    rfl

/-! ### The functions -/

/-- some relation of the states -/
def Same (src : Source (Ledger σ) α S) (it : Iterable σ α S') : Prop := ∃ R, Agrees src it R

theorem ofList_same (xs : List α) : Same (σ := σ) (ofList xs) (Iterable.ofList xs) := by
  refine ⟨Eq, fun _ => Dir.pure rfl, ?_, fun _ _ _ => Mute.pure _, fun _ _ _ => Mute.pure _⟩
  rintro d (_ | ⟨x, rest⟩) _ rfl
  · exact Dir.pure trivial
  · exact Dir.pure ⟨rfl, rfl⟩

theorem seq_same {src : Source (Ledger σ) α S} {it : Iterable σ α S'} (h : Same src it) : Same (SeqClose.seq src) it := by
  obtain ⟨R, h⟩ := h
  exact ⟨R, h.iter, h.next, fun s s' hs => (h.release s s' hs).quietly, fun s s' hs => (h.release s s' hs).quietly⟩

/-- both generators have not begun, or both have -/
def optR (R : S → S' → Prop) : Option S → Option S' → Prop
  | none, none => True
  | some s, some s' => R s s'
  | _, _ => False

theorem map_same {f : α → PyD σ β} {src : Source (Ledger σ) α S} {it : Iterable σ α S'} (h : Same src it) :
    Same (SeqClose.map (fun x => lift (f x)) src) (Seq.map f it) := by
  obtain ⟨R, h⟩ := h
  have hrel : ∀ st st', optR R st st' → Mute ((SeqClose.map (fun x => lift (f x)) src).release st) := by
    rintro (_ | s) (_ | s') hs
    · exact Mute.pure _
    · cases hs
    · cases hs
    · exact (h.release s s' hs).quietly
  refine ⟨optR R, fun _ => Dir.pure trivial, ?_, hrel, hrel⟩
  intro d st st' hst
  have h0 : Dir d (Seq.started src.toIterable st) (Seq.started it st') R := by
    rcases st with _ | s <;> rcases st' with _ | s'
    · exact h.iter d
    · cases hst
    · cases hst
    · exact Dir.pure hst
  refine Dir.bind h0 fun s s' hs => ?_
  refine Dir.next h hs (Dir.pure trivial) fun x t t' ht => ?_
  refine Dir.bind (Dir.leaving (h.release _ _ ht) (Dir.lift (f x))) ?_
  rintro y _ rfl
  exact Dir.pure ⟨rfl, ht⟩

theorem filter_step {f : α → PyD σ Bool} {src : Source (Ledger σ) α S} {it : Iterable σ α S'} {R : S → S' → Prop} (h : Agrees src it R)
    {k : S → PyD (Ledger σ) (Option (α × S))} {k' : S' → PyD σ (Option (α × S'))} (hk : ∀ s s', R s s' → Dir d (k s) (k' s') (NextR R))
    (s : S) (s' : S') (hs : R s s') :
    Dir d (do
      match ← src.next s with
      | none => pure none
      | some (x, s') =>
        if ← leaving (src.release s') (lift (f x)) then pure (some (x, s')) else k s')
      (do
      match ← it.next s' with
      | none => pure none
      | some (x, s') => if ← f x then pure (some (x, s')) else k' s') (NextR R) := by
  refine Dir.next h hs (Dir.pure trivial) fun x t t' ht => ?_
  refine Dir.bind (Dir.leaving (h.release _ _ ht) (Dir.lift (f x))) ?_
  rintro b _ rfl
  cases b
  · exact hk t t' ht
  · exact Dir.pure ⟨rfl, ht⟩

theorem filter_same {f : α → PyD σ Bool} {src : Source (Ledger σ) α S} {it : Iterable σ α S'} (h : Same src it) :
    Same (SeqClose.filter (fun x => lift (f x)) src) (Seq.filter f it) := by
  obtain ⟨R, h⟩ := h
  refine ⟨R, h.iter, ?_, fun s s' hs => (h.release s s' hs).quietly, fun s s' hs => (h.release s s' hs).quietly⟩
  intro d
  cases d
  · suffices H : ∀ s' w r, (Seq.filterNext f it s').exec w = some r → ∀ s (l : Ledger σ), R s s' → l.world = w →
        ∃ r1 l', (SeqClose.filterNext (fun x => lift (f x)) src s).exec l = some (r1, l') ∧ l'.world = r.2 ∧ RelR (NextR R) r1 r.1 from
      fun s s' hs l r' w' e => H s' _ _ e s l hs rfl
    refine Seq.filterNext.fixpoint_induct f it (fun g => ∀ s' w r, (g s').exec w = some r → ∀ s (l : Ledger σ), R s s' → l.world = w →
        ∃ r1 l', (SeqClose.filterNext (fun x => lift (f x)) src s).exec l = some (r1, l') ∧ l'.world = r.2 ∧ RelR (NextR R) r1 r.1)
      (admissible_post1 (fun s' w r => ∀ s (l : Ledger σ), R s s' → l.world = w →
        ∃ r1 l', (SeqClose.filterNext (fun x => lift (f x)) src s).exec l = some (r1, l') ∧ l'.world = r.2 ∧ RelR (NextR R) r1 r.1)) ?_
    rintro g ih s' w ⟨r, w'⟩ e s l hs rfl
    rw [SeqClose.filterNext.eq_1]
    exact filter_step (d := false) h (fun s s' hs l r' w' e => ih s' _ _ e s l hs rfl) s s' hs l r w' e
  · suffices H : ∀ s (l : Ledger σ) r, (SeqClose.filterNext (fun x => lift (f x)) src s).exec l = some r → ∀ s', R s s' →
        ∃ r', (Seq.filterNext f it s').exec l.world = some (r', r.2.world) ∧ RelR (NextR R) r.1 r' from
      fun s s' hs l r l' e => H s l _ e s' hs
    refine SeqClose.filterNext.fixpoint_induct (fun x => lift (f x)) src (fun g => ∀ s (l : Ledger σ) r, (g s).exec l = some r → ∀ s', R s s' →
        ∃ r', (Seq.filterNext f it s').exec l.world = some (r', r.2.world) ∧ RelR (NextR R) r.1 r')
      (admissible_post1 (fun s (l : Ledger σ) (r : Except PyErr (Option (α × S)) × Ledger σ) => ∀ s', R s s' →
        ∃ r', (Seq.filterNext f it s').exec l.world = some (r', r.2.world) ∧ RelR (NextR R) r.1 r')) ?_
    rintro g ih s l ⟨r, l'⟩ e s' hs
    rw [Seq.filterNext.eq_1]
    exact filter_step (d := true) h (fun s s' hs l r l' e => ih s l _ e s' hs) s s' hs l r l' e

/-- the states of `accumulate` -/
def scanR (R : S → S' → Prop) : Seq.ScanState S γ → Seq.ScanState S' γ → Prop
  | .initial s, .initial s' => R s s'
  | .running s t, .running s' t' => R s s' ∧ t = t'
  | _, _ => False

theorem scan_same {f : γ → α → PyD σ γ} {state : γ} {src : Source (Ledger σ) α S} {it : Iterable σ α S'} (h : Same src it) :
    Same (SeqClose.scan (fun acc x => lift (f acc x)) state src) (Seq.scan f state it) := by
  obtain ⟨R, h⟩ := h
  have hrel : ∀ (st : Seq.ScanState S γ) (st' : Seq.ScanState S' γ), scanR R st st' → Mute (scanRelease src st) := by
    rintro (s | ⟨s, t⟩) (s' | ⟨s', t'⟩) hs
    · exact (h.release s s' hs).quietly
    · cases hs
    · cases hs
    · exact (h.release s s' hs.1).quietly
  refine ⟨scanR R, fun d => Dir.bind (h.iter d) fun s s' hs => Dir.pure hs, ?_, hrel, hrel⟩
  rintro d (s | ⟨s, t⟩) (s' | ⟨s', t'⟩) hs
  · exact Dir.pure ⟨rfl, hs, rfl⟩
  · cases hs
  · cases hs
  · obtain ⟨hs, rfl⟩ := hs
    refine Dir.next h hs (Dir.pure trivial) fun x u u' hu => ?_
    refine Dir.bind (Dir.leaving (h.release _ _ hu) (Dir.lift (f t x))) ?_
    rintro y _ rfl
    exact Dir.pure ⟨rfl, hu, rfl⟩

theorem zip_same {src1 : Source (Ledger σ) α S} {it1 : Iterable σ α S'} {src2 : Source (Ledger σ) β T} {it2 : Iterable σ β T'}
    (h1 : Same src1 it1) (h2 : Same src2 it2) : Same (SeqClose.zip src1 src2) (Seq.zip it1 it2) := by
  obtain ⟨R1, h1⟩ := h1
  obtain ⟨R2, h2⟩ := h2
  have hrel : ∀ (st : S × T) (st' : S' × T'), R1 st.1 st'.1 ∧ R2 st.2 st'.2 → Mute (zipRelease src1 src2 st) := by
    rintro ⟨s, t⟩ ⟨s', t'⟩ ⟨hs, ht⟩
    exact Mute.bind (h1.release _ _ hs) (h2.release _ _ ht).quietly
  refine ⟨fun st st' => R1 st.1 st'.1 ∧ R2 st.2 st'.2, fun d => ?_, ?_, hrel, hrel⟩
  · refine Dir.bind (h1.iter d) fun s s' hs => ?_
    exact Dir.bind (Dir.leaving (h1.release _ _ hs) (h2.iter d)) fun t t' ht => Dir.pure ⟨hs, ht⟩
  · rintro d ⟨s, t⟩ ⟨s', t'⟩ ⟨hs, ht⟩
    refine Dir.nextLeaving h1 hs (h2.release _ _ ht) (Dir.after (h2.release _ _ ht) (Dir.pure trivial)) fun x u u' hu => ?_
    refine Dir.nextLeaving h2 ht (h1.release _ _ hu) (Dir.after (h1.release _ _ hu) (Dir.pure trivial)) fun y v v' hv => ?_
    exact Dir.pure ⟨rfl, hu, hv⟩

/-- the states of `enumerate` -/
def enumR (R : S → S' → Prop) : Option (S × Nat) → Option (S' × Nat) → Prop
  | none, none => True
  | some (s, i), some (s', j) => R s s' ∧ i = j
  | _, _ => False

theorem enumerateExit_mute {src : Source (Ledger σ) α S} {it : Iterable σ α S'} {R : S → S' → Prop} (h : Agrees src it R) :
    ∀ st st', enumR R st st' → Mute (enumerateExit src st) := by
  rintro (_ | ⟨s, i⟩) (_ | ⟨s', j⟩) hs
  · exact Mute.pure _
  · cases hs
  · cases hs
  · exact (h.release s s' hs.1).quietly

theorem skip_step {count : Int} {src : Source (Ledger σ) α S} {it : Iterable σ α S'} {R : S → S' → Prop} (h : Agrees src it R)
    {k : S × Nat → PyD (Ledger σ) (Option (α × Option (S × Nat)))} {k' : S' × Nat → PyD σ (Option (α × Option (S' × Nat)))}
    (hk : ∀ s s' i, R s s' → Dir d (k (s, i)) (k' (s', i)) (NextR (enumR R))) (s : S) (s' : S') (i : Nat) (hs : R s s') :
    Dir d (do
      match ← src.next s with
      | none => pure none
      | some (n, s') => if (i : Int) ≥ count then pure (some (n, some (s', i + 1))) else k (s', i + 1))
      (do
      match ← it.next s' with
      | none => pure none
      | some (n, s') => if (i : Int) ≥ count then pure (some (n, some (s', i + 1))) else k' (s', i + 1)) (NextR (enumR R)) := by
  refine Dir.next h hs (Dir.pure trivial) fun x t t' ht => ?_
  dsimp only
  by_cases hc : (i : Int) ≥ count
  · rw [if_pos hc, if_pos hc]
    exact Dir.pure ⟨rfl, ht, rfl⟩
  · rw [if_neg hc, if_neg hc]
    exact hk t t' _ ht

theorem skip_same {count : Int} {src : Source (Ledger σ) α S} {it : Iterable σ α S'} (h : Same src it) :
    Same (SeqClose.skip count src) (Seq.skip count it) := by
  obtain ⟨R, h⟩ := h
  have hnext : ∀ d s s' i, R s s' → Dir d (SeqClose.skipNext count src (s, i)) (Seq.skipNext count it (s', i)) (NextR (enumR R)) := by
    intro d
    cases d
    · suffices H : ∀ (st' : S' × Nat) w r, (Seq.skipNext count it st').exec w = some r → ∀ s (l : Ledger σ), R s st'.1 → l.world = w →
          ∃ r1 l', (SeqClose.skipNext count src (s, st'.2)).exec l = some (r1, l') ∧ l'.world = r.2 ∧ RelR (NextR (enumR R)) r1 r.1 from
        fun s s' i hs l r' w' e => H (s', i) _ _ e s l hs rfl
      refine Seq.skipNext.fixpoint_induct count it (fun g => ∀ (st' : S' × Nat) w r, (g st').exec w = some r → ∀ s (l : Ledger σ), R s st'.1 →
          l.world = w →
          ∃ r1 l', (SeqClose.skipNext count src (s, st'.2)).exec l = some (r1, l') ∧ l'.world = r.2 ∧ RelR (NextR (enumR R)) r1 r.1)
        (admissible_post1 (fun (st' : S' × Nat) w r => ∀ s (l : Ledger σ), R s st'.1 → l.world = w →
          ∃ r1 l', (SeqClose.skipNext count src (s, st'.2)).exec l = some (r1, l') ∧ l'.world = r.2 ∧ RelR (NextR (enumR R)) r1 r.1)) ?_
      rintro g ih ⟨s', i⟩ w ⟨r, w'⟩ e s l hs rfl
      rw [SeqClose.skipNext.eq_1]
      exact skip_step (d := false) h (fun s s' i hs l r' w' e => ih (s', i) _ _ e s l hs rfl) s s' i hs l r w' e
    · suffices H : ∀ (st : S × Nat) (l : Ledger σ) r, (SeqClose.skipNext count src st).exec l = some r → ∀ s', R st.1 s' →
          ∃ r', (Seq.skipNext count it (s', st.2)).exec l.world = some (r', r.2.world) ∧ RelR (NextR (enumR R)) r.1 r' from
        fun s s' i hs l r l' e => H (s, i) l _ e s' hs
      refine SeqClose.skipNext.fixpoint_induct count src (fun g => ∀ (st : S × Nat) (l : Ledger σ) r, (g st).exec l = some r → ∀ s', R st.1 s' →
          ∃ r', (Seq.skipNext count it (s', st.2)).exec l.world = some (r', r.2.world) ∧ RelR (NextR (enumR R)) r.1 r')
        (admissible_post1 (fun (st : S × Nat) (l : Ledger σ) (r : Except PyErr (Option (α × Option (S × Nat))) × Ledger σ) => ∀ s', R st.1 s' →
          ∃ r', (Seq.skipNext count it (s', st.2)).exec l.world = some (r', r.2.world) ∧ RelR (NextR (enumR R)) r.1 r')) ?_
      rintro g ih ⟨s, i⟩ l ⟨r, l'⟩ e s' hs
      rw [Seq.skipNext.eq_1]
      exact skip_step (d := true) h (fun s s' i hs l r l' e => ih (s, i) l _ e s' hs) s s' i hs l r l' e
  refine ⟨enumR R, fun _ => Dir.pure trivial, ?_, enumerateExit_mute h, enumerateExit_mute h⟩
  rintro d (_ | ⟨s, i⟩) (_ | ⟨s', j⟩) hs
  · exact Dir.bind (h.iter d) fun s s' hs => hnext d s s' 0 hs
  · cases hs
  · cases hs
  · obtain ⟨hs, rfl⟩ := hs
    exact hnext d s s' i hs

theorem take_same {count : Int} {src : Source (Ledger σ) α S} {it : Iterable σ α S'} (h : Same src it) :
    Same (SeqClose.take count src) (Seq.take count it) := by
  obtain ⟨R, h⟩ := h
  unfold SeqClose.take Seq.take
  by_cases hc : count > 0
  · rw [if_pos hc, if_pos hc]
    refine ⟨enumR R, fun _ => Dir.pure trivial, ?_, enumerateExit_mute h, enumerateExit_mute h⟩
    rintro d (_ | ⟨s, i⟩) (_ | ⟨s', j⟩) hs
    · refine Dir.bind (h.iter d) fun s s' hs => ?_
      exact Dir.next h hs (Dir.pure trivial) fun x t t' ht => Dir.pure ⟨rfl, ht, rfl⟩
    · cases hs
    · cases hs
    · obtain ⟨hs, rfl⟩ := hs
      change Dir d (if (i : Int) = count - 1 then _ else _) (if (i : Int) = count - 1 then _ else _) _
      by_cases hi : (i : Int) = count - 1
      · rw [if_pos hi, if_pos hi]
        exact Dir.after (h.release _ _ hs) (Dir.pure trivial)
      · rw [if_neg hi, if_neg hi]
        exact Dir.next h hs (Dir.pure trivial) fun x t t' ht => Dir.pure ⟨rfl, ht, rfl⟩
  · rw [if_neg hc, if_neg hc]
    exact ⟨fun _ _ => True, fun _ => Dir.pure trivial, fun _ _ _ _ => Dir.pure trivial, fun _ _ _ => Mute.pure _, fun _ _ _ => Mute.pure _⟩

theorem pairwise_same {src : Source (Ledger σ) α S} {it : Iterable σ α S'} (h : Same src it) : Same (SeqClose.pairwise src) (Seq.pairwise it) := by
  obtain ⟨R, h⟩ := h
  refine ⟨fun st st' => R st.1 st'.1 ∧ st.2 = st'.2, fun d => Dir.bind (h.iter d) fun s s' hs => Dir.pure ⟨hs, rfl⟩, ?_,
    fun s s' hs => (h.release _ _ hs.1).quietly, fun s s' hs => (h.release _ _ hs.1).quietly⟩
  rintro d ⟨s, _ | old⟩ ⟨s', _⟩ ⟨hs, rfl⟩
  · refine Dir.next h hs (Dir.pure trivial) fun x t t' ht => ?_
    exact Dir.next h ht (Dir.pure trivial) fun y u u' hu => Dir.pure ⟨rfl, hu, rfl⟩
  · exact Dir.next h hs (Dir.pure trivial) fun y u u' hu => Dir.pure ⟨rfl, hu, rfl⟩

/-- the states of the generator of `collect` -/
def collectR (R : S → S' → Prop) : Seq.CollectState S (Source (Ledger σ) β T) T → Seq.CollectState S' (Iterable σ β T') T' → Prop
  | .fresh, .fresh => True
  | .outer s, .outer s' => R s s'
  | .inner s src t, .inner s' it t' => R s s' ∧ ∃ Q, Agrees src it Q ∧ Q t t'
  | _, _ => False

/-- like `NextR`, but the elements are related -/
def NextE {α' : Type} (E : α → α' → Prop) (R : S → S' → Prop) : Option (α × S) → Option (α' × S') → Prop
  | none, none => True
  | some (x, s), some (y, s') => E x y ∧ R s s'
  | _, _ => False

section Collect

variable {α' : Type} {E : α → α' → Prop} {mapping : α → PyD (Ledger σ) (Source (Ledger σ) β T)} {mapping' : α' → PyD σ (Iterable σ β T')}
  {src : Source (Ledger σ) α S} {it : Iterable σ α' S'} {R : S → S' → Prop}

variable {k : Seq.CollectState S (Source (Ledger σ) β T) T → PyD (Ledger σ) (Option (β × Seq.CollectState S (Source (Ledger σ) β T) T))}
  {k' : Seq.CollectState S' (Iterable σ β T') T' → PyD σ (Option (β × Seq.CollectState S' (Iterable σ β T') T'))}

theorem collect_inner (hr : ∀ s s', R s s' → Mute (src.release s))
    (hk : ∀ st st', collectR R st st' → Dir d (k st) (k' st') (NextR (collectR R))) (s : S) (s' : S') (src1 : Source (Ledger σ) β T)
    (it1 : Iterable σ β T') (t : T) (t' : T') (hst : collectR R (.inner s src1 t) (.inner s' it1 t')) :
    Dir d (do
        match ← leaving (src.release s) (src1.next t) with
        | some (y, t') => pure (some (y, .inner s src1 t'))
        | none => k (.outer s))
      (do
        match ← it1.next t' with
        | some (y, t') => pure (some (y, .inner s' it1 t'))
        | none => k' (.outer s')) (NextR (collectR R)) := by
  obtain ⟨hs, Q, hQ, ht⟩ := hst
  exact Dir.nextLeaving hQ ht (hr _ _ hs) (hk _ _ hs) fun x u u' hu => Dir.pure ⟨rfl, hs, Q, hQ, hu⟩

theorem collect_same' (hm : ∀ d x y, E x y → Dir d (mapping x) (mapping' y) Same) (hi : ∀ d, Dir d src.iter it.iter R)
    (hn : ∀ d s s', R s s' → Dir d (src.next s) (it.next s') (NextE E R)) (hr : ∀ s s', R s s' → Mute (src.release s)) :
    Same (SeqClose.collect mapping src) (Seq.collect mapping' it) := by
  have hrel : ∀ (st : Seq.CollectState S (Source (Ledger σ) β T) T) (st' : Seq.CollectState S' (Iterable σ β T') T'), collectR R st st' →
      Mute (collectExit src st) := by
    rintro (_ | s | ⟨s, src1, t⟩) (_ | s' | ⟨s', it1, t'⟩) hst
    · exact Mute.pure _
    · cases hst
    · cases hst
    · cases hst
    · exact (hr _ _ hst).quietly
    · cases hst
    · cases hst
    · cases hst
    · obtain ⟨hs, Q, hQ, ht⟩ := hst
      exact Mute.bind (hQ.close _ _ ht) (hr _ _ hs).quietly
  refine ⟨collectR R, fun _ => Dir.pure trivial, ?_, hrel, hrel⟩
  intro d
  cases d
  · suffices H : ∀ st' w r, (Seq.collectNext mapping' it st').exec w = some r → ∀ st (l : Ledger σ), collectR R st st' → l.world = w →
        ∃ r1 l', (SeqClose.collectNext mapping src st).exec l = some (r1, l') ∧ l'.world = r.2 ∧ RelR (NextR (collectR R)) r1 r.1 from
      fun st st' hs l r' w' e => H st' _ _ e st l hs rfl
    refine Seq.collectNext.fixpoint_induct mapping' it (fun g => ∀ st' w r, (g st').exec w = some r → ∀ st (l : Ledger σ), collectR R st st' →
        l.world = w →
        ∃ r1 l', (SeqClose.collectNext mapping src st).exec l = some (r1, l') ∧ l'.world = r.2 ∧ RelR (NextR (collectR R)) r1 r.1)
      (admissible_post1 (fun st' w r => ∀ st (l : Ledger σ), collectR R st st' → l.world = w →
        ∃ r1 l', (SeqClose.collectNext mapping src st).exec l = some (r1, l') ∧ l'.world = r.2 ∧ RelR (NextR (collectR R)) r1 r.1)) ?_
    rintro g ih st' w ⟨r, w'⟩ e st l hs rfl
    have hk : ∀ st st', collectR R st st' → Dir false (SeqClose.collectNext mapping src st) (g st') (NextR (collectR R)) :=
      fun st st' hs l r' w' e => ih st' _ _ e st l hs rfl
    rcases st with _ | s | ⟨s, src1, t⟩ <;> rcases st' with _ | s' | ⟨s', it1, t'⟩
    · rw [SeqClose.collectNext.eq_1]
      exact Dir.bind (d := false) (hi false) (fun s s' hs => hk (.outer s) (.outer s') hs) l r w' e
    · cases hs
    · cases hs
    · cases hs
    · rw [SeqClose.collectNext.eq_2]
      refine Dir.bind (d := false) (hn false s s' hs) ?_ l r w' e
      rintro (_ | ⟨x, u⟩) (_ | ⟨y, u'⟩) h1
      · exact Dir.pure trivial
      · cases h1
      · cases h1
      · obtain ⟨hx, hu⟩ := h1
        refine Dir.bind (Dir.leaving (hr _ _ hu) (hm false x y hx)) ?_
        rintro src1 it1 ⟨Q, hQ⟩
        exact Dir.bind (Dir.leaving (hr _ _ hu) (hQ.iter false)) fun t t' ht => hk (.inner _ _ _) (.inner _ _ _) ⟨hu, Q, hQ, ht⟩
    · cases hs
    · cases hs
    · cases hs
    · rw [SeqClose.collectNext.eq_3]
      exact collect_inner (d := false) hr hk s s' src1 it1 t t' hs l r w' e
  · suffices H : ∀ st (l : Ledger σ) r, (SeqClose.collectNext mapping src st).exec l = some r → ∀ st', collectR R st st' →
        ∃ r', (Seq.collectNext mapping' it st').exec l.world = some (r', r.2.world) ∧ RelR (NextR (collectR R)) r.1 r' from
      fun st st' hs l r l' e => H st l _ e st' hs
    refine SeqClose.collectNext.fixpoint_induct mapping src (fun g => ∀ st (l : Ledger σ) r, (g st).exec l = some r → ∀ st', collectR R st st' →
        ∃ r', (Seq.collectNext mapping' it st').exec l.world = some (r', r.2.world) ∧ RelR (NextR (collectR R)) r.1 r')
      (admissible_post1 (fun st (l : Ledger σ) (r : Except PyErr (Option (β × Seq.CollectState S (Source (Ledger σ) β T) T)) × Ledger σ) =>
        ∀ st', collectR R st st' →
        ∃ r', (Seq.collectNext mapping' it st').exec l.world = some (r', r.2.world) ∧ RelR (NextR (collectR R)) r.1 r')) ?_
    rintro g ih st l ⟨r, l'⟩ e st' hs
    have hk : ∀ st st', collectR R st st' → Dir true (g st) (Seq.collectNext mapping' it st') (NextR (collectR R)) :=
      fun st st' hs l r l' e => ih st l _ e st' hs
    rcases st with _ | s | ⟨s, src1, t⟩ <;> rcases st' with _ | s' | ⟨s', it1, t'⟩
    · rw [Seq.collectNext.eq_1]
      exact Dir.bind (d := true) (hi true) (fun s s' hs => hk (.outer s) (.outer s') hs) l r l' e
    · cases hs
    · cases hs
    · cases hs
    · rw [Seq.collectNext.eq_2]
      refine Dir.bind (d := true) (hn true s s' hs) ?_ l r l' e
      rintro (_ | ⟨x, u⟩) (_ | ⟨y, u'⟩) h1
      · exact Dir.pure trivial
      · cases h1
      · cases h1
      · obtain ⟨hx, hu⟩ := h1
        refine Dir.bind (Dir.leaving (hr _ _ hu) (hm true x y hx)) ?_
        rintro src1 it1 ⟨Q, hQ⟩
        exact Dir.bind (Dir.leaving (hr _ _ hu) (hQ.iter true)) fun t t' ht => hk (.inner _ _ _) (.inner _ _ _) ⟨hu, Q, hQ, ht⟩
    · cases hs
    · cases hs
    · cases hs
    · rw [Seq.collectNext.eq_3]
      exact collect_inner (d := true) hr hk s s' src1 it1 t t' hs l r l' e

end Collect

theorem collect_same {mapping : α → PyD (Ledger σ) (Source (Ledger σ) β T)} {mapping' : α → PyD σ (Iterable σ β T')}
    (hm : ∀ d x, Dir d (mapping x) (mapping' x) Same) {src : Source (Ledger σ) α S} {it : Iterable σ α S'} (h : Same src it) :
    Same (SeqClose.collect mapping src) (Seq.collect mapping' it) := by
  obtain ⟨R, h⟩ := h
  refine collect_same' (E := Eq) (R := R) (fun d x y e => e ▸ hm d x) h.iter (fun d s s' hs => (h.next d s s' hs).mono ?_) h.release
  rintro (_ | ⟨x, u⟩) (_ | ⟨y, u'⟩) h1
  · trivial
  · cases h1
  · cases h1
  · exact h1

theorem choose_same {f : α → PyD σ (Option β)} {src : Source (Ledger σ) α S} {it : Iterable σ α S'} (h : Same src it) :
    Same (SeqClose.choose (fun x => lift (f x)) src) (Seq.choose f it) := by
  refine collect_same (fun d x => Dir.bind (Dir.lift (f x)) ?_) h
  rintro o _ rfl
  exact Dir.pure (ofList_same _)

theorem inLeft_same {src : Source (Ledger σ) α S} {it : Iterable σ α S'} (T T' : Type) (h : Same src it) : Same (inLeft src T) (onLeft it T') := by
  obtain ⟨R, h⟩ := h
  refine ⟨fun st st' => ∃ s s', st = .inl s ∧ st' = .inl s' ∧ R s s', fun d => Dir.bind (h.iter d) fun s s' hs => Dir.pure ⟨s, s', rfl, rfl, hs⟩, ?_, ?_, ?_⟩
  · rintro d _ _ ⟨s, s', rfl, rfl, hs⟩
    exact Dir.next h hs (Dir.pure trivial) fun x t t' ht => Dir.pure ⟨rfl, t, t', rfl, rfl, ht⟩
  · rintro _ _ ⟨s, s', rfl, rfl, hs⟩
    exact h.release s s' hs
  · rintro _ _ ⟨s, s', rfl, rfl, hs⟩
    exact h.close s s' hs

theorem inRight_same {src : Source (Ledger σ) α T} {it : Iterable σ α T'} (S S' : Type) (h : Same src it) : Same (inRight S src) (onRight S' it) := by
  obtain ⟨R, h⟩ := h
  refine ⟨fun st st' => ∃ s s', st = .inr s ∧ st' = .inr s' ∧ R s s', fun d => Dir.bind (h.iter d) fun s s' hs => Dir.pure ⟨s, s', rfl, rfl, hs⟩, ?_, ?_, ?_⟩
  · rintro d _ _ ⟨s, s', rfl, rfl, hs⟩
    exact Dir.next h hs (Dir.pure trivial) fun x t t' ht => Dir.pure ⟨rfl, t, t', rfl, rfl, ht⟩
  · rintro _ _ ⟨s, s', rfl, rfl, hs⟩
    exact h.release s s' hs
  · rintro _ _ ⟨s, s', rfl, rfl, hs⟩
    exact h.close s s' hs

/-- two lists of the same length, their elements related -/
inductive All2 (E : α → β → Prop) : List α → List β → Prop
  | nil : All2 E [] []
  | cons {x y xs ys} (h : E x y) (t : All2 E xs ys) : All2 E (x :: xs) (y :: ys)

theorem append_same {p : Source (Ledger σ) α S} {p' : Iterable σ α S'} {q : Source (Ledger σ) α T} {q' : Iterable σ α T'} (hp : Same p p')
    (hq : Same q q') : Same (SeqClose.append [inRight S q] (inLeft p T)) (Seq.append [onRight S' q'] (onLeft p' T')) := by
  refine collect_same' (E := Same) (R := All2 Same) (fun d x y h => Dir.pure h) (fun d => Dir.pure ?_) ?_ (fun _ _ _ => Mute.pure _)
  · exact .cons (inLeft_same T T' hp) (.cons (inRight_same S S' hq) .nil)
  · rintro d _ _ (_ | ⟨h1, h2⟩)
    · exact Dir.pure trivial
    · exact Dir.pure ⟨h1, h2⟩

theorem delay_same {generator : PyD (Ledger σ) (Source (Ledger σ) α T)} {generator' : PyD σ (Iterable σ α T')}
    (h : ∀ d, Dir d generator generator' Same) : Same (SeqClose.delay generator) (Seq.delay generator') := by
  have hrel : ∀ (st : Source (Ledger σ) α T × T) (st' : Iterable σ α T' × T'), (∃ Q, Agrees st.1 st'.1 Q ∧ Q st.2 st'.2) →
      Mute (quietly (st.1.release st.2)) := by
    rintro _ _ ⟨Q, hQ, ht⟩
    exact (hQ.release _ _ ht).quietly
  refine ⟨fun st st' => ∃ Q, Agrees st.1 st'.1 Q ∧ Q st.2 st'.2, fun d => Dir.bind (h d) ?_, ?_, hrel, hrel⟩
  · rintro src it ⟨Q, hQ⟩
    exact Dir.bind (hQ.iter d) fun s s' hs => Dir.pure ⟨Q, hQ, hs⟩
  · rintro d ⟨src, s⟩ ⟨it, s'⟩ ⟨Q, hQ, hs⟩
    exact Dir.next hQ hs (Dir.pure trivial) fun x t t' ht => Dir.pure ⟨rfl, Q, hQ, ht⟩

/-! ### Supplied sequences, and pipelines -/

theorem note_mute (a b : Int) : Mute (note (σ := σ) a b) := fun l => ⟨_, _, rfl, rfl⟩

theorem mute_seq {p q : PyD (Ledger σ) Unit} (hp : ∀ l, ∃ l', p.exec l = some (.ok (), l') ∧ l'.world = l.world) (hq : Mute q) :
    Mute (p >>= fun _ => q) := by
  intro l
  obtain ⟨l1, e1, hw1⟩ := hp l
  obtain ⟨r2, l2, e2, hw2⟩ := hq l1
  exact ⟨r2, l2, (exec_bind_ok e1).trans e2, hw2.trans hw1⟩

theorem cleanup_ok {r : Root σ α S} (h : Root.Silent r) (s : S) (l : Ledger σ) :
    ∃ l', (lift (quietly (r.cleanup s))).exec l = some (.ok (), l') ∧ l'.world = l.world := by
  obtain ⟨res, e⟩ := h s l.world
  exact ⟨_, lift_exec (quietly_exec e), rfl⟩

theorem root_same {r : Root σ α S} (h : Root.Silent r) : Same r.source r.iterable := by
  refine ⟨Eq, fun d => ?_, ?_, ?_, ?_⟩
  · have e : r.iterable.iter = (r.iterable.iter >>= fun s => pure s) := (bind_pure _).symm
    rw [e]
    refine Dir.bind (Dir.lift r.iterable.iter) ?_
    rintro s _ rfl
    cases hk : r.kept with
    | true => exact Dir.pure rfl
    | false =>
      cases d
      · intro l r' w' e
        obtain ⟨rfl, rfl⟩ := Prod.mk.inj (Option.some.inj e)
        exact ⟨_, _, rfl, rfl, rfl⟩
      · intro l r' l' e
        obtain ⟨rfl, rfl⟩ := Prod.mk.inj (Option.some.inj e)
        exact ⟨_, rfl, rfl⟩
  · rintro d s _ rfl
    have hrefl : ∀ res : Except PyErr (Option (α × S)), RelR (NextR Eq) res res := by
      rintro (_ | _ | ⟨x, t⟩)
      · rfl
      · trivial
      · exact ⟨rfl, rfl⟩
    cases d
    · intro l r' w' e
      rw [root_next_exec, lift_exec e]
      rcases r' with er | _ | ⟨x, t⟩
      · exact ⟨_, _, rfl, rfl, hrefl _⟩
      · exact ⟨_, _, rfl, rfl, hrefl _⟩
      · exact ⟨_, _, rfl, rfl, hrefl _⟩
    · intro l res l' e
      rw [root_next_exec] at e
      rcases hq : (r.iterable.next s).exec l.world with _ | ⟨er | _ | ⟨x, t⟩, w1⟩
      · have : (lift (r.iterable.next s)).exec l = none := by
          change lift (r.iterable.next s) l = _
          unfold lift
          rw [hq]
        rw [this] at e
        cases e
      all_goals
        rw [lift_exec hq] at e
        obtain ⟨rfl, rfl⟩ := Prod.mk.inj (Option.some.inj e)
        exact ⟨_, rfl, hrefl _⟩
  · rintro s _ rfl
    change Mute (if r.kept then _ else _)
    cases r.kept with
    | true => exact Mute.pure _
    | false => exact mute_seq (cleanup_ok h s) (note_mute _ _)
  · rintro s _ rfl
    refine mute_seq (cleanup_ok h s) ?_
    cases r.kept with
    | true => exact note_mute _ _
    | false => exact note_mute _ _

theorem pipe_same : {α : Type} → (p : Pipe σ α) → Silent p → Same p.build.2 (plain p).2
  | _, .root _, h => root_same h
  | _, .list xs, _ => ofList_same xs
  | _, .seq p, h => seq_same (pipe_same p h)
  | _, .map _ p, h => map_same (pipe_same p h)
  | _, .filter _ p, h => filter_same (pipe_same p h)
  | _, .choose _ p, h => choose_same (pipe_same p h)
  | _, .scan _ _ p, h => scan_same (pipe_same p h)
  | _, .skip _ p, h => skip_same (pipe_same p h)
  | _, .take _ p, h => take_same (pipe_same p h)
  | _, .pairwise p, h => pairwise_same (pipe_same p h)
  | _, .zip p q, h => zip_same (pipe_same p h.1) (pipe_same q h.2)
  | _, .append p q, h => append_same (pipe_same p h.1) (pipe_same q h.2)
  | _, .collect f p, h => collect_same (fun d x => Dir.bind (Dir.lift_post (h.1 x)) (by
      rintro r _ ⟨rfl, hr⟩
      exact Dir.pure (root_same hr))) (pipe_same p h.2)
  | _, .delay f, h => delay_same fun d => Dir.bind (Dir.lift_post h) (by
      rintro r _ ⟨rfl, hr⟩
      exact Dir.pure (root_same hr))

end Expression.Lemmas.SeqCloseSim
