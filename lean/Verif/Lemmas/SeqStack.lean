import Verif.Spec.SeqStack
import Verif.Spec.Sim
import Verif.Lemmas.PyD
import Verif.Lemmas.Const

/-! Iterating over sequences on a bounded stack. -/

namespace Expression.Lemmas.SeqStack

open Expression Spec PyD

variable {σ α β γ δ S S' T T' C : Type}

/-- a `RecursionError` -/
def Ov (r : Except PyErr α × σ) : Prop := ∃ w', r = (.error .recursionError, w')

/-- where `p` ends, it raises `RecursionError` or `q` ends in the same way -/
def HA (R : α → β → Prop) (p : PyD σ α) (q : PyD σ β) : Prop :=
  ∀ w r, p.exec w = some r → Ov r ∨ ∃ r', q.exec w = some r' ∧ SameOutcome R r r'

/-- where `q` ends, `p` ends with a `RecursionError` or in the same way -/
def HB (R : α → β → Prop) (p : PyD σ α) (q : PyD σ β) : Prop :=
  ∀ w r', q.exec w = some r' → ∃ r, p.exec w = some r ∧ (Ov r ∨ SameOutcome R r r')

theorem HA.pure {R : α → β → Prop} {a : α} {b : β} (h : R a b) : HA (σ := σ) R (Pure.pure a) (Pure.pure b) := by
  intro w r hr
  cases hr
  exact .inr ⟨_, rfl, h, rfl⟩

theorem HB.pure {R : α → β → Prop} {a : α} {b : β} (h : R a b) : HB (σ := σ) R (Pure.pure a) (Pure.pure b) := by
  intro w r hr
  cases hr
  exact ⟨_, rfl, .inr ⟨h, rfl⟩⟩

theorem HA.over {R : α → β → Prop} (q : PyD σ β) : HA R (PyD.raise .recursionError) q := by
  intro w r hr
  cases hr
  exact .inl ⟨w, rfl⟩

theorem HB.over {R : α → β → Prop} (q : PyD σ β) : HB R (PyD.raise .recursionError) q := by
  intro w r hr
  exact ⟨_, rfl, .inl ⟨w, rfl⟩⟩

theorem HA.bind {R : α → β → Prop} {Q : γ → δ → Prop} {p : PyD σ α} {q : PyD σ β} {f : α → PyD σ γ} {g : β → PyD σ δ}
    (h : HA R p q) (hf : ∀ a b, R a b → HA Q (f a) (g b)) : HA Q (p >>= f) (q >>= g) := by
  intro w r hr
  rw [exec_bind] at hr
  rcases hp : p.exec w with _ | ⟨e | a, w1⟩ <;> rw [hp] at hr <;> simp only at hr
  · cases hr
  · cases hr
    rcases h w _ hp with ⟨w', e1⟩ | ⟨⟨e' | b, w2⟩, hq, hs⟩
    · cases e1; exact .inl ⟨_, rfl⟩
    · refine .inr ⟨(.error e', w2), ?_, hs⟩
      rw [exec_bind, hq]
    · exact absurd hs id
  · rcases h w _ hp with ⟨w', e1⟩ | ⟨⟨e' | b, w2⟩, hq, hs⟩
    · cases e1
    · exact absurd hs id
    · obtain ⟨hab, rfl⟩ := hs
      rcases hf a b hab w1 r hr with h1 | ⟨r', h1, h2⟩
      · exact .inl h1
      · refine .inr ⟨r', ?_, h2⟩
        rw [exec_bind, hq]; exact h1

theorem HB.bind {R : α → β → Prop} {Q : γ → δ → Prop} {p : PyD σ α} {q : PyD σ β} {f : α → PyD σ γ} {g : β → PyD σ δ}
    (h : HB R p q) (hf : ∀ a b, R a b → HB Q (f a) (g b)) : HB Q (p >>= f) (q >>= g) := by
  intro w r hr
  rw [exec_bind] at hr
  rcases hq : q.exec w with _ | ⟨e | b, w1⟩ <;> rw [hq] at hr <;> simp only at hr
  · cases hr
  · cases hr
    obtain ⟨⟨e' | a, w2⟩, hp, ⟨w', e1⟩ | hs⟩ := h w _ hq
    · cases e1
      exact ⟨(.error .recursionError, w2), by rw [exec_bind, hp], .inl ⟨_, rfl⟩⟩
    · exact ⟨(.error e', w2), by rw [exec_bind, hp], .inr hs⟩
    · cases e1
    · exact absurd hs id
  · obtain ⟨⟨e' | a, w2⟩, hp, ⟨w', e1⟩ | hs⟩ := h w _ hq
    · cases e1
      exact ⟨(.error .recursionError, w2), by rw [exec_bind, hp], .inl ⟨_, rfl⟩⟩
    · exact absurd hs id
    · cases e1
    · obtain ⟨hab, rfl⟩ := hs
      obtain ⟨r1, h1, h2⟩ := hf a b hab w2 r hr
      exact ⟨r1, by rw [exec_bind, hp]; exact h1, h2⟩

/-- both halves: what `q` does, with related results, or `RecursionError` -/
def Both (R : α → β → Prop) (p : PyD σ α) (q : PyD σ β) : Prop := HA R p q ∧ HB R p q

theorem Both.pure {R : α → β → Prop} {a : α} {b : β} (h : R a b) : Both (σ := σ) R (Pure.pure a) (Pure.pure b) := ⟨.pure h, .pure h⟩
theorem Both.over {R : α → β → Prop} (q : PyD σ β) : Both R (PyD.raise .recursionError) q := ⟨.over q, .over q⟩
theorem Both.bind {R : α → β → Prop} {Q : γ → δ → Prop} {p : PyD σ α} {q : PyD σ β} {f : α → PyD σ γ} {g : β → PyD σ δ}
    (h : Both R p q) (hf : ∀ a b, R a b → Both Q (f a) (g b)) : Both Q (p >>= f) (q >>= g) :=
  ⟨h.1.bind (fun a b r => (hf a b r).1), h.2.bind (fun a b r => (hf a b r).2)⟩

theorem sameOutcome_eq {r r' : Except PyErr α × σ} : SameOutcome Eq r r' ↔ r = r' := by
  rcases r with ⟨_ | _, _⟩ <;> rcases r' with ⟨_ | _, _⟩ <;> simp [SameOutcome]

theorem Both.of_or {p q : PyD σ α} (h : OrRecursionError p q) : Both Eq p q := by
  constructor
  · intro w r hr
    rcases h w with h | ⟨w', h⟩
    · exact .inr ⟨r, by rw [← h, hr], sameOutcome_eq.2 rfl⟩
    · rw [h] at hr; cases hr; exact .inl ⟨_, rfl⟩
  · intro w r hr
    rcases h w with h | ⟨w', h⟩
    · exact ⟨r, by rw [h, hr], .inr (sameOutcome_eq.2 rfl)⟩
    · exact ⟨_, h, .inl ⟨_, rfl⟩⟩

theorem Both.refl (p : PyD σ α) : Both Eq p p := .of_or (fun _ => .inl rfl)

theorem Both.or {p q : PyD σ α} (h : Both Eq p q) : OrRecursionError p q := by
  intro w
  rcases hp : p.exec w with _ | r
  · rcases hq : q.exec w with _ | r'
    · exact .inl rfl
    · obtain ⟨r, h1, -⟩ := h.2 w r' hq
      rw [hp] at h1; cases h1
  · rcases h.1 w r hp with ⟨w', e⟩ | ⟨r', h1, h2⟩
    · exact .inr ⟨w', by rw [e]⟩
    · rw [h1, sameOutcome_eq.1 h2]; exact .inl rfl

/-- results of `next`, with related elements and states -/
inductive Nexts (E : α → β → Prop) (R : S → S' → Prop) : Option (α × S) → Option (β × S') → Prop
  | none : Nexts E R none none
  | some {x : α} {y : β} {s : S} {s' : S'} : E x y → R s s' → Nexts E R (some (x, s)) (some (y, s'))

/-- iterating over `q` is iterating over `it`, or raises `RecursionError` -/
structure Follows (E : α → β → Prop) (R : S → S' → Prop) (q : Iterable σ α S) (it : Iterable σ β S') : Prop where
  iter : Both R q.iter it.iter
  next : ∀ s s', R s s' → Both (Nexts E R) (q.next s) (it.next s')

/-- such on every stack -/
def Same (q : FrameSeq σ α S) (it : Iterable σ α S') : Prop := ∃ R : S → S' → Prop, ∀ free, Follows Eq R (q free) it

theorem Same.generator {q : FrameSeq σ α S} {it : Iterable σ α S'} (h : Same q it) : Same (.generator (pure ()) q) it := by
  obtain ⟨R, h⟩ := h
  refine ⟨R, fun free => ?_⟩
  cases free with
  | zero => exact ⟨.over _, fun _ _ _ => .over _⟩
  | succ n => exact ⟨(h n).iter, (h n).next⟩

theorem Same.seqGen {q : FrameSeq σ α S} {it : Iterable σ α S'} (h : Same q it) : Same (.seqGen (pure ()) q) it := h.generator.generator

theorem Nexts.refl (x : Option (α × S)) : Nexts Eq Eq x x := by
  rcases x with _ | ⟨x, s⟩
  · exact .none
  · exact .some rfl rfl

theorem HA.mono {R Q : α → β → Prop} {p : PyD σ α} {q : PyD σ β} (h : HA R p q) (hRQ : ∀ a b, R a b → Q a b) : HA Q p q := by
  intro w r hr
  rcases h w r hr with h | ⟨r', h1, h2⟩
  · exact .inl h
  · refine .inr ⟨r', h1, ?_⟩
    rcases r with ⟨_ | _, _⟩ <;> rcases r' with ⟨_ | _, _⟩ <;> first | exact h2 | exact ⟨hRQ _ _ h2.1, h2.2⟩

theorem HB.mono {R Q : α → β → Prop} {p : PyD σ α} {q : PyD σ β} (h : HB R p q) (hRQ : ∀ a b, R a b → Q a b) : HB Q p q := by
  intro w r hr
  obtain ⟨r', h1, h2 | h2⟩ := h w r hr
  · exact ⟨r', h1, .inl h2⟩
  · refine ⟨r', h1, .inr ?_⟩
    rcases r with ⟨_ | _, _⟩ <;> rcases r' with ⟨_ | _, _⟩ <;> first | exact h2 | exact ⟨hRQ _ _ h2.1, h2.2⟩

theorem Both.mono {R Q : α → β → Prop} {p : PyD σ α} {q : PyD σ β} (h : Both R p q) (hRQ : ∀ a b, R a b → Q a b) : Both Q p q :=
  ⟨h.1.mono hRQ, h.2.mono hRQ⟩

theorem Same.source {q : FrameSeq σ α S} {it : Iterable σ α S} (hi : ∀ free, OrRecursionError (q free).iter it.iter)
    (hn : ∀ free s, OrRecursionError ((q free).next s) (it.next s)) : Same q it := by
  refine ⟨Eq, fun free => ⟨.of_or (hi free), ?_⟩⟩
  rintro s _ rfl
  exact (Both.of_or (hn free s)).mono (by rintro a _ rfl; exact Nexts.refl a)

theorem Same.ofList (xs : List α) : Same (σ := σ) (.ofList xs) (.ofList xs) :=
  .source (fun _ _ => .inl rfl) (fun _ _ _ => .inl rfl)

inductive OptR (R : S → S' → Prop) : Option S → Option S' → Prop
  | none : OptR R none none
  | some {s : S} {s' : S'} : R s s' → OptR R (some s) (some s')

theorem started_both {R : S → S' → Prop} {q : Iterable σ α S} {it : Iterable σ α S'} (h : Follows Eq R q it) {o : Option S} {o' : Option S'}
    (ho : OptR R o o') : Both R (Seq.started q o) (Seq.started it o') := by
  cases ho with
  | none => exact h.iter
  | some hr => exact .pure hr

theorem Same.map {F : Nat → α → PyD σ β} {f : α → PyD σ β} (hf : ∀ free x, OrRecursionError (F free x) (f x))
    {q : FrameSeq σ α S} {it : Iterable σ α S'} (h : Same q it) : Same (.map (pure ()) F q) (Seq.map f it) := by
  obtain ⟨R, h⟩ := h
  refine Same.seqGen ⟨OptR R, fun free => ⟨.pure .none, fun s s' hs => ?_⟩⟩
  refine (started_both (h free) hs).bind fun a b hab => ((h free).next a b hab).bind ?_
  rintro _ _ (_ | ⟨⟨rfl⟩, hr⟩)
  · exact .pure .none
  · refine (Both.of_or (hf free _)).bind ?_
    rintro y _ rfl
    exact .pure (.some rfl (.some hr))

/-- states of `collect` -/
inductive ColR (R : S → S' → Prop) (I : Iterable σ β T → T → Iterable σ β T' → T' → Prop) :
    Seq.CollectState S (Iterable σ β T) T → Seq.CollectState S' (Iterable σ β T') T' → Prop
  | fresh : ColR R I .fresh .fresh
  | outer {s s'} : R s s' → ColR R I (.outer s) (.outer s')
  | inner {s s' i i' t t'} : R s s' → I i t i' t' → ColR R I (.inner s i t) (.inner s' i' t')

/-- an iterator over one of the inner sequences -/
def InR (i : Iterable σ β T) (t : T) (i' : Iterable σ β T') (t' : T') : Prop := ∃ Q : T → T' → Prop, Follows Eq Q i i' ∧ Q t t'

section collect

variable {E : α → γ → Prop} {R : S → S' → Prop} {q : Iterable σ α S} {it : Iterable σ γ S'} {F : α → PyD σ (Iterable σ β T)}
  {f : γ → PyD σ (Iterable σ β T')}

theorem collect_HA (h : Follows E R q it) (hf : ∀ x y, E x y → Both (fun i i' => ∃ Q : T → T' → Prop, Follows Eq Q i i') (F x) (f y)) :
    ∀ st st', ColR R InR st st' → HA (Nexts Eq (ColR R InR)) (Seq.collectNext F q st) (Seq.collectNext f it st') := by
  suffices hm : ∀ st w r, (Seq.collectNext F q st).exec w = some r → ∀ st', ColR R InR st st' →
      (Ov r ∨ ∃ r', (Seq.collectNext f it st').exec w = some r' ∧ SameOutcome (Nexts Eq (ColR R InR)) r r') from
    fun st st' hs w r hr => hm st w r hr st' hs
  refine Seq.collectNext.fixpoint_induct F q
    (fun (g : Seq.CollectState S (Iterable σ β T) T → PyD σ (Option (β × Seq.CollectState S (Iterable σ β T) T))) =>
      ∀ st w r, (g st).exec w = some r → ∀ st', ColR R InR st st' →
      (Ov r ∨ ∃ r', (Seq.collectNext f it st').exec w = some r' ∧ SameOutcome (Nexts Eq (ColR R InR)) r r'))
    (admissible_post1 (fun st w r => ∀ st', ColR R InR st st' →
      (Ov r ∨ ∃ r', (Seq.collectNext f it st').exec w = some r' ∧ SameOutcome (Nexts Eq (ColR R InR)) r r'))) ?_
  intro g ih st w r hr st' hs
  have ih' : ∀ st st', ColR R InR st st' → HA (Nexts Eq (ColR R InR)) (g st) (Seq.collectNext f it st') :=
    fun st st' hs w r hr => ih st w r hr st' hs
  refine (show HA (Nexts Eq (ColR R InR)) _ (Seq.collectNext f it st') from ?_) w r hr
  rw [Seq.collectNext.eq_def]
  cases hs with
  | fresh => exact h.iter.1.bind fun a b hab => ih' _ _ (.outer hab)
  | outer hr1 =>
    refine (h.next _ _ hr1).1.bind ?_
    rintro _ _ (_ | ⟨he, hr2⟩)
    · exact .pure .none
    · refine (hf _ _ he).1.bind ?_
      rintro i i' ⟨Q, hQ⟩
      exact hQ.iter.1.bind fun t t' ht => ih' _ _ (.inner hr2 ⟨Q, hQ, ht⟩)
  | inner hr1 hin =>
    obtain ⟨Q, hQ, ht⟩ := hin
    refine (hQ.next _ _ ht).1.bind ?_
    rintro _ _ (_ | ⟨⟨rfl⟩, hr2⟩)
    · exact ih' _ _ (.outer hr1)
    · exact .pure (.some rfl (.inner hr1 ⟨Q, hQ, hr2⟩))

theorem collect_HB (h : Follows E R q it) (hf : ∀ x y, E x y → Both (fun i i' => ∃ Q : T → T' → Prop, Follows Eq Q i i') (F x) (f y)) :
    ∀ st st', ColR R InR st st' → HB (Nexts Eq (ColR R InR)) (Seq.collectNext F q st) (Seq.collectNext f it st') := by
  suffices hm : ∀ st' w r', (Seq.collectNext f it st').exec w = some r' → ∀ st, ColR R InR st st' →
      ∃ r, (Seq.collectNext F q st).exec w = some r ∧ (Ov r ∨ SameOutcome (Nexts Eq (ColR R InR)) r r') from
    fun st st' hs w r hr => hm st' w r hr st hs
  refine Seq.collectNext.fixpoint_induct f it
    (fun (g : Seq.CollectState S' (Iterable σ β T') T' → PyD σ (Option (β × Seq.CollectState S' (Iterable σ β T') T'))) =>
      ∀ st' w r', (g st').exec w = some r' → ∀ st, ColR R InR st st' →
      ∃ r, (Seq.collectNext F q st).exec w = some r ∧ (Ov r ∨ SameOutcome (Nexts Eq (ColR R InR)) r r'))
    (admissible_post1 (fun st' w r' => ∀ st, ColR R InR st st' →
      ∃ r, (Seq.collectNext F q st).exec w = some r ∧ (Ov r ∨ SameOutcome (Nexts Eq (ColR R InR)) r r'))) ?_
  intro g ih st' w r hr st hs
  have ih' : ∀ st st', ColR R InR st st' → HB (Nexts Eq (ColR R InR)) (Seq.collectNext F q st) (g st') :=
    fun st st' hs w r hr => ih st' w r hr st hs
  refine (show HB (Nexts Eq (ColR R InR)) (Seq.collectNext F q st) _ from ?_) w r hr
  rw [Seq.collectNext.eq_def]
  cases hs with
  | fresh => exact h.iter.2.bind fun a b hab => ih' _ _ (.outer hab)
  | outer hr1 =>
    refine (h.next _ _ hr1).2.bind ?_
    rintro _ _ (_ | ⟨he, hr2⟩)
    · exact .pure .none
    · refine (hf _ _ he).2.bind ?_
      rintro i i' ⟨Q, hQ⟩
      exact hQ.iter.2.bind fun t t' ht => ih' _ _ (.inner hr2 ⟨Q, hQ, ht⟩)
  | inner hr1 hin =>
    obtain ⟨Q, hQ, ht⟩ := hin
    refine (hQ.next _ _ ht).2.bind ?_
    rintro _ _ (_ | ⟨⟨rfl⟩, hr2⟩)
    · exact ih' _ _ (.outer hr1)
    · exact .pure (.some rfl (.inner hr1 ⟨Q, hQ, hr2⟩))

theorem collect_follows (h : Follows E R q it) (hf : ∀ x y, E x y → Both (fun i i' => ∃ Q : T → T' → Prop, Follows Eq Q i i') (F x) (f y)) :
    Follows Eq (ColR R InR) (Seq.collect F q) (Seq.collect f it) :=
  ⟨.pure .fresh, fun st st' hs => ⟨collect_HA h hf st st' hs, collect_HB h hf st st' hs⟩⟩

end collect

theorem Same.collect {ι : Type} {F : Nat → α → PyD σ ι} {f : α → PyD σ ι} (hf : ∀ free x, OrRecursionError (F free x) (f x))
    {qs : ι → FrameSeq σ β T} {its : ι → Iterable σ β T'} (hi : ∀ i, Same (qs i) (its i))
    {q : FrameSeq σ α S} {it : Iterable σ α S'} (h : Same q it) :
    Same (.collect (pure ()) (fun free x => do pure (qs (← F free x))) q) (Seq.collect (fun x => do pure (its (← f x))) it) := by
  obtain ⟨R, h⟩ := h
  refine Same.seqGen ⟨ColR R InR, fun free => collect_follows (E := Eq) (h free) ?_⟩
  rintro x _ rfl
  have : Both (fun i i' => i = i') (F free x) (f x) := .of_or (hf free x)
  rw [bind_assoc]
  refine this.bind ?_
  rintro i _ rfl
  obtain ⟨Q, hQ⟩ := hi i
  exact .pure ⟨Q, hQ free⟩

theorem Same.concat {ι : Type} {qs : ι → FrameSeq σ α T} {its : ι → Iterable σ α T'} (hi : ∀ i, Same (qs i) (its i)) (is : List ι) :
    Same (.concat (pure ()) (is.map qs)) (Seq.concat (is.map its)) := by
  refine Same.seqGen ⟨ColR (fun l l' => ∃ is : List ι, ∃ free, l = (is.map qs).map (fun q => q free) ∧ l' = is.map its) InR, fun free => ?_⟩
  refine collect_follows (E := fun i i' => ∃ Q : T → T' → Prop, Follows Eq Q i i') ⟨.pure ⟨is, free, rfl, rfl⟩, ?_⟩ fun i i' h => .pure h
  rintro _ _ ⟨is, free, rfl, rfl⟩
  cases is with
  | nil => exact .pure .none
  | cons i is =>
    obtain ⟨Q, hQ⟩ := hi i
    exact .pure (.some ⟨Q, hQ free⟩ ⟨is, free, rfl, rfl⟩)

section filter

variable {R : S → S' → Prop} {q : Iterable σ α S} {it : Iterable σ α S'} {F : α → PyD σ Bool} {f : α → PyD σ Bool}

theorem filter_HA (h : Follows Eq R q it) (hf : ∀ x, Both Eq (F x) (f x)) :
    ∀ s s', R s s' → HA (Nexts Eq R) (Seq.filterNext F q s) (Seq.filterNext f it s') := by
  suffices hm : ∀ s w r, (Seq.filterNext F q s).exec w = some r → ∀ s', R s s' →
      (Ov r ∨ ∃ r', (Seq.filterNext f it s').exec w = some r' ∧ SameOutcome (Nexts Eq R) r r') from
    fun st st' hs w r hr => hm st w r hr st' hs
  refine Seq.filterNext.fixpoint_induct F q
    (fun (g : S → PyD σ (Option (α × S))) => ∀ s w r, (g s).exec w = some r → ∀ s', R s s' →
      (Ov r ∨ ∃ r', (Seq.filterNext f it s').exec w = some r' ∧ SameOutcome (Nexts Eq R) r r'))
    (admissible_post1 (fun s w r => ∀ s', R s s' →
      (Ov r ∨ ∃ r', (Seq.filterNext f it s').exec w = some r' ∧ SameOutcome (Nexts Eq R) r r'))) ?_
  intro g ih s w r hr s' hs
  have ih' : ∀ s s', R s s' → HA (Nexts Eq R) (g s) (Seq.filterNext f it s') := fun st st' hs w r hr => ih st w r hr st' hs
  refine (show HA (Nexts Eq R) _ (Seq.filterNext f it s') from ?_) w r hr
  rw [Seq.filterNext]
  refine (h.next _ _ hs).1.bind ?_
  rintro _ _ (_ | ⟨⟨rfl⟩, hr2⟩)
  · exact .pure .none
  · refine (hf _).1.bind ?_
    rintro (_ | _) _ rfl
    · exact ih' _ _ hr2
    · exact .pure (.some rfl hr2)

theorem filter_HB (h : Follows Eq R q it) (hf : ∀ x, Both Eq (F x) (f x)) :
    ∀ s s', R s s' → HB (Nexts Eq R) (Seq.filterNext F q s) (Seq.filterNext f it s') := by
  suffices hm : ∀ s' w r', (Seq.filterNext f it s').exec w = some r' → ∀ s, R s s' →
      ∃ r, (Seq.filterNext F q s).exec w = some r ∧ (Ov r ∨ SameOutcome (Nexts Eq R) r r') from
    fun st st' hs w r hr => hm st' w r hr st hs
  refine Seq.filterNext.fixpoint_induct f it
    (fun (g : S' → PyD σ (Option (α × S'))) => ∀ s' w r', (g s').exec w = some r' → ∀ s, R s s' →
      ∃ r, (Seq.filterNext F q s).exec w = some r ∧ (Ov r ∨ SameOutcome (Nexts Eq R) r r'))
    (admissible_post1 (fun s' w r' => ∀ s, R s s' →
      ∃ r, (Seq.filterNext F q s).exec w = some r ∧ (Ov r ∨ SameOutcome (Nexts Eq R) r r'))) ?_
  intro g ih s' w r hr s hs
  have ih' : ∀ s s', R s s' → HB (Nexts Eq R) (Seq.filterNext F q s) (g s') := fun st st' hs w r hr => ih st' w r hr st hs
  refine (show HB (Nexts Eq R) (Seq.filterNext F q s) _ from ?_) w r hr
  rw [Seq.filterNext]
  refine (h.next _ _ hs).2.bind ?_
  rintro _ _ (_ | ⟨⟨rfl⟩, hr2⟩)
  · exact .pure .none
  · refine (hf _).2.bind ?_
    rintro (_ | _) _ rfl
    · exact ih' _ _ hr2
    · exact .pure (.some rfl hr2)

end filter

theorem Same.filter {F : Nat → α → PyD σ Bool} {f : α → PyD σ Bool} (hf : ∀ free x, OrRecursionError (F free x) (f x))
    {q : FrameSeq σ α S} {it : Iterable σ α S'} (h : Same q it) : Same (.filter F q) (Seq.filter f it) := by
  obtain ⟨R, h⟩ := h
  exact ⟨R, fun free => ⟨(h free).iter, fun s s' hs => ⟨filter_HA (h free) (fun x => .of_or (hf free x)) s s' hs,
    filter_HB (h free) (fun x => .of_or (hf free x)) s s' hs⟩⟩⟩

inductive ScanR (R : S → S' → Prop) : Seq.ScanState S γ → Seq.ScanState S' γ → Prop
  | initial {s s'} : R s s' → ScanR R (.initial s) (.initial s')
  | running {s s' c} : R s s' → ScanR R (.running s c) (.running s' c)

theorem Same.scan {F : Nat → γ → α → PyD σ γ} {f : γ → α → PyD σ γ} (hf : ∀ free c x, OrRecursionError (F free c x) (f c x)) (c : γ)
    {q : FrameSeq σ α S} {it : Iterable σ α S'} (h : Same q it) : Same (.scan F c q) (Seq.scan f c it) := by
  obtain ⟨R, h⟩ := h
  refine ⟨ScanR R, fun free => ⟨(h free).iter.bind fun a b hab => .pure (.initial hab), ?_⟩⟩
  rintro _ _ (⟨hs⟩ | ⟨hs⟩)
  · exact .pure (.some rfl (.running hs))
  · refine ((h free).next _ _ hs).bind ?_
    rintro _ _ (_ | ⟨⟨rfl⟩, hr⟩)
    · exact .pure .none
    · refine (Both.of_or (hf free _ _)).bind ?_
      rintro y _ rfl
      exact .pure (.some rfl (.running hr))

theorem Same.zip {q : FrameSeq σ α S} {it : Iterable σ α S'} {q' : FrameSeq σ β T} {it' : Iterable σ β T'} (h : Same q it)
    (h' : Same q' it') : Same (.zip q q') (Seq.zip it it') := by
  obtain ⟨R, h⟩ := h
  obtain ⟨R', h'⟩ := h'
  refine ⟨fun p p' => R p.1 p'.1 ∧ R' p.2 p'.2, fun free => ⟨?_, ?_⟩⟩
  · exact (h free).iter.bind fun a b hab => (h' free).iter.bind fun c d hcd => .pure ⟨hab, hcd⟩
  · rintro ⟨a, c⟩ ⟨b, d⟩ ⟨hab, hcd⟩
    refine ((h free).next _ _ hab).bind ?_
    rintro _ _ (_ | ⟨⟨rfl⟩, hr⟩)
    · exact .pure .none
    · refine ((h' free).next _ _ hcd).bind ?_
      rintro _ _ (_ | ⟨⟨rfl⟩, hr'⟩)
      · exact .pure .none
      · exact .pure (.some rfl ⟨hr, hr'⟩)

theorem Same.unfold {F : Nat → S → PyD σ (Option (α × S))} {f : S → PyD σ (Option (α × S))}
    (hf : ∀ free x, OrRecursionError (F free x) (f x)) (s : S) : Same (.unfold (pure ()) F s) (Seq.unfold f s) :=
  (Same.source (q := fun free => Seq.unfold (F free) s) (it := Seq.unfold f s) (fun _ _ => .inl rfl) (fun free s => hf free s)).generator

section skip

variable {R : S → S' → Prop} {q : Iterable σ α S} {it : Iterable σ α S'}

/-- iterators with a counter -/
def CntR (R : S → S' → Prop) (p : S × Nat) (p' : S' × Nat) : Prop := R p.1 p'.1 ∧ p.2 = p'.2

theorem skip_HA (count : Int) (h : Follows Eq R q it) :
    ∀ s s', CntR R s s' → HA (Nexts Eq (OptR (CntR R))) (Seq.skipNext count q s) (Seq.skipNext count it s') := by
  suffices hm : ∀ s w r, (Seq.skipNext count q s).exec w = some r → ∀ s', CntR R s s' →
      (Ov r ∨ ∃ r', (Seq.skipNext count it s').exec w = some r' ∧ SameOutcome (Nexts Eq (OptR (CntR R))) r r') from
    fun st st' hs w r hr => hm st w r hr st' hs
  refine Seq.skipNext.fixpoint_induct count q
    (fun (g : S × Nat → PyD σ (Option (α × Option (S × Nat)))) => ∀ s w r, (g s).exec w = some r → ∀ s', CntR R s s' →
      (Ov r ∨ ∃ r', (Seq.skipNext count it s').exec w = some r' ∧ SameOutcome (Nexts Eq (OptR (CntR R))) r r'))
    (admissible_post1 (fun s w r => ∀ s', CntR R s s' →
      (Ov r ∨ ∃ r', (Seq.skipNext count it s').exec w = some r' ∧ SameOutcome (Nexts Eq (OptR (CntR R))) r r'))) ?_
  intro g ih s w r hr s' hs
  have ih' : ∀ s s', CntR R s s' → HA (Nexts Eq (OptR (CntR R))) (g s) (Seq.skipNext count it s') :=
    fun st st' hs w r hr => ih st w r hr st' hs
  refine (show HA (Nexts Eq (OptR (CntR R))) _ (Seq.skipNext count it s') from ?_) w r hr
  rw [Seq.skipNext]
  obtain ⟨s, n⟩ := s
  obtain ⟨s', n'⟩ := s'
  obtain ⟨hs, hn⟩ := hs
  simp only at hn
  subst hn
  refine (h.next _ _ hs).1.bind ?_
  rintro _ _ (_ | ⟨⟨rfl⟩, hr2⟩)
  · exact .pure .none
  · simp only
    split
    · exact .pure (.some rfl (.some ⟨hr2, rfl⟩))
    · exact ih' _ _ ⟨hr2, rfl⟩

theorem skip_HB (count : Int) (h : Follows Eq R q it) :
    ∀ s s', CntR R s s' → HB (Nexts Eq (OptR (CntR R))) (Seq.skipNext count q s) (Seq.skipNext count it s') := by
  suffices hm : ∀ s' w r', (Seq.skipNext count it s').exec w = some r' → ∀ s, CntR R s s' →
      ∃ r, (Seq.skipNext count q s).exec w = some r ∧ (Ov r ∨ SameOutcome (Nexts Eq (OptR (CntR R))) r r') from
    fun st st' hs w r hr => hm st' w r hr st hs
  refine Seq.skipNext.fixpoint_induct count it
    (fun (g : S' × Nat → PyD σ (Option (α × Option (S' × Nat)))) => ∀ s' w r', (g s').exec w = some r' → ∀ s, CntR R s s' →
      ∃ r, (Seq.skipNext count q s).exec w = some r ∧ (Ov r ∨ SameOutcome (Nexts Eq (OptR (CntR R))) r r'))
    (admissible_post1 (fun s' w r' => ∀ s, CntR R s s' →
      ∃ r, (Seq.skipNext count q s).exec w = some r ∧ (Ov r ∨ SameOutcome (Nexts Eq (OptR (CntR R))) r r'))) ?_
  intro g ih s' w r hr s hs
  have ih' : ∀ s s', CntR R s s' → HB (Nexts Eq (OptR (CntR R))) (Seq.skipNext count q s) (g s') :=
    fun st st' hs w r hr => ih st' w r hr st hs
  refine (show HB (Nexts Eq (OptR (CntR R))) (Seq.skipNext count q s) _ from ?_) w r hr
  rw [Seq.skipNext]
  obtain ⟨s, n⟩ := s
  obtain ⟨s', n'⟩ := s'
  obtain ⟨hs, hn⟩ := hs
  simp only at hn
  subst hn
  refine (h.next _ _ hs).2.bind ?_
  rintro _ _ (_ | ⟨⟨rfl⟩, hr2⟩)
  · exact .pure .none
  · simp only
    split
    · exact .pure (.some rfl (.some ⟨hr2, rfl⟩))
    · exact ih' _ _ ⟨hr2, rfl⟩

theorem skip_both (count : Int) (h : Follows Eq R q it) (s : S × Nat) (s' : S' × Nat) (hs : CntR R s s') :
    Both (Nexts Eq (OptR (CntR R))) (Seq.skipNext count q s) (Seq.skipNext count it s') :=
  ⟨skip_HA count h s s' hs, skip_HB count h s s' hs⟩

end skip

theorem Same.skip (count : Int) {q : FrameSeq σ α S} {it : Iterable σ α S'} (h : Same q it) :
    Same (.skip (pure ()) count q) (Seq.skip count it) := by
  obtain ⟨R, h⟩ := h
  refine Same.seqGen ⟨OptR (CntR R), fun free => ⟨.pure .none, ?_⟩⟩
  rintro _ _ (_ | ⟨hs⟩)
  · exact (h free).iter.bind fun a b hab => skip_both count (h free) _ _ ⟨hab, rfl⟩
  · exact skip_both count (h free) _ _ hs

theorem Same.take (count : Int) {q : FrameSeq σ α S} {it : Iterable σ α S'} (h : Same q it) :
    Same (.take (pure ()) count q) (Seq.take count it) := by
  obtain ⟨R, h⟩ := h
  have hb : Same (fun free => Seq.take count (q free)) (Seq.take count it) := by
    refine ⟨OptR (CntR R), fun free => ?_⟩
    unfold Seq.take
    split
    · refine ⟨.pure .none, ?_⟩
      rintro _ _ (_ | ⟨hs⟩)
      · refine (h free).iter.bind fun a b hab => ((h free).next _ _ hab).bind ?_
        rintro _ _ (_ | ⟨⟨rfl⟩, hr2⟩)
        · exact .pure .none
        · exact .pure (.some rfl (.some ⟨hr2, rfl⟩))
      · rename_i p p'
        obtain ⟨s, n⟩ := p
        obtain ⟨s', n'⟩ := p'
        obtain ⟨hs, hn⟩ := hs
        simp only at hn
        subst hn
        simp only [Seq.takeGen]
        split
        · exact .pure .none
        · refine ((h free).next _ _ hs).bind ?_
          rintro _ _ (_ | ⟨⟨rfl⟩, hr2⟩)
          · exact .pure .none
          · exact .pure (.some rfl (.some ⟨hr2, rfl⟩))
    · exact ⟨.pure .none, fun _ _ _ => .pure .none⟩
  unfold FrameSeq.take
  split
  · exact hb.seqGen
  · exact hb.generator

theorem Same.delay {ι : Type} {F : Nat → PyD σ ι} {f : PyD σ ι} (hf : ∀ free, OrRecursionError (F free) f) {qs : ι → FrameSeq σ α T}
    {its : ι → Iterable σ α T'} (hi : ∀ i, Same (qs i) (its i)) :
    Same (.delay (pure ()) (fun free => do pure (qs (← F free)))) (Seq.delay (do pure (its (← f)))) := by
  refine Same.generator ⟨fun p p' => InR p.1 p.2 p'.1 p'.2, fun free => ⟨?_, ?_⟩⟩
  · simp only [Seq.delay, bind_assoc, pure_bind]
    refine (Both.of_or (hf free)).bind ?_
    rintro i _ rfl
    obtain ⟨Q, hQ⟩ := hi i
    exact (hQ free).iter.bind fun a b hab => .pure ⟨Q, hQ free, hab⟩
  · rintro ⟨i, t⟩ ⟨i', t'⟩ ⟨Q, hQ, ht⟩
    refine (hQ.next _ _ ht).bind ?_
    rintro _ _ (_ | ⟨⟨rfl⟩, hr⟩)
    · exact .pure .none
    · exact .pure (.some rfl ⟨Q, hQ, hr⟩)

theorem Same.pairwise {q : FrameSeq σ α S} {it : Iterable σ α S'} (h : Same q it) : Same (.pairwise (pure ()) q) (Seq.pairwise it) := by
  obtain ⟨R, h⟩ := h
  refine ⟨fun p p' => R p.1 p'.1 ∧ p.2 = p'.2, fun free => ?_⟩
  match free with
  | 0 => exact ⟨.over _, fun _ _ _ => .over _⟩
  | free + 1 =>
    refine ⟨?_, ?_⟩
    · match free with
      | 0 => exact .over _
      | free + 1 => exact (h free).iter.bind fun a b hab => .pure ⟨hab, rfl⟩
    · rintro ⟨s, o⟩ ⟨s', _⟩ ⟨hs, rfl⟩
      show Both _ (Pure.pure () >>= fun _ => (Seq.pairwise (q free)).next (s, o)) _
      rw [pure_bind]
      cases o with
      | none =>
        refine ((h free).next _ _ hs).bind ?_
        rintro _ _ (_ | ⟨⟨rfl⟩, hr⟩)
        · exact .pure .none
        · refine ((h free).next _ _ hr).bind ?_
          rintro _ _ (_ | ⟨⟨rfl⟩, hr'⟩)
          · exact .pure .none
          · exact .pure (.some rfl ⟨hr', rfl⟩)
      | some old =>
        refine ((h free).next _ _ hs).bind ?_
        rintro _ _ (_ | ⟨⟨rfl⟩, hr⟩)
        · exact .pure .none
        · exact .pure (.some rfl ⟨hr, rfl⟩)

theorem Same.initInfinite {F : Nat → Nat → PyD σ α} {f : Nat → PyD σ α} (hf : ∀ free x, OrRecursionError (F free x) (f x)) :
    Same (.initInfinite F) (Seq.initInfinite f) := by
  refine ⟨Eq, fun free => ⟨?_, ?_⟩⟩
  · match free with
    | 0 => exact .over _
    | _ + 1 => exact .pure rfl
  · rintro i _ rfl
    refine (Both.of_or (hf free i)).bind ?_
    rintro y _ rfl
    exact .pure (.some rfl rfl)

theorem same_of {q : FrameSeq σ α S} {it : Iterable σ α S'} (h : SameSeq q it) : Same q it := by
  induction h with
  | ofList xs => exact .ofList xs
  | source q it hi hn => exact .source hi hn
  | seq _ ih => exact ih.generator
  | map hf _ ih => exact ih.map hf
  | collect hf _ _ ihi ih => exact Same.collect hf ihi ih
  | concat _ is ihi => exact Same.concat ihi is
  | filter hf _ ih => exact ih.filter hf
  | scan hf c _ ih => exact ih.scan hf c
  | zip _ _ ih ih' => exact ih.zip ih'
  | unfold hf s => exact .unfold hf s
  | skip count _ ih => exact ih.skip count
  | take count _ ih => exact ih.take count
  | delay hf _ ihi => exact Same.delay hf ihi
  | pairwise _ ih => exact ih.pairwise
  | initInfinite hf => exact .initInfinite hf

section loop

variable {R : S → S' → Prop} {q : Iterable σ α S} {it : Iterable σ α S'} {body : C → α → PyD σ (Flow C)}

theorem loop_HA (h : Follows Eq R q it) (s : S) (s' : S') (hs : R s s') (c : C) : HA Eq (q.loop body s c) (it.loop body s' c) := by
  suffices hm : ∀ s c w r, (q.loop body s c).exec w = some r → ∀ s', R s s' →
      (Ov r ∨ ∃ r', (it.loop body s' c).exec w = some r' ∧ SameOutcome Eq r r') from fun w r hr => hm s c w r hr s' hs
  refine Iterable.loop.fixpoint_induct q body
    (fun (g : S → C → PyD σ C) => ∀ s c w r, (g s c).exec w = some r → ∀ s', R s s' →
      (Ov r ∨ ∃ r', (it.loop body s' c).exec w = some r' ∧ SameOutcome Eq r r'))
    (admissible_post2 (fun s c w r => ∀ s', R s s' →
      (Ov r ∨ ∃ r', (it.loop body s' c).exec w = some r' ∧ SameOutcome Eq r r'))) ?_
  intro g ih s c w r hr s' hs
  have ih' : ∀ s s', R s s' → ∀ c, HA Eq (g s c) (it.loop body s' c) := fun st st' hs c w r hr => ih st c w r hr st' hs
  refine (show HA Eq _ (it.loop body s' c) from ?_) w r hr
  rw [Iterable.loop]
  refine (h.next _ _ hs).1.bind ?_
  rintro _ _ (_ | ⟨⟨rfl⟩, hr2⟩)
  · exact .pure rfl
  · refine (Both.refl (body c _)).1.bind ?_
    rintro (c' | c') _ rfl
    · exact ih' _ _ hr2 c'
    · exact .pure rfl

theorem loop_HB (h : Follows Eq R q it) (s : S) (s' : S') (hs : R s s') (c : C) : HB Eq (q.loop body s c) (it.loop body s' c) := by
  suffices hm : ∀ s' c w r', (it.loop body s' c).exec w = some r' → ∀ s, R s s' →
      ∃ r, (q.loop body s c).exec w = some r ∧ (Ov r ∨ SameOutcome Eq r r') from fun w r hr => hm s' c w r hr s hs
  refine Iterable.loop.fixpoint_induct it body
    (fun (g : S' → C → PyD σ C) => ∀ s' c w r', (g s' c).exec w = some r' → ∀ s, R s s' →
      ∃ r, (q.loop body s c).exec w = some r ∧ (Ov r ∨ SameOutcome Eq r r'))
    (admissible_post2 (fun s' c w r' => ∀ s, R s s' →
      ∃ r, (q.loop body s c).exec w = some r ∧ (Ov r ∨ SameOutcome Eq r r'))) ?_
  intro g ih s' c w r hr s hs
  have ih' : ∀ s s', R s s' → ∀ c, HB Eq (q.loop body s c) (g s' c) := fun st st' hs c w r hr => ih st' c w r hr st hs
  refine (show HB Eq (q.loop body s c) _ from ?_) w r hr
  rw [Iterable.loop]
  refine (h.next _ _ hs).2.bind ?_
  rintro _ _ (_ | ⟨⟨rfl⟩, hr2⟩)
  · exact .pure rfl
  · refine (Both.refl (body c _)).2.bind ?_
    rintro (c' | c') _ rfl
    · exact ih' _ _ hr2 c'
    · exact .pure rfl

theorem forLoop_or {q : FrameSeq σ α S} {it : Iterable σ α S'} (h : SameSeq q it) (free : Nat) (body : C → α → PyD σ (Flow C)) (c : C) :
    OrRecursionError ((q free).forLoop body c) (it.forLoop body c) := by
  obtain ⟨R, h⟩ := same_of h
  refine Both.or ?_
  unfold Iterable.forLoop
  exact (h free).iter.bind fun a b hab => ⟨loop_HA (h free) a b hab c, loop_HB (h free) a b hab c⟩

end loop

end Expression.Lemmas.SeqStack
