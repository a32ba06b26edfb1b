import Verif.Lemmas.SeqStack
import Verif.Spec.AsyncStack

/-! Iterating over asynchronous sequences on a bounded stack. -/

namespace Expression.Lemmas.AsyncStack

open Expression Spec PyD Lemmas.SeqStack AsyncSeq

variable {σ α β γ S S' T T' C : Type}

theorem returns_both (x : α) (free : Nat) : Both Eq (FrameAsync.returns (σ := σ) x free) (pure x) := by
  match free with
  | 0 => exact .over _
  | _ + 1 => exact .refl _

theorem then_returns {p q : PyD σ α} (h : Both Eq p q) (free : Nat) : Both Eq (p >>= fun x => FrameAsync.returns x free) q := by
  rw [← bind_pure q]
  refine h.bind ?_
  rintro x _ rfl
  exact returns_both x free

theorem returns_eq (free : Nat) (hf : 1 ≤ free) : (fun x : α => FrameAsync.returns (σ := σ) x free) = pure := by
  match free with
  | _ + 1 => rfl

/-- generators whose making does nothing -/
theorem same_generator {q : FrameSeq σ α S} {it : Iterable σ α S'} (h : Same q it) : Same (FrameAsync.generator q) it := by
  obtain ⟨R, h⟩ := h
  refine ⟨R, fun free => ⟨(h free).iter, ?_⟩⟩
  match free with
  | 0 => exact fun _ _ _ => .over _
  | free + 1 => exact (h free).next

theorem same_asyncSeq {q : FrameSeq σ α S} {it : Iterable σ α S'} (h : Same q it) : Same (FrameAsync.asyncSeq q) it := by
  obtain ⟨R, h⟩ := h
  refine ⟨R, fun free => ⟨?_, (h free).next⟩⟩
  match free with
  | 0 => exact .over _
  | free + 1 => exact (h free).iter

section loop

variable {R : S → S' → Prop} {q : Iterable σ α S} {it : Iterable σ α S'} {F f : C → α → PyD σ (Act C β)}

/-- states of the loop of a generator -/
def LoopR (R : S → S' → Prop) (p : S × C) (p' : S' × C) : Prop := R p.1 p'.1 ∧ p.2 = p'.2

theorem next_HA (h : Follows Eq R q it) (hf : ∀ c x, Both Eq (F c x) (f c x)) :
    ∀ s s', LoopR R s s' → HA (Nexts Eq (LoopR R)) (loopNext F q s) (loopNext f it s') := by
  suffices hm : ∀ s w r, (loopNext F q s).exec w = some r → ∀ s', LoopR R s s' →
      (Ov r ∨ ∃ r', (loopNext f it s').exec w = some r' ∧ SameOutcome (Nexts Eq (LoopR R)) r r') from
    fun st st' hs w r hr => hm st w r hr st' hs
  refine loopNext.fixpoint_induct F q
    (fun (g : S × C → PyD σ (Option (β × (S × C)))) => ∀ s w r, (g s).exec w = some r → ∀ s', LoopR R s s' →
      (Ov r ∨ ∃ r', (loopNext f it s').exec w = some r' ∧ SameOutcome (Nexts Eq (LoopR R)) r r'))
    (admissible_post1 (fun s w r => ∀ s', LoopR R s s' →
      (Ov r ∨ ∃ r', (loopNext f it s').exec w = some r' ∧ SameOutcome (Nexts Eq (LoopR R)) r r'))) ?_
  intro g ih s w r hr s' hs
  have ih' : ∀ s s', LoopR R s s' → HA (Nexts Eq (LoopR R)) (g s) (loopNext f it s') := fun st st' hs w r hr => ih st w r hr st' hs
  refine (show HA (Nexts Eq (LoopR R)) _ (loopNext f it s') from ?_) w r hr
  obtain ⟨s, c⟩ := s
  obtain ⟨s', _⟩ := s'
  obtain ⟨hs, rfl⟩ := hs
  rw [loopNext]
  refine (h.next _ _ hs).1.bind ?_
  rintro _ _ (_ | ⟨⟨rfl⟩, hr2⟩)
  · exact .pure .none
  · refine (hf _ _).1.bind ?_
    rintro (⟨y, c'⟩ | c' | _) _ rfl
    · exact .pure (.some rfl ⟨hr2, rfl⟩)
    · exact ih' _ _ ⟨hr2, rfl⟩
    · exact .pure .none

theorem next_HB (h : Follows Eq R q it) (hf : ∀ c x, Both Eq (F c x) (f c x)) :
    ∀ s s', LoopR R s s' → HB (Nexts Eq (LoopR R)) (loopNext F q s) (loopNext f it s') := by
  suffices hm : ∀ s' w r', (loopNext f it s').exec w = some r' → ∀ s, LoopR R s s' →
      ∃ r, (loopNext F q s).exec w = some r ∧ (Ov r ∨ SameOutcome (Nexts Eq (LoopR R)) r r') from
    fun st st' hs w r hr => hm st' w r hr st hs
  refine loopNext.fixpoint_induct f it
    (fun (g : S' × C → PyD σ (Option (β × (S' × C)))) => ∀ s' w r', (g s').exec w = some r' → ∀ s, LoopR R s s' →
      ∃ r, (loopNext F q s).exec w = some r ∧ (Ov r ∨ SameOutcome (Nexts Eq (LoopR R)) r r'))
    (admissible_post1 (fun s' w r' => ∀ s, LoopR R s s' →
      ∃ r, (loopNext F q s).exec w = some r ∧ (Ov r ∨ SameOutcome (Nexts Eq (LoopR R)) r r'))) ?_
  intro g ih s' w r hr s hs
  have ih' : ∀ s s', LoopR R s s' → HB (Nexts Eq (LoopR R)) (loopNext F q s) (g s') := fun st st' hs w r hr => ih st' w r hr st hs
  refine (show HB (Nexts Eq (LoopR R)) (loopNext F q s) _ from ?_) w r hr
  obtain ⟨s, c⟩ := s
  obtain ⟨s', _⟩ := s'
  obtain ⟨hs, rfl⟩ := hs
  rw [loopNext]
  refine (h.next _ _ hs).2.bind ?_
  rintro _ _ (_ | ⟨⟨rfl⟩, hr2⟩)
  · exact .pure .none
  · refine (hf _ _).2.bind ?_
    rintro (⟨y, c'⟩ | c' | _) _ rfl
    · exact .pure (.some rfl ⟨hr2, rfl⟩)
    · exact ih' _ _ ⟨hr2, rfl⟩
    · exact .pure .none

theorem generator_follows (h : Follows Eq R q it) (c : C) (hf : ∀ c x, Both Eq (F c x) (f c x)) :
    Follows Eq (OptR (LoopR R)) (AsyncSeq.generator c F q) (AsyncSeq.generator c f it) := by
  refine ⟨.pure .none, ?_⟩
  have hk : ∀ s s', LoopR R s s' → Both (Nexts Eq (OptR (LoopR R))) (resume c F q (some s)) (resume c f it (some s')) := by
    intro s s' hs
    refine (show Both (Nexts Eq (LoopR R)) _ _ from ⟨next_HA h hf s s' hs, next_HB h hf s s' hs⟩).bind ?_
    rintro _ _ (_ | ⟨⟨rfl⟩, hr⟩)
    · exact .pure .none
    · exact .pure (.some rfl (.some hr))
  rintro _ _ (_ | hs)
  · exact h.iter.bind fun a b hab => hk (a, c) (b, c) ⟨hab, rfl⟩
  · exact hk _ _ hs

end loop

theorem same_loop {q : FrameSeq σ α S} {it : Iterable σ α S'} (h : Same q it) (c : C) {F : Nat → C → α → PyD σ (Act C β)}
    {f : C → α → PyD σ (Act C β)} (hf : ∀ free c x, Both Eq (F free c x) (f c x)) :
    Same (FrameAsync.generator (fun free => AsyncSeq.generator c (F free) (q free))) (AsyncSeq.generator c f it) := by
  obtain ⟨R, h⟩ := h
  exact same_generator ⟨_, fun free => generator_follows (h free) c (hf free)⟩

inductive AScanR (R : S → S' → Prop) : AsyncSeq.ScanState S γ → AsyncSeq.ScanState S' γ → Prop
  | fresh : AScanR R .fresh .fresh
  | began : AScanR R .began .began
  | running {s s' c} : R s s' → AScanR R (.running s c) (.running s' c)

inductive AppR (R : S → S' → Prop) (Q : T → T' → Prop) : AppendState S T → AppendState S' T' → Prop
  | fresh : AppR R Q .fresh .fresh
  | left {s s'} : R s s' → AppR R Q (.left s) (.left s')
  | right {t t'} : Q t t' → AppR R Q (.right t) (.right t')

theorem same_scan {F : Nat → γ → α → PyD σ γ} {f : γ → α → PyD σ γ} (hf : ∀ free c x, OrRecursionError (F free c x) (f c x)) (c : γ)
    {q : FrameSeq σ α S} {it : Iterable σ α S'} (h : Same q it) : Same (FrameAsync.scan F c q) (AsyncSeq.scan f c it) := by
  obtain ⟨R, h⟩ := h
  refine same_generator ⟨AScanR R, fun free => ⟨.pure .fresh, ?_⟩⟩
  have step : ∀ s s' c, R s s' → Both (Nexts Eq (AScanR R)) ((AsyncSeq.scan (F free) c (q free)).next (.running s c))
      ((AsyncSeq.scan f c it).next (.running s' c)) := by
    intro s s' c hs
    refine ((h free).next _ _ hs).bind ?_
    rintro _ _ (_ | ⟨⟨rfl⟩, hr⟩)
    · exact .pure .none
    · refine (Both.of_or (hf free c _)).bind ?_
      rintro y _ rfl
      exact .pure (.some rfl (.running hr))
  rintro _ _ (_ | _ | hs)
  · exact .pure (.some rfl .began)
  · exact (h free).iter.bind fun a b hab => step a b c hab
  · exact step _ _ _ hs

theorem same_append {q : FrameSeq σ α S} {it : Iterable σ α S'} {q' : FrameSeq σ α T} {it' : Iterable σ α T'} (h' : Same q' it') (h : Same q it) :
    Same (FrameAsync.append q' q) (AsyncSeq.append it' it) := by
  obtain ⟨R, h⟩ := h
  obtain ⟨Q, h'⟩ := h'
  refine same_generator ⟨AppR R Q, fun free => ⟨.pure .fresh, ?_⟩⟩
  have right : ∀ t t', Q t t' → Both (Nexts Eq (AppR R Q)) (appendRight (q' free) t) (appendRight it' t') := by
    intro t t' ht
    refine ((h' free).next _ _ ht).bind ?_
    rintro _ _ (_ | ⟨⟨rfl⟩, hr⟩)
    · exact .pure .none
    · exact .pure (.some rfl (.right hr))
  have left : ∀ s s', R s s' → Both (Nexts Eq (AppR R Q)) (appendLeft (q' free) (q free) s) (appendLeft it' it s') := by
    intro s s' hs
    refine ((h free).next _ _ hs).bind ?_
    rintro _ _ (_ | ⟨⟨rfl⟩, hr⟩)
    · exact (h' free).iter.bind fun a b hab => right a b hab
    · exact .pure (.some rfl (.left hr))
  rintro _ _ (_ | hs | ht)
  · exact (h free).iter.bind fun a b hab => left a b hab
  · exact left _ _ hs
  · exact right _ _ ht

theorem same_of {q : FrameSeq σ α S} {it : Iterable σ α S'} (h : SameAsync q it) : Same q it := by
  induction h with
  | source q it hi hn => exact .source hi hn
  | range a b c => exact same_generator (.source (fun _ _ => .inl rfl) (fun _ _ _ => .inl rfl))
  | «repeat» v t => exact same_generator (.source (fun _ _ => .inl rfl) (fun _ _ _ => .inl rfl))
  | asyncSeq _ ih => exact same_asyncSeq ih
  | map hf _ ih =>
    refine same_loop ih () fun free c x => (Both.of_or (hf free x)).bind ?_
    rintro y _ rfl
    exact .refl _
  | filter hf _ ih =>
    refine same_loop ih () fun free c x => (Both.of_or (hf free x)).bind ?_
    rintro y _ rfl
    exact .refl _
  | choose hf _ ih =>
    refine same_loop ih () fun free c x => (then_returns (Both.of_or (hf free x)) free).bind ?_
    rintro y _ rfl
    exact .refl _
  | @collect α β ι S S' T T' F f hf qs its _ q it _ ihi ih =>
    obtain ⟨R, h⟩ := ih
    refine same_generator ⟨ColR R InR, fun free => ?_⟩
    refine collect_follows (E := Eq) (h free) ?_
    rintro x _ rfl
    rw [bind_assoc]
    refine (Both.of_or (hf free x)).bind ?_
    rintro i _ rfl
    obtain ⟨Q, hQ⟩ := ihi i
    exact .pure ⟨Q, hQ free⟩
  | take count _ ih => exact same_loop ih 0 fun _ _ _ => .refl _
  | skip count _ ih => exact same_loop ih 0 fun _ _ _ => .refl _
  | tail _ ih => exact same_loop ih true fun _ _ _ => .refl _
  | scan hf c _ ih => exact same_scan hf c ih
  | append _ _ ih' ih => exact same_append ih' ih

theorem forLoop_same {q : FrameSeq σ α S} {it : Iterable σ α S'} (h : Same q it) (free : Nat) (body : C → α → PyD σ (Flow C)) (c : C) :
    OrRecursionError ((q free).forLoop body c) (it.forLoop body c) := by
  obtain ⟨R, h⟩ := h
  refine Both.or ?_
  unfold Iterable.forLoop
  exact (h free).iter.bind fun a b hab => ⟨loop_HA (h free) a b hab c, loop_HB (h free) a b hab c⟩

/-- what a generator needs, if its making does nothing -/
theorem generator_enough {n : Nat} {q : FrameSeq σ α S} {it : Iterable σ α S} (hi : ∀ free, (q free).iter = it.iter)
    (h : ∀ free, n ≤ free → (q free).next = it.next) : EnoughForAsync 0 (n + 1) (FrameAsync.generator q) it := by
  refine ⟨fun free _ => hi free, fun free hf => ?_⟩
  match free with
  | 0 => omega
  | free + 1 => exact h free (by omega)

theorem _root_.Expression.Spec.EnoughForAsync.eq {a n free : Nat} {q : FrameSeq σ α S} {it : Iterable σ α S} (h : EnoughForAsync a n q it) (ha : a ≤ free)
    (hn : n ≤ free) : q free = it := by
  have h1 := h.aiter free ha
  have h2 := h.anext free hn
  cases hq : q free
  cases it
  rw [hq] at h1 h2
  cases h1
  cases h2
  rfl

/-! ## Loops whose bodies may overflow -/

section bodies

variable {R : S → S' → Prop} {q : Iterable σ α S} {it : Iterable σ α S'} {B b : C → α → PyD σ (Flow C)}

theorem bodies_HA (h : Follows Eq R q it) (hb : ∀ c x, Both Eq (B c x) (b c x)) (s : S) (s' : S') (hs : R s s') (c : C) :
    HA Eq (q.loop B s c) (it.loop b s' c) := by
  suffices hm : ∀ s c w r, (q.loop B s c).exec w = some r → ∀ s', R s s' →
      (Ov r ∨ ∃ r', (it.loop b s' c).exec w = some r' ∧ SameOutcome Eq r r') from fun w r hr => hm s c w r hr s' hs
  refine Iterable.loop.fixpoint_induct q B
    (fun (g : S → C → PyD σ C) => ∀ s c w r, (g s c).exec w = some r → ∀ s', R s s' →
      (Ov r ∨ ∃ r', (it.loop b s' c).exec w = some r' ∧ SameOutcome Eq r r'))
    (admissible_post2 (fun s c w r => ∀ s', R s s' →
      (Ov r ∨ ∃ r', (it.loop b s' c).exec w = some r' ∧ SameOutcome Eq r r'))) ?_
  intro g ih s c w r hr s' hs
  have ih' : ∀ s s', R s s' → ∀ c, HA Eq (g s c) (it.loop b s' c) := fun st st' hs c w r hr => ih st c w r hr st' hs
  refine (show HA Eq _ (it.loop b s' c) from ?_) w r hr
  rw [Iterable.loop]
  refine (h.next _ _ hs).1.bind ?_
  rintro _ _ (_ | ⟨⟨rfl⟩, hr2⟩)
  · exact .pure rfl
  · refine (hb c _).1.bind ?_
    rintro (c' | c') _ rfl
    · exact ih' _ _ hr2 c'
    · exact .pure rfl

theorem bodies_HB (h : Follows Eq R q it) (hb : ∀ c x, Both Eq (B c x) (b c x)) (s : S) (s' : S') (hs : R s s') (c : C) :
    HB Eq (q.loop B s c) (it.loop b s' c) := by
  suffices hm : ∀ s' c w r', (it.loop b s' c).exec w = some r' → ∀ s, R s s' →
      ∃ r, (q.loop B s c).exec w = some r ∧ (Ov r ∨ SameOutcome Eq r r') from fun w r hr => hm s' c w r hr s hs
  refine Iterable.loop.fixpoint_induct it b
    (fun (g : S' → C → PyD σ C) => ∀ s' c w r', (g s' c).exec w = some r' → ∀ s, R s s' →
      ∃ r, (q.loop B s c).exec w = some r ∧ (Ov r ∨ SameOutcome Eq r r'))
    (admissible_post2 (fun s' c w r' => ∀ s, R s s' →
      ∃ r, (q.loop B s c).exec w = some r ∧ (Ov r ∨ SameOutcome Eq r r'))) ?_
  intro g ih s' c w r hr s hs
  have ih' : ∀ s s', R s s' → ∀ c, HB Eq (q.loop B s c) (g s' c) := fun st st' hs c w r hr => ih st' c w r hr st hs
  refine (show HB Eq (q.loop B s c) _ from ?_) w r hr
  rw [Iterable.loop]
  refine (h.next _ _ hs).2.bind ?_
  rintro _ _ (_ | ⟨⟨rfl⟩, hr2⟩)
  · exact .pure rfl
  · refine (hb c _).2.bind ?_
    rintro (c' | c') _ rfl
    · exact ih' _ _ hr2 c'
    · exact .pure rfl

theorem bodies_forLoop (h : Follows Eq R q it) (hb : ∀ c x, Both Eq (B c x) (b c x)) (c : C) : Both Eq (q.forLoop B c) (it.forLoop b c) := by
  unfold Iterable.forLoop
  exact h.iter.bind fun s s' hs => ⟨bodies_HA h hb s s' hs c, bodies_HB h hb s s' hs c⟩

end bodies

theorem coroutine_or {F : Nat → PyD σ β} {f : PyD σ β} (h : ∀ free, Both Eq (F free) f) (free : Nat) :
    OrRecursionError (FrameAsync.coroutine F free) f := by
  match free with
  | 0 => exact fun w => .inr ⟨w, rfl⟩
  | free + 1 => exact (h free).or

/-- a loop over a sequence of which not even the first element can be obtained -/
theorem fails_forLoop {it : Iterable σ α S} (h : NoFirst it) (body : C → α → PyD σ (Flow C)) (c : C) (w : σ) :
    (it.forLoop body c).exec w = some (.error .recursionError, w) := by
  have h := h w
  rw [Iterable.forLoop]
  rw [exec_bind] at h ⊢
  rcases hx : it.iter.exec w with _ | ⟨e | s, w1⟩ <;> rw [hx] at h
  · cases h
  · cases h; rfl
  · simp only at h ⊢
    rw [Iterable.loop_eq, exec_bind, h]

/-- a body that raises on the first element -/
theorem first_raises {it : Iterable σ α S} {w w' w'' : σ} {x : α} {s : S} {e : PyErr}
    (h : (it.iter >>= it.next).exec w = some (.ok (some (x, s)), w')) (body : C → α → PyD σ (Flow C)) (c : C)
    (hb : (body c x).exec w' = some (.error e, w'')) : (it.forLoop body c).exec w = some (.error e, w'') := by
  rw [Iterable.forLoop]
  rw [exec_bind] at h ⊢
  rcases hx : it.iter.exec w with _ | ⟨e | s, w1⟩ <;> rw [hx] at h
  · cases h
  · cases h
  · simp only at h ⊢
    rw [Iterable.loop_eq, exec_bind, h]
    simp only [Iterable.step]
    rw [exec_bind, hb]

/-- the body of a generator that raises on the first element -/
theorem act_raises {it : Iterable σ α S} {w w' w'' : σ} {x : α} {s : S} {e : PyErr}
    (h : (it.iter >>= it.next).exec w = some (.ok (some (x, s)), w')) (B : C → α → PyD σ (Act C β)) (c : C)
    (hB : (B c x).exec w' = some (.error e, w'')) : exec (pure none >>= resume c B it) w = some (.error e, w'') := by
  rw [pure_bind, resume]
  rw [exec_bind] at h ⊢
  rcases hx : it.iter.exec w with _ | ⟨e | s0, w1⟩ <;> rw [hx] at h
  · cases h
  · cases h
  · simp only at h ⊢
    rw [loopNext.eq_1, exec_bind, exec_bind, h]
    simp only
    rw [exec_bind, hB]

/-- a mapping that raises on the first element -/
theorem mapping_raises {it : Iterable σ α S} {w w' w'' : σ} {x : α} {s : S} {e : PyErr}
    (h : (it.iter >>= it.next).exec w = some (.ok (some (x, s)), w')) (m : α → PyD σ (Iterable σ β T))
    (hm : (m x).exec w' = some (.error e, w'')) : exec (pure .fresh >>= Seq.collectNext m it) w = some (.error e, w'') := by
  rw [pure_bind, Seq.collectNext.eq_def]
  simp only
  rw [exec_bind] at h ⊢
  rcases hx : it.iter.exec w with _ | ⟨e | s0, w1⟩ <;> rw [hx] at h
  · cases h
  · cases h
  · simp only at h ⊢
    rw [Seq.collectNext.eq_def]
    simp only
    rw [exec_bind, h]
    simp only
    rw [exec_bind, hm]

/-! ## Counting -/

/-- from the state `s` the iterator gives `xs` and ends, with so many resumptions -/
inductive Run (it : Iterable Nat α S) : S → List α → Nat → Prop
  | done {s c} : (∀ w, (it.next s).exec w = some (.ok none, w + c)) → Run it s [] c
  | step {s x s' xs c n} : (∀ w, (it.next s).exec w = some (.ok (some (x, s')), w + c)) → Run it s' xs n → Run it s (x :: xs) (c + n)

theorem Run.loop {it : Iterable Nat α S} {s : S} {xs : List α} {n : Nat} (h : Run it s xs n) (acc : List α) (w : Nat) :
    (it.loop (fun acc x => pure (.next (acc ++ [x]))) s acc).exec w = some (.ok (acc ++ xs), w + n) := by
  induction h generalizing acc w with
  | done h => rw [Iterable.loop, exec_bind, h]; simp
  | @step s x s' xs c n h _ ih =>
    rw [Iterable.loop, exec_bind, h]
    simp only [pure_bind]
    rw [ih, List.append_assoc, Nat.add_assoc]
    rfl

theorem Run.toList {it : Iterable Nat α S} {s : S} {xs : List α} {n : Nat} (hi : it.iter = pure s) (h : Run it s xs n) (w : Nat) :
    it.toList.exec w = some (.ok xs, w + n) := by
  rw [Iterable.toList, Iterable.forLoop, hi, pure_bind, h.loop]
  rfl

theorem Run.tallied {q : FrameSeq Nat α S} {free : Nat} {s : S} {xs : List α} {n : Nat} (h : Run (q free) s xs n) :
    Run (Spec.tallied q free) s xs (n + xs.length + 1) := by
  have hc : ∀ s w, ((Spec.tallied q free).next s).exec w = ((q free).next s).exec (w + 1) := fun s w => rfl
  induction h with
  | done h => exact .done fun w => by rw [hc, h]; congr 2; simp only [List.length_nil]; omega
  | @step s x s' xs c n h _ ih =>
    have := Run.step (it := Spec.tallied q free) (c := c + 1) (fun w => by rw [hc, h]; congr 2; omega) ih
    have e : c + 1 + (n + xs.length + 1) = c + n + (x :: xs).length + 1 := by rw [List.length_cons]; omega
    rwa [e] at this

theorem Run.right {src : Iterable Nat α S} {other : Iterable Nat α T} {t : T} {ys : List α} {m : Nat} (h : Run other t ys m) :
    Run (AsyncSeq.append other src) (.right t) ys m := by
  induction h with
  | done h =>
    refine .done fun w => ?_
    show exec (appendRight other _) w = _
    rw [appendRight, exec_bind, h]; rfl
  | step h _ ih =>
    refine .step (fun w => ?_) ih
    show exec (appendRight other _) w = _
    rw [appendRight, exec_bind, h]; rfl

theorem Run.left {src : Iterable Nat α S} {other : Iterable Nat α T} {s : S} {xs : List α} {n : Nat} (h : Run src s xs n) {t : T}
    (hi : other.iter = pure t) {ys : List α} {m : Nat} (h' : Run other t ys m) : Run (AsyncSeq.append other src) (.left s) (xs ++ ys) (n + m) := by
  induction h with
  | @done s c h =>
    have hn : ∀ w, ((AsyncSeq.append other src).next (.left s)).exec w = ((AsyncSeq.append other src).next (.right t)).exec (w + c) := by
      intro w
      show exec (appendLeft other src s) w = exec (appendRight other t) (w + c)
      rw [appendLeft, exec_bind, h]
      simp only [hi, pure_bind]
    cases h'.right (src := src) with
    | done h2 => exact .done fun w => by rw [hn, h2, Nat.add_assoc]
    | @step _ y t' ys' c' m' h2 h3 =>
      rw [← Nat.add_assoc]
      exact .step (fun w => by rw [hn, h2, Nat.add_assoc]) h3
  | @step s x s' xs c n h _ ih =>
    rw [Nat.add_assoc]
    refine .step (fun w => ?_) ih
    show exec (appendLeft other src s) w = _
    rw [appendLeft, exec_bind, h]; rfl

theorem Run.fresh {src : Iterable Nat α S} {other : Iterable Nat α T} {s : S} (hi : src.iter = pure s) {xs : List α} {n : Nat}
    (h : Run (AsyncSeq.append other src) (.left s) xs n) : Run (AsyncSeq.append other src) .fresh xs n := by
  have hn : (AsyncSeq.append other src).next .fresh = (AsyncSeq.append other src).next (.left s) := by
    show (src.iter >>= fun s => appendLeft other src s) = appendLeft other src s
    rw [hi, pure_bind]
  cases h with
  | done h => exact .done fun w => by rw [hn, h]
  | step h h' => exact .step (fun w => by rw [hn, h]) h'

/-- a frame more for the generator -/
theorem Run.framed {q : FrameSeq Nat α S} {free : Nat} {s : S} {xs : List α} {n : Nat} (h : Run (q free) s xs n) :
    Run (FrameAsync.generator q (free + 1)) s xs n := by
  induction h with
  | done h => exact .done h
  | step h _ ih => exact .step h ih

theorem run_repeat (v : α) (free : Nat) : Run (Spec.tallied (FrameAsync.repeat v (some 1)) (free + 1)) [v] [v] 2 := by
  have : Run (AsyncSeq.repeat v (some 1) : Iterable Nat α _) [v] [v] 0 := .step (c := 0) (fun w => rfl) (.done (c := 0) fun w => rfl)
  exact (Run.framed (q := fun _ => AsyncSeq.repeat v (some 1)) (free := free) this).tallied

end Expression.Lemmas.AsyncStack
