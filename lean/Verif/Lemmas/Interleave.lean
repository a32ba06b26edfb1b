import Verif.Spec.Interleave
import Verif.Lemmas.Const

/-! # Several iterations of one object at the same time -/

namespace Expression.Spec

open Iterable PyD Lemmas

variable {σ α β γ δ S T C : Type}

/-! ## Results that do not depend on the world -/

/-- where `p` ends, its value satisfies `P` and `q` ends with the same result in every world -/
def Steadily (P : γ → Prop) (p q : PyD σ γ) : Prop :=
  ∀ w r, p.exec w = some r → (∀ a, r.1 = .ok a → P a) ∧ ∀ w', ∃ w'', q.exec w' = some (r.1, w'')

theorem Steadily.pure {P : γ → Prop} {a : γ} (h : P a) : Steadily P (pure a : PyD σ γ) (Pure.pure a) := by
  intro w r hr
  cases hr
  exact ⟨fun b hb => by cases hb; exact h, fun w' => ⟨w', rfl⟩⟩

theorem Steadily.raise {P : γ → Prop} (e : PyErr) : Steadily P (raise e : PyD σ γ) (PyD.raise e) := by
  intro w r hr
  cases hr
  exact ⟨fun b hb => (by cases hb), fun w' => ⟨w', rfl⟩⟩

theorem Steadily.bind {P : γ → Prop} {Q : δ → Prop} {p p' : PyD σ γ} {f f' : γ → PyD σ δ} (h : Steadily P p p')
    (hf : ∀ a, P a → Steadily Q (f a) (f' a)) : Steadily Q (p >>= f) (p' >>= f') := by
  intro w r hr
  rcases exec_bind_some hr with ⟨e, h1, h2⟩ | ⟨a, w1, h1, h2⟩
  · obtain ⟨h3, h4⟩ := h _ _ h1
    refine ⟨fun b hb => (by rw [h2] at hb; cases hb), fun w' => ?_⟩
    obtain ⟨w2, h5⟩ := h4 w'
    exact ⟨w2, by rw [exec_bind, h5, h2]⟩
  · obtain ⟨h3, h4⟩ := h _ _ h1
    obtain ⟨h5, h6⟩ := hf a (h3 a rfl) _ _ h2
    refine ⟨h5, fun w' => ?_⟩
    obtain ⟨w2, h7⟩ := h4 w'
    obtain ⟨w3, h8⟩ := h6 w2
    exact ⟨w3, by rw [exec_bind, h7]; exact h8⟩

theorem Steadily.mono {P Q : γ → Prop} {p q : PyD σ γ} (h : Steadily P p q) (hPQ : ∀ a, P a → Q a) : Steadily Q p q :=
  fun w r hr => ⟨fun a ha => hPQ a ((h w r hr).1 a ha), (h w r hr).2⟩

theorem SameResult.steadily {p : PyD σ γ} (h : SameResult p) : Steadily (fun _ => True) p p :=
  fun w r hr => ⟨fun _ _ => trivial, h w r hr⟩

theorem SameResult.steadily_of {P : γ → Prop} {p : PyD σ γ} (h : SameResult p)
    (hP : ∀ w a w', p.exec w = some (.ok a, w') → P a) : Steadily P p p := by
  intro w r hr
  refine ⟨fun a ha => ?_, h w r hr⟩
  rcases r with ⟨r, w'⟩
  simp only at ha
  subst ha
  exact hP _ _ _ hr

/-- what holds of the state after an element -/
def After (Good : S → Prop) : Option (α × S) → Prop
  | none => True
  | some (_, s) => Good s

theorem independent_of (it : Iterable σ α S) (Good : S → Prop) (h1 : Steadily Good it.iter it.iter)
    (h2 : ∀ s, Good s → Steadily (After Good) (it.next s) (it.next s)) : Independent it := by
  have h : ∀ s, Reached it s → Good s := by
    intro s hs
    induction hs with
    | iter h => exact (h1 _ _ h).1 _ rfl
    | next _ h ih => exact (h2 _ ih _ _ h).1 _ rfl
  exact ⟨fun w r hr => (h1 w r hr).2, fun s hs w r hr => (h2 s (h s hs) w r hr).2⟩

theorem Independent.iter {it : Iterable σ α S} (h : Independent it) : Steadily (Reached it) it.iter it.iter :=
  h.1.steadily_of fun _ _ _ => .iter

theorem Independent.next {it : Iterable σ α S} (h : Independent it) {s : S} (hs : Reached it s) :
    Steadily (After (Reached it)) (it.next s) (it.next s) := by
  refine (h.2 s hs).steadily_of fun w a w' ha => ?_
  rcases a with _ | ⟨x, s'⟩
  · trivial
  · exact .next hs ha

/-! ## The operators -/

theorem independent_ofList (xs : List α) : Independent (ofList xs : Iterable σ α _) := by
  refine independent_of _ (fun _ => True) (.pure trivial) ?_
  intro s _
  cases s with
  | nil => exact .pure trivial
  | cons x s => exact .pure trivial

theorem independent_initInfinite {f : Nat → PyD σ α} (hf : ∀ i, SameResult (f i)) : Independent (Seq.initInfinite f) := by
  refine independent_of _ (fun _ => True) (.pure trivial) fun i _ => ?_
  exact (hf i).steadily.bind fun y _ => .pure trivial

theorem independent_map {f : α → PyD σ β} (hf : ∀ x, SameResult (f x)) {src : Iterable σ α S} (hs : Independent src) :
    Independent (Seq.map f src) := by
  refine independent_of _ (fun o => ∀ s, o = some s → Reached src s) (.pure (fun s h => by cases h)) fun o ho => ?_
  have h0 : Steadily (Reached src) (Seq.started src o) (Seq.started src o) := by
    cases o with
    | none => exact hs.iter
    | some s => exact .pure (ho s rfl)
  refine h0.bind fun s hs1 => (hs.next hs1).bind fun r hr => ?_
  rcases r with _ | ⟨x, s'⟩
  · exact .pure trivial
  · exact (hf x).steadily.bind fun y _ => .pure (fun s h => by cases h; exact hr)

theorem independent_skip (n : Int) {src : Iterable σ α S} (hs : Independent src) : Independent (Seq.skip n src) := by
  have key : ∀ st : S × Nat, Reached src st.1 → Steadily (After (fun o : Option (S × Nat) => ∀ p, o = some p → Reached src p.1))
      (Seq.skipNext n src st) (Seq.skipNext n src st) := by
    intro st h0 w r hr
    have := Seq.skipNext.fixpoint_induct n src (fun F => ∀ st w r, (F st).exec w = some r → Reached src st.1 →
      (∀ a, r.1 = .ok a → After (fun o : Option (S × Nat) => ∀ p, o = some p → Reached src p.1) a) ∧
        ∀ w', ∃ w'', (Seq.skipNext n src st).exec w' = some (r.1, w''))
      (admissible_post1 (fun st w r => Reached src st.1 →
        (∀ a, r.1 = .ok a → After (fun o : Option (S × Nat) => ∀ p, o = some p → Reached src p.1) a) ∧
        ∀ w', ∃ w'', (Seq.skipNext n src st).exec w' = some (r.1, w''))) ?_ st w r hr h0
    · exact this
    · intro F hF st w r hr h0
      rw [Seq.skipNext]
      refine Steadily.bind (hs.next h0) (fun o ho => ?_) w r hr
      rcases o with _ | ⟨x, s'⟩
      · exact .pure trivial
      · simp only
        split
        · exact .pure (fun p hp => by cases hp; exact ho)
        · exact fun w r hr => hF _ w r hr ho
  refine independent_of _ (fun o => ∀ p, o = some p → Reached src p.1) (.pure (fun s h => by cases h)) fun o ho => ?_
  cases o with
  | none => exact hs.iter.bind fun s h => key (s, 0) h
  | some st => exact key st (ho st rfl)

theorem independent_take (n : Int) {src : Iterable σ α S} (hs : Independent src) : Independent (Seq.take n src) := by
  unfold Seq.take
  split
  · refine independent_of _ (fun o => ∀ p, o = some p → Reached src p.1) (.pure (fun s h => by cases h)) fun o ho => ?_
    have h0 : ∀ (s : S) (i : Nat), Reached src s → Steadily (After (fun o : Option (S × Nat) => ∀ p, o = some p → Reached src p.1))
        (do match ← src.next s with
          | none => pure none
          | some (n, s') => pure (some (n, some (s', i)))) (do match ← src.next s with
          | none => pure none
          | some (n, s') => pure (some (n, some (s', i)))) := by
      intro s i h
      refine (hs.next h).bind fun r hr => ?_
      rcases r with _ | ⟨x, s'⟩
      · exact .pure trivial
      · exact .pure (fun p hp => by cases hp; exact hr)
    cases o with
    | none => exact hs.iter.bind fun s h => h0 s 0 h
    | some st =>
      rcases st with ⟨s, i⟩
      simp only [Seq.takeGen]
      split
      · exact .pure trivial
      · exact h0 s (i + 1) (ho _ rfl)
  · exact independent_of _ (fun _ => True) (.pure trivial) fun o _ => .pure trivial

theorem independent_pairwise {src : Iterable σ α S} (hs : Independent src) : Independent (Seq.pairwise src) := by
  refine independent_of _ (fun p => Reached src p.1) (hs.iter.bind fun s h => .pure h) fun st hst => ?_
  rcases st with ⟨s, _ | old⟩
  · refine (hs.next hst).bind fun r hr => ?_
    rcases r with _ | ⟨x, s'⟩
    · exact .pure trivial
    · refine (hs.next hr).bind fun r hr => ?_
      rcases r with _ | ⟨y, s''⟩
      · exact .pure trivial
      · exact .pure hr
  · refine (hs.next hst).bind fun r hr => ?_
    rcases r with _ | ⟨x, s'⟩
    · exact .pure trivial
    · exact .pure hr

theorem independent_delay {g : PyD σ (Iterable σ α T)} (hg : SameResult g)
    (hg' : ∀ w it w', g.exec w = some (.ok it, w') → Independent it) : Independent (Seq.delay g) := by
  refine independent_of _ (fun p => Independent p.1 ∧ Reached p.1 p.2)
    ((hg.steadily_of hg').bind fun it h => h.iter.bind fun s hs => .pure ⟨h, hs⟩) fun st hst => ?_
  refine (hst.1.next hst.2).bind fun r hr => ?_
  rcases r with _ | ⟨x, s'⟩
  · exact .pure trivial
  · exact .pure ⟨hst.1, hr⟩

/-- the states of the iterators of `collect` -/
def CollectGood (src : Iterable σ α S) : Seq.CollectState S (Iterable σ β T) T → Prop
  | .fresh => True
  | .outer s => Reached src s
  | .inner s it t => Reached src s ∧ Independent it ∧ Reached it t

theorem independent_collect_of {m : α → PyD σ (Iterable σ β T)} {src : Iterable σ α S}
    (hm : ∀ s w x s' w', Reached src s → (src.next s).exec w = some (.ok (some (x, s')), w') → Steadily Independent (m x) (m x))
    (hs : Independent src) : Independent (Seq.collect m src) := by
  refine independent_of _ (CollectGood src) (.pure trivial) fun st hst => ?_
  intro w r hr
  have := Seq.collectNext.fixpoint_induct m src (fun F => ∀ st w r, (F st).exec w = some r → CollectGood src st →
    (∀ a, r.1 = .ok a → After (CollectGood src) a) ∧ ∀ w', ∃ w'', (Seq.collectNext m src st).exec w' = some (r.1, w''))
    (admissible_post1 (fun st w r => CollectGood src st →
      (∀ a, r.1 = .ok a → After (CollectGood src) a) ∧ ∀ w', ∃ w'', (Seq.collectNext m src st).exec w' = some (r.1, w''))) ?_ st w r hr hst
  · exact this
  · intro F hF st w r hr h0
    have hF' : ∀ st, CollectGood src st → Steadily (After (CollectGood src)) (F st) (Seq.collectNext m src st) :=
      fun st h w r hr => hF st w r hr h
    rw [Seq.collectNext.eq_def]
    cases st with
    | fresh => exact (hs.iter.bind fun s h => hF' (.outer s) h) w r hr
    | outer s =>
      have hn : Steadily (fun o : Option (α × S) => After (Reached src) o ∧ ∀ x s', o = some (x, s') → Steadily Independent (m x) (m x))
          (src.next s) (src.next s) := by
        refine (hs.2 s h0).steadily_of fun w o w' ho => ?_
        rcases o with _ | ⟨x, s'⟩
        · exact ⟨trivial, fun _ _ h => by cases h⟩
        · exact ⟨.next h0 ho, fun _ _ h => by cases h; exact hm s w x s' w' h0 ho⟩
      refine (hn.bind fun o ho => ?_) w r hr
      rcases o with _ | ⟨x, s'⟩
      · exact .pure trivial
      · exact (ho.2 x s' rfl).bind fun it hit => hit.iter.bind fun t ht => hF' (.inner s' it t) ⟨ho.1, hit, ht⟩
    | inner s it t =>
      refine ((h0.2.1.next h0.2.2).bind fun o ho => ?_) w r hr
      rcases o with _ | ⟨y, t'⟩
      · exact hF' (.outer s) h0.1
      · exact .pure ⟨h0.1, h0.2.1, ho⟩

theorem independent_collect {m : α → PyD σ (Iterable σ β T)} (hm : ∀ x, SameResult (m x))
    (hm' : ∀ x w it w', (m x).exec w = some (.ok it, w') → Independent it) {src : Iterable σ α S} (hs : Independent src) :
    Independent (Seq.collect m src) :=
  independent_collect_of (fun _ _ x _ _ _ _ => (hm x).steadily_of (hm' x)) hs

theorem independent_choose {f : α → PyD σ (Option β)} (hf : ∀ x, SameResult (f x)) {src : Iterable σ α S} (hs : Independent src) :
    Independent (Seq.choose f src) :=
  independent_collect_of (fun _ _ x _ _ _ _ => (hf x).steadily.bind fun _ _ => .pure (independent_ofList _)) hs

theorem reached_ofList {base xs : List α} (h : Reached (ofList base : Iterable σ α _) xs) : ∀ x ∈ xs, x ∈ base := by
  induction h with
  | iter h => cases h; exact fun _ h => h
  | @next s w x s' w' _ h ih =>
    cases s with
    | nil => cases h
    | cons y ys => cases h; exact fun z hz => ih z (by simp [hz])

theorem independent_concat {its : List (Iterable σ α T)} (h : ∀ it ∈ its, Independent it) : Independent (Seq.concat its) := by
  refine independent_collect_of (fun s w x s' w' hs hn => .pure ?_) (independent_ofList _)
  refine h x (reached_ofList hs x ?_)
  cases s with
  | nil => cases hn
  | cons y ys => cases hn; simp

/-! ## Iterations at the same time -/

theorem exec_begin (it : Iterable σ α S) (w : σ) : (begin it).exec w = match it.iter.exec w with
  | none => none
  | some (.error e, w') => some (.ok ⟨[], none, some e⟩, w')
  | some (.ok s, w') => some (.ok ⟨[], some s, none⟩, w') := rfl

/-- the state of an iteration, if it goes on, is one the iterator can be in -/
def InReach (it : Iterable σ α S) (t : Iteration α S) : Prop := ∀ s, t.state = some s → Reached it s

theorem steadily_begin {it : Iterable σ α S} (h : Independent it) : Steadily (InReach it) (begin it) (begin it) := by
  intro w r hr
  rw [exec_begin] at hr
  rcases h1 : it.iter.exec w with _ | ⟨e | s, w1⟩ <;> rw [h1] at hr
  · cases hr
  · cases hr
    refine ⟨fun a ha => by cases ha; exact fun s hs => (by cases hs), fun w' => ?_⟩
    obtain ⟨w2, h2⟩ := h.1 _ _ h1 w'
    exact ⟨w2, by rw [exec_begin, h2]⟩
  · cases hr
    refine ⟨fun a ha => by cases ha; exact fun s hs => by cases hs; exact .iter h1, fun w' => ?_⟩
    obtain ⟨w2, h2⟩ := h.1 _ _ h1 w'
    exact ⟨w2, by rw [exec_begin, h2]⟩

theorem exec_pull_none (it : Iterable σ α S) (t : Iteration α S) (h : t.state = none) (w : σ) :
    (pull it t).exec w = some (.ok t, w) := by
  simp only [PyD.exec, pull, h]

theorem exec_pull_some (it : Iterable σ α S) (t : Iteration α S) (s : S) (h : t.state = some s) (w : σ) :
    (pull it t).exec w = match (it.next s).exec w with
    | none => none
    | some (.error e, w') => some (.ok ⟨t.got, none, some e⟩, w')
    | some (.ok none, w') => some (.ok ⟨t.got, none, t.error⟩, w')
    | some (.ok (some (x, s')), w') => some (.ok ⟨t.got ++ [x], some s', t.error⟩, w') := by
  simp only [PyD.exec, pull, h]
  rfl

theorem steadily_pull {it : Iterable σ α S} (h : Independent it) {t : Iteration α S} (ht : InReach it t) :
    Steadily (InReach it) (pull it t) (pull it t) := by
  intro w r hr
  cases hs : t.state with
  | none =>
    rw [exec_pull_none _ _ hs] at hr
    cases hr
    exact ⟨fun a ha => by cases ha; exact ht, fun w' => ⟨w', exec_pull_none _ _ hs _⟩⟩
  | some s =>
    rw [exec_pull_some _ _ s hs] at hr
    rcases h1 : (it.next s).exec w with _ | ⟨e | _ | ⟨x, s'⟩, w1⟩ <;> rw [h1] at hr
    · cases hr
    · cases hr
      refine ⟨fun a ha => by cases ha; exact fun s hs => (by cases hs), fun w' => ?_⟩
      obtain ⟨w2, h2⟩ := h.2 s (ht s hs) _ _ h1 w'
      exact ⟨w2, by rw [exec_pull_some _ _ s hs, h2]⟩
    · cases hr
      refine ⟨fun a ha => by cases ha; exact fun s hs => (by cases hs), fun w' => ?_⟩
      obtain ⟨w2, h2⟩ := h.2 s (ht s hs) _ _ h1 w'
      exact ⟨w2, by rw [exec_pull_some _ _ s hs, h2]⟩
    · cases hr
      refine ⟨fun a ha => by cases ha; exact fun s' hs' => by cases hs'; exact .next (ht s hs) h1, fun w' => ?_⟩
      obtain ⟨w2, h2⟩ := h.2 s (ht s hs) _ _ h1 w'
      exact ⟨w2, by rw [exec_pull_some _ _ s hs, h2]⟩

theorem pulls_succ (it : Iterable σ α S) (n : Nat) (t : Iteration α S) : pulls it (n + 1) t = (pulls it n t >>= pull it) := by
  induction n generalizing t with
  | zero => simp only [pulls, pure_bind, bind_pure]
  | succ n ih =>
    rw [pulls]
    have : ∀ t, pulls it (n + 1) t = pulls it n t >>= pull it := ih
    rw [pulls, bind_assoc]
    exact bind_congr fun t' => this t'

theorem alone_succ (it : Iterable σ α S) (n : Nat) : alone it (n + 1) = alone it n >>= pull it := by
  rw [alone, alone, bind_assoc]
  exact bind_congr fun t => pulls_succ it n t

/-- the iterations that are there are as they would be by themselves -/
def AsAlone (it : Iterable σ α S) (counts : Nat → Nat) (its : List (Iteration α S)) : Prop :=
  ∀ i t, its[i]? = some t → InReach it t ∧ ∀ w, ∃ w', (alone it (counts i)).exec w = some (.ok t, w')

theorem timesAsked_late (i n : Nat) (us : List Use) (h : n ≤ i) (hn : us.countP (· = .begin) + n ≤ i) : timesAsked i n us = 0 := by
  induction us generalizing n with
  | nil => rfl
  | cons u us ih =>
    cases u with
    | begin =>
      simp at hn
      exact ih (n + 1) (by omega) (by omega)
    | pull j =>
      simp at hn
      rw [timesAsked, ih n h (by omega), if_neg (by omega)]

theorem play_asAlone {it : Iterable σ α S} (h : Independent it) (us : List Use) (its its' : List (Iteration α S)) (counts : Nat → Nat)
    (hc : ∀ i, its.length ≤ i → counts i = 0) (ha : AsAlone it counts its) (w w' : σ)
    (hp : (play it us its).exec w = some (.ok its', w')) :
    AsAlone it (fun i => counts i + timesAsked i its.length us) its' := by
  induction us generalizing its counts w with
  | nil =>
    rw [play, exec_pure] at hp
    cases hp
    exact ha
  | cons u us ih =>
    rw [play, exec_bind] at hp
    cases u with
    | begin =>
      rw [use, exec_bind] at hp
      rcases h1 : (begin it).exec w with _ | ⟨e | t0, w1⟩ <;> rw [h1] at hp
      · cases hp
      · cases hp
      · simp only [exec_pure] at hp
        obtain ⟨g1, g2⟩ := steadily_begin h _ _ h1
        have := ih (its ++ [t0]) counts (fun i hi => hc i (by simp at hi; omega)) ?_ w1 hp
        · simpa [timesAsked] using this
        · intro i t hi
          by_cases hil : i < its.length
          · rw [List.getElem?_append_left hil] at hi
            exact ha i t hi
          · have hie : i = its.length := by
              have := (List.getElem?_eq_some_iff.1 hi).1
              simp at this
              omega
            subst hie
            simp at hi
            subst hi
            rw [hc _ (Nat.le_refl _)]
            refine ⟨g1 t0 rfl, fun w => ?_⟩
            obtain ⟨w2, h2⟩ := g2 w
            refine ⟨w2, ?_⟩
            rw [alone]
            simp only [pulls, bind_pure]
            exact h2
    | pull j =>
      rw [use] at hp
      cases hj : its[j]? with
      | none =>
        rw [hj] at hp
        simp only [exec_pure] at hp
        have := ih its counts hc ha w hp
        have hl : its.length ≤ j := List.getElem?_eq_none_iff.1 hj
        have e : ∀ i, timesAsked i its.length (.pull j :: us) = timesAsked i its.length us := by
          intro i
          rw [timesAsked, if_neg (by omega), Nat.zero_add]
        simp only [e]
        exact this
      | some t0 =>
        rw [hj] at hp
        simp only at hp
        rw [exec_bind] at hp
        have hl : j < its.length := (List.getElem?_eq_some_iff.1 hj).1
        rcases h1 : (pull it t0).exec w with _ | ⟨e | t1, w1⟩ <;> rw [h1] at hp
        · cases hp
        · cases hp
        · simp only [exec_pure] at hp
          obtain ⟨g1, g2⟩ := steadily_pull h (ha j t0 hj).1 _ _ h1
          have := ih (its.set j t1) (fun i => counts i + if j = i ∧ i < its.length then 1 else 0) ?_ ?_ w1 hp
          · intro i t hi
            have h3 := this i t hi
            simp only [List.length_set] at h3
            simp only [timesAsked, ← Nat.add_assoc]
            exact h3
          · intro i hi
            simp at hi
            rw [hc i hi, if_neg (by omega)]
          · intro i t hi
            by_cases hij : j = i
            · subst hij
              rw [List.getElem?_set_self hl] at hi
              cases hi
              refine ⟨g1 t1 rfl, fun w => ?_⟩
              obtain ⟨w2, h2⟩ := (ha j t0 hj).2 w
              obtain ⟨w3, h3⟩ := g2 w2
              refine ⟨w3, ?_⟩
              have e : counts j + (if j = j ∧ j < its.length then 1 else 0) = counts j + 1 := by rw [if_pos ⟨rfl, hl⟩]
              show (alone it (counts j + (if j = j ∧ j < its.length then 1 else 0))).exec w = _
              rw [e, alone_succ, exec_bind, h2]
              exact h3
            · rw [List.getElem?_set_ne hij] at hi
              simp only [hij, false_and, if_false, Nat.add_zero]
              exact ha i t hi

/-- what a single iteration gets, if `list(it)` returns -/
theorem pulls_loop (it : Iterable σ α S) (s : S) (acc : List α) (w : σ) (r : Except PyErr (List α) × σ)
    (hr : (it.loop (fun acc x => pure (.next (acc ++ [x]))) s acc).exec w = some r) :
    ∀ xs, r.1 = .ok xs → ∃ ys, xs = acc ++ ys ∧ ∀ n g, ∃ t w', (pulls it n ⟨g, some s, none⟩).exec w = some (.ok t, w') ∧
      t.got = g ++ ys.take n ∧ t.error = none := by
  have hdone : ∀ n (t : Iteration α S) w, t.state = none → (pulls it n t).exec w = some (.ok t, w) := by
    intro n
    induction n with
    | zero => intro t w _; rfl
    | succ n ih =>
      intro t w ht
      rw [pulls, exec_bind, exec_pull_none _ _ ht]
      exact ih t w ht
  refine loop_post it (fun acc x => pure (.next (acc ++ [x]))) (fun s acc w r => ∀ xs, r.1 = .ok xs → ∃ ys, xs = acc ++ ys ∧
    ∀ n g, ∃ t w', (pulls it n ⟨g, some s, none⟩).exec w = some (.ok t, w') ∧ t.got = g ++ ys.take n ∧ t.error = none) ?_ s acc w r hr
  intro F hF s acc w r hr xs hxs
  rw [exec_bind] at hr
  rcases h1 : (it.next s).exec w with _ | ⟨e | _ | ⟨x, s'⟩, w1⟩ <;> rw [h1] at hr
  · cases hr
  · cases hr; cases hxs
  · cases hr
    cases hxs
    refine ⟨[], by simp, fun n g => ?_⟩
    cases n with
    | zero => exact ⟨⟨g, some s, none⟩, w, rfl, by simp, rfl⟩
    | succ n =>
      refine ⟨⟨g, none, none⟩, w1, ?_, by simp, rfl⟩
      rw [pulls, exec_bind, exec_pull_some _ _ s rfl, h1]
      exact hdone n _ w1 rfl
  · obtain ⟨ys, hy, hn⟩ := hF s' (acc ++ [x]) w1 r hr xs hxs
    refine ⟨x :: ys, by simp [hy], fun n g => ?_⟩
    cases n with
    | zero => exact ⟨⟨g, some s, none⟩, w, rfl, by simp, rfl⟩
    | succ n =>
      obtain ⟨t, w2, ht, hg, he⟩ := hn n (g ++ [x])
      refine ⟨t, w2, ?_, by simp [hg], he⟩
      rw [pulls, exec_bind, exec_pull_some _ _ s rfl, h1]
      exact ht

theorem alone_list (it : Iterable σ α S) (w w' : σ) (xs : List α) (h : it.toList.exec w = some (.ok xs, w')) (n : Nat) :
    ∃ t w'', (alone it n).exec w = some (.ok t, w'') ∧ t.got = xs.take n ∧ t.error = none := by
  rw [toList, forLoop, exec_bind] at h
  rcases h1 : it.iter.exec w with _ | ⟨e | s, w1⟩ <;> rw [h1] at h
  · cases h
  · cases h
  · obtain ⟨ys, hy, hn⟩ := pulls_loop it s [] w1 _ h xs rfl
    obtain ⟨t, w2, ht, hg, he⟩ := hn n []
    refine ⟨t, w2, ?_, by simpa [hy] using hg, he⟩
    rw [alone, exec_bind, exec_begin, h1]
    exact ht

/-! ## Objects that are their own iterators -/

/-- `D` says to which iteration each element went -/
structure Shared (T : Iteration α S) (D : List (Nat × α)) (its : List (Iteration α Unit)) : Prop where
  all : D.map (·.2) = T.got
  each : ∀ i t, its[i]? = some t → t.got = (D.filter (·.1 = i)).map (·.2)
  there : ∀ d ∈ D, d.1 < its.length
  ended : ∀ t ∈ its, t.state = none → T.state = none

theorem shared_append {T : Iteration α S} {D : List (Nat × α)} {its : List (Iteration α Unit)} (h : Shared T D its) :
    Shared T D (its ++ [⟨[], some (), none⟩]) := by
  refine ⟨h.all, fun i t hi => ?_, fun d hd => by simp; have := h.there d hd; omega, fun t ht hs => ?_⟩
  · by_cases hil : i < its.length
    · rw [List.getElem?_append_left hil] at hi
      exact h.each i t hi
    · have hie : i = its.length := by
        have := (List.getElem?_eq_some_iff.1 hi).1
        simp at this
        omega
      subst hie
      simp at hi
      subst hi
      have : D.filter (·.1 = its.length) = [] := by
        rw [List.filter_eq_nil_iff]
        intro d hd
        have := h.there d hd
        simp; omega
      rw [this]; rfl
  · rcases List.mem_append.1 ht with h1 | h1
    · exact h.ended t h1 hs
    · simp at h1; subst h1; cases hs

theorem shared_end {T : Iteration α S} {D : List (Nat × α)} {its : List (Iteration α Unit)} (h : Shared T D its) (j : Nat)
    (t0 t1 : Iteration α Unit) (h0 : its[j]? = some t0) (h1 : t1.got = t0.got) (T' : Iteration α S) (hT : T'.got = T.got)
    (hs : T'.state = none) : Shared T' D (its.set j t1) := by
  have hl : j < its.length := (List.getElem?_eq_some_iff.1 h0).1
  refine ⟨h.all.trans hT.symm, fun i t hi => ?_, fun d hd => by simpa using h.there d hd, fun _ _ _ => hs⟩
  by_cases hij : j = i
  · subst hij
    rw [List.getElem?_set_self hl] at hi
    cases hi
    exact h1.trans (h.each j t0 h0)
  · rw [List.getElem?_set_ne hij] at hi
    exact h.each i t hi

theorem shared_more {T : Iteration α S} {D : List (Nat × α)} {its : List (Iteration α Unit)} (h : Shared T D its) (j : Nat)
    (t0 : Iteration α Unit) (h0 : its[j]? = some t0) (x : α) (s s' : S) (hs : T.state = some s) (e e' : Option PyErr) :
    Shared ⟨T.got ++ [x], some s', e⟩ (D ++ [(j, x)]) (its.set j ⟨t0.got ++ [x], some (), e'⟩) := by
  have hl : j < its.length := (List.getElem?_eq_some_iff.1 h0).1
  refine ⟨by simp [h.all], fun i t hi => ?_, fun d hd => ?_, fun t ht hn => ?_⟩
  · by_cases hij : j = i
    · subst hij
      rw [List.getElem?_set_self hl] at hi
      cases hi
      simp [List.filter_append, h.each j t0 h0]
    · rw [List.getElem?_set_ne hij] at hi
      simp [List.filter_append, h.each i t hi, hij]
  · rcases List.mem_append.1 hd with h1 | h1
    · simpa using h.there d h1
    · simp at h1; subst h1; simpa using hl
  · rcases List.mem_or_eq_of_mem_set ht with h1 | h1
    · have := h.ended t h1 hn
      rw [hs] at this; cases this
    · subst h1; cases hn

theorem oneShot_play (it : Iterable σ α S) (us : List Use) (its its' : List (Iteration α Unit)) (D : List (Nat × α))
    (T : Iteration α S) (h : Shared T D its) (w w' : σ) (o : Option S)
    (hp : (play (Seq.oneShot it) us its).exec (w, T.state) = some (.ok its', (w', o))) :
    ∃ T' D', (pulls it (timesAskedAny its.length us) T).exec w = some (.ok T', w') ∧ T'.state = o ∧ Shared T' D' its' := by
  induction us generalizing its D T w with
  | nil =>
    rw [play, exec_pure] at hp
    cases hp
    exact ⟨T, D, rfl, rfl, h⟩
  | cons u us ih =>
    rw [play, exec_bind] at hp
    cases u with
    | begin =>
      have e : (use (Seq.oneShot it) its .begin).exec (w, T.state) = some (.ok (its ++ [⟨[], some (), none⟩]), (w, T.state)) := rfl
      rw [e] at hp
      have := ih (its ++ [⟨[], some (), none⟩]) D T (shared_append h) w hp
      simpa [timesAskedAny] using this
    | pull j =>
      rw [use] at hp
      cases hj : its[j]? with
      | none =>
        rw [hj] at hp
        simp only [exec_pure] at hp
        have hl : its.length ≤ j := List.getElem?_eq_none_iff.1 hj
        rw [timesAskedAny, if_neg (by omega), Nat.zero_add]
        exact ih its D T h w hp
      | some t0 =>
        rw [hj] at hp
        simp only at hp
        rw [exec_bind] at hp
        have hl : j < its.length := (List.getElem?_eq_some_iff.1 hj).1
        rw [timesAskedAny, if_pos hl, Nat.add_comm 1]
        have hlen : ∀ t1, (its.set j t1).length = its.length := fun t1 => by simp
        cases ht : t0.state with
        | none =>
          have hT := h.ended t0 (List.mem_of_getElem? hj) ht
          rw [exec_pull_none _ _ ht] at hp
          simp only [exec_pure] at hp
          obtain ⟨T', D', h1, h2⟩ := ih (its.set j t0) D T (shared_end h j t0 t0 hj rfl T rfl hT) w hp
          rw [hlen] at h1
          refine ⟨T', D', ?_, h2⟩
          rw [pulls, exec_bind, exec_pull_none _ _ hT]
          exact h1
        | some u0 =>
          rw [exec_pull_some _ _ u0 ht] at hp
          cases hT : T.state with
          | none =>
            rw [hT] at hp
            have e : ((Seq.oneShot it).next u0).exec (w, none) = some (.ok none, (w, none)) := rfl
            rw [e] at hp
            simp only [exec_pure] at hp
            rw [← hT] at hp
            obtain ⟨T', D', h1, h2⟩ := ih _ D T (shared_end h j t0 ⟨t0.got, none, t0.error⟩ hj rfl T rfl hT) w hp
            rw [hlen] at h1
            refine ⟨T', D', ?_, h2⟩
            rw [pulls, exec_bind, exec_pull_none _ _ hT]
            exact h1
          | some s =>
            rw [hT] at hp
            have e : ((Seq.oneShot it).next u0).exec (w, some s) = match (it.next s).exec w with
              | none => none
              | some (.error e, w') => some (.error e, (w', none))
              | some (.ok none, w') => some (.ok none, (w', none))
              | some (.ok (some (x, s')), w') => some (.ok (some (x, ())), (w', some s')) := rfl
            rw [e] at hp
            rcases h1 : (it.next s).exec w with _ | ⟨e | _ | ⟨x, s'⟩, w1⟩ <;> rw [h1] at hp
            · cases hp
            · simp only [exec_pure] at hp
              obtain ⟨T', D', h2, h3⟩ := ih _ D ⟨T.got, none, some e⟩
                (shared_end h j t0 ⟨t0.got, none, some e⟩ hj rfl ⟨T.got, none, some e⟩ rfl rfl) w1 hp
              rw [hlen] at h2
              refine ⟨T', D', ?_, h3⟩
              rw [pulls, exec_bind, exec_pull_some _ _ s hT, h1]
              exact h2
            · simp only [exec_pure] at hp
              obtain ⟨T', D', h2, h3⟩ := ih _ D ⟨T.got, none, T.error⟩
                (shared_end h j t0 ⟨t0.got, none, t0.error⟩ hj rfl ⟨T.got, none, T.error⟩ rfl rfl) w1 hp
              rw [hlen] at h2
              refine ⟨T', D', ?_, h3⟩
              rw [pulls, exec_bind, exec_pull_some _ _ s hT, h1]
              exact h2
            · simp only [exec_pure] at hp
              obtain ⟨T', D', h2, h3⟩ := ih _ _ ⟨T.got ++ [x], some s', T.error⟩
                (shared_more h j t0 hj x s s' hT T.error t0.error) w1 hp
              rw [hlen] at h2
              refine ⟨T', D', ?_, h3⟩
              rw [pulls, exec_bind, exec_pull_some _ _ s hT, h1]
              exact h2

end Expression.Spec
