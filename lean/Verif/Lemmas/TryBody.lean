import Verif.Spec.TryBody
import Verif.Spec.Monadic
import Verif.Lemmas.Builder

/-! # The generator of a body with `try` and `with` statements does what the block says -/

namespace Expression.Lemmas.TryBody

open PyD Spec

variable {σ α ε T β : Type}

theorem exec_attempt (p : PyD σ β) (w : σ) : (attempt p).exec w = match p.exec w with
    | none => none
    | some (r, w') => some (.ok r, w') := rfl

section

variable (a : Bool) (step : T → PyD σ (BlockStmt σ α ε T))

/-- what the statements around do with a block left by `x` -/
def den : List (Inside σ α ε T) → List (Obj α) → Way α ε → PyD σ (List (Obj α) × Way α ε)
  | [], ys, x => pure (ys, x)
  | .try_ after :: st, ys, x => do
    let r ← block a step (after x) ys
    den st r.1 r.2
  | .with_ exit rest :: st, ys, x => do
    match ← attempt exit with
    | .error e => den st ys (.ofErr e)
    | .ok _ =>
      match x with
      | .done => do
        let r ← block a step rest ys
        den st r.1 r.2
      | x => den st ys x

/-- a block and the statements around it -/
def full (t : T) (st : List (Inside σ α ε T)) (ys : List (Obj α)) : PyD σ (List (Obj α) × Way α ε) := do
  let r ← block a step t ys
  den a step st r.1 r.2

/-- leaving by `x` -/
def leaving (x : Way α ε) (st : List (Inside σ α ε T)) : PyD σ (GenOut α ε (TryPos σ α ε T)) := do
  match ← unwind x st with
  | .inl x => x.out a
  | .inr (t, around) => runBody a step t around

theorem runBody_eq (t : T) (st : List (Inside σ α ε T)) : runBody a step t st = (do
    match ← attempt (step t) with
    | .error e => leaving a step (.ofErr e) st
    | .ok (.leave x) => leaving a step x st
    | .ok (.yield_ v rest) => pure (.yielded v (.at_ rest st))
    | .ok (.fromOpt (some v) rest) => if a then runBody a step (rest v) st else pure (.yielded v (.at_ rest st))
    | .ok (.fromOpt none _) => leaving a step (.effect (.opt none)) st
    | .ok (.fromRes (.ok v) rest) => if a then runBody a step (rest v) st else pure (.yielded v (.at_ rest st))
    | .ok (.fromRes (.error e) _) => leaving a step (.effect (.res (.error e))) st
    | .ok (.try_ inner after) => runBody a step inner (.try_ after :: st)
    | .ok (.with_ enter inner exit rest) => do
      match ← attempt enter with
      | .error e => leaving a step (.ofErr e) st
      | .ok _ => runBody a step inner (.with_ exit rest :: st)) := by
  rw [runBody.eq_1]
  rfl

theorem unwind_den (x : Way α ε) (st : List (Inside σ α ε T)) (ys : List (Obj α)) (w : σ) :
    (den a step st ys x).exec w = match (unwind x st).exec w with
      | none => none
      | some (.error e, w') => some (.error e, w')
      | some (.ok (.inl x), w') => some (.ok (ys, x), w')
      | some (.ok (.inr (t, st')), w') => (full a step t st' ys).exec w' := by
  induction st generalizing x w with
  | nil => rfl
  | cons f st ih =>
    cases f with
    | try_ after => rfl
    | with_ exit rest =>
      simp only [den, unwind, exec_bind, exec_attempt]
      rcases exit.exec w with _ | ⟨e | u, w'⟩
      · rfl
      · exact ih _ _
      · cases x with
        | done => rfl
        | _ => exact ih _ _

theorem unwind_ok (x : Way α ε) (st : List (Inside σ α ε T)) (w : σ) : ∀ e w', (unwind x st).exec w ≠ some (.error e, w') := by
  induction st generalizing x w with
  | nil => intro e w' h; cases h
  | cons f st ih =>
    intro e w' h
    cases f with
    | try_ after => cases h
    | with_ exit rest =>
      simp only [unwind, exec_bind, exec_attempt] at h
      rcases he : exit.exec w with _ | ⟨e1 | u, w1⟩
      · rw [he] at h; cases h
      · rw [he] at h; exact ih _ _ _ _ h
      · rw [he] at h
        cases x with
        | done => cases h
        | _ => exact ih _ _ _ _ h

theorem full_eq (t : T) (st : List (Inside σ α ε T)) (ys : List (Obj α)) : full a step t st ys = (do
    match ← attempt (step t) with
    | .error e => den a step st ys (.ofErr e)
    | .ok (.leave x) => den a step st ys x
    | .ok (.yield_ v rest) => full a step (rest v) st (ys ++ [v])
    | .ok (.fromOpt (some v) rest) => full a step (rest v) st (if a then ys else ys ++ [v])
    | .ok (.fromOpt none _) => den a step st ys (.effect (.opt none))
    | .ok (.fromRes (.ok v) rest) => full a step (rest v) st (if a then ys else ys ++ [v])
    | .ok (.fromRes (.error e) _) => den a step st ys (.effect (.res (.error e)))
    | .ok (.try_ inner after) => full a step inner (.try_ after :: st) ys
    | .ok (.with_ enter inner exit rest) => do
      match ← attempt enter with
      | .error e => den a step st ys (.ofErr e)
      | .ok _ => full a step inner (.with_ exit rest :: st) ys) := by
  rw [full, block.eq_1, bind_assoc]
  refine bind_congr fun r => ?_
  rcases r with e | x
  · rfl
  · cases x with
    | leave x => rfl
    | yield_ v rest => rfl
    | fromOpt o rest => cases o <;> rfl
    | fromRes r rest => cases r <;> rfl
    | try_ inner after => simp only [bind_assoc, full, den]
    | with_ enter inner exit rest =>
      simp only [bind_assoc]
      refine bind_congr fun r => ?_
      cases r with
      | error e => rfl
      | ok u =>
        simp only [bind_assoc, full, den]
        refine bind_congr fun r => ?_
        refine bind_congr fun r2 => ?_
        cases r2 with
        | error e => rfl
        | ok u =>
          rcases r with ⟨ys, x⟩
          cases x <;> rfl

/-- The generator stopped at a `yield`, or the body was left by `x`.  `D` is what the block does from where the generator was. -/
def Segment (D : List (Obj α) → PyD σ (List (Obj α) × Way α ε)) (w : σ) (r : Except PyErr (GenOut α ε (TryPos σ α ε T)) × σ) : Prop :=
  (∃ y rest st', r.1 = .ok (.yielded y (.at_ rest st')) ∧ ∀ ys, (D ys).exec w = (full a step (rest y) st' (ys ++ [y])).exec r.2) ∨
  (∃ x : Way α ε, (x.out a).exec r.2 = some r ∧ ∀ ys, (D ys).exec w = some (.ok (ys, x), r.2))

theorem Segment.congr {D D' : List (Obj α) → PyD σ (List (Obj α) × Way α ε)} {w w' : σ} {r : Except PyErr (GenOut α ε (TryPos σ α ε T)) × σ}
    (h : Segment a step D' w' r) (e : ∀ ys, (D ys).exec w = (D' ys).exec w') : Segment a step D w r := by
  rcases h with ⟨y, rest, st', h1, h2⟩ | ⟨x, h1, h2⟩
  · exact .inl ⟨y, rest, st', h1, fun ys => (e ys).trans (h2 ys)⟩
  · exact .inr ⟨x, h1, fun ys => (e ys).trans (h2 ys)⟩

theorem out_state (x : Way α ε) (w : σ) {r : Except PyErr (GenOut α ε (TryPos σ α ε T)) × σ} (h : (x.out a).exec w = some r) : r.2 = w := by
  cases x <;> cases h <;> rfl

theorem segment_leaving {f : T → List (Inside σ α ε T) → PyD σ (GenOut α ε (TryPos σ α ε T))}
    (ih : ∀ t st w r, (f t st).exec w = some r → Segment a step (full a step t st) w r) (x : Way α ε) (st : List (Inside σ α ε T)) (w : σ)
    (r : Except PyErr (GenOut α ε (TryPos σ α ε T)) × σ)
    (h : exec (do
      match ← unwind x st with
      | .inl x => x.out a
      | .inr (t, around) => f t around) w = some r) : Segment a step (fun ys => den a step st ys x) w r := by
  have hd := fun ys => unwind_den a step x st ys w
  rw [exec_bind] at h
  rcases hu : (unwind x st).exec w with _ | ⟨e | x' | ⟨t, st'⟩, w'⟩
  · rw [hu] at h; cases h
  · exact absurd hu (unwind_ok x st w e w')
  · rw [hu] at h
    simp only [hu] at hd
    simp only at h
    have := out_state a x' w' h
    exact .inr ⟨x', by rw [this]; exact h, fun ys => by rw [hd ys, this]⟩
  · rw [hu] at h
    simp only [hu] at hd
    exact (ih _ _ _ _ h).congr a step hd

theorem segment (t : T) (st : List (Inside σ α ε T)) (w : σ) (r : Except PyErr (GenOut α ε (TryPos σ α ε T)) × σ)
    (h : (runBody a step t st).exec w = some r) : Segment a step (full a step t st) w r := by
  revert t st w r
  refine runBody.fixpoint_induct a step (fun f => ∀ t st w r, (f t st).exec w = some r → Segment a step (full a step t st) w r)
    (admissible_post2 fun t st w r => Segment a step (full a step t st) w r) ?_
  intro f ih t st w r h
  rw [exec_bind, exec_attempt] at h
  have hf := fun ys => congrArg (fun p => exec p w) (full_eq a step t st ys)
  simp only [exec_bind, exec_attempt] at hf
  rcases hs : (step t).exec w with _ | ⟨e | s, w'⟩
  · rw [hs] at h; cases h
  · rw [hs] at h
    simp only [hs] at hf
    exact (segment_leaving a step ih _ _ _ _ h).congr a step hf
  · rw [hs] at h
    simp only [hs] at hf
    cases s with
    | leave x => exact (segment_leaving a step ih _ _ _ _ h).congr a step hf
    | yield_ v rest =>
      cases h
      exact .inl ⟨v, rest, st, rfl, hf⟩
    | fromOpt o rest =>
      cases o with
      | none => exact (segment_leaving a step ih _ _ _ _ h).congr a step hf
      | some v =>
        cases a with
        | true => exact (ih _ _ _ _ h).congr _ step hf
        | false => cases h; exact .inl ⟨v, rest, st, rfl, hf⟩
    | fromRes o rest =>
      cases o with
      | error e => exact (segment_leaving a step ih _ _ _ _ h).congr a step hf
      | ok v =>
        cases a with
        | true => exact (ih _ _ _ _ h).congr _ step hf
        | false => cases h; exact .inl ⟨v, rest, st, rfl, hf⟩
    | try_ inner after => exact (ih _ _ _ _ h).congr a step hf
    | with_ enter inner exit rest =>
      simp only [exec_bind, exec_attempt] at h hf
      rcases he : enter.exec w' with _ | ⟨e | u, w2⟩
      · rw [he] at h; cases h
      · rw [he] at h
        simp only [he] at hf
        exact (segment_leaving a step ih _ _ _ _ h).congr a step hf
      · rw [he] at h
        simp only [he] at hf
        exact (ih _ _ _ _ h).congr a step hf

/-- how the body ended, as the builder sees it -/
def final (r : List (Obj α) × Way α ε) : PyD σ (List (Obj α) × End α ε) :=
  match ended a r.2 with
  | .ok e => pure (r.1, e)
  | .error e => PyD.raise e

/-- what the block does from the position `s` of the generator -/
def denPos (s : TryPos σ α ε T) (v : Obj α) (ys : List (Obj α)) : PyD σ (List (Obj α) × End α ε) :=
  match s with
  | .start t => full a step t [] ys >>= final a
  | .at_ rest st => full a step (rest v) st ys >>= final a

theorem echo_den (t0 : T) (s : TryPos σ α ε T) (v : Obj α) (ys : List (Obj α)) :
    Refines (echoFrom (tryBody a step t0) s v ys) (denPos a step s v ys) := by
  revert s v ys
  refine echoFrom.fixpoint_induct (tryBody a step t0) (fun f => ∀ s v ys w r, (f s v ys).exec w = some r → (denPos a step s v ys).exec w = some r)
    (admissible_post3 fun s v ys w r => (denPos a step s v ys).exec w = some r) ?_
  intro f ih s v ys w r h
  rw [exec_bind] at h
  have key : ∀ t st, (∀ o w', ((tryBody a step t0).resume s v).exec w = some (o, w') → (runBody a step t st).exec w = some (o, w')) →
      ((tryBody a step t0).resume s v).exec w ≠ none →
      (full a step t st ys >>= final a).exec w = some r := by
    intro t st hres hne
    rcases hr : ((tryBody a step t0).resume s v).exec w with _ | ⟨o, w'⟩
    · exact absurd hr hne
    have hseg := segment a step t st w _ (hres o w' hr)
    rw [exec_bind]
    rcases hseg with ⟨y, rest, st', h1, h2⟩ | ⟨x, h1, h2⟩
    · have h1 : o = .ok (.yielded y (.at_ rest st')) := h1
      subst h1
      rw [h2 ys]
      have hn : ((tryBody a step t0).next s v).exec w = some (.ok (.yielded y (.at_ rest st')), w') := by
        simp only [Gen.next, exec] at hr ⊢; rw [hr]
      rw [hn] at h
      have := ih _ _ _ _ _ h
      simp only [denPos] at this
      rw [exec_bind] at this
      exact this
    · rw [h2 ys]
      cases x with
      | done =>
        cases h1
        have hn : ((tryBody a step t0).next s v).exec w = some (.ok (.returned .none), w') := by
          simp only [Gen.next, exec] at hr ⊢; rw [hr]
        rw [hn] at h; exact h
      | returned u =>
        cases h1
        have hn : ((tryBody a step t0).next s v).exec w = some (.ok (.returned (if a then .none else u)), w') := by
          simp only [Gen.next, exec] at hr ⊢; rw [hr]
        rw [hn] at h; exact h
      | effect m =>
        cases h1
        have hn : ((tryBody a step t0).next s v).exec w = some (.ok (.effect m), w') := by
          simp only [Gen.next, exec] at hr ⊢; rw [hr]
        rw [hn] at h; exact h
      | raised e =>
        cases h1
        have hn : ((tryBody a step t0).next s v).exec w = match (some (.error e, w') : Option (Except PyErr (GenOut α ε (TryPos σ α ε T)) × σ)) with
            | some (.error .effectError, w') => some (.ok (.effect (.opt none)), w')
            | some (.error .stopIteration, w') => some (.error (.failwith "generator raised StopIteration"), w')
            | r => r := by
          simp only [Gen.next, exec] at hr ⊢; rw [hr]; cases e <;> rfl
        rw [hn] at h
        cases e <;> exact h
  cases s with
  | start t =>
    refine key t [] (fun o w' h => h) ?_
    intro hn
    have : ((tryBody a step t0).next (.start t) v).exec w = none := by simp only [Gen.next, exec] at hn ⊢; rw [hn]
    rw [this] at h; cases h
  | at_ rest st =>
    refine key (rest v) st (fun o w' h => h) ?_
    intro hn
    have : ((tryBody a step t0).next (.at_ rest st) v).exec w = none := by simp only [Gen.next, exec] at hn ⊢; rw [hn]
    rw [this] at h; cases h

/-- go on with the generator `p`, as `echoFrom` does -/
def echoAt (t0 : T) (p : PyD σ (GenOut α ε (TryPos σ α ε T))) (ys : List (Obj α)) : PyD σ (List (Obj α) × End α ε) := fun w =>
  match p.exec w with
  | none => none
  | some (.error .effectError, w') => some (.ok (ys, .effect (.opt none)), w')
  | some (.error .stopIteration, w') => some (.error (.failwith "generator raised StopIteration"), w')
  | some (.error e, w') => some (.error e, w')
  | some (.ok (.yielded y s), w') => (echoFrom (tryBody a step t0) s y (ys ++ [y])).exec w'
  | some (.ok (.returned v), w') => some (.ok (ys, .returned v), w')
  | some (.ok (.effect m), w') => some (.ok (ys, .effect m), w')

theorem echoFrom_eq (t0 : T) (s : TryPos σ α ε T) (v : Obj α) (ys : List (Obj α)) :
    echoFrom (tryBody a step t0) s v ys = echoAt a step t0 ((tryBody a step t0).resume s v) ys := by
  apply PyD.ext
  intro w
  rw [echoFrom.eq_1, exec_bind]
  simp only [Gen.next, exec, echoAt]
  rcases (tryBody a step t0).resume s v w with _ | ⟨e | o, w'⟩
  · rfl
  · cases e <;> rfl
  · cases o <;> rfl

theorem echoAt_congr (t0 : T) {p q : PyD σ (GenOut α ε (TryPos σ α ε T))} {ys : List (Obj α)} {w w' : σ} (h : p.exec w = q.exec w') :
    (echoAt a step t0 p ys).exec w = (echoAt a step t0 q ys).exec w' := by
  have h : p w = q w' := h
  simp only [echoAt, exec, h]

theorem echoAt_out (t0 : T) (x : Way α ε) (ys : List (Obj α)) : echoAt a step t0 (x.out a) ys = final a (ys, x) := by
  apply PyD.ext
  intro w
  cases x with
  | raised e => cases e <;> rfl
  | _ => rfl

theorem block_echo (t0 : T) (t : T) (ys : List (Obj α)) (w : σ) (r : Except PyErr (List (Obj α) × Way α ε) × σ)
    (h : (block a step t ys).exec w = some r) : ∃ ys' x, r.1 = .ok (ys', x) ∧ ∀ st,
      (echoAt a step t0 (runBody a step t st) ys).exec w = (echoAt a step t0 (leaving a step x st) ys').exec r.2 := by
  revert t ys w r
  refine block.fixpoint_induct a step (fun f => ∀ t ys w r, (f t ys).exec w = some r → ∃ ys' x, r.1 = .ok (ys', x) ∧ ∀ st,
      (echoAt a step t0 (runBody a step t st) ys).exec w = (echoAt a step t0 (leaving a step x st) ys').exec r.2)
    (admissible_post2 fun t ys w r => ∃ ys' x, r.1 = .ok (ys', x) ∧ ∀ st,
      (echoAt a step t0 (runBody a step t st) ys).exec w = (echoAt a step t0 (leaving a step x st) ys').exec r.2) ?_
  intro f ih t ys w r h
  rw [exec_bind, exec_attempt] at h
  have hrun := fun st => congrArg (fun p => exec p w) (runBody_eq a step t st)
  simp only [exec_bind, exec_attempt] at hrun
  rcases hs : (step t).exec w with _ | ⟨e | s, w'⟩
  · rw [hs] at h; cases h
  · rw [hs] at h
    simp only [hs] at hrun
    cases h
    exact ⟨_, _, rfl, fun st => echoAt_congr a step t0 (hrun st)⟩
  · rw [hs] at h
    simp only [hs] at hrun
    have sent : ∀ v rest, (∀ st, (runBody a step t st).exec w = some (.ok (.yielded v (.at_ rest st)), w')) →
        (f (rest v) (ys ++ [v])).exec w' = some r → ∃ ys' x, r.1 = .ok (ys', x) ∧ ∀ st,
      (echoAt a step t0 (runBody a step t st) ys).exec w = (echoAt a step t0 (leaving a step x st) ys').exec r.2 := by
      intro v rest hrun h
      obtain ⟨ys', x, h1, h2⟩ := ih _ _ _ _ h
      refine ⟨ys', x, h1, fun st => ?_⟩
      rw [← h2 st]
      have : (echoAt a step t0 (runBody a step t st) ys).exec w = (echoFrom (tryBody a step t0) (.at_ rest st) v (ys ++ [v])).exec w' := by
        have := hrun st
        simp only [exec] at this
        simp only [echoAt, exec, this]
      rw [this, echoFrom_eq]
      rfl
    cases s with
    | leave x =>
      cases h
      exact ⟨_, _, rfl, fun st => echoAt_congr a step t0 (hrun st)⟩
    | yield_ v rest => exact sent v rest hrun h
    | fromOpt o rest =>
      cases o with
      | none =>
        cases h
        exact ⟨_, _, rfl, fun st => echoAt_congr a step t0 (hrun st)⟩
      | some v =>
        cases a with
        | true =>
          obtain ⟨ys', x, h1, h2⟩ := ih _ _ _ _ h
          exact ⟨ys', x, h1, fun st => (echoAt_congr _ step t0 (hrun st)).trans (h2 st)⟩
        | false => exact sent v rest hrun h
    | fromRes o rest =>
      cases o with
      | error e =>
        cases h
        exact ⟨_, _, rfl, fun st => echoAt_congr a step t0 (hrun st)⟩
      | ok v =>
        cases a with
        | true =>
          obtain ⟨ys', x, h1, h2⟩ := ih _ _ _ _ h
          exact ⟨ys', x, h1, fun st => (echoAt_congr _ step t0 (hrun st)).trans (h2 st)⟩
        | false => exact sent v rest hrun h
    | try_ inner after =>
      simp only [exec_bind] at h
      rcases hi : (f inner ys).exec w' with _ | ⟨r1, w1⟩
      · rw [hi] at h; cases h
      · obtain ⟨ys1, x1, h1, h2⟩ := ih _ _ _ _ hi
        have h1 : r1 = .ok (ys1, x1) := h1
        subst h1
        rw [hi] at h
        obtain ⟨ys', x, h3, h4⟩ := ih _ _ _ _ h
        exact ⟨ys', x, h3, fun st => (echoAt_congr a step t0 (hrun st)).trans ((h2 _).trans (h4 st))⟩
    | with_ enter inner exit rest =>
      simp only [exec_bind, exec_attempt] at h hrun
      rcases he : enter.exec w' with _ | ⟨e | u, w2⟩
      · rw [he] at h; cases h
      · rw [he] at h
        simp only [he] at hrun
        cases h
        exact ⟨_, _, rfl, fun st => echoAt_congr a step t0 (hrun st)⟩
      · rw [he] at h
        simp only [he] at hrun
        simp only [exec_bind, exec_attempt] at h
        rcases hi : (f inner ys).exec w2 with _ | ⟨r1, w1⟩
        · rw [hi] at h; cases h
        · obtain ⟨ys1, x1, h1, h2⟩ := ih _ _ _ _ hi
          have h1 : r1 = .ok (ys1, x1) := h1
          subst h1
          rw [hi] at h
          simp only at h
          rcases hx : exit.exec w1 with _ | ⟨e | u, w3⟩
          · rw [hx] at h; cases h
          · rw [hx] at h
            cases h
            refine ⟨_, _, rfl, fun st => (echoAt_congr a step t0 (hrun st)).trans ((h2 _).trans (echoAt_congr a step t0 ?_))⟩
            simp only [leaving, unwind, exec_bind, exec_attempt, hx]
            rfl
          · rw [hx] at h
            cases x1 with
            | done =>
              obtain ⟨ys', x, h3, h4⟩ := ih _ _ _ _ h
              refine ⟨ys', x, h3, fun st => (echoAt_congr a step t0 (hrun st)).trans ((h2 _).trans ((echoAt_congr a step t0 ?_).trans (h4 st)))⟩
              simp only [leaving, unwind, exec_bind, exec_attempt, hx]
              rfl
            | _ =>
              cases h
              refine ⟨_, _, rfl, fun st => (echoAt_congr a step t0 (hrun st)).trans ((h2 _).trans (echoAt_congr a step t0 ?_))⟩
              simp only [leaving, unwind, exec_bind, exec_attempt, hx]

theorem den_echo (t0 : T) (st : List (Inside σ α ε T)) (ys : List (Obj α)) (x : Way α ε) (w : σ) (r : Except PyErr (List (Obj α) × Way α ε) × σ)
    (h : (den a step st ys x).exec w = some r) : ∃ ys' x', r.1 = .ok (ys', x') ∧
      (echoAt a step t0 (leaving a step x st) ys).exec w = (echoAt a step t0 (x'.out a) ys').exec r.2 := by
  induction st generalizing ys x w with
  | nil => cases h; exact ⟨_, _, rfl, rfl⟩
  | cons f st ih =>
    cases f with
    | try_ after =>
      simp only [den, exec_bind] at h
      rcases hb : (block a step (after x) ys).exec w with _ | ⟨r1, w1⟩
      · rw [hb] at h; cases h
      · obtain ⟨ys1, x1, h1, h2⟩ := block_echo a step t0 _ _ _ _ hb
        have h1 : r1 = .ok (ys1, x1) := h1
        subst h1
        rw [hb] at h
        obtain ⟨ys', x', h3, h4⟩ := ih _ _ _ h
        exact ⟨ys', x', h3, (h2 st).trans h4⟩
    | with_ exit rest =>
      simp only [den, exec_bind, exec_attempt] at h
      rcases hx : exit.exec w with _ | ⟨e | u, w3⟩
      · rw [hx] at h; cases h
      · rw [hx] at h
        obtain ⟨ys', x', h3, h4⟩ := ih _ _ _ h
        refine ⟨ys', x', h3, (echoAt_congr a step t0 ?_).trans h4⟩
        simp only [leaving, unwind, exec_bind, exec_attempt, hx]
      · rw [hx] at h
        cases x with
        | done =>
          simp only [exec_bind] at h
          rcases hb : (block a step rest ys).exec w3 with _ | ⟨r1, w1⟩
          · rw [hb] at h; cases h
          · obtain ⟨ys1, x1, h1, h2⟩ := block_echo a step t0 _ _ _ _ hb
            have h1 : r1 = .ok (ys1, x1) := h1
            subst h1
            rw [hb] at h
            obtain ⟨ys', x', h3, h4⟩ := ih _ _ _ h
            refine ⟨ys', x', h3, (echoAt_congr a step t0 ?_).trans ((h2 st).trans h4)⟩
            simp only [leaving, unwind, exec_bind, exec_attempt, hx]
            rfl
        | _ =>
          obtain ⟨ys', x', h3, h4⟩ := ih _ _ _ h
          refine ⟨ys', x', h3, (echoAt_congr a step t0 ?_).trans h4⟩
          simp only [leaving, unwind, exec_bind, exec_attempt, hx]

/-- The generator, run with every `yield` evaluating to the value yielded, does what the block says. -/
theorem echo_tryBody (t : T) : echo (tryBody a step t) = block a step t [] >>= final a := by
  have hfull : denPos a step (.start t) .none [] = block a step t [] >>= final a := by
    simp only [denPos, full, den, bind_assoc]
    rfl
  refine Refines.antisymm ?_ ?_
  · rw [← hfull]
    exact echo_den a step t _ _ _
  · intro w r h
    rw [exec_bind] at h
    rcases hb : (block a step t []).exec w with _ | ⟨r1, w1⟩
    · rw [hb] at h; cases h
    · obtain ⟨ys1, x1, h1, h2⟩ := block_echo a step t _ _ _ _ hb
      have h1 : r1 = .ok (ys1, x1) := h1
      subst h1
      rw [hb] at h
      rw [echo, echoFrom_eq]
      refine Eq.trans (h2 []) ?_
      refine Eq.trans ?_ h
      exact congrArg (fun p => exec p w1) (echoAt_out a step t x1 ys1)

/-- `block` raises nothing -/
theorem block_ok (t : T) (ys : List (Obj α)) (w w' : σ) (e : PyErr) : (block a step t ys).exec w ≠ some (.error e, w') := by
  intro h
  obtain ⟨_, _, h1, _⟩ := block_echo a step t t ys w _ h
  cases h1

/-! ## entries and exits -/

theorem Nested.append {b c : List Mark} (hb : Nested b) (hc : Nested c) : Nested (b ++ c) := by
  induction hb with
  | nil => exact hc
  | @pair r b c' h1 _ _ ih2 =>
    have := Nested.pair (r := r) h1 ih2
    simpa using this

theorem block_nested {log : σ → List Mark} (hl : Logs log step) (t : T) (ys : List (Obj α)) (w : σ) (r : Except PyErr (List (Obj α) × Way α ε) × σ)
    (h : (block a step t ys).exec w = some r) : ∃ v b, r.1 = .ok v ∧ Nested b ∧ log r.2 = log w ++ b := by
  revert t ys w r
  refine block.fixpoint_induct a step (fun f => ∀ t ys w r, (f t ys).exec w = some r → ∃ v b, r.1 = .ok v ∧ Nested b ∧ log r.2 = log w ++ b)
    (admissible_post2 fun t ys w r => ∃ v b, r.1 = .ok v ∧ Nested b ∧ log r.2 = log w ++ b) ?_
  intro f ih t ys w r h
  rw [exec_bind, exec_attempt] at h
  rcases hs : (step t).exec w with _ | ⟨e | s, w'⟩
  · rw [hs] at h; cases h
  · rw [hs] at h
    have hp := hl.plain _ _ _ _ hs
    cases h
    exact ⟨_, [], rfl, .nil, by simp [hp]⟩
  · rw [hs] at h
    have hp := hl.plain _ _ _ _ hs
    have same : ∀ x, some ((.ok x : Except PyErr (List (Obj α) × Way α ε)), w') = some r → ∃ v b, r.1 = .ok v ∧ Nested b ∧ log r.2 = log w ++ b := by
      rintro x h
      cases h
      exact ⟨_, [], rfl, .nil, by simp [hp]⟩
    cases s with
    | leave x => exact same _ h
    | yield_ v rest => rw [← hp]; exact ih _ _ _ _ h
    | fromOpt o rest =>
      cases o with
      | none => exact same _ h
      | some v => rw [← hp]; exact ih _ _ _ _ h
    | fromRes o rest =>
      cases o with
      | error e => exact same _ h
      | ok v => rw [← hp]; exact ih _ _ _ _ h
    | try_ inner after =>
      simp only [exec_bind] at h
      rcases hi : (f inner ys).exec w' with _ | ⟨e | ⟨ys1, x1⟩, w1⟩
      · rw [hi] at h; cases h
      · obtain ⟨_, _, h, _⟩ := ih _ _ _ _ hi; cases h
      · rw [hi] at h
        obtain ⟨_, b, _, hb, h1⟩ := ih _ _ _ _ hi
        obtain ⟨v, c, hv, hc, h2⟩ := ih _ _ _ _ h
        exact ⟨v, b ++ c, hv, Nested.append hb hc, by rw [h2, h1, hp]; simp⟩
    | with_ enter inner exit rest =>
      obtain ⟨n, hen, hee, hex⟩ := hl.with_ _ _ _ _ _ _ _ hs
      simp only [exec_bind, exec_attempt] at h
      rcases he : enter.exec w' with _ | ⟨e | u, w2⟩
      · rw [he] at h; cases h
      · rw [he] at h
        have := hee _ _ _ he
        cases h
        exact ⟨_, [], rfl, .nil, by simp [this, hp]⟩
      · rw [he] at h
        have h2 := hen _ _ he
        simp only [exec_bind, exec_attempt] at h
        rcases hi : (f inner ys).exec w2 with _ | ⟨e | ⟨ys1, x1⟩, w1⟩
        · rw [hi] at h; cases h
        · obtain ⟨_, _, h, _⟩ := ih _ _ _ _ hi; cases h
        · rw [hi] at h
          obtain ⟨_, b, _, hb, h1⟩ := ih _ _ _ _ hi
          simp only at h h1
          rcases hx : exit.exec w1 with _ | ⟨x, w3⟩
          · rw [hx] at h; cases h
          · have h3 := hex _ _ _ hx
            rw [hx] at h
            have one : ∀ x, some ((.ok x : Except PyErr (List (Obj α) × Way α ε)), w3) = some r → ∃ v b, r.1 = .ok v ∧ Nested b ∧ log r.2 = log w ++ b := by
              rintro x h
              cases h
              exact ⟨_, _, rfl, .pair (r := n) hb .nil, by simp [h3, h1, h2, hp]⟩
            cases x with
            | error e => exact one _ h
            | ok u =>
              cases x1 with
              | done =>
                obtain ⟨v, c, hv, hc, h4⟩ := ih _ _ _ _ h
                exact ⟨v, _, hv, .pair (r := n) hb hc, by rw [h4]; simp [h3, h1, h2, hp]⟩
              | _ => exact one _ h

/-! ## without handlers of `EffectError` -/

theorem block_leave (t : T) (ys : List (Obj α)) (x : Way α ε) (h : step t = pure (.leave x)) : block a step t ys = pure (ys, x) := by
  apply PyD.ext
  intro w
  rw [block.eq_1, exec_bind, exec_attempt, h]
  rfl

theorem block_none (t : T) (ys : List (Obj α)) (rest : Obj α → T) (h : step t = pure (.fromOpt none rest)) :
    block a step t ys = pure (ys, .effect (.opt none)) := by
  apply PyD.ext
  intro w
  rw [block.eq_1, exec_bind, exec_attempt, h]
  rfl

theorem block_try (t : T) (ys : List (Obj α)) (inner : T) (after : Way α ε → T) (h : step t = pure (.try_ inner after)) :
    block a step t ys = (do
      let r ← block a step inner ys
      block a step (after r.2) r.1) := by
  apply PyD.ext
  intro w
  rw [block.eq_1, exec_bind, exec_attempt, h]
  rfl

theorem block_with (t : T) (ys : List (Obj α)) (enter : PyD σ Unit) (inner : T) (exit : PyD σ Unit) (rest : T)
    (h : step t = pure (.with_ enter inner exit rest)) : block a step t ys = (do
      match ← attempt enter with
      | .error e => pure (ys, .ofErr e)
      | .ok _ => do
        let (ys, x) ← block a step inner ys
        match ← attempt exit with
        | .error e => pure (ys, .ofErr e)
        | .ok _ =>
          match x with
          | .done => block a step rest ys
          | x => pure (ys, x)) := by
  apply PyD.ext
  intro w
  rw [block.eq_1, exec_bind, exec_attempt, h]
  rfl

theorem strict_none (t : T) (ys : List (Obj α)) (rest : Obj α → T) (h : step t = pure (.fromOpt none rest)) :
    strictBlock a step t ys = pure (ys, .effect (.opt none)) := by
  apply PyD.ext
  intro w
  rw [strictBlock.eq_1, exec_bind, exec_attempt, h]
  rfl

theorem strict_try (t : T) (ys : List (Obj α)) (inner : T) (after : Way α ε → T) (h : step t = pure (.try_ inner after)) :
    strictBlock a step t ys = (do
      let (ys, x) ← strictBlock a step inner ys
      match x with
      | .effect m => pure (ys, .effect m)
      | x => strictBlock a step (after x) ys) := by
  apply PyD.ext
  intro w
  rw [strictBlock.eq_1, exec_bind, exec_attempt, h]
  rfl

theorem strict_le (hp : PassesOn step) (t : T) (ys : List (Obj α)) : Refines (strictBlock a step t ys) (block a step t ys) := by
  intro w r
  revert t ys w r
  refine strictBlock.fixpoint_induct a step (fun f => ∀ t ys w r, (f t ys).exec w = some r → (block a step t ys).exec w = some r)
    (admissible_post2 fun t ys w r => (block a step t ys).exec w = some r) ?_
  intro f ih t ys w r h
  rw [block.eq_1, exec_bind, exec_attempt]
  rw [exec_bind, exec_attempt] at h
  rcases hs : (step t).exec w with _ | ⟨e | s, w'⟩
  · rw [hs] at h; cases h
  · rw [hs] at h; exact h
  · rw [hs] at h
    cases s with
    | leave x => exact h
    | yield_ v rest => exact ih _ _ _ _ h
    | fromOpt o rest =>
      cases o with
      | none => exact h
      | some v => exact ih _ _ _ _ h
    | fromRes o rest =>
      cases o with
      | error e => exact h
      | ok v => exact ih _ _ _ _ h
    | try_ inner after =>
      simp only [exec_bind] at h ⊢
      rcases hi : (f inner ys).exec w' with _ | ⟨e | ⟨ys1, x1⟩, w1⟩
      · rw [hi] at h; cases h
      · rw [ih _ _ _ _ hi]; rw [hi] at h; exact h
      · rw [ih _ _ _ _ hi]
        rw [hi] at h
        cases x1 with
        | effect m =>
          show (block a step (after (.effect m)) ys1).exec w1 = some r
          rw [block_leave a step _ _ _ (hp _ _ _ _ _ hs m)]
          exact h
        | _ => exact ih _ _ _ _ h
    | with_ enter inner exit rest =>
      simp only [exec_bind, exec_attempt] at h ⊢
      rcases he : enter.exec w' with _ | ⟨e | u, w2⟩
      · rw [he] at h; cases h
      · rw [he] at h; exact h
      · rw [he] at h
        simp only [exec_bind, exec_attempt] at h ⊢
        rcases hi : (f inner ys).exec w2 with _ | ⟨e | ⟨ys1, x1⟩, w1⟩
        · rw [hi] at h; cases h
        · rw [ih _ _ _ _ hi]; rw [hi] at h; exact h
        · rw [ih _ _ _ _ hi]
          rw [hi] at h
          simp only at h ⊢
          rcases hx : exit.exec w1 with _ | ⟨e | u, w3⟩
          · rw [hx] at h; cases h
          · rw [hx] at h; exact h
          · rw [hx] at h
            cases x1 with
            | done => exact ih _ _ _ _ h
            | _ => exact h

theorem le_strict (hp : PassesOn step) (t : T) (ys : List (Obj α)) : Refines (block a step t ys) (strictBlock a step t ys) := by
  intro w r h
  have main : (strictBlock a step t ys).exec w = some r ∧ ∀ m, step t = pure (.leave (.effect m)) → r = (.ok (ys, .effect m), w) := by
    revert t ys w r
    refine block.fixpoint_induct a step (fun f => ∀ t ys w r, (f t ys).exec w = some r → (strictBlock a step t ys).exec w = some r ∧
        ∀ m, step t = pure (.leave (.effect m)) → r = (.ok (ys, .effect m), w))
      (admissible_post2 fun t ys w r => (strictBlock a step t ys).exec w = some r ∧ ∀ m, step t = pure (.leave (.effect m)) → r = (.ok (ys, .effect m), w)) ?_
    intro f ih t ys w r h
    refine ⟨?_, ?_⟩
    · rw [strictBlock.eq_1, exec_bind, exec_attempt]
      rw [exec_bind, exec_attempt] at h
      rcases hs : (step t).exec w with _ | ⟨e | s, w'⟩
      · rw [hs] at h; cases h
      · rw [hs] at h; exact h
      · rw [hs] at h
        cases s with
        | leave x => exact h
        | yield_ v rest => exact (ih _ _ _ _ h).1
        | fromOpt o rest =>
          cases o with
          | none => exact h
          | some v => exact (ih _ _ _ _ h).1
        | fromRes o rest =>
          cases o with
          | error e => exact h
          | ok v => exact (ih _ _ _ _ h).1
        | try_ inner after =>
          simp only [exec_bind] at h ⊢
          rcases hi : (f inner ys).exec w' with _ | ⟨e | ⟨ys1, x1⟩, w1⟩
          · rw [hi] at h; cases h
          · rw [(ih _ _ _ _ hi).1]; rw [hi] at h; exact h
          · rw [(ih _ _ _ _ hi).1]
            rw [hi] at h
            cases x1 with
            | effect m =>
              rw [(ih _ _ _ _ h).2 m (hp _ _ _ _ _ hs m)]
              rfl
            | _ => exact (ih _ _ _ _ h).1
        | with_ enter inner exit rest =>
          simp only [exec_bind, exec_attempt] at h ⊢
          rcases he : enter.exec w' with _ | ⟨e | u, w2⟩
          · rw [he] at h; cases h
          · rw [he] at h; exact h
          · rw [he] at h
            simp only [exec_bind, exec_attempt] at h ⊢
            rcases hi : (f inner ys).exec w2 with _ | ⟨e | ⟨ys1, x1⟩, w1⟩
            · rw [hi] at h; cases h
            · rw [(ih _ _ _ _ hi).1]; rw [hi] at h; exact h
            · rw [(ih _ _ _ _ hi).1]
              rw [hi] at h
              simp only at h ⊢
              rcases hx : exit.exec w1 with _ | ⟨e | u, w3⟩
              · rw [hx] at h; cases h
              · rw [hx] at h; exact h
              · rw [hx] at h
                cases x1 with
                | done => exact (ih _ _ _ _ h).1
                | _ => exact h
    · intro m hm
      rw [exec_bind, exec_attempt, hm] at h
      cases h
      rfl
  exact main.1

theorem block_strict (hp : PassesOn step) (t : T) (ys : List (Obj α)) : block a step t ys = strictBlock a step t ys :=
  Refines.antisymm (le_strict a step hp t ys) (strict_le a step hp t ys)

end

end Expression.Lemmas.TryBody
