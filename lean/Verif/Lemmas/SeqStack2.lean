import Mathlib.Logic.Function.Iterate
import Mathlib.Tactic.Ring
import Verif.Lemmas.SeqStack
import Verif.Lemmas.Builder2

/-! The object that `effect.seq` returns: how many frames it needs, and how often generators are resumed. -/

namespace Expression.Lemmas.SeqStack

open Expression Spec PyD Expression.Seq

variable {σ α β ε S T : Type}

/-- each resumption of a generator changes the world by `t` -/
def ticking (t : σ → σ) : PyD σ Unit := fun w => some (.ok (), t w)

/-- from the state `s` the iterator gives these elements and ends, `t` happening so many times -/
inductive CRun (t : σ → σ) (it : Iterable σ α S) : S → List α → Nat → Prop
  | done {s c} : (∀ w, (it.next s).exec w = some (.ok none, t^[c] w)) → CRun t it s [] c
  | more {s x s' xs c d} : (∀ w, (it.next s).exec w = some (.ok (some (x, s')), t^[c] w)) → CRun t it s' xs d →
      CRun t it s (x :: xs) (c + d)

theorem CRun.congr {t : σ → σ} {it : Iterable σ α S} {s s' : S} {xs : List α} {c : Nat} (h : CRun t it s xs c)
    (he : ∀ w, (it.next s').exec w = (it.next s).exec w) : CRun t it s' xs c := by
  cases h with
  | done h => exact .done fun w => (he w).trans (h w)
  | more h hr => exact .more (fun w => (he w).trans (h w)) hr

theorem CRun.loop {t : σ → σ} {it : Iterable σ α S} {s : S} {xs : List α} {c : Nat} (h : CRun t it s xs c) (acc : List α) (w : σ) :
    (it.loop (fun acc x => pure (.next (acc ++ [x]))) s acc).exec w = some (.ok (acc ++ xs), t^[c] w) := by
  induction h generalizing acc w with
  | done h =>
    rw [Iterable.loop_eq, exec_bind, h w]
    simp
  | more h hr ih =>
    rw [Iterable.loop_eq, exec_bind, h w]
    simp only [Iterable.step_some, pure_bind]
    rw [Iterable.cont_next, ih, Nat.add_comm, Function.iterate_add_apply]
    simp

/-- `iter` does nothing but give an iterator in this state -/
def Starts (it : Iterable σ α S) (s : S) : Prop := ∀ w, it.iter.exec w = some (.ok s, w)

theorem toList_of {t : σ → σ} {it : Iterable σ α S} {s : S} {xs : List α} {c : Nat} (hi : Starts it s) (h : CRun t it s xs c) (w : σ) :
    it.toList.exec w = some (.ok xs, t^[c] w) := by
  rw [Iterable.toList, Iterable.forLoop, exec_bind, hi w]
  exact (h.loop [] w)

section

variable {m : α → PyD σ (Iterable σ β T)} {src : Iterable σ α S}

theorem cn_inner_some {s : S} {i : Iterable σ β T} {u u' : T} {y : β} {w w' : σ} (h : (i.next u).exec w = some (.ok (some (y, u')), w')) :
    (collectNext m src (.inner s i u)).exec w = some (.ok (some (y, .inner s i u')), w') := by
  rw [collectNext.eq_def, exec_bind, h]; rfl

theorem cn_inner_none {s : S} {i : Iterable σ β T} {u : T} {w w' : σ} (h : (i.next u).exec w = some (.ok none, w')) :
    (collectNext m src (.inner s i u)).exec w = (collectNext m src (.outer s)).exec w' := by
  rw [collectNext.eq_def, exec_bind, h]

end

theorem cn_outer_nil {base : List (Iterable σ β T)} {w : σ} :
    (collectNext (fun it => pure it) (Iterable.ofList base) (.outer [])).exec w = some (.ok none, w) := by
  rw [collectNext.eq_def]; rfl

theorem cn_outer_cons {base rest : List (Iterable σ β T)} {i : Iterable σ β T} {u : T} {w w' : σ} (h : i.iter.exec w = some (.ok u, w')) :
    (collectNext (fun it => pure it) (Iterable.ofList base) (.outer (i :: rest))).exec w =
      (collectNext (fun it => pure it) (Iterable.ofList base) (.inner rest i u)).exec w' := by
  rw [collectNext.eq_def]
  simp only [Iterable.ofList, pure_bind]
  rw [exec_bind, h]

theorem cn_fresh {base : List (Iterable σ β T)} {w : σ} :
    (collectNext (fun it => pure it) (Iterable.ofList base) .fresh).exec w =
      (collectNext (fun it => pure it) (Iterable.ofList base) (.outer base)).exec w := by
  rw [collectNext.eq_def]
  simp only [Iterable.ofList, pure_bind]

section layer

variable {t : σ → σ} {q : FrameSeq σ α S} {free : Nat} (y : α)

theorem layer_next (s) (w : σ) :
    ((FrameSeq.concat2 (ticking t) q (FrameSeq.ofList [y]) (free + 2)).next s).exec w =
      (collectNext (fun it => pure it) (Iterable.ofList [FrameSeq.left q free, FrameSeq.right (FrameSeq.ofList [y]) free]) s).exec (t (t w)) := rfl

theorem left_next_some {u u' : S} {x : α} {w w' : σ} (h : ((q free).next u).exec w = some (.ok (some (x, u')), w')) :
    ((FrameSeq.left (T := T) q free).next (.inl u)).exec w = some (.ok (some (x, .inl u')), w') := by
  simp only [FrameSeq.left]
  rw [map_eq_pure_bind, exec_bind, h]; rfl

theorem left_next_none {u : S} {w w' : σ} (h : ((q free).next u).exec w = some (.ok none, w')) :
    ((FrameSeq.left (T := T) q free).next (.inl u)).exec w = some (.ok none, w') := by
  simp only [FrameSeq.left]
  rw [map_eq_pure_bind, exec_bind, h]; rfl

theorem layer_run {u : S} {zs : List α} {c : Nat} (h : CRun t (q free) u zs c) :
    CRun t (FrameSeq.concat2 (ticking t) q (FrameSeq.ofList [y]) (free + 2))
      (.inner [FrameSeq.right (FrameSeq.ofList [y]) free] (FrameSeq.left q free) (.inl u)) (zs ++ [y]) (c + 2 * zs.length + 4) := by
  induction h with
  | @done s c h =>
    rw [show c + 2 * ([] : List α).length + 4 = (c + 2) + 2 by simp]
    refine .more (s' := .inner [] (FrameSeq.right (FrameSeq.ofList [y]) free) (.inr [])) ?_ (.done ?_)
    · intro w
      rw [layer_next, cn_inner_none (left_next_none (h _)),
        cn_outer_cons (show (FrameSeq.right (S := S) (FrameSeq.ofList [y]) free).iter.exec _ = some (.ok (.inr [y]), _) from rfl)]
      rw [cn_inner_some (y := y) (u' := .inr []) (w' := t^[c + 2] w)]
      rw [Function.iterate_add_apply]; rfl
    · intro w
      rw [layer_next, cn_inner_none (w' := t (t w)), cn_outer_nil]
      · rfl
      · rfl
  | @more s x s' xs c d h hr ih =>
    rw [show c + d + 2 * (x :: xs).length + 4 = (c + 2) + (d + 2 * xs.length + 4) by simp; omega]
    refine .more ?_ ih
    intro w
    rw [layer_next, cn_inner_some (left_next_some (h _)), Function.iterate_add_apply]; rfl

theorem layer_fresh {u : S} {zs : List α} {c : Nat} (hi : Starts (q free) u) (h : CRun t (q free) u zs c) :
    CRun t (FrameSeq.concat2 (ticking t) q (FrameSeq.ofList [y]) (free + 2)) .fresh (zs ++ [y]) (c + 2 * zs.length + 4) := by
  refine (layer_run y h).congr fun w => ?_
  rw [layer_next, layer_next, cn_fresh, cn_outer_cons]
  simp only [FrameSeq.left]
  rw [map_eq_pure_bind, exec_bind, hi]; rfl

end layer

/-- iterating over the object, with so many free frames, gives these elements, `t` happening so many times -/
def Gives (t : σ → σ) (p : Piece α ε) (free : Nat) (zs : List (Obj α)) (c : Nat) : Prop :=
  ∃ s, Starts (p.frames (ticking t) free) s ∧ CRun t (p.frames (ticking t) free) s zs c

theorem gives_seq_aux (t : σ → σ) (xs ys : List (Obj α)) (free : Nat) :
    CRun t ((Piece.value (ε := ε) (.seq ys)).frames (ticking t) (free + 1)) xs xs (xs.length + 1) := by
  induction xs with
  | nil => exact .done fun w => rfl
  | cons x xs ih =>
    rw [show (x :: xs).length + 1 = 1 + (xs.length + 1) by simp; omega]
    exact .more (fun w => rfl) ih

theorem gives_seq (t : σ → σ) (xs : List (Obj α)) (free : Nat) :
    Gives (ε := ε) t (.value (.seq xs)) (free + 1) xs (xs.length + 1) :=
  ⟨xs, fun _ => rfl, gives_seq_aux t xs xs free⟩

theorem gives_concat {t : σ → σ} {p : Piece α ε} {free : Nat} {zs : List (Obj α)} {c : Nat} (h : Gives t p free zs c) (y : Obj α) :
    Gives t (.concat p (.list [y])) (free + 2) (zs ++ [y]) (c + 2 * zs.length + 4) := by
  obtain ⟨s, hi, h⟩ := h
  exact ⟨.fresh, fun _ => rfl, layer_fresh y hi h⟩

theorem gives_wrapped {t : σ → σ} (ys : List (Obj α)) : ∀ {p : Piece α ε} {free : Nat} {zs : List (Obj α)} {c : Nat}, Gives t p free zs c →
    Gives t (wrapped p ys) (free + 2 * ys.length) (zs ++ ys)
      (c + 2 * zs.length * ys.length + ys.length * ys.length + 3 * ys.length) := by
  induction ys with
  | nil => intro p free zs c h; simpa [wrapped] using h
  | cons y ys ih =>
    intro p free zs c h
    have := ih (gives_concat h y)
    rw [show free + 2 * (y :: ys).length = free + 2 + 2 * ys.length by simp; omega]
    rw [show zs ++ y :: ys = zs ++ [y] ++ ys by simp]
    have e : c + 2 * zs.length + 4 + 2 * (zs ++ [y]).length * ys.length + ys.length * ys.length + 3 * ys.length =
        c + 2 * zs.length * (y :: ys).length + (y :: ys).length * (y :: ys).length + 3 * (y :: ys).length := by
      simp only [List.length_append, List.length_cons, List.length_nil]
      ring
    rw [← e]
    exact this

theorem fails_toList {it : Iterable σ α S} (h : NoFirst it) (w : σ) : it.toList.exec w = some (.error .recursionError, w) := by
  have h := h w
  rw [Iterable.toList, Iterable.forLoop]
  rw [exec_bind] at h ⊢
  rcases hx : it.iter.exec w with _ | ⟨e | s, w1⟩ <;> rw [hx] at h
  · cases h
  · cases h; rfl
  · simp only at h ⊢
    rw [Iterable.loop_eq, exec_bind, h]

theorem fails_concat {p q : Piece α ε} {free : Nat} (h : NoFirst (σ := σ) (p.frames (pure ()) free)) :
    NoFirst (σ := σ) ((Piece.concat p q).frames (pure ()) (free + 2)) := by
  intro w
  have h := h w
  change (collectNext (fun it => pure it) (Iterable.ofList [FrameSeq.left (p.frames (pure ())) free, FrameSeq.right (q.frames (pure ())) free])
    .fresh).exec w = _
  rw [cn_fresh, collectNext.eq_def]
  simp only [Iterable.ofList, pure_bind]
  rw [exec_bind] at h ⊢
  simp only [FrameSeq.left]
  rw [map_eq_pure_bind, exec_bind]
  rcases hx : (p.frames (pure ()) free).iter.exec w with _ | ⟨e | s, w1⟩ <;> rw [hx] at h
  · cases h
  · cases h; rfl
  · simp only at h
    simp only [exec_pure]
    rw [collectNext.eq_def]
    simp only
    rw [map_eq_pure_bind, bind_assoc, exec_bind, h]
    rfl

theorem fails_wrapped (ys : List (Obj α)) : ∀ {p : Piece α ε} {n : Nat}, (∀ free, free < n → NoFirst (σ := σ) (p.frames (pure ()) free)) →
    ∀ free, free < n + 2 * ys.length → NoFirst (σ := σ) ((wrapped p ys).frames (pure ()) free) := by
  induction ys with
  | nil => intro p n h free hf; exact h free hf
  | cons y ys ih =>
    intro p n h free hf
    refine ih (p := .concat p (.list [y])) (n := n + 2) ?_ free (by simp at hf; omega)
    intro free hf
    match free with
    | 0 => exact fun _ => rfl
    | 1 => exact fun _ => rfl
    | free + 2 => exact fails_concat (h free (by omega))

/-! ## the loop of the builder -/

theorem loop_eq (binder : Obj α → PyD (σ × GState S) (Eff α ε)) (result : Piece α ε) (value : Eff α ε) (w : σ) (st : GState S) :
    (SeqBuilder.loop binder result value).exec (w, st) = if st.isDone = true then some (.ok result, (w, st)) else
      match (tryStop (seqBuilder.bind value binder)).exec (w, st) with
      | none => none
      | some (.error e, x) => some (.error e, x)
      | some (.ok none, x) => some (.ok result, x)
      | some (.ok (some value), x) => (SeqBuilder.loop binder (.concat result (.ofBind value)) value).exec x := by
  rw [SeqBuilder.loop, exec_bind, exec_done]
  simp only
  cases st.isDone with
  | true => rfl
  | false =>
    simp only [if_neg Bool.false_ne_true]
    rw [exec_bind]
    rcases (tryStop (seqBuilder.bind value binder)).exec (w, st) with _ | ⟨_ | (_ | _), _⟩ <;> rfl

/-- the values that a `return` adds -/
def returnedValues : Obj α → List (Obj α)
  | .none => []
  | .val v => [.val v]

theorem bind_ret (y : Obj α) (f : Obj α → PyD σ (Eff α ε)) {w w' : σ} {v : Obj α} (h : (f y).exec w = some (.ok (seqBuilder.return_ v), w')) :
    (tryStop (seqBuilder.bind (seqBuilder.return_ y) f)).exec w = some (.ok (some (.seq [v])), w') := by
  rw [exec_tryStop, good_seq.bind_ret, exec_bind, h]
  rfl

theorem bind_stop (y : Obj α) (f : Obj α → PyD σ (Eff α ε)) {w w' : σ} (h : (f y).exec w = some (.error .stopIteration, w')) :
    (tryStop (seqBuilder.bind (seqBuilder.return_ y) f)).exec w = some (.ok none, w') := by
  rw [exec_tryStop, good_seq.bind_ret, exec_bind, h]

theorem loop_wrapped {g : Gen σ α ε S} {binder : Obj α → PyD (σ × GState S) (Eff α ε)} (hs : Sends seqBuilder g binder) (s : S)
    (y : Obj α) (ys : List (Obj α)) (w w' : σ) (zs : List (Obj α)) (v : Obj α) (hr : (echoFrom g s y ys).exec w = some (.ok (zs, .returned v), w'))
    (result : Piece α ε) : ∃ more st, zs = ys ++ more ∧
      (SeqBuilder.loop binder result (seqBuilder.return_ y)).exec (w, ⟨some s, false⟩) =
        some (.ok (wrapped result (more ++ returnedValues v)), (w', st)) := by
  refine echoFrom.fixpoint_induct g (fun f => ∀ s y ys w r, (f s y ys).exec w = some r → ∀ zs v w', r = (.ok (zs, .returned v), w') →
      ∀ result : Piece α ε, ∃ more st, zs = ys ++ more ∧
      (SeqBuilder.loop binder result (seqBuilder.return_ y)).exec (w, ⟨some s, false⟩) =
        some (.ok (wrapped result (more ++ returnedValues v)), (w', st)))
    (admissible_post3 (fun s y ys w r => ∀ zs v w', r = (.ok (zs, End.returned v), w') →
      ∀ result : Piece α ε, ∃ more st, zs = ys ++ more ∧
      (SeqBuilder.loop binder result (seqBuilder.return_ y)).exec (w, ⟨some s, false⟩) =
        some (.ok (wrapped result (more ++ returnedValues v)), (w', st)))) ?_ s y ys w _ hr zs v w' rfl result
  intro F hF s y ys w r hr zs v w' hr' result
  subst hr'
  rw [exec_bind] at hr
  have hsend := hs y s w
  rw [loop_eq, if_neg Bool.false_ne_true]
  rcases hg : (g.next s y).exec w with _ | ⟨e | o, w1⟩ <;> rw [hg] at hsend hr
  · cases hr
  · cases hr
  · rcases o with ⟨y', s'⟩ | v' | m
    · simp only at hsend hr
      rw [bind_ret y binder hsend]
      obtain ⟨more, st, h1, h2⟩ := hF _ _ _ _ _ hr zs v w' rfl (.concat result (.list [y']))
      exact ⟨y' :: more, st, by rw [h1]; simp, h2⟩
    · cases hr
      cases v with
      | none =>
        obtain ⟨st, ho⟩ := hsend
        rw [bind_stop y binder ho]
        exact ⟨[], st, by simp, rfl⟩
      | val v =>
        obtain ⟨st, hd, ho⟩ := hsend
        rw [bind_ret y binder ho]
        simp only
        rw [loop_eq, if_pos hd]
        exact ⟨[], st, by simp, rfl⟩
    · cases hr

/-- the object for a sequence of values: nothing, or a `Seq` of the first in as many `seq.concat` as there are others -/
def objectOf (zs : List (Obj α)) : Piece α ε :=
  match zs with
  | [] => .value (.seq [])
  | z :: zs => wrapped (.value (.seq [z])) zs

theorem call_object {g : Gen σ α ε S} {w w' : σ} {ys : List (Obj α)} {v : Obj α}
    (h : (echo g).exec w = some (.ok (ys, .returned v), w')) :
    (SeqBuilder.call g).exec w = some (.ok (objectOf (ys ++ returnedValues v)), w') := by
  have hs := sends_send seqBuilder (fun _ => rfl) g
  have hsend := hs .none g.start w
  rw [echo, echoFrom.eq_1, exec_bind] at h
  change ((SeqBuilder.drive (seqBuilder.send g)).exec (w, ⟨some g.start, false⟩)).map _ = _
  rw [SeqBuilder.drive, exec_bind, exec_tryStop]
  rcases hg : (g.next g.start .none).exec w with _ | ⟨e | o, w1⟩ <;> rw [hg] at hsend h
  · cases h
  · cases h
  · rcases o with ⟨y', s'⟩ | v' | m
    · simp only at hsend h
      rw [hsend]
      simp only
      obtain ⟨more, st, h1, h2⟩ := loop_wrapped hs _ _ _ _ _ _ _ h (.value (seqBuilder.return_ y'))
      rw [h2, h1]
      rfl
    · cases h
      cases v with
      | none =>
        obtain ⟨st, ho⟩ := hsend
        rw [ho]; rfl
      | val v =>
        obtain ⟨st, hd, ho⟩ := hsend
        rw [ho]
        simp only
        rw [loop_eq, if_pos hd]
        rfl
    · cases h

theorem object_gives (t : σ → σ) (zs : List (Obj α)) (free : Nat) (h : max 1 (2 * zs.length - 1) ≤ free) :
    Gives (ε := ε) t (objectOf zs) free zs
      (if zs = [] then 1 else zs.length * zs.length + 3 * zs.length - 2) := by
  cases zs with
  | nil =>
    obtain ⟨k, rfl⟩ : ∃ k, free = k + 1 := ⟨free - 1, by simp at h; omega⟩
    exact gives_seq t [] k
  | cons z zs =>
    obtain ⟨k, rfl⟩ : ∃ k, free = k + 1 + 2 * zs.length := ⟨free - 1 - 2 * zs.length, by simp at h; omega⟩
    have := gives_wrapped zs (gives_seq (ε := ε) t [z] k)
    have e : [z].length + 1 + 2 * [z].length * zs.length + zs.length * zs.length + 3 * zs.length =
        (z :: zs).length * (z :: zs).length + 3 * (z :: zs).length - 2 := by
      simp only [List.length_cons, List.length_nil]
      have : (zs.length + 1) * (zs.length + 1) = zs.length * zs.length + 2 * zs.length + 1 := by ring
      omega
    rw [e] at this
    rw [if_neg (by simp)]
    exact this

theorem object_fails (zs : List (Obj α)) (free : Nat) (h : free < max 1 (2 * zs.length - 1)) :
    NoFirst (σ := σ) ((objectOf (ε := ε) zs).frames (pure ()) free) := by
  have h0 : ∀ (m : Eff α ε) free, free < 1 → NoFirst (σ := σ) ((Piece.value m).frames (pure ()) free) := by
    intro m free hf w
    obtain rfl : free = 0 := by omega
    rfl
  cases zs with
  | nil => exact h0 _ free (by simpa using h)
  | cons z zs => exact fails_wrapped zs (h0 (.seq [z])) free (by simp at h; omega)

theorem seqGen_enough {n : Nat} {q : FrameSeq σ α S} {it : Iterable σ α S} (h : EnoughForSeq n q it) :
    EnoughForSeq (n + 2) (.seqGen (pure ()) q) it := by
  intro free hf
  match free with
  | 0 => omega
  | 1 => omega
  | free + 2 => exact h free (by omega)

theorem seq_enough {n : Nat} {q : FrameSeq σ α S} {it : Iterable σ α S} (h : EnoughForSeq n q it) :
    EnoughForSeq (n + 1) (.seq (pure ()) q) it := by
  intro free hf
  match free with
  | 0 => omega
  | free + 1 => exact h free (by omega)

theorem countdown_echo (m n : Nat) (v : Obj Nat) (ys : List (Obj Nat)) :
    ∃ zs, zs.length = ys.length + n ∧ (echoFrom (countdown m) n v ys).exec () = some (.ok (zs, .returned .none), ()) := by
  induction n generalizing v ys with
  | zero => exact ⟨ys, rfl, Lemmas.echoFrom_returned ys rfl⟩
  | succ n ih =>
    obtain ⟨zs, h1, h2⟩ := ih (.val n) (ys ++ [.val n])
    refine ⟨zs, by rw [h1]; simp; omega, ?_⟩
    rw [Lemmas.echoFrom_yield (y := .val n) (s' := n) (w' := ()) ys rfl]
    exact h2

theorem succ_times (c n : Nat) : Nat.succ^[c] n = n + c := by
  induction c generalizing n with
  | zero => rfl
  | succ c ih => rw [Function.iterate_succ_apply, ih]; omega

end Expression.Lemmas.SeqStack
