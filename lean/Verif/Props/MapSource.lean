import Verif.Lemmas.MapSource

/-! # Property C132: making a map from a source that computes its elements, fails, or never ends -/

namespace Expression.Props

open Expression Spec MapSource

variable {σ α K V S : Type} [PyOrd K] [LawfulPyOrd K]

/-- **C132 (what was drawn).** `of_seq` (and `create`) of any iterable, on a stack of `frames` frames.  `s` and `w` are what `iter` left,
and `kvs` the pairs that the iterator then gave, each taken apart before the next was asked for.  If there are fewer than `frames`:
when the iterator is exhausted the result is the map of exactly these pairs; when it raises, or taking an element apart raises, that
exception comes out (except `StopIteration`, which ends the map there); when one of the two does not return, neither does `of_seq`.  In
each case nothing was done after that.  With `frames` pairs, `RecursionError` comes out, the pairs are lost, and the iterator has
given exactly `frames` elements. -/
theorem C132_history (unpack : α → PyD σ (K × V)) (src : Iterable σ α S) (frames : Nat) (w0 : σ) {s s' : S} {w w' : σ}
    {kvs : List (K × V)} (hi : src.iter.exec w0 = some (.ok s, w)) (hd : Draws unpack src s w kvs s' w') :
    (kvs.length < frames → ∃ m, Map.ofList kvs = .ok m ∧
      (∀ w'', DrawEnds unpack src s' w' (some (none, w'')) → (ofSeq unpack src frames).exec w0 = some (.ok m, w'')) ∧
      (∀ e w'', DrawEnds unpack src s' w' (some (some e, w'')) → e ≠ .stopIteration →
        (ofSeq unpack src frames).exec w0 = some (.error e, w'')) ∧
      (∀ w'', DrawEnds unpack src s' w' (some (some .stopIteration, w'')) → (ofSeq unpack src frames).exec w0 = some (.ok m, w'')) ∧
      (DrawEnds unpack src s' w' none → (ofSeq unpack src frames).exec w0 = none)) ∧
    (kvs.length = frames → (ofSeq unpack src frames).exec w0 = some (.error .recursionError, w')) := by
  have start : (ofSeq unpack src frames).exec w0 = PyD.exec (mkFromIterator unpack src frames .nothing s >>= fun t => pure ⟨t⟩) w := by
    simp only [ofSeq]
    rw [PyD.exec_bind, hi]
  constructor
  · intro hf
    obtain ⟨t, ht⟩ : ∃ t, MapTree.ofList kvs = .ok t := by
      obtain ⟨m, e, _⟩ := Map.ofList_valid kvs
      simp only [Map.ofList] at e
      cases h : MapTree.ofList kvs with
      | ok t => exact ⟨t, rfl⟩
      | error e' => rw [h] at e; cases e
    have key : ∀ o, DrawEnds unpack src s' w' o → (mkFromIterator unpack src frames .nothing s).exec w = ending t o := by
      intro o ho
      obtain ⟨t', h1, h2⟩ := mk_enough hd ho frames hf .nothing MapTree.valid_nothing
      rw [MapTree.ofList] at ht
      rw [ht] at h1
      cases h1
      exact h2
    refine ⟨⟨t⟩, by simp only [Map.ofList, ht]; rfl, fun w'' ho => ?_, fun e w'' ho he => ?_, fun w'' ho => ?_, fun ho => ?_⟩ <;>
      rw [start, PyD.exec_bind, key _ ho]
    · rfl
    · cases e <;> first | rfl | exact absurd rfl he
    · rfl
    · rfl
  · intro hf
    rw [start, PyD.exec_bind, mk_exhausted hd frames hf .nothing MapTree.valid_nothing]

/-- **C132 (nothing else can happen).** For every iterable, state and stack, `C132_history` applies: either `frames` pairs are drawn, or
fewer and then the iterator ends in one of the ways listed there; and if `iter` raises or does not return, so does `of_seq`. -/
theorem C132_cases (unpack : α → PyD σ (K × V)) (src : Iterable σ α S) (frames : Nat) (w0 : σ) :
    (∃ s w kvs s' w', src.iter.exec w0 = some (.ok s, w) ∧ Draws unpack src s w kvs s' w' ∧
      (kvs.length = frames ∨ kvs.length < frames ∧ ∃ o, DrawEnds unpack src s' w' o)) ∨
    (∃ e w, src.iter.exec w0 = some (.error e, w) ∧ (ofSeq unpack src frames).exec w0 = some (.error e, w)) ∨
    (src.iter.exec w0 = none ∧ (ofSeq unpack src frames).exec w0 = none) := by
  rcases h : src.iter.exec w0 with _ | ⟨e | s, w⟩
  · refine .inr (.inr ⟨rfl, ?_⟩)
    simp only [ofSeq, PyD.exec_bind, h]
  · refine .inr (.inl ⟨e, w, rfl, ?_⟩)
    simp only [ofSeq, PyD.exec_bind, h]
  · obtain ⟨kvs, s', w', hd, hc⟩ := draws_cases unpack src frames s w
    exact .inl ⟨s, w, kvs, s', w', rfl, hd, hc⟩

/-- The full property: on a large enough stack, `of_seq` does what the loop `for x, y in src: m = m.add(x, y)` does. -/
def C132_full_statement : Prop :=
  ∀ (σ α S : Type) (unpack : α → PyD σ (Int × Int)) (src : Iterable σ α S) (w : σ) (r : Except PyErr (Map Int Int) × σ),
    (∀ s w w', (src.next s).exec w ≠ some (.error .stopIteration, w')) →
    (fillMap unpack src).exec w = some r → ∃ frames, (ofSeq unpack src frames).exec w = some r

/-- **C132 (the loop).** If taking an element apart never raises `StopIteration` (and the iterator says `StopIteration` only when it is
exhausted, which is how `Iterable.next` says it), then `of_seq` on a stack that is large enough does exactly what the loop
`for x, y in src: m = m.add(x, y)` does: same map or exception, same effects; and on any stack it does that, or raises
`RecursionError`, or does not return because the loop does not. -/
theorem C132_loop_partial (unpack : α → PyD σ (K × V)) (src : Iterable σ α S) (w0 : σ)
    (hs : ∀ s w w', (src.next s).exec w ≠ some (.error .stopIteration, w'))
    (hu : ∀ x w w', (unpack x).exec w ≠ some (.error .stopIteration, w')) :
    (∀ r, (fillMap unpack src).exec w0 = some r → ∃ n, ∀ frames, n < frames → (ofSeq unpack src frames).exec w0 = some r) ∧
    (∀ frames, (ofSeq unpack src frames).exec w0 = (fillMap unpack src).exec w0 ∨
      ∃ w', (ofSeq unpack src frames).exec w0 = some (.error .recursionError, w')) := by
  have fill : ∀ {s w}, src.iter.exec w0 = some (.ok s, w) →
      (fillMap unpack src).exec w0 = (src.loop (fillBody unpack) s Map.empty).exec w := by
    intro s w hi
    change PyD.exec (src.iter >>= fun s => src.loop (fillBody unpack) s Map.empty) w0 = _
    rw [PyD.exec_bind, hi]
  have same : ∀ {s w kvs s' w' o frames}, src.iter.exec w0 = some (.ok s, w) → Draws unpack src s w kvs s' w' →
      DrawEnds unpack src s' w' o → kvs.length < frames → (ofSeq unpack src frames).exec w0 = (fillMap unpack src).exec w0 := by
    intro s w kvs s' w' o frames hi hd ho hf
    obtain ⟨⟨m, hm, h1, h2, _, h4⟩, _⟩ := And.imp_left (fun h => h hf) (C132_history unpack src frames w0 hi hd)
    obtain ⟨m', e, e2⟩ := loop_draws hd Map.empty MapTree.valid_nothing
    have hmm : m' = m := by
      simp only [Map.ofList, MapTree.ofList] at hm
      change kvs.foldlM _ MapTree.Tree.nothing = _ at e
      rw [e] at hm
      cases hm; rfl
    rw [fill hi, e2, loop_ends ho, hmm]
    have hne : ∀ w'', o ≠ some (some .stopIteration, w'') := by
      intro w'' hoo
      subst hoo
      cases ho with
      | raises h => exact hs _ _ _ h
      | splitRaises _ h => exact hu _ _ _ h
    rcases o with _ | ⟨_ | e, w''⟩
    · exact h4 ho
    · exact h1 _ ho
    · exact h2 e _ ho (fun he => hne w'' (by rw [he]))
  constructor
  · intro r hr
    rcases hi : src.iter.exec w0 with _ | ⟨e | s, w⟩
    · change PyD.exec (src.iter >>= fun s => src.loop (fillBody unpack) s Map.empty) w0 = _ at hr
      rw [PyD.exec_bind, hi] at hr; cases hr
    · refine ⟨0, fun frames _ => ?_⟩
      change PyD.exec (src.iter >>= fun s => src.loop (fillBody unpack) s Map.empty) w0 = _ at hr
      rw [← hr, ofSeq, PyD.exec_bind, PyD.exec_bind, hi]
    · rw [fill hi] at hr
      obtain ⟨kvs, s', w', o, hd, ho⟩ := loop_finite unpack src s Map.empty MapTree.valid_nothing w r hr
      exact ⟨kvs.length, fun frames hf => by rw [same hi hd ho hf, fill hi, hr]⟩
  · intro frames
    rcases C132_cases unpack src frames w0 with ⟨s, w, kvs, s', w', hi, hd, hl | ⟨hl, o, ho⟩⟩ | ⟨e, w, hi, h⟩ | ⟨hi, h⟩
    · exact .inr ⟨w', (C132_history unpack src frames w0 hi hd).2 hl⟩
    · exact .inl (same hi hd ho hl)
    · left
      change _ = PyD.exec (src.iter >>= fun s => src.loop (fillBody unpack) s Map.empty) w0
      rw [h, PyD.exec_bind, hi]
    · left
      change _ = PyD.exec (src.iter >>= fun s => src.loop (fillBody unpack) s Map.empty) w0
      rw [h, PyD.exec_bind, hi]

/-- taking `1` apart raises `StopIteration` (its `__iter__` calls `next` on something that is used up); every other number `n` is the
pair `(n, n)` -/
private def oddPair (n : Int) : PyD Unit (Int × Int) := if n = 1 then PyD.raise .stopIteration else pure (n, n)

/-- **C132 is false of the code**: `StopIteration` raised while an element is taken apart is taken for the end of the source, and the
map silently lacks that element and all that follow it; the loop raises. -/
theorem C132_full_statement_false : ¬ C132_full_statement := by
  intro h
  obtain ⟨frames, hf⟩ := h Unit Int (List Int) oddPair (Iterable.ofList [0, 1, 2]) () (.error .stopIteration, ())
    (by
      intro s w w' e
      rcases s with _ | ⟨x, rest⟩ <;> cases e)
    (by
      change PyD.exec ((Iterable.ofList [0, 1, 2]).loop (fillBody oddPair) [0, 1, 2] Map.empty) () = _
      rw [Iterable.loop_ofList_cons, PyD.exec_bind]
      change PyD.exec ((Iterable.ofList [0, 1, 2]).loop (fillBody oddPair) [1, 2] _) () = _
      rw [Iterable.loop_ofList_cons]
      rfl)
  have hd : Draws oddPair (Iterable.ofList [0, 1, 2]) [0, 1, 2] () [((0 : Int), (0 : Int))] [1, 2] () :=
    .succ (x := 0) (s1 := [1, 2]) (w1 := ()) (w2 := ()) rfl rfl .zero
  have he : DrawEnds oddPair (Iterable.ofList [0, 1, 2]) [1, 2] () (some (some .stopIteration, ())) :=
    .splitRaises (x := 1) (s1 := [2]) (w1 := ()) rfl rfl
  obtain ⟨h1, h2⟩ := C132_history oddPair (Iterable.ofList [0, 1, 2]) frames () (s := [0, 1, 2]) (w := ()) rfl hd
  by_cases hl : 1 < frames
  · obtain ⟨m, _, _, _, h3, _⟩ := h1 hl
    rw [h3 () he] at hf
    cases hf
  · match frames, hl with
    | 0, _ => cases hf
    | 1, _ => rw [h2 rfl] at hf; cases hf

/-- **C132 (endless sources).** If the iterator always has another pair, `of_seq` raises `RecursionError` on every stack, and the
loop runs for ever. -/
theorem C132_endless (unpack : α → PyD σ (K × V)) (src : Iterable σ α S) (w0 : σ) {s : S} {w : σ}
    (hi : src.iter.exec w0 = some (.ok s, w)) (hn : ∀ n, ∃ kvs s' w', kvs.length = n ∧ Draws unpack src s w kvs s' w') (frames : Nat) :
    (∃ w', (ofSeq unpack src frames).exec w0 = some (.error .recursionError, w')) ∧ (fillMap unpack src).exec w0 = none := by
  constructor
  · obtain ⟨kvs, s', w', hl, hd⟩ := hn frames
    exact ⟨w', (C132_history unpack src frames w0 hi hd).2 hl⟩
  · change PyD.exec (src.iter >>= fun s => src.loop (fillBody unpack) s Map.empty) w0 = _
    rw [PyD.exec_bind, hi]
    cases hr : (src.loop (fillBody unpack) s Map.empty).exec w with
    | none => exact hr
    | some r =>
      obtain ⟨kvs, s', w', o, hd, ho⟩ := loop_finite unpack src s Map.empty MapTree.valid_nothing w r hr
      obtain ⟨kvs2, s2, w2, hl, hd2⟩ := hn (kvs.length + 1)
      have := draws_le hd ho hd2
      omega

/-- A generator that counts, in the world, how many pairs it has given, and raises after the third. -/
private def failing : Iterable Nat (Int × Int) Nat where
  iter := pure 0
  next s := fun w => if s = 3 then some (.error (.user 7), w) else some (.ok (some (((2 : Int) - s, s), s + 1)), w + 1)

set_option synthInstance.maxSize 1000 in
example : ((ofSeq pure failing 10).exec 0).map (fun r => (r.1.map Map.toList, r.2)) = some (.error (.user 7), 3) ∧
    ((ofSeq pure failing 2).exec 0).map (fun r => (r.1.map Map.toList, r.2)) = some (.error .recursionError, 2) ∧
    ((ofSeq pure (Iterable.ofList [((2 : Int), (20 : Int)), (1, 10), (2, 21)]) 10).exec ()).map (fun r => (r.1.map Map.toList, r.2)) =
      some (.ok [(1, 10), (2, 21)], ()) ∧
    ((ofSeq oddPair (Iterable.ofList [3, 2, 1, 0]) 10).exec ()).map (fun r => (r.1.map Map.toList, r.2)) =
      some (.ok [(2, 2), (3, 3)], ()) := by decide

/-- `hn` of `C132_endless` is met by a source that counts upwards. -/
private def numbers : Iterable Unit (Int × Int) Int where
  iter := pure 0
  next s := pure (some ((s, s), s + 1))

example (n : Nat) : ∃ kvs s' w', kvs.length = n ∧ Draws (pure : Int × Int → PyD Unit (Int × Int)) numbers 0 () kvs s' w' := by
  have : ∀ n (s : Int), ∃ kvs s' w', kvs.length = n ∧ Draws (pure : Int × Int → PyD Unit (Int × Int)) numbers s () kvs s' w' := by
    intro n
    induction n with
    | zero => exact fun s => ⟨[], s, (), rfl, .zero⟩
    | succ n ih =>
      intro s
      obtain ⟨kvs, s', w', hl, hd⟩ := ih (s + 1)
      exact ⟨(s, s) :: kvs, s', w', by simp [hl], .succ (x := (s, s)) (s1 := s + 1) (w1 := ()) (w2 := ()) rfl rfl hd⟩
  exact this n 0

end Expression.Props
