import Verif.Lemmas.SeqCloseSim

/-! # Properties of pipelines that are left before their end (C152, C153) -/

namespace Expression.Props

open PyD Expression.SeqClose Spec.SeqClose Lemmas.SeqClose

variable {σ α C S : Type}

/-! ## C152 -/

/-- However a loop over a pipeline ends (the pipeline is exhausted, the body breaks, the body or a callback or a generator raises), every
generator that the pipeline began has ended or been closed, once: the ledger shows as many open ones as before. -/
theorem C152_nothing_left_open (p : Pipe σ α) (body : C → α → PyD σ (Flow C)) (c : C) (l l' : Ledger σ) (r : Except PyErr C)
    (h : (forLoop p.build.2 (fun c x => lift (body c x)) c).exec l = some (r, l')) : l'.opened = l.opened := by
  have h1 := forLoop_still (pipe_opened p).drops (fun c x => lift_still (body c x) (·.opened) fun _ _ => rfl) c l r l' h
  change l'.opened - l.opened = 0 at h1
  omega

/-- `head` leaves its loop after one element: the generator at the root of `map` has then been closed, and its clean-up has run. -/
theorem C152_head_of_map {β : Type} (r : Root σ α S) (hk : r.kept = false) (mapper : α → PyD σ β) (l : Ledger σ) (s s' : S) (x : α) (y : β)
    (w1 w2 w3 w4 : σ) (res : Except PyErr Unit) (h1 : r.iterable.iter.exec l.world = some (.ok s, w1))
    (h2 : (r.iterable.next s).exec w1 = some (.ok (some (x, s')), w2)) (h3 : (mapper x).exec w2 = some (.ok y, w3))
    (h4 : (r.cleanup s').exec w3 = some (res, w4)) :
    (SeqClose.head (Pipe.map mapper (.root r)).build.2).exec l = some (.ok y, { l with world := w4 }) :=
  map_head hk h1 h2 h3 h4

/-- Apart from the clean-up, the loop is the loop over the same pipeline in `Model/Seq.lean`: the same elements, effects and exceptions in the
same order, and it ends if that one does. -/
theorem C152_agrees (p : Pipe σ α) (hp : Silent p) (body : C → α → PyD σ (Flow C)) (c : C) (l : Ledger σ) :
    inWorld ((forLoop p.build.2 (fun c x => lift (body c x)) c).exec l) = ((plain p).2.forLoop body c).exec l.world :=
  (Lemmas.SeqCloseSim.pipe_same p hp).elim fun _ h => Lemmas.SeqCloseSim.forLoop_agrees h body c l

/-- For instance `list` of a pipeline. -/
theorem C152_list (p : Pipe σ α) (hp : Silent p) (l : Ledger σ) :
    inWorld ((SeqClose.toList p.build.2).exec l) = (plain p).2.toList.exec l.world :=
  C152_agrees p hp (fun acc x => pure (.next (acc ++ [x]))) [] l

/-! ## C153 -/

/-- A generator that the caller keeps is not closed by a loop over a pipeline that reads from it. -/
def C153_full_statement : Prop :=
  ∀ (σ α C : Type) (p : Pipe σ α) (body : C → α → PyD σ (Flow C)) (c : C) (l l' : Ledger σ) (r : Except PyErr C),
    (forLoop p.build.2 (fun c x => lift (body c x)) c).exec l = some (r, l') → l'.closings = l.closings

/-- True if the generator is not itself appended, appended to, or returned by the callback of a `collect`. -/
theorem C153_kept_open_partial (p : Pipe σ α) (hp : Wrapped p) (body : C → α → PyD σ (Flow C)) (c : C) (l l' : Ledger σ)
    (r : Except PyErr C) (h : (forLoop p.build.2 (fun c x => lift (body c x)) c).exec l = some (r, l')) : l'.closings = l.closings := by
  have h1 := forLoop_still (pipe_closings p hp).1 (fun c x => lift_still (body c x) (·.closings) fun _ _ => rfl) c l r l' h
  change l'.closings - l.closings = 0 at h1
  omega

/-- But `head` of a kept generator with anything appended to it closes the generator. -/
theorem C153_append_closes (r : Root σ α S) (hk : r.kept = true) (q : Pipe σ α) (l : Ledger σ) (s s' : S) (x : α) (w1 w2 w3 : σ)
    (res : Except PyErr Unit) (h1 : r.iterable.iter.exec l.world = some (.ok s, w1))
    (h2 : (r.iterable.next s).exec w1 = some (.ok (some (x, s')), w2)) (h3 : (r.cleanup s').exec w2 = some (res, w3)) :
    (SeqClose.head (Pipe.append (.root r) q).build.2).exec l = some (.ok x, { l with world := w3, closings := l.closings + 1 }) :=
  append_head hk h1 h2 h3

/-- the elements that are left are lost: `head` takes 1 of 1, 2, 3, and nothing is left ... -/
theorem C153_elements_lost : (SeqClose.head (Pipe.append (.root numbers) (.list [4])).build.2).exec ⟨[1, 2, 3], 0, 0⟩ =
    some (.ok 1, ⟨[], 0, 1⟩) := append_head rfl (s := ()) (w1 := [1, 2, 3]) (w2 := [2, 3]) rfl rfl rfl

/-- ... whereas with a `Seq` around the generator 2 and 3 are left -/
theorem C153_elements_kept : (SeqClose.head (Pipe.append (.seq (.root numbers)) (.list [4])).build.2).exec ⟨[1, 2, 3], 0, 0⟩ =
    some (.ok 1, ⟨[2, 3], 0, 0⟩) := by
  have h := append_first (p := (Pipe.seq (.root numbers)).build.2) (q := (Pipe.list [4]).build.2) (w := ⟨[1, 2, 3], 0, 0⟩)
    (w1 := ⟨[1, 2, 3], 0, 0⟩) (w2 := ⟨[2, 3], 0, 0⟩) (w3 := ⟨[2, 3], 0, 0⟩) (s := ()) (s' := ()) (x := 1) (r := .ok ()) rfl rfl rfl
  exact head_exec h.1 h.2.1 h.2.2

theorem C153_full_statement_false : ¬C153_full_statement := by
  intro h
  have h1 := append_first (p := numbers.source) (q := (Pipe.list [4]).build.2) (w := ⟨[1, 2, 3], 0, 0⟩) (w1 := ⟨[1, 2, 3], 0, 0⟩)
    (w2 := ⟨[2, 3], 0, 0⟩) (w3 := ⟨[], 0, 1⟩) (s := ()) (s' := ()) (x := 1) (r := .ok ()) rfl rfl rfl
  cases h (List Nat) Nat (Option Nat) (.append (.root numbers) (.list [4])) (fun _ x => pure (.stop (some x))) none ⟨[1, 2, 3], 0, 0⟩
    ⟨[], 0, 1⟩ (.ok (some 1)) (first_exec h1.1 h1.2.1 h1.2.2 fun _ _ => rfl)

/-! ### Concrete cases -/

/-- a class whose `__iter__` is a generator function that counts in the world how often its `finally` ran -/
def countingRoot : Root Nat Nat Nat where
  iterable := { iter := pure 0, next := fun n => pure (some (n, n + 1)) }
  cleanup _ := fun w => some (.ok (), w + 1)
  kept := false

/-- `head(map(lambda n: n + 5)(numbers))` runs the `finally` of the endless generator, and leaves none open -/
example : (SeqClose.head (Pipe.map (fun n => pure (n + 5)) (.root countingRoot)).build.2).exec ⟨0, 0, 0⟩ = some (.ok 5, ⟨1, 0, 0⟩) :=
  C152_head_of_map countingRoot rfl _ _ 0 1 0 5 0 0 0 1 (.ok ()) rfl rfl rfl rfl

/-- a pipeline whose generators have no clean-up: the endless one, two of its elements, and 7, each paired with the next -/
example : Silent (Pipe.pairwise (.append (.take 2 (.root { countingRoot with cleanup := fun _ => pure () })) (.list [7]))) :=
  ⟨fun _ w => ⟨.ok (), rfl⟩, trivial⟩

/-- a pipeline that is `Wrapped`, over a generator that the caller keeps: the mapped generator is appended to -/
example : Wrapped (Pipe.append (.map (fun n => pure (n + 5)) (.root numbers)) (.take 2 (.filter (fun n => pure (n % 2 = 0)) (.root numbers)))) :=
  ⟨⟨fun h => h, trivial⟩, fun h => h, trivial⟩

end Expression.Props
