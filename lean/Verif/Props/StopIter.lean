import Verif.Lemmas.Block
import Verif.Lemmas.StopIter

/-! # Property C134: callbacks that raise `StopIteration` -/

namespace Expression.Props

open Expression StopIter Spec Iterable PyD

variable {σ α β γ S T C ω : Type}

/-- The full property: whatever exception the callback of `Block.map` raises, it comes out, and nothing is done after it. -/
def C134_full_statement : Prop :=
  ∀ (f : Nat → PyD Unit Nat) (xs ys : List Nat) (x : Nat) (rest : List Nat) (e : PyErr), CallsReturn f () xs ys () →
    (f x).exec () = some (.error e, ()) → (blockMap ⟨xs ++ x :: rest⟩ f).exec () = some (.error e, ())

private theorem map_eq (b : Block α) (f : α → PyD σ β) :
    blockMap b f = (do
      let r ← (ofList b.value).forLoop (fun c x => orBreak (f x) c (fun y => pure (.next (c ++ [y])))) []
      pure ⟨r⟩) := by
  simp only [blockMap, toList, mapObject_forLoop]
  rfl

private theorem foldl_append (xs : List α) (ys : List β) (h : xs.length = ys.length) (acc : List β) :
    (xs.zip ys).foldl (fun c p => c ++ [p.2]) acc = acc ++ ys := by
  induction xs generalizing ys acc with
  | nil => cases ys with
    | nil => simp
    | cons => cases h
  | cons x xs ih => cases ys with
    | nil => cases h
    | cons y ys =>
      rw [List.zip_cons_cons, List.foldl_cons, ih _ (by simpa using h), List.append_assoc]
      rfl

private theorem calls_length {f : α → PyD σ β} {w w' : σ} {xs : List α} {ys : List β} (h : CallsReturn f w xs ys w') :
    xs.length = ys.length := by
  induction h with
  | nil => rfl
  | cons _ _ ih => simp only [List.length_cons, ih]

/-- **C134 (`Block`).** `map`, `mapi`, `filter`, `collect` and `choose` take a `StopIteration` of the callback for the end of the block:
what was computed before is returned, and the rest of the block is silently dropped. -/
theorem C134_block (w w' : σ) (xs : List α) :
    (∀ (f : α → PyD σ β) ys, CallsReturn f w xs ys w' → Truncates f xs w' (fun l => (blockMap ⟨l⟩ f).exec w) ⟨ys⟩) ∧
    (∀ (f : Nat → α → PyD σ β) ys, CallsReturn (fun p : α × Nat => f p.2 p.1) w xs.zipIdx ys w' →
      Truncates (f xs.length) xs w' (fun l => (blockMapi ⟨l⟩ f).exec w) ⟨ys⟩) ∧
    (∀ (p : α → PyD σ Bool) bs, CallsReturn p w xs bs w' →
      Truncates p xs w' (fun l => (blockFilter ⟨l⟩ p).exec w) ⟨((xs.zip bs).filter (fun q => q.2)).map (fun q => q.1)⟩) ∧
    (∀ (m : α → PyD σ (Block β)) bs, CallsReturn m w xs bs w' →
      Truncates m xs w' (fun l => (blockCollect ⟨l⟩ m).exec w) ⟨(bs.map (fun b => b.value)).flatten⟩) ∧
    (∀ (f : α → PyD σ (Option β)) os, CallsReturn f w xs os w' →
      Truncates f xs w' (fun l => (blockChoose ⟨l⟩ f).exec w) ⟨os.filterMap id⟩) := by
  have collect : ∀ (m : α → PyD σ (Block β)) bs, CallsReturn m w xs bs w' →
      Truncates m xs w' (fun l => (blockCollect ⟨l⟩ m).exec w) ⟨(bs.map (fun b => b.value)).flatten⟩ := by
    intro m bs h
    have e : ∀ l, blockCollect ⟨l⟩ m = (do
        let r ← (ofList l).forLoop (fun c x => orBreak (m x) c (fun y => pure (.next (c ++ y.value)))) []
        pure ⟨r⟩) := by
      intro l
      simp only [blockCollect, mapObject_forLoop]
      rfl
    simp only [e]
    have t := break_truncates m (fun c _ y => c ++ y.value) Block.mk h []
    have hf : ∀ (xs : List α) (bs : List (Block β)) (acc : List β), xs.length = bs.length →
        (xs.zip bs).foldl (fun c p => c ++ p.2.value) acc = acc ++ (bs.map (fun b => b.value)).flatten := by
      intro xs
      induction xs with
      | nil => intro bs acc hl; cases bs <;> simp_all
      | cons x xs ih =>
        intro bs acc hl
        cases bs with
        | nil => cases hl
        | cons b bs =>
          rw [List.zip_cons_cons, List.foldl_cons, ih _ _ (by simpa using hl), List.append_assoc, List.map_cons, List.flatten_cons]
    rw [hf _ _ _ (calls_length h), List.nil_append] at t
    exact t
  refine ⟨?_, ?_, ?_, collect, ?_⟩
  · intro f ys h
    have t := break_truncates f (fun c _ y => c ++ [y]) Block.mk h []
    rw [foldl_append _ _ (calls_length h), List.nil_append] at t
    simp only [map_eq]
    exact t
  · intro f ys h
    have e : ∀ l, (blockMapi ⟨l⟩ f).exec w = match ((ofList l : Iterable σ α _).loop (breakIndexBody f) l (0, [])).exec w with
        | none => none
        | some (.error e, w') => some (.error e, w')
        | some (.ok r, w') => some (.ok ⟨r.2⟩, w') := by
      intro l
      simp only [blockMapi, mapi_forLoop, map_eq_pure_bind, bind_assoc, pure_bind]
      rw [exec_bind]
      have : (ofList l : Iterable σ α _).forLoop (breakIndexBody f) (0, []) = (ofList l : Iterable σ α _).loop (breakIndexBody f) l (0, []) :=
        pure_bind _ _
      rw [this]
      rcases ((ofList l : Iterable σ α _).loop (breakIndexBody f) l (0, [])).exec w with _ | ⟨_ | _, _⟩ <;> rfl
    refine ⟨?_, fun x rest => ⟨fun w2 hf => ?_, fun er w2 hne hf => ?_, fun hf => ?_⟩⟩
    · have := break_index f xs 0 h [] []
      rw [List.append_nil] at this
      simp only [e]
      rw [this, loop_ofList_nil]
      rfl
    · simp only [e]
      rw [break_index f _ 0 h, index_next, Nat.zero_add, hf]
      rfl
    · simp only [e]
      rw [break_index f _ 0 h, index_next, Nat.zero_add, hf]
      simp only [if_neg hne]
    · simp only [e]
      rw [break_index f _ 0 h, index_next, Nat.zero_add, hf]
  · intro p bs h
    have e : ∀ l, blockFilter ⟨l⟩ p = (do
        let r ← (ofList l).forLoop (fun c x => orBreak (p x) c (fun b => pure (.next (if b then c ++ [x] else c)))) []
        pure ⟨r⟩) := by
      intro l
      simp only [blockFilter, toList, StopIter.filter_forLoop]
      have : (breakFilterBody p fun (acc : List α) x => pure (.next (acc ++ [x]))) =
          fun c x => orBreak (p x) c (fun b => (pure (.next (if b then c ++ [x] else c)) : PyD σ _)) := by
        funext c x
        simp only [breakFilterBody]
        congr 1
        funext b
        cases b <;> rfl
      rw [this]
    simp only [e]
    have t := break_truncates p (fun c x b => if b then c ++ [x] else c) Block.mk h []
    have hf : ∀ (xs : List α) (bs : List Bool) (acc : List α),
        (xs.zip bs).foldl (fun c p => if p.2 then c ++ [p.1] else c) acc =
          acc ++ ((xs.zip bs).filter (fun q => q.2)).map (fun q => q.1) := by
      intro xs bs
      induction xs.zip bs with
      | nil => simp
      | cons q qs ih =>
        intro acc
        rw [List.foldl_cons, ih, List.filter_cons]
        split <;> simp
    rw [hf, List.nil_append] at t
    exact t
  · intro f os h
    have hc : ∀ {w xs os w'}, CallsReturn f w xs os w' →
        CallsReturn (fun x => do let o ← f x; pure (⟨Block.optionToSeq o⟩ : Block β)) w xs (os.map (fun o => ⟨Block.optionToSeq o⟩)) w' := by
      intro w xs os w' h
      induction h with
      | nil => exact .nil
      | cons call _ ih => exact .cons (by rw [exec_bind, call]; rfl) ih
    have t := collect _ _ (hc h)
    have hr : ((os.map (fun o => (⟨Block.optionToSeq o⟩ : Block β))).map (fun b => b.value)).flatten = os.filterMap id := by
      clear h t hc
      induction os with
      | nil => rfl
      | cons o os ih => cases o <;> simp_all [Block.optionToSeq]
    rw [hr] at t
    refine ⟨t.1, fun x rest => ⟨fun w2 hf => (t.2 x rest).1 w2 ?_, fun er w2 hne hf => (t.2 x rest).2.1 er w2 hne ?_,
      fun hf => (t.2 x rest).2.2 ?_⟩⟩ <;> rw [exec_bind, hf]

/-- **C134 is false of the code**: `StopIteration` raised for the second of three elements gives a block of one element. -/
theorem C134_full_statement_false : ¬ C134_full_statement := by
  intro h
  have hc : CallsReturn (fun x : Nat => (if x = 2 then PyD.raise .stopIteration else pure x : PyD Unit Nat)) () [1] [1] () :=
    .cons rfl .nil
  have h1 := h _ [1] [1] 2 [3] .stopIteration hc rfl
  have h2 := ((((C134_block (β := Nat) () () [1]).1 _ _ hc).2 2 [3]).1 () rfl).symm.trans h1
  cases h2

/-- **C134 (`sum_by` and `unfold` of blocks).** A `StopIteration` of the projection makes `sum_by` return the sum of the elements before, with no
error; one of the generator function of `unfold` becomes `RuntimeError`. -/
theorem C134_block_more (xs rest : List α) (x : α) (f : α → PyD σ β) (ys : List β) (w w' w'' : σ) (h : CallsReturn f w xs ys w')
    (hx : (f x).exec w' = some (.error .stopIteration, w'')) (plus : β → β → PyD σ β) (zero : β)
    (g : S → PyD σ (Option (α × S))) (s : S) :
    (blockSumBy plus zero ⟨xs ++ x :: rest⟩ f).exec w = ((ofList ys).forLoop (fun total y => do
      let total' ← plus total y
      pure (.next total')) zero).exec w'' ∧
    blockUnfold g s = (do
      let l ← (Seq.unfold (fun s => asRuntimeError (g s)) s).toList
      pure ⟨l⟩) := by
  constructor
  · have : (blockMap ⟨xs ++ x :: rest⟩ f).exec w = some (.ok ⟨ys⟩, w'') := (((C134_block w w' xs).1 f ys h).2 x rest).1 w'' hx
    rw [blockSumBy, exec_bind, this]
    rfl
  · have : (fun s => inGenerator (g s)) = fun s => asRuntimeError (g s) := by
      funext s
      exact inGenerator_eq _
    rw [blockUnfold, seqUnfold, this]

/-- **C134 (typed arrays).** `map`, `filter` and `collect` of arrays go through the elements as those of blocks do. -/
theorem C134_array [Arr.Floats ω] (long : Nat) (self : Arr.TypedArray ω) (f : Arr.Val ω → PyD σ (Arr.Val ω)) (p : Arr.Val ω → PyD σ Bool)
    (m : Arr.Val ω → PyD σ (Arr.TypedArray ω)) :
    arrayMap long self f = (do
      let b ← blockMap ⟨self.value.items⟩ f
      PyD.ofPy (Py.ofExcept (Arr.TypedArray.ofIterable long b.value))) ∧
    arrayFilter long self p = (do
      let b ← blockFilter ⟨self.value.items⟩ p
      PyD.ofPy (Py.ofExcept (Arr.init long (.iterable b.value) (some self.typecode)))) ∧
    arrayCollect long self m = (do
      let b ← blockCollect ⟨self.value.items⟩ (fun x => do
        let a ← m x
        pure ⟨a.value.items⟩)
      PyD.ofPy (Py.ofExcept (Arr.TypedArray.ofIterable long b.value))) := by
  refine ⟨?_, ?_, ?_⟩
  · simp only [arrayMap, blockMap, bind_assoc, pure_bind]
  · simp only [arrayFilter, blockFilter, bind_assoc, pure_bind]
  · simp only [arrayCollect, blockCollect, bind_assoc, pure_bind, mapObject_forLoop]
    congr 2
    funext c x
    simp only [breakMapBody, orBreak_map]

/-- **C134 (`forall`).** The predicate of `forall` is called inside a generator expression: as long as it was true, a `StopIteration` comes
out as `RuntimeError`, another exception as it is. -/
theorem C134_forall (p : α → PyD σ Bool) (xs : List α) (bs : List Bool) (w w' : σ) (h : CallsReturn p w xs bs w')
    (ht : ∀ b ∈ bs, b = true) (x : α) (rest : List α) :
    (blockForall ⟨xs⟩ p).exec w = some (.ok true, w') ∧
    (∀ w2, (p x).exec w' = some (.ok false, w2) → (blockForall ⟨xs ++ x :: rest⟩ p).exec w = some (.ok false, w2)) ∧
    (∀ w2, (p x).exec w' = some (.error .stopIteration, w2) → (blockForall ⟨xs ++ x :: rest⟩ p).exec w =
      some (.error (.failwith "generator raised StopIteration"), w2)) ∧
    (∀ e w2, e ≠ .stopIteration → (p x).exec w' = some (.error e, w2) → (blockForall ⟨xs ++ x :: rest⟩ p).exec w = some (.error e, w2)) ∧
    ((p x).exec w' = none → (blockForall ⟨xs ++ x :: rest⟩ p).exec w = none) ∧
    ∀ self : Arr.TypedArray ω, ∀ q : Arr.Val ω → PyD σ Bool, arrayForall self q = blockForall ⟨self.value.items⟩ q := by
  let body : Bool → α → PyD σ (Flow Bool) := mapBody (fun x => asRuntimeError (p x)) (fun _ b => pure (if b then .next true else .stop false))
  have e : ∀ l, (blockForall ⟨l⟩ p).exec w = ((ofList l : Iterable σ α _).loop body l true).exec w := by
    intro l
    simp only [blockForall, seqMap, map_forLoop, inGenerator_eq]
    rfl
  have key : ∀ (base : List α) {w xs bs w'} (rest : List α), CallsReturn p w xs bs w' → (∀ b ∈ bs, b = true) →
      ((ofList base : Iterable σ α _).loop body (xs ++ rest) true).exec w = ((ofList base : Iterable σ α _).loop body rest true).exec w' := by
    intro base w xs bs w' rest h
    induction h with
    | nil => exact fun _ => rfl
    | @cons w x y w1 xs ys w' call _ ih =>
      intro ht
      rw [List.cons_append, loop_ofList_cons, exec_bind]
      have hy : y = true := ht y (by simp)
      subst hy
      have : (body true x).exec w = some (.ok (.next true), w1) := by
        simp only [body, mapBody]
        rw [exec_bind]
        simp only [asRuntimeError, PyD.exec] at call ⊢
        rw [call]
        rfl
      rw [this]
      exact ih (fun b hb => ht b (List.mem_cons_of_mem _ hb))
  have nxt : ∀ base : List α, ((ofList base : Iterable σ α _).loop body (x :: rest) true).exec w' = match (p x).exec w' with
      | none => none
      | some (.ok b, w2) => if b then ((ofList base : Iterable σ α _).loop body rest true).exec w2 else some (.ok false, w2)
      | some (.error er, w2) => some (.error (if er = .stopIteration then .failwith "generator raised StopIteration" else er), w2) := by
    intro base
    rw [loop_ofList_cons, exec_bind]
    simp only [body, mapBody]
    rw [exec_bind]
    simp only [asRuntimeError, PyD.exec]
    rcases p x w' with _ | ⟨er | b, w2⟩
    · rfl
    · rfl
    · cases b <;> rfl
  refine ⟨?_, fun w2 hp => ?_, fun w2 hp => ?_, fun er w2 hne hp => ?_, fun hp => ?_, fun _ _ => rfl⟩
  · have := key xs [] h ht
    rw [List.append_nil] at this
    rw [e, this, loop_ofList_nil]
    rfl
  · rw [e, key _ _ h ht, nxt, hp]; rfl
  · rw [e, key _ _ h ht, nxt, hp]; rfl
  · rw [e, key _ _ h ht, nxt, hp]
    simp only [if_neg hne]
  · rw [e, key _ _ h ht, nxt, hp]

/-- **C134 (sequences that end).** `seq.filter`, `seq.scan`, `seq.mapi` and `seq.init_infinite` take a `StopIteration` of the callback for the
end of the sequence: for every source and consumer, it is a `break` in the loop over the source. -/
theorem C134_seq_breaks (src : Iterable σ α S) :
    (∀ (p : α → PyD σ Bool) (body : C → α → PyD σ (Flow C)) (c : C),
      (seqFilter p src).forLoop body c = src.forLoop (breakFilterBody p body) c) ∧
    (∀ (f : γ → α → PyD σ γ) (z : γ) (body : C → γ → PyD σ (Flow C)) (c : C),
      (seqScan f z src).forLoop body c = (do
        let it ← src.iter
        match ← body c z with
        | .stop c' => pure c'
        | .next c' => Prod.fst <$> src.loop (breakScanBody f body) it (c', z))) ∧
    (∀ f : Nat → α → PyD σ β, seqMapi f src = Prod.snd <$> src.forLoop (breakIndexBody f) (0, [])) ∧
    (∀ (f : Nat → PyD σ β) (body : C → β → PyD σ (Flow C)) (c : C),
      (seqInitInfinite f).forLoop body c = (Seq.initInfinite (fun i => pure i)).forLoop (breakMapBody f body) c) :=
  ⟨fun p body c => StopIter.filter_forLoop p src body c, fun f z body c => StopIter.scan_forLoop f z src body c,
    fun f => mapi_forLoop f src, fun f body c => mapObject_forLoop f count body c⟩

/-- **C134 (sequences that raise).** `seq.map`, `seq.choose`, `seq.collect`, `seq.unfold`, `sum_by`, `max_by` and `min_by` call the callback
inside a generator: a `StopIteration` comes out as `RuntimeError`. -/
theorem C134_seq_raises (src : Iterable σ α S) :
    (∀ (f : α → PyD σ β) (body : C → β → PyD σ (Flow C)) (c : C), (seqMap f src).forLoop body c = (do
      let it ← asRuntimeError src.iter
      src.loop (mapBody (fun x => asRuntimeError (f x)) body) it c)) ∧
    (∀ (m : α → PyD σ (Iterable σ β T)) (body : C → β → PyD σ (Flow C)) (c : C), (seqCollect m src).forLoop body c = (do
      let it ← asRuntimeError src.iter
      src.loop (collectBody (fun x => do
        let ys ← asRuntimeError (m x)
        pure { ys with iter := asRuntimeError ys.iter }) body) it c)) ∧
    (∀ (f : α → PyD σ (Option β)) (body : C → β → PyD σ (Flow C)) (c : C), (seqChoose f src).forLoop body c = (do
      let it ← asRuntimeError src.iter
      src.loop (chooseBody (fun x => asRuntimeError (f x)) body) it c)) ∧
    (∀ (g : T → PyD σ (Option (β × T))) (s : T), seqUnfold g s = Seq.unfold (fun s => asRuntimeError (g s)) s) ∧
    (∀ (plus : β → β → PyD σ β) (zero : β) (f : α → PyD σ β), seqSumBy plus zero f src = (do
      let it ← asRuntimeError src.iter
      src.loop (fun total x => do
        let y ← asRuntimeError (f x)
        let total' ← plus total y
        pure (.next total')) it zero)) ∧
    (∀ (gt : β → β → Bool) (f : α → PyD σ β), seqMaxBy gt f src =
      Seq.maxBy gt (fun x => asRuntimeError (f x)) { src with iter := asRuntimeError src.iter }) := by
  have hm : ∀ {C : Type} (f : α → PyD σ β) (body : C → β → PyD σ (Flow C)) (c : C), (seqMap f src).forLoop body c = (do
      let it ← asRuntimeError src.iter
      src.loop (mapBody (fun x => asRuntimeError (f x)) body) it c) := by
    intro C f body c
    simp only [seqMap, map_forLoop, source_forLoop, inGenerator_eq]
  have hc : ∀ {T : Type} (m : α → PyD σ (Iterable σ β T)) (body : C → β → PyD σ (Flow C)) (c : C), (seqCollect m src).forLoop body c = (do
      let it ← asRuntimeError src.iter
      src.loop (collectBody (fun x => do
        let ys ← asRuntimeError (m x)
        pure { ys with iter := asRuntimeError ys.iter }) body) it c) := by
    intro T m body c
    simp only [seqCollect, collect_forLoop, source_forLoop, inGenerator_eq]
    simp only [source, inGenerator_eq]
  refine ⟨hm, hc, ?_, ?_, ?_, ?_⟩
  · intro f body c
    rw [seqChoose, hc]
    congr 1
    funext it
    congr 1
    funext c x
    simp only [collectBody, chooseBody, asRuntimeError_map, bind_assoc, pure_bind]
    refine bind_congr fun o => ?_
    exact nested_optional o body c
  · intro g s
    simp only [seqUnfold, inGenerator_eq]
  · intro plus zero f
    simp only [seqSumBy, Seq.sum, Seq.fold, hm]
    rfl
  · intro gt f
    simp only [seqMaxBy, Seq.maxBy, seqMap, inGenerator_eq, source]

private theorem listLoop (xs : List α) (g : C → α → Py σ C) (c : C) (body : C → α → PyD σ (Flow C))
    (hb : ∀ c x, body c x = (PyD.ofPy (g c x) >>= fun c' => pure (.next c'))) :
    (ofList xs : Iterable σ α _).forLoop body c = PyD.ofPy (Builtins.reduce g xs c) := by
  have : body = fun c x => (PyD.ofPy (g c x) >>= fun c' => pure (.next c')) := by
    funext c x
    exact hb c x
  rw [this]
  exact (pure_bind _ _).trans (list_ofPy xs xs g c)

/-- **C134 (partial).** For callbacks that never raise `StopIteration` the functions of blocks are what the other properties are about
(C15 and others): any other exception comes out unchanged. -/
theorem C134_block_partial (self : Block α) (f : α → Py σ β) (p : α → Py σ Bool) (m : α → Py σ (Block β)) (o : α → Py σ (Option β))
    (hf : NoStopIteration (fun x => PyD.ofPy (f x))) (hp : NoStopIteration (fun x => PyD.ofPy (p x)))
    (hm : NoStopIteration (fun x => PyD.ofPy (m x))) (ho : NoStopIteration (fun x => PyD.ofPy (o x))) :
    blockMap self (fun x => PyD.ofPy (f x)) = PyD.ofPy (self.map f) ∧
    blockFilter self (fun x => PyD.ofPy (p x)) = PyD.ofPy (self.filter p) ∧
    blockCollect self (fun x => PyD.ofPy (m x)) = PyD.ofPy (self.collect m) ∧
    blockChoose self (fun x => PyD.ofPy (o x)) = PyD.ofPy (self.choose o) ∧
    blockForall self (fun x => PyD.ofPy (p x)) = PyD.ofPy (self.forall' p) := by
  have hcol : ∀ m : α → Py σ (Block β), NoStopIteration (fun x => PyD.ofPy (m x)) →
      blockCollect self (fun x => PyD.ofPy (m x)) = PyD.ofPy (self.collect m) := by
    intro m hm
    rw [blockCollect, mapObject_forLoop, listLoop self.value (fun acc x => do let b ← m x; pure (acc ++ b.value)) []]
    · rw [reduce_collect, ofPy_bind_pure]
      rfl
    · intro c x
      rw [breakMapBody, orBreak_never hm, ← ofPy_bind_pure, bind_assoc]
      simp only [pure_bind]
  refine ⟨?_, ?_, hcol m hm, ?_, ?_⟩
  · rw [blockMap, toList, mapObject_forLoop, listLoop self.value (fun acc x => do let y ← f x; pure (acc ++ [y])) []]
    · rw [StopIter.reduce_map, ofPy_bind_pure]
      rfl
    · intro c x
      rw [breakMapBody, orBreak_never hf, ← ofPy_bind_pure, bind_assoc]
      simp only [pure_bind]
  · rw [blockFilter, toList, StopIter.filter_forLoop,
      listLoop self.value (fun acc x => do let b ← p x; pure (if b then acc ++ [x] else acc)) []]
    · rw [StopIter.reduce_filter, ofPy_bind_pure]
      rfl
    · intro c x
      rw [breakFilterBody, orBreak_never hp, ← ofPy_bind_pure, bind_assoc]
      refine bind_congr fun b => ?_
      cases b <;> rfl
  · rw [blockChoose]
    have e : (fun x => do let y ← PyD.ofPy (o x); pure (⟨Block.optionToSeq y⟩ : Block β)) =
        fun x => PyD.ofPy (do let y ← o x; pure (⟨Block.optionToSeq y⟩ : Block β)) := by
      funext x
      exact ofPy_bind_pure _ _
    rw [e, hcol]
    · rfl
    · intro x w w' he
      simp only [← ofPy_bind_pure, exec_bind] at he
      rcases h : (PyD.ofPy (o x)).exec w with _ | ⟨e | y, w1⟩ <;> rw [h] at he
      · cases he
      · cases he; exact ho x w _ h
      · cases he
  · have e : seqMap (fun x => PyD.ofPy (p x)) (ofList self.value) = Seq.map (fun x => PyD.ofPy (p x)) (ofList self.value) := by
      rw [seqMap]
      congr 1
      funext x
      exact inGenerator_never hp x
    rw [blockForall, e, map_forLoop]
    have key : ∀ base xs : List α, (ofList base : Iterable σ α _).loop (mapBody (fun x => PyD.ofPy (p x)) (fun _ b =>
        pure (if b then .next true else .stop false))) xs true = PyD.ofPy (Builtins.all p xs) := by
      intro base xs
      induction xs with
      | nil => rw [loop_ofList_nil]; rfl
      | cons x xs ih =>
        rw [loop_ofList_cons, mapBody, bind_assoc]
        apply PyD.ext
        intro w
        rw [exec_bind, exec_ofPy, exec_ofPy, Builtins.all, Py.exec_bind]
        rcases (p x).exec w with ⟨_ | b, w'⟩
        · rfl
        · cases b
          · rfl
          · simp only [if_true, pure_bind, cont_next, ih]
            rfl
    exact (pure_bind _ _).trans (key _ _)

/-- The same for sequences, with any source and any consumer. -/
theorem C134_seq_partial (src : Iterable σ α S) (hi : NoStopIteration (fun _ : Unit => src.iter)) (body : C → β → PyD σ (Flow C)) (c : C) :
    (∀ f : α → PyD σ β, NoStopIteration f → (seqMap f src).forLoop body c = (Seq.map f src).forLoop body c) ∧
    (∀ f : α → PyD σ (Option β), NoStopIteration f → (seqChoose f src).forLoop body c = (Seq.choose f src).forLoop body c) ∧
    (∀ (g : T → PyD σ (Option (β × T))) (s : T), NoStopIteration g → seqUnfold g s = Seq.unfold g s) ∧
    (∀ f : Nat → PyD σ β, NoStopIteration f → (seqInitInfinite f).forLoop body c = (Seq.initInfinite f).forLoop body c) ∧
    (∀ f : Nat → α → PyD σ β, (∀ i, NoStopIteration (f i)) → seqMapi f src = Seq.mapi f src) ∧
    (∀ (p : α → PyD σ Bool) (body : C → α → PyD σ (Flow C)), NoStopIteration p →
      (seqFilter p src).forLoop body c = (Seq.filter p src).forLoop body c) ∧
    (∀ (f : β → α → PyD σ β) (z : β), (∀ t, NoStopIteration (f t)) → (seqScan f z src).forLoop body c = (Seq.scan f z src).forLoop body c) := by
  have hs : source src = src := by
    have := inGenerator_never hi ()
    simp only [source, this]
  have ha : ∀ {ι δ : Type} {f : ι → PyD σ δ}, NoStopIteration f → (fun x => inGenerator (f x)) = f := by
    intro ι δ f h
    funext x
    exact inGenerator_never h x
  refine ⟨fun f hf => ?_, fun f hf => ?_, fun g s hg => ?_, fun f hf => ?_, fun f hf => ?_, fun p body hp => ?_, fun f z hf => ?_⟩
  · rw [seqMap, hs, ha hf]
  · have e := inGenerator_eq src.iter
    rw [inGenerator_never hi ()] at e
    rw [(C134_seq_raises (T := T) src).2.2.1 f body c, choose_forLoop, ← e]
    have : (fun x => asRuntimeError (f x)) = f := by
      funext x
      rw [← inGenerator_eq, inGenerator_never hf]
    rw [this]
    rfl
  · rw [seqUnfold, ha hg]
  · rw [seqInitInfinite, mapObject_forLoop]
    rw [initInfinite_forLoop]
    congr 1
    funext c x
    rw [breakMapBody, orBreak_never hf]
    rfl
  · rw [mapi_forLoop, Seq.mapi, map_eq_pure_bind]
    congr 2
    funext c x
    rw [breakIndexBody, orBreak_never (hf c.1)]
  · rw [seqFilter, StopIter.filter_forLoop, Expression.filter_forLoop]
    congr 1
    funext c x
    rw [breakFilterBody, orBreak_never hp]
    rfl
  · rw [StopIter.scan_forLoop, Expression.scan_forLoop]
    have e : breakScanBody f body = scanBody f body := by
      funext c x
      rw [breakScanBody, orBreak_never (hf c.2)]
      rfl
    rw [e]
    refine bind_congr fun s => bind_congr fun r => ?_
    cases r <;> rfl

/-- `seq.iter` and `Block.partition` call from a plain function: there `StopIteration` comes out like any other exception. -/
theorem C134_unchanged_partial (xs rest : List α) (x : α) (w w' w'' : σ) (e : PyErr) :
    (∀ (f : α → PyD σ Unit) us, CallsReturn f w xs us w' → (f x).exec w' = some (.error e, w'') →
      (Seq.iter f (ofList (xs ++ x :: rest))).exec w = some (.error e, w'')) ∧
    (∀ (p : α → Py σ Bool) bs, CallsReturn (fun x => PyD.ofPy (p x)) w xs bs w' → (p x).exec w' = (.error e, w'') →
      ((⟨xs ++ x :: rest⟩ : Block α).partition p).exec w = (.error e, w'')) := by
  constructor
  · intro f us h he
    have key : ∀ (base : List α), ((ofList base : Iterable σ α _).loop (fun _ x => do f x; pure (.next ())) (xs ++ x :: rest) ()).exec w =
        some (.error e, w'') := by
      intro base
      induction h with
      | nil => rw [List.nil_append, loop_ofList_cons, bind_assoc, exec_bind, he]
      | cons call _ ih =>
        rw [List.cons_append, loop_ofList_cons, bind_assoc, exec_bind, call]
        exact ih he
    rw [Seq.iter, forLoop, exec_bind]
    exact key _
  · intro p bs h he
    have key : ∀ l1 l2, (Block.partition.go p (xs ++ x :: rest) l1 l2).exec w = (.error e, w'') := by
      induction h with
      | nil => intro l1 l2; rw [List.nil_append, Block.partition.go, Py.exec_bind, he]
      | @cons w0 x0 b w1 _ _ _ call _ ih =>
        intro l1 l2
        have call' : (p x0).exec w0 = (.ok b, w1) := Option.some.inj call
        rw [List.cons_append, Block.partition.go, Py.exec_bind, call']
        cases b
        · exact ih he _ _
        · exact ih he _ _
    exact key [] []

/-- a callback that counts its calls and runs out at zero -/
private def lookUp (x : Nat) : PyD Nat Nat := fun n => if x = 0 then some (.error .stopIteration, n + 1) else some (.ok (10 * x), n + 1)

private theorem lookUp_12 : CallsReturn lookUp 0 [1, 2] [10, 20] 2 := .cons rfl (.cons rfl .nil)

/-- Four elements, and the callback raises `StopIteration` for the third: a block of two results, no exception, the fourth is not looked at. -/
example : (blockMap ⟨[1, 2, 0, 7]⟩ lookUp).exec 0 = some (.ok ⟨[10, 20]⟩, 3) :=
  (((C134_block 0 2 [1, 2]).1 lookUp [10, 20] lookUp_12).2 0 [7]).1 3 rfl

/-- `seq.iter` raises -/
example : (Seq.iter (fun x => do let _ ← lookUp x; pure ()) (ofList [1, 2, 0, 7])).exec 0 = some (.error .stopIteration, 3) :=
  (C134_unchanged_partial [1, 2] [7] 0 0 2 3 .stopIteration).1 _ [(), ()] (.cons rfl (.cons rfl .nil)) rfl

/-- A callback that raises, but never `StopIteration` -/
example : NoStopIteration (fun x : Nat => PyD.ofPy (if x = 0 then Py.raise (.user 1) else pure (10 * x) : Py Unit Nat)) := by
  intro x w w' h
  by_cases hx : x = 0
  · simp only [hx, if_true] at h
    cases h
  · simp only [hx, if_false] at h
    cases h

end Expression.Props
