import Verif.Spec.CallStack
import Verif.Spec.Functions
import Verif.Lemmas.PyD
import Mathlib.Data.List.Induction

/-! # Calls on a bounded stack -/

namespace Expression.Lemmas.CallStack

open Expression Spec Expression.CallStack

variable {σ α β ε S : Type}

theorem frames_enough {count : Nat} {body : Nat → PyD σ β} {free : Nat} (h : count ≤ free) : frames count body free = body (free - count) := by
  rw [frames, if_neg (by omega)]

theorem frames_few {count : Nat} {body : Nat → PyD σ β} {free : Nat} (h : free < count) : frames count body free = PyD.raise .recursionError := by
  rw [frames, if_pos h]

theorem compose_two (fns : List (FrameFn σ α α)) (free : Nat) (x : α) (h : 2 ≤ free) :
    compose fns free x = Functions.compose (fns.map (fun f => f (free - 2))) x := by
  unfold compose Functions.compose
  rw [frames_enough (by omega)]
  induction fns generalizing x with
  | nil => rfl
  | cons f fs ih =>
    rw [List.map_cons, Functions.reduce, Functions.reduce, frames_enough (by omega), show free - 1 - 1 = free - 2 by omega]
    congr 1
    funext y
    exact ih y

theorem map_getsAlong {m : Nat} {fns : List (Nat → β)} (h : ∀ f ∈ fns, GetsAlong m f) {free : Nat} (hf : m ≤ free) :
    fns.map (fun f => f free) = fns.map (fun f => f m) := List.map_congr_left (fun f hm => h f hm free hf)

theorem pipelineCalls_append (free : Nat) (fns : List (FrameFn σ α β)) (f : FrameFn σ α β) :
    pipelineCalls free (fns ++ [f]) = pipelineCalls (free - 1) fns ++ [f (free - 2)] := by
  induction fns with
  | nil => rfl
  | cons g rest ih =>
    rw [List.cons_append, pipelineCalls, pipelineCalls, ih, List.cons_append, List.length_append, List.length_singleton,
      show free - (rest.length + 1 + 2) = free - 1 - (rest.length + 2) by omega]

theorem pipelineCalls_getsAlong {m : Nat} {fns : List (FrameFn σ α β)} (h : ∀ f ∈ fns, GetsAlong m f) {free : Nat} (hf : m + fns.length + 1 ≤ free) :
    pipelineCalls free fns = fns.map (fun f => f m) := by
  induction fns with
  | nil => rfl
  | cons g rest ih =>
    rw [List.length_cons] at hf
    rw [pipelineCalls, List.map_cons, ih (fun f hm => h f (List.mem_cons_of_mem _ hm)) (by omega), h g List.mem_cons_self _ (by omega)]

theorem railway_append (fns : List (α → PyD σ (Res α ε))) (f : α → PyD σ (Res α ε)) (x : α) :
    railway (fns ++ [f]) x = (do
      let r ← railway fns x
      Res.bind r f) := by
  induction fns generalizing x with
  | nil =>
    rw [List.nil_append, railway, railway, pure_bind]
    show (f x >>= _) = f x
    conv => rhs; rw [← bind_pure (f x)]
    congr 1
    funext r
    cases r <;> rfl
  | cons g rest ih =>
    rw [List.cons_append, railway, railway, bind_assoc]
    congr 1
    funext r
    cases r with
    | ok y => exact ih y
    | error e => rfl

theorem railwayOption_append (fns : List (α → PyD σ (Option α))) (f : α → PyD σ (Option α)) (x : α) :
    railwayOption (fns ++ [f]) x = (do
      let r ← railwayOption fns x
      Opt.bind r f) := by
  induction fns generalizing x with
  | nil =>
    rw [List.nil_append, railwayOption, railwayOption, pure_bind]
    show (f x >>= _) = f x
    conv => rhs; rw [← bind_pure (f x)]
    congr 1
    funext r
    cases r <;> rfl
  | cons g rest ih =>
    rw [List.cons_append, railwayOption, railwayOption, bind_assoc]
    congr 1
    funext r
    cases r with
    | some y => exact ih y
    | none => rfl

theorem raise_bind' (e : PyErr) (f : α → PyD σ β) : (PyD.raise e >>= f) = PyD.raise e := rfl

theorem resultPipeline_eq (new : Nat) (fns : List (FrameFn σ α (Res α ε))) (free : Nat) (x : α) :
    resultPipeline new fns free x =
      if free < fns.length + 1 + new then PyD.raise .recursionError else railway (pipelineCalls free fns) x := by
  induction fns using List.reverseRecOn generalizing free x with
  | nil =>
    unfold resultPipeline
    simp only [List.foldl_nil, List.length_nil, Nat.zero_add]
    rfl
  | append_singleton fns f ih =>
    have e : resultPipeline new (fns ++ [f]) free x = gnResult new (resultPipeline new fns) f free x := by
      unfold resultPipeline
      rw [List.foldl_append]
      rfl
    rw [e, List.length_append, List.length_singleton]
    unfold gnResult
    by_cases h0 : free = 0
    · rw [frames_few (by omega), if_pos (by omega)]
    rw [frames_enough (by omega)]
    show (resultPipeline new fns (free - 1) x >>= _) = _
    rw [ih]
    by_cases h1 : free < fns.length + 1 + 1 + new
    · rw [if_pos h1, if_pos (by omega), raise_bind']
    rw [if_neg h1, if_neg (by omega), pipelineCalls_append, railway_append]
    rcases hn : fns with _ | ⟨g, rest⟩
    · show frames 1 (fun free => bindResult new (.ok x) f free) (free - 1) = f (free - 2) x
      rw [frames_enough (by omega)]
      rfl
    rw [hn, List.length_cons] at h1
    congr 1
    funext r
    rw [frames_enough (by omega), show free - 1 - 1 = free - 2 by omega]
    cases r with
    | ok v => rfl
    | error v =>
      rw [bindResult, frames_enough (by omega)]
      rfl

theorem optionPipeline_eq (new : Nat) (fns : List (FrameFn σ α (Option α))) (free : Nat) (x : α) :
    optionPipeline new fns free x =
      if free < fns.length + 1 + new then PyD.raise .recursionError else railwayOption (pipelineCalls free fns) x := by
  induction fns using List.reverseRecOn generalizing free x with
  | nil =>
    unfold optionPipeline
    simp only [List.foldl_nil, List.length_nil, Nat.zero_add]
    rfl
  | append_singleton fns f ih =>
    have e : optionPipeline new (fns ++ [f]) free x = gnOption (optionPipeline new fns) f free x := by
      unfold optionPipeline
      rw [List.foldl_append]
      rfl
    rw [e, List.length_append, List.length_singleton]
    unfold gnOption
    by_cases h0 : free = 0
    · rw [frames_few (by omega), if_pos (by omega)]
    rw [frames_enough (by omega)]
    show (optionPipeline new fns (free - 1) x >>= _) = _
    rw [ih]
    by_cases h1 : free < fns.length + 1 + 1 + new
    · rw [if_pos h1, if_pos (by omega), raise_bind']
    rw [if_neg h1, if_neg (by omega), pipelineCalls_append, railwayOption_append]
    congr 1
    funext r
    rw [frames_enough (by omega), show free - 1 - 1 = free - 2 by omega]

/-! ## effect blocks -/

theorem binder_eq (needs : Needs) (b : Builder α ε) {g : Nat → Gen σ α ε S} {m : Nat} (hg : GetsAlong m g) {free : Nat}
    (h : m + needs.new + 3 ≤ free) : binder needs b g free = b.send (g m) := by
  funext v
  unfold binder send
  rw [frames_enough (by omega), frames_enough (by omega), hg _ (by omega)]
  simp only [bind_assoc]
  conv => rhs; rw [← bind_pure (b.send (g m) v)]
  congr 1
  funext r
  rw [frames_enough (by omega), pure_bind, frames_enough (by omega)]

theorem within_eq (needs : Needs) (b : Builder α ε) {free : Nat} (h1 : needs.bind ≤ free) (h2 : needs.combine ≤ free) :
    within needs b free = b := by
  unfold within
  have e1 : (fun {w : Type} xs (fn : Obj α → PyD w (Eff α ε)) => frames needs.bind (fun _ => b.bind xs fn) free) = @b.bind := by
    funext w xs fn
    rw [frames_enough h1]
  have e2 : (fun xs ys => if free < needs.combine then Except.error PyErr.recursionError else b.combine xs ys) = b.combine := by
    funext xs ys
    rw [if_neg (by omega)]
  rw [e1, e2]

theorem call_eq (needs : Needs) (b : Builder α ε) {g : Nat → Gen σ α ε S} {m : Nat} (hg : GetsAlong m g) {free : Nat}
    (h : m + needs.new + needs.bind + needs.combine + 4 ≤ free) : call needs b (g m).start g free = b.call (g m) := by
  unfold call
  rw [frames_enough (by omega)]
  unfold Builder.call drive Builder.drive
  rw [frames_enough (by omega), binder_eq needs b hg (by omega), binder_eq needs b hg (by omega), within_eq needs b (by omega) (by omega)]
  rfl

theorem folderGen_getsAlong {fn : FrameFn σ α (Res (Obj β) ε)} {m : Nat} (hfn : GetsAlong m fn) (head : α) (tail : Res (Block (Obj β)) ε) {free : Nat}
    (h : m + 3 ≤ free) : folderGen fn head tail free = fromBody (Traverse.folderBody (fn m) head tail) .start := by
  unfold folderGen fromBody
  congr 1
  funext s v
  rw [frames_enough (by omega), frames_enough (by omega), pure_bind, hfn _ (by omega)]

theorem folder_eq (needs : Needs) {fn : FrameFn σ α (Res (Obj β) ε)} {m : Nat} (hfn : GetsAlong m fn) {free : Nat}
    (h : m + needs.new + needs.bind + needs.combine + 7 ≤ free) : folder needs fn free = Traverse.folder (fn m) := by
  funext head tail
  unfold folder Traverse.folder
  have hg : GetsAlong (m + 3) (folderGen fn head tail) := fun k hk => by
    rw [folderGen_getsAlong hfn head tail hk, folderGen_getsAlong hfn head tail (Nat.le_refl _)]
  have e := call_eq needs resultBuilder hg (free := free) (by omega)
  rw [folderGen_getsAlong hfn head tail (Nat.le_refl _)] at e
  rw [show call needs resultBuilder (.start .start) (folderGen fn head tail) free = _ from e]

theorem traverse_eq (needs : Needs) {fn : FrameFn σ α (Res (Obj β) ε)} {m : Nat} (hfn : GetsAlong m fn) (lst : Block α) {free : Nat}
    (h : m + needs.new + needs.bind + needs.combine + 13 ≤ free) : traverse needs fn lst free = Traverse.traverse (fn m) lst := by
  unfold traverse Traverse.traverse
  rw [frames_enough (by omega), folder_eq needs hfn (by omega)]

end Expression.Lemmas.CallStack
