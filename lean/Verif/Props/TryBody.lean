import Verif.Lemmas.TryBody
import Verif.Props.Builder

/-!
# C124, C125: `try` and `with` statements in the bodies of builders
-/

namespace Expression.Props

open Spec Lemmas PyD Lemmas.TryBody

variable {σ α ε T : Type}

/-! ## C124 -/

private theorem any_resume (step : T → PyD σ (BlockStmt σ α ε T)) (t : T) (f : List (Obj α) × End α ε → PyD σ (Eff α ε)) (b : Bool) :
    (do let r ← echo (tryBody b step t); f r) = (do
      let r ← block b step t []
      match ended b r.2 with
      | .ok e => f (r.1, e)
      | .error e => PyD.raise e) := by
  rw [echo_tryBody, bind_assoc]
  refine bind_congr fun r => ?_
  rw [final]
  cases ended b r.2 <;> rfl

/-- Synchronous bodies: the block is run with its `try` and `with` statements, and the way in which it was left decides. -/
theorem C124_block (step : T → PyD σ (BlockStmt σ α ε T)) (t : T) :
    optionBuilder.call (tryBody false step t) = (do
      let r ← block false step t []
      match ended false r.2 with
      | .ok (.returned .none) => pure (.opt r.1.getLast?)
      | .ok (.returned v) => pure (.opt (some v))
      | .ok (.effect m) => pure m
      | .error e => PyD.raise e) ∧
    resultBuilder.call (tryBody false step t) = (do
      let r ← block false step t []
      match ended false r.2 with
      | .ok (.returned .none) => pure (.res (.ok (r.1.getLast?.getD .none)))
      | .ok (.returned v) => pure (.res (.ok v))
      | .ok (.effect m) => pure m
      | .error e => PyD.raise e) := by
  refine ⟨?_, ?_⟩
  · rw [C33_any_body]
    refine Eq.trans (any_resume step t _ false) (bind_congr fun r => ?_)
    rcases ended false r.2 with e | (_ | v) | m <;> rfl
  · rw [C34_any_body]
    refine Eq.trans (any_resume step t _ false) (bind_congr fun r => ?_)
    rcases ended false r.2 with e | (_ | v) | m <;> rfl

private theorem async_returns (step : T → PyD σ (BlockStmt σ α ε T)) (t : T) (s : TryPos σ α ε T) (v : Obj α) (w : σ) (x : Obj α) (w' : σ)
    (h : ((tryBody true step t).resume s v).exec w = some (.ok (.returned x), w')) : x = .none := by
  have key : ∀ t st, (runBody true step t st).exec w = some (.ok (.returned x), w') → x = .none := by
    intro t st h
    rcases segment true step t st w _ h with ⟨_, _, _, h1, _⟩ | ⟨x', h1, _⟩
    · cases h1
    · cases x' <;> cases h1 <;> rfl
  cases s with
  | start t => exact key _ _ h
  | at_ rest st => exact key _ _ h

/-- Asynchronous bodies, with `await` in place of `yield from`: the last value yielded, or the option or result without a value that was awaited. -/
theorem C124_async (step : T → PyD σ (BlockStmt σ α ε T)) (t : T) :
    asyncOptionBuilder.asyncCall (tryBody true step t) = (do
      let r ← block true step t []
      match ended true r.2 with
      | .ok (.returned _) => pure (.opt r.1.getLast?)
      | .ok (.effect m) => pure m
      | .error e => PyD.raise e) ∧
    asyncResultBuilder.asyncCall (tryBody true step t) = (do
      let r ← block true step t []
      match ended true r.2 with
      | .ok (.returned _) => pure (.res (.ok (r.1.getLast?.getD .none)))
      | .ok (.effect m) => pure m
      | .error e => PyD.raise e) := by
  have h := C36_any_body (tryBody true step t) (async_returns step t)
  refine ⟨?_, ?_⟩
  · rw [h.1]
    refine Eq.trans (any_resume step t _ true) (bind_congr fun r => ?_)
    rcases ended true r.2 with e | v | m <;> rfl
  · rw [h.2]
    refine Eq.trans (any_resume step t _ true) (bind_congr fun r => ?_)
    rcases ended true r.2 with e | v | m <;> rfl

private theorem nested_of {log : σ → List Mark} {step : T → PyD σ (BlockStmt σ α ε T)} (hl : Logs log step) (b : Bool) (t : T)
    {f : List (Obj α) × Way α ε → PyD σ (Eff α ε)} (hf : ∀ r w x w', (f r).exec w = some (x, w') → w' = w) {w w' : σ} {x : Except PyErr (Eff α ε)}
    (h : exec (block b step t [] >>= f) w = some (x, w')) : ∃ l, Nested l ∧ log w' = log w ++ l := by
  rw [exec_bind] at h
  rcases hb : (block b step t []).exec w with _ | ⟨e | r, w1⟩
  · rw [hb] at h; cases h
  · exact absurd hb (block_ok b step t [] w w1 e)
  · rw [hb] at h
    obtain ⟨_, l, _, hn, hlog⟩ := block_nested b step hl t [] w _ hb
    have := hf _ _ _ _ h
    exact ⟨l, hn, by rw [this]; exact hlog⟩

/-- However the block is left - at its end, by `return`, by `Nothing` or an `Error`, by an exception of the body or of another `__exit__` - when the call
returns or raises, every manager that was entered has been left exactly once, innermost first.  Synchronous bodies. -/
theorem C124_cleanup (log : σ → List Mark) (step : T → PyD σ (BlockStmt σ α ε T)) (hl : Logs log step) (t : T) (w w' : σ) (x : Except PyErr (Eff α ε)) :
    ((optionBuilder.call (tryBody false step t)).exec w = some (x, w') → ∃ l, Nested l ∧ log w' = log w ++ l) ∧
    ((resultBuilder.call (tryBody false step t)).exec w = some (x, w') → ∃ l, Nested l ∧ log w' = log w ++ l) ∧
    ((seqBuilder.call (tryBody false step t)).exec w = some (x, w') → ∃ l, Nested l ∧ log w' = log w ++ l) := by
  refine ⟨?_, ?_, ?_⟩
  · rw [(C124_block step t).1]
    refine nested_of hl false t ?_
    intro r w x w' h
    rcases he : ended false r.2 with e | (_ | v) | m <;> simp only [he] at h <;> cases h <;> rfl
  · rw [(C124_block step t).2]
    refine nested_of hl false t ?_
    intro r w x w' h
    rcases he : ended false r.2 with e | (_ | v) | m <;> simp only [he] at h <;> cases h <;> rfl
  · rw [C35_any_body]
    intro h
    rw [show (echo (tryBody false step t) >>= _) = _ from any_resume step t _ false] at h
    refine nested_of hl false t ?_ h
    intro r w x w' h
    rcases he : ended false r.2 with e | (_ | v) | m
    · simp only [he] at h; cases h; rfl
    · simp only [he] at h; cases h; rfl
    · simp only [he] at h; cases h; rfl
    · simp only [he] at h
      split at h
      · cases h; rfl
      · split at h <;> cases h <;> rfl

/-- the same for asynchronous bodies, with `async with` -/
theorem C124_cleanup_async (log : σ → List Mark) (step : T → PyD σ (BlockStmt σ α ε T)) (hl : Logs log step) (t : T) (w w' : σ) (x : Except PyErr (Eff α ε)) :
    ((asyncOptionBuilder.asyncCall (tryBody true step t)).exec w = some (x, w') → ∃ l, Nested l ∧ log w' = log w ++ l) ∧
    ((asyncResultBuilder.asyncCall (tryBody true step t)).exec w = some (x, w') → ∃ l, Nested l ∧ log w' = log w ++ l) := by
  refine ⟨?_, ?_⟩
  · rw [(C124_async step t).1]
    refine nested_of hl true t ?_
    intro r w x w' h
    rcases he : ended true r.2 with e | v | m <;> simp only [he] at h <;> cases h <;> rfl
  · rw [(C124_async step t).2]
    refine nested_of hl true t ?_
    intro r w x w' h
    rcases he : ended true r.2 with e | v | m <;> simp only [he] at h <;> cases h <;> rfl

/-- every entry has one exit -/
theorem C124_exactly_once (l : List Mark) (h : Nested l) (r : Nat) :
    (l.filter fun | .entered k => k = r | .exited _ => false).length = (l.filter fun | .exited k => k = r | .entered _ => false).length := by
  induction h with
  | nil => rfl
  | @pair k b c _ _ ih1 ih2 =>
    simp only [List.filter_cons, List.filter_append] at ih1 ih2 ⊢
    by_cases hk : k = r
    · simp [hk, ih1, ih2]; omega
    · simp [hk, ih1, ih2]

/-- A manager that writes to the log, as a disposable whose action is logged does. -/
def manager (r : Nat) : PyD (List Mark) Unit × PyD (List Mark) Unit :=
  (fun w => some (.ok (), w ++ [.entered r]), fun w => some (.ok (), w ++ [.exited r]))

/-- `with a: with b: x = yield from source; return x` -/
def twoManagers (source : Option (Obj Nat)) : Nat ⊕ Obj Nat → PyD (List Mark) (BlockStmt (List Mark) Nat Empty (Nat ⊕ Obj Nat))
  | .inl 0 => pure (.with_ (manager 0).1 (.inl 1) (manager 0).2 (.inl 3))
  | .inl 1 => pure (.with_ (manager 1).1 (.inl 2) (manager 1).2 (.inl 3))
  | .inl 2 => pure (.fromOpt source .inr)
  | .inl _ => pure (.leave .done)
  | .inr v => pure (.leave (.returned v))

example (source : Option (Obj Nat)) : Logs id (twoManagers source) := by
  refine ⟨?_, ?_⟩
  · rintro ((_ | _ | _ | n) | v) w r w' h <;> cases h <;> rfl
  · rintro ((_ | _ | _ | n) | v) w enter inner exit rest w' h <;> cases h
    · exact ⟨0, (by intro _ _ h; cases h; rfl), (by intro _ _ _ h; cases h), (by intro _ _ _ h; cases h; rfl)⟩
    · exact ⟨1, (by intro _ _ h; cases h; rfl), (by intro _ _ _ h; cases h), (by intro _ _ _ h; cases h; rfl)⟩

/-- the short circuit leaves both managers before the call returns `Nothing` -/
example : exec (optionBuilder.call (tryBody false (twoManagers none) (.inl 0))) [] =
    some (.ok (.opt none), [.entered 0, .entered 1, .exited 1, .exited 0]) := by
  rw [(C124_block _ _).1]
  rw [block_with _ _ _ _ _ _ _ _ rfl, block_with _ _ _ _ _ _ _ _ rfl, block_none _ _ _ _ _ rfl]
  rfl

/-! ## C125 -/

/-- The full property: an option or result without a value ends the block, whatever `try` statements are around it; `optionBuilder` stands for all. -/
def C125_full_statement : Prop :=
  ∀ (step : Nat → PyD Unit (BlockStmt Unit Nat Empty Nat)) (t : Nat),
    optionBuilder.call (tryBody false step t) = (do
      let r ← strictBlock false step t []
      match ended false r.2 with
      | .ok (.returned .none) => pure (.opt r.1.getLast?)
      | .ok (.returned v) => pure (.opt (some v))
      | .ok (.effect m) => pure m
      | .error e => PyD.raise e)

/-- `try: x = yield from Nothing` `except Exception: return 5` -/
def swallows : Nat → PyD Unit (BlockStmt Unit Nat Empty Nat)
  | 0 => pure (.try_ 1 fun _ => 2)
  | 1 => pure (.fromOpt none fun _ => 2)
  | _ => pure (.leave (.returned (.val 5)))

/-- It is false: `EffectError` is an `Exception`, so that `except Exception` catches it, and the block goes on. -/
theorem C125_full_statement_false : ¬ C125_full_statement := by
  intro h
  have h1 := h swallows 0
  rw [(C124_block _ _).1, block_try _ _ _ _ _ _ rfl, block_none _ _ _ _ _ rfl, strict_try _ _ _ _ _ _ rfl, strict_none _ _ _ _ _ rfl] at h1
  have h2 := congrArg (fun p => exec p ()) h1
  have e : block false swallows 2 [] = pure ([], .returned (.val 5)) := block_leave _ _ _ _ _ rfl
  simp only [pure_bind, e] at h2
  cases h2

/-- Proved: for bodies whose `try` statements let `EffectError` pass. -/
theorem C125_ends_partial (step : T → PyD σ (BlockStmt σ α ε T)) (hp : PassesOn step) (t : T) :
    optionBuilder.call (tryBody false step t) = (do
      let r ← strictBlock false step t []
      match ended false r.2 with
      | .ok (.returned .none) => pure (.opt r.1.getLast?)
      | .ok (.returned v) => pure (.opt (some v))
      | .ok (.effect m) => pure m
      | .error e => PyD.raise e) ∧
    resultBuilder.call (tryBody false step t) = (do
      let r ← strictBlock false step t []
      match ended false r.2 with
      | .ok (.returned .none) => pure (.res (.ok (r.1.getLast?.getD .none)))
      | .ok (.returned v) => pure (.res (.ok v))
      | .ok (.effect m) => pure m
      | .error e => PyD.raise e) ∧
    asyncOptionBuilder.asyncCall (tryBody true step t) = (do
      let r ← strictBlock true step t []
      match ended true r.2 with
      | .ok (.returned _) => pure (.opt r.1.getLast?)
      | .ok (.effect m) => pure m
      | .error e => PyD.raise e) ∧
    asyncResultBuilder.asyncCall (tryBody true step t) = (do
      let r ← strictBlock true step t []
      match ended true r.2 with
      | .ok (.returned _) => pure (.res (.ok (r.1.getLast?.getD .none)))
      | .ok (.effect m) => pure m
      | .error e => PyD.raise e) := by
  rw [← block_strict false step hp, ← block_strict true step hp]
  exact ⟨(C124_block step t).1, (C124_block step t).2, (C124_async step t).1, (C124_async step t).2⟩

/-- the body with two managers has no `try` statement -/
example (source : Option (Obj Nat)) : PassesOn (twoManagers source) := by
  rintro ((_ | _ | _ | n) | v) w inner after w' h <;> cases h

/-- a body that tries, and passes `EffectError` on: `try: x = yield from source; return x` `except ValueError: return 0` -/
def handles (source : Option (Obj Nat)) : Option (Way Nat Empty) ⊕ Obj Nat → PyD Unit (BlockStmt Unit Nat Empty (Option (Way Nat Empty) ⊕ Obj Nat))
  | .inl none => pure (.try_ (.inr .none) fun x => .inl (some x))
  | .inr .none => pure (.fromOpt source .inr)
  | .inr (.val v) => pure (.leave (.returned (.val v)))
  | .inl (some (.raised (.valueError _))) => pure (.leave (.returned (.val 0)))
  | .inl (some x) => pure (.leave x)

example (source : Option (Obj Nat)) : PassesOn (handles source) := by
  rintro ((_ | x) | (_ | v)) w inner after w' h
  · cases h; intro m; rfl
  · rcases x with _ | _ | _ | e <;> try cases h
    cases e <;> cases h
  · cases h
  · cases h

end Expression.Props
