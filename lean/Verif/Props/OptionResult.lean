import Verif.Model.Option
import Verif.Lemmas.PyD

/-!
# C26-C29: options and results

Equations between computations: both sides return or raise the same, with the same effects in the same order, or both do not
return.
-/

namespace Expression.Props

variable {σ α β γ δ ε ζ : Type}

/-! ## C26 Option -/

/-- `Some` is a left unit, a right unit, and `bind` is associative. -/
theorem C26_monad_laws (x : α) (o : Option α) (f : α → PyD σ (Option β)) (g : β → PyD σ (Option γ)) :
    Opt.bind (some x) f = f x ∧
    Opt.bind o (fun a => (pure (some a) : PyD σ (Option α))) = pure o ∧
    (do let b ← Opt.bind o f; Opt.bind b g) = Opt.bind o (fun a => do let b ← f a; Opt.bind b g) := by
  refine ⟨rfl, ?_, ?_⟩
  · cases o <;> rfl
  · cases o <;> simp [Opt.bind]

/-- `map` keeps the identity and composition, and is `bind` followed by `Some`. -/
theorem C26_functor_laws (o : Option α) (f : α → PyD σ β) (g : β → PyD σ γ) :
    Opt.map (fun a => (pure a : PyD σ α)) o = pure o ∧
    (do let b ← Opt.map f o; Opt.map g b) = Opt.map (fun a => do let b ← f a; g b) o ∧
    Opt.map f o = Opt.bind o (fun a => do let b ← f a; pure (some b)) := by
  refine ⟨?_, ?_, ?_⟩ <;> cases o <;> simp [Opt.map, Opt.bind]

/-- `Nothing` absorbs: no callback is run. -/
theorem C26_nothing (f : α → PyD σ (Option β)) (g : α → PyD σ β) (p : α → PyD σ Bool) (h : α → β → PyD σ γ) (o : Option β)
    (o' : Option α) (k : Option (α → PyD σ β)) :
    Opt.bind none f = pure none ∧ Opt.map g none = pure none ∧ Opt.filter none p = pure none ∧
    Opt.map2 h none o = pure none ∧ Opt.map2 h o' none = pure none ∧ Opt.apply none k = pure none ∧
    Opt.apply o' (none : Option (α → PyD σ β)) = pure none := by
  refine ⟨rfl, rfl, rfl, rfl, ?_, ?_, rfl⟩
  · cases o' <;> rfl
  · cases k <;> rfl

/-- On `Some` the callback is run once, and what it returns or raises decides the outcome. -/
theorem C26_some (x : α) (y : β) (g : α → PyD σ β) (p : α → PyD σ Bool) (h : α → β → PyD σ γ) :
    Opt.map g (some x) = (do let b ← g x; pure (some b)) ∧
    Opt.filter (some x) p = (do let b ← p x; pure (if b then some x else none)) ∧
    Opt.map2 h (some x) (some y) = (do let c ← h x y; pure (some c)) ∧
    Opt.apply (some x) (some g) = (do let b ← g x; pure (some b)) := by
  refine ⟨rfl, ?_, rfl, rfl⟩
  refine bind_congr fun b => ?_
  cases b <;> rfl

/-- a callback with an effect that then raises -/
example : (do let b ← Opt.bind (some 3) (fun x => (do modify (· + x); PyD.raise (.user 1) : PyD Nat (Option Nat)))
              Opt.bind b (fun x => (do modify (· * 100); pure (some x) : PyD Nat (Option Nat)))).exec 5 =
    some (.error (.user 1), 8) := rfl

/-! ## C27 Result -/

/-- `Ok` is a left unit, a right unit, and `bind` is associative. -/
theorem C27_monad_laws (x : α) (r : Res α ε) (f : α → PyD σ (Res β ε)) (g : β → PyD σ (Res γ ε)) :
    Res.bind (.ok x) f = f x ∧
    Res.bind r (fun a => (pure (.ok a) : PyD σ (Res α ε))) = pure r ∧
    (do let b ← Res.bind r f; Res.bind b g) = Res.bind r (fun a => do let b ← f a; Res.bind b g) := by
  refine ⟨rfl, ?_, ?_⟩
  · cases r <;> rfl
  · cases r <;> simp [Res.bind]

theorem C27_functor_laws (r : Res α ε) (f : α → PyD σ β) (g : β → PyD σ γ) :
    Res.map (fun a => (pure a : PyD σ α)) r = pure r ∧
    (do let b ← Res.map f r; Res.map g b) = Res.map (fun a => do let b ← f a; g b) r ∧
    Res.map f r = Res.bind r (fun a => do let b ← f a; pure (.ok b)) := by
  refine ⟨?_, ?_, ?_⟩ <;> cases r <;> simp [Res.map, Res.bind]

/-- An `Error` passes through unchanged and no callback is run. -/
theorem C27_error (e d : ε) (f : α → PyD σ (Res β ε)) (g : α → PyD σ β) (p : α → PyD σ Bool) (k : α → PyD σ ε) :
    Res.bind (.error e) f = pure (.error e) ∧ Res.map g (.error e) = pure (.error e) ∧
    Res.filter (.error e) p d = pure (.error e) ∧ Res.filterWith (.error e) p k = pure (.error e) := ⟨rfl, rfl, rfl, rfl⟩

/-- On `Ok`, filters keep the value or replace it by the error. -/
theorem C27_filter (x : α) (d : ε) (p : α → PyD σ Bool) (k : α → PyD σ ε) :
    Res.filter (.ok x) p d = (do let b ← p x; pure (if b then .ok x else .error d)) ∧
    Res.filterWith (.ok x) p k =
      (do let b ← p x; if b then pure (.ok x) else (do let e ← k x; pure (.error e))) := by
  refine ⟨?_, rfl⟩
  refine bind_congr fun b => ?_
  cases b <;> rfl

/-- `map2` applies the function when both are `Ok` and else reports its own error first, then the other's; `apply` reports the
function's error first. -/
theorem C27_first_error (x : α) (y : β) (e e' : ε) (r : Res α ε) (r2 : Res β ε) (h : α → β → PyD σ γ) (g : α → PyD σ β) :
    Res.map2 (.ok x) (.ok y) h = (do let c ← h x y; pure (.ok c : Res γ ε)) ∧
    Res.map2 (.error e) r2 h = pure (.error e) ∧
    Res.map2 (.ok x) (.error e') h = pure (.error e') ∧
    Res.apply (.ok x) (.ok g) = (do let c ← g x; pure (.ok c : Res β ε)) ∧
    Res.apply r (.error e : Res (α → PyD σ β) ε) = pure (.error e) ∧
    Res.apply (.error e') (.ok g) = pure (.error e') := ⟨rfl, rfl, rfl, rfl, rfl, rfl⟩

/-- `swap` is an involution and exchanges `map` and `map_error`; `map_error` leaves `Ok` alone. -/
theorem C27_swap (r : Res α ε) (v : α) (f : ε → PyD σ ζ) :
    r.swap.swap = r ∧ (r.isOk = r.swap.isError) ∧
    Res.mapError f r = (do let s ← Res.map f r.swap; pure s.swap) ∧
    Res.mapError f (.ok v) = pure (.ok v) := by
  refine ⟨?_, ?_, ?_, rfl⟩
  · cases r <;> rfl
  · cases r <;> rfl
  · cases r with
    | ok v => simp [Res.mapError, Res.map, Res.swap]
    | error e => simp [Res.mapError, Res.map, Res.swap]

example : (Res.map2 (.error 1) (.error 2) (fun a b => (do modify (· + 1); pure (a + b) : PyD Nat Nat))).exec 0 =
    some (.ok (.error 1), 0) := rfl

/-! ## C28 conversions -/

/-- Option to Result and back is the identity; Result to Option and back is, up to the error. -/
theorem C28_option_result (o : Option α) (e : ε) (r : Res α ε) (v : α) :
    (Opt.toResult o e).toOption = o ∧
    Opt.toResult (Res.ok v : Res α ε).toOption e = .ok v ∧
    (∀ d, Opt.toResult r.toOption d = r ↔ r.isOk = true ∨ r = .error d) ∧
    (Opt.toResult o e).isOk = Opt.isSome o := by
  refine ⟨by cases o <;> rfl, rfl, ?_, by cases o <;> rfl⟩
  intro d
  cases r with
  | ok v => simp [Res.toOption, Opt.toResult, Res.isOk]
  | error e => simp [Res.toOption, Opt.toResult, Res.isOk, eq_comm]

/-- Reading an option: `to_list`, `is_some`, `is_none` and `value` tell it from every other one. -/
theorem C28_reading (v : α) :
    Opt.toList (some v) = [v] ∧ Opt.toList (none : Option α) = [] ∧
    Opt.isSome (some v) = true ∧ Opt.isSome (none : Option α) = false ∧
    Opt.isNone (some v) = false ∧ Opt.isNone (none : Option α) = true ∧
    (Opt.value (some v) : PyD σ α) = pure v ∧
    (Opt.value (none : Option α) : PyD σ α) = PyD.raise (.valueError "There is no value.") :=
  ⟨rfl, rfl, rfl, rfl, rfl, rfl, rfl, rfl⟩

/-- Reading a result: `is_ok`, `is_error`, `to_option`, `swap` and `merge`. -/
theorem C28_reading_result (v : α) (e : ε) (w : α) :
    (Res.ok v : Res α ε).isOk = true ∧ (Res.error e : Res α ε).isOk = false ∧
    (Res.ok v : Res α ε).isError = false ∧ (Res.error e : Res α ε).isError = true ∧
    (Res.ok v : Res α ε).toOption = some v ∧ (Res.error e : Res α ε).toOption = none ∧
    (Res.ok v : Res α ε).swap = .error v ∧ (Res.error e : Res α ε).swap = .ok e ∧
    (Res.merge (.ok v) : PyD σ α) = pure v ∧ (Res.merge (.error w) : PyD σ α) = pure w :=
  ⟨rfl, rfl, rfl, rfl, rfl, rfl, rfl, rfl, rfl, rfl⟩

/-- `of_optional` then `to_optional` is the identity on every object, `None` included. -/
theorem C28_optional_round_trip (v : Obj α) : Opt.toOptional (Opt.ofOptional v) = v := by cases v <;> rfl

/-- `to_optional` then `of_optional` gives the option back except for `Some(None)`, which becomes `Nothing`. -/
theorem C28_some_none_lost (o : Option (Obj α)) :
    (Opt.ofOptional (Opt.toOptional o) = o ↔ o ≠ some .none) ∧ Opt.ofOptional (Opt.toOptional (some (.none : Obj α))) = none := by
  refine ⟨?_, rfl⟩
  rcases o with _ | (_ | _) <;> simp [Opt.toOptional, Opt.ofOptional]

example : (Opt.toResult (some 3) "missing").toOption = some 3 ∧
    Opt.toResult (Res.error "bad" : Res Nat String).toOption "missing" = .error "missing" := ⟨rfl, rfl⟩

/-! ## C29 lazy defaults -/

/-- With a value present the fallback is not run, and the value is returned. -/
theorem C29_present (v d : α) (getter : PyD σ α) (alt : PyD σ (Option α)) (err : PyD σ ε) (o : Option α)
    (getter' : ε → PyD σ α) (alt' : ε → PyD σ (Res α ε)) (r : Res α ε) :
    Opt.defaultWith (some v) getter = pure v ∧ Opt.orElseWith (some v) alt = pure (some v) ∧
    Opt.toResultWith (some v) err = pure (.ok v) ∧ Opt.defaultValue (some v) d = v ∧ Opt.orElse (some v) o = some v ∧
    Res.defaultWith (.ok v) getter' = pure v ∧ Res.orElseWith (.ok v) alt' = pure (.ok v) ∧
    Res.defaultValue (.ok v : Res α ε) d = v ∧ Res.orElse (.ok v) r = .ok v :=
  ⟨rfl, rfl, rfl, rfl, rfl, rfl, rfl, rfl, rfl⟩

/-- With the value missing the fallback is run exactly once, and decides the outcome. -/
theorem C29_missing (d : α) (e : ε) (getter : PyD σ α) (alt : PyD σ (Option α)) (err : PyD σ ε) (o : Option α)
    (getter' : ε → PyD σ α) (alt' : ε → PyD σ (Res α ε)) (r : Res α ε) :
    Opt.defaultWith none getter = getter ∧ Opt.orElseWith none alt = alt ∧
    Opt.toResultWith (none : Option α) err = (do let e ← err; pure (.error e)) ∧ Opt.defaultValue none d = d ∧
    Opt.orElse none o = o ∧
    Res.defaultWith (.error e) getter' = getter' e ∧ Res.orElseWith (.error e) alt' = alt' e ∧
    Res.defaultValue (.error e) d = d ∧ Res.orElse (.error e) r = r :=
  ⟨rfl, rfl, rfl, rfl, rfl, rfl, rfl, rfl, rfl⟩

/-- `or_else` is associative with unit `Nothing`: a chain of alternatives is the first one present. -/
theorem C29_or_else_chain (a b c : Option α) (os : List (Option α)) :
    Opt.orElse (Opt.orElse a b) c = Opt.orElse a (Opt.orElse b c) ∧ Opt.orElse a none = a ∧
    os.foldl Opt.orElse none = (os.find? Opt.isSome).join := by
  refine ⟨by cases a <;> rfl, by cases a <;> rfl, ?_⟩
  have h : ∀ (os : List (Option α)) (v : α), os.foldl Opt.orElse (some v) = some v := by
    intro os
    induction os with
    | nil => intro v; rfl
    | cons o os ih => intro v; exact ih v
  induction os with
  | nil => rfl
  | cons o os ih =>
    cases o with
    | none => simpa [Opt.orElse, Opt.isSome] using ih
    | some v => simp only [List.foldl_cons, Opt.orElse, h]; rfl

example : (Opt.defaultWith none (do modify (· + 1); pure 7 : PyD Nat Nat)).exec 0 = some (.ok 7, 1) ∧
    (Opt.defaultWith (some 3) (do modify (· + 1); pure 7 : PyD Nat Nat)).exec 0 = some (.ok 3, 0) := ⟨rfl, rfl⟩

end Expression.Props
