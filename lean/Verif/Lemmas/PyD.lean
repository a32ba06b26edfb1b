import Verif.Model.PyD

/-!
# Reasoning about computations that may not end

`p ⊑ q` (`Refines p q`): whatever `p` returns or raises, `q` does too, with the same effects.
-/

namespace Expression

namespace PyD

variable {σ α β γ : Type}

@[simp] theorem exec_pure (a : α) (w : σ) : exec (pure a : PyD σ α) w = some (.ok a, w) := rfl
@[simp] theorem exec_raise (e : PyErr) (w : σ) : exec (raise e : PyD σ α) w = some (.error e, w) := rfl
@[simp] theorem exec_ofPy (p : Py σ α) (w : σ) : exec (ofPy p) w = some (p.exec w) := rfl
@[simp] theorem raise_bind (e : PyErr) (f : α → PyD σ β) : ((raise e : PyD σ α) >>= f) = raise e := rfl

theorem exec_bind (p : PyD σ α) (f : α → PyD σ β) (w : σ) :
    exec (p >>= f) w = match exec p w with
      | none => none
      | some (.error e, w') => some (.error e, w')
      | some (.ok a, w') => exec (f a) w' := by
  change ((ExceptT.run (p >>= f)).run w) = _
  simp only [ExceptT.run_bind, StateT.run_bind, exec]
  change (p w >>= _) = _
  rcases h : p w with _ | ⟨_ | _, _⟩ <;> rfl

theorem ext {p q : PyD σ α} (h : ∀ w, exec p w = exec q w) : p = q := funext h

/-- `p` agrees with `q` where it ends -/
def Refines (p q : PyD σ α) : Prop := ∀ w r, p.exec w = some r → q.exec w = some r

theorem Refines.refl (p : PyD σ α) : Refines p p := fun _ _ h => h

theorem Refines.of_eq {p q : PyD σ α} (h : p = q) : Refines p q := h ▸ Refines.refl p

theorem Refines.trans {p q r : PyD σ α} (h1 : Refines p q) (h2 : Refines q r) : Refines p r :=
  fun w x h => h2 w x (h1 w x h)

theorem Refines.antisymm {p q : PyD σ α} (h1 : Refines p q) (h2 : Refines q p) : p = q := by
  apply ext
  intro w
  cases hp : p.exec w with
  | some r => rw [h1 w r hp]
  | none =>
    cases hq : q.exec w with
    | none => rfl
    | some r => rw [h2 w r hq] at hp; cases hp

theorem Refines.bind {p p' : PyD σ α} {f f' : α → PyD σ β} (h1 : Refines p p') (h2 : ∀ a, Refines (f a) (f' a)) :
    Refines (p >>= f) (p' >>= f') := by
  intro w r h
  rw [exec_bind] at h ⊢
  rcases hp : p.exec w with _ | ⟨_ | a, w'⟩ <;> rw [hp] at h <;> simp only at h
  · cases h
  · rw [h1 w _ hp]; exact h
  · rw [h1 w _ hp]; exact h2 a w' r h

theorem Refines.bind_right {p : PyD σ α} {f f' : α → PyD σ β} (h2 : ∀ a, Refines (f a) (f' a)) :
    Refines (p >>= f) (p >>= f') := Refines.bind (Refines.refl p) h2

open Lean.Order in
theorem admissible_post1 {A γ : Type} (P : A → σ → Except PyErr γ × σ → Prop) :
    admissible (fun (f : A → PyD σ γ) => ∀ a w r, (f a).exec w = some r → P a w r) := by
  refine admissible_pi_apply (fun a (g : PyD σ γ) => ∀ w r, (g).exec w = some r → P a w r) ?_
  intro a
  refine admissible_pi_apply (fun w (g : Option (Except PyErr γ × σ)) => ∀ r, g = some r → P a w r) ?_
  intro w
  exact admissible_flatOrder _ (fun r h => by cases h)

open Lean.Order in
theorem admissible_post2 {A B γ : Type} (P : A → B → σ → Except PyErr γ × σ → Prop) :
    admissible (fun (f : A → B → PyD σ γ) => ∀ a b w r, (f a b).exec w = some r → P a b w r) := by
  refine admissible_pi_apply (fun a (g : B → PyD σ γ) => ∀ b w r, (g b).exec w = some r → P a b w r) ?_
  exact fun a => admissible_post1 (P a)

open Lean.Order in
theorem admissible_post3 {A B C γ : Type} (P : A → B → C → σ → Except PyErr γ × σ → Prop) :
    admissible (fun (f : A → B → C → PyD σ γ) => ∀ a b c w r, (f a b c).exec w = some r → P a b c w r) := by
  refine admissible_pi_apply (fun a (g : B → C → PyD σ γ) => ∀ b c w r, (g b c).exec w = some r → P a b c w r) ?_
  exact fun a => admissible_post2 (P a)

open Lean.Order in
theorem admissible_refines1 {A γ : Type} (g : A → PyD σ γ) :
    admissible (fun (f : A → PyD σ γ) => ∀ a, Refines (f a) (g a)) :=
  admissible_post1 (fun a w r => (g a).exec w = some r)

open Lean.Order in
theorem admissible_refines2 {A B γ : Type} (g : A → B → PyD σ γ) :
    admissible (fun (f : A → B → PyD σ γ) => ∀ a b, Refines (f a b) (g a b)) :=
  admissible_post2 (fun a b w r => (g a b).exec w = some r)

open Lean.Order in
theorem admissible_refines3 {A B C γ : Type} (g : A → B → C → PyD σ γ) :
    admissible (fun (f : A → B → C → PyD σ γ) => ∀ a b c, Refines (f a b c) (g a b c)) :=
  admissible_post3 (fun a b c w r => (g a b c).exec w = some r)

/-- what remains to do after an outcome -/
def andThen {γ δ : Type} (k : γ → PyD σ δ) : Except PyErr γ × σ → Option (Except PyErr δ × σ)
  | (.error e, w') => some (.error e, w')
  | (.ok x, w') => (k x).exec w'

theorem exec_bind' {γ δ : Type} (p : PyD σ γ) (k : γ → PyD σ δ) (w : σ) :
    exec (p >>= k) w = (exec p w).bind (andThen k) := by
  rw [exec_bind]
  rcases p.exec w with _ | ⟨_ | _, _⟩ <;> rfl

open Lean.Order in
/-- the same, when the approximated function is used in front of a continuation -/
theorem admissible_bind_refines {A γ δ I : Type} (idx : I → A) (k : I → γ → PyD σ δ) (g : I → PyD σ δ) :
    admissible (fun (f : A → PyD σ γ) => ∀ i, Refines (f (idx i) >>= k i) (g i)) := by
  have h : (fun (f : A → PyD σ γ) => ∀ i, Refines (f (idx i) >>= k i) (g i)) =
      (fun f => ∀ a w r, (f a).exec w = some r → ∀ i, idx i = a → ∀ r', andThen (k i) r = some r' →
        (g i).exec w = some r') := by
    funext f
    apply propext
    constructor
    · rintro h a w r hr i rfl r' hr'
      apply h i w r'
      rw [exec_bind', hr]
      exact hr'
    · intro h i w r hr
      rw [exec_bind'] at hr
      rcases hf : (f (idx i)).exec w with _ | x <;> rw [hf] at hr
      · cases hr
      · exact h _ w _ hf i rfl r hr
  rw [h]
  exact admissible_post1 (fun a w r => ∀ i, idx i = a → ∀ r', andThen (k i) r = some r' → (g i).exec w = some r')

open Lean.Order in
theorem admissible_bind_refines2 {A B γ δ I : Type} (a : I → A) (b : I → B) (k : I → γ → PyD σ δ) (g : I → PyD σ δ) :
    admissible (fun (f : A → B → PyD σ γ) => ∀ i, Refines (f (a i) (b i) >>= k i) (g i)) := by
  have h : (fun (f : A → B → PyD σ γ) => ∀ i, Refines (f (a i) (b i) >>= k i) (g i)) =
      (fun f => ∀ x y w r, (f x y).exec w = some r → ∀ i, a i = x → b i = y → ∀ r', andThen (k i) r = some r' →
        (g i).exec w = some r') := by
    funext f
    apply propext
    constructor
    · rintro h x y w r hr i rfl rfl r' hr'
      apply h i w r'
      rw [exec_bind', hr]
      exact hr'
    · intro h i w r hr
      rw [exec_bind'] at hr
      rcases hf : (f (a i) (b i)).exec w with _ | x <;> rw [hf] at hr
      · cases hr
      · exact h _ _ w _ hf i rfl rfl r hr
  rw [h]
  exact admissible_post2 (fun x y w r => ∀ i, a i = x → b i = y → ∀ r', andThen (k i) r = some r' →
        (g i).exec w = some r')

end PyD

namespace Iterable

open PyD

variable {σ α S C : Type}

/-- after the body: leave the loop or go on with `F` -/
def cont (F : S → C → PyD σ C) (s' : S) : Flow C → PyD σ C
  | .stop c' => pure c'
  | .next c' => F s' c'

/-- after `next`: the loop ends or the body is run -/
def step (body : C → α → PyD σ (Flow C)) (F : S → C → PyD σ C) (c : C) : Option (α × S) → PyD σ C
  | none => pure c
  | some (x, s') => body c x >>= cont F s'

@[simp] theorem cont_stop (F : S → C → PyD σ C) (s' : S) (c' : C) : cont F s' (.stop c') = pure c' := rfl
@[simp] theorem cont_next (F : S → C → PyD σ C) (s' : S) (c' : C) : cont F s' (.next c') = F s' c' := rfl
@[simp] theorem step_none (body : C → α → PyD σ (Flow C)) (F : S → C → PyD σ C) (c : C) :
    step body F c none = pure c := rfl
@[simp] theorem step_some (body : C → α → PyD σ (Flow C)) (F : S → C → PyD σ C) (c : C) (x : α) (s' : S) :
    step body F c (some (x, s')) = body c x >>= cont F s' := rfl

theorem step_eq (p : PyD σ (Option (α × S))) (body : C → α → PyD σ (Flow C)) (F : S → C → PyD σ C) (c : C) :
    (do match ← p with
        | none => pure c
        | some (x, s') =>
          match ← body c x with
          | .stop c' => pure c'
          | .next c' => F s' c') = p >>= step body F c := by
  refine bind_congr fun o => ?_
  rcases o with _ | ⟨x, s'⟩
  · rfl
  · refine bind_congr fun fl => ?_
    cases fl <;> rfl

theorem loop_eq (it : Iterable σ α S) (body : C → α → PyD σ (Flow C)) (s : S) (c : C) :
    it.loop body s c = it.next s >>= step body (it.loop body) c :=
  (loop.eq_1 it body s c).trans (step_eq _ _ _ _)

/-- to bound a `for` loop from above: show the one-step unfolding is respected -/
theorem loop_le (it : Iterable σ α S) (body : C → α → PyD σ (Flow C)) (g : S → C → PyD σ C)
    (h : ∀ F : S → C → PyD σ C, (∀ s c, Refines (F s c) (g s c)) → ∀ s c, Refines (it.next s >>= step body F c) (g s c))
    (s : S) (c : C) : Refines (it.loop body s c) (g s c) :=
  loop.fixpoint_induct it body _ (admissible_refines2 g)
    (fun F hF s c => (Refines.of_eq (step_eq _ _ _ _)).trans (h F hF s c)) s c

/-- what holds of every way a loop can end -/
theorem loop_post (it : Iterable σ α S) (body : C → α → PyD σ (Flow C)) (P : S → C → σ → Except PyErr C × σ → Prop)
    (h : ∀ F : S → C → PyD σ C, (∀ s c w r, (F s c).exec w = some r → P s c w r) → ∀ s c w r,
      PyD.exec (it.next s >>= step body F c) w = some r → P s c w r) (s : S) (c : C) (w : σ) (r : Except PyErr C × σ)
    (hr : (it.loop body s c).exec w = some r) : P s c w r :=
  loop.fixpoint_induct it body _ (admissible_post2 P)
    (fun F hF s c w r hr => h F hF s c w r (by rw [← step_eq]; exact hr)) s c w r hr

/-- the same as `loop_le` when only part of the loop variables is looked at afterwards -/
theorem loop_map_le {D : Type} (π : C → D) (it : Iterable σ α S) (body : C → α → PyD σ (Flow C)) (g : S → C → PyD σ D)
    (h : ∀ F : S → C → PyD σ C, (∀ s c, Refines (π <$> F s c) (g s c)) → ∀ s c,
      Refines (π <$> (it.next s >>= step body F c)) (g s c)) (s : S) (c : C) :
    Refines (π <$> it.loop body s c) (g s c) := by
  have e : ∀ (p : PyD σ C) (q : PyD σ D), Refines (π <$> p) q ↔
      ∀ w r, p.exec w = some r → q.exec w = some (r.1.map π, r.2) := by
    intro p q
    constructor
    · rintro h w ⟨e | x, w'⟩ hr <;> apply h <;> rw [map_eq_pure_bind, exec_bind, hr] <;> rfl
    · intro h w r hr
      rw [map_eq_pure_bind, exec_bind] at hr
      rcases hp : p.exec w with _ | ⟨e | x, w'⟩ <;> rw [hp] at hr <;> simp only at hr
      · cases hr
      · cases hr; exact h w _ hp
      · cases hr; exact h w _ hp
  rw [e]
  refine loop_post it body (fun s c w r => (g s c).exec w = some (r.1.map π, r.2)) ?_ s c
  intro F hF s c w r hr
  exact (e _ _).1 (h F (fun s c => (e _ _).2 (hF s c)) s c) w r hr

/-- the same as `loop_le` for a loop followed by something else, for selected initial values of the loop variables -/
theorem loop_bind_le {D I : Type} (it : Iterable σ α S) (body : C → α → PyD σ (Flow C)) (a : I → S) (b : I → C)
    (k : I → C → PyD σ D) (g : I → PyD σ D)
    (h : ∀ F : S → C → PyD σ C, (∀ i, Refines (F (a i) (b i) >>= k i) (g i)) → ∀ i,
      Refines (it.next (a i) >>= step body F (b i) >>= k i) (g i)) (i : I) :
    Refines (it.loop body (a i) (b i) >>= k i) (g i) :=
  loop.fixpoint_induct it body _ (admissible_bind_refines2 a b k g)
    (fun F hF i => (Refines.of_eq (congrArg (· >>= k i) (step_eq _ body F (b i)))).trans (h F hF i)) i

theorem loop_ofList_nil (base : List α) (body : C → α → PyD σ (Flow C)) (c : C) :
    (ofList base : Iterable σ α _).loop body [] c = pure c :=
  (loop.eq_1 (ofList base) body [] c).trans rfl

theorem loop_ofList_cons (base : List α) (body : C → α → PyD σ (Flow C)) (x : α) (rest : List α) (c : C) :
    (ofList base : Iterable σ α _).loop body (x :: rest) c =
      body c x >>= cont ((ofList base : Iterable σ α _).loop body) rest :=
  (loop_eq (ofList base) body (x :: rest) c).trans rfl

end Iterable

end Expression
