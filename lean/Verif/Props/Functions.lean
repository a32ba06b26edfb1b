import Verif.Lemmas.Functions

/-! # C46-C48: compose and pipe, curry, tailrec -/

namespace Expression.Props

open Spec Lemmas PyD Functions

variable {σ α β γ : Type}

/-! ## C46 compose and pipe -/

/-- Composing nothing is the identity. -/
theorem C46_empty (x : α) : compose (σ := σ) [] x = pure x := rfl

/-- One function alone is itself. -/
theorem C46_singleton (f : α → PyD σ α) : compose [f] = f := by
  funext x
  change (f x >>= fun y => pure y) = f x
  rw [bind_pure]

/-- The first function is applied first, and the others to what it returns. -/
theorem C46_cons (f : α → PyD σ α) (fs : List (α → PyD σ α)) (x : α) : compose (f :: fs) x = (do let y ← f x; compose fs y) := rfl

/-- Composing a concatenation is composing the compositions. -/
theorem C46_append (fs gs : List (α → PyD σ α)) (x : α) : compose (fs ++ gs) x = compose [compose fs, compose gs] x := by
  rw [C46_cons, C46_singleton, compose, reduce_append]; rfl

/-- Composing any grouping is composing all the functions. -/
theorem C46_flatten (fss : List (List (α → PyD σ α))) : compose fss.flatten = compose (fss.map compose) := by
  funext x
  induction fss generalizing x with
  | nil => rfl
  | cons fs fss ih =>
    rw [List.flatten_cons, C46_append, C46_cons, C46_singleton, List.map_cons, C46_cons]
    exact bind_congr fun y => ih y

/-- `pipe(x, *fs)` is `compose(*fs)(x)`. -/
theorem C46_pipe (x : α) (fs : List (α → PyD σ α)) : pipe x fs = compose fs x := rfl

/-- Functions without effects: the value is the left fold of the applications. -/
theorem C46_pure (fs : List (α → α)) (x : α) : compose (σ := σ) (fs.map fun f x => pure (f x)) x = pure (fs.foldl (fun x f => f x) x) := by
  induction fs generalizing x with
  | nil => rfl
  | cons f fs ih => rw [List.map_cons, C46_cons, pure_bind, ih]; rfl

/-- When the chain returns, each function has been called exactly once, in order. -/
theorem C46_each_once (fs : List (Nat × (α → PyD σ α))) (x : α) (w : σ) (log : List Nat) (y : α) (w' : σ)
    (h : (compose (fs.map (·.2)) x).exec w = some (.ok y, w')) :
    (compose (fs.map fun nf => logged nf.1 nf.2) x).exec (w, log) = some (.ok y, (w', log ++ fs.map (·.1))) := by
  induction fs generalizing x w log with
  | nil => cases h; simp only [List.map_nil, List.append_nil]; rfl
  | cons nf fs ih =>
    rw [List.map_cons, C46_cons, exec_bind] at h ⊢
    rcases hf : (nf.2 x).exec w with _ | ⟨e | v, w1⟩ <;> rw [hf] at h
    · cases h
    · cases h
    · have hl : (logged nf.1 nf.2 x).exec (w, log) = some (.ok v, (w1, log ++ [nf.1])) := by
        change (match (nf.2 x).exec w with | none => none | some (r, w') => some (r, (w', log ++ [nf.1]))) = _
        rw [hf]
      rw [hl]
      have := ih v w1 (log ++ [nf.1]) h
      simp only [List.append_assoc, List.singleton_append] at this
      exact this

/-- The first exception stops the chain: it is raised by one of the functions, on the value of those before it, and the ones after it are not called. -/
theorem C46_first_exception (fs : List (Nat × (α → PyD σ α))) (x : α) (w : σ) (log : List Nat) (e : PyErr) (w' : σ)
    (h : (compose (fs.map (·.2)) x).exec w = some (.error e, w')) :
    ∃ pre f post v w1, fs = pre ++ f :: post ∧ (compose (pre.map (·.2)) x).exec w = some (.ok v, w1) ∧ (f.2 v).exec w1 = some (.error e, w') ∧
      (compose (fs.map fun nf => logged nf.1 nf.2) x).exec (w, log) = some (.error e, (w', log ++ pre.map (·.1) ++ [f.1])) := by
  induction fs generalizing x w log with
  | nil => cases h
  | cons nf fs ih =>
    have hl : ∀ r w1, (nf.2 x).exec w = some (r, w1) → (logged nf.1 nf.2 x).exec (w, log) = some (r, (w1, log ++ [nf.1])) := by
      intro r w1 hf
      change (match (nf.2 x).exec w with | none => none | some (r, w') => some (r, (w', log ++ [nf.1]))) = _
      rw [hf]
    rw [List.map_cons, C46_cons, exec_bind] at h
    rcases hf : (nf.2 x).exec w with _ | ⟨e' | v, w1⟩ <;> rw [hf] at h
    · cases h
    · cases h
      exact ⟨[], nf, fs, x, w, rfl, rfl, hf, by
        rw [List.map_cons, C46_cons, exec_bind, hl _ _ hf, List.map_nil, List.append_nil]⟩
    · obtain ⟨pre, f, post, v', w2, h1, h2, h3, h4⟩ := ih v w1 (log ++ [nf.1]) h
      refine ⟨nf :: pre, f, post, v', w2, by rw [h1]; rfl, ?_, h3, ?_⟩
      · rw [List.map_cons, C46_cons, exec_bind, hf]; exact h2
      · rw [List.map_cons, C46_cons, exec_bind, hl _ _ hf]
        simp only [List.append_assoc, List.map_cons, List.cons_append] at h4 ⊢
        exact h4

/-- `pipe2((a, b), f, *fs)` is `pipe(f(a)(b), *fs)`; `pipe3` likewise. -/
theorem C46_pipe2 (a b : α) (pair : α × α → γ) (f : α → PyD σ (α → PyD σ γ)) (fs : List (γ → PyD σ γ)) :
    pipe2 (a, b) pair (some f) fs = (do let g ← f a; let v ← g b; pipe v fs) := rfl

theorem C46_pipe3 (a b c : α) (triple : α × α × α → γ) (f : α → PyD σ (α → PyD σ (α → PyD σ γ))) (fs : List (γ → PyD σ γ)) :
    pipe3 (a, b, c) triple (some f) fs = (do let g ← f a; let h ← g b; let v ← h c; pipe v fs) := rfl

/-- Without functions, `pipe2` and `pipe3` give back the values they were given, and `starpipe` the tuple of its arguments. -/
theorem C46_no_functions (a b c : α) (pair : α × α → γ) (triple : α × α × α → γ) (unpack : α → PyD σ (List α)) (tuple : List α → α)
    (args : α) :
    pipe2 (σ := σ) (a, b) pair none [] = pure (pair (a, b)) ∧
    pipe3 (σ := σ) (a, b, c) triple none [] = pure (triple (a, b, c)) ∧
    starpipe unpack tuple args [] = (do let xs ← unpack args; pure (tuple xs)) := by
  refine ⟨rfl, rfl, ?_⟩
  simp only [starpipe, starcompose, reduce, List.drop_nil, bind_pure]

/-- `starpipe(args, f, *fs)` is `starcompose(f, *fs)(args)`. -/
theorem C46_starpipe (unpack : α → PyD σ (List α)) (tuple : List α → α) (args : α) (f : List α → PyD σ α) (fs : List (List α → PyD σ α)) :
    starpipe unpack tuple args (f :: fs) = starcompose unpack (f :: fs) args := by
  simp only [starpipe, starcompose, reduce, List.drop_succ_cons, List.drop_zero, bind_assoc]

/-- Star-composition is composition of the functions on the unpacked tuples. -/
theorem C46_starcompose (unpack : α → PyD σ (List α)) (fs : List (List α → PyD σ α)) (x : α) :
    starcompose unpack fs x = compose (fs.map fun f v => do f (← unpack v)) x := by
  induction fs generalizing x with
  | nil => rfl
  | cons f fs ih =>
    rw [List.map_cons, C46_cons, starcompose, reduce]
    exact bind_congr fun v => ih v

/-- `flip(f)(b, a)` is one call `f(a, b)`. -/
theorem C46_flip (fn : α → β → PyD σ γ) (a : α) (b : β) : Functions.flip fn b a = fn a b := rfl

/-- `flip` twice is the function. -/
theorem C46_flip_flip (fn : α → β → PyD σ γ) : Functions.flip (Functions.flip fn) = fn := rfl

/-- adds `n`, raising above 10 -/
def addTo10 (n x : Nat) : PyD Unit Nat := if x + n > 10 then PyD.raise (.valueError "big") else pure (x + n)

example : (compose [addTo10 1, addTo10 2, addTo10 3] 4).exec () = some (.ok 10, ()) := rfl
example : (compose (([(1, addTo10 1), (2, addTo10 2), (3, addTo10 3)]).map fun nf => logged nf.1 nf.2) 4).exec ((), []) = some (.ok 10, ((), [1, 2, 3])) :=
  C46_each_once _ _ _ _ _ _ rfl
example : (compose (([(1, addTo10 1), (9, addTo10 9), (3, addTo10 3)]).map fun nf => logged nf.1 nf.2) 4).exec ((), []) =
    some (.error (.valueError "big"), ((), [1, 9])) := rfl

/-! ## C47 curry

The claim says that keyword arguments given at any stage reach the call.  Only those of the last stage do. -/

open Curry

/-- the claim: the stages together make one call with all their arguments -/
def C47_full_statement : Prop :=
  ∀ (σ α β : Type) (fun_ : Call α → PyD σ β) (cs : List (Call α)) (last : Call α),
    callStages fun_ (curry cs.length) (cs ++ [last]) = (do
      let v ← fun_ ⟨(cs.map Call.args).flatten ++ last.args, (cs.map Call.kw).flatten ++ last.kw⟩
      pure (.value v))

theorem C47_full_statement_false : ¬ C47_full_statement := by
  intro h
  have h1 := h Unit Nat Nat (fun c => pure c.kw.length) [⟨[1], [("x", 5)]⟩] ⟨[2], []⟩
  have h2 := congrArg (fun p => PyD.exec p ()) h1
  have h3 : some (Except.ok (Stage.value 0), ()) = some ((Except.ok (Stage.value 1) : Except PyErr (Stage Nat Nat)), ()) := h2
  simp at h3

/-- What holds: `curry(n)(f)` called in `n + 1` stages makes exactly one call of `f`, with the positional arguments of all stages in order and the keyword
arguments of the *last* stage.  Missing from the claim: the keyword arguments of earlier stages, which are dropped. -/
theorem C47_curry_partial (fun_ : Call α → PyD σ β) (cs : List (Call α)) (last : Call α) :
    callStages fun_ (curry cs.length) (cs ++ [last]) = (do
      let v ← fun_ ⟨(cs.map Call.args).flatten ++ last.args, last.kw⟩
      pure (.value v)) := by
  rw [curry, callStages_closure fun_ [] cs last _ rfl, List.nil_append]

/-- So with keyword arguments at the last stage only, every split of the arguments makes the same call. -/
theorem C47_any_split (fun_ : Call α → PyD σ β) (cs cs' : List (Call α)) (last last' : Call α) (hkw : last.kw = last'.kw)
    (h : (cs.map Call.args).flatten ++ last.args = (cs'.map Call.args).flatten ++ last'.args) :
    callStages fun_ (curry cs.length) (cs ++ [last]) = callStages fun_ (curry cs'.length) (cs' ++ [last']) := by
  rw [C47_curry_partial, C47_curry_partial, h, hkw]

/-- Before the last stage nothing is called: the stages give a closure, and have no effect. -/
theorem C47_early (fun_ : Call α → PyD σ β) (n : Nat) (cs : List (Call α)) (h : cs.length ≤ n) :
    callStages fun_ (curry n) cs = pure (.closure (cs.map Call.args).flatten (n + 1 - cs.length)) := by
  rw [curry, callStages_early fun_ [] cs _ (by omega), List.nil_append]

/-- Calling the result once more calls nothing: the function has been called once, and its value (which is no function) raises `TypeError`. -/
theorem C47_surplus (fun_ : Call α → PyD σ β) (cs : List (Call α)) (last extra : Call α) (more : List (Call α)) :
    callStages fun_ (curry cs.length) (cs ++ [last] ++ extra :: more) = (do
      let _ ← fun_ ⟨(cs.map Call.args).flatten ++ last.args, last.kw⟩
      PyD.raise (.typeError "object is not callable")) := by
  have happ : ∀ (s : Stage α β) (xs ys : List (Call α)), callStages fun_ s (xs ++ ys) = callStages fun_ s xs >>= fun s' => callStages fun_ s' ys := by
    intro s xs ys
    induction xs generalizing s with
    | nil => cases ys <;> cases s <;> simp [callStages]
    | cons x xs ih =>
      cases s with
      | value v => simp only [List.cons_append, callStages]; rfl
      | closure args n => simp only [List.cons_append, callStages, ih, bind_assoc]
  rw [happ, C47_curry_partial, bind_assoc]
  rfl

/-- A closure may be called again and again: each call is independent of the others. -/
theorem C47_reuse (fun_ : Call α → PyD σ β) (cs : List (Call α)) (last last' : Call α) :
    (do let s ← callStages fun_ (curry cs.length) cs
        let r ← callStages fun_ s [last]
        let r' ← callStages fun_ s [last']
        pure (r, r')) =
      (do let r ← callStages fun_ (curry cs.length) (cs ++ [last])
          let r' ← callStages fun_ (curry cs.length) (cs ++ [last'])
          pure (r, r')) := by
  have h1 : ∀ l : Call α, callStages fun_ (.closure (cs.map Call.args).flatten ((cs.length : Int) + 1 - cs.length)) [l] =
      callStages fun_ (curry cs.length) (cs ++ [l]) := by
    intro l
    rw [C47_curry_partial]
    have := callStages_closure fun_ (cs.map Call.args).flatten [] l ((cs.length : Int) + 1 - cs.length) (by simp only [List.length_nil]; omega)
    simpa using this
  rw [C47_early fun_ cs.length cs (Nat.le_refl _), pure_bind]
  simp only [h1]

/-- `curry(n)` with `n` negative never calls the function, however many stages follow. -/
theorem C47_negative (fun_ : Call α → PyD σ β) (n : Int) (hn : n < 0) (cs : List (Call α)) :
    callStages fun_ (curry n) cs = pure (.closure (cs.map Call.args).flatten (n + 1 - cs.length)) := by
  have : ∀ (args : List α) (n : Int), n ≤ 0 → callStages fun_ (.closure args n) cs = pure (.closure (args ++ (cs.map Call.args).flatten) (n - cs.length)) := by
    induction cs with
    | nil => intro args n _; simp [callStages]
    | cons c cs ih =>
      intro args n hn
      have h1 : n ≠ 1 := by omega
      simp only [callStages, wrapper, if_neg h1, pure_bind]
      rw [ih (args ++ c.args) (n - 1) (by omega)]
      simp only [List.map_cons, List.flatten_cons, List.append_assoc, List.length_cons]
      congr 2
      omega
  rw [curry, this [] (n + 1) (by omega), List.nil_append]

/-- `curry_flip(n)(f)(*args, **kw)` called in `n` stages makes one call of `f`: the arguments of the stages in order, then `args`, with the keywords `kw`. -/
theorem C47_curry_flip [DecidableEq α] (fun_ : Call α → PyD σ β) (outer : Call α) (cs : List (Call α)) (last : Call α) (hlast : last.kw = []) :
    curryFlip (cs.length + 1) fun_ outer (cs ++ [last]) = (do
      let v ← fun_ ⟨(cs.map Call.args).flatten ++ last.args ++ outer.args, outer.kw⟩
      pure (.value v)) := by
  have h0 : ((cs.length : Int) + 1) ≠ 0 := by omega
  rw [curryFlip, if_neg h0, callStages_closure _ [] cs last _ rfl, List.nil_append]
  simp only [wrapCurried, hlast, if_true]

/-- `curry_flip(0)(f)` is `f`. -/
theorem C47_curry_flip_zero [DecidableEq α] (fun_ : Call α → PyD σ β) (outer : Call α) :
    curryFlip 0 fun_ outer [] = (do let v ← fun_ outer; pure (.value v)) := by
  rw [curryFlip, if_pos rfl]; rfl

/-- Keyword arguments at the last stage of a flipped function raise `TypeError`; the function is not called. -/
theorem C47_curry_flip_keywords [DecidableEq α] (fun_ : Call α → PyD σ β) (outer : Call α) (cs : List (Call α)) (last : Call α) (hlast : last.kw ≠ []) :
    curryFlip (cs.length + 1) fun_ outer (cs ++ [last]) = PyD.raise (.typeError "got an unexpected keyword argument") := by
  have h0 : ((cs.length : Int) + 1) ≠ 0 := by omega
  rw [curryFlip, if_neg h0, callStages_closure _ [] cs last _ rfl]
  simp only [wrapCurried, if_neg hlast]
  rfl

/-- `pipeable(f, *args, **kw)(x)` is `f(x, *args, **kw)`. -/
theorem C47_pipeable [DecidableEq α] (f : Call α → PyD σ β) (args : Call α) (x : α) :
    pipeable f args ⟨[x], []⟩ = (do let v ← f ⟨x :: args.args, args.kw⟩; pure (.value v)) := by
  exact C47_curry_flip f args [] ⟨[x], []⟩ rfl

/-- a function that logs its call and returns the sum -/
def logSum (c : Call Nat) : PyD (List (List Nat)) Nat := fun log => some (.ok (c.args.sum + (c.kw.map (·.2)).sum), log ++ [c.args])

example : (callStages logSum (curry 2) [⟨[1], []⟩, ⟨[2, 3], []⟩, ⟨[4], [("k", 10)]⟩]).exec [] = some (.ok (.value 20), [[1, 2, 3, 4]]) := rfl
example : (curryFlip 2 logSum ⟨[9], [("k", 1)]⟩ [⟨[1], []⟩, ⟨[2], []⟩]).exec [] = some (.ok (.value 13), [[1, 2, 9]]) := rfl

/-! ## C48 tailrec -/

open TailRec

/-- The decorated function is the ordinary recursion: the same values, exceptions, effects and divergence. -/
theorem C48_ordinary (fn : α → PyD σ (Bounce α β)) (args : α) : tailrec fn args = ordinary fn args := by
  apply PyD.ext
  intro w
  cases h : (tailrec fn args).exec w with
  | some r =>
    have h1 := (recurs_iff_tailrec fn args w r.1 r.2).1 h
    exact ((ordinary_iff_recurs fn args w r.1 r.2).2 h1).symm
  | none =>
    cases h' : (ordinary fn args).exec w with
    | none => rfl
    | some r =>
      have h1 := (ordinary_iff_recurs fn args w r.1 r.2).1 h'
      rw [(recurs_iff_tailrec fn args w r.1 r.2).2 h1] at h; cases h

/-- It ends with `r` exactly when a finite chain of tail calls leads there. -/
theorem C48_ends (fn : α → PyD σ (Bounce α β)) (args : α) (w : σ) (r : Except PyErr β) (w' : σ) :
    (tailrec fn args).exec w = some (r, w') ↔ Recurs fn args w r w' := recurs_iff_tailrec fn args w r w'

/-- It does not end exactly when no finite chain of tail calls does. -/
theorem C48_diverges (fn : α → PyD σ (Bounce α β)) (args : α) (w : σ) :
    (tailrec fn args).exec w = none ↔ ¬ ∃ r w', Recurs fn args w r w' := by
  constructor
  · rintro h ⟨r, w', hr⟩
    rw [(C48_ends fn args w r w').2 hr] at h; cases h
  · intro h
    cases h' : (tailrec fn args).exec w with
    | none => rfl
    | some r => exact absurd ⟨r.1, r.2, (C48_ends fn args w r.1 r.2).1 h'⟩ h

/-- Constant stack: however long the recursion, the function's frames never nest: at most one is open at a time. -/
theorem C48_constant_stack (fn : α → PyD σ (Bounce α β)) (args : α) (w : σ) (r : Except PyErr β) (w' : σ)
    (h : (tailrec fn args).exec w = some (r, w')) :
    (tailrec (fun a => framed (plain (fn a))) args).exec (w, ⟨0, 0⟩) = some (r, (w', ⟨0, 1⟩)) :=
  (recurs_iff_tailrec _ args _ r _).2 (recurs_frames fn ((recurs_iff_tailrec fn args w r w').1 h) ⟨0, 0⟩)

/-- countdown: `f(n, acc) = TailCall(n - 1, acc + n)`, counting its calls -/
def sumTo (a : Nat × Nat) : PyD Nat (Bounce (Nat × Nat) Nat) := fun calls =>
  some (.ok (if a.1 = 0 then .result a.2 else .tailCall (a.1 - 1, a.2 + a.1)), calls + 1)

/-- any depth: `sumTo` recurses `n` times -/
theorem sumTo_recurs (n acc calls : Nat) : Recurs sumTo (n, acc) calls (.ok (acc + n * (n + 1) / 2)) (calls + n + 1) := by
  induction n generalizing acc calls with
  | zero => exact .result (by simp [sumTo, PyD.exec])
  | succ n ih =>
    refine .again (args' := (n, acc + (n + 1))) (w1 := calls + 1) (by simp [sumTo, PyD.exec]) ?_
    have := ih (acc + (n + 1)) (calls + 1)
    have e1 : acc + (n + 1) + n * (n + 1) / 2 = acc + (n + 1) * (n + 1 + 1) / 2 := by
      have : (n + 1) * (n + 1 + 1) = n * (n + 1) + (n + 1) * 2 := by
        rw [Nat.mul_add (n + 1) (n + 1) 1, Nat.add_mul n 1 (n + 1)]
        omega
      rw [this, Nat.add_mul_div_right _ _ (by omega)]
      omega
    have e2 : calls + 1 + n + 1 = calls + (n + 1) + 1 := by omega
    rw [e1, e2] at this
    exact this

example : (tailrec sumTo (100000, 0)).exec 0 = some (.ok (0 + 100000 * (100000 + 1) / 2), 0 + 100000 + 1) :=
  (C48_ends _ _ _ _ _).2 (sumTo_recurs 100000 0 0)

/-- a function that always calls itself -/
example : (tailrec (fun (_ : Nat) => (pure (.tailCall 0) : PyD Unit (Bounce Nat Nat))) 0).exec () = none := by
  rw [C48_diverges]
  rintro ⟨r, w', h⟩
  suffices ∀ a w r w', Recurs (fun (_ : Nat) => (pure (.tailCall 0) : PyD Unit (Bounce Nat Nat))) a w r w' → False from this _ _ _ _ h
  intro a w r w' h
  induction h with
  | result h => cases h
  | raises h => cases h
  | again _ _ ih => exact ih

end Expression.Props
