import Verif.Lemmas.Modules
import Verif.Props.Functions
import Verif.Model.SeqMethods
import Mathlib.Data.List.Zip

/-! # Functions of modules and methods (C131) -/

namespace Expression.Props

open Expression Curry Modules Spec.Modules

variable {σ α : Type}

/-- The statement for every function with more than one parameter: piping `x` into the function called with the other arguments calls
the method of that name of `x` with those arguments. -/
def C131_full_statement : Prop :=
  ∀ (σ : Type) (h : Host σ Nat) (f : Fn) (_ : f ∈ fns) (p : String × Option String) (rest : List (String × Option String))
    (_ : f.params = p :: rest) (_ : rest ≠ []) (call : Call Nat) (args : List Nat) (_ : Gives h.literal rest call args) (x : Nat),
    f.piped h call x = (do let v ← h.method x (methodOf f.name) args; pure (.value v))

/-- It is false: `map.fold_back` takes the state last, so that the map that is piped is taken for the state. -/
theorem C131_full_statement_false : ¬ C131_full_statement := by
  intro hf
  have := hf Unit ⟨fun x _ _ => pure x, fun _ => 0⟩
    ⟨"map", "fold_back", [("state", none), ("folder", none), ("table", none)], 1, "table", "fold_back", ["folder", "state"]⟩ (by decide +kernel)
    _ _ rfl (by simp) ⟨[1, 2], []⟩ [1, 2] ⟨rfl, by simp, by simp, by simp, by simp⟩ 3
  have h2 := congrArg (fun p => (PyD.exec p ()).map (fun r => match r.1 with
    | .ok (.value v) => v
    | _ => 0)) this
  exact absurd h2 (by decide)

set_option synthInstance.maxSize 1000 in
/-- Whatever methods do: for every function of these modules outside of two short lists, `pipe(x, f(args))` is `x.f(args)`: the same
value, exception and effects.  The arguments may be given by position or by keyword, or left to their defaults. -/
theorem C131_pipe_partial [DecidableEq α] (h : Host σ α) (f : Fn) (hf : f ∈ fns) (h1 : (f.module, f.name) ∉ uncurried)
    (h2 : (f.module, f.name) ∉ special) (p : String × Option String) (rest : List (String × Option String))
    (hp : f.params = p :: rest) (hr : rest ≠ []) (call : Call α) (args : List α) (hg : Gives h.literal rest call args) (x : α) :
    f.piped h call x = (do let v ← h.method x (methodOf f.name) args; pure (.value v)) := by
  have key : ∀ f ∈ fns, (f.module, f.name) ∉ uncurried → (f.module, f.name) ∉ special → f.params.tail ≠ [] →
      f.late = 1 ∧ f.method = methodOf f.name ∧ f.params.head? = some (f.recv, none) ∧ f.args = f.params.tail.map (·.1) ∧
      (f.params.map (·.1)).Nodup := by decide +kernel
  obtain ⟨e1, e2, e3, e4, e5⟩ := key f hf h1 h2 (by rw [hp]; exact hr)
  rw [hp] at e3 e4
  simp only [List.head?_cons, Option.some.injEq] at e3
  subst e3
  have hc := C47_curry_flip (f.body h) call [] ⟨[x], []⟩ rfl
  simp only [List.length_nil, List.nil_append, List.map_nil, List.flatten_nil] at hc
  rw [Fn.piped, e1]
  refine Eq.trans hc ?_
  rw [body_of_gives h f _ (x :: args) e5 (by rw [hp]; exact gives_cons hg _ x), invoke_first h f none rest hp e4 e5 x args hg.all, e2]

/-- A function of one parameter calls the method: `pipe(x, f)` is `x.f()`. -/
theorem C131_one_parameter (h : Host σ α) (f : Fn) (hf : f ∈ fns) (p : String × Option String) (hp : f.params = [p]) (x : α) :
    f.late = 0 ∧ f.body h ⟨[x], []⟩ = h.method x (methodOf f.name) [] := by
  have key : ∀ f ∈ fns, f.params.tail = [] → f.late = 0 ∧ f.method = methodOf f.name ∧ f.params = [(f.recv, none)] ∧ f.args = [] := by
    decide +kernel
  obtain ⟨e1, e2, e3, e4⟩ := key f hf (by rw [hp]; rfl)
  refine ⟨e1, ?_⟩
  have hn : (f.params.map (·.1)).Nodup := by rw [e3]; simp
  rw [body_of_gives h f _ [x] hn ⟨by rw [hp]; rfl, by simp, by simp, by simp, by simp [hp]⟩,
    invoke_first h f none [] e3 e4 hn x [] rfl, e2]

set_option synthInstance.maxSize 1000 in
/-- The functions listed as `uncurried` take the object with the other arguments: `f(x, *args)` is `x.f(*args)`. -/
theorem C131_uncurried (h : Host σ α) (f : Fn) (hf : f ∈ fns) (h1 : (f.module, f.name) ∈ uncurried) (call : Call α) (x : α) (args : List α)
    (hg : Gives h.literal f.params call (x :: args)) : f.late = 0 ∧ f.body h call = h.method x (methodOf f.name) args := by
  have key : ∀ f ∈ fns, (f.module, f.name) ∈ uncurried → f.late = 0 ∧ f.method = methodOf f.name ∧
      f.params = (f.recv, none) :: f.params.tail ∧ f.args = f.params.tail.map (·.1) ∧ (f.params.map (·.1)).Nodup := by decide +kernel
  obtain ⟨e1, e2, e3, e4, e5⟩ := key f hf h1
  refine ⟨e1, ?_⟩
  have hl := hg.all
  rw [e3, List.length_cons, List.length_cons] at hl
  rw [body_of_gives h f call _ e5 hg, invoke_first h f none f.params.tail e3 e4 e5 x args (by omega), e2]

/-- Called as if they were curried, with one argument, they raise `TypeError`; no method is called. -/
theorem C131_uncurried_piped [DecidableEq α] (h : Host σ α) (f : Fn) (hf : f ∈ fns) (h1 : (f.module, f.name) ∈ uncurried) (y x : α) :
    f.piped h ⟨[y], []⟩ x = PyD.raise (.typeError "missing a required argument") := by
  have key : ∀ f ∈ fns, (f.module, f.name) ∈ uncurried → f.late = 0 ∧ f.params.length = 2 ∧ f.params.map (·.2) = [none, none] := by
    decide +kernel
  obtain ⟨e1, e2, e3⟩ := key f hf h1
  match hq : f.params, e2 with
  | [(a, d), (b, d')], _ =>
    rw [hq] at e3
    simp only [List.map_cons, List.map_nil, List.cons.injEq, and_true] at e3
    obtain ⟨rfl, rfl⟩ := e3
    simp only [Fn.piped, e1, curryFlip, Fn.body, hq, bindParams]
    rfl

/-- `map2(mapper)(a)(b)` calls `a.map2` with `b` and the mapper, in the order that the method of the class wants. -/
theorem C131_map2 [DecidableEq α] (h : Host σ α) (f : Fn) (hf : f ∈ fns) (hm : f.name = "map2") (mapper a b : α) :
    curryFlip f.late (f.body h) ⟨[mapper], []⟩ [⟨[a], []⟩, ⟨[b], []⟩] = (do
      let v ← h.method a "map2" (if f.module = "option" then [mapper, b] else [b, mapper])
      pure (.value v)) := by
  have key : ∀ f ∈ fns, f.name = "map2" →
      f = ⟨"option", "map2", [("opt1", none), ("opt2", none), ("mapper", none)], 2, "opt1", "map2", ["mapper", "opt2"]⟩ ∨
      f = ⟨"result", "map2", [("x", none), ("y", none), ("mapper", none)], 2, "x", "map2", ["y", "mapper"]⟩ := by decide +kernel
  have hn : f.late = 2 ∧ f.params.length = 3 ∧ (f.params.map (·.1)).Nodup := by rcases key f hf hm with rfl | rfl <;> decide
  have hc := C47_curry_flip (f.body h) ⟨[mapper], []⟩ [⟨[a], []⟩] ⟨[b], []⟩ rfl
  rw [hn.1]
  refine hc.trans ?_
  refine congrArg (fun (p : PyD σ α) => (do let v ← p; pure (Stage.value v) : PyD σ (Stage α α))) ?_
  refine (body_of_gives h f _ [a, b, mapper] hn.2.2 (gives_positional _ _ _ (by simp [hn.2.1]))).trans ?_
  rcases key f hf hm with rfl | rfl <;> rfl

/-- `map.fold_back(folder, table)(state)` is `table.fold_back(folder, state)`. -/
theorem C131_fold_back [DecidableEq α] (h : Host σ α) (f : Fn) (hf : f ∈ fns) (hm : f.name = "fold_back") (folder table state : α) :
    f.piped h ⟨[folder, table], []⟩ state = (do let v ← h.method table "fold_back" [folder, state]; pure (.value v)) := by
  have key : ∀ f ∈ fns, f.name = "fold_back" →
      f = ⟨"map", "fold_back", [("state", none), ("folder", none), ("table", none)], 1, "table", "fold_back", ["folder", "state"]⟩ := by
    decide +kernel
  have hn : f.late = 1 ∧ f.params.length = 3 ∧ (f.params.map (·.1)).Nodup := by rw [key f hf hm]; decide
  have hc := C47_curry_flip (f.body h) ⟨[folder, table], []⟩ [] ⟨[state], []⟩ rfl
  rw [Fn.piped, hn.1]
  refine hc.trans ?_
  refine congrArg (fun (p : PyD σ α) => (do let v ← p; pure (Stage.value v) : PyD σ (Stage α α))) ?_
  refine (body_of_gives h f _ [state, folder, table] hn.2.2 (gives_positional _ _ _ (by simp [hn.2.1]))).trans ?_
  rw [key f hf hm]; rfl

/-- `array.indexed(start)(x)` is `x.indexed()`: the argument is not passed on. -/
theorem C131_array_indexed [DecidableEq α] (h : Host σ α) (f : Fn) (hf : f ∈ fns) (hm : (f.module, f.name) = ("array", "indexed")) (start x : α) :
    f.piped h ⟨[start], []⟩ x = (do let v ← h.method x "indexed" []; pure (.value v)) ∧
    f.piped h ⟨[], []⟩ x = (do let v ← h.method x "indexed" []; pure (.value v)) := by
  have key : ∀ f ∈ fns, (f.module, f.name) = ("array", "indexed") →
      f = ⟨"array", "indexed", [("source", none), ("start", some "0")], 1, "source", "indexed", []⟩ := by decide +kernel
  have hn : f.late = 1 ∧ f.params = [("source", none), ("start", some "0")] ∧ (f.params.map (·.1)).Nodup := by rw [key f hf hm]; decide
  have hc := fun call => C47_curry_flip (f.body h) call [] ⟨[x], []⟩ rfl
  rw [Fn.piped, Fn.piped, hn.1]
  refine ⟨(hc _).trans (congrArg (fun (p : PyD σ α) => (do let v ← p; pure (Stage.value v) : PyD σ (Stage α α))) ?_),
    (hc _).trans (congrArg (fun (p : PyD σ α) => (do let v ← p; pure (Stage.value v) : PyD σ (Stage α α))) ?_)⟩
  · refine (body_of_gives h f _ [x, start] hn.2.2 (gives_positional _ _ _ (by simp [hn.2.1]))).trans ?_
    rw [key f hf hm]; rfl
  · refine (body_of_gives h f _ [x, h.literal "0"] hn.2.2 ⟨by simp [hn.2.1], by simp, by simp, by simp, by simp [hn.2.1]⟩).trans ?_
    rw [key f hf hm]; rfl

/-- Too many arguments, or a keyword that is no parameter, raise `TypeError` when the last stage is called; no method is called. -/
theorem C131_wrong_call (h : Host σ α) (f : Fn) (call : Call α)
    (hw : f.params.length < call.args.length ∨ ∃ k ∈ call.kw, k.1 ∉ f.params.map (·.1)) (w : σ) :
    ∃ msg, (f.body h call).exec w = some (.error (.typeError msg), w) := by
  have long : ∀ (params : List (String × Option String)) (pos : List α), params.length < pos.length →
      ∃ msg, bindParams h.literal call.kw params pos = .error (.typeError msg) := by
    intro params
    induction params with
    | nil => intro pos hl; cases pos with
      | nil => simp at hl
      | cons a pos => exact ⟨_, rfl⟩
    | cons p params ih =>
      intro pos hl
      cases pos with
      | nil => simp at hl
      | cons a pos =>
        rw [bindParams]
        split
        · exact ⟨_, rfl⟩
        · obtain ⟨msg, e⟩ := ih pos (by simpa using hl)
          exact ⟨msg, by rw [e]; rfl⟩
  rw [Fn.body]
  split
  · next hall =>
    rcases hw with hw | ⟨k, hk, hn⟩
    · obtain ⟨msg, e⟩ := long f.params call.args hw
      exact ⟨msg, by rw [e]; rfl⟩
    · rw [List.all_eq_true] at hall
      exact absurd (by simpa using hall k hk) hn
  · exact ⟨_, rfl⟩

/-- what `pipe(10, block.fold(state=3, folder=2))` calls, when methods write down their call -/
example : ((blockFns[4]).piped (σ := List (Nat × String × List Nat)) ⟨fun x m args log => some (.ok x, log ++ [(x, m, args)]), fun _ => 0⟩
    ⟨[], [("state", 3), ("folder", 2)]⟩ 10).exec [] = some (.ok (.value 10), [(10, "fold", [2, 3])]) := by rfl
/-- `pipe(10, block.sort_with(2))`: the default of `reverse` is passed on -/
example : ((blockFns[16]).piped (σ := List (Nat × String × List Nat)) ⟨fun x m args log => some (.ok x, log ++ [(x, m, args)]), fun _ => 7⟩
    ⟨[2], []⟩ 10).exec [] = some (.ok (.value 10), [(10, "sort_with", [2, 7])]) := by rfl

/-- The methods of `Seq` are the functions of the `seq` module with the sequence piped into them. -/
theorem C131_seq {β γ S : Type} (xs : Iterable σ α S) (others : List (Iterable σ α S)) (predicate : α → PyD σ Bool)
    (chooser : α → PyD σ (Option β)) (mapper : α → PyD σ β) (mapping : Nat → α → PyD σ β) (folder : γ → α → PyD σ γ) (state : γ)
    (count : Int) (plus : β → β → PyD σ β) (zero : β) (plus' : α → α → PyD σ α) (zero' : α) (pairs : Iterable σ (α × β) S) (mapper2 : α → β → PyD σ γ) :
    SeqMethods.append xs others = Seq.append others xs ∧ SeqMethods.filter xs predicate = Seq.filter predicate xs ∧
    SeqMethods.choose xs chooser = Seq.choose chooser xs ∧ SeqMethods.fold xs folder state = Seq.fold folder state xs ∧
    SeqMethods.head xs = Seq.head xs ∧ SeqMethods.length xs = Seq.length xs ∧ SeqMethods.map xs mapper = Seq.map mapper xs ∧
    SeqMethods.mapi xs mapping = Seq.mapi mapping xs ∧ SeqMethods.pairwise xs = Seq.pairwise xs ∧
    SeqMethods.scan xs folder state = Seq.scan folder state xs ∧ SeqMethods.skip xs count = Seq.skip count xs ∧
    SeqMethods.tail xs = Seq.tail xs ∧ SeqMethods.take xs count = Seq.take count xs ∧
    SeqMethods.tryFindIndex xs predicate = Seq.tryFindIndex predicate xs ∧ SeqMethods.tryPick xs chooser = Seq.tryPick chooser xs ∧
    SeqMethods.starmap pairs mapper2 = Seq.starmap mapper2 pairs ∧ SeqMethods.sum plus' zero' xs = Seq.sum plus' zero' xs ∧
    SeqMethods.sumBy plus zero xs mapper = Seq.sumBy plus zero mapper xs :=
  ⟨rfl, rfl, rfl, rfl, rfl, rfl, rfl, rfl, rfl, rfl, rfl, rfl, rfl, rfl, rfl, rfl, rfl, rfl⟩

private theorem zip_lists {β : Type} (xs : List α) (ys : List β) :
    (Seq.zip (Iterable.ofList xs) (Iterable.ofList ys) : Iterable σ _ _).toList = pure (xs.zip ys) := by
  have key : ∀ (xs₀ xs : List α) (ys₀ ys : List β) (acc : List (α × β)),
      (Seq.zip (Iterable.ofList xs₀) (Iterable.ofList ys₀) : Iterable σ _ _).loop (fun acc x => pure (.next (acc ++ [x]))) (xs, ys) acc =
        pure (acc ++ xs.zip ys) := by
    intro xs₀ xs
    induction xs with
    | nil =>
      intro ys₀ ys acc
      rw [Iterable.loop]
      simp [Seq.zip, Iterable.ofList]
    | cons x xs ih =>
      intro ys₀ ys acc
      cases ys with
      | nil =>
        rw [Iterable.loop]
        simp [Seq.zip, Iterable.ofList]
      | cons y ys =>
        have h := ih ys₀ ys (acc ++ [(x, y)])
        rw [Iterable.loop]
        simp only [Seq.zip, Iterable.ofList, pure_bind] at h ⊢
        rw [h]
        simp
  rw [Iterable.toList, Iterable.forLoop]
  simpa [Seq.zip, Iterable.ofList] using key xs xs ys ys []

/-- `zip` is the exception: the pairs of `xs.zip(ys)` have the element of `xs` first, those of `pipe(xs, seq.zip(ys))` second. -/
theorem C131_seq_zip {β : Type} (xs : List α) (ys : List β) :
    (SeqMethods.zip (Iterable.ofList xs) (Iterable.ofList ys) : Iterable σ _ _).toList = pure (xs.zip ys) ∧
    (SeqMethods.pipedZip (Iterable.ofList xs) (Iterable.ofList ys) : Iterable σ _ _).toList = pure ((xs.zip ys).map Prod.swap) := by
  refine ⟨zip_lists xs ys, ?_⟩
  rw [List.zip_swap]
  exact zip_lists ys xs

/-- So piping a sequence into `zip` is not calling the method. -/
theorem C131_seq_zip_false : ¬ ∀ (xs ys : List Nat),
    (SeqMethods.pipedZip (Iterable.ofList xs) (Iterable.ofList ys) : Iterable Unit _ _).toList =
      (SeqMethods.zip (Iterable.ofList xs) (Iterable.ofList ys) : Iterable Unit _ _).toList := by
  intro h
  have h1 := h [1] [2]
  rw [(C131_seq_zip [1] [2]).1, (C131_seq_zip [1] [2]).2] at h1
  have := congrArg (fun p => (PyD.exec p ()).map (fun r => match r.1 with
    | .ok v => v
    | _ => [])) h1
  exact absurd this (by decide)

end Expression.Props
