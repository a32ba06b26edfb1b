import Verif.Lemmas.Builder2
import Verif.Lemmas.Const
import Verif.Spec.Functions

/-! # Composition, railways, traversal and recursion -/

namespace Expression.Lemmas

open Expression PyD Spec

variable {σ α β γ ε : Type}

/-! ## traverse -/

open Traverse in
theorem folderBody_ok (fn : α → PyD σ (Res (Obj β) ε)) (head : α) (tail : Res (Block (Obj β)) ε)
    (he : ∀ w w', (fn head).exec w ≠ some (.error .effectError, w')) (hs : ∀ w w', (fn head).exec w ≠ some (.error .stopIteration, w')) :
    BodyOk ResultStmt (folderBody fn head tail) := by
  have key : ∀ t w r w', (folderBody fn head tail t).exec w = some (r, w') →
      (∀ st, r = .ok st → ResultStmt st) ∧ r ≠ .error .effectError ∧ r ≠ .error .stopIteration := by
    intro t w r w' h
    cases t with
    | start =>
      rw [folderBody, exec_bind] at h
      rcases hf : (fn head).exec w with _ | ⟨e | o, w1⟩ <;> rw [hf] at h
      · cases h
      · cases h
        refine ⟨(fun _ h => nomatch h), ?_, ?_⟩
        · intro h; cases h; exact he _ _ hf
        · intro h; cases h; exact hs _ _ hf
      · cases o <;> cases h <;> exact ⟨fun _ h => by cases h; trivial, by simp, by simp⟩
    | gotHead hd =>
      cases tail <;> cases h <;> exact ⟨fun _ h => by cases h; trivial, by simp, by simp⟩
    | gotTail hd tl =>
      rw [folderBody, exec_bind] at h
      rcases hd with _ | (b | xs) <;> rcases tl with _ | (b' | ys) <;> cases h <;>
        refine ⟨fun st h => ?_, by simp, by simp⟩ <;> cases h
      all_goals (first | trivial | (intro h'; cases h'))
  refine ⟨fun t w st w' h => (key t w _ w' h).1 st rfl, fun t w w' h => (key t w _ w' h).2.1 rfl,
    fun t w w' h => (key t w _ w' h).2.2 rfl⟩

/-- what `folder` does with the two results -/
def consRes (r : Res (Obj β) ε) (tail : Res (Block (Obj β)) ε) : Res (Block (Obj β)) ε :=
  match r, tail with
  | .error e, _ => .error e
  | .ok _, .error e => .error e
  | .ok v, .ok t => .ok ⟨v :: t.value⟩

open Traverse in
theorem folder_eq (fn : α → PyD σ (Res (Obj β) ε)) (head : α) (tail : Res (Block (Obj β)) ε)
    (he : ∀ w w', (fn head).exec w ≠ some (.error .effectError, w')) (hs : ∀ w w', (fn head).exec w ≠ some (.error .stopIteration, w')) :
    folder fn head tail = (do let r ← fn head; pure (consRes r tail)) := by
  have hc : resultBuilder.call (fromBody (folderBody fn head tail) .start) =
      (do let o ← resultBlock (folderBody fn head tail) .start; pure (.res o)) := by
    rw [Builder.call, drive_eq good_result (sends_send resultBuilder (fun _ => rfl) _)]
    exact resultBlock_eq (folderBody_ok fn head tail he hs) .start (.start .start) .none []
  rw [folder, hc, resultBlock.eq_1]
  apply PyD.ext
  intro w
  have e1 : folderBody fn head tail .start = (do
    let r ← fn head
    match r with
    | .ok v => pure (.fromRes (.ok (ofElem v)) .gotHead)
    | .error e => pure (.fromRes (.error e) .gotHead)) := rfl
  rw [e1]
  simp only [bind_assoc]
  rw [exec_bind, exec_bind]
  rcases hf : (fn head).exec w with _ | ⟨e | o, w1⟩
  · rfl
  · rfl
  · rcases o with v | e
    · simp only [pure_bind]
      rw [resultBlock.eq_1]
      rcases tail with ⟨t⟩ | e
      · simp only [folderBody, pure_bind]
        rw [resultBlock.eq_1]
        rcases v with _ | v <;> rfl
      · rfl
    · rfl

theorem foldRight_folder (fn : α → PyD σ (Res (Obj β) ε))
    (he : ∀ x w w', (fn x).exec w ≠ some (.error .effectError, w')) (hs : ∀ x w w', (fn x).exec w ≠ some (.error .stopIteration, w'))
    (xs : List α) : foldRight (Traverse.folder fn) xs (.ok Block.empty) =
      (do let rs ← visitBackwards fn xs; pure (inBlock (firstError rs))) := by
  induction xs with
  | nil => rfl
  | cons x xs ih =>
    rw [foldRight, ih, visitBackwards]
    simp only [bind_assoc, pure_bind]
    refine bind_congr fun rs => ?_
    rw [folder_eq fn x _ (he x) (hs x)]
    refine bind_congr fun r => ?_
    congr 1
    rcases r with v | e
    · simp only [firstError]
      cases firstError rs <;> rfl
    · rfl

theorem traverse_eq (fn : α → PyD σ (Res (Obj β) ε))
    (he : ∀ x w w', (fn x).exec w ≠ some (.error .effectError, w')) (hs : ∀ x w w', (fn x).exec w ≠ some (.error .stopIteration, w'))
    (xs : List α) : Traverse.traverse fn ⟨xs⟩ = (do let rs ← visitBackwards fn xs; pure (inBlock (firstError rs))) := by
  rw [Traverse.traverse, foldBack_eq, toList_ofList, pure_bind]
  exact foldRight_folder fn he hs xs

theorem visitBackwards_pure (g : α → β) (xs : List α) : visitBackwards (σ := σ) (fun x => pure (g x)) xs = pure (xs.map g) := by
  induction xs with
  | nil => rfl
  | cons x xs ih => rw [visitBackwards, ih]; simp

/-! ## railways -/

theorem foldl_pipeline (fns : List (α → PyD σ (Res α ε))) (acc : α → PyD σ (Res α ε)) (x : α) :
    fns.foldl (fun acc fn => fun x => do Res.bind (← acc x) fn) acc x = (do Res.bind (← acc x) (Spec.railway fns)) := by
  induction fns generalizing acc with
  | nil =>
    simp only [List.foldl_nil]
    rw [show (fun (r : Res α ε) => Res.bind r (Spec.railway (σ := σ) [])) = pure from ?_, bind_pure]
    funext r; cases r <;> rfl
  | cons f fns ih =>
    rw [List.foldl_cons, ih]
    simp only [bind_assoc]
    refine bind_congr fun r => ?_
    rcases r with v | e
    · change (f v >>= fun r => Res.bind r (Spec.railway fns)) = _
      change _ = Spec.railway (f :: fns) v
      rw [Spec.railway]
      refine bind_congr fun o => ?_
      cases o <;> rfl
    · rfl

theorem foldl_optionPipeline (fns : List (α → PyD σ (Option α))) (acc : α → PyD σ (Option α)) (x : α) :
    fns.foldl (fun acc fn => fun x => do Opt.bind (← acc x) fn) acc x = (do Opt.bind (← acc x) (Spec.railwayOption fns)) := by
  induction fns generalizing acc with
  | nil =>
    simp only [List.foldl_nil]
    rw [show (fun (r : Option α) => Opt.bind r (Spec.railwayOption (σ := σ) [])) = pure from ?_, bind_pure]
    funext r; cases r <;> rfl
  | cons f fns ih =>
    rw [List.foldl_cons, ih]
    simp only [bind_assoc]
    refine bind_congr fun r => ?_
    rcases r with _ | v
    · rfl
    · change (f v >>= fun r => Opt.bind r (Spec.railwayOption fns)) = _
      change _ = Spec.railwayOption (f :: fns) v
      rw [Spec.railwayOption]
      refine bind_congr fun o => ?_
      cases o <;> rfl

/-! ## composition -/

theorem reduce_append (f : β → α → PyD σ β) (xs ys : List α) (s : β) :
    Functions.reduce f (xs ++ ys) s = Functions.reduce f xs s >>= Functions.reduce f ys := by
  induction xs generalizing s with
  | nil => rw [List.nil_append, Functions.reduce, pure_bind]
  | cons x xs ih =>
    rw [List.cons_append, Functions.reduce, Functions.reduce, bind_assoc]
    exact bind_congr fun s => ih s

theorem logged_exec (n : Nat) (f : α → PyD σ β) (x : α) (w : σ) (log : List Nat) :
    (logged n f x).exec (w, log) = ((f x).exec w).map fun r => (r.1, (r.2, log ++ [n])) := by
  change (match (f x).exec w with | none => none | some (r, w') => some (r, (w', log ++ [n]))) = _
  rcases (f x).exec w with _ | ⟨_, _⟩ <;> rfl

/-! ## curry -/

open Curry in
theorem callStages_closure (fun_ : Call α → PyD σ β) (args : List α) (cs : List (Call α)) (last : Call α) (n : Int)
    (hn : n = cs.length + 1) :
    callStages fun_ (.closure args n) (cs ++ [last]) =
      (do let v ← fun_ ⟨args ++ (cs.map Call.args).flatten ++ last.args, last.kw⟩; pure (.value v)) := by
  induction cs generalizing args n with
  | nil =>
    have h1 : n = 1 := by simpa using hn
    subst h1
    simp only [List.nil_append, callStages, wrapper, if_true, bind_assoc, pure_bind, List.map_nil, List.flatten_nil, List.append_nil]
  | cons c cs ih =>
    have h1 : n ≠ 1 := by simp only [List.length_cons] at hn; omega
    simp only [List.cons_append, callStages, wrapper, if_neg h1, pure_bind]
    rw [ih (args ++ c.args) (n - 1) (by simp only [List.length_cons] at hn; omega)]
    simp

open Curry in
theorem callStages_early (fun_ : Call α → PyD σ β) (args : List α) (cs : List (Call α)) (n : Int) (hn : (cs.length : Int) < n) :
    callStages fun_ (.closure args n) cs = pure (.closure (args ++ (cs.map Call.args).flatten) (n - cs.length)) := by
  induction cs generalizing args n with
  | nil => simp [callStages]
  | cons c cs ih =>
    have h1 : n ≠ 1 := by simp only [List.length_cons] at hn; omega
    simp only [callStages, wrapper, if_neg h1, pure_bind]
    rw [ih (args ++ c.args) (n - 1) (by simp only [List.length_cons] at hn; omega)]
    simp only [List.map_cons, List.flatten_cons, List.append_assoc, List.length_cons]
    congr 2
    omega

/-! ## tailrec -/

open TailRec in
/-- what the trampoline makes of a bounce -/
def Bounced (fn : α → PyD σ (Bounce α β)) (b : Bounce α β) (w : σ) (r : Except PyErr β × σ) : Prop :=
  match b with
  | .tailCall args => Recurs fn args w r.1 r.2
  | .result v => r = (.ok v, w)

open TailRec in
theorem recurs_of_trampoline (fn : α → PyD σ (Bounce α β)) (b : Bounce α β) (w : σ) (r : Except PyErr β × σ)
    (h : (trampoline fn b).exec w = some r) : Bounced fn b w r := by
  refine trampoline.fixpoint_induct fn _ (admissible_post1 (fun (b : Bounce α β) (w : σ) (r : Except PyErr β × σ) =>
    Bounced fn b w r)) ?_ b w r h
  intro F hF b w r hr
  cases b with
  | tailCall args =>
    dsimp only at hr ⊢
    rcases exec_bind_some hr with ⟨e, h1, h2⟩ | ⟨b', w1, h1, h2⟩
    · change Recurs fn args w r.1 r.2
      rw [h2]; exact .raises h1
    · have := hF b' w1 r h2
      cases b' with
      | tailCall args' => exact .again h1 this
      | result v =>
        cases this
        exact .result h1
  | result v =>
    dsimp only at hr ⊢
    rw [exec_pure] at hr
    exact (Option.some.inj hr).symm

open TailRec in
theorem tailrec_of_recurs (fn : α → PyD σ (Bounce α β)) {args : α} {w : σ} {r : Except PyErr β} {w' : σ} (h : Recurs fn args w r w') :
    (tailrec fn args).exec w = some (r, w') := by
  induction h with
  | result h => rw [tailrec, exec_bind, h]; simp only; rw [trampoline.eq_2]; rfl
  | raises h => rw [tailrec, exec_bind, h]
  | again h _ ih =>
    rw [tailrec, exec_bind, h]
    simp only
    rw [trampoline.eq_1]
    exact ih

open TailRec in
theorem recurs_iff_tailrec (fn : α → PyD σ (Bounce α β)) (args : α) (w : σ) (r : Except PyErr β) (w' : σ) :
    (tailrec fn args).exec w = some (r, w') ↔ Recurs fn args w r w' := by
  constructor
  · intro h
    rcases exec_bind_some h with ⟨e, h1, h2⟩ | ⟨b', w1, h1, h2⟩
    · cases h2; exact .raises h1
    · have := recurs_of_trampoline fn b' w1 _ h2
      cases b' with
      | tailCall args' => exact .again h1 this
      | result v => cases this; exact .result h1
  · exact tailrec_of_recurs fn

open TailRec in
theorem ordinary_iff_recurs (fn : α → PyD σ (Bounce α β)) (args : α) (w : σ) (r : Except PyErr β) (w' : σ) :
    (ordinary fn args).exec w = some (r, w') ↔ Recurs fn args w r w' := by
  constructor
  · intro h
    refine ordinary.fixpoint_induct fn _ (admissible_post1 (fun (a : α) (w : σ) (r : Except PyErr β × σ) =>
      Recurs fn a w r.1 r.2)) ?_ args w (r, w') h
    intro F hF a w r hr
    dsimp only at hr
    rcases exec_bind_some hr with ⟨e, h1, h2⟩ | ⟨b', w1, h1, h2⟩
    · rw [h2]; exact .raises h1
    · cases b' with
      | tailCall args' => exact .again h1 (hF _ _ _ h2)
      | result v => cases h2; exact .result h1
  · intro h
    induction h with
    | result h => rw [ordinary.eq_1, exec_bind, h]; rfl
    | raises h => rw [ordinary.eq_1, exec_bind, h]
    | again h _ ih => rw [ordinary.eq_1, exec_bind, h]; exact ih

theorem framed_plain (p : PyD σ α) (w : σ) (fr : Frames) :
    (framed (plain p)).exec (w, fr) = (p.exec w).map (fun r => (r.1, (r.2, ⟨fr.now, max fr.most (fr.now + 1)⟩))) := by
  change (match (plain p).exec (w, _) with | none => none | some (r, (w', fr')) => some (r, (w', (⟨fr'.now - 1, fr'.most⟩ : Frames)))) = _
  have : (plain p).exec (w, ⟨fr.now + 1, max fr.most (fr.now + 1)⟩) = (p.exec w).map (fun r => (r.1, (r.2, (⟨fr.now + 1, max fr.most (fr.now + 1)⟩ : Frames)))) := by
    change (match p.exec w with | none => none | some (r, w') => some (r, (w', _))) = _
    rcases p.exec w with _ | ⟨_, _⟩ <;> rfl
  rw [this]
  rcases p.exec w with _ | ⟨_, _⟩ <;> rfl

open TailRec in
theorem recurs_frames (fn : α → PyD σ (Bounce α β)) {args : α} {w : σ} {r : Except PyErr β} {w' : σ} (h : Recurs fn args w r w') (fr : Frames) :
    Recurs (fun a => framed (plain (fn a))) args (w, fr) r (w', ⟨fr.now, max fr.most (fr.now + 1)⟩) := by
  induction h generalizing fr with
  | result h => exact .result (by rw [framed_plain, h]; rfl)
  | raises h => exact .raises (by rw [framed_plain, h]; rfl)
  | @again _ _ _ w1 _ _ h _ ih =>
    refine .again (w1 := (w1, ⟨fr.now, max fr.most (fr.now + 1)⟩)) (by rw [framed_plain, h]; rfl) ?_
    have := ih ⟨fr.now, max fr.most (fr.now + 1)⟩
    simp only [Nat.max_assoc, Nat.max_self] at this
    exact this

end Expression.Lemmas
