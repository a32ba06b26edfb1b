import Verif.Lemmas.Functions
import Verif.Spec.BlockCost
import Verif.Spec.Parse
import Mathlib.Tactic.Ring

/-! # How many elements are copied -/

namespace Expression.Lemmas.BlockCost

open Expression PyD Spec Expression.Lemmas Copying

variable {α β ε : Type}

theorem copies_pure (r : β) : Copies (pure r) 0 r := fun _ => rfl

theorem copies_bind {γ : Type} {p : PyD Nat β} {f : β → PyD Nat γ} {m n : Nat} {r : β} {s : γ} (hp : Copies p m r) (hf : Copies (f r) n s) :
    Copies (p >>= f) (m + n) s := by
  intro before
  rw [exec_bind, hp before]
  show (f r).exec (before + m) = _
  rw [hf, Nat.add_assoc]

theorem copies_copy (n : Nat) : Copies (copy n) n () := fun _ => rfl

/-- what `append` copies -/
def appendCost (a b : Nat) : Nat := if a = 0 ∨ b = 0 then 0 else a + b

theorem copies_append (s t : Block α) : Copies (append s t) (appendCost s.value.length t.value.length) (s.append t) := by
  intro before
  unfold append appendCost
  rcases s with ⟨_ | ⟨x, xs⟩⟩ <;> rcases t with ⟨_ | ⟨y, ys⟩⟩ <;> rfl

theorem copies_cons (s : Block α) (x : α) : Copies (cons s x) (s.value.length + 1) (s.cons x) := fun _ => rfl

/-! ## concat -/

/-- what `concatFrom` copies -/
def concatCost : Nat → List (Block α) → Nat
  | _, [] => 0
  | n, s :: rest => appendCost n s.value.length + concatCost (n + s.value.length) rest

theorem copies_concatFrom (t : Block α) (ss : List (Block α)) :
    Copies (concatFrom t ss) (concatCost t.value.length ss) (ss.foldl (fun t s => t.append s) t) := by
  induction ss generalizing t with
  | nil => exact copies_pure t
  | cons s rest ih =>
    have h := ih (t.append s)
    rw [show (t.append s).value.length = t.value.length + s.value.length from List.length_append] at h
    exact copies_bind (copies_append t s) h

theorem concatCost_le (n : Nat) (ss : List (Block α)) : concatCost n ss ≤ ss.length * (n + totalLength ss) := by
  induction ss generalizing n with
  | nil => simp [concatCost]
  | cons s rest ih =>
    rw [concatCost, totalLength, List.length_cons, Nat.add_mul, Nat.one_mul]
    have h := ih (n + s.value.length)
    rw [Nat.add_assoc] at h
    have h2 : appendCost n s.value.length ≤ n + (s.value.length + totalLength rest) := by
      unfold appendCost
      split <;> omega
    omega

theorem concatCost_singles (n : Nat) (x : α) (k : Nat) (hn : 0 < n) :
    2 * concatCost n (List.replicate k ⟨[x]⟩) + n * (n + 1) = (n + k) * (n + k + 1) := by
  induction k generalizing n with
  | zero => rw [List.replicate_zero, concatCost, Nat.mul_zero, Nat.zero_add]; rfl
  | succ k ih =>
    have h := ih (n + 1) (Nat.succ_pos _)
    rw [List.replicate_succ, concatCost]
    have e : appendCost n ([x] : List α).length = n + 1 := by
      unfold appendCost
      rw [if_neg (by simp; omega)]
      rfl
    rw [e]
    have e2 : ([x] : List α).length = 1 := rfl
    rw [e2]
    have e3 : n + 1 + k = n + (k + 1) := by omega
    rw [e3] at h
    rw [← h]
    ring

/-! ## repeated `cons` -/

theorem copies_consAll (s : Block α) (xs : List α) :
    ∃ n, 2 * n + s.value.length * (s.value.length + 1) = (s.value.length + xs.length) * (s.value.length + xs.length + 1) ∧
      Copies (consAll s xs) n ⟨xs.reverse ++ s.value⟩ := by
  induction xs generalizing s with
  | nil => exact ⟨0, by simp, copies_pure s⟩
  | cons x xs ih =>
    obtain ⟨n, hn, hc⟩ := ih (s.cons x)
    refine ⟨s.value.length + 1 + n, ?_, ?_⟩
    · rw [show (s.cons x).value.length = s.value.length + 1 from rfl] at hn
      rw [List.length_cons, show s.value.length + (xs.length + 1) = s.value.length + 1 + xs.length by omega, ← hn]
      ring
    · have h := copies_bind (f := fun t => consAll t xs) (copies_cons s x) hc
      rw [List.reverse_cons, List.append_assoc]
      exact h

/-! ## traverse -/

theorem folderBody_shift (fn : α → PyD Nat (Res (Obj β) ε)) (head : α) (tail : Res (Block (Obj β)) ε) (s : Traverse.FState β) :
    ∃ k, ∀ w, (folderBody fn head tail s).exec w = (Traverse.folderBody fn head tail s).exec (w + k) := by
  rcases s with _ | h | ⟨h, t⟩
  · exact ⟨0, fun _ => rfl⟩
  · exact ⟨0, fun _ => rfl⟩
  · rcases t with _ | (b | ⟨xs⟩)
    · exact ⟨0, fun _ => rfl⟩
    · exact ⟨0, fun _ => rfl⟩
    · rcases xs with _ | ⟨x, xs⟩
      · exact ⟨0, fun _ => rfl⟩
      · exact ⟨1 + (x :: xs).length, fun _ => rfl⟩

theorem folderBody_ok' (g : α → Res (Obj β) ε) (head : α) (tail : Res (Block (Obj β)) ε) :
    BodyOk ResultStmt (folderBody (fun x => pure (g x)) head tail) := by
  have hb := folderBody_ok (σ := Nat) (fun x => pure (g x)) head tail (fun _ _ h => by cases h) (fun _ _ h => by cases h)
  refine ⟨fun t w st w' h => ?_, fun t w w' h => ?_, fun t w w' h => ?_⟩ <;>
    obtain ⟨k, hk⟩ := folderBody_shift (fun x => pure (g x)) head tail t <;> rw [hk] at h
  · exact hb.stmt t _ st w' h
  · exact hb.effect t _ w' h
  · exact hb.stop t _ w' h

/-- what `folder` copies -/
def folderCost : Res (Obj β) ε → Res (Block (Obj β)) ε → Nat
  | .ok _, .ok t => appendCost 1 t.value.length
  | _, _ => 0

theorem copies_start_ok {g : α → Res (Obj β) ε} {head : α} {v : Obj β} (hg : g head = .ok v) (tail : Res (Block (Obj β)) ε) :
    Copies (folderBody (fun x => pure (g x)) head tail .start) 0 (.fromRes (.ok (Traverse.ofElem v)) .gotHead) := by
  intro w
  simp only [folderBody, plusCopies, Traverse.folderBody, pure_bind, hg]
  rfl

theorem copies_start_error {g : α → Res (Obj β) ε} {head : α} {e : ε} (hg : g head = .error e) (tail : Res (Block (Obj β)) ε) :
    Copies (folderBody (fun x => pure (g x)) head tail .start) 0 (.fromRes (.error e) .gotHead) := by
  intro w
  simp only [folderBody, plusCopies, Traverse.folderBody, pure_bind, hg]
  rfl

/-- what `folder` makes of the objects -/
def consBlock (v : Obj β) (t : Block (Obj β)) : Obj (Traverse.TVal β) := .val (.block ⟨v :: t.value⟩)

theorem copies_gotTail (fn : α → PyD Nat (Res (Obj β) ε)) (head : α) (tail : Res (Block (Obj β)) ε) (v : Obj β) (t : Block (Obj β)) :
    Copies (folderBody fn head tail (.gotTail (Traverse.ofElem v) (.val (.block t)))) (appendCost 1 t.value.length) (.ret (consBlock v t)) := by
  intro w
  rcases t with ⟨_ | ⟨y, ys⟩⟩ <;> rcases v with _ | v
  · rfl
  · rfl
  · show some (_, w + (1 + (ys.length + 1))) = some (_, w + appendCost 1 (ys.length + 1))
    rw [appendCost, if_neg (by omega)]
    rfl
  · show some (_, w + (1 + (ys.length + 1))) = some (_, w + appendCost 1 (ys.length + 1))
    rw [appendCost, if_neg (by omega)]
    rfl

theorem copies_folder (g : α → Res (Obj β) ε) (head : α) (tail : Res (Block (Obj β)) ε) :
    Copies (folder (fun x => pure (g x)) head tail) (folderCost (g head) tail) (consRes (g head) tail) := by
  have hc : resultBuilder.call (fromBody (folderBody (fun x => pure (g x)) head tail) .start) =
      (do let o ← resultBlock (folderBody (fun x => pure (g x)) head tail) .start; pure (.res o)) := by
    rw [Builder.call, drive_eq good_result (sends_send resultBuilder (fun _ => rfl) _)]
    exact resultBlock_eq (folderBody_ok' g head tail) .start (.start .start) .none []
  rw [folder, hc, resultBlock.eq_1]
  simp only [bind_assoc]
  rw [← Nat.zero_add (folderCost _ _)]
  rcases hg : g head with v | e
  · refine copies_bind (copies_start_ok hg tail) ?_
    show Copies (resultBlock _ (Traverse.FState.gotHead (Traverse.ofElem v)) >>= _) _ _
    rw [resultBlock.eq_1]
    simp only [bind_assoc]
    rw [← Nat.zero_add (folderCost _ _)]
    rcases tail with t | e
    · refine copies_bind (r := .fromRes (.ok (.val (.block t))) (.gotTail (Traverse.ofElem v))) (fun _ => rfl) ?_
      show Copies (resultBlock _ (Traverse.FState.gotTail (Traverse.ofElem v) (.val (.block t))) >>= _) _ _
      rw [resultBlock.eq_1]
      simp only [bind_assoc]
      refine copies_bind (n := 0) (copies_gotTail _ head _ v t) ?_
      exact fun _ => rfl
    · refine copies_bind (r := .fromRes (.error e) (.gotTail (Traverse.ofElem v))) (fun _ => rfl) ?_
      exact fun _ => rfl
  · refine copies_bind (copies_start_error hg tail) ?_
    exact fun _ => rfl

/-- what `traverse` copies: for every element but the last one all the results from there on, up to the last error -/
def traverseCost : List (Res (Obj β) ε) → Nat
  | [] => 0
  | r :: rs => traverseCost rs + folderCost r (inBlock (firstError rs))

theorem copies_traverse (g : α → Res (Obj β) ε) (xs : List α) :
    Copies (traverse (fun x => pure (g x)) ⟨xs⟩) (traverseCost (xs.map g)) (inBlock (firstError (xs.map g))) := by
  rw [traverse, foldBack_eq, toList_ofList, pure_bind]
  induction xs with
  | nil => exact copies_pure _
  | cons x xs ih =>
    rw [foldRight, List.map_cons, traverseCost]
    refine copies_bind ih ?_
    have h := copies_folder g x (inBlock (firstError (xs.map g)))
    have e : consRes (g x) (inBlock (firstError (xs.map g))) = inBlock (firstError (g x :: xs.map g)) := by
      rcases g x with v | e
      · simp only [firstError]
        cases firstError (xs.map g) <;> rfl
      · rfl
    rw [← e]
    exact h

theorem firstError_length (rs : List (Res (Obj β) ε)) : ∀ t, inBlock (firstError rs) = .ok t → t.value.length = rs.length := by
  induction rs with
  | nil => intro t h; cases h; rfl
  | cons r rs ih =>
    intro t h
    rcases r with v | e
    · simp only [firstError] at h
      rcases hf : firstError rs with vs | e <;> rw [hf] at h ih
      · cases h
        exact congrArg (· + 1) (ih _ rfl)
      · cases h
    · cases h

theorem traverseCost_le (rs : List (Res (Obj β) ε)) : 2 * traverseCost rs ≤ rs.length * (rs.length + 1) := by
  induction rs with
  | nil => exact Nat.le_refl _
  | cons r rs ih =>
    rw [traverseCost, List.length_cons]
    have h : folderCost r (inBlock (firstError rs)) ≤ rs.length + 1 := by
      rcases r with v | e
      · rcases hf : inBlock (firstError rs) with t | e
        · have := firstError_length rs t hf
          show appendCost 1 t.value.length ≤ _
          unfold appendCost
          split <;> omega
        · exact Nat.zero_le _
      · exact Nat.zero_le _
    have e : (rs.length + 1) * (rs.length + 1 + 1) = rs.length * (rs.length + 1) + 2 * (rs.length + 1) := by ring
    rw [e]
    omega

theorem firstError_ok (vs : List (Obj β)) : firstError (vs.map (fun v => (Res.ok v : Res (Obj β) ε))) = .ok vs := by
  induction vs with
  | nil => rfl
  | cons v vs ih =>
    rw [List.map_cons, firstError, ih]

theorem traverseCost_ok (v : Obj β) (vs : List (Obj β)) :
    2 * (traverseCost ((v :: vs).map (fun v => (Res.ok v : Res (Obj β) ε))) + 1) = (vs.length + 1) * (vs.length + 2) := by
  induction vs generalizing v with
  | nil => rfl
  | cons v' vs ih =>
    rw [List.map_cons, traverseCost, firstError_ok]
    have e : folderCost (Res.ok v : Res (Obj β) ε) (inBlock (.ok (v' :: vs))) = vs.length + 2 := by
      show appendCost 1 (vs.length + 1) = _
      rw [appendCost, if_neg (by omega)]
      omega
    have h := ih v'
    rw [e, List.length_cons]
    have e2 : (vs.length + 1 + 1) * (vs.length + 1 + 2) = (vs.length + 1) * (vs.length + 2) + 2 * (vs.length + 2) := by ring
    rw [e2, ← h]
    omega

/-! ## repetition -/

theorem copies_many {p : Parser Nat α} {w w' : Nat} {inp rest : Remaining} {vs : List α} (h : Repeats p w inp vs rest w') :
    ∃ n, 2 * n = vs.length * (vs.length + 1) ∧ (parseZeroOrMore p inp).exec w = some (.ok (⟨vs⟩, rest), w' + n) := by
  induction h with
  | stop h =>
    refine ⟨0, rfl, ?_⟩
    rw [parseZeroOrMore.eq_1, exec_bind, h]
    rfl
  | @more w inp v mid w1 vs rest w' h _ ih =>
    obtain ⟨n, hn, hx⟩ := ih
    refine ⟨n + (vs.length + 1), ?_, ?_⟩
    · rw [List.length_cons]
      have e : (vs.length + 1) * (vs.length + 1 + 1) = vs.length * (vs.length + 1) + 2 * (vs.length + 1) := by ring
      omega
    · rw [parseZeroOrMore.eq_1, exec_bind, h]
      show (parseZeroOrMore p mid >>= _).exec w1 = _
      rw [exec_bind, hx]
      show some (_, w' + n + (vs.length + 1)) = some (_, _)
      rw [Nat.add_assoc]
      rfl

end Expression.Lemmas.BlockCost
