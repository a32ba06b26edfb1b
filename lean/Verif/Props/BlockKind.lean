import Verif.Lemmas.BlockKind

/-! # Property C138: the kind of value that an effect block gives -/

namespace Expression.Props

open Expression Lemmas PyD Spec

variable {σ α ε S : Type}

/-- The full property: a function decorated with `effect.option` returns an `Option`, one decorated with `effect.result` a `Result`, and so on, or it raises. -/
def C138_full_statement : Prop :=
  ∀ (l : Lib) (S : Type) (g : Gen Unit Nat Nat S) (r : Eff Nat Nat), (l.callOn g).exec () = some (.ok r, ()) → l.Own r

/-- **C138 (for every body).** The call returns a value of the builder's own kind, or what the body raised `EffectError` with. -/
theorem C138_result (l : Lib) (g : Gen σ α ε S) (w w' : σ) (r : Eff α ε) (h : (l.callOn g).exec w = some (.ok r, w')) :
    l.Own r ∨ ∃ s v w0 w1, (g.next s v).exec w0 = some (.ok (.effect r), w1) := by
  cases l with
  | option =>
    simp only [Lib.callOn] at h
    rw [Builder.call, drive_eq good_option (sends_send optionBuilder (fun _ => rfl) g)] at h
    refine finish_kind (Lib.option.Own) (fun ys => ⟨_, rfl⟩) (fun ys m r hys hc => ?_) h
    rcases hl : ys.getLast? with _ | y
    · exact absurd (List.getLast?_eq_none_iff.mp hl) hys
    · rw [hl] at hc; cases hc; exact .inr rfl
  | result =>
    simp only [Lib.callOn] at h
    rw [Builder.call, drive_eq good_result (sends_send resultBuilder (fun _ => rfl) g)] at h
    refine finish_kind (Lib.result.Own) (fun ys => ⟨_, rfl⟩) (fun ys m r hys hc => ?_) h
    cases hc; exact .inr rfl
  | seq =>
    simp only [Lib.callOn] at h
    rw [Builder.call, drive_eq good_seq (sends_send seqBuilder (fun _ => rfl) g)] at h
    refine finish_kind (Lib.seq.Own) (fun ys => ⟨_, rfl⟩) (fun ys m r hys hc => ?_) h
    rcases m with (_ | v) | (v | e) | xs <;> cases hc <;> exact .inl ⟨_, rfl⟩
  | asyncOption =>
    simp only [Lib.callOn] at h
    have h1 := drive_eq good_asyncOption (sends_asyncSend asyncOptionBuilder (fun _ => rfl) g)
    rw [Builder.asyncCall] at h
    rw [show g.start = (noReturn g).start from rfl, h1] at h
    refine (finish_kind (Lib.asyncOption.Own) (fun ys => ⟨_, rfl⟩) (fun ys m r hys hc => ?_) h).imp_right
      (fun ⟨s, v, w0, w1, hn⟩ => ⟨s, v, w0, w1, noReturn_effect hn⟩)
    rcases hl : ys.getLast? with _ | y
    · exact absurd (List.getLast?_eq_none_iff.mp hl) hys
    · rw [hl] at hc; cases hc; exact .inr rfl
  | asyncResult =>
    simp only [Lib.callOn] at h
    have h1 := drive_eq good_asyncResult (sends_asyncSend asyncResultBuilder (fun _ => rfl) g)
    rw [Builder.asyncCall] at h
    rw [show g.start = (noReturn g).start from rfl, h1] at h
    refine (finish_kind (Lib.asyncResult.Own) (fun ys => ⟨_, rfl⟩) (fun ys m r hys hc => ?_) h).imp_right
      (fun ⟨s, v, w0, w1, hn⟩ => ⟨s, v, w0, w1, noReturn_effect hn⟩)
    cases hc; exact .inr rfl

/-- **C138 (partial).** If the body binds only values of the builder's own kind, and no function called by it raises `EffectError` otherwise, the call
returns a value of that kind. -/
theorem C138_own_kind_partial (l : Lib) (g : Gen σ α ε S) (hg : ∀ s v w m w', (g.next s v).exec w = some (.ok (.effect m), w') → l.Own m)
    (w w' : σ) (r : Eff α ε) (h : (l.callOn g).exec w = some (.ok r, w')) : l.Own r :=
  (C138_result l g w w' r h).elim id (fun ⟨_, _, _, _, hn⟩ => hg _ _ _ _ _ hn)

/-- **C138 (calls of the library that raise `EffectError`).** `Map.pick`, `Map.change` and a loop over an option raise `EffectError(Nothing)` if there is
no value (C07, C13).  In the body of any builder, before its first `yield`, this is not an exception for the caller of the block: the block returns `Nothing`, also if
it is a block of results or of a sequence. -/
theorem C138_library_calls (l : Lib) (g : Gen σ α ε S) (w w' : σ) (h : (g.resume g.start .none).exec w = some (.error .effectError, w')) :
    (l.callOn g).exec w = some (.ok (.opt none), w') := by
  have hn : (g.next g.start .none).exec w = some (.ok (.effect (.opt none)), w') := by
    change Gen.next g g.start .none w = _
    simp only [Gen.next, h]
  have hn' : ((noReturn g).next g.start .none).exec w = some (.ok (.effect (.opt none)), w') := by
    rw [noReturn_next, map_eq_pure_bind, exec_bind, hn]; rfl
  have he : (echo g).exec w = some (.ok ([], .effect (.opt none)), w') := by
    rw [echo, echoFrom.eq_1, exec_bind, hn]; rfl
  have he' : (echo (noReturn g)).exec w = some (.ok ([], .effect (.opt none)), w') := by
    rw [echo, echoFrom.eq_1, exec_bind]
    rw [show (noReturn g).start = g.start from rfl, hn']; rfl
  cases l with
  | option =>
    simp only [Lib.callOn]
    rw [Builder.call, drive_eq good_option (sends_send optionBuilder (fun _ => rfl) g), exec_bind, he]; rfl
  | result =>
    simp only [Lib.callOn]
    rw [Builder.call, drive_eq good_result (sends_send resultBuilder (fun _ => rfl) g), exec_bind, he]; rfl
  | seq =>
    simp only [Lib.callOn]
    rw [Builder.call, drive_eq good_seq (sends_send seqBuilder (fun _ => rfl) g), exec_bind, he]; rfl
  | asyncOption =>
    simp only [Lib.callOn]
    rw [Builder.asyncCall, show g.start = (noReturn g).start from rfl, drive_eq good_asyncOption (sends_asyncSend asyncOptionBuilder (fun _ => rfl) g),
      exec_bind, he']; rfl
  | asyncResult =>
    simp only [Lib.callOn]
    rw [Builder.asyncCall, show g.start = (noReturn g).start from rfl, drive_eq good_asyncResult (sends_asyncSend asyncResultBuilder (fun _ => rfl) g),
      exec_bind, he']; rfl

/-- **C138 (where the payload of an `EffectError` goes).** If the body yields the values `ys` and then `EffectError(m)` is raised in it, by a `yield from` or by
something it calls, the call returns `m` itself.  The only exception is a block of a sequence that has yielded something before: it takes `m` for the rest of
the sequence, so that an `m` without a value makes the call raise `EffectError`. -/
theorem C138_payload (l : Lib) (g : Gen σ α ε S) (w w' : σ) (ys : List (Obj α)) (m : Eff α ε)
    (h : (echo g).exec w = some (.ok (ys, .effect m), w')) :
    (l ≠ .seq ∨ ys = [] → (l.callOn g).exec w = some (.ok m, w')) ∧
    (ys ≠ [] → (Lib.seq.callOn g).exec w = match (generalizing := false) m with
      | .opt none | .res (.error _) => some (.error .effectError, w')
      | .opt (some v) | .res (.ok v) => some (.ok (.seq (ys ++ [v])), w')
      | .seq zs => some (.ok (.seq (ys ++ zs)), w')) := by
  have h' := echo_noReturn_effect h
  refine ⟨fun hl => ?_, fun hys => ?_⟩
  · cases l with
    | option =>
      simp only [Lib.callOn]
      rw [Builder.call, drive_eq good_option (sends_send optionBuilder (fun _ => rfl) g), exec_bind, h]
      cases ys with
      | nil => rfl
      | cons y ys =>
        obtain ⟨z, hz⟩ := List.getLast?_isSome.2 (List.cons_ne_nil y ys) |> Option.isSome_iff_exists.1
        simp [finish, hz, optionBuilder]
        rfl
    | result =>
      simp only [Lib.callOn]
      rw [Builder.call, drive_eq good_result (sends_send resultBuilder (fun _ => rfl) g), exec_bind, h]
      cases ys <;> rfl
    | seq =>
      rcases hl with hl | rfl
      · exact absurd rfl hl
      simp only [Lib.callOn]
      rw [Builder.call, drive_eq good_seq (sends_send seqBuilder (fun _ => rfl) g), exec_bind, h]
      rfl
    | asyncOption =>
      simp only [Lib.callOn]
      rw [Builder.asyncCall, show g.start = (noReturn g).start from rfl, drive_eq good_asyncOption (sends_asyncSend asyncOptionBuilder (fun _ => rfl) g),
        exec_bind, h']
      cases ys with
      | nil => rfl
      | cons y ys =>
        obtain ⟨z, hz⟩ := List.getLast?_isSome.2 (List.cons_ne_nil y ys) |> Option.isSome_iff_exists.1
        simp [finish, hz, asyncOptionBuilder]
        rfl
    | asyncResult =>
      simp only [Lib.callOn]
      rw [Builder.asyncCall, show g.start = (noReturn g).start from rfl, drive_eq good_asyncResult (sends_asyncSend asyncResultBuilder (fun _ => rfl) g),
        exec_bind, h']
      cases ys <;> rfl
  · simp only [Lib.callOn]
    rw [Builder.call, drive_eq good_seq (sends_send seqBuilder (fun _ => rfl) g), exec_bind, h]
    cases ys with
    | nil => exact absurd rfl hys
    | cons y ys => rcases m with (_ | v) | (v | e) | zs <;> rfl

/-- **C138 (bodies without `yield`).** There the call returns a value of the builder's own kind or raises: an `EffectError` is an exception like others. -/
theorem C138_plain (l : Lib) (body : PyD σ (Obj α)) (w w' : σ) :
    (∀ r, ((l.builder : Builder α ε).callPlain body).exec w = some (.ok r, w') → l.Own r) ∧
    ∀ e, body.exec w = some (.error e, w') → ((l.builder : Builder α ε).callPlain body).exec w = some (.error e, w') := by
  refine ⟨fun r h => ?_, fun e h => ?_⟩
  · rw [Builder.callPlain, exec_bind] at h
    rcases hb : body.exec w with _ | ⟨e | (_ | v), w1⟩ <;> rw [hb] at h
    · cases h
    · cases h
    · cases h; cases l <;> exact ⟨_, rfl⟩
    · cases h; cases l <;> exact ⟨_, rfl⟩
  · rw [Builder.callPlain, exec_bind, h]

/-- The code does not have the full property: in a block of results a `pick` that finds nothing makes the call return `Nothing`. -/
theorem C138_full_statement_false : ¬ C138_full_statement := by
  intro h
  obtain ⟨r, hr⟩ := h .result Unit ⟨(), fun _ _ => raise .effectError⟩ _ (C138_library_calls .result ⟨(), fun _ _ => raise .effectError⟩ () () rfl)
  cases hr

/-! ## Cases -/

/-- a block of results that binds `Ok(3)` and then an `Error` -/
example : let g : Gen Unit Nat String (Pos Nat Nat) := fromBody (fun t => if t = 0 then pure (.fromRes (.ok (.val 3)) (fun _ => 1)) else
      pure (.fromRes (.error "bad") (fun _ => 2))) 0
    ∀ s v w m w', (g.next s v).exec w = some (.ok (.effect m), w') → Lib.result.Own m := by
  intro g s v w m w' h
  change Gen.next g s v w = _ at h
  by_cases ht : s.resume v = 0
  · simp only [Gen.next, g, fromBody, ht] at h; cases h
  · simp only [Gen.next, g, fromBody, ht] at h; cases h; exact ⟨_, rfl⟩

/-- a block of a sequence that yields 1 and then picks what is not there: `EffectError` is raised -/
example : (Lib.seq.callOn (⟨false, fun s _ => if s then raise .effectError else pure (.yielded (.val 1) true)⟩ : Gen Unit Nat Nat Bool)).exec () =
    some (.error .effectError, ()) := by
  refine (C138_payload .seq _ () () [.val 1] (.opt none) ?_).2 (by simp)
  rw [echo, echoFrom.eq_1]
  change (echoFrom (⟨false, fun s _ => if s then raise .effectError else pure (.yielded (.val 1) true)⟩ : Gen Unit Nat Nat Bool) true (.val 1) [.val 1]).exec () = _
  rw [echoFrom.eq_1]
  rfl

end Expression.Props
