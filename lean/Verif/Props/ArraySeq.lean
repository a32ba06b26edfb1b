import Verif.Lemmas.ArraySeq
import Verif.Lemmas.Const
import Verif.Props.ArrayLive

/-! # Property C135: a typed array is a sequence like a list -/

namespace Expression.Props

open Expression Arr ArrLive Spec PyD

variable {ω τ C : Type}

/-- The full property of `reversed`: a loop over `reversed(a)` is the loop over `reversed` of a list, whatever the body does to the array. -/
def C135_full_statement : Prop :=
  ∀ (self : Ref) (body : Unit → Val Unit → PyD (World Unit Unit) (Flow Unit)) (w : World Unit Unit),
    ((reversed self).forLoop body ()).exec w = ((listReversed self.addr).forLoop body ()).exec w

private def three : World Unit Unit := (⟨fun _ => ⟨.list, plainInts [1, 2, 3]⟩, 1⟩, ())

/-- a body that empties the array -/
private def emptying (_ : Unit) (_ : Val Unit) : PyD (World Unit Unit) (Flow Unit) := do
  clear ⟨0, .any⟩
  pure (.next ())

private theorem emptying_exec (x : Val Unit) : (emptying () x).exec three = some (.ok (.next ()), (three.1.write 0 ⟨.list, []⟩, ())) := by
  rw [emptying, exec_bind]
  have : (clear (ω := Unit) ⟨0, .any⟩).exec three = some (.ok (), (three.1.write 0 ⟨.list, []⟩, ())) := by
    simp only [clear, PyD.exec]
    rw [show clearLoop ⟨0, .any⟩ three = _ from clear_loop (⟨0, .any⟩ : Ref) _ three rfl]
    rfl
  rw [this]
  rfl

/-- The code does not do this: if the array gets shorter than the position, the loop over the list ends, and the loop over the array raises
`IndexError`. -/
theorem C135_full_statement_false : ¬ C135_full_statement := by
  intro h
  have h1 := h ⟨0, .any⟩ emptying three
  rw [reversed_start, show ((itemsAt (⟨0, .any⟩ : Ref).addr three).length : Int) - 1 = ((2 : Nat) : Int) from rfl, reversed_at _ _ _ _ _ (.int .plain 3) rfl,
    exec_bind, emptying_exec] at h1
  simp only [Iterable.cont_next] at h1
  have e1 : ((reversed (τ := Unit) (ω := Unit) ⟨0, .any⟩).loop emptying (some (((2 : Nat) : Int) - 1)) ()).exec (three.1.write 0 ⟨.list, []⟩, ()) =
      some (.error .indexError, (three.1.write 0 ⟨.list, []⟩, ())) := by
    rw [Iterable.loop_eq]
    rfl
  have e2 : ((listReversed (τ := Unit) (ω := Unit) 0).forLoop emptying ()).exec three = some (.ok (), (three.1.write 0 ⟨.list, []⟩, ())) := by
    have : ((listReversed (τ := Unit) (ω := Unit) 0).forLoop emptying ()).exec three = ((listReversed 0).loop emptying 2 ()).exec three := rfl
    rw [this, Iterable.loop_eq, exec_bind]
    have : ((listReversed (τ := Unit) (ω := Unit) 0).next 2).exec three = some (.ok (some (.int .plain 3, 1)), three) := rfl
    rw [this]
    simp only [Iterable.step_some]
    rw [exec_bind, emptying_exec]
    simp only [Iterable.cont_next]
    rw [Iterable.loop_eq]
    rfl
  rw [e1] at h1
  rw [e2] at h1
  cases h1

/-- **C135 (`in`, `count`, `index`).** With an equality that leaves alone what is ahead (it may have any other effects, raise or not end), the
methods do what the loops over the list of the elements do: `in` asks up to the first element that is equal, `count` asks all of them, and `index` asks
those of the slice `[start:stop]` up to the first that is equal, and raises `ValueError` if there is none. -/
theorem C135_search (self : Ref) (same : Val ω → PyD (World ω τ) Bool) (h : LeavesAhead self.addr same) (w : World ω τ) :
    (contains self same).exec w = (anyIn same (itemsAt self.addr w)).exec w ∧
    (count self same).exec w = (foldLeftD (fun n v => do
      let b ← asRuntimeError (same v)
      pure (if b then n + 1 else n)) 0 (itemsAt self.addr w)).exec w ∧
    ∀ (start : Int) (stop : Option Int), (index self same start stop).exec w =
      (firstAt same (Builtins.slice (itemsAt self.addr w) (some start) stop) (Builtins.adjustIndex (itemsAt self.addr w).length start)).exec w := by
  refine ⟨?_, ?_, fun start stop => ?_⟩
  · rw [← any_loop same [] (itemsAt self.addr w)]
    refine loop_ahead_flow (addr := self.addr) (i := 0) ?_ [] (itemsAt self.addr w) false w rfl
    · intro c i x w r w' hx he
      rw [exec_bind] at he
      rcases hf : (same x).exec w with _ | ⟨e | y, w1⟩ <;> rw [hf] at he <;> cases he
      · exact h i x w _ _ hx hf
      · exact h i x w _ _ hx hf
  · have e : count self same = fold self (fun n v => do
        let b ← asRuntimeError (same v)
        pure (if b then n + 1 else n)) 0 := by
      simp only [count, fold, StopIter.inGenerator_eq, bind_assoc, pure_bind]
    rw [e]
    refine C133_fold_partial self _ ?_ 0 w
    intro c i x w r w' hx he
    rw [exec_bind] at he
    rcases hf : (same x).exec w with _ | ⟨e | y, w1⟩
    · simp only [asRuntimeError, PyD.exec] at hf he
      rw [hf] at he
      cases he
    · have hh := h i x w _ _ hx hf
      simp only [asRuntimeError, PyD.exec] at hf he
      rw [hf] at he
      cases he
      exact hh
    · have hh := h i x w _ _ hx hf
      simp only [asRuntimeError, PyD.exec] at hf he
      rw [hf] at he
      cases he
      exact hh
  · let xs := itemsAt self.addr w
    have hl : (length self).exec w = some (.ok (xs.length : Int), w) := rfl
    rw [index, exec_bind, hl]
    simp only
    generalize hlo : (if start < 0 then max ((xs.length : Int) + start) 0 else start) = lo
    have hlo0 : lo = (lo.toNat : Int) := by
      split at hlo <;> omega
    rw [hlo0, index_loop self same h _ _ _ w rfl]
    have ha : Builtins.adjustIndex xs.length start = min lo.toNat xs.length := by
      rw [Builtins.adjustIndex]
      split at hlo <;> rename_i hs
      · rw [if_pos hs]; omega
      · rw [if_neg hs]; omega
    have hs : Builtins.slice xs (some start) stop = (xs.drop lo.toNat).take (room (stop.map (fun k => if k < 0 then k + (xs.length : Int) else k)) lo.toNat
        (xs.drop lo.toNat).length) := by
      simp only [Builtins.slice, ha]
      rw [List.drop_take]
      have hd : xs.drop (min lo.toNat xs.length) = xs.drop lo.toNat := by
        rcases Nat.le_total lo.toNat xs.length with hc | hc
        · rw [Nat.min_eq_left hc]
        · rw [Nat.min_eq_right hc, List.drop_length, List.drop_eq_nil_of_le hc]
      rw [hd, List.take_eq_take_iff, List.length_drop]
      cases stop with
      | none => simp only [Option.map_none, room]; omega
      | some k =>
        simp only [Option.map_some, room, Builtins.adjustIndex]
        split <;> omega
    rcases Nat.lt_or_ge xs.length lo.toNat with hc | hc
    · have he : xs.drop lo.toNat = [] := List.drop_eq_nil_of_le (Nat.le_of_lt hc)
      have hs' : Builtins.slice (itemsAt self.addr w) (some start) stop = [] := by
        rw [show Builtins.slice (itemsAt self.addr w) (some start) stop = _ from hs, he, List.take_nil]
      rw [hs', show (itemsAt self.addr w).drop lo.toNat = [] from he, List.take_nil]
      rfl
    · have ha' : Builtins.adjustIndex (itemsAt self.addr w).length start = lo.toNat := ha.trans (Nat.min_eq_left hc)
      rw [ha', show Builtins.slice (itemsAt self.addr w) (some start) stop = _ from hs]

/-- **C135 (`reversed`).** `list(reversed(a))` are the elements in the opposite order; and a loop over `reversed(a)` whose body leaves alone what
stands before the current element goes through the elements that the array had at the start. -/
theorem C135_reversed_partial (self : Ref) (w : World ω τ) :
    (∀ (body : C → Val ω → PyD (World ω τ) (Flow C)) (c : C), (∀ c, LeavesBehind self.addr (body c)) →
      ((reversed self).forLoop body c).exec w = ((Iterable.ofList (itemsAt self.addr w).reverse).forLoop body c).exec w) ∧
    (reversed self).toList.exec w = some (.ok (itemsAt self.addr w).reverse, w) := by
  have key : ∀ {C : Type} (body : C → Val ω → PyD (World ω τ) (Flow C)) (c : C), (∀ c, LeavesBehind self.addr (body c)) →
      ((reversed self).forLoop body c).exec w = ((Iterable.ofList (itemsAt self.addr w).reverse).forLoop body c).exec w := by
    intro C body c h
    rw [reversed_start, reversed_loop self h (itemsAt self.addr w).reverse _ c w (Nat.le_refl _), List.take_length]
    rfl
  refine ⟨key, ?_⟩
  rw [Iterable.toList, key]
  · exact congrArg (fun p : PyD (World ω τ) _ => p.exec w) (Lemmas.toList_ofList (itemsAt self.addr w).reverse)
  · intro c i x w r w' hx he
    cases he
    rfl

/-- Each step of `reversed(a)`: the element that stands at the position now, and `IndexError` if there is none. -/
theorem C135_reversed_step (self : Ref) (i : Nat) (w : World ω τ) :
    ((reversed self).next (some i)).exec w = match (itemsAt self.addr w)[i]? with
      | some x => some (.ok (some (x, some ((i : Int) - 1))), w)
      | none => some (.error .indexError, w) := by
  have hi : ¬ (i : Int) < 0 := by omega
  simp only [reversed, pure_bind, if_neg hi, exec_bind]
  simp only [getItem, PyD.exec, item_nat]
  cases (itemsAt self.addr w)[i]? <;> rfl

/-- **C135 (`clear`, `+=`).** `clear` removes all elements, and changes no other array; `a += b` is `a.extend(b)` and returns `a`. -/
theorem C135_clear_iadd [Floats ω] (long : Nat) (self : Ref) (w : World ω τ) :
    (clear self).exec w = some (.ok (), (w.1.write self.addr ⟨(w.1.cells self.addr).kind, []⟩, w.2)) ∧
    ∀ b : Ref, b.addr ≠ self.addr → (iadd long self (cellIter b.addr)).exec w =
      match (self.view w.1).extend long (b.view w.1).iter with
        | (none, a') => some (.ok self, (w.1.write self.addr a'.value, w.2))
        | (some e, a') => some (.error e, (w.1.write self.addr a'.value, w.2)) := by
  constructor
  · have := clear_loop self _ w rfl
    simp only [clear, PyD.exec] at this ⊢
    rw [this]
  · intro b hb
    rw [iadd, exec_bind, (C133_extend long self b w).1 hb]
    rcases (self.view w.1).extend long (b.view w.1).iter with ⟨_ | _, _⟩ <;> rfl

/-- With an equality that only computes, this is plain: membership, the number of equal elements, and the first position. -/
theorem C135_plain (self : Ref) (eq : Val ω → Bool) (w : World ω τ) :
    (contains self (fun v => pure (eq v))).exec w = some (.ok ((itemsAt self.addr w).any eq), w) ∧
    (count self (fun v => pure (eq v))).exec w = some (.ok ((itemsAt self.addr w).countP eq), w) ∧
    ((index self (fun v => pure (eq v))).exec w = match (itemsAt self.addr w).findIdx? eq with
      | some i => some (.ok (i : Int), w)
      | none => some (.error (.valueError ""), w)) := by
  have h : LeavesAhead self.addr (fun v => (pure (eq v) : PyD (World ω τ) Bool)) := by
    intro i x w r w' _ he
    cases he
    rfl
  obtain ⟨h1, h2, h3⟩ := C135_search self _ h w
  rw [h1, h2, h3 0 none]
  generalize itemsAt self.addr w = xs
  refine ⟨?_, ?_, ?_⟩
  · induction xs with
    | nil => rfl
    | cons x xs ih =>
      rw [anyIn, pure_bind, List.any_cons]
      cases eq x
      · simpa using ih
      · rfl
  · have : ∀ n : Nat, (foldLeftD (fun n v => do
        let b ← asRuntimeError (pure (eq v) : PyD (World ω τ) Bool)
        pure (if b then n + 1 else n)) n xs).exec w = some (.ok (n + xs.countP eq), w) := by
      induction xs with
      | nil => intro n; rfl
      | cons x xs ih =>
        intro n
        rw [foldLeftD, exec_bind, exec_bind]
        have : (asRuntimeError (pure (eq x) : PyD (World ω τ) Bool)).exec w = some (.ok (eq x), w) := rfl
        rw [this]
        simp only [exec_pure]
        rw [ih, List.countP_cons]
        cases eq x <;> simp [Nat.add_assoc, Nat.add_comm]
    rw [this 0, Nat.zero_add]
  · have hs : Builtins.slice xs (some 0) none = xs := by
      simp [Builtins.slice, Builtins.adjustIndex]
    have ha : Builtins.adjustIndex xs.length 0 = 0 := by
      simp [Builtins.adjustIndex]
    rw [hs, ha]
    have : ∀ k : Nat, (firstAt (fun v => (pure (eq v) : PyD (World ω τ) Bool)) xs k).exec w = match xs.findIdx? eq with
        | some i => some (.ok ((i + k : Nat) : Int), w)
        | none => some (.error (.valueError ""), w) := by
      induction xs with
      | nil => intro k; rfl
      | cons x xs ih =>
        intro k
        rw [firstAt, pure_bind, List.findIdx?_cons]
        cases eq x
        · simp only [Bool.false_eq_true, if_false]
          have := ih (by simp [Builtins.slice, Builtins.adjustIndex]) (by simp [Builtins.adjustIndex]) (k + 1)
          rw [show ((k : Int) + 1) = ((k + 1 : Nat) : Int) from by omega, this]
          cases xs.findIdx? eq with
          | none => rfl
          | some i => simp only [Option.map_some]; congr 4; omega
        · simp
    exact (this 0).trans (by cases xs.findIdx? eq <;> rfl)

/-- `[5, 7, 7]`: `index(7, -1)` is 2, and `index(7, 0, 1)` raises -/
private def sevens : World Unit Unit := (⟨fun _ => ⟨.list, plainInts [5, 7, 7]⟩, 1⟩, ())

private def isSeven (v : Val Unit) : PyD (World Unit Unit) Bool := pure (decide (v = .int .plain 7))

private theorem isSeven_ahead : LeavesAhead 0 isSeven := by
  intro i x w r w' _ he
  cases he
  rfl

example : (index ⟨0, .any⟩ isSeven (-1)).exec sevens = some (.ok 2, sevens) ∧
    (index ⟨0, .any⟩ isSeven 0 (some 1)).exec sevens = some (.error (.valueError ""), sevens) := by
  have h := (C135_search ⟨0, .any⟩ isSeven isSeven_ahead sevens).2.2
  rw [h, h]
  exact ⟨rfl, rfl⟩

/-- a body that deletes the element it was given leaves alone what is before it -/
example : LeavesBehind 0 (fun _ : Val Unit => (do let _ ← inPlace ⟨0, .any⟩ (fun a => a.pop); pure (.next ()) : PyD (World Unit Unit) (Flow Unit))) := by
  intro i x w r w' hx he
  rw [exec_bind, pop_last] at he
  rcases hl : (itemsAt (⟨0, .any⟩ : Ref).addr w).getLast? with _ | y <;> rw [hl] at he <;> cases he
  · rfl
  · have : i < (itemsAt 0 w).length := by
      rcases Nat.lt_or_ge i (itemsAt 0 w).length with h | h
      · exact h
      · rw [List.getElem?_eq_none h] at hx; cases hx
    have : ((itemsAt 0 w).dropLast).take i = (itemsAt 0 w).take i := by
      rw [List.dropLast_eq_take, List.take_take, Nat.min_eq_left (by omega)]
    exact this

end Expression.Props
