import Verif.Spec.ArraySeq
import Verif.Model.ArraySeq
import Verif.Lemmas.ArrayLive
import Verif.Lemmas.StopIter

/-! Lemmas about the inherited methods of typed arrays. -/

namespace Expression.ArrLive

open Arr Spec PyD Builtins Lemmas

variable {ω τ C : Type}

theorem item_nat (self : Ref) (w : World ω τ) (i : Nat) : (self.view w.1).item (i : Int) =
    match (itemsAt self.addr w)[i]? with
    | some x => .ok x
    | none => .error .indexError := by
  simp only [TypedArray.item, Builtins.item]
  rw [if_neg (by omega : ¬ (i : Int) < 0), if_neg (by omega : ¬ (i : Int) < 0), Int.toNat_natCast]
  have e : (self.view w.1).value.items = itemsAt self.addr w := rfl
  rw [e]
  cases (itemsAt self.addr w)[i]? <;> rfl

/-- a loop over the array, whose body leaves alone what is ahead, is a loop over the list of its elements -/
theorem loop_ahead_flow {addr : Nat} {body : C → Val ω → PyD (World ω τ) (Flow C)} (h : ∀ c, LeavesAhead addr (body c)) (base xs : List (Val ω))
    (i : Nat) (c : C) (w : World ω τ) (hx : (itemsAt addr w).drop i = xs) :
    ((cellIter addr).loop body i c).exec w = ((Iterable.ofList base : Iterable (World ω τ) (Val ω) _).loop body xs c).exec w := by
  induction xs generalizing i c w with
  | nil =>
    rw [loop_end _ _ _ _ _ (by simpa using hx), Iterable.loop_ofList_nil]
    rfl
  | cons x xs ih =>
    have hi : (itemsAt addr w)[i]? = some x := by
      have := congrArg List.head? hx
      simpa [List.head?_drop] using this
    have hd : (itemsAt addr w).drop (i + 1) = xs := by
      have := congrArg List.tail hx
      simpa [List.tail_drop] using this
    rw [loop_at _ _ _ _ _ _ hi, Iterable.loop_ofList_cons, exec_bind, exec_bind]
    rcases hf : (body c x).exec w with _ | ⟨e | fl, w'⟩
    · rfl
    · rfl
    · cases fl with
      | stop c' => rfl
      | next c' => exact ih (i + 1) c' w' (by rw [h c i x w _ w' hi hf, hd])

theorem any_loop (same : Val ω → PyD (World ω τ) Bool) (base xs : List (Val ω)) :
    (Iterable.ofList base : Iterable (World ω τ) (Val ω) _).loop (fun _ v => do
      let b ← same v
      pure (if b then .stop true else .next false)) xs false = anyIn same xs := by
  induction xs with
  | nil => rw [Iterable.loop_ofList_nil]; rfl
  | cons x xs ih =>
    rw [Iterable.loop_ofList_cons, anyIn, bind_assoc]
    refine bind_congr fun b => ?_
    cases b
    · simp only [Bool.false_eq_true, if_false, pure_bind, Iterable.cont_next, ih]
    · rfl

theorem tryItem_nat (self : Ref) (w : World ω τ) (i : Nat) : (tryItem self (i : Int)).exec w = some (.ok (itemsAt self.addr w)[i]?, w) := by
  simp only [tryItem, PyD.exec, item_nat]
  cases (itemsAt self.addr w)[i]? <;> rfl

/-- how many positions from `i` on are before `stop` -/
def room (stop : Option Int) (i n : Nat) : Nat :=
  match stop with
  | none => n
  | some k => (k - i).toNat

theorem room_pos {stop : Option Int} {i n : Nat} (h : before stop i = true) : room stop i (n + 1) = room stop (i + 1) n + 1 := by
  cases stop with
  | none => rfl
  | some k =>
    simp only [before, decide_eq_true_eq] at h
    simp only [room]
    omega

theorem room_zero {stop : Option Int} {i n : Nat} (h : before stop i = false) : room stop i n = 0 := by
  cases stop with
  | none => cases h
  | some k =>
    simp only [before, decide_eq_false_iff_not] at h
    simp only [room]
    omega

theorem index_loop (self : Ref) (same : Val ω → PyD (World ω τ) Bool) (h : LeavesAhead self.addr same) (stop : Option Int)
    (xs : List (Val ω)) (i : Nat) (w : World ω τ) (hx : (itemsAt self.addr w).drop i = xs) :
    (indexLoop self same stop i).exec w = (firstAt same (xs.take (room stop i xs.length)) i).exec w := by
  induction xs generalizing i w with
  | nil =>
    rw [indexLoop, List.take_nil]
    cases before stop i with
    | false => rfl
    | true =>
      have : (itemsAt self.addr w)[i]? = none := by simpa using hx
      rw [if_pos rfl, exec_bind, tryItem_nat, this]
      rfl
  | cons x xs ih =>
    have hi : (itemsAt self.addr w)[i]? = some x := by
      have := congrArg List.head? hx
      simpa [List.head?_drop] using this
    have hd : (itemsAt self.addr w).drop (i + 1) = xs := by
      have := congrArg List.tail hx
      simpa [List.tail_drop] using this
    rw [indexLoop]
    cases hb : before stop i with
    | false =>
      rw [room_zero hb, List.take_zero]
      rfl
    | true =>
      rw [if_pos rfl, exec_bind, tryItem_nat, hi, List.length_cons, room_pos hb, List.take_succ_cons, firstAt]
      simp only [exec_bind]
      rcases hf : (same x).exec w with _ | ⟨e | b, w'⟩
      · rfl
      · rfl
      · cases b
        · exact ih (i + 1) w' (by rw [h i x w _ w' hi hf, hd])
        · rfl

theorem reversed_at (self : Ref) (body : C → Val ω → PyD (World ω τ) (Flow C)) (i : Nat) (c : C) (w : World ω τ) (x : Val ω)
    (h : (itemsAt self.addr w)[i]? = some x) : ((reversed self).loop body (some (i : Int)) c).exec w =
      PyD.exec (body c x >>= Iterable.cont ((reversed self).loop body) (some ((i : Int) - 1))) w := by
  have hn : (reversed (τ := τ) self |>.next (some (i : Int))).exec w = some (.ok (some (x, some ((i : Int) - 1))), w) := by
    have hi : ¬ (i : Int) < 0 := by omega
    simp only [reversed, pure_bind, if_neg hi, exec_bind]
    simp only [getItem, PyD.exec, item_nat, h]
    rfl
  rw [Iterable.loop_eq, exec_bind, hn]
  rfl

theorem reversed_loop (self : Ref) {body : C → Val ω → PyD (World ω τ) (Flow C)} (h : ∀ c, LeavesBehind self.addr (body c)) (base : List (Val ω))
    (n : Nat) (c : C) (w : World ω τ) (hn : n ≤ (itemsAt self.addr w).length) :
    ((reversed self).loop body (some ((n : Int) - 1)) c).exec w =
      ((Iterable.ofList base : Iterable (World ω τ) (Val ω) _).loop body ((itemsAt self.addr w).take n).reverse c).exec w := by
  induction n generalizing c w with
  | zero =>
    rw [Iterable.loop_eq, List.take_zero, List.reverse_nil, Iterable.loop_ofList_nil]
    rfl
  | succ n ih =>
    have hi : (itemsAt self.addr w)[n]? = some (itemsAt self.addr w)[n] := List.getElem?_eq_getElem (by omega)
    have e : ((n + 1 : Nat) : Int) - 1 = (n : Int) := by omega
    rw [e, reversed_at _ _ _ _ _ _ hi, List.take_succ_eq_append_getElem (by omega), List.reverse_append, List.reverse_singleton,
      List.singleton_append, Iterable.loop_ofList_cons, exec_bind, exec_bind]
    rcases hf : (body c (itemsAt self.addr w)[n]).exec w with _ | ⟨er | fl, w'⟩
    · rfl
    · rfl
    · cases fl with
      | stop c' => rfl
      | next c' =>
        have ht := h c n _ w _ w' hi hf
        have hl := congrArg List.length ht
        simp only [List.length_take] at hl
        have := ih c' w' (by omega)
        rw [ht] at this
        exact this

theorem reversed_start (self : Ref) (body : C → Val ω → PyD (World ω τ) (Flow C)) (c : C) (w : World ω τ) :
    ((reversed self).forLoop body c).exec w = ((reversed self).loop body (some ((itemsAt self.addr w).length - 1)) c).exec w := by
  have hn : (reversed (τ := τ) self |>.next none).exec w = (reversed (τ := τ) self |>.next (some ((itemsAt self.addr w).length - 1))).exec w := rfl
  have e : ((reversed self).forLoop body c).exec w = ((reversed self).loop body none c).exec w := rfl
  rw [e, Iterable.loop_eq, Iterable.loop_eq, exec_bind, exec_bind, hn]

theorem pop_last (self : Ref) (w : World ω τ) : (inPlace self (fun a => a.pop)).exec w =
    match (itemsAt self.addr w).getLast? with
    | none => some (.error .indexError, w)
    | some x => some (.ok x, (w.1.write self.addr ⟨(w.1.cells self.addr).kind, (itemsAt self.addr w).dropLast⟩, w.2)) := by
  have hp : (self.view w.1).pop = match (itemsAt self.addr w).getLast? with
      | none => .error .indexError
      | some x => .ok (x, ⟨⟨(w.1.cells self.addr).kind, (itemsAt self.addr w).dropLast⟩, self.typecode⟩) := by
    have e : (self.view w.1).value.items = itemsAt self.addr w := rfl
    simp only [TypedArray.pop, TypedArray.item, Builtins.item, TypedArray.delItem, TypedArray.position, e, bind, Except.bind]
    rcases hl : itemsAt self.addr w with _ | ⟨x, xs⟩
    · rfl
    · have h1 : ¬ ((if (-1 : Int) < 0 then -1 + ((x :: xs).length : Int) else -1) < 0) := by
        rw [List.length_cons]; omega
      have h2 : (if (-1 : Int) < 0 then -1 + ((x :: xs).length : Int) else -1).toNat = (x :: xs).length - 1 := by
        rw [List.length_cons]; omega
      have h3 : ¬ ((if (-1 : Int) < 0 then -1 + ((x :: xs).length : Int) else -1) < 0 ∨
          (if (-1 : Int) < 0 then -1 + ((x :: xs).length : Int) else -1) ≥ ((x :: xs).length : Int)) := by
        rw [List.length_cons]; omega
      rw [if_neg h1, if_neg h3, h2, ← List.getLast?_eq_getElem?, List.getLast?_eq_some_getLast (List.cons_ne_nil x xs)]
      simp only [List.eraseIdx_length_sub_one]
      rfl
  simp only [inPlace, PyD.exec, hp]
  cases (itemsAt self.addr w).getLast? <;> rfl

theorem clear_loop (self : Ref) (n : Nat) (w : World ω τ) (hn : (itemsAt self.addr w).length = n) :
    (clearLoop self).exec w = some (.error .indexError, (w.1.write self.addr ⟨(w.1.cells self.addr).kind, []⟩, w.2)) := by
  induction n generalizing w with
  | zero =>
    have hz := List.eq_nil_of_length_eq_zero hn
    rw [clearLoop, exec_bind, pop_last, hz]
    have : (⟨(w.1.cells self.addr).kind, []⟩ : Storage ω) = w.1.cells self.addr := by
      rw [← hz]
      rfl
    rw [this, write_self]
    rfl
  | succ n ih =>
    have hne : itemsAt self.addr w ≠ [] := fun h => by rw [h] at hn; cases hn
    rw [clearLoop, exec_bind, pop_last, List.getLast?_eq_some_getLast hne]
    simp only
    rw [ih]
    · simp only [write_write]
      simp only [Heap.write, if_true]
    · have : (itemsAt self.addr w).length - 1 = n := by omega
      simpa [itemsAt, Heap.write] using this

end Expression.ArrLive
