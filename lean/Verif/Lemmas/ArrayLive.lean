import Verif.Spec.ArrayLive
import Verif.Lemmas.Array2
import Verif.Lemmas.PyD

/-! Lemmas about arrays that change while they are gone through. -/

namespace Expression.ArrLive

open Arr Spec PyD Builtins Lemmas

variable {ω τ β γ C S : Type}

/-- the body of the loop in `fold` -/
def foldBody (folder : C → Val ω → PyD (World ω τ) C) (c : C) (x : Val ω) : PyD (World ω τ) (Flow C) := do
  let c' ← folder c x
  pure (.next c')

theorem loop_end (addr : Nat) (body : C → Val ω → PyD (World ω τ) (Flow C)) (i : Nat) (c : C) (w : World ω τ)
    (h : (itemsAt addr w)[i]? = none) : ((cellIter addr).loop body i c).exec w = some (.ok c, w) := by
  have hn : (cellIter (τ := τ) addr |>.next i).exec w = some (.ok none, w) := by
    simp only [itemsAt] at h
    simp only [cellIter, PyD.exec, h, Option.map_none]
  rw [Iterable.loop_eq, exec_bind, hn]
  rfl

theorem loop_at (addr : Nat) (body : C → Val ω → PyD (World ω τ) (Flow C)) (i : Nat) (c : C) (w : World ω τ) (x : Val ω)
    (h : (itemsAt addr w)[i]? = some x) : ((cellIter addr).loop body i c).exec w =
      PyD.exec (body c x >>= Iterable.cont ((cellIter addr).loop body) (i + 1)) w := by
  have hn : (cellIter (τ := τ) addr |>.next i).exec w = some (.ok (some (x, i + 1)), w) := by
    simp only [itemsAt] at h
    simp only [cellIter, PyD.exec, h, Option.map_some]
  rw [Iterable.loop_eq, exec_bind, hn]
  rfl

theorem fold_loop (self : Ref) (folder : C → Val ω → PyD (World ω τ) C) (c : C) (w : World ω τ) :
    (fold self folder c).exec w = ((cellIter self.addr).loop (foldBody folder) 0 c).exec w := rfl

theorem loop_visits {addr : Nat} {folder : C → Val ω → PyD (World ω τ) C} {i : Nat} {c : C} {w : World ω τ} {xs : List (Val ω)} {c' : C}
    {w' : World ω τ} (h : Visits addr folder i c w xs c' w') :
    ((cellIter addr).loop (foldBody folder) i c).exec w = ((cellIter addr).loop (foldBody folder) (i + xs.length) c').exec w' := by
  induction h with
  | zero => rfl
  | @succ i c w x c1 w1 xs c' w' hx call rest ih =>
    rw [loop_at _ _ _ _ _ _ hx, foldBody, bind_assoc, exec_bind, call]
    simp only [pure_bind, Iterable.cont_next]
    rw [ih, List.length_cons]
    congr 2
    omega

/-- what a call leaves to do -/
theorem loop_call {addr : Nat} {folder : C → Val ω → PyD (World ω τ) C} {i : Nat} {c : C} {w : World ω τ} {x : Val ω}
    (hx : (itemsAt addr w)[i]? = some x) :
    ((cellIter addr).loop (foldBody folder) i c).exec w = match (folder c x).exec w with
      | none => none
      | some (.error e, w') => some (.error e, w')
      | some (.ok c', w') => ((cellIter addr).loop (foldBody folder) (i + 1) c').exec w' := by
  rw [loop_at _ _ _ _ _ _ hx, foldBody, bind_assoc, exec_bind]
  rcases (folder c x).exec w with _ | ⟨_ | _, _⟩
  · rfl
  · rfl
  · simp only [pure_bind, Iterable.cont_next]

/-- a bound on the length bounds the number of calls -/
theorem loop_bounded {addr : Nat} {folder : C → Val ω → PyD (World ω τ) C} {N : Nat}
    (hb : ∀ c x w, (itemsAt addr w).length ≤ N →
      ∃ r w', (folder c x).exec w = some (r, w') ∧ (itemsAt addr w').length ≤ N) (k i : Nat) (hk : N - i ≤ k) (c : C) (w : World ω τ)
    (hw : (itemsAt addr w).length ≤ N) :
    ∃ xs c' w', Visits addr folder i c w xs c' w' ∧ xs.length ≤ N - i ∧ (itemsAt addr w').length ≤ N ∧
      ((itemsAt addr w')[i + xs.length]? = none ∨
        ∃ x e w'', (itemsAt addr w')[i + xs.length]? = some x ∧ xs.length < N - i ∧ (folder c' x).exec w' = some (.error e, w'')) := by
  induction k generalizing i c w with
  | zero =>
    refine ⟨[], c, w, .zero, by simp, hw, .inl ?_⟩
    simp; omega
  | succ k ih =>
    cases hx : (itemsAt addr w)[i]? with
    | none => exact ⟨[], c, w, .zero, by simp, hw, .inl hx⟩
    | some x =>
      have hi : i < (itemsAt addr w).length := (List.getElem?_eq_some_iff.1 hx).1
      obtain ⟨r, w1, hr, hl⟩ := hb c x w hw
      rcases r with e | c1
      · exact ⟨[], c, w, .zero, by simp, hw, .inr ⟨x, e, w1, hx, by simp; omega, hr⟩⟩
      · obtain ⟨xs, c', w', hv, h1, h2, h3⟩ := ih (i + 1) (by omega) c1 w1 hl
        refine ⟨x :: xs, c', w', .succ hx hr hv, by simp; omega, h2, ?_⟩
        have e : i + (x :: xs).length = i + 1 + xs.length := by simp; omega
        rw [e]
        rcases h3 with h3 | ⟨y, e', w'', h4, h5, h6⟩
        · exact .inl h3
        · exact .inr ⟨y, e', w'', h4, by simp; omega, h6⟩

/-- growing with every call: the loop never ends -/
theorem loop_endless {addr : Nat} {folder : C → Val ω → PyD (World ω τ) C}
    (hg : ∀ c x w r w', (folder c x).exec w = some (r, w') → (∃ c', r = .ok c') ∧ (itemsAt addr w).length < (itemsAt addr w').length)
    (i : Nat) (c : C) (w : World ω τ) (hi : i < (itemsAt addr w).length) :
    ((cellIter addr).loop (foldBody folder) i c).exec w = none := by
  cases hr : ((cellIter addr).loop (foldBody folder) i c).exec w with
  | none => rfl
  | some r =>
    exfalso
    refine Iterable.loop_post (cellIter addr) (foldBody folder) (fun i c w r => i < (itemsAt addr w).length → False) ?_ i c w r hr hi
    intro F hF i c w r hr hi
    have hx : (itemsAt addr w)[i]? = some (itemsAt addr w)[i] := List.getElem?_eq_getElem hi
    have hn : (cellIter (τ := τ) addr |>.next i).exec w = some (.ok (some ((itemsAt addr w)[i], i + 1)), w) := by
      have hx' := hx
      simp only [itemsAt] at hx'
      simp only [cellIter, PyD.exec, hx', Option.map_some, itemsAt]
    rw [exec_bind, hn] at hr
    simp only [Iterable.step_some, foldBody, bind_assoc] at hr
    rw [exec_bind] at hr
    rcases hf : (folder c (itemsAt addr w)[i]).exec w with _ | ⟨r1, w1⟩
    · rw [hf] at hr; cases hr
    · obtain ⟨⟨c', rfl⟩, hl⟩ := hg _ _ _ _ _ hf
      rw [hf] at hr
      exact hF (i + 1) c' w1 r hr (by omega)

/-- leaving alone what is ahead: the elements that were there at the start -/
theorem loop_ahead {addr : Nat} {folder : C → Val ω → PyD (World ω τ) C} (h : ∀ c, LeavesAhead addr (folder c)) (xs : List (Val ω)) (i : Nat)
    (c : C) (w : World ω τ) (hx : (itemsAt addr w).drop i = xs) :
    ((cellIter addr).loop (foldBody folder) i c).exec w = (foldLeftD folder c xs).exec w := by
  induction xs generalizing i c w with
  | nil =>
    rw [loop_end _ _ _ _ _ (by simpa using hx)]
    rfl
  | cons x xs ih =>
    have hi : (itemsAt addr w)[i]? = some x := by
      have := congrArg List.head? hx
      simpa [List.head?_drop] using this
    have hd : (itemsAt addr w).drop (i + 1) = xs := by
      have := congrArg List.tail hx
      simpa [List.tail_drop] using this
    rw [loop_call hi, foldLeftD, exec_bind]
    rcases hf : (folder c x).exec w with _ | ⟨e | c', w'⟩
    · rfl
    · rfl
    · exact ih (i + 1) c' w' (by rw [h c i x w _ w' hi hf, hd])

/-- `list(self)` -/
theorem toList_cell (addr : Nat) (w : World ω τ) : ((cellIter addr).toList).exec w = some (.ok (itemsAt addr w), w) := by
  have h : ∀ (xs acc : List (Val ω)) (i : Nat), (itemsAt addr w).drop i = xs →
      ((cellIter addr).loop (fun (acc : List (Val ω)) x => pure (.next (acc ++ [x]))) i acc).exec w = some (.ok (acc ++ xs), w) := by
    intro xs
    induction xs with
    | nil =>
      intro acc i hx
      rw [loop_end _ _ _ _ _ (by simpa using hx), List.append_nil]
    | cons x xs ih =>
      intro acc i hx
      have hi : (itemsAt addr w)[i]? = some x := by
        have := congrArg List.head? hx
        simpa [List.head?_drop] using this
      have hd : (itemsAt addr w).drop (i + 1) = xs := by
        have := congrArg List.tail hx
        simpa [List.tail_drop] using this
      rw [loop_at _ _ _ _ _ _ hi]
      simp only [pure_bind, Iterable.cont_next]
      rw [ih _ _ hd, List.append_assoc]
      rfl
  exact h _ [] 0 rfl

section
variable [Floats ω] {long : Nat}

theorem construct_new (xs : List (Val ω)) (tc : Option TypeCode) (w : World ω τ) :
    (match init long (.iterable xs) tc with
      | .error e => (construct long (.detached (.iterable xs)) tc).exec w = some (.error e, w)
      | .ok a => ∃ r h', (construct long (.detached (.iterable xs)) tc).exec w = some (.ok r, (h', w.2)) ∧ NewArray w.1 a r h') := by
  have hc : (construct (τ := τ) long (.detached (.iterable xs)) tc).exec w = (match newArray long w.1 (.detached (.iterable xs)) tc with
    | .error e => some (.error e, w)
    | .ok (r, h) => some (.ok r, (h, w.2))) := rfl
  rw [hc]
  cases hi : init long (.iterable xs) tc with
  | error e => simp only [newArray, InitRef.read, hi]
  | ok a =>
    simp only [newArray, InitRef.read, hi]
    refine ⟨_, _, rfl, rfl, rfl, ?_, ?_⟩
    · simp only [Ref.view, if_pos]
    · intro k hk
      simp only [if_neg hk]

/-- a list of results, then a new array -/
theorem makes_new {ys : PyD (World ω τ) (List (Val ω))} {q : Py (World ω τ) (List (Val ω))} {w : World ω τ} (tc : Option TypeCode)
    (h : ys.exec w = some (q.exec w)) :
    MakesNew (ys >>= fun zs => construct long (.detached (.iterable zs)) tc)
      (q >>= fun zs => Py.ofExcept (init long (.iterable zs) tc)) w := by
  simp only [MakesNew]
  rw [exec_bind, h, Py.exec_bind]
  rcases hq : q.exec w with ⟨e | zs, w'⟩
  · rfl
  · have := construct_new (long := long) zs tc w'
    cases hi : init long (.iterable zs) tc with
    | error e => rw [hi] at this; simp only [hi]; exact this
    | ok a => rw [hi] at this; simp only [hi]; exact this

end

/-- a fold with callbacks that end is the fold of `Py` -/
theorem foldLeftD_ofPy (f : C → Val ω → Py (World ω τ) C) (c : C) (xs : List (Val ω)) :
    foldLeftD (fun c x => PyD.ofPy (f c x)) c xs = PyD.ofPy (Builtins.reduce f xs c) := by
  induction xs generalizing c with
  | nil => rfl
  | cons x xs ih =>
    apply PyD.ext
    intro w
    simp only [foldLeftD, Builtins.reduce, exec_bind, exec_ofPy, Py.exec_bind]
    rcases (f c x).exec w with ⟨e | c', w'⟩
    · rfl
    · simp only [ih, exec_ofPy]

theorem reduce_map (f : Val ω → Py (World ω τ) β) (xs : List (Val ω)) (acc : List β) :
    Builtins.reduce (fun acc x => do let y ← f x; pure (acc ++ [y])) xs acc = tupleMap.go f xs acc := by
  induction xs generalizing acc with
  | nil => rfl
  | cons x xs ih =>
    simp only [Builtins.reduce, tupleMap.go, bind_assoc, pure_bind, ih]

theorem reduce_filter (p : Val ω → Py (World ω τ) Bool) (xs acc : List (Val ω)) :
    Builtins.reduce (fun acc x => do let b ← p x; pure (if b then acc ++ [x] else acc)) xs acc = tupleFilter.go p xs acc := by
  induction xs generalizing acc with
  | nil => rfl
  | cons x xs ih =>
    simp only [Builtins.reduce, tupleFilter.go, bind_assoc, pure_bind]
    refine bind_congr fun b => ?_
    cases b
    · exact ih acc
    · exact ih (acc ++ [x])

/-! ### `extend` -/

section
variable [Floats ω] {long : Nat}

omit [Floats ω] in
theorem write_self (h : Heap ω) (addr : Nat) : h.write addr (h.cells addr) = h := by
  cases h
  simp only [Heap.write, Heap.mk.injEq, and_true]
  funext k
  split
  · rename_i h; rw [h]
  · rfl

omit [Floats ω] in
theorem write_write (h : Heap ω) (addr : Nat) (s t : Storage ω) : (h.write addr s).write addr t = h.write addr t := by
  simp only [Heap.write, Heap.mk.injEq, and_true]
  funext k
  split <;> rfl

/-- what `extend` leaves, by what the list model says -/
def extended (self : Ref) (w : World ω τ) (res : Option PyErr × TypedArray ω) : Except PyErr Unit × World ω τ :=
  (match res.1 with
    | none => .ok ()
    | some e => .error e, (w.1.write self.addr res.2.value, w.2))

theorem append_exec (self : Ref) (v : Val ω) (w : World ω τ) : (append long self v).exec w =
    (match (self.view w.1).append long v with
      | .error e => some (.error e, w)
      | .ok a => some (.ok (), (w.1.write self.addr a.value, w.2))) := by
  cases ha : (self.view w.1).append long v <;> simp only [append, inPlace, PyD.exec, ha, Except.map]

/-- the body of the loop in `extend` -/
def extendBody (long : Nat) (self : Ref) (_ : Unit) (v : Val ω) : PyD (World ω τ) (Flow Unit) := do
  append long self v
  pure (.next ())

theorem append_typecode {a b : TypedArray ω} {v : Val ω} (h : a.append long v = .ok b) : b.typecode = a.typecode := by
  rw [append_eq] at h
  split at h <;> cases h
  rfl

omit [Floats ω] in
theorem view_write {self : Ref} {h : Heap ω} {a : TypedArray ω} (ht : a.typecode = self.typecode) :
    self.view (h.write self.addr a.value) = a := by
  cases a
  simp only [Ref.view, Heap.write, if_pos]
  cases ht
  rfl

theorem extend_list (self : Ref) (base xs : List (Val ω)) (w : World ω τ) :
    ((Iterable.ofList base).loop (extendBody long self) xs ()).exec w =
      some (extended self w ((self.view w.1).extend long xs)) := by
  induction xs generalizing w with
  | nil =>
    rw [Iterable.loop_ofList_nil]
    simp only [TypedArray.extend, extended, Ref.view, write_self]
    rfl
  | cons v xs ih =>
    rw [Iterable.loop_ofList_cons, extendBody, bind_assoc, exec_bind, append_exec]
    simp only [TypedArray.extend]
    cases ha : (self.view w.1).append long v with
    | error e => simp only [extended, Ref.view, write_self]
    | ok a =>
      simp only [pure_bind, Iterable.cont_next]
      rw [ih, view_write (by rw [append_typecode ha]; rfl)]
      simp only [extended, write_write]

theorem extend_cell (self : Ref) {addr : Nat} (hne : addr ≠ self.addr) (xs : List (Val ω)) (i : Nat) (w : World ω τ)
    (hx : (itemsAt addr w).drop i = xs) :
    ((cellIter addr).loop (extendBody long self) i ()).exec w = some (extended self w ((self.view w.1).extend long xs)) := by
  induction xs generalizing w i with
  | nil =>
    rw [loop_end _ _ _ _ _ (by simpa using hx)]
    simp only [TypedArray.extend, extended, Ref.view, write_self]
  | cons v xs ih =>
    have hi : (itemsAt addr w)[i]? = some v := by
      have := congrArg List.head? hx
      simpa [List.head?_drop] using this
    have hd : (itemsAt addr w).drop (i + 1) = xs := by
      have := congrArg List.tail hx
      simpa [List.tail_drop] using this
    rw [loop_at _ _ _ _ _ _ hi, extendBody, bind_assoc, exec_bind, append_exec]
    simp only [TypedArray.extend]
    cases ha : (self.view w.1).append long v with
    | error e => simp only [extended, Ref.view, write_self]
    | ok a =>
      simp only [pure_bind, Iterable.cont_next]
      rw [ih (i + 1), view_write (by rw [append_typecode ha]; rfl)]
      · simp only [extended, write_write]
      · simp only [itemsAt, Heap.write, if_neg hne]
        exact hd

theorem extend_same (self : Ref) (i : Nat) (w : World ω τ) (hs : Stored long (w.1.cells self.addr).kind (itemsAt self.addr w))
    (hi : i < (itemsAt self.addr w).length) : ((cellIter self.addr).loop (extendBody long self) i ()).exec w = none := by
  cases hr : ((cellIter self.addr).loop (extendBody long self) i ()).exec w with
  | none => rfl
  | some r =>
    exfalso
    refine Iterable.loop_post (cellIter self.addr) (extendBody long self) (fun i _ w r =>
      Stored long (w.1.cells self.addr).kind (itemsAt self.addr w) → i < (itemsAt self.addr w).length → False) ?_ i () w r hr hs hi
    intro F hF i _ w r hr hs hi
    have hx : (itemsAt self.addr w)[i]? = some (itemsAt self.addr w)[i] := List.getElem?_eq_getElem hi
    have hn : (cellIter (τ := τ) self.addr |>.next i).exec w = some (.ok (some ((itemsAt self.addr w)[i], i + 1)), w) := by
      have hx' := hx
      simp only [itemsAt] at hx'
      simp only [cellIter, PyD.exec, hx', Option.map_some, itemsAt]
    have hv := hs _ (List.getElem_mem hi)
    rw [exec_bind, hn] at hr
    simp only [Iterable.step_some, extendBody, bind_assoc] at hr
    rw [exec_bind, append_exec, append_eq] at hr
    have hk : (self.view w.1).value.kind = (w.1.cells self.addr).kind := rfl
    rw [hk, hv] at hr
    refine hF (i + 1) () _ r hr ?_ ?_
    · simp only [itemsAt, Heap.write, if_pos, withItems]
      intro x hx
      simp only [Ref.view] at hx ⊢
      rw [List.mem_append, List.mem_singleton] at hx
      rcases hx with hx | rfl
      · exact hs x hx
      · exact hv
    · simp only [itemsAt, Heap.write, if_pos, withItems, Ref.view, List.length_append, List.length_singleton]
      exact Nat.succ_lt_succ hi

end

end Expression.ArrLive
