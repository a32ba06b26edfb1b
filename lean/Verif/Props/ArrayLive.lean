import Verif.Lemmas.ArrayLive

/-! # Property C133: callbacks that change the array they are called for -/

namespace Expression.Props

open Expression Arr ArrLive Spec Lemmas Builtins

variable {ω τ β γ C : Type}

/-- The full property: whatever a callback does, every element that the array had at the start is given to it exactly once, in order. -/
def C133_full_statement : Prop :=
  ∀ (self : Ref) (f : Val Unit → PyD (World Unit Unit) Unit) (w w' : World Unit Unit) (seen : List (Val Unit)),
    (fold self (fun seen x => do
      f x
      pure (seen ++ [x])) []).exec w = some (.ok seen, w') → seen = itemsAt self.addr w

/-- a heap with one array of four numbers -/
private def four : World Unit Unit := (⟨fun _ => ⟨.list, plainInts [1, 2, 3, 4]⟩, 1⟩, ())

/-- **C133 is false of the code**: when the callback deletes the first element, every second element is skipped. -/
theorem C133_full_statement_false : ¬ C133_full_statement := by
  intro h
  have hv : Visits 0 (fun (seen : List (Val Unit)) x => do
      delItem ⟨0, .any⟩ 0
      (pure (seen ++ [x]) : PyD (World Unit Unit) _)) 0 [] four (plainInts [1, 3]) (plainInts [1, 3])
      ((four.1.write 0 ⟨.list, plainInts [2, 3, 4]⟩).write 0 ⟨.list, plainInts [3, 4]⟩, ()) :=
    .succ (x := .int .plain 1) (c1 := plainInts [1]) (w1 := (four.1.write 0 ⟨.list, plainInts [2, 3, 4]⟩, ())) rfl rfl
      (.succ (x := .int .plain 3) (c1 := plainInts [1, 3]) rfl rfl .zero)
  have := h ⟨0, .any⟩ (fun _ => delItem ⟨0, .any⟩ 0) four _ (plainInts [1, 3])
    (by rw [fold_loop, loop_visits hv, loop_end]; rfl)
  revert this
  decide

/-- **C133 (what is visited).** `fold` with any callback: let `xs` be the elements visited so far, each read at its position at the
moment of the call (`Visits`), leaving the state `c'` and the world `w'`.  If the array then has no element at the next position, `fold` is done and
returns `c'`; otherwise the next call decides: what it raises comes out, and if it does not return neither does `fold`. -/
theorem C133_history (self : Ref) (folder : C → Val ω → PyD (World ω τ) C) (c c' : C) (w w' : World ω τ) (xs : List (Val ω))
    (hv : Visits self.addr folder 0 c w xs c' w') :
    ((itemsAt self.addr w')[xs.length]? = none → (fold self folder c).exec w = some (.ok c', w')) ∧
    (∀ x e w'', (itemsAt self.addr w')[xs.length]? = some x → (folder c' x).exec w' = some (.error e, w'') →
      (fold self folder c).exec w = some (.error e, w'')) ∧
    (∀ x, (itemsAt self.addr w')[xs.length]? = some x → (folder c' x).exec w' = none → (fold self folder c).exec w = none) ∧
    (∀ x c1 w1, (itemsAt self.addr w')[xs.length]? = some x → (folder c' x).exec w' = some (.ok c1, w1) →
      Visits self.addr folder 0 c w (xs ++ [x]) c1 w1) := by
  have e := loop_visits hv
  rw [Nat.zero_add] at e
  refine ⟨fun h => ?_, fun x er w'' h hf => ?_, fun x h hf => ?_, fun x c1 w1 h hf => ?_⟩
  · rw [fold_loop, e, loop_end _ _ _ _ _ h]
  · rw [fold_loop, e, loop_call h, hf]
  · rw [fold_loop, e, loop_call h, hf]
  · have key : ∀ {i c w xs c' w'}, Visits self.addr folder i c w xs c' w' → (itemsAt self.addr w')[i + xs.length]? = some x →
        (folder c' x).exec w' = some (.ok c1, w1) → Visits self.addr folder i c w (xs ++ [x]) c1 w1 := by
      intro i c w xs c' w' hv
      induction hv with
      | zero => exact fun h hf => .succ h hf .zero
      | @succ i c w y c2 w2 xs c' w' hy call rest ih =>
        intro h hf
        refine .succ hy call (ih ?_ hf)
        rw [← h]
        congr 1
        simp only [List.length_cons]
        omega
    exact key hv (by rw [Nat.zero_add]; exact h) hf

/-- **C133 (the other methods).** `map`, `filter` and `collect` go through the array as `fold` does, with the list of results so far as
the state, and make an array of them afterwards. -/
theorem C133_methods [Floats ω] (long : Nat) (self : Ref) (f : Val ω → PyD (World ω τ) (Val ω)) (p : Val ω → PyD (World ω τ) Bool)
    (g : Val ω → PyD (World ω τ) Ref) :
    map long self f = (do
      let ys ← fold self (fun acc x => do
        let y ← f x
        pure (acc ++ [y])) []
      construct long (.detached (.iterable ys)) none) ∧
    filter long self p = (do
      let ys ← fold self (fun acc x => do
        let b ← p x
        pure (if b then acc ++ [x] else acc)) []
      construct long (.detached (.iterable ys)) (some self.typecode)) ∧
    collect long self g = (do
      let ys ← fold self (fun acc x => do
        let r ← g x
        let zs ← (fun w => some (.ok (itemsAt r.addr w), w))
        pure (acc ++ zs)) []
      construct long (.detached (.iterable ys)) none) := by
  have ht : ∀ addr, ((cellIter addr).toList : PyD (World ω τ) _) = fun w => some (.ok (itemsAt addr w), w) :=
    fun addr => PyD.ext (toList_cell addr)
  refine ⟨?_, ?_, ?_⟩
  · simp only [map, fold, bind_assoc, pure_bind]
  · simp only [filter, fold, bind_assoc, pure_bind]
  · simp only [collect, fold, bind_assoc, pure_bind, ht]

private theorem forall_visits (addr : Nat) (p : Val ω → PyD (World ω τ) Bool) {i : Nat} {bs bs' : List Bool} {w w' : World ω τ}
    {xs : List (Val ω)} (hv : Visits addr (fun bs x => do let b ← p x; pure (bs ++ [b])) i bs w xs bs' w') (hb : ∀ b ∈ bs', b = true) :
    ((cellIter addr).loop (fun _ x => do
        let b ← p x
        pure (if b then .next true else .stop false)) i true).exec w =
      ((cellIter addr).loop (fun _ x => do
        let b ← p x
        pure (if b then .next true else .stop false)) (i + xs.length) true).exec w' := by
  induction hv with
  | zero => rfl
  | @succ i bs w x bs1 w1 xs bs' w' hx call rest ih =>
    rw [PyD.exec_bind] at call
    rcases hp : (p x).exec w with _ | ⟨_ | b, w2⟩ <;> rw [hp] at call <;> cases call
    have hpre : ∀ {i bs w xs bs' w'}, Visits addr (fun bs x => do let b ← p x; pure (bs ++ [b])) i bs w xs bs' w' → ∀ b ∈ bs, b ∈ bs' := by
      intro i bs w xs bs' w' hv
      induction hv with
      | zero => exact fun _ h => h
      | @succ i bs w x bs1 w1 xs bs' w' hx call rest ih =>
        rw [PyD.exec_bind] at call
        rcases hp : (p x).exec w with _ | ⟨_ | b, w2⟩ <;> rw [hp] at call <;> cases call
        exact fun b h => ih b (List.mem_append_left _ h)
    have hbt : b = true := hb b (hpre rest b (by simp))
    subst hbt
    rw [loop_at _ _ _ _ _ _ hx, bind_assoc, PyD.exec_bind, hp]
    simp only [if_true, pure_bind, Iterable.cont_next]
    rw [ih hb, List.length_cons]
    congr 2
    omega

/-- `forall` stops at the first element for which the predicate is false: as long as it was true (`answers`), the next element is read
at its position at that moment, and there the predicate decides; with no element there, the result is `True`. -/
theorem C133_forall (self : Ref) (p : Val ω → PyD (World ω τ) Bool) (w w' : World ω τ) (xs : List (Val ω)) (answers : List Bool)
    (hv : Visits self.addr (fun bs x => do let b ← p x; pure (bs ++ [b])) 0 [] w xs answers w') (ht : ∀ b ∈ answers, b = true) :
    ((itemsAt self.addr w')[xs.length]? = none → (forall' self p).exec w = some (.ok true, w')) ∧
    (∀ x w'', (itemsAt self.addr w')[xs.length]? = some x → (p x).exec w' = some (.ok false, w'') →
      (forall' self p).exec w = some (.ok false, w'')) ∧
    (∀ x e w'', (itemsAt self.addr w')[xs.length]? = some x → (p x).exec w' = some (.error e, w'') →
      (forall' self p).exec w = some (.error e, w'')) ∧
    (∀ x, (itemsAt self.addr w')[xs.length]? = some x → (p x).exec w' = none → (forall' self p).exec w = none) := by
  have e := forall_visits self.addr p hv ht
  rw [Nat.zero_add] at e
  have e' : (forall' self p).exec w = _ := e
  rw [e']
  refine ⟨fun h => loop_end _ _ _ _ _ h, fun x w'' h hp => ?_, fun x er w'' h hp => ?_, fun x h hp => ?_⟩ <;>
    rw [loop_at _ _ _ _ _ _ h, bind_assoc, PyD.exec_bind, hp] <;> rfl

/-- **C133 (bounded).** If every call of the callback returns or raises, and no call lets the array grow beyond `N` elements, then
going through it ends, after at most `N` calls. -/
theorem C133_bounded (self : Ref) (folder : C → Val ω → PyD (World ω τ) C) (N : Nat)
    (hb : ∀ c x w, (itemsAt self.addr w).length ≤ N →
      ∃ r w', (folder c x).exec w = some (r, w') ∧ (itemsAt self.addr w').length ≤ N)
    (c : C) (w : World ω τ) (hw : (itemsAt self.addr w).length ≤ N) :
    ∃ xs c' w', Visits self.addr folder 0 c w xs c' w' ∧
      (xs.length ≤ N ∧ (fold self folder c).exec w = some (.ok c', w') ∨
        ∃ x e w'', xs.length + 1 ≤ N ∧ (folder c' x).exec w' = some (.error e, w'') ∧
          (fold self folder c).exec w = some (.error e, w'')) := by
  obtain ⟨xs, c', w', hv, h1, h2, h3⟩ := loop_bounded hb N 0 (by omega) c w hw
  rw [Nat.zero_add] at h3
  have H := C133_history self folder c c' w w' xs hv
  refine ⟨xs, c', w', hv, ?_⟩
  rcases h3 with h3 | ⟨x, e, w'', h3, h4, h5⟩
  · exact .inl ⟨by omega, H.1 h3⟩
  · exact .inr ⟨x, e, w'', by omega, h5, H.2.1 x e w'' h3 h5⟩

/-- **C133 (endless).** If every call of the callback adds an element, going through an array that is not empty never ends. -/
theorem C133_endless (self : Ref) (folder : C → Val ω → PyD (World ω τ) C)
    (hg : ∀ c x w r w', (folder c x).exec w = some (r, w') →
      (∃ c', r = .ok c') ∧ (itemsAt self.addr w).length < (itemsAt self.addr w').length)
    (c : C) (w : World ω τ) (hw : itemsAt self.addr w ≠ []) : (fold self folder c).exec w = none :=
  loop_endless hg 0 c w (List.length_pos_iff.mpr hw)

/-- **C133 (partial).** If no call changes what is ahead of it (it may change what was visited already, and anything else), every
element that the array had at the start is given to the callback exactly once, in order. -/
theorem C133_fold_partial (self : Ref) (folder : C → Val ω → PyD (World ω τ) C) (h : ∀ c, LeavesAhead self.addr (folder c)) (c : C)
    (w : World ω τ) : (fold self folder c).exec w = (foldLeftD folder c (itemsAt self.addr w)).exec w :=
  loop_ahead h _ 0 c w rfl

private theorem ahead_bind {addr : Nat} {f : Val ω → PyD (World ω τ) β} (h : LeavesAhead addr f) (k : Val ω → β → C) :
    LeavesAhead addr (fun x => do let y ← f x; pure (k x y)) := by
  intro i x w r w' hx he
  rw [PyD.exec_bind] at he
  rcases hf : (f x).exec w with _ | ⟨e | y, w1⟩ <;> rw [hf] at he
  · cases he
  · cases he; exact h i x w _ _ hx hf
  · cases he; exact h i x w _ _ hx hf

/-- The same for `map` and `filter`: with such callbacks they do on the heap what the methods do to the array's value (C69). -/
theorem C133_map_filter_partial [Floats ω] (long : Nat) (self : Ref) (f : Val ω → Py (World ω τ) (Val ω)) (p : Val ω → Py (World ω τ) Bool)
    (hf : LeavesAhead self.addr (fun x => PyD.ofPy (f x))) (hp : LeavesAhead self.addr (fun x => PyD.ofPy (p x))) (w : World ω τ) :
    MakesNew (map long self (fun x => PyD.ofPy (f x))) ((self.view w.1).map long f) w ∧
    MakesNew (filter long self (fun x => PyD.ofPy (p x))) ((self.view w.1).filter long p) w := by
  obtain ⟨h1, h2, _⟩ := C133_methods long self (fun x => PyD.ofPy (f x)) (fun x => PyD.ofPy (p x)) (fun _ => PyD.raise .indexError)
  rw [h1, h2]
  constructor
  · refine makes_new none ?_
    rw [C133_fold_partial _ _ (fun c => ahead_bind hf (fun _ y => c ++ [y]))]
    have e : (fun (acc : List (Val ω)) x => do let y ← PyD.ofPy (f x); pure (acc ++ [y])) =
        fun acc x => (PyD.ofPy (do let y ← f x; pure (acc ++ [y])) : PyD (World ω τ) _) := by
      funext acc x
      apply PyD.ext
      intro w
      simp only [PyD.exec_bind, PyD.exec_ofPy, Py.exec_bind]
      rcases (f x).exec w with ⟨_ | _, _⟩ <;> rfl
    rw [e, foldLeftD_ofPy, reduce_map, PyD.exec_ofPy]
    rfl
  · refine makes_new (some self.typecode) ?_
    rw [C133_fold_partial _ _ (fun c => ahead_bind hp (fun x b => if b then c ++ [x] else c))]
    have e : (fun (acc : List (Val ω)) x => do let b ← PyD.ofPy (p x); pure (if b then acc ++ [x] else acc)) =
        fun acc x => (PyD.ofPy (do let b ← p x; pure (if b then acc ++ [x] else acc)) : PyD (World ω τ) _) := by
      funext acc x
      apply PyD.ext
      intro w
      simp only [PyD.exec_bind, PyD.exec_ofPy, Py.exec_bind]
      rcases (p x).exec w with ⟨_ | _, _⟩ <;> rfl
    rw [e, foldLeftD_ofPy, reduce_filter, PyD.exec_ofPy]
    rfl

/-- **C133 (`sort_with`).** `sort_with` copies the elements first: whatever the function does to the array, the result is what sorting
the array as it was at the start gives. -/
theorem C133_sort_with [Floats ω] (long : Nat) (lt : γ → γ → Bool) (self : Ref) (func : Val ω → Py (World ω τ) γ) (reverse : Bool)
    (w : World ω τ) : MakesNew (sortWith long lt self func reverse) ((self.view w.1).sortWith long lt func reverse) w := by
  simp only [sortWith, TypedArray.sortWith]
  have h : ((cellIter self.addr).toList >>= fun xs => PyD.ofPy (sorted lt func reverse xs)).exec w =
      some ((sorted lt func reverse (self.view w.1).value.items).exec w) := by
    rw [PyD.exec_bind, toList_cell]
    exact PyD.exec_ofPy _ _
  have := makes_new (long := long) none h
  rw [bind_assoc] at this
  exact this

/-- **C133 (`extend`).** `a.extend(b)` appends the elements that `b` has at the start, as the list of them would (C67), if the two have
separate storage; and so does `a.extend(a)`. -/
theorem C133_extend [Floats ω] (long : Nat) (a b : Ref) (w : World ω τ) :
    (b.addr ≠ a.addr → (extend long a (cellIter b.addr)).exec w =
      (match (a.view w.1).extend long (b.view w.1).iter with
        | (none, a') => some (.ok (), (w.1.write a.addr a'.value, w.2))
        | (some e, a') => some (.error e, (w.1.write a.addr a'.value, w.2)))) ∧
    (extendSelf long a).exec w =
      (match (a.view w.1).extend long (a.view w.1).iter with
        | (none, a') => some (.ok (), (w.1.write a.addr a'.value, w.2))
        | (some e, a') => some (.error e, (w.1.write a.addr a'.value, w.2))) := by
  constructor
  · intro hne
    have := extend_cell (long := long) a hne (itemsAt b.addr w) 0 w rfl
    change ((cellIter b.addr).loop (extendBody long a) 0 ()).exec w = _
    rw [this]
    simp only [extended]
    change _ = (match (a.view w.1).extend long (itemsAt b.addr w) with
        | (none, a') => _
        | (some e, a') => _)
    rcases (a.view w.1).extend long (itemsAt b.addr w) with ⟨_ | e, a'⟩ <;> rfl
  · simp only [extendSelf]
    rw [PyD.exec_bind, toList_cell]
    have := extend_list (long := long) a (itemsAt a.addr w) (itemsAt a.addr w) w
    change ((Iterable.ofList _).loop (extendBody long a) (itemsAt a.addr w) ()).exec w = _
    rw [this]
    simp only [extended]
    change _ = (match (a.view w.1).extend long (itemsAt a.addr w) with
        | (none, a') => _
        | (some e, a') => _)
    rcases (a.view w.1).extend long (itemsAt a.addr w) with ⟨_ | e, a'⟩ <;> rfl

/-- But two arrays made of the same `bytearray` share it (C68): then `a.extend(b)` never ends, unless it is empty. -/
theorem C133_extend_shared [Floats ω] (long : Nat) (h h1 h2 : Heap ω) (addr : Nat) (a b : Ref) (t : τ)
    (hk : (h.cells addr).kind = .bytes) (hx : Bytes (h.cells addr).items) (hne : (h.cells addr).items ≠ [])
    (ha : newArray long h (.at addr) none = .ok (a, h1)) (hb : newArray long h1 (.at addr) none = .ok (b, h2)) :
    (extend long a (cellIter b.addr)).exec (h2, t) = none := by
  have e : ∀ {h h' : Heap ω} {r : Ref}, (h.cells addr).kind = .bytes → newArray long h (.at addr) none = .ok (r, h') →
      r = ⟨addr, .byte⟩ ∧ h' = h := by
    intro h h' r hk hn
    simp only [newArray, InitRef.read, hk] at hn
    cases hn
    exact ⟨rfl, rfl⟩
  obtain ⟨rfl, rfl⟩ := e hk ha
  obtain ⟨rfl, rfl⟩ := e hk hb
  exact extend_same ⟨addr, .byte⟩ 0 (h2, t) (by simp only [itemsAt, hk]; exact bytes_stored hx) (List.length_pos_iff.mpr hne)

/-- a callback that appends its argument to the array, up to six elements, and logs it -/
private def growTo6 (x : Val Unit) : PyD (World Unit (List (Val Unit))) Unit := fun w =>
  if (itemsAt 0 w).length < 6 then ((append 64 ⟨0, .any⟩ x).exec w).map (fun r => (r.1, (r.2.1, r.2.2 ++ [x]))) else
    some (.ok (), (w.1, w.2 ++ [x]))

/-- `C133_bounded` applies to it. -/
example (c : Unit) (x : Val Unit) (w : World Unit (List (Val Unit))) (h : (itemsAt 0 w).length ≤ 6) :
    ∃ r w', ((fun (_ : Unit) x => growTo6 x) c x).exec w = some (r, w') ∧ (itemsAt 0 w').length ≤ 6 := by
  simp only [growTo6, PyD.exec]
  split
  · rename_i hl
    have hs : (append 64 ⟨0, .any⟩ x) w = _ := append_exec (long := 64) ⟨0, .any⟩ x w
    rw [hs]
    cases ha : (Ref.view w.1 ⟨0, .any⟩).append 64 x with
    | error e => exact ⟨_, _, rfl, h⟩
    | ok a =>
      refine ⟨_, _, rfl, ?_⟩
      rw [append_eq] at ha
      split at ha <;> cases ha
      simp only [itemsAt, Heap.write, if_pos, withItems, Ref.view, List.length_append, List.length_singleton] at hl ⊢
      omega
  · exact ⟨_, _, rfl, h⟩

/-- A callback that sets the first element leaves what is ahead alone. -/
example : LeavesAhead 0 (fun x => (inPlace ⟨0, .any⟩ (fun a => (TypedArray.setItem 64 a 0 x).map (fun a' => ((), a'))) : PyD (World Unit Unit) Unit)) := by
  intro i x w r w' hx he
  have hp : ∀ n k, TypedArray.position n 0 = .ok k → k = 0 := by
    intro n k h
    simp only [TypedArray.position, Int.lt_irrefl, if_false] at h
    by_cases hc : (0 : Int) ≥ n
    · rw [if_pos (.inr hc)] at h; cases h
    · rw [if_neg (by simpa using hc)] at h; cases h; rfl
  have hs : ∀ a : TypedArray Unit, ∀ a', TypedArray.setItem 64 a 0 x = .ok a' → ∃ v, a'.value.items = a.value.items.set 0 v := by
    intro a a' h
    simp only [TypedArray.setItem] at h
    split at h
    · cases hc : convert 64 .bytes x <;> rw [hc] at h <;> try cases h
      cases hk : TypedArray.position a.value.items.length 0 <;> rw [hk] at h <;> cases h
      exact ⟨_, by rw [hp _ _ hk]⟩
    · cases hk : TypedArray.position a.value.items.length 0 <;> rw [hk] at h <;> try cases h
      cases hc : convert 64 a.value.kind x <;> rw [hc] at h <;> cases h
      exact ⟨_, by rw [hp _ _ hk]⟩
  simp only [inPlace, PyD.exec] at he
  cases ha : TypedArray.setItem 64 (Ref.view w.1 ⟨0, .any⟩) 0 x with
  | error e => rw [ha] at he; cases he; rfl
  | ok a =>
    rw [ha] at he
    cases he
    obtain ⟨v, hv⟩ := hs _ _ ha
    change (((w.1.write 0 a.value).cells 0).items).drop (i + 1) = _
    simp only [Heap.write, if_pos, hv]
    rw [List.drop_set_of_lt (by omega)]
    rfl

/-- Two arrays of one `bytearray`, as in `C133_extend_shared`. -/
example : ∃ a b h1 h2, newArray 64 (⟨fun _ => ⟨.bytes, plainInts [7]⟩, 1⟩ : Heap Unit) (.at 0) none = .ok (a, h1) ∧
    newArray 64 h1 (.at 0) none = .ok (b, h2) := ⟨_, _, _, _, rfl, rfl⟩

end Expression.Props
