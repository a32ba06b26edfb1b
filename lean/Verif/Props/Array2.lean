import Verif.Props.Array
import Verif.Props.Seq2
import Verif.Props.Block
import Verif.Lemmas.Text

/-!
# C92: sums, `unfold` and the text of typed arrays; more of C67 and C69
-/

namespace Expression.Props

open Arr Spec Lemmas PyD

variable {ω σ S : Type} [Floats ω]

/-- What the property says of `sum_by`: the sum, from left to right, of what the function gives for each element. -/
def C92_full_statement : Prop :=
  ∀ (ω σ : Type) [Floats ω] (long : Nat) (plus : Val ω → Val ω → Py σ (Val ω)) (a : TypedArray ω) (f : Val ω → Py σ (Val ω)),
    a.sumBy long plus f = (do
      let ys ← each f a.iter
      foldLeft plus (.int .plain 0) ys)

/-- integers are added, whatever their class; everything else is refused (for the examples) -/
def addInts : Val ω → Val ω → Py σ (Val ω)
  | .int _ m, .int _ n => pure (.int .plain (m + n))
  | _, _ => throw (.typeError "unsupported operand")

/-- The code violates it: with `a = TypedArray([1, 200])`, `a.sum_by(int8)` raises `OverflowError`, though nothing is stored as an
8-bit number by the caller. -/
theorem C92_full_statement_false : ¬ C92_full_statement := by
  intro h
  have := congrArg (fun p => p.exec ()) (h Unit Unit 64 addInts ⟨⟨.list, plainInts [1, 200]⟩, .any⟩ (fun x => match x with
    | .int _ n => pure (.int .int8 n)
    | .obj o => pure (.obj o)))
  revert this
  decide

omit [Floats ω] in
/-- `sum` adds the elements to 0, from left to right. -/
theorem C92_sum (plus : Val ω → Val ω → Py σ (Val ω)) (a : TypedArray ω) : a.sum plus = foldLeft plus (.int .plain 0) a.iter :=
  reduce_eq plus a.iter _

omit [Floats ω] in
/-- For integers that is the mathematical sum: it does not overflow, whatever the type code of the array. -/
theorem C92_sum_int (plus : Val ω → Val ω → Py σ (Val ω)) (hp : ∀ c m c' n, plus (.int c m) (.int c' n) = pure (.int .plain (m + n)))
    (a : TypedArray ω) (ns : List (IntClass × Int)) (ha : a.iter = intObjects ns) :
    a.sum plus = pure (.int .plain (ns.map Prod.snd).sum) := by
  have key : ∀ (ns : List (IntClass × Int)) (k : Int),
      foldLeft plus (.int .plain k) (intObjects ns) = pure (.int .plain (k + (ns.map Prod.snd).sum)) := by
    intro ns
    induction ns with
    | nil => intro k; simp [intObjects, foldLeft]
    | cons p ns ih =>
      intro k
      simp only [intObjects, List.map_cons, foldLeft, hp, pure_bind] at ih ⊢
      rw [ih, List.sum_cons, Int.add_assoc]
  rw [C92_sum, ha, key, Int.zero_add]

/-- `sum_by` calls the function on each element, left to right, then makes a typed array of the results (see `C56`), whose sum is the
result. -/
theorem C92_sum_by (long : Nat) (plus : Val ω → Val ω → Py σ (Val ω)) (a : TypedArray ω) (f : Val ω → Py σ (Val ω)) :
    a.sumBy long plus f = (do
      let ys ← each f a.iter
      let b ← Py.ofExcept (init long (.iterable ys) none)
      foldLeft plus (.int .plain 0) b.iter) := by
  simp only [TypedArray.sumBy, C69_map, C92_sum, bind_assoc]

/-- If the first result is no object of a sized class, that is the sum of the results; if the function raises, so does `sum_by`. -/
theorem C92_sum_by_partial (long : Nat) (plus : Val ω → Val ω → Py σ (Val ω)) (a : TypedArray ω) (f : Val ω → Py σ (Val ω)) (w : σ)
    (h : ∀ ys w', (each f a.iter).exec w = (.ok ys, w') → ∀ y, ys.head? = some y → ¬ Sized y) :
    (a.sumBy long plus f).exec w = ((do
      let ys ← each f a.iter
      foldLeft plus (.int .plain 0) ys) : Py σ (Val ω)).exec w := by
  rw [C92_sum_by, Py.exec_bind, Py.exec_bind]
  rcases hr : (each f a.iter).exec w with ⟨e | ys, w'⟩
  · rfl
  · simp only [init_list long ys (h ys w' hr)]
    rfl

example : (TypedArray.sumBy 64 addInts (⟨⟨.arr .b, plainInts [100, 120]⟩, .int8⟩ : TypedArray Unit) (fun x => pure x)).exec () =
    (.ok (.int .plain 220), ()) := by decide

/-- `unfold` makes an array of what the generator function produces, if that stops and the first element is of no sized class. -/
theorem C92_unfold_partial (long : Nat) (g : S → Py σ (Option (Val ω × S))) (s : S) (w w' : σ) (xs : List (Val ω))
    (hx : ∀ x, xs.head? = some x → ¬ Sized x) (h : Generates g s w xs none w') :
    (TypedArray.unfold long (fun s => PyD.ofPy (g s)) s).exec w = some (.ok ⟨⟨.list, xs⟩, .any⟩, w') := by
  have h1 := (C21_unfold_returns g s w w' ⟨xs⟩).2 h
  rw [C21_block_unfold_is_seq_unfold] at h1
  rw [TypedArray.unfold, PyD.exec_bind]
  rcases hr : (Seq.unfold (fun s => PyD.ofPy (g s)) s).toList.exec w with _ | ⟨e | ys, w1⟩ <;> rw [hr] at h1
  · cases h1
  · cases h1
  · cases h1
    simp only [TypedArray.ofIterable, init_list long xs hx]
    rfl

/-- It raises what the function raises, and it ends, one way or the other, only if the function stops or raises. -/
theorem C92_unfold_ends (long : Nat) (g : S → Py σ (Option (Val ω × S))) (s : S) (w w' : σ) :
    (∀ e xs, Generates g s w xs (some e) w' → (TypedArray.unfold long (fun s => PyD.ofPy (g s)) s).exec w = some (.error e, w')) ∧
    ((TypedArray.unfold long (fun s => PyD.ofPy (g s)) s).exec w = none ↔ NeverStops g s w) := by
  constructor
  · intro e xs h
    have h1 := (C21_unfold_raises g s w w' e).2 ⟨xs, h⟩
    rw [C21_block_unfold_is_seq_unfold] at h1
    rw [TypedArray.unfold, PyD.exec_bind]
    rcases hr : (Seq.unfold (fun s => PyD.ofPy (g s)) s).toList.exec w with _ | ⟨e | ys, w1⟩ <;> rw [hr] at h1
    · cases h1
    · cases h1; rfl
    · cases h1
  · rw [← C21_unfold_diverges, C21_block_unfold_is_seq_unfold, TypedArray.unfold, PyD.exec_bind]
    rcases (Seq.unfold (fun s => PyD.ofPy (g s)) s).toList.exec w with _ | ⟨e | ys, w1⟩
    · simp
    · simp
    · simp only [Option.map_some, reduceCtorEq, iff_false]
      split <;> intro h <;> cases h

example : (TypedArray.unfold 64 (fun s => PyD.ofPy (pure (if s = 0 then none else some (.int .plain s, s - 1)) : Py Unit _)) (2 : Int)
    : PyD Unit (TypedArray Unit)).exec () = some (.ok ⟨⟨.list, plainInts [2, 1]⟩, .any⟩, ()) :=
  C92_unfold_partial 64 _ 2 () () _ (fun x h => by cases h; exact fun h => h rfl) (.step rfl (.step rfl (.stop rfl)))

/-- The text of an array is the texts of its elements in order, with a comma and a blank between them, in `[|` and `|]`.  (A string is
no float: `hs`.) -/
theorem C92_text (long : Nat) (str : Val ω → ω) (text : ω → List Char) (hs : ∀ x, Floats.cls (str x) = none) (a : TypedArray ω) :
    a.str long str text = .ok (['[', '|'] ++ [',', ' '].intercalate (a.iter.map (fun x => text (str x))) ++ ['|', ']']) := by
  rw [TypedArray.str, TypedArray.ofIterable, init_unsized long]
  · rw [← joinText_eq]
    change Except.ok ("[|".toList ++ joinText ", ".toList (((a.value.items.map (fun x => Val.obj (str x)))).map _) ++ "|]".toList) = _
    rw [List.map_map]
    rfl
  · intro x h hx
    obtain ⟨y, -, rfl⟩ := List.mem_map.1 h
    obtain ⟨c, hc, _⟩ := hx
    rw [hs] at hc
    cases hc

example : (TypedArray.str 64 (fun _ => Sample.text "x") (fun _ => ['x']) ⟨⟨.list, plainInts [1, 2]⟩, .any⟩) =
    .ok "[|x, x|]".toList := by decide

/-! ## More of C67: searching -/

omit [Floats ω] in
/-- `index(v)` is the first position of an element equal to `v`; `ValueError` if there is none. -/
theorem C67_index (same : Val ω → Bool) (a : TypedArray ω) :
    (∀ k, a.index same = .ok k ↔ (∃ x, a.iter[k]? = some x ∧ same x = true) ∧ ∀ j, j < k → ∀ x, a.iter[j]? = some x → same x = false) ∧
    ((∀ x ∈ a.iter, same x = false) → ∃ msg, a.index same = .error (.valueError msg)) := by
  have key : ∀ (xs : List (Val ω)) (i k : Nat), TypedArray.index.go same xs i = .ok k ↔
      ∃ m, k = i + m ∧ (∃ x, xs[m]? = some x ∧ same x = true) ∧ ∀ j, j < m → ∀ x, xs[j]? = some x → same x = false := by
    intro xs
    induction xs with
    | nil =>
      intro i k
      constructor
      · intro h; cases h
      · rintro ⟨m, -, ⟨x, hx, -⟩, -⟩; cases hx
    | cons y ys ih =>
      intro i k
      rw [TypedArray.index.go]
      cases hy : same y with
      | true =>
        rw [if_pos rfl]
        constructor
        · intro h
          cases h
          exact ⟨0, rfl, ⟨y, rfl, hy⟩, fun j hj => absurd hj (Nat.not_lt_zero _)⟩
        · rintro ⟨m, rfl, -, h⟩
          cases m with
          | zero => rfl
          | succ m =>
            have := h 0 (Nat.succ_pos _) y rfl
            rw [hy] at this
            cases this
      | false =>
        rw [if_neg (by decide), ih]
        constructor
        · rintro ⟨m, rfl, ⟨x, hx, hs⟩, h⟩
          refine ⟨m + 1, by omega, ⟨x, hx, hs⟩, ?_⟩
          intro j hj z hz
          cases j with
          | zero => cases hz; exact hy
          | succ j => exact h j (by omega) z hz
        · rintro ⟨m, rfl, ⟨x, hx, hs⟩, h⟩
          cases m with
          | zero => cases hx; rw [hy] at hs; cases hs
          | succ m =>
            exact ⟨m, by omega, ⟨x, hx, hs⟩, fun j hj z hz => h (j + 1) (by omega) z hz⟩
  constructor
  · intro k
    rw [TypedArray.index, key]
    constructor
    · rintro ⟨m, rfl, h⟩; rw [Nat.zero_add]; exact h
    · intro h; exact ⟨k, (Nat.zero_add _).symm, h⟩
  · intro h
    have none : ∀ (xs : List (Val ω)) (i : Nat), (∀ x ∈ xs, same x = false) → TypedArray.index.go same xs i = .error (.valueError "") := by
      intro xs
      induction xs with
      | nil => intro i _; rfl
      | cons y ys ih =>
        intro i hy
        rw [TypedArray.index.go, hy y List.mem_cons_self, if_neg (by decide)]
        exact ih _ (fun x hx => hy x (List.mem_cons_of_mem _ hx))
    exact ⟨_, none _ _ h⟩

omit [Floats ω] in
/-- `remove(v)` takes away the first element equal to `v`, and nothing else; it raises what `index` raises. -/
theorem C67_remove (same : Val ω → Bool) (a : TypedArray ω) :
    (∀ k, a.index same = .ok k → ∃ b, a.remove same = .ok b ∧ Deleted a.iter k b.iter ∧ b.typecode = a.typecode) ∧
    (∀ e, a.index same = .error e → a.remove same = .error e) := by
  constructor
  · intro k hk
    obtain ⟨⟨x, hx, -⟩, -⟩ := ((C67_index same a).1 k).1 hk
    have hlt : k < a.iter.length := (List.getElem?_eq_some_iff.1 hx).1
    obtain ⟨b, hb, hd, ht⟩ := (C67_del_item a k).1 k ⟨hlt, .inl ⟨Int.natCast_nonneg _, rfl⟩⟩
    refine ⟨b, ?_, hd, ht⟩
    simp only [TypedArray.remove, hk]
    exact hb
  · intro e he
    simp only [TypedArray.remove, he]
    rfl

example : (TypedArray.iter <$> (⟨⟨.arr .b, plainInts [1, 2, 1]⟩, .int8⟩ : TypedArray Unit).remove (· == .int .plain 1)) =
    .ok (plainInts [2, 1]) := by decide

/-! ## More of C69 -/

private theorem sort_any [PyOrd (Val ω)] [LawfulPyOrd (Val ω)] (long : Nat) (reverse : Bool) (a : TypedArray ω) (ha : Unsized a.iter) (w : σ) :
    ∃ b, (a.sort long PyOrd.lt reverse).exec w = (.ok b, w) ∧ b.typecode = .any ∧
      IsStableSort reverse (a.iter.map (fun x => (x, x))) (b.iter.map (fun x => (x, x))) := by
  obtain ⟨ys, hs, hst⟩ := C17_sort (σ := σ) reverse (⟨a.iter⟩ : Block (Val ω))
  refine ⟨⟨⟨.list, ys.value⟩, .any⟩, ?_, rfl, hst⟩
  have hu : Unsized ys.value := unsized_sub ha (fun x hx => by
    have : (x, x) ∈ a.iter.map (fun x => (x, x)) := hst.perm.mem_iff.1 (List.mem_map.2 ⟨x, hx, rfl⟩)
    obtain ⟨y, hy, he⟩ := List.mem_map.1 this
    cases he
    exact hy)
  have h1 := congrArg (fun p => p.exec w) hs
  simp only [Block.sort, Py.exec_bind] at h1
  rw [TypedArray.sort, Py.exec_bind]
  rw [show a.value.items = a.iter from rfl]
  rcases hr : (Builtins.sorted PyOrd.lt (fun x => pure x) reverse a.iter : Py σ _).exec w with ⟨e | zs, w'⟩
  · rw [hr] at h1; cases h1
  · rw [hr] at h1
    cases h1
    simp only [TypedArray.ofIterable, init_unsized long hu]
    rfl

/-- `sort` gives the stable sort of the elements. -/
theorem C69_sort_partial [PyOrd (Val ω)] [LawfulPyOrd (Val ω)] (long : Nat) (reverse : Bool) (a : TypedArray ω) (ha : Unsized a.iter) (w : σ) :
    ∃ b, (a.sort long PyOrd.lt reverse).exec w = (.ok b, w) ∧
      IsStableSort reverse (a.iter.map (fun x => (x, x))) (b.iter.map (fun x => (x, x))) :=
  (sort_any long reverse a ha w).imp fun _ h => ⟨h.1, h.2.2⟩

/-- Without an argument `sort` puts the least element first. -/
theorem C69_sort_ascending_partial [PyOrd (Val ω)] [LawfulPyOrd (Val ω)] (long : Nat) (a : TypedArray ω) (ha : Unsized a.iter) (w : σ) :
    ∃ b, (a.sort long PyOrd.lt).exec w = (.ok b, w) ∧ b.iter.Perm a.iter ∧ b.iter.Pairwise (fun x y => PyOrd.lt y x = false) := by
  obtain ⟨b, h, hs⟩ := C69_sort_partial (σ := σ) long false a ha w
  refine ⟨b, h, ?_, ?_⟩
  · have := hs.perm.map Prod.fst
    simpa [List.map_map, Function.comp_def] using this
  · have := hs.ordered
    rw [List.pairwise_map] at this
    simpa using this

/-- And of the other two: `tail` and `sort` always give an `Any` array, also of a `Byte` array. -/
theorem C72_tail_sort_partial [PyOrd (Val ω)] [LawfulPyOrd (Val ω)] (long : Nat) (reverse : Bool) (a : TypedArray ω) (ha : Unsized a.iter) (w : σ) :
    (∀ b, a.tail long = .ok b → b.typecode = .any) ∧ ∃ b, (a.sort long PyOrd.lt reverse).exec w = (.ok b, w) ∧ b.typecode = .any := by
  refine ⟨fun b hb => ?_, (sort_any long reverse a ha w).imp fun _ h => ⟨h.1, h.2.1⟩⟩
  rw [TypedArray.tail] at hb
  split at hb
  · cases hb
  · rename_i x rest hx
    rw [TypedArray.ofIterable, init_unsized long (unsized_sub ha fun y hy => by rw [TypedArray.iter, hx]; exact List.mem_cons_of_mem _ hy)] at hb
    cases hb; rfl

/-- an order of elements: integers by their values, all other objects as `-1000` -/
def sampleKey : Val Unit → Int
  | .int _ n => n + 1000
  | .obj _ => 0

/-- that order -/
@[reducible] def sampleOrd : PyOrd (Val Unit) := ⟨fun x y => decide (sampleKey x < sampleKey y), fun x y => decide (sampleKey x = sampleKey y)⟩

/-- it is lawful -/
theorem sampleOrd_lawful : @LawfulPyOrd (Val Unit) sampleOrd :=
  @LawfulPyOrd.mk _ sampleOrd
    (fun a => by show decide (_ < _) = false; simp)
    (fun a b c h1 h2 => by
      have h1 : decide (sampleKey a < sampleKey b) = true := h1
      have h2 : decide (sampleKey b < sampleKey c) = true := h2
      show decide (sampleKey a < sampleKey c) = true
      simp at *; omega)
    (fun a b => by
      show decide (sampleKey a = sampleKey b) = true ↔ decide (sampleKey a < sampleKey b) = false ∧ decide (sampleKey b < sampleKey a) = false
      simp; omega)
    (fun a b c h1 h2 => by
      have h1 : decide (sampleKey a = sampleKey b) = true := h1
      have h2 : decide (sampleKey b = sampleKey c) = true := h2
      show decide (sampleKey a = sampleKey c) = true
      simp at *; omega)

/-- the hypotheses of `C69_sort_partial` and `C72_tail_sort_partial`: a `Byte` array, sorted from the greatest to the least, is `Any` -/
example : ∃ (_ : PyOrd (Val Unit)) (_ : LawfulPyOrd (Val Unit)) (a b : TypedArray Unit), Unsized a.iter ∧ a.typecode = .byte ∧
    (a.sort (σ := Unit) 64 PyOrd.lt true).exec () = (.ok b, ()) ∧ b.typecode = .any ∧ b.iter = plainInts [3, 2, 1] ∧
    ∃ c, a.tail 64 = .ok c ∧ c.iter = plainInts [3, 2] := by
  refine ⟨sampleOrd, sampleOrd_lawful,
    ⟨⟨.bytes, plainInts [1, 3, 2]⟩, .byte⟩, ⟨⟨.list, plainInts [3, 2, 1]⟩, .any⟩, fun x hx => ?_, rfl, by decide, rfl, rfl,
    ⟨⟨.list, plainInts [3, 2]⟩, .any⟩, by decide, rfl⟩
  · simp [TypedArray.iter, plainInts] at hx
    rcases hx with rfl | rfl | rfl <;> exact fun h => h rfl

/-- `filter` gives the elements for which the predicate says yes, in order, and keeps the type code, however the array was made and
whatever was done to it. -/
theorem C69_filter_any {long : Nat} (hl : long = 32 ∨ long = 64) {i : Init ω} (hi : PossibleInit i) {tc : Option TypeCode} {a0 : TypedArray ω}
    (h : init long i tc = .ok a0) (es : List (Edit ω)) (a : TypedArray ω) (ha : a = es.foldl (Edit.apply long) a0)
    (p : Val ω → Py σ Bool) (w : σ) :
    ((fun b => (b.iter, b.typecode)) <$> a.filter long p).exec w = (match (keep p a.iter).exec w with
      | (.error e, w') => (.error e, w')
      | (.ok ys, w') => (.ok (ys, a.typecode), w')) := by
  obtain ⟨g1, g2, g3⟩ := edits_good es (init_good hi h)
  rw [← ha] at g1 g2 g3
  simp only [TypedArray.filter, tupleFilter_eq, map_eq_pure_bind, bind_assoc]
  rw [Py.exec_bind]
  rw [show a.value.items = a.iter from rfl]
  rcases hr : (keep p a.iter).exec w with ⟨e | ys, w'⟩
  · rfl
  · have hs : Stored long a.value.kind ys := stored_sub g1 (keep_mem p _ hr)
    have hk : Stored long a.typecode.kind ys := by
      rw [g3] at hs
      rw [g2]
      exact stored_typecode hl h hs
    have hi2 : init long (.iterable ys) (some a.typecode) = .ok ⟨⟨a.typecode.kind, ys⟩, a.typecode⟩ := by
      rw [init_typecode, Init.elems, convertAll_of_stored hk]
    simp only [hi2]
    rfl

end Expression.Props
