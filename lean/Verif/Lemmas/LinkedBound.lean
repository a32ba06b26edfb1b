import Verif.Lemmas.LinkedNest

/-! # How many moves calls take -/

namespace Expression.Lemmas.Linked

open Threads Expression.Linked

variable {n m : Nat} {callbacks : Fin n → Nat → Callback n m} {actions : Fin m → Callback n m}

theorem sum_update {α : Type} [DecidableEq α] {l : List α} (hn : l.Nodup) (g : α → Nat) {a : α} (ha : a ∈ l) (v : Nat) :
    (l.map fun x => if x = a then v else g x).sum + g a = (l.map g).sum + v := by
  induction l with
  | nil => cases ha
  | cons b l ih =>
    obtain ⟨hb, hn⟩ := List.nodup_cons.1 hn
    simp only [List.map_cons, List.sum_cons]
    by_cases hab : b = a
    · subst hab
      have : (l.map fun x => if x = b then v else g x) = l.map g := List.map_congr_left fun x hx => if_neg (fun e => hb (by rw [← e]; exact hx))
      rw [this, if_pos rfl]
      omega
    · rw [if_neg hab]
      rcases List.mem_cons.1 ha with h | h
      · exact absurd h.symm hab
      · have := ih hn h
        omega

theorem sum_upd (g : Nat → Nat) {N t : Nat} (ht : t < N) (v : Nat) : ((List.range N).map (upd g t v)).sum + g t = ((List.range N).map g).sum + v :=
  sum_update List.nodup_range g (List.mem_range.2 ht) v

/-! ## a source -/

namespace OfSource

open Cancellation.Race

/-- what a call may still need: a listener to be called counts eight, and so does one that a `register` is about to add -/
def left : Frame → Nat
  | .rCheck => 14
  | .rLock => 13
  | .rRead => 12
  | .rStore _ => 11
  | .rIncr _ => 2
  | .rUnlock _ => 1
  | .uTest _ => 4
  | .uLock _ => 3
  | .uDel _ => 2
  | .uUnlock => 1
  | .cLock => 6
  | .cTest => 5
  | .cSet => 4
  | .cSnap => 3
  | .cUnlock ls => 2 + 8 * ls.length
  | .cLoop ls => 1 + 8 * ls.length
  | .inListener ls => 2 + 8 * ls.length

def leftAll (fs : List Frame) : Nat := (fs.map left).sum

theorem leftAll_cons (f : Frame) (fs : List Frame) : leftAll (f :: fs) = left f + leftAll fs := by simp [leftAll]

/-- a thread is about to copy the listeners -/
def snaps (r : Cancellation.Race.State) : Bool :=
  match r.owner with
  | none => false
  | some u => Lemmas.Race.snapping (r.stack u)

/-- the listeners that a `cancel` will still take over -/
def credit (r : Cancellation.Race.State) : Nat := if r.isDisposed && !snaps r then 0 else 8 * r.listeners.length

def load (N : Nat) (r : Cancellation.Race.State) : Nat := ((List.range N).map fun u => leftAll (r.stack u)).sum

def pot (N : Nat) (r : Cancellation.Race.State) : Nat := load N r + credit r

theorem load_upd {N t : Nat} {r r' : Cancellation.Race.State} {fs : List Frame} (ht : t < N) (h : r'.stack = upd r.stack t fs) :
    load N r' + leftAll (r.stack t) = load N r + leftAll fs := by
  have h1 := sum_upd (fun u => leftAll (r.stack u)) ht (leftAll fs)
  have h2 : (fun u => leftAll (r'.stack u)) = upd (fun u => leftAll (r.stack u)) t (leftAll fs) := by
    funext u
    rw [h]
    simp only [upd_apply]
    split <;> rfl
  unfold load
  rw [h2]
  exact h1

theorem snaps_other {r r' : Cancellation.Race.State} {t : Nat} {fs : List Frame} (ho : r'.owner = r.owner) (hs : r'.stack = upd r.stack t fs) (hn : r.owner ≠ some t) :
    snaps r' = snaps r := by
  unfold snaps
  rw [ho]
  cases h : r.owner with
  | none => rfl
  | some u =>
    have hu : u ≠ t := fun e => hn (by rw [h, e])
    simp only [hs, upd_other _ _ hu]

theorem credit_same {r r' : Cancellation.Race.State} (hd : r'.isDisposed = r.isDisposed) (hl : r'.listeners = r.listeners) (hs : snaps r' = snaps r) : credit r' = credit r := by
  unfold credit
  rw [hd, hl, hs]

theorem pot_open {N t : Nat} {r r' : Cancellation.Race.State} {a : Act} (hl : Lemmas.Race.Lock r) (ht : t < N) (hn : a ≠ .go)
    (h : Cancellation.Race.step r (t, a) = some r') : pot N r' ≤ pot N r + 14 ∧ (a = .cancel → pot N r' ≤ pot N r + 6) := by
  have hown : r.owner ≠ some t := by
    intro e
    have h1 := (hl.crit t).2 e
    rw [Lemmas.Race.free_not_critical (opens hn h).1] at h1
    cases h1
  have key : ∀ f, r'.stack = upd r.stack t (f :: r.stack t) → r'.isDisposed = r.isDisposed → r'.listeners = r.listeners → r'.owner = r.owner → pot N r' = pot N r + left f := by
    intro f hs hd hls ho
    have h1 := load_upd ht hs
    have h2 := credit_same hd hls (snaps_other ho hs hown)
    rw [leftAll_cons] at h1
    unfold pot
    omega
  cases a with
  | go => exact absurd rfl hn
  | register =>
    simp only [Cancellation.Race.step] at h
    split at h
    · cases h
      refine ⟨?_, by simp⟩
      rw [key .rCheck rfl rfl rfl rfl]; simp [left]
    · cases h
  | unregister k =>
    simp only [Cancellation.Race.step] at h
    split at h
    · cases h
      refine ⟨?_, by simp⟩
      rw [key (.uTest k) rfl rfl rfl rfl]; simp [left]
    · cases h
  | cancel =>
    simp only [Cancellation.Race.step] at h
    split at h
    · cases h
      have := key .cLock rfl rfl rfl rfl
      rw [this]; simp [left]
    · cases h

theorem pot_go {N t : Nat} {r r' : Cancellation.Race.State} (hl : Lemmas.Race.Lock r) (hf : Lemmas.Race.Facts r) (ht : t < N) (h : Cancellation.Race.step r (t, .go) = some r') :
    pot N r' + 1 ≤ pot N r ∧ ∀ k ks fs, r.stack t = .cLoop (k :: ks) :: fs → pot N r' + 7 ≤ pot N r := by
  have hload : ∀ f fs fs', r.stack t = f :: fs → r'.stack = upd r.stack t fs' → load N r' + (left f + leftAll fs) = load N r + leftAll fs' := by
    intro f fs fs' h1 h2
    have := load_upd ht h2
    rw [h1, leftAll_cons] at this
    exact this
  -- calls outside the lock
  have hout : ∀ f fs fs', r.stack t = f :: fs → r'.stack = upd r.stack t fs' → Lemmas.Race.critical (f :: fs) = false → r'.owner = r.owner → r'.isDisposed = r.isDisposed →
      r'.listeners = r.listeners → pot N r' + (left f + leftAll fs) = pot N r + leftAll fs' := by
    intro f fs fs' h1 h2 h3 h4 h5 h6
    have hown : r.owner ≠ some t := by
      intro e
      have h7 := (hl.crit t).2 e
      rw [h1, h3] at h7
      cases h7
    have h8 := hload f fs fs' h1 h2
    have h9 := credit_same h5 h6 (snaps_other h4 h2 hown)
    unfold pot
    omega
  -- calls that have the lock
  have hsnap : ∀ f fs, r.stack t = f :: fs → Lemmas.Race.critical (f :: fs) = true → snaps r = Lemmas.Race.snapping (f :: fs) := by
    intro f fs h1 h2
    have h3 := (hl.crit t).1 (by rw [h1]; exact h2)
    unfold snaps
    rw [h3]
    simp only [h1]
  have hsnap' : ∀ fs', r'.stack = upd r.stack t fs' → r'.owner = some t → snaps r' = Lemmas.Race.snapping fs' := by
    intro fs' h1 h2
    unfold snaps
    rw [h2]
    simp only [h1, upd_same]
  have hnone : r'.owner = none → snaps r' = false := by
    intro h2
    unfold snaps
    rw [h2]
  have hnone0 : r.owner = none → snaps r = false := by
    intro h2
    unfold snaps
    rw [h2]
  have hcred : r'.isDisposed = r.isDisposed → r'.listeners = r.listeners → snaps r' = snaps r → credit r' = credit r := credit_same
  have hcr' : credit r' = if r'.isDisposed && !snaps r' then 0 else 8 * r'.listeners.length := rfl
  have hcr : credit r = if r.isDisposed && !snaps r then 0 else 8 * r.listeners.length := rfl
  have hgood : pot N r' + 1 ≤ pot N r ∨ ∃ k ks fs, r.stack t = .cLoop (k :: ks) :: fs ∧ r'.stack = upd r.stack t (.inListener ks :: fs) ∧ r'.owner = r.owner ∧
      r'.isDisposed = r.isDisposed ∧ r'.listeners = r.listeners := by
    cases hs : r.stack t with
    | nil => simp only [Cancellation.Race.step, hs] at h; cases h
    | cons f fs =>
      have hown : Lemmas.Race.critical (f :: fs) = true → r.owner = some t := fun hc => (hl.crit t).1 (by rw [hs]; exact hc)
      cases f with
      | rCheck =>
        simp only [Cancellation.Race.step, hs] at h
        split at h
        · cases h; have := hout _ _ fs hs rfl rfl rfl rfl rfl; simp only [left] at this; left; omega
        · cases h; have := hout _ _ _ hs rfl rfl rfl rfl rfl; simp only [left, leftAll_cons] at this; left; omega
      | rLock =>
        simp only [Cancellation.Race.step, hs] at h
        split at h
        · rename_i ho
          cases h
          have h1 := hload _ _ _ hs rfl
          have h2 := hcred rfl rfl (by rw [hsnap' _ rfl rfl, hnone0 ho]; rfl)
          simp only [left, leftAll_cons] at h1; left; unfold pot; omega
        · cases h
      | rRead =>
        simp only [Cancellation.Race.step, hs] at h
        cases h
        have h1 := hload _ _ _ hs rfl
        have h2 := hcred rfl rfl (by rw [hsnap' _ rfl (hown rfl), hsnap _ _ hs rfl]; rfl)
        simp only [left, leftAll_cons] at h1; left; unfold pot; omega
      | rStore i =>
        simp only [Cancellation.Race.step, hs] at h
        cases h
        have h1 := hload _ _ _ hs rfl
        rw [hsnap' (.rIncr i :: fs) rfl (hown rfl)] at hcr'
        rw [hsnap _ _ hs rfl] at hcr
        simp only [Cancellation.Race.State.at, Lemmas.Race.snapping, List.length_append, List.length_singleton, Bool.not_false, Bool.and_true] at hcr hcr'
        simp only [left, leftAll_cons] at h1; left; unfold pot
        cases hd : r.isDisposed <;> simp only [hd, if_true, Bool.false_eq_true, if_false] at hcr hcr' <;> simp only [hcr, Cancellation.Race.State.at, hd] at h1 ⊢ <;> omega
      | rIncr i =>
        simp only [Cancellation.Race.step, hs] at h
        cases h
        have h1 := hload _ _ _ hs rfl
        have h2 := hcred rfl rfl (by rw [hsnap' (.rUnlock i :: fs) rfl (hown rfl), hsnap _ _ hs rfl]; rfl)
        simp only [left, leftAll_cons] at h1; left; unfold pot; omega
      | rUnlock i =>
        simp only [Cancellation.Race.step, hs] at h
        cases h
        have h1 := hload _ _ fs hs rfl
        have h2 := hcred rfl rfl (by rw [hnone rfl, hsnap _ _ hs rfl]; rfl)
        simp only [left] at h1; left; unfold pot; omega
      | uTest i =>
        simp only [Cancellation.Race.step, hs] at h
        split at h
        · cases h; have := hout _ _ fs hs rfl rfl rfl rfl rfl; simp only [left] at this; left; omega
        · cases h; have := hout _ _ _ hs rfl rfl rfl rfl rfl; simp only [left, leftAll_cons] at this; left; omega
      | uLock i =>
        simp only [Cancellation.Race.step, hs] at h
        split at h
        · rename_i ho
          cases h
          have h1 := hload _ _ _ hs rfl
          have h2 := hcred rfl rfl (by rw [hsnap' _ rfl rfl, hnone0 ho]; rfl)
          simp only [left, leftAll_cons] at h1; left; unfold pot; omega
        · cases h
      | uDel i =>
        simp only [Cancellation.Race.step, hs] at h
        cases h
        have h1 := hload _ _ _ hs rfl
        rw [hsnap' (.uUnlock :: fs) rfl (hown rfl)] at hcr'
        rw [hsnap _ _ hs rfl] at hcr
        have hle := List.length_filter_le (· != i) r.listeners
        simp only [left, leftAll_cons] at h1; left; unfold pot
        simp only [Cancellation.Race.State.at, Lemmas.Race.snapping, Bool.not_false, Bool.and_true] at hcr hcr'
        cases hd : r.isDisposed <;> simp only [hd, if_true, Bool.false_eq_true, if_false] at hcr hcr' <;> simp only [hcr, Cancellation.Race.State.at, hd] at h1 ⊢ <;> omega
      | uUnlock =>
        simp only [Cancellation.Race.step, hs] at h
        cases h
        have h1 := hload _ _ fs hs rfl
        have h2 := hcred rfl rfl (by rw [hnone rfl, hsnap _ _ hs rfl]; rfl)
        simp only [left] at h1; left; unfold pot; omega
      | cLock =>
        simp only [Cancellation.Race.step, hs] at h
        split at h
        · rename_i ho
          cases h
          have h1 := hload _ _ _ hs rfl
          have h2 := hcred rfl rfl (by rw [hsnap' _ rfl rfl, hnone0 ho]; rfl)
          simp only [left, leftAll_cons] at h1; left; unfold pot; omega
        · cases h
      | cTest =>
        simp only [Cancellation.Race.step, hs] at h
        split at h
        · cases h
          have h1 := hload _ _ _ hs rfl
          have h2 := hcred rfl rfl (by rw [hsnap' (.cUnlock [] :: fs) rfl (hown rfl), hsnap _ _ hs rfl]; rfl)
          simp only [left, leftAll_cons, List.length_nil] at h1; left; unfold pot; omega
        · cases h
          have h1 := hload _ _ _ hs rfl
          have h2 := hcred rfl rfl (by rw [hsnap' (.cSet :: fs) rfl (hown rfl), hsnap _ _ hs rfl]; rfl)
          simp only [left, leftAll_cons] at h1; left; unfold pot; omega
      | cSet =>
        simp only [Cancellation.Race.step, hs] at h
        cases h
        have h1 := hload _ _ _ hs rfl
        rw [hsnap' (.cSnap :: fs) rfl (hown rfl)] at hcr'
        rw [hf.set t fs hs] at hcr
        simp only [left, leftAll_cons] at h1; left; unfold pot
        simp only [Cancellation.Race.State.at, Lemmas.Race.snapping, Bool.not_true, Bool.and_false, Bool.false_and, Bool.false_eq_true, if_false] at hcr hcr' h1 ⊢
        omega
      | cSnap =>
        simp only [Cancellation.Race.step, hs] at h
        cases h
        have h1 := hload _ _ _ hs rfl
        rw [hsnap' (.cUnlock r.listeners :: fs) rfl (hown rfl)] at hcr'
        rw [hsnap _ _ hs rfl] at hcr
        have hd : r.isDisposed = true := hf.snap t (by rw [hs]; rfl)
        simp only [left, leftAll_cons] at h1; left; unfold pot
        simp only [Cancellation.Race.State.at, Lemmas.Race.snapping, hd, Bool.not_true, Bool.and_false, Bool.not_false, Bool.and_true, if_true, Bool.false_eq_true, if_false] at hcr hcr' h1 ⊢
        omega
      | cUnlock ls =>
        simp only [Cancellation.Race.step, hs] at h
        cases h
        have h1 := hload _ _ _ hs rfl
        have h2 := hcred rfl rfl (by rw [hnone rfl, hsnap _ _ hs rfl]; rfl)
        simp only [left, leftAll_cons] at h1; left; unfold pot; omega
      | cLoop ls =>
        cases ls with
        | nil =>
          simp only [Cancellation.Race.step, hs] at h
          cases h; have := hout _ _ fs hs rfl rfl rfl rfl rfl; simp only [left] at this; left; omega
        | cons k ks =>
          simp only [Cancellation.Race.step, hs] at h
          cases h
          exact .inr ⟨k, ks, fs, rfl, rfl, rfl, rfl, rfl⟩
      | inListener ls =>
        simp only [Cancellation.Race.step, hs] at h
        cases h; have := hout _ _ _ hs rfl rfl rfl rfl rfl; simp only [left, leftAll_cons] at this; left; omega
  rcases hgood with hg | ⟨k, ks, fs, h1, h2, h3, h4, h5⟩
  · refine ⟨hg, fun k ks fs hs => ?_⟩
    simp only [Cancellation.Race.step, hs] at h
    cases h
    have := hout _ _ _ hs rfl rfl rfl rfl rfl
    simp only [left, leftAll_cons, List.length_cons] at this
    omega
  · have := hout _ _ _ h1 h2 rfl h3 h4 h5
    simp only [left, leftAll_cons, List.length_cons] at this
    exact ⟨by omega, fun _ _ _ _ => by omega⟩

end OfSource

/-! ## a disposable -/

namespace OfDisposable

open Disposable

def left : Frame → Nat
  | .lock => 4
  | .test => 3
  | .set => 2
  | .unlock false => 2
  | .unlock true => 9
  | .decide false => 1
  | .decide true => 8
  | .action => 1

def leftAll (fs : List Frame) : Nat := (fs.map left).sum

theorem leftAll_cons (f : Frame) (fs : List Frame) : leftAll (f :: fs) = left f + leftAll fs := by simp [leftAll]

def credit (r : Disposable.State) : Nat := if r.isDisposed then 0 else 8

def load (N : Nat) (r : Disposable.State) : Nat := ((List.range N).map fun u => leftAll (r.stack u)).sum

def pot (N : Nat) (r : Disposable.State) : Nat := load N r + credit r

theorem load_upd {N t : Nat} {r r' : Disposable.State} {fs : List Frame} (ht : t < N) (h : r'.stack = upd r.stack t fs) :
    load N r' + leftAll (r.stack t) = load N r + leftAll fs := by
  have h1 := sum_upd (fun u => leftAll (r.stack u)) ht (leftAll fs)
  have h2 : (fun u => leftAll (r'.stack u)) = upd (fun u => leftAll (r.stack u)) t (leftAll fs) := by
    funext u
    rw [h]
    simp only [upd_apply]
    split <;> rfl
  unfold load
  rw [h2]
  exact h1

theorem pot_open {N t : Nat} {r r' : Disposable.State} (ht : t < N) (h : Disposable.step r (t, .dispose) = some r') : pot N r' ≤ pot N r + 4 := by
  simp only [Disposable.step] at h
  split at h
  · cases h
    have h1 := load_upd (N := N) (r := r) (r' := { r with stack := upd r.stack t (.lock :: r.stack t), log := r.log ++ [.began t] }) ht rfl
    rw [leftAll_cons] at h1
    simp only [left] at h1
    unfold pot
    have h2 : credit { r with stack := upd r.stack t (.lock :: r.stack t), log := r.log ++ [.began t] } = credit r := rfl
    omega
  · cases h

theorem pot_enter {N t : Nat} {r r' : Disposable.State} (h : Disposable.step r (t, .enter) = some r') : pot N r' = pot N r := by
  simp only [Disposable.step] at h
  split at h
  · split at h <;> (cases h; rfl)
  · cases h

theorem pot_go {N t : Nat} {r r' : Disposable.State} (hi : DInv r) (ht : t < N) (h : Disposable.step r (t, .go) = some r') :
    pot N r' + 1 ≤ pot N r ∧ ∀ fs, r.stack t = .decide true :: fs → pot N r' + 7 ≤ pot N r := by
  have hload : ∀ f fs fs', r.stack t = f :: fs → r'.stack = upd r.stack t fs' → load N r' + (left f + leftAll fs) = load N r + leftAll fs' := by
    intro f fs fs' h1 h2
    have := load_upd ht h2
    rw [h1, leftAll_cons] at this
    exact this
  have hcred : r'.isDisposed = r.isDisposed → credit r' = credit r := by intro e; unfold credit; rw [e]
  have hgood : pot N r' + 1 ≤ pot N r := by
    cases hs : r.stack t with
    | nil => simp only [Disposable.step, hs] at h; cases h
    | cons f fs =>
      cases f with
      | lock =>
        simp only [Disposable.step, hs] at h
        split at h
        · cases h
          have h1 := hload _ _ _ hs rfl
          have h2 := hcred rfl
          simp only [left, leftAll_cons] at h1; unfold pot; omega
        · cases h
      | test =>
        simp only [Disposable.step, hs] at h
        split at h
        · cases h
          have h1 := hload _ _ _ hs rfl
          have h2 := hcred rfl
          simp only [left, leftAll_cons] at h1; unfold pot; omega
        · cases h
          have h1 := hload _ _ _ hs rfl
          have h2 := hcred rfl
          simp only [left, leftAll_cons] at h1; unfold pot; omega
      | set =>
        simp only [Disposable.step, hs] at h
        have h3 : credit r = 8 := by unfold credit; rw [hi.set t fs hs]; rfl
        have h4 : r'.isDisposed = true → credit r' = 0 := by intro e; unfold credit; rw [e]; rfl
        cases h
        have h1 := hload _ _ _ hs rfl
        have h2 := h4 rfl
        simp only [left, leftAll_cons] at h1; unfold pot; omega
      | unlock d =>
        simp only [Disposable.step, hs] at h
        cases h
        have h1 := hload _ _ _ hs rfl
        have h2 := hcred rfl
        cases d <;> simp only [left, leftAll_cons] at h1 <;> unfold pot <;> omega
      | decide d =>
        cases d with
        | false =>
          simp only [Disposable.step, hs, Bool.false_eq_true, if_false] at h
          cases h
          have h1 := hload _ _ fs hs rfl
          have h2 := hcred rfl
          simp only [left] at h1; unfold pot; omega
        | true =>
          simp only [Disposable.step, hs, if_true] at h
          cases h
          have h1 := hload _ _ _ hs rfl
          have h2 := hcred rfl
          simp only [left, leftAll_cons] at h1; unfold pot; omega
      | action =>
        simp only [Disposable.step, hs] at h
        cases h
        have h1 := hload _ _ fs hs rfl
        have h2 := hcred rfl
        simp only [left] at h1; unfold pot; omega
  refine ⟨hgood, fun fs hs => ?_⟩
  simp only [Disposable.step, hs, if_true] at h
  cases h
  have h1 := hload _ _ _ hs rfl
  have h2 := hcred rfl
  simp only [left, leftAll_cons] at h1; unfold pot; omega

end OfDisposable

/-! ## all objects -/

def users (N : Nat) (s : State n m) : Nat := ((List.range N).map fun t => (s.calls t).count .user).sum

/-- what all calls may still need -/
def total (N : Nat) (s : State n m) : Nat :=
  ((List.finRange n).map fun i => OfSource.pot N (s.source i)).sum + ((List.finRange m).map fun d => OfDisposable.pot N (s.disposable d)).sum + users N s

theorem total_setSource (N : Nat) (s : State n m) (i : Fin n) (r : Cancellation.Race.State) :
    total N (s.setSource i r) + OfSource.pot N (s.source i) = total N s + OfSource.pot N r := by
  have h1 := sum_update (List.nodup_finRange n) (fun j => OfSource.pot N (s.source j)) (List.mem_finRange i) (OfSource.pot N r)
  have h2 : (fun j => OfSource.pot N ((s.setSource i r).source j)) = fun j => if j = i then OfSource.pot N r else OfSource.pot N (s.source j) := by
    funext j
    by_cases hj : j = i
    · subst hj; simp
    · rw [setSource_other s r hj, if_neg hj]
  have h3 : users N (s.setSource i r) = users N s := rfl
  unfold total
  rw [h2, h3, setSource_disposable]
  omega

theorem total_setDisposable (N : Nat) (s : State n m) (d : Fin m) (r : Disposable.State) :
    total N (s.setDisposable d r) + OfDisposable.pot N (s.disposable d) = total N s + OfDisposable.pot N r := by
  have h1 := sum_update (List.nodup_finRange m) (fun j => OfDisposable.pot N (s.disposable j)) (List.mem_finRange d) (OfDisposable.pot N r)
  have h2 : (fun j => OfDisposable.pot N ((s.setDisposable d r).disposable j)) = fun j => if j = d then OfDisposable.pot N r else OfDisposable.pot N (s.disposable j) := by
    funext j
    by_cases hj : j = d
    · subst hj; simp
    · rw [setDisposable_other s r hj, if_neg hj]
  have h3 : users N (s.setDisposable d r) = users N s := rfl
  unfold total
  rw [h2, h3, setDisposable_source]
  omega

theorem total_at {N t : Nat} (ht : t < N) (s : State n m) (cs : List (Call n m)) :
    total N (s.at t cs) + (s.calls t).count .user = total N s + cs.count .user := by
  have h1 := sum_upd (fun u => (s.calls u).count .user) ht (cs.count .user)
  have h2 : (fun u => ((s.at t cs).calls u).count .user) = upd (fun u => (s.calls u).count .user) t (cs.count .user) := by
    funext u
    simp only [at_calls, upd_apply]
    split <;> rfl
  have h3 : users N (s.at t cs) + (s.calls t).count .user = users N s + cs.count .user := by
    unfold users
    rw [h2]
    exact h1
  unfold total
  simp only [at_source, at_disposable]
  omega

theorem total_invoked {N t : Nat} {s s' : State n m} {cb : Callback n m} (ht : t < N) (hl : ∀ i, Lemmas.Race.Lock (s.source i)) (h : Invoked t s cb s') :
    total N s' ≤ total N s + 6 := by
  cases h with
  | user =>
    have := total_at ht s (.user :: s.calls t)
    simp only [List.count_cons_self] at this
    omega
  | cancel j r hr =>
    have h1 := total_at ht (s.setSource j r) (.source j :: s.calls t)
    have h2 := total_setSource N s j r
    have h3 := (OfSource.pot_open (hl j) ht (by simp) hr).2 rfl
    rw [List.count_cons_of_ne (by simp)] at h1
    simp only [setSource_calls] at h1
    omega
  | dispose d r hr =>
    have h1 := total_at ht (s.setDisposable d r) (.disposable d :: s.calls t)
    have h2 := total_setDisposable N s d r
    have h3 := OfDisposable.pot_open ht hr
    rw [List.count_cons_of_ne (by simp)] at h1
    simp only [setDisposable_calls] at h1
    omega

/-- the thread goes on with a call -/
def moves (c : Nat × Act n m) : Bool :=
  match c.2 with
  | .go => true
  | _ => false

theorem total_step {N t : Nat} {s s' : State n m} {a : Act n m} (ht : t < N) (hA : ∀ i, Lemmas.Race.All (s.source i)) (hD : ∀ d, DInv (s.disposable d))
    (h : step callbacks actions s (t, a) = some s') :
    total N s' + (if moves (t, a) then 1 else 0) ≤ total N s + (if moves (t, a) then 0 else 14) := by
  have hl : ∀ i, Lemmas.Race.Lock (s.source i) := fun i => (hA i).lock
  cases stepped h with
  | opens i ra r hf hn hnc ha hr =>
    have hm : moves (t, a) = false := by rcases ha with ⟨rfl, _⟩ | ⟨k, rfl, _⟩ <;> rfl
    rw [hm]
    have h1 := total_at ht (s.setSource i r) (.source i :: s.calls t)
    have h2 := total_setSource N s i r
    have h3 := (OfSource.pot_open (hl i) ht hn hr).1
    rw [List.count_cons_of_ne (by simp)] at h1
    simp only [setSource_calls] at h1
    simp only [Bool.false_eq_true, if_false]
    omega
  | invokes cb _ hf ha hi =>
    have hm : moves (t, a) = false := by rcases ha with ⟨i, rfl, _⟩ | ⟨k, rfl, _⟩ <;> rfl
    rw [hm]
    have := total_invoked ht hl hi
    simp only [Bool.false_eq_true, if_false]
    omega
  | enters d r hf ha hr =>
    subst ha
    have h2 := total_setDisposable N s d r
    have h3 := OfDisposable.pot_enter (N := N) hr
    simp only [moves, Bool.false_eq_true, if_false]
    omega
  | over cs ha hc =>
    subst ha
    have h1 := total_at ht s cs
    rw [hc, List.count_cons_self] at h1
    simp only [moves, if_true]
    omega
  | sourceOver i cs r ha hc hr hlt =>
    subst ha
    have h1 := total_at ht (s.setSource i r) cs
    have h2 := total_setSource N s i r
    have h3 := (OfSource.pot_go (hl i) (hA i).facts ht hr).1
    simp only [setSource_calls, hc] at h1
    rw [List.count_cons_of_ne (by simp)] at h1
    simp only [moves, if_true]
    omega
  | sourceGoes i cs r ha hc hr hlt hk =>
    subst ha
    have h2 := total_setSource N s i r
    have h3 := (OfSource.pot_go (hl i) (hA i).facts ht hr).1
    simp only [moves, if_true]
    omega
  | sourceCalls i cs r k ks fs _ ha hc hr hk hi =>
    subst ha
    have h2 := total_setSource N s i r
    have h3 := (OfSource.pot_go (hl i) (hA i).facts ht hr).2 k ks fs hk
    have h4 := total_invoked ht (fun j => by
      by_cases hj : j = i
      · subst hj; rw [setSource_same]; exact Lemmas.Race.lock_step _ _ _ (hl j) hr
      · rw [setSource_other s r hj]; exact hl j) hi
    simp only [moves, if_true]
    omega
  | disposableOver d cs r ha hc hr hlt =>
    subst ha
    have h1 := total_at ht (s.setDisposable d r) cs
    have h2 := total_setDisposable N s d r
    have h3 := (OfDisposable.pot_go (hD d) ht hr).1
    simp only [setDisposable_calls, hc] at h1
    rw [List.count_cons_of_ne (by simp)] at h1
    simp only [moves, if_true]
    omega
  | disposableGoes d cs r ha hc hr hlt hk =>
    subst ha
    have h2 := total_setDisposable N s d r
    have h3 := (OfDisposable.pot_go (hD d) ht hr).1
    simp only [moves, if_true]
    omega
  | disposableCalls d cs r fs _ ha hc hr hk hi =>
    subst ha
    have h2 := total_setDisposable N s d r
    have h3 := (OfDisposable.pot_go (hD d) ht hr).2 fs hk
    have h4 := total_invoked (s := s.setDisposable d r) ht hl hi
    simp only [moves, if_true]
    omega

theorem all_sources {sched : List (Nat × Act n m)} {s : State n m} (h : run (step callbacks actions) init sched = some s) (i : Fin n) : Lemmas.Race.All (s.source i) := by
  obtain ⟨cs, hcs⟩ := source_run h i
  exact Lemmas.Race.all_run (sched := cs) hcs

theorem total_init (N : Nat) : total N (init : State n m) = 8 * m := by
  have h0 : ∀ l : List Nat, (l.map fun _ => 0).sum = 0 := by intro l; induction l <;> simp_all
  have hs : ∀ {α : Type} (l : List α) (k : Nat), (l.map fun _ => k).sum = k * l.length := by
    intro α l k
    induction l with
    | nil => rfl
    | cons a l ih => simp only [List.map_cons, List.sum_cons, ih, List.length_cons, Nat.mul_succ]; omega
  have h1 : ∀ i, OfSource.pot N ((init : State n m).source i) = 0 := by
    intro i
    simp [OfSource.pot, OfSource.load, OfSource.credit, init, Cancellation.Race.init, OfSource.leftAll, h0]
  have h2 : ∀ d, OfDisposable.pot N ((init : State n m).disposable d) = 8 := by
    intro d
    simp [OfDisposable.pot, OfDisposable.load, OfDisposable.credit, init, Disposable.init, OfDisposable.leftAll, h0]
  have h3 : users N (init : State n m) = 0 := by simp [users, init, h0]
  simp only [total, h1, h2, h3, hs, List.length_finRange]
  omega

theorem bound_run {N : Nat} {sched : List (Nat × Act n m)} {s : State n m} (hN : ∀ c ∈ sched, c.1 < N) (h : run (step callbacks actions) init sched = some s) :
    sched.countP moves + total N s ≤ 14 * sched.countP (fun c => !moves c) + 8 * m := by
  have key := run_inv_sched (step := step callbacks actions)
    (fun p s => ((∀ i, Lemmas.Race.All (s.source i)) ∧ ∀ d, DInv (s.disposable d)) ∧
      ((∀ c ∈ p, c.1 < N) → p.countP moves + total N s ≤ 14 * p.countP (fun c => !moves c) + 8 * m))
    (by
      rintro p s ⟨t, a⟩ s' ⟨⟨hA, hD⟩, hb⟩ hc
      refine ⟨⟨fun i => ?_, fun d => ?_⟩, fun hN => ?_⟩
      · obtain ⟨cs, hcs⟩ := source_step hc i
        exact run_inv Lemmas.Race.All Lemmas.Race.all_step (hA i) cs hcs
      · obtain ⟨cs, hcs⟩ := disposable_step hc d
        exact run_inv DInv dinv_step (hD d) cs hcs
      · have h1 := hb fun c hc' => hN c (List.mem_append_left _ hc')
        have h2 := total_step (hN (t, a) (by simp)) hA hD hc
        simp only [List.countP_append, List.countP_cons, List.countP_nil, Nat.zero_add]
        cases hm : moves (t, a) <;> simp only [hm, if_true, Bool.false_eq_true, if_false, Bool.not_true, Bool.not_false] at h2 ⊢ <;> omega)
    [] ⟨⟨fun _ => Lemmas.Race.all_init, fun _ => dinv_init⟩, fun _ => by simp [total_init]⟩ sched h
  simp only [List.nil_append] at key
  exact key.2 hN

theorem threads_bounded (sched : List (Nat × Act n m)) : ∃ N, ∀ c ∈ sched, c.1 < N := by
  induction sched with
  | nil => exact ⟨0, by simp⟩
  | cons c cs ih =>
    obtain ⟨N, h⟩ := ih
    refine ⟨max N (c.1 + 1), fun x hx => ?_⟩
    rcases List.mem_cons.1 hx with rfl | hx
    · omega
    · have := h x hx; omega

end Expression.Lemmas.Linked
