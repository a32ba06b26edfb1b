import Verif.Lemmas.PyD
import Verif.Spec.SeqClose

/-! Lemmas about iterators left before their end: what a pipeline owes to a ledger.  `m` is any entry of the ledger. -/

namespace Expression.Lemmas.SeqClose

open PyD Expression.Seq Expression.SeqClose

variable {W σ α β γ S T C : Type}

/-- however `p` ends, its outcome and the change of `m` are related by `Q` -/
def Chg (m : W → Int) (p : PyD W α) (Q : Except PyErr α → Int → Prop) : Prop :=
  ∀ w r w', p.exec w = some (r, w') → Q r (m w' - m w)

variable {m : W → Int}

theorem Chg.mono {p : PyD W α} {Q R : Except PyErr α → Int → Prop} (h : Chg m p Q) (hQ : ∀ r d, Q r d → R r d) : Chg m p R :=
  fun w r w' e => hQ _ _ (h w r w' e)

theorem Chg.pure {a : α} {Q : Except PyErr α → Int → Prop} (h : Q (.ok a) 0) : Chg m (Pure.pure a : PyD W α) Q := by
  intro w r w' e
  obtain ⟨rfl, rfl⟩ := Prod.mk.inj (Option.some.inj e)
  rw [Int.sub_self]
  exact h

theorem Chg.bind {p : PyD W α} {f : α → PyD W β} {Q : Except PyErr α → Int → Prop} {R : Except PyErr β → Int → Prop}
    (h : Chg m p Q) (hf : ∀ a d, Q (.ok a) d → Chg m (f a) (fun r d' => R r (d + d'))) (he : ∀ e d, Q (.error e) d → R (.error e) d) :
    Chg m (p >>= f) R := by
  intro w r w' e
  rw [exec_bind] at e
  rcases hp : p.exec w with _ | ⟨er | a, w1⟩ <;> rw [hp] at e <;> simp only at e
  · cases e
  · obtain ⟨rfl, rfl⟩ := Prod.mk.inj (Option.some.inj e)
    exact he _ _ (h _ _ _ hp)
  · have h2 := hf a _ (h _ _ _ hp) _ _ _ e
    have : m w1 - m w + (m w' - m w1) = m w' - m w := by omega
    exact this ▸ h2

theorem Chg.quietly {p : PyD W Unit} {k : Int} (h : Chg m p (fun _ d => d = k)) : Chg m (quietly p) (fun r d => r = .ok () ∧ d = k) := by
  intro w r w' e
  change SeqClose.quietly p w = _ at e
  unfold SeqClose.quietly at e
  rcases hp : p.exec w with _ | ⟨r1, w1⟩ <;> rw [hp] at e <;> simp only at e
  · cases e
  · obtain ⟨rfl, rfl⟩ := Prod.mk.inj (Option.some.inj e)
    exact ⟨rfl, h _ _ _ hp⟩

theorem Chg.leaving {drop : PyD W Unit} {p : PyD W α} {k : Int} {Q R : Except PyErr α → Int → Prop} (hd : Chg m drop (fun _ d => d = k))
    (h : Chg m p Q) (ho : ∀ a d, Q (.ok a) d → R (.ok a) d) (he : ∀ e d, Q (.error e) d → R (.error e) (d + k)) :
    Chg m (leaving drop p) R := by
  intro w r w' e
  change SeqClose.leaving drop p w = _ at e
  unfold SeqClose.leaving at e
  rcases hp : p.exec w with _ | ⟨er | a, w1⟩ <;> rw [hp] at e <;> simp only at e
  · cases e
  · rcases hq : drop.exec w1 with _ | ⟨r2, w2⟩ <;> rw [hq] at e <;> simp only at e
    · cases e
    · obtain ⟨rfl, rfl⟩ := Prod.mk.inj (Option.some.inj e)
      have h1 := he _ _ (h _ _ _ hp)
      have h2 := hd _ _ _ hq
      have : m w1 - m w + k = m w2 - m w := by omega
      rwa [this] at h1
  · obtain ⟨rfl, rfl⟩ := Prod.mk.inj (Option.some.inj e)
    exact ho _ _ (h _ _ _ hp)

/-- the outcome of `iter` -/
def IterQ (N : S → Int → Prop) : Except PyErr S → Int → Prop
  | .ok s, d => N s d
  | .error _, d => d = 0

/-- the outcome of `next` on an iterator that owes `k` -/
def NextQ (N : S → Int → Prop) (k : Int) : Except PyErr (Option (α × S)) → Int → Prop
  | .ok (some (_, s')), d => N s' (k + d)
  | .ok none, d => d = -k
  | .error _, d => d = -k

/-- `N s k`: dropping an iterator in state `s` changes the entry by `-k`, and so do its end and its failure -/
structure Accounts (m : W → Int) (src : Source W α S) (N : S → Int → Prop) : Prop where
  iter : Chg m src.iter (IterQ N)
  next : ∀ s k, N s k → Chg m (src.next s) (NextQ N k)
  release : ∀ s k, N s k → Chg m (src.release s) (fun _ d => d = -k)

/-- and closing it too -/
def Closes (m : W → Int) (src : Source W α S) (N : S → Int → Prop) : Prop :=
  ∀ s k, N s k → Chg m (src.close s) (fun _ d => d = -k)

/-- some account is kept, of dropping -/
def Drops (m : W → Int) (src : Source W α S) : Prop := ∃ N, Accounts m src N

/-- and of closing -/
def Tidy (m : W → Int) (src : Source W α S) : Prop := ∃ N, Accounts m src N ∧ Closes m src N

theorem Tidy.drops {src : Source W α S} (h : Tidy m src) : Drops m src := ⟨h.choose, h.choose_spec.1⟩

/-- the code has no effect on the entry -/
abbrev Still (m : W → Int) (p : PyD W α) : Prop := Chg m p (fun _ d => d = 0)

theorem quietly_release {src : Source W α S} {N : S → Int → Prop} (h : Accounts m src N) {s : S} {k : Int} (hs : N s k) :
    Chg m (quietly (src.release s)) (fun _ d => d = -k) := (h.release s k hs).quietly.mono fun _ _ h => h.2

/-- a callback raises: the iterator it holds is dropped -/
theorem leaving_release {src : Source W α S} {N : S → Int → Prop} (h : Accounts m src N) {s : S} {k : Int} (hs : N s k)
    {p : PyD W β} (hp : Still m p) :
    Chg m (leaving (src.release s) p) (fun r d => match r with | .ok _ => d = 0 | .error _ => d = -k) :=
  (h.release s k hs).leaving hp (fun _ _ h => h) (fun _ d h => by subst h; omega)

/-- ### The loop -/
theorem loop_chg {src : Source W α S} {N : S → Int → Prop} (h : Accounts m src N) {body : C → α → PyD W (Flow C)}
    (hb : ∀ c x, Still m (body c x)) : ∀ s c k, N s k → Chg m (loop src body s c) (fun _ d => d = -k) := by
  suffices H : ∀ s c w r, (loop src body s c).exec w = some r → ∀ k, N s k → m r.2 - m w = -k by
    intro s c k hs w r w' e
    exact H s c w _ e k hs
  refine SeqClose.loop.fixpoint_induct src body
    (fun f => ∀ s c w r, (f s c).exec w = some r → ∀ k, N s k → m r.2 - m w = -k)
    (admissible_post2 (fun s c w r => ∀ k, N s k → m r.2 - m w = -k)) ?_
  intro f ih s c
  suffices H : ∀ k, N s k → Chg m (_ : PyD W C) (fun _ d => d = -k) from fun w r e k hs => H k hs w r.1 r.2 e
  intro k hs
  refine Chg.bind (h.next s k hs) ?_ (fun _ _ h => h)
  rintro (_ | ⟨x, s'⟩) d hd
  · exact Chg.pure (by change d = -k at hd; omega)
  · change N s' (k + d) at hd
    refine Chg.bind (leaving_release h hd (hb c x)) ?_ (fun _ d' h => by change d' = -(k + d) at h; omega)
    rintro (c' | c') d' hd'
    · intro w r w' e
      have h1 := ih s' c' w _ e _ hd
      change d' = 0 at hd'
      change m w' - m w = _ at h1
      omega
    · refine Chg.bind (quietly_release h hd) (fun _ d'' h => Chg.pure ?_) (fun _ d'' h => ?_) <;> change d' = 0 at hd' <;> omega

theorem forLoop_still {src : Source W α S} (h : Drops m src) {body : C → α → PyD W (Flow C)} (hb : ∀ c x, Still m (body c x)) (c : C) :
    Still m (forLoop src body c) := by
  obtain ⟨N, h⟩ := h
  refine Chg.bind h.iter (fun s d hs => ?_) (fun _ _ h => h)
  exact (loop_chg h hb s c d hs).mono fun _ d' h => by omega

/-- ### The functions -/
theorem ofList_tidy (xs : List α) : Tidy m (ofList xs : Source W α _) := by
  refine ⟨fun _ k => k = 0, ⟨Chg.pure rfl, ?_, ?_⟩, ?_⟩
  · rintro (_ | ⟨x, rest⟩) k rfl
    · exact Chg.pure rfl
    · exact Chg.pure rfl
  · rintro _ k rfl; exact Chg.pure rfl
  · rintro _ k rfl; exact Chg.pure rfl

/-- the iterator of a generator's own loop, if it has begun -/
def optN (N : S → Int → Prop) : Option S → Int → Prop
  | none, k => k = 0
  | some s, k => N s k

theorem map_tidy {mapper : α → PyD W β} (hf : ∀ x, Still m (mapper x)) {src : Source W α S} (h : Drops m src) : Tidy m (SeqClose.map mapper src) := by
  obtain ⟨N, h⟩ := h
  have hrel : ∀ st k, optN N st k → Chg m ((SeqClose.map mapper src).release st) (fun _ d => d = -k) := by
    rintro (_ | s) k hs
    · exact Chg.pure (by change k = 0 at hs; omega)
    · exact quietly_release h hs
  refine ⟨optN N, ⟨Chg.pure rfl, ?_, hrel⟩, hrel⟩
  intro st k hs
  have hst : Chg m (started src.toIterable st) (fun r d => match r with | .ok s => N s (k + d) | .error _ => d = -k) := by
    rcases st with _ | s
    · change k = 0 at hs
      subst hs
      refine h.iter.mono ?_
      rintro (_ | s) d hd
      · exact hd
      · change N s d at hd
        change N s (0 + d)
        rwa [Int.zero_add]
    · exact Chg.pure (by change N s (k + 0); rw [Int.add_zero]; exact hs)
  refine Chg.bind hst (fun s d hd => ?_) (fun _ _ h => h)
  refine Chg.bind (h.next s _ hd) ?_ (fun _ d' h => by change d' = _ at h; change d + d' = -k; omega)
  rintro (_ | ⟨x, s'⟩) d' hd'
  · exact Chg.pure (by change d' = _ at hd'; change _ = -k; omega)
  · refine Chg.bind (leaving_release h hd' (hf x)) ?_ (fun _ d'' h => by change d'' = _ at h; change d + (d' + d'') = -k; omega)
    intro y d'' h''
    change d'' = 0 at h''
    subst h''
    refine Chg.pure ?_
    change N s' (k + (d + (d' + (0 + 0))))
    have : k + (d + (d' + (0 + 0))) = k + d + d' := by omega
    rw [this]
    exact hd'

theorem seq_tidy {src : Source W α S} (h : Drops m src) : Tidy m (SeqClose.seq src) := by
  obtain ⟨N, h⟩ := h
  exact ⟨N, ⟨h.iter, h.next, fun s k hs => quietly_release h hs⟩, fun s k hs => quietly_release h hs⟩

theorem filter_tidy {predicate : α → PyD W Bool} (hf : ∀ x, Still m (predicate x)) {src : Source W α S} (h : Drops m src) :
    Tidy m (SeqClose.filter predicate src) := by
  obtain ⟨N, h⟩ := h
  refine ⟨N, ⟨h.iter, ?_, fun s k hs => quietly_release h hs⟩, fun s k hs => quietly_release h hs⟩
  suffices H : ∀ s w r, (SeqClose.filterNext predicate src s).exec w = some r → ∀ k, N s k → NextQ N k r.1 (m r.2 - m w) from
    fun s k hs w r w' e => H s w _ e k hs
  refine SeqClose.filterNext.fixpoint_induct predicate src
    (fun f => ∀ s w r, (f s).exec w = some r → ∀ k, N s k → NextQ N k r.1 (m r.2 - m w))
    (admissible_post1 (fun s w r => ∀ k, N s k → NextQ N k r.1 (m r.2 - m w))) ?_
  intro f ih s
  suffices H : ∀ k, N s k → Chg m (_ : PyD W (Option (α × S))) (NextQ N k) from fun w r e k hs => H k hs w r.1 r.2 e
  intro k hs
  refine Chg.bind (h.next s k hs) ?_ (fun _ _ h => h)
  rintro (_ | ⟨x, s'⟩) d hd
  · exact Chg.pure (by change d = -k at hd; change d + 0 = -k; omega)
  · change N s' (k + d) at hd
    refine Chg.bind (leaving_release h hd (hf x)) ?_ (fun _ d' h => by change d' = _ at h; change d + d' = -k; omega)
    rintro b d' hd'
    change d' = 0 at hd'
    subst hd'
    cases b with
    | true => exact Chg.pure (by change N s' (k + (d + (0 + 0))); simpa using hd)
    | false =>
      intro w r w' e
      have h1 := ih s' w _ e _ hd
      have h2 : NextQ N k r (d + (0 + (m w' - m w))) := by
        change NextQ N (k + d) r (m w' - m w) at h1
        rcases r with er | _ | ⟨y, t⟩
        · change _ = _ at h1; change _ = _; omega
        · change _ = _ at h1; change _ = _; omega
        · change N t _ at h1
          change N t _
          have : k + (d + (0 + (m w' - m w))) = k + d + (m w' - m w) := by omega
          rwa [this]
      exact h2

/-- the iterator held by `accumulate` -/
def scanN (N : S → Int → Prop) : ScanState S γ → Int → Prop
  | .initial s => N s
  | .running s _ => N s

theorem scan_tidy {scanner : γ → α → PyD W γ} (hf : ∀ acc x, Still m (scanner acc x)) (state : γ) {src : Source W α S} (h : Drops m src) :
    Tidy m (SeqClose.scan scanner state src) := by
  obtain ⟨N, h⟩ := h
  have hrel : ∀ st k, scanN N st k → Chg m (scanRelease (γ := γ) src st) (fun _ d => d = -k) := by
    rintro (s | ⟨s, t⟩) k hs
    · exact quietly_release h hs
    · exact quietly_release h hs
  refine ⟨scanN N, ⟨?_, ?_, hrel⟩, hrel⟩
  · refine Chg.bind h.iter (fun s d hs => Chg.pure ?_) (fun _ _ h => h)
    change N s (d + 0)
    rw [Int.add_zero]
    exact hs
  · rintro (s | ⟨s, t⟩) k hs
    · refine Chg.pure ?_
      change N s (k + 0)
      rw [Int.add_zero]
      exact hs
    · refine Chg.bind (h.next s k hs) ?_ (fun _ _ h => h)
      rintro (_ | ⟨x, s'⟩) d hd
      · exact Chg.pure (by change d = -k at hd; change d + 0 = -k; omega)
      · refine Chg.bind (leaving_release h hd (hf t x)) ?_ (fun _ d' h => by change d' = _ at h; change d + d' = -k; omega)
        intro t' d' hd'
        change d' = 0 at hd'
        subst hd'
        exact Chg.pure (by change N s' (k + d) at hd; change N s' (k + (d + (0 + 0))); simpa using hd)

theorem zip_tidy {src1 : Source W α S} {src2 : Source W β T} (h1 : Drops m src1) (h2 : Drops m src2) : Tidy m (SeqClose.zip src1 src2) := by
  obtain ⟨N1, h1⟩ := h1
  obtain ⟨N2, h2⟩ := h2
  have hrel : ∀ (st : S × T) k, (∃ k1 k2, N1 st.1 k1 ∧ N2 st.2 k2 ∧ k = k1 + k2) →
      Chg m (zipRelease src1 src2 st) (fun _ d => d = -k) := by
    rintro ⟨s, t⟩ k ⟨k1, k2, hs, ht, rfl⟩
    refine Chg.bind (h1.release s k1 hs).quietly (fun _ d h => ?_) (fun _ d h => by cases h.1)
    exact (quietly_release h2 ht).mono fun _ d' h' => by have := h.2; omega
  refine ⟨fun st k => ∃ k1 k2, N1 st.1 k1 ∧ N2 st.2 k2 ∧ k = k1 + k2, ⟨?_, ?_, hrel⟩, hrel⟩
  · refine Chg.bind h1.iter (fun s d hs => ?_) (fun _ _ h => h)
    refine Chg.bind (Q := fun r d' => match r with | .ok t => N2 t d' | .error _ => d' = -d) ?_ ?_ ?_
    · exact (h1.release s d hs).leaving h2.iter (fun _ _ h => h) (fun _ d' h => by change d' = 0 at h; change d' + -d = -d; omega)
    · intro t d' ht
      exact Chg.pure ⟨d, d', hs, ht, by omega⟩
    · intro _ d' h
      change d' = -d at h
      change d + d' = 0
      omega
  · rintro ⟨s, t⟩ k ⟨k1, k2, hs, ht, rfl⟩
    refine Chg.bind (Q := fun r d => match r with
        | .ok none => d = -k1 | .ok (some (_, s')) => N1 s' (k1 + d) | .error _ => d = -(k1 + k2)) ?_ ?_ ?_
    · refine (h2.release t k2 ht).leaving (h1.next s k1 hs) ?_ (fun _ d h => by change d = _ at h; change _ = _; omega)
      rintro (_ | ⟨x, s'⟩) d h
      · exact h
      · exact h
    · rintro (_ | ⟨x, s'⟩) d hd
      · change d = -k1 at hd
        refine Chg.bind (h2.release t k2 ht).quietly (fun _ d' h => Chg.pure ?_) (fun _ d' h => by cases h.1)
        have := h.2
        change d + (d' + 0) = -(k1 + k2)
        omega
      · change N1 s' (k1 + d) at hd
        refine Chg.bind (Q := fun r d' => match r with
            | .ok none => d' = -k2 | .ok (some (_, t')) => N2 t' (k2 + d') | .error _ => d' = -(k1 + d + k2)) ?_ ?_ ?_
        · refine (h1.release s' _ hd).leaving (h2.next t k2 ht) ?_ (fun _ d' h => by change d' = _ at h; change _ = _; omega)
          rintro (_ | ⟨x, s'⟩) d h
          · exact h
          · exact h
        · rintro (_ | ⟨y, t'⟩) d' hd'
          · change d' = -k2 at hd'
            refine Chg.bind (h1.release s' _ hd).quietly (fun _ d'' h => Chg.pure ?_) (fun _ d' h => by cases h.1)
            have := h.2
            change d + (d' + (d'' + 0)) = -(k1 + k2)
            omega
          · exact Chg.pure ⟨k1 + d, k2 + d', hd, hd', by omega⟩
        · intro _ d' h
          change d' = _ at h
          change d + d' = _
          omega
    · intro _ d h
      exact h

/-- the iterator held by `enumerate` -/
def enumN (N : S → Int → Prop) : Option (S × Nat) → Int → Prop
  | none, k => k = 0
  | some (s, _), k => N s k

theorem enumerateExit_chg {src : Source W α S} {N : S → Int → Prop} (h : Accounts m src N) :
    ∀ st k, enumN N st k → Chg m (enumerateExit src st) (fun _ d => d = -k) := by
  rintro (_ | ⟨s, i⟩) k hs
  · exact Chg.pure (by change k = 0 at hs; omega)
  · exact quietly_release h hs

theorem NextQ.shift {N : S → Int → Prop} {k d : Int} {r : Except PyErr (Option (α × S))} {e : Int} (h : NextQ N (k + d) r e) :
    NextQ N k r (d + e) := by
  rcases r with er | _ | ⟨y, t⟩
  · change _ = _ at h; change _ = _; omega
  · change _ = _ at h; change _ = _; omega
  · change N t _ at h
    change N t _
    rwa [← Int.add_assoc]

theorem skip_tidy (count : Int) {src : Source W α S} (h : Drops m src) : Tidy m (SeqClose.skip count src) := by
  obtain ⟨N, h⟩ := h
  have hnext : ∀ (st : S × Nat) k, N st.1 k → Chg m (SeqClose.skipNext count src st) (NextQ (enumN N) k) := by
    suffices H : ∀ (st : S × Nat) w r, (SeqClose.skipNext count src st).exec w = some r → ∀ k, N st.1 k → NextQ (enumN N) k r.1 (m r.2 - m w) from
      fun s k hs w r w' e => H s w _ e k hs
    refine SeqClose.skipNext.fixpoint_induct count src
      (fun f => ∀ st w r, (f st).exec w = some r → ∀ k, N st.1 k → NextQ (enumN N) k r.1 (m r.2 - m w))
      (admissible_post1 (fun (st : S × Nat) w r => ∀ k, N st.1 k → NextQ (enumN N) k r.1 (m r.2 - m w))) ?_
    rintro f ih ⟨s, i⟩
    suffices H : ∀ k, N s k → Chg m (_ : PyD W (Option (α × Option (S × Nat)))) (NextQ (enumN N) k) from
      fun w r e k hs => H k hs w r.1 r.2 e
    intro k hs
    refine Chg.bind (h.next s k hs) ?_ (fun _ _ h => h)
    rintro (_ | ⟨x, s'⟩) d hd
    · exact Chg.pure (by change d = -k at hd; change d + 0 = -k; omega)
    · change N s' (k + d) at hd
      dsimp only
      by_cases hc : (i : Int) ≥ count
      · rw [if_pos hc]
        exact Chg.pure (by change N s' (k + (d + 0)); simpa using hd)
      · rw [if_neg hc]
        intro w r w' e
        exact (ih (s', i + 1) w _ e _ hd).shift
  refine ⟨enumN N, ⟨Chg.pure rfl, ?_, enumerateExit_chg h⟩, enumerateExit_chg h⟩
  rintro (_ | ⟨s, i⟩) k hs
  · change k = 0 at hs
    subst hs
    refine Chg.bind h.iter (fun s d hd => ?_) (fun _ d h => by change d = 0 at h; change d = -0; omega)
    refine (hnext (s, 0) d hd).mono fun r e he => ?_
    exact NextQ.shift (by rwa [Int.zero_add])
  · exact hnext (s, i) k hs

theorem take_tidy (count : Int) {src : Source W α S} (h : Drops m src) : Tidy m (SeqClose.take count src) := by
  obtain ⟨N, h⟩ := h
  unfold SeqClose.take
  by_cases hc : count > 0
  · rw [if_pos hc]
    refine ⟨enumN N, ⟨Chg.pure rfl, ?_, enumerateExit_chg h⟩, enumerateExit_chg h⟩
    rintro (_ | ⟨s, i⟩) k hs
    · change k = 0 at hs
      subst hs
      refine Chg.bind h.iter (fun s d hd => ?_) (fun _ d h => by change d = 0 at h; change d = -0; omega)
      change N s d at hd
      refine Chg.bind (h.next s d hd) ?_ (fun _ d' h => by change d' = _ at h; change _ = _; omega)
      rintro (_ | ⟨x, s'⟩) d' hd'
      · exact Chg.pure (by change d' = _ at hd'; change _ = _; omega)
      · refine Chg.pure ?_
        change N s' (d + d') at hd'
        change N s' (0 + (d + (d' + 0)))
        have : 0 + (d + (d' + 0)) = d + d' := by omega
        rwa [this]
    · change N s k at hs
      change Chg m (if (i : Int) = count - 1 then _ else _) _
      by_cases hi : (i : Int) = count - 1
      · rw [if_pos hi]
        refine Chg.bind (h.release s k hs).quietly (fun _ d hd => Chg.pure ?_) (fun _ d hd => by cases hd.1)
        have := hd.2
        change d + 0 = -k
        omega
      · rw [if_neg hi]
        refine Chg.bind (h.next s k hs) ?_ (fun _ _ h => h)
        rintro (_ | ⟨x, s'⟩) d hd
        · exact Chg.pure (by change d = -k at hd; change d + 0 = -k; omega)
        · exact Chg.pure (by change N s' (k + d) at hd; change N s' (k + (d + 0)); simpa using hd)
  · rw [if_neg hc]
    refine ⟨fun _ k => k = 0, ⟨Chg.pure rfl, ?_, ?_⟩, ?_⟩ <;> rintro _ k rfl <;> exact Chg.pure rfl

theorem pairwise_tidy {src : Source W α S} (h : Drops m src) : Tidy m (SeqClose.pairwise src) := by
  obtain ⟨N, h⟩ := h
  refine ⟨fun st => N st.1, ⟨?_, ?_, fun st k hs => quietly_release h hs⟩, fun st k hs => quietly_release h hs⟩
  · refine Chg.bind h.iter (fun s d hs => Chg.pure ?_) (fun _ _ h => h)
    change N s (d + 0)
    rw [Int.add_zero]
    exact hs
  · rintro ⟨s, _ | old⟩ k hs
    · refine Chg.bind (h.next s k hs) ?_ (fun _ _ h => h)
      rintro (_ | ⟨x, s'⟩) d hd
      · exact Chg.pure (by change d = -k at hd; change d + 0 = -k; omega)
      · refine Chg.bind (h.next s' _ hd) ?_ (fun _ d' h => by change d' = _ at h; change _ = _; omega)
        rintro (_ | ⟨y, s''⟩) d' hd'
        · exact Chg.pure (by change d' = _ at hd'; change _ = _; omega)
        · refine Chg.pure ?_
          change N s'' (k + d + d') at hd'
          change N s'' (k + (d + (d' + 0)))
          have : k + (d + (d' + 0)) = k + d + d' := by omega
          rwa [this]
    · refine Chg.bind (h.next s k hs) ?_ (fun _ _ h => h)
      rintro (_ | ⟨x, s'⟩) d hd
      · exact Chg.pure (by change d = -k at hd; change d + 0 = -k; omega)
      · exact Chg.pure (by change N s' (k + d) at hd; change N s' (k + (d + 0)); simpa using hd)

/-- the iterators held by the generator of `collect` -/
def collectN (m : W → Int) (N : S → Int → Prop) : CollectState S (Source W β T) T → Int → Prop
  | .fresh, k => k = 0
  | .outer s, k => N s k
  | .inner s it t, k => ∃ k1 k2 M, N s k1 ∧ Accounts m it M ∧ Closes m it M ∧ M t k2 ∧ k = k1 + k2

theorem collect_tidy' {P : α → Prop} {mapping : α → PyD W (Source W β T)}
    (hf : ∀ x, P x → Chg m (mapping x) (fun r d => d = 0 ∧ ∀ it, r = .ok it → Tidy m it)) {src : Source W α S} {N : S → Int → Prop}
    (h : Accounts m src N) (hP : ∀ s k, N s k → Chg m (src.next s) (fun r _ => ∀ x s', r = .ok (some (x, s')) → P x)) :
    Tidy m (SeqClose.collect mapping src) := by
  have hrel : ∀ st k, collectN (β := β) (T := T) m N st k → Chg m (collectExit src st) (fun _ d => d = -k) := by
    rintro (_ | s | ⟨s, it, t⟩) k hs
    · exact Chg.pure (by change k = 0 at hs; omega)
    · exact quietly_release h hs
    · obtain ⟨k1, k2, M, hs, _, hc, ht, rfl⟩ := hs
      refine Chg.bind (hc t k2 ht).quietly (fun _ d hd => ?_) (fun _ d h => by cases h.1)
      exact (quietly_release h hs).mono fun _ d' h' => by have := hd.2; omega
  refine ⟨collectN m N, ⟨Chg.pure rfl, ?_, hrel⟩, hrel⟩
  suffices H : ∀ st w r, (SeqClose.collectNext mapping src st).exec w = some r → ∀ k, collectN m N st k →
      NextQ (collectN m N) k r.1 (m r.2 - m w) from fun s k hs w r w' e => H s w _ e k hs
  refine SeqClose.collectNext.fixpoint_induct mapping src
    (fun f => ∀ st w r, (f st).exec w = some r → ∀ k, collectN m N st k → NextQ (collectN m N) k r.1 (m r.2 - m w))
    (admissible_post1 (fun st w r => ∀ k, collectN m N st k → NextQ (collectN m N) k r.1 (m r.2 - m w))) ?_
  intro f ih st
  have ih' : ∀ st k, collectN m N st k → Chg m (f st) (NextQ (collectN m N) k) := fun st k hs w r w' e => ih st w _ e k hs
  suffices H : ∀ k, collectN m N st k → Chg m (_ : PyD W (Option (β × CollectState S (Source W β T) T))) (NextQ (collectN m N) k) from
    fun w r e k hs => H k hs w r.1 r.2 e
  intro k hs
  rcases st with _ | s | ⟨s, it, t⟩
  · change k = 0 at hs
    subst hs
    refine Chg.bind h.iter (fun s d hd => ?_) (fun _ d h => by change d = 0 at h; change d = -0; omega)
    refine (ih' (.outer s) d hd).mono fun r e he => ?_
    exact NextQ.shift (by rwa [Int.zero_add])
  · change N s k at hs
    have hboth : Chg m (src.next s) (fun r d => NextQ N k r d ∧ ∀ x s', r = .ok (some (x, s')) → P x) :=
      fun w r w' e => ⟨h.next s k hs w r w' e, hP s k hs w r w' e⟩
    refine Chg.bind hboth ?_ (fun _ _ h => h.1)
    rintro (_ | ⟨x, s'⟩) d ⟨hd, hx⟩
    · exact Chg.pure (by change d = -k at hd; change d + 0 = -k; omega)
    · change N s' (k + d) at hd
      have hx : P x := hx x s' rfl
      refine Chg.bind (Q := fun r d' => match r with | .ok it => d' = 0 ∧ Tidy m it | .error _ => d' = -(k + d)) ?_ ?_ ?_
      · refine (h.release s' _ hd).leaving (hf x hx) (fun it d' h => ⟨h.1, h.2 it rfl⟩) (fun _ d' h => ?_)
        have := h.1
        change _ = _
        omega
      · rintro it d' ⟨rfl, M, hit, hcl⟩
        refine Chg.bind (Q := fun r d' => match r with | .ok t => M t d' | .error _ => d' = -(k + d)) ?_ ?_ ?_
        · exact (h.release s' _ hd).leaving hit.iter (fun _ _ h => h) (fun _ d' h => by change d' = 0 at h; change _ = _; omega)
        · intro t d' ht
          refine (ih' (.inner s' it t) (k + d + d') ⟨k + d, d', M, hd, hit, hcl, ht, rfl⟩).mono fun r e he => ?_
          have h2 := NextQ.shift he
          have h3 := NextQ.shift h2
          have : d + (d' + e) = d + (0 + (d' + e)) := by omega
          rwa [this] at h3
        · intro _ d' h
          change d' = _ at h
          change d + (0 + d') = _
          omega
      · intro _ d' h
        change d' = _ at h
        change d + d' = _
        omega
  · obtain ⟨k1, k2, M, hs, hit, hcl, ht, rfl⟩ := hs
    refine Chg.bind (Q := fun r d => match r with
        | .ok none => d = -k2 | .ok (some (_, t')) => M t' (k2 + d) | .error _ => d = -(k1 + k2)) ?_ ?_ ?_
    · refine (h.release s k1 hs).leaving (hit.next t k2 ht) ?_ (fun _ d h => by change d = _ at h; change _ = _; omega)
      rintro (_ | ⟨x, t'⟩) d h
      · exact h
      · exact h
    · rintro (_ | ⟨y, t'⟩) d hd
      · change d = -k2 at hd
        refine (ih' (.outer s) k1 hs).mono fun r e he => ?_
        exact NextQ.shift (by have : k1 + k2 + d = k1 := by omega
                              rwa [this])
      · exact Chg.pure ⟨k1, k2 + d, M, hs, hit, hcl, hd, by omega⟩
    · intro _ d h
      exact h

theorem collect_tidy {mapping : α → PyD W (Source W β T)}
    (hf : ∀ x, Chg m (mapping x) (fun r d => d = 0 ∧ ∀ it, r = .ok it → Tidy m it)) {src : Source W α S} (h : Drops m src) :
    Tidy m (SeqClose.collect mapping src) := by
  obtain ⟨N, h⟩ := h
  exact collect_tidy' (P := fun _ => True) (fun x _ => hf x) h fun _ _ _ _ _ _ _ _ _ _ => trivial

theorem choose_tidy {chooser : α → PyD W (Option β)} (hf : ∀ x, Still m (chooser x)) {src : Source W α S} (h : Drops m src) :
    Tidy m (SeqClose.choose chooser src) := by
  refine collect_tidy (fun x => ?_) h
  refine Chg.bind (hf x) (fun o d hd => Chg.pure ⟨by omega, ?_⟩) (fun _ d hd => ⟨hd, fun _ h => by cases h⟩)
  intro it e
  cases e
  exact ofList_tidy _

theorem concat_tidy {its : List (Source W α T)} (hi : ∀ it ∈ its, Tidy m it) : Tidy m (SeqClose.concat its) := by
  refine collect_tidy' (P := Tidy m) (N := fun s k => k = 0 ∧ ∀ it ∈ s, Tidy m it) (fun it h => Chg.pure ⟨rfl, ?_⟩) ⟨Chg.pure ⟨rfl, hi⟩, ?_, ?_⟩ ?_
  · intro it' e
    cases e
    exact h
  · rintro (_ | ⟨x, rest⟩) k ⟨rfl, hs⟩
    · exact Chg.pure rfl
    · exact Chg.pure ⟨rfl, fun it h => hs it (List.mem_cons_of_mem _ h)⟩
  · rintro _ k ⟨rfl, _⟩
    exact Chg.pure rfl
  · rintro (_ | ⟨x, rest⟩) k ⟨rfl, hs⟩
    · exact Chg.pure fun _ _ e => by cases e
    · refine Chg.pure fun y s' e => ?_
      cases e
      exact hs _ List.mem_cons_self

theorem delay_tidy {generator : PyD W (Source W α T)} (hf : Chg m generator (fun r d => d = 0 ∧ ∀ it, r = .ok it → Drops m it)) :
    Tidy m (SeqClose.delay generator) := by
  have hrel : ∀ (st : Source W α T × T) k, (∃ M, Accounts m st.1 M ∧ M st.2 k) → Chg m (quietly (st.1.release st.2)) (fun _ d => d = -k) := by
    rintro st k ⟨M, h, hs⟩
    exact quietly_release h hs
  refine ⟨fun st k => ∃ M, Accounts m st.1 M ∧ M st.2 k, ⟨?_, ?_, hrel⟩, hrel⟩
  · refine Chg.bind hf ?_ (fun _ _ h => h.1)
    rintro it d ⟨rfl, hit⟩
    obtain ⟨M, hit⟩ := hit it rfl
    refine Chg.bind hit.iter (fun s d hs => Chg.pure ?_) (fun _ d h => by change d = 0 at h; change 0 + d = 0; omega)
    exact ⟨M, hit, by change M s d at hs; simpa using hs⟩
  · rintro ⟨it, s⟩ k ⟨M, hit, hs⟩
    refine Chg.bind (hit.next s k hs) ?_ (fun _ _ h => h)
    rintro (_ | ⟨x, s'⟩) d hd
    · exact Chg.pure (by change d = -k at hd; change d + 0 = -k; omega)
    · exact Chg.pure ⟨M, hit, by change M s' (k + d) at hd; simpa using hd⟩

theorem inLeft_tidy {src : Source W α S} (h : Tidy m src) : Tidy m (inLeft src T) := by
  obtain ⟨N, h, hc⟩ := h
  refine ⟨fun st k => ∃ s, st = .inl s ∧ N s k, ⟨?_, ?_, ?_⟩, ?_⟩
  · refine Chg.bind h.iter (fun s d hs => Chg.pure ⟨s, rfl, ?_⟩) (fun _ _ h => h)
    rw [Int.add_zero]
    exact hs
  · rintro _ k ⟨s, rfl, hs⟩
    refine Chg.bind (h.next s k hs) ?_ (fun _ _ h => h)
    rintro (_ | ⟨x, s'⟩) d hd
    · exact Chg.pure (by change d = -k at hd; change d + 0 = -k; omega)
    · exact Chg.pure ⟨s', rfl, by change N s' (k + d) at hd; simpa using hd⟩
  · rintro _ k ⟨s, rfl, hs⟩
    exact h.release s k hs
  · rintro _ k ⟨s, rfl, hs⟩
    exact hc s k hs

theorem inRight_tidy {src : Source W α T} (h : Tidy m src) : Tidy m (inRight S src) := by
  obtain ⟨N, h, hc⟩ := h
  refine ⟨fun st k => ∃ s, st = .inr s ∧ N s k, ⟨?_, ?_, ?_⟩, ?_⟩
  · refine Chg.bind h.iter (fun s d hs => Chg.pure ⟨s, rfl, ?_⟩) (fun _ _ h => h)
    rw [Int.add_zero]
    exact hs
  · rintro _ k ⟨s, rfl, hs⟩
    refine Chg.bind (h.next s k hs) ?_ (fun _ _ h => h)
    rintro (_ | ⟨x, s'⟩) d hd
    · exact Chg.pure (by change d = -k at hd; change d + 0 = -k; omega)
    · exact Chg.pure ⟨s', rfl, by change N s' (k + d) at hd; simpa using hd⟩
  · rintro _ k ⟨s, rfl, hs⟩
    exact h.release s k hs
  · rintro _ k ⟨s, rfl, hs⟩
    exact hc s k hs

theorem append_tidy {p : Source W α S} {q : Source W α T} (hp : Tidy m p) (hq : Tidy m q) :
    Tidy m (SeqClose.append [inRight S q] (inLeft p T)) := by
  refine concat_tidy ?_
  intro it h
  rcases List.mem_cons.1 h with rfl | h
  · exact inLeft_tidy hp
  · rw [List.mem_singleton.1 h]
    exact inRight_tidy hq

/-- ### The ledger -/
theorem lift_still (p : PyD σ α) (m : Ledger σ → Int) (hm : ∀ l w, m { l with world := w } = m l) : Still m (lift p) := by
  intro l r l' e
  change lift p l = _ at e
  unfold lift at e
  rcases hp : p.exec l.world with _ | ⟨r1, w1⟩ <;> rw [hp] at e <;> simp only at e
  · cases e
  · obtain ⟨rfl, rfl⟩ := Prod.mk.inj (Option.some.inj e)
    rw [hm]
    exact Int.sub_self _

theorem note_opened (a b : Int) : Chg (·.opened) (note (σ := σ) a b) (fun r d => r = .ok () ∧ d = a) := by
  intro l r l' e
  obtain ⟨rfl, rfl⟩ := Prod.mk.inj (Option.some.inj e)
  exact ⟨rfl, by simp; omega⟩

theorem note_closings (a b : Int) : Chg (·.closings) (note (σ := σ) a b) (fun r d => r = .ok () ∧ d = b) := by
  intro l r l' e
  obtain ⟨rfl, rfl⟩ := Prod.mk.inj (Option.some.inj e)
  exact ⟨rfl, by simp; omega⟩

theorem root_next_exec (r : Root σ α S) (s : S) (l : Ledger σ) :
    (r.source.next s).exec l = match (lift (r.iterable.next s)).exec l with
    | none => none
    | some (.ok (some (x, s')), l') => some (.ok (some (x, s')), l')
    | some (res, l') => match (note (if r.kept then 0 else -1) 0).exec l' with
      | none => none
      | some (_, l'') => some (res, l'') := rfl

theorem lift_quietly (p : PyD σ Unit) (m : Ledger σ → Int) (hm : ∀ l w, m { l with world := w } = m l) :
    Chg m (lift (quietly p)) (fun r d => r = .ok () ∧ d = 0) := by
  intro l r l' e
  refine ⟨?_, lift_still _ m hm l r l' e⟩
  change lift (quietly p) l = _ at e
  simp only [lift, exec, quietly] at e
  rcases hp : p l.world with _ | ⟨r1, w1⟩ <;> rw [hp] at e <;> simp only at e
  · cases e
  · exact (Prod.mk.inj (Option.some.inj e)).1.symm

/-- what `next` on a supplied sequence does to an entry that writing `note (if kept then 0 else -1) 0` changes by `-k` -/
theorem root_next {m : Ledger σ → Int} (hm : ∀ l w, m { l with world := w } = m l) (r : Root σ α S) (k : Int)
    (hn : Chg m (note (σ := σ) (if r.kept then 0 else -1) 0) (fun _ d => d = -k)) (s : S) :
    Chg m (r.source.next s) (NextQ (fun _ k' => k' = k) k) := by
  intro l res l' e
  have hl := lift_still (r.iterable.next s) m hm l
  rw [root_next_exec] at e
  rcases hp : (lift (r.iterable.next s)).exec l with _ | ⟨er | _ | ⟨x, s'⟩, l1⟩ <;> rw [hp] at e <;> simp only at e
  · cases e
  · have h1 := hl _ _ hp
    rcases hq : (note (if r.kept then 0 else -1) 0).exec l1 with _ | ⟨r2, l2⟩ <;> rw [hq] at e <;> simp only at e
    · cases e
    · obtain ⟨rfl, rfl⟩ := Prod.mk.inj (Option.some.inj e)
      have h2 := hn _ _ _ hq
      change _ = _
      omega
  · have h1 := hl _ _ hp
    rcases hq : (note (if r.kept then 0 else -1) 0).exec l1 with _ | ⟨r2, l2⟩ <;> rw [hq] at e <;> simp only at e
    · cases e
    · obtain ⟨rfl, rfl⟩ := Prod.mk.inj (Option.some.inj e)
      have h2 := hn _ _ _ hq
      change _ = _
      omega
  · obtain ⟨rfl, rfl⟩ := Prod.mk.inj (Option.some.inj e)
    have h1 := hl _ _ hp
    change k + _ = k
    omega

theorem root_opened (r : Root σ α S) : Tidy (·.opened) r.source := by
  have hm : ∀ (l : Ledger σ) w, ({ l with world := w } : Ledger σ).opened = l.opened := fun _ _ => rfl
  refine ⟨fun _ k => k = if r.kept then 0 else 1, ⟨?_, ?_, ?_⟩, ?_⟩
  · refine Chg.bind (lift_still r.iterable.iter _ hm) (fun s d hd => ?_) (fun _ _ h => h)
    change d = 0 at hd
    subst hd
    cases hk : r.kept with
    | true => exact Chg.pure (by change _ = _; simp)
    | false =>
      refine Chg.bind (note_opened 1 0) (fun _ d h => Chg.pure ?_) (fun _ _ h => by cases h.1)
      have := h.2
      change _ = _
      simp
      omega
  · rintro s k rfl
    refine root_next hm r _ ?_ s
    refine (note_opened _ 0).mono fun _ d h => ?_
    rw [h.2]
    cases r.kept <;> rfl
  · rintro s k rfl
    change Chg _ (if r.kept then _ else _) _
    cases hk : r.kept with
    | true => exact Chg.pure rfl
    | false =>
      refine Chg.bind (lift_quietly (r.cleanup s) _ hm) (fun _ d hd => ?_) (fun e d hd => by cases hd.1)
      exact (note_opened _ _).mono fun _ d' h => by have := h.2; have := hd.2; simp; omega
  · rintro s k rfl
    refine Chg.bind (lift_quietly (r.cleanup s) _ hm) (fun _ d hd => ?_) (fun e d hd => by cases hd.1)
    have := hd.2
    cases hk : r.kept with
    | true => exact (note_opened _ _).mono fun _ d' h => by have := h.2; simp; omega
    | false => exact (note_opened _ _).mono fun _ d' h => by have := h.2; simp; omega

theorem root_closings (r : Root σ α S) : Accounts (·.closings) r.source (fun _ k => k = 0) := by
  have hm : ∀ (l : Ledger σ) w, ({ l with world := w } : Ledger σ).closings = l.closings := fun _ _ => rfl
  refine ⟨?_, ?_, ?_⟩
  · refine Chg.bind (lift_still r.iterable.iter _ hm) (fun s d hd => ?_) (fun _ _ h => h)
    change d = 0 at hd
    subst hd
    cases hk : r.kept with
    | true => exact Chg.pure (by change _ = _; simp)
    | false =>
      refine Chg.bind (note_closings 1 0) (fun _ d h => Chg.pure ?_) (fun _ _ h => by cases h.1)
      have := h.2
      change _ = _
      omega
  · rintro s k rfl
    exact root_next hm r 0 ((note_closings _ 0).mono fun _ d h => by rw [h.2]; rfl) s
  · rintro s k rfl
    change Chg _ (if r.kept then _ else _) _
    cases hk : r.kept with
    | true => exact Chg.pure rfl
    | false =>
      refine Chg.bind (lift_quietly (r.cleanup s) _ hm) (fun _ d hd => ?_) (fun e d hd => by cases hd.1)
      exact (note_closings _ _).mono fun _ d' h => by have := h.2; have := hd.2; omega

theorem root_closings_closes (r : Root σ α S) (hr : r.kept = false) : Closes (·.closings) r.source (fun _ k => k = 0) := by
  have hm : ∀ (l : Ledger σ) w, ({ l with world := w } : Ledger σ).closings = l.closings := fun _ _ => rfl
  rintro s k rfl
  change Chg _ (do lift (quietly (r.cleanup s)); if r.kept then note 0 1 else note (-1) 0) _
  rw [hr]
  refine Chg.bind (lift_quietly (r.cleanup s) _ hm) (fun _ d hd => ?_) (fun e d hd => by cases hd.1)
  exact (note_closings _ _).mono fun _ d' h => by have := h.2; have := hd.2; omega

/-- ### Pipelines -/
theorem pipe_opened : {α : Type} → (p : Pipe σ α) → Tidy (·.opened) p.build.2
  | _, .root r => root_opened r
  | _, .list xs => ofList_tidy xs
  | _, .seq p => seq_tidy (pipe_opened p).drops
  | _, .map f p => map_tidy (fun x => lift_still (f x) _ fun _ _ => rfl) (pipe_opened p).drops
  | _, .filter f p => filter_tidy (fun x => lift_still (f x) _ fun _ _ => rfl) (pipe_opened p).drops
  | _, .choose f p => choose_tidy (fun x => lift_still (f x) _ fun _ _ => rfl) (pipe_opened p).drops
  | _, .scan f state p => scan_tidy (fun acc x => lift_still (f acc x) _ fun _ _ => rfl) state (pipe_opened p).drops
  | _, .skip count p => skip_tidy count (pipe_opened p).drops
  | _, .take count p => take_tidy count (pipe_opened p).drops
  | _, .pairwise p => pairwise_tidy (pipe_opened p).drops
  | _, .zip p q => zip_tidy (pipe_opened p).drops (pipe_opened q).drops
  | _, .append p q => append_tidy (pipe_opened p) (pipe_opened q)
  | _, .collect f p => collect_tidy (fun x => Chg.bind (lift_still (f x) _ fun _ _ => rfl)
      (fun r d hd => Chg.pure ⟨by omega, fun it e => by cases e; exact root_opened r⟩) (fun _ d hd => ⟨hd, fun _ e => by cases e⟩))
      (pipe_opened p).drops
  | _, .delay f => delay_tidy (Chg.bind (lift_still f _ fun _ _ => rfl)
      (fun r d hd => Chg.pure ⟨by omega, fun it e => by cases e; exact (root_opened r).drops⟩) (fun _ d hd => ⟨hd, fun _ e => by cases e⟩))

open Spec.SeqClose in
theorem pipe_closings : {α : Type} → (p : Pipe σ α) → Wrapped p → Drops (·.closings) p.build.2 ∧ (¬IsKept p → Tidy (·.closings) p.build.2)
  | _, .root r, _ => ⟨⟨_, root_closings r⟩, fun h => ⟨_, root_closings r, root_closings_closes r (by
      cases hk : r.kept with
      | false => rfl
      | true => exact absurd hk h)⟩⟩
  | _, .list xs, _ => ⟨(ofList_tidy xs).drops, fun _ => ofList_tidy xs⟩
  | _, .seq p, h => have t := seq_tidy (pipe_closings p h).1; ⟨t.drops, fun _ => t⟩
  | _, .map f p, h => have t := map_tidy (fun x => lift_still (f x) _ fun _ _ => rfl) (pipe_closings p h).1; ⟨t.drops, fun _ => t⟩
  | _, .filter f p, h => have t := filter_tidy (fun x => lift_still (f x) _ fun _ _ => rfl) (pipe_closings p h).1; ⟨t.drops, fun _ => t⟩
  | _, .choose f p, h => have t := choose_tidy (fun x => lift_still (f x) _ fun _ _ => rfl) (pipe_closings p h).1; ⟨t.drops, fun _ => t⟩
  | _, .scan f state p, h =>
    have t := scan_tidy (fun acc x => lift_still (f acc x) _ fun _ _ => rfl) state (pipe_closings p h).1; ⟨t.drops, fun _ => t⟩
  | _, .skip count p, h => have t := skip_tidy count (pipe_closings p h).1; ⟨t.drops, fun _ => t⟩
  | _, .take count p, h => have t := take_tidy count (pipe_closings p h).1; ⟨t.drops, fun _ => t⟩
  | _, .pairwise p, h => have t := pairwise_tidy (pipe_closings p h).1; ⟨t.drops, fun _ => t⟩
  | _, .zip p q, h => have t := zip_tidy (pipe_closings p h.1).1 (pipe_closings q h.2).1; ⟨t.drops, fun _ => t⟩
  | _, .append p q, h =>
    have t := append_tidy ((pipe_closings p h.1.2).2 h.1.1) ((pipe_closings q h.2.2).2 h.2.1); ⟨t.drops, fun _ => t⟩
  | _, .collect f p, h =>
    have hf : ∀ x, Chg (·.closings) (lift (f x)) (fun r d => d = 0 ∧ ∀ a, r = .ok a → a.kept = false) := fun x l r l' e => by
      refine ⟨lift_still (f x) (·.closings) (fun _ _ => rfl) l r l' e, ?_⟩
      rintro a rfl
      change lift (f x) l = _ at e
      unfold lift at e
      rcases hp : (f x).exec l.world with _ | ⟨r1, w1⟩ <;> rw [hp] at e <;> simp only at e
      · cases e
      · have e1 := (Prod.mk.inj (Option.some.inj e)).1
        subst e1
        exact h.1 x _ _ _ hp
    have t := collect_tidy (fun x => Chg.bind (hf x)
      (fun r d hd => Chg.pure ⟨by have := hd.1; omega, fun it e => by
        cases e; exact ⟨_, root_closings r, root_closings_closes r (hd.2 r rfl)⟩⟩)
      (fun _ d hd => ⟨hd.1, fun _ e => by cases e⟩)) (pipe_closings p h.2).1
    ⟨t.drops, fun _ => t⟩
  | _, .delay f, _ =>
    have t := delay_tidy (Chg.bind (lift_still f _ fun _ _ => rfl)
      (fun r d hd => Chg.pure ⟨by omega, fun it e => by cases e; exact ⟨_, root_closings r⟩⟩) (fun _ d hd => ⟨hd, fun _ e => by cases e⟩))
    ⟨t.drops, fun _ => t⟩

/-- ### Runs -/
theorem exec_bind_ok {p : PyD W α} {f : α → PyD W β} {w w' : W} {a : α} (h : p.exec w = some (.ok a, w')) :
    (p >>= f).exec w = (f a).exec w' := by
  rw [exec_bind, h]

theorem quietly_exec {p : PyD W Unit} {w w' : W} {r : Except PyErr Unit} (h : p.exec w = some (r, w')) :
    (quietly p).exec w = some (.ok (), w') := by
  change quietly p w = _
  unfold quietly
  rw [h]

theorem leaving_exec {p : PyD W α} {drop : PyD W Unit} {w w' : W} {a : α} (h : p.exec w = some (.ok a, w')) :
    (leaving drop p).exec w = some (.ok a, w') := by
  change leaving drop p w = _
  unfold leaving
  rw [h]

theorem lift_exec {p : PyD σ α} {l : Ledger σ} {r : Except PyErr α} {w' : σ} (h : p.exec l.world = some (r, w')) :
    (lift p).exec l = some (r, { l with world := w' }) := by
  change lift p l = _
  unfold lift
  rw [h]

/-- a loop that stops at the first element -/
theorem first_exec {src : Source W α S} {w w1 w2 w3 : W} {s s' : S} {x : α} {r : Except PyErr Unit} (h1 : src.iter.exec w = some (.ok s, w1))
    (h2 : (src.next s).exec w1 = some (.ok (some (x, s')), w2)) (h3 : (src.release s').exec w2 = some (r, w3))
    {body : Option α → α → PyD W (Flow (Option α))} (hb : ∀ c x, body c x = pure (.stop (some x))) :
    (forLoop src body none).exec w = some (.ok (some x), w3) := by
  unfold forLoop
  rw [exec_bind_ok h1, SeqClose.loop.eq_1, exec_bind_ok h2]
  dsimp only
  rw [hb, exec_bind_ok (leaving_exec rfl)]
  dsimp only
  rw [exec_bind_ok (quietly_exec h3)]
  rfl

theorem head_exec {src : Source W α S} {w w1 w2 w3 : W} {s s' : S} {x : α} {r : Except PyErr Unit} (h1 : src.iter.exec w = some (.ok s, w1))
    (h2 : (src.next s).exec w1 = some (.ok (some (x, s')), w2)) (h3 : (src.release s').exec w2 = some (r, w3)) :
    (SeqClose.head src).exec w = some (.ok x, w3) := by
  unfold SeqClose.head
  rw [exec_bind_ok (first_exec h1 h2 h3 fun _ _ => rfl)]
  rfl

theorem map_head {r : Root σ α S} (hk : r.kept = false) {mapper : α → PyD σ β} {l : Ledger σ} {s s' : S} {x : α} {y : β}
    {w1 w2 w3 w4 : σ} {res : Except PyErr Unit} (h1 : r.iterable.iter.exec l.world = some (.ok s, w1))
    (h2 : (r.iterable.next s).exec w1 = some (.ok (some (x, s')), w2)) (h3 : (mapper x).exec w2 = some (.ok y, w3))
    (h4 : (r.cleanup s').exec w3 = some (res, w4)) :
    (SeqClose.head (Pipe.map mapper (.root r)).build.2).exec l = some (.ok y, { l with world := w4 }) := by
  have hi : r.source.iter.exec l = some (.ok s, ⟨w1, l.opened + 1, l.closings⟩) := by
    refine (exec_bind_ok (lift_exec h1)).trans ?_
    rw [hk]
    refine congrArg some (Prod.ext rfl ?_)
    change ({ world := w1, opened := l.opened + 1, closings := l.closings + 0 } : Ledger σ) = _
    rw [Int.add_zero]
  have hn : (r.source.next s).exec ⟨w1, l.opened + 1, l.closings⟩ = some (.ok (some (x, s')), ⟨w2, l.opened + 1, l.closings⟩) := by
    rw [root_next_exec, lift_exec h2]
  have hr : (r.source.release s').exec ⟨w3, l.opened + 1, l.closings⟩ = some (.ok (), { l with world := w4 }) := by
    change (if r.kept then _ else _ : PyD (Ledger σ) Unit).exec _ = _
    rw [hk]
    refine (exec_bind_ok (lift_exec (quietly_exec h4))).trans ?_
    refine congrArg some (Prod.ext rfl ?_)
    change ({ world := w4, opened := l.opened + 1 + -1, closings := l.closings + 0 } : Ledger σ) = _
    rw [Int.add_zero, Int.add_neg_cancel_right]
  refine head_exec (w1 := l) (s := none) (w2 := ⟨w3, l.opened + 1, l.closings⟩) (s' := some s') (r := .ok ()) rfl ?_ (quietly_exec hr)
  refine (exec_bind_ok hi).trans ?_
  refine (exec_bind_ok hn).trans ?_
  refine (exec_bind_ok (leaving_exec (lift_exec h3))).trans ?_
  rfl

theorem append_next {p q : Source W α T} {w w1 w2 : W} {t t' : T} {x : α} (h1 : p.iter.exec w = some (.ok t, w1))
    (h2 : (p.next t).exec w1 = some (.ok (some (x, t')), w2)) :
    ((SeqClose.append [q] p).next .fresh).exec w = some (.ok (some (x, .inner [q] p t')), w2) := by
  change (SeqClose.collectNext (fun it => pure it) (ofList [p, q]) .fresh).exec w = _
  rw [SeqClose.collectNext.eq_1]
  refine (exec_bind_ok (a := [p, q]) (w' := w) rfl).trans ?_
  rw [SeqClose.collectNext.eq_2]
  refine (exec_bind_ok (a := some (p, [q])) (w' := w) rfl).trans ?_
  refine (exec_bind_ok (leaving_exec (a := p) (w' := w) rfl)).trans ?_
  refine (exec_bind_ok (leaving_exec h1)).trans ?_
  rw [SeqClose.collectNext.eq_3]
  refine (exec_bind_ok (leaving_exec h2)).trans ?_
  rfl

/-- the first element of `append`: `w3` is the world after closing the source it came from -/
theorem append_first {p : Source W α S} {q : Source W α T} {w w1 w2 w3 : W} {s s' : S} {x : α} {r : Except PyErr Unit}
    (h1 : p.iter.exec w = some (.ok s, w1)) (h2 : (p.next s).exec w1 = some (.ok (some (x, s')), w2))
    (h3 : (p.close s').exec w2 = some (r, w3)) :
    (SeqClose.append [inRight S q] (inLeft p T)).iter.exec w = some (.ok .fresh, w) ∧
    ((SeqClose.append [inRight S q] (inLeft p T)).next .fresh).exec w = some (.ok (some (x, .inner [inRight S q] (inLeft p T) (.inl s'))), w2) ∧
    ((SeqClose.append [inRight S q] (inLeft p T)).release (.inner [inRight S q] (inLeft p T) (.inl s'))).exec w2 = some (.ok (), w3) := by
  refine ⟨rfl, append_next (t := .inl s) ((exec_bind_ok h1).trans rfl) ((exec_bind_ok h2).trans rfl), ?_⟩
  refine (exec_bind_ok (quietly_exec (r := r) (w' := w3) h3)).trans ?_
  rfl

theorem append_head {r : Root σ α S} (hk : r.kept = true) {q : Pipe σ α} {l : Ledger σ} {s s' : S} {w1 w2 w3 : σ} {x : α} {res : Except PyErr Unit}
    (h1 : r.iterable.iter.exec l.world = some (.ok s, w1)) (h2 : (r.iterable.next s).exec w1 = some (.ok (some (x, s')), w2))
    (h3 : (r.cleanup s').exec w2 = some (res, w3)) :
    (SeqClose.head (Pipe.append (.root r) q).build.2).exec l = some (.ok x, { l with world := w3, closings := l.closings + 1 }) := by
  have hi : (inLeft r.source q.build.1).iter.exec l = some (.ok (.inl s), { l with world := w1 }) := by
    refine (exec_bind_ok (a := s) (w' := { l with world := w1 }) ?_).trans rfl
    refine (exec_bind_ok (lift_exec h1)).trans ?_
    rw [hk]
    rfl
  have hn : ((inLeft r.source q.build.1).next (.inl s)).exec { l with world := w1 } =
      some (.ok (some (x, .inl s')), { l with world := w2 }) := by
    refine (exec_bind_ok (a := some (x, s')) (w' := { l with world := w2 }) ?_).trans rfl
    rw [root_next_exec, lift_exec h2]
  have hc : ((inLeft r.source q.build.1).close (.inl s')).exec { l with world := w2 } =
      some (.ok (), { l with world := w3, closings := l.closings + 1 }) := by
    refine (exec_bind_ok (lift_exec (quietly_exec h3))).trans ?_
    rw [hk]
    refine congrArg some (Prod.ext rfl ?_)
    change ({ world := w3, opened := l.opened + 0, closings := l.closings + 1 } : Ledger σ) = _
    rw [Int.add_zero]
  refine head_exec (w1 := l) (s := .fresh) (w2 := { l with world := w2 })
    (s' := .inner [inRight S q.build.2] (inLeft r.source q.build.1) (.inl s')) (r := .ok ()) rfl ?_ ?_
  · exact append_next hi hn
  · refine (exec_bind_ok (quietly_exec hc)).trans ?_
    rfl

end Expression.Lemmas.SeqClose
