import Verif.Lemmas.Threads
import Verif.Spec.Cancellation

/-! # Invariants of cancellation: one thread -/

namespace Expression.Lemmas

open Spec Expression.Cancellation

/-- every event fits what happened before it -/
def AllFit (log : List Event) : Prop := ∀ pre e post, log = pre ++ e :: post → Fits pre e

theorem allFit_snoc {log : List Event} {e : Event} (h : AllFit log) (he : Fits log e) : AllFit (log ++ [e]) := by
  intro pre e' post hs
  rcases List.eq_nil_or_concat post with rfl | ⟨post', e'', rfl⟩
  · have := List.append_inj' hs (by simp)
    obtain ⟨rfl, h2⟩ := this
    cases h2; exact he
  · have : log ++ [e] = (pre ++ e' :: post') ++ [e''] := by rw [hs]; simp
    have := List.append_inj' this (by simp)
    exact h pre e' post' this.1

structure CInv (s : Source) : Prop where
  fits : AllFit s.log
  flag : s.isDisposed = true ↔ .cancelled ∈ s.log
  ids : ∀ id cb, .registered id cb ∈ s.log → id < s.id
  gone : ∀ id, .unregistered id ∈ s.log ↔ id ∈ s.gone
  goneId : ∀ id, id ∈ s.gone → id < s.id
  listeners : s.isDisposed = false → s.listeners = live s.log
  once : ((s.log.filterMap registration).map (·.1)).Nodup

theorem cinv_init : CInv Source.init where
  fits pre e post h := by
    have := congrArg List.length h
    simp [Source.init] at this
  flag := by simp [Source.init]
  ids id cb h := by cases h
  gone id := by simp [Source.init]
  goneId id h := by cases h
  listeners _ := rfl
  once := by simp [Source.init]

theorem live_snoc_registered {log : List Event} {id cb : Nat} (h : .unregistered id ∉ log) :
    live (log ++ [.registered id cb]) = live log ++ [(id, cb)] := by
  simp [live, List.filterMap_append, List.filter_append, h, registration]

theorem live_snoc_unregistered {log : List Event} {id : Nat} :
    live (log ++ [.unregistered id]) = (live log).filter (fun l => l.1 != id) := by
  simp only [live, List.filterMap_append, List.filterMap_cons, registration, List.filterMap_nil, List.append_nil, List.filter_filter]
  refine List.filter_congr fun l _ => ?_
  by_cases h : l.1 = id
  · simp [h]
  · simp [h, bne_iff_ne.2 h]

theorem live_snoc_other {log : List Event} {e : Event} (h1 : ∀ id cb, e ≠ .registered id cb) (h2 : ∀ id, e ≠ .unregistered id) :
    live (log ++ [e]) = live log := by
  have : List.filterMap registration [e] = [] := by
    cases e with
    | registered id cb => exact absurd rfl (h1 id cb)
    | _ => rfl
  simp only [live, List.filterMap_append, this, List.append_nil]
  refine List.filter_congr fun l _ => ?_
  have : Event.unregistered l.1 ≠ e := fun h => h2 _ h.symm
  simp [this]

theorem cinv_say {s : Source} (h : CInv s) {e : Event} (he : Fits s.log e) (h1 : ∀ id cb, e ≠ .registered id cb) (h2 : ∀ id, e ≠ .unregistered id)
    (h3 : e ≠ .cancelled) : CInv { s with log := s.log ++ [e] } where
  fits := allFit_snoc h.fits he
  flag := by
    have : Event.cancelled ≠ e := h3.symm
    simp [h.flag, this]
  ids id cb hm := by
    rcases List.mem_append.1 hm with hm | hm
    · exact h.ids id cb hm
    · exact absurd (List.mem_singleton.1 hm).symm (h1 id cb)
  gone id := by
    have : Event.unregistered id ≠ e := fun h => h2 _ h.symm
    simp [h.gone id, this]
  goneId := h.goneId
  listeners hd := by
    rw [live_snoc_other h1 h2]; exact h.listeners hd
  once := by
    have : List.filterMap registration [e] = [] := by
      cases e with
      | registered id cb => exact absurd rfl (h1 id cb)
      | _ => rfl
    simp only [List.filterMap_append, this, List.append_nil]
    exact h.once

theorem cinv_cancel {s : Source} (h : CInv s) : CInv { s with isDisposed := true, log := s.log ++ [.cancelled] } where
  fits := allFit_snoc h.fits trivial
  flag := by simp
  ids id cb hm := by
    rcases List.mem_append.1 hm with hm | hm
    · exact h.ids id cb hm
    · cases List.mem_singleton.1 hm
  gone id := by simp [h.gone id]
  goneId := h.goneId
  listeners hd := by cases hd
  once := by
    simp only [List.filterMap_append, List.filterMap_cons, registration, List.filterMap_nil, List.append_nil]
    exact h.once

theorem cinv_register {s : Source} (h : CInv s) (cb : Nat) : CInv (register cb s).2 := by
  unfold register
  split
  · rename_i hd
    exact cinv_say h (h.flag.1 hd) (by simp) (by simp) (by simp)
  · rename_i hd
    have hd : s.isDisposed = false := by simpa using hd
    have hc : .cancelled ∉ s.log := fun hm => by rw [h.flag.2 hm] at hd; cases hd
    have hu : .unregistered s.id ∉ s.log := fun hm => Nat.lt_irrefl _ (h.goneId _ ((h.gone _).1 hm))
    refine ⟨allFit_snoc h.fits hc, ?_, ?_, ?_, ?_, ?_, ?_⟩
    · simp [hd, hc]
    · intro id cb' hm
      rcases List.mem_append.1 hm with hm | hm
      · exact Nat.lt_succ_of_lt (h.ids id cb' hm)
      · cases List.mem_singleton.1 hm; exact Nat.lt_succ_self _
    · intro id; simp [h.gone id]
    · intro id hm; exact Nat.lt_succ_of_lt (h.goneId id hm)
    · intro _
      simp only
      rw [live_snoc_registered hu, h.listeners hd]
    · simp only [List.filterMap_append, List.filterMap_cons, registration, List.filterMap_nil, List.map_append, List.map_cons, List.map_nil]
      rw [List.nodup_append]
      refine ⟨h.once, by simp, ?_⟩
      intro a ha b hb
      obtain ⟨l, hl, rfl⟩ := List.mem_map.1 ha
      obtain ⟨e, he, hel⟩ := List.mem_filterMap.1 hl
      simp at hb
      subst hb
      cases e with
      | registered id cb' =>
        cases hel
        exact Nat.ne_of_lt (h.ids _ _ he)
      | _ => cases hel

theorem cinv_unregister {s : Source} (h : CInv s) (id : Nat) : CInv (unregister id s).2 := by
  unfold unregister
  split
  · rename_i hi
    refine ⟨allFit_snoc h.fits trivial, ?_, ?_, ?_, ?_, ?_, ?_⟩
    · simp [h.flag]
    · intro id' cb' hm
      rcases List.mem_append.1 hm with hm | hm
      · exact h.ids id' cb' hm
      · cases List.mem_singleton.1 hm
    · intro id'
      simp [h.gone id']
      constructor <;> (rintro (h | h) <;> simp [h])
    · intro id' hm
      rcases List.mem_cons.1 hm with rfl | hm
      · exact hi.1
      · exact h.goneId _ hm
    · intro hd
      simp only
      rw [live_snoc_unregistered, h.listeners hd]
    · simp only [List.filterMap_append, List.filterMap_cons, registration, List.filterMap_nil, List.append_nil]
      exact h.once
  · exact h

theorem callsIn_append (l l' : List Event) : callsIn (l ++ l') = callsIn l ++ callsIn l' := List.filterMap_append

theorem register_log (cb : Nat) (s : Source) : ∃ new, (register cb s).2.log = s.log ++ new ∧ callsIn new = [] ∧ (register cb s).2.isDisposed = s.isDisposed := by
  unfold register
  split <;> exact ⟨_, rfl, rfl, rfl⟩

theorem unregister_log (id : Nat) (s : Source) : ∃ new, (unregister id s).2.log = s.log ++ new ∧ callsIn new = [] ∧ (unregister id s).2.isDisposed = s.isDisposed := by
  unfold unregister
  split
  · exact ⟨_, rfl, rfl, rfl⟩
  · exact ⟨[], by simp, rfl, rfl⟩

/-- once cancelled: programs end, and call no listener -/
theorem run_disposed (bodies : Nat → Prog) (p : Prog) (s : Source) (hd : s.isDisposed = true) :
    ∃ e s' new, run bodies p s = some (e, s') ∧ s'.isDisposed = true ∧ s'.log = s.log ++ new ∧ callsIn new = [] ∧ (CInv s → CInv s') ∧
      (onlyExceptions p → e ≠ some .base) := by
  induction p generalizing s with
  | ret => exact ⟨none, s, [], by rw [run.eq_1], hd, by simp, rfl, id, by simp⟩
  | raise e => exact ⟨some e, s, [], by rw [run.eq_2], hd, by simp, rfl, id, by rintro rfl; simp⟩
  | call c k ih =>
    cases c with
    | register cb =>
      obtain ⟨n1, h1, h2, h3⟩ := register_log cb s
      obtain ⟨e, s', n2, h4, h5, h6, h7, h8, h9⟩ := ih (register cb s).1 (register cb s).2 (by rw [h3]; exact hd)
      exact ⟨e, s', n1 ++ n2, by rw [run.eq_3]; exact h4, h5, by rw [h6, h1, List.append_assoc], by rw [callsIn_append, h2, h7]; rfl,
        fun h => h8 (cinv_register h cb), fun h => h9 (h _)⟩
    | unregister id =>
      obtain ⟨n1, h1, h2, h3⟩ := unregister_log id s
      obtain ⟨e, s', n2, h4, h5, h6, h7, h8, h9⟩ := ih (unregister id s).1 (unregister id s).2 (by rw [h3]; exact hd)
      exact ⟨e, s', n1 ++ n2, by rw [run.eq_4]; exact h4, h5, by rw [h6, h1, List.append_assoc], by rw [callsIn_append, h2, h7]; rfl,
        fun h => h8 (cinv_unregister h id), fun h => h9 (h _)⟩
    | check =>
      obtain ⟨e, s', n2, h4, h5, h6, h7, h8, h9⟩ := ih (.flag s.isDisposed) { s with log := s.log ++ [.checked s.isDisposed] } hd
      exact ⟨e, s', [.checked s.isDisposed] ++ n2, by rw [run.eq_5]; exact h4, h5, by rw [h6, List.append_assoc], by rw [callsIn_append, h7]; rfl,
        fun h => h8 (cinv_say h (by simp [Fits, h.flag]) (by simp) (by simp) (by simp)), fun h => h9 (h _)⟩
    | cancel =>
      obtain ⟨e, s', n2, h4, h5, h6, h7, h8, h9⟩ := ih .done { s with isDisposed := true, log := s.log ++ [.cancelled] } rfl
      refine ⟨e, s', [.cancelled] ++ n2, ?_, h5, by rw [h6, List.append_assoc], by rw [callsIn_append, h7]; rfl,
        fun h => h8 (cinv_cancel h), fun h => h9 (h _)⟩
      rw [run.eq_6, dispose.eq_1]
      simp only [hd, if_true]
      rw [callAll.eq_1]
      exact h4

theorem callAll_spec (bodies : Nat → Prog) (ls : List (Nat × Nat)) (s : Source) (hd : s.isDisposed = true) :
    ∃ r s' new, callAll bodies ls s = some (r, s') ∧ s'.isDisposed = true ∧ s'.log = s.log ++ new ∧ callsIn new <+: ls ∧ (CInv s → CInv s') ∧
      ((∀ cb, onlyExceptions (bodies cb)) → callsIn new = ls ∧ r = .done) := by
  induction ls generalizing s with
  | nil => exact ⟨.done, s, [], by rw [callAll.eq_1], hd, by simp, by simp [callsIn], id, fun _ => ⟨rfl, rfl⟩⟩
  | cons l ls ih =>
    obtain ⟨e, s1, n1, h1, h2, h3, h4, h5, h6⟩ := run_disposed bodies (bodies l.2) { s with log := s.log ++ [.called l.1 l.2] } hd
    have hc : CInv s → CInv s1 := fun h => h5 (cinv_say h (h.flag.1 hd) (by simp) (by simp) (by simp))
    by_cases hb : e = some .base
    · refine ⟨.raised .base, s1, .called l.1 l.2 :: n1, ?_, h2, by rw [h3]; simp, ?_, hc, fun h => absurd hb (h6 (h _))⟩
      · rw [callAll.eq_2, h1]
        change (if e = some .base then _ else _) = _
        rw [if_pos hb]
      · change (l.1, l.2) :: callsIn n1 <+: _
        rw [h4]; exact ⟨ls, rfl⟩
    · obtain ⟨r, s', n2, k1, k2, k3, k4, k5, k6⟩ := ih s1 h2
      have e1 : callsIn (.called l.1 l.2 :: (n1 ++ n2)) = l :: callsIn n2 := by
        change (l.1, l.2) :: callsIn (n1 ++ n2) = _
        rw [callsIn_append, h4]; rfl
      refine ⟨r, s', .called l.1 l.2 :: (n1 ++ n2), ?_, k2, by rw [k3, h3]; simp, ?_, fun h => k5 (hc h), fun h => ?_⟩
      · rw [callAll.eq_2, h1]
        change (if e = some .base then _ else _) = _
        rw [if_neg hb]; exact k1
      · rw [e1]; exact (List.prefix_cons_inj l).2 k4
      · rw [e1, (k6 h).1]; exact ⟨rfl, (k6 h).2⟩

theorem shouldCall_append {log : List Event} (new : List Event) (h : .cancelled ∈ log) : shouldCall (log ++ new) = shouldCall log := by
  have : beforeCancel (log ++ new) = beforeCancel log := by
    unfold beforeCancel
    induction log with
    | nil => cases h
    | cons e log ih =>
      by_cases he : e = .cancelled
      · subst he; simp
      · have h' : .cancelled ∈ log := by
          rcases List.mem_cons.1 h with h | h
          · exact absurd h.symm he
          · exact h
        simp only [List.cons_append]
        rw [List.takeWhile_cons_of_pos (by simpa using he), List.takeWhile_cons_of_pos (by simpa using he), ih h']
  simp [shouldCall, h, this]

theorem shouldCall_cancel {log : List Event} (new : List Event) (h : .cancelled ∉ log) : shouldCall (log ++ .cancelled :: new) = live log := by
  have : beforeCancel (log ++ .cancelled :: new) = log := by
    unfold beforeCancel
    induction log with
    | nil => simp
    | cons e log ih =>
      have he : e ≠ .cancelled := fun e' => h (by rw [e']; exact List.mem_cons_self ..)
      rw [List.cons_append, List.takeWhile_cons_of_pos (by simpa using he), ih (fun h' => h (List.mem_cons_of_mem _ h'))]
  simp [shouldCall, this]

structure CGood (bodies : Nat → Prog) (s : Source) : Prop where
  inv : CInv s
  before : s.isDisposed = false → callsIn s.log = []
  after : s.isDisposed = true → callsIn s.log <+: shouldCall s.log
  exact_ : (∀ cb, onlyExceptions (bodies cb)) → s.isDisposed = true → callsIn s.log = shouldCall s.log

theorem cgood_quiet {bodies : Nat → Prog} {s s' : Source} {new : List Event} (h : CGood bodies s) (hi : CInv s') (hl : s'.log = s.log ++ new) (hn : callsIn new = [])
    (hd : s'.isDisposed = s.isDisposed) : CGood bodies s' := by
  have hc : callsIn s'.log = callsIn s.log := by rw [hl, callsIn_append, hn, List.append_nil]
  refine ⟨hi, fun h' => ?_, fun h' => ?_, fun hb h' => ?_⟩
  · rw [hc]; exact h.before (by rw [← hd]; exact h')
  · rw [hc, hl, shouldCall_append new (h.inv.flag.1 (by rw [← hd]; exact h'))]; exact h.after (by rw [← hd]; exact h')
  · rw [hc, hl, shouldCall_append new (h.inv.flag.1 (by rw [← hd]; exact h'))]; exact h.exact_ hb (by rw [← hd]; exact h')

theorem run_good (bodies : Nat → Prog) (p : Prog) (s : Source) (h : CGood bodies s) : ∃ e s', run bodies p s = some (e, s') ∧ CGood bodies s' := by
  induction p generalizing s with
  | ret => exact ⟨none, s, by rw [run.eq_1], h⟩
  | raise e => exact ⟨some e, s, by rw [run.eq_2], h⟩
  | call c k ih =>
    cases c with
    | register cb =>
      obtain ⟨n1, h1, h2, h3⟩ := register_log cb s
      rw [run.eq_3]
      exact ih _ _ (cgood_quiet h (cinv_register h.inv cb) h1 h2 h3)
    | unregister id =>
      obtain ⟨n1, h1, h2, h3⟩ := unregister_log id s
      rw [run.eq_4]
      exact ih _ _ (cgood_quiet h (cinv_unregister h.inv id) h1 h2 h3)
    | check =>
      rw [run.eq_5]
      exact ih _ _ (cgood_quiet h (cinv_say h.inv (by simp [Fits, h.inv.flag]) (by simp) (by simp) (by simp)) rfl rfl rfl)
    | cancel =>
      cases hd : s.isDisposed with
      | true =>
        rw [run.eq_6, dispose.eq_1]
        simp only [hd, if_true]
        rw [callAll.eq_1]
        exact ih .done _ (cgood_quiet h (cinv_cancel h.inv) rfl rfl hd.symm)
      | false =>
        have hn : .cancelled ∉ s.log := fun hm => by rw [h.inv.flag.2 hm] at hd; cases hd
        obtain ⟨r, s', n2, k1, k2, k3, k4, k5, k6⟩ := callAll_spec bodies s.listeners { s with isDisposed := true, log := s.log ++ [.cancelled] } rfl
        have hl : s'.log = s.log ++ .cancelled :: n2 := by rw [k3]; simp
        have hc : callsIn s'.log = callsIn n2 := by rw [hl, callsIn_append, h.before hd]; rfl
        have hg : CGood bodies s' := by
          refine ⟨k5 (cinv_cancel h.inv), fun h' => (by rw [k2] at h'; cases h'), fun _ => ?_, fun hb _ => ?_⟩
          · rw [hc, hl, shouldCall_cancel n2 hn, ← h.inv.listeners hd]; exact k4
          · rw [hc, hl, shouldCall_cancel n2 hn, ← h.inv.listeners hd]; exact (k6 hb).1
        obtain ⟨e, s'', h1, h2⟩ := ih r s' hg
        refine ⟨e, s'', ?_, h2⟩
        rw [run.eq_6, dispose.eq_1]
        simp only [hd]
        rw [show (if false = true then ([] : List (Nat × Nat)) else s.listeners) = s.listeners from rfl, k1]
        exact h1

theorem cgood_init (bodies : Nat → Prog) : CGood bodies Source.init :=
  ⟨cinv_init, fun _ => rfl, (fun h => by cases h), (fun _ h => by cases h)⟩

theorem callAll_silent (bodies : Nat → Prog) (hb : ∀ cb, onlyExceptions (bodies cb)) (ls : List (Nat × Nat)) (s : Source) (hd : s.isDisposed = true) (r : Reply)
    (s' : Source) (h : callAll bodies ls s = some (r, s')) : r = .done := by
  obtain ⟨r', s1, _, h1, _, _, _, _, h6⟩ := callAll_spec bodies ls s hd
  rw [h] at h1
  cases h1
  exact (h6 hb).2

theorem callAll_base (bodies : Nat → Prog) (id cb : Nat) (hb : bodies cb = .raise .base) (ls : List (Nat × Nat)) (hl : (id, cb) ∈ ls) (s : Source) (r : Reply)
    (s' : Source) (h : callAll bodies ls s = some (r, s')) : r = .raised .base := by
  induction ls generalizing s with
  | nil => cases hl
  | cons l ls ih =>
    rw [callAll.eq_2] at h
    rcases hr : run bodies (bodies l.2) { s with log := s.log ++ [.called l.1 l.2] } with _ | ⟨e, s1⟩
    · rw [hr] at h; cases h
    · rw [hr] at h
      simp only [Option.bind_eq_bind, Option.bind_some] at h
      split at h
      · cases h; rfl
      · rename_i hne
        rcases List.mem_cons.1 hl with rfl | hm
        · rw [hb, run.eq_2] at hr
          cases hr
          exact absurd rfl hne
        · exact ih hm _ h

end Expression.Lemmas
