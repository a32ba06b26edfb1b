import Verif.Lemmas.Builder2
import Verif.Spec.Builder

/-! Lemmas about the kind of value that a block gives. -/

namespace Expression.Lemmas

open PyD Spec

variable {σ α ε S : Type}

theorem echo_effect {g : Gen σ α ε S} {w w' : σ} {ys : List (Obj α)} {m : Eff α ε} (h : (echo g).exec w = some (.ok (ys, .effect m), w')) :
    ∃ s v w0 w1, (g.next s v).exec w0 = some (.ok (.effect m), w1) := by
  have key : ∀ s v ys w r, (echoFrom g s v ys).exec w = some r → ∀ (ys' : List (Obj α)) w', r = (.ok (ys', End.effect m), w') →
      ∃ s v w0 w1, (g.next s v).exec w0 = some (.ok (.effect m), w1) := by
    refine echoFrom.fixpoint_induct g (fun f => ∀ s v ys w r, (f s v ys).exec w = some r → ∀ (ys' : List (Obj α)) w', r = (.ok (ys', End.effect m), w') →
      ∃ s v w0 w1, (g.next s v).exec w0 = some (.ok (.effect m), w1)) (admissible_post3 (fun (s : S) (v : Obj α) (ys : List (Obj α)) (w : σ) r => ∀ (ys' : List (Obj α)) (w' : σ),
        r = (.ok (ys', End.effect m), w') → ∃ s v w0 w1, (g.next s v).exec w0 = some (.ok (.effect m), w1))) ?_
    intro F hF s v ys w r hr ys' w' he
    rw [exec_bind] at hr
    rcases hg : (g.next s v).exec w with _ | ⟨e | o, w1⟩ <;> rw [hg] at hr
    · cases hr
    · cases hr; cases he
    · rcases o with ⟨y, s'⟩ | x | m'
      · exact hF _ _ _ _ _ hr _ _ he
      · cases hr; cases he
      · cases hr; cases he; exact ⟨s, v, w, _, hg⟩
  exact key _ _ _ _ _ h _ _ rfl

/-- what the builder makes of the end of the body -/
theorem finish_kind {b : Builder α ε} {h : Eff α ε → Except PyErr (Eff α ε)} {resOf : List (Obj α) → Eff α ε} {g : Gen σ α ε S} (P : Eff α ε → Prop)
    (hres : ∀ ys, P (resOf ys)) (hcomb : ∀ ys m r, ys ≠ [] → (h m >>= b.combine (resOf ys)) = .ok r → P r ∨ r = m) {w w' : σ} {r : Eff α ε}
    (he : (echo g >>= finish b h resOf).exec w = some (.ok r, w')) :
    P r ∨ ∃ s v w0 w1, (g.next s v).exec w0 = some (.ok (.effect r), w1) := by
  rw [exec_bind] at he
  rcases hx : (echo g).exec w with _ | ⟨e | ⟨ys, o⟩, w1⟩ <;> rw [hx] at he
  · cases he
  · cases he
  · rcases o with (_ | v) | m
    · cases he; exact .inl (hres _)
    · cases he; exact .inl (hres _)
    · simp only [finish] at he
      split at he
      · cases he; exact .inr (echo_effect hx)
      · rename_i hys
        rcases hc : (h m >>= b.combine (resOf ys)) with e | r'
        · rw [hc] at he; cases he
        · rw [hc] at he
          cases he
          rcases hcomb ys m _ hys hc with hp | rfl
          · exact .inl hp
          · exact .inr (echo_effect hx)

theorem echo_noReturn_effect {g : Gen σ α ε S} {w w' : σ} {ys : List (Obj α)} {m : Eff α ε} (h : (echo g).exec w = some (.ok (ys, .effect m), w')) :
    (echo (noReturn g)).exec w = some (.ok (ys, .effect m), w') := by
  have key : ∀ s v ys w r, (echoFrom g s v ys).exec w = some r → ∀ (ys' : List (Obj α)) w', r = (.ok (ys', End.effect m), w') →
      (echoFrom (noReturn g) s v ys).exec w = some r := by
    refine echoFrom.fixpoint_induct g (fun f => ∀ s v ys w r, (f s v ys).exec w = some r → ∀ (ys' : List (Obj α)) w', r = (.ok (ys', End.effect m), w') →
      (echoFrom (noReturn g) s v ys).exec w = some r) (admissible_post3 (fun (s : S) (v : Obj α) (ys : List (Obj α)) (w : σ) r => ∀ (ys' : List (Obj α)) (w' : σ),
        r = (.ok (ys', End.effect m), w') → (echoFrom (noReturn g) s v ys).exec w = some r)) ?_
    intro F hF s v ys w r hr ys' w' he
    rw [exec_bind] at hr
    rw [echoFrom.eq_1, exec_bind, noReturn_next, map_eq_pure_bind, exec_bind]
    rcases hg : (g.next s v).exec w with _ | ⟨e | o, w1⟩ <;> rw [hg] at hr
    · cases hr
    · cases hr; cases he
    · rcases o with ⟨y, s'⟩ | x | m'
      · exact hF _ _ _ _ _ hr _ _ he
      · cases hr; cases he
      · cases hr; cases he; rfl
  exact key _ _ _ _ _ h _ _ rfl

theorem noReturn_effect {g : Gen σ α ε S} {s : S} {v : Obj α} {w w' : σ} {m : Eff α ε} (h : ((noReturn g).next s v).exec w = some (.ok (.effect m), w')) :
    (g.next s v).exec w = some (.ok (.effect m), w') := by
  rw [noReturn_next, map_eq_pure_bind, exec_bind] at h
  rcases hg : (g.next s v).exec w with _ | ⟨e | o, w1⟩ <;> rw [hg] at h
  · cases h
  · cases h
  · rcases o with ⟨y, s'⟩ | x | m' <;> cases h
    rfl

end Expression.Lemmas
