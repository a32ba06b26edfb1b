import Verif.Model.SeqPipe

/-! What the properties of pipelines that are left early speak about. -/

namespace Expression.Spec.SeqClose

open Expression.SeqClose

variable {σ : Type}

/-- the pipeline is nothing but a generator object that the caller keeps -/
def IsKept : {α : Type} → Pipe σ α → Prop
  | _, .root r => r.kept = true
  | _, _ => False

/-- No generator object that the caller keeps is itself appended, or appended to, or returned by the callback of a `collect`.  (It may
be wrapped in a `Seq`, or be mapped or filtered first.) -/
def Wrapped : {α : Type} → Pipe σ α → Prop
  | _, .root _ => True
  | _, .list _ => True
  | _, .seq p => Wrapped p
  | _, .map _ p => Wrapped p
  | _, .filter _ p => Wrapped p
  | _, .choose _ p => Wrapped p
  | _, .scan _ _ p => Wrapped p
  | _, .skip _ p => Wrapped p
  | _, .take _ p => Wrapped p
  | _, .pairwise p => Wrapped p
  | _, .zip p q => Wrapped p ∧ Wrapped q
  | _, .append p q => (¬IsKept p ∧ Wrapped p) ∧ (¬IsKept q ∧ Wrapped q)
  | _, .collect f p => (∀ x w r w', (f x).exec w = some (.ok r, w') → r.kept = false) ∧ Wrapped p
  | _, .delay _ => True

/-- A generator over a list, kept by the caller; the world is what it has left.  Once closed it has nothing left. -/
def numbers : Root (List Nat) Nat Unit where
  iterable := {
    iter := pure ()
    next := fun _ w => match w with
      | [] => some (.ok none, [])
      | x :: rest => some (.ok (some (x, ())), rest) }
  cleanup _ := fun _ => some (.ok (), [])
  kept := true

variable {α S T : Type}

/-- A sequence among sequences of another kind, as in `inLeft` of `Model/SeqClose.lean`. -/
def onLeft (it : Iterable σ α S) (T : Type) : Iterable σ α (S ⊕ T) where
  iter := do
    let s ← it.iter
    pure (.inl s)
  next st := match st with
    | .inl s => do
      match ← it.next s with
      | none => pure none
      | some (x, s') => pure (some (x, .inl s'))
    | .inr _ => pure none

/-- see `onLeft` -/
def onRight (S : Type) (it : Iterable σ α T) : Iterable σ α (S ⊕ T) where
  iter := do
    let t ← it.iter
    pure (.inr t)
  next st := match st with
    | .inr t => do
      match ← it.next t with
      | none => pure none
      | some (x, t') => pure (some (x, .inr t'))
    | .inl _ => pure none

/-- the pipeline made with the functions of `Model/Seq.lean`, the ones all other properties are about -/
def plain : {α : Type} → Pipe σ α → (S : Type) × Iterable σ α S
  | _, .root r => ⟨_, r.iterable⟩
  | _, .list xs => ⟨_, Iterable.ofList xs⟩
  | _, .seq p => plain p
  | _, .map f p => ⟨_, Seq.map f (plain p).2⟩
  | _, .filter f p => ⟨_, Seq.filter f (plain p).2⟩
  | _, .choose f p => ⟨_, Seq.choose f (plain p).2⟩
  | _, .scan f state p => ⟨_, Seq.scan f state (plain p).2⟩
  | _, .skip count p => ⟨_, Seq.skip count (plain p).2⟩
  | _, .take count p => ⟨_, Seq.take count (plain p).2⟩
  | _, .pairwise p => ⟨_, Seq.pairwise (plain p).2⟩
  | _, .zip p q => ⟨_, Seq.zip (plain p).2 (plain q).2⟩
  | _, .append p q => ⟨_, Seq.append [onRight (plain p).1 (plain q).2] (onLeft (plain p).2 (plain q).1)⟩
  | _, .collect f p => ⟨_, Seq.collect (fun x => do
      let r ← f x
      pure r.iterable) (plain p).2⟩
  | _, .delay f => ⟨_, Seq.delay (do
      let r ← f
      pure r.iterable)⟩

/-- the clean-up of the generators ends, and has no effect on the world -/
def Root.Silent (r : Root σ α S) : Prop := ∀ s w, ∃ res, (r.cleanup s).exec w = some (res, w)

/-- all generators of the pipeline are such -/
def Silent : {α : Type} → Pipe σ α → Prop
  | _, .root r => Root.Silent r
  | _, .list _ => True
  | _, .seq p => Silent p
  | _, .map _ p => Silent p
  | _, .filter _ p => Silent p
  | _, .choose _ p => Silent p
  | _, .scan _ _ p => Silent p
  | _, .skip _ p => Silent p
  | _, .take _ p => Silent p
  | _, .pairwise p => Silent p
  | _, .zip p q => Silent p ∧ Silent q
  | _, .append p q => Silent p ∧ Silent q
  | _, .collect f p => (∀ x w r w', (f x).exec w = some (.ok r, w') → Root.Silent r) ∧ Silent p
  | _, .delay f => ∀ w r w', f.exec w = some (.ok r, w') → Root.Silent r

/-- what an outcome is in the world, the ledger left aside -/
def inWorld (o : Option (Except PyErr α × Ledger σ)) : Option (Except PyErr α × σ) := o.map fun p => (p.1, p.2.world)

end Expression.Spec.SeqClose
