import Verif.Model.SeqClose

/-!
# Pipelines of `expression/collections/seq.py`, with a ledger of the generators at their roots

Which generators are open is written down in a ledger beside the world.
-/

namespace Expression.SeqClose

open Expression

variable {σ α β γ S T : Type}

/-- The world, the number of generators that pipelines have begun and that have neither ended nor been closed, and how often a generator
was closed that the caller keeps. [model] -/
structure Ledger (σ : Type) where
  world : σ
  opened : Int
  closings : Int

/-- the code of the caller: it sees the world and not the ledger [model] -/
def lift (p : PyD σ α) : PyD (Ledger σ) α := fun l => match p.exec l.world with
  | none => none
  | some (r, w') => some (r, { l with world := w' })

/-- write in the ledger [model] -/
def note (opened closings : Int) : PyD (Ledger σ) Unit :=
  fun l => some (.ok (), { l with opened := l.opened + opened, closings := l.closings + closings })

/-- A sequence that the caller supplies.  Either an iterable that begins a new generator for each iteration (a class whose `__iter__` is a
generator function), or, if `kept`, a generator object that the caller keeps a reference to.  `cleanup` is what the generator does when it
is closed (`finally`, `with`). [Python: generators] -/
structure Root (σ α S : Type) where
  iterable : Iterable σ α S
  cleanup : S → PyD σ Unit
  kept : Bool

/-- A supplied sequence as a source.  Dropping a reference to a generator that the caller keeps does nothing; closing it closes it.  Other
generators are closed when they are dropped. [Python: generators] -/
def Root.source (r : Root σ α S) : Source (Ledger σ) α S where
  iter := do
    let s ← lift r.iterable.iter
    if r.kept then pure () else note 1 0
    pure s
  next s := fun l => match (lift (r.iterable.next s)).exec l with
    | none => none
    | some (.ok (some (x, s')), l') => some (.ok (some (x, s')), l')
    | some (res, l') => match (note (if r.kept then 0 else -1) 0).exec l' with
      | none => none
      | some (_, l'') => some (res, l'')
  release s := if r.kept then pure () else do
    lift (quietly (r.cleanup s))
    note (-1) 0
  close s := do
    lift (quietly (r.cleanup s))
    if r.kept then note 0 1 else note (-1) 0

/-- A pipeline: functions of `seq.py` applied to sequences that the caller supplies.  The callbacks are any code of the caller.
Simplified: `append` has one sequence to append, and the sequences returned by the callbacks of `collect` and `delay` are supplied ones.
[model: seq.py:73-74, 426-545, 675-695, 810-826, 848-864, 879-896, 925-946, 1035-1068] -/
inductive Pipe (σ : Type) : Type → Type 1 where
  | root {α S : Type} (r : Root σ α S) : Pipe σ α
  | list {α : Type} (xs : List α) : Pipe σ α
  | seq {α : Type} (p : Pipe σ α) : Pipe σ α
  | map {α β : Type} (mapper : α → PyD σ β) (p : Pipe σ α) : Pipe σ β
  | filter {α : Type} (predicate : α → PyD σ Bool) (p : Pipe σ α) : Pipe σ α
  | choose {α β : Type} (chooser : α → PyD σ (Option β)) (p : Pipe σ α) : Pipe σ β
  | scan {α γ : Type} (scanner : γ → α → PyD σ γ) (state : γ) (p : Pipe σ α) : Pipe σ γ
  | skip {α : Type} (count : Int) (p : Pipe σ α) : Pipe σ α
  | take {α : Type} (count : Int) (p : Pipe σ α) : Pipe σ α
  | pairwise {α : Type} (p : Pipe σ α) : Pipe σ (α × α)
  | zip {α β : Type} (p : Pipe σ α) (q : Pipe σ β) : Pipe σ (α × β)
  | append {α : Type} (p other : Pipe σ α) : Pipe σ α
  | collect {α β T : Type} (mapping : α → PyD σ (Root σ β T)) (p : Pipe σ α) : Pipe σ β
  | delay {α T : Type} (generator : PyD σ (Root σ α T)) : Pipe σ α

/-- the pipeline as a source, with the type of the states of its iterators [model] -/
def Pipe.build : {α : Type} → Pipe σ α → (S : Type) × Source (Ledger σ) α S
  | _, .root r => ⟨_, r.source⟩
  | _, .list xs => ⟨_, ofList xs⟩
  | _, .seq p => ⟨_, SeqClose.seq p.build.2⟩
  | _, .map f p => ⟨_, SeqClose.map (fun x => lift (f x)) p.build.2⟩
  | _, .filter f p => ⟨_, SeqClose.filter (fun x => lift (f x)) p.build.2⟩
  | _, .choose f p => ⟨_, SeqClose.choose (fun x => lift (f x)) p.build.2⟩
  | _, .scan f state p => ⟨_, SeqClose.scan (fun acc x => lift (f acc x)) state p.build.2⟩
  | _, .skip count p => ⟨_, SeqClose.skip count p.build.2⟩
  | _, .take count p => ⟨_, SeqClose.take count p.build.2⟩
  | _, .pairwise p => ⟨_, SeqClose.pairwise p.build.2⟩
  | _, .zip p q => ⟨_, SeqClose.zip p.build.2 q.build.2⟩
  | _, .append p q => ⟨_, SeqClose.append [inRight p.build.1 q.build.2] (inLeft p.build.2 q.build.1)⟩
  | _, .collect f p => ⟨_, SeqClose.collect (fun x => do
      let r ← lift (f x)
      pure r.source) p.build.2⟩
  | _, .delay f => ⟨_, SeqClose.delay (do
      let r ← lift f
      pure r.source)⟩

end Expression.SeqClose
