import Verif.Model.AsyncShared

/-!
# Specification: one sequence and several askers
-/

namespace Expression.Spec

open AsyncSeq AsyncShared

variable {α β C : Type}

/-- how a loop over the elements so far stands: it goes on with these variables, it was left by `break`, or by an exception -/
inductive LoopStatus (C : Type) where
  | goesOn (c : C)
  | left
  | raised (e : PyErr)

/-- the loop over a list: what it yields, and how it stands then -/
def loopOver (body : C → α → Except PyErr (Act C β)) : C → List α → List β × LoopStatus C
  | c, [] => ([], .goesOn c)
  | c, x :: xs => match body c x with
    | .ok (.emit y c') => (y :: (loopOver body c' xs).1, (loopOver body c' xs).2)
    | .ok (.skip c') => loopOver body c' xs
    | .ok .stop => ([], .left)
    | .error e => ([], .raised e)

/-- the elements that the source delivered -/
def elementsOf : List (Event α) → List α
  | [] => []
  | .element x :: es => x :: elementsOf es
  | _ :: es => elementsOf es

/-- the values handed out, in order, whoever got them -/
def valuesIn : List (Nat × Outcome β) → List β
  | [] => []
  | (_, .value y) :: l => y :: valuesIn l
  | _ :: l => valuesIn l

/-- how often somebody asked -/
def requestsOf (who : Nat) : List (Event α) → Nat
  | [] => 0
  | .ask w :: es => (if w = who then 1 else 0) + requestsOf who es
  | _ :: es => requestsOf who es

/-- how many of the requests of somebody were answered -/
def answersTo (who : Nat) : List (Nat × Outcome β) → Nat
  | [] => 0
  | (w, _) :: l => (if w = who then 1 else 0) + answersTo who l

/-- whether a request of somebody is being worked on -/
def waiting (who : Nat) : Phase C → Nat
  | .busy w _ => if w = who then 1 else 0
  | _ => 0

end Expression.Spec
