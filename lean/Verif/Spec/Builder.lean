import Verif.Model.Builder

/-!
# Specification vocabulary for the operations of the builders
-/

namespace Expression.Spec

variable {σ α ε S : Type}

/-- the builders of the library; `effect.try_` and `effect.async_try` are of the same classes as `result` and `asyncResult` -/
inductive Lib where
  | option
  | result
  | seq
  | asyncOption
  | asyncResult

/-- the builder object -/
def Lib.builder : Lib → Builder α ε
  | .option => optionBuilder
  | .result => resultBuilder
  | .seq => seqBuilder
  | .asyncOption => asyncOptionBuilder
  | .asyncResult => asyncResultBuilder

/-- calling a function decorated with the builder, whose body contains `yield` (and awaiting it) -/
def Lib.callOn (l : Lib) (g : Gen σ α ε S) : PyD σ (Eff α ε) :=
  match l with
  | .option => optionBuilder.call g
  | .result => resultBuilder.call g
  | .seq => seqBuilder.call g
  | .asyncOption => asyncOptionBuilder.asyncCall g
  | .asyncResult => asyncResultBuilder.asyncCall g

/-- the values that a builder is for: options, results or sequences -/
def Lib.Own : Lib → Eff α ε → Prop
  | .option, m => ∃ o, m = .opt o
  | .asyncOption, m => ∃ o, m = .opt o
  | .result, m => ∃ r, m = .res r
  | .asyncResult, m => ∃ r, m = .res r
  | .seq, m => ∃ xs, m = .seq xs

/-- `Nothing`, an `Error`, or a sequence without elements -/
def NoValue : Eff α ε → Prop
  | .opt o => o = none
  | .res r => ∃ e, r = .error e
  | .seq xs => xs = []

/-- what the function returns, when it returns, is for that builder -/
def Delivers (l : Lib) (f : Obj α → PyD σ (Eff α ε)) : Prop := ∀ x w m w', (f x).exec w = some (.ok m, w') → l.Own m

end Expression.Spec
