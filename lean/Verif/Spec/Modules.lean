import Verif.Model.Modules

/-! # What calling a function with arguments means, and which method a function of a module stands for -/

namespace Expression.Spec.Modules

open Expression Curry Modules

variable {α : Type}

/-- The call gives the parameters the values `args`: the first ones by position, each of the others either by keyword or by its
default; no keyword is given twice or names another parameter. -/
structure Gives (literal : String → α) (params : List (String × Option String)) (call : Call α) (args : List α) : Prop where
  all : args.length = params.length
  positional : call.args <+: args
  once : (call.kw.map (·.1)).Nodup
  known : ∀ k ∈ call.kw, k.1 ∈ (params.drop call.args.length).map (·.1)
  others : ∀ p ∈ (params.zip args).drop call.args.length,
    (p.1.1, p.2) ∈ call.kw ∨ p.1.1 ∉ call.kw.map (·.1) ∧ p.1.2.map literal = some p.2

/-- The method that a function of a module stands for: the one of its name, with a few exceptions. -/
def methodOf : String → String
  | "count" => "__len__"
  | "find" => "__getitem__"
  | "model_dump" => "dict"
  | "default_arg" => "default_value"
  | "of_option" => "to_result"
  | "of_option_with" => "to_result_with"
  | name => name

/-- Functions that take all their arguments at once, the object first. -/
def uncurried : List (String × String) :=
  [("option", "or_else"), ("option", "to_result"), ("option", "to_result_with"), ("option", "default_arg"), ("result", "of_option"),
    ("result", "of_option_with")]

/-- The other functions into which the object cannot be piped, or that do not pass their arguments on. -/
def special : List (String × String) :=
  [("map", "fold_back"), ("option", "map2"), ("result", "map2"), ("array", "indexed")]

end Expression.Spec.Modules
