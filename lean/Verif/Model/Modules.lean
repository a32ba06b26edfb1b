import Verif.Model.Functions

/-!
# The functions of the modules `block`, `map`, `option`, `result` and `array` that call a method

Most functions of these modules have one line: they call the method of the same name on one of their parameters.  What the
methods do is in the models of the classes; here it is arbitrary.  A function is described by its parameters, the number given to
`curry_flip`, and that line.
-/

namespace Expression.Modules

open Curry

variable {σ α : Type}

/-- A function `def name(params): return recv.method(args)`, decorated with `curry_flip(late)` (not decorated: 0).  A default is the
text of a literal.  Simplified: for a nested function `def name(p): def inner(x): return x.method(p); return inner` the parameters
are `x, p` and `late` is 1. -/
structure Fn where
  module : String
  name : String
  params : List (String × Option String)
  late : Nat
  recv : String
  method : String
  args : List String
deriving DecidableEq, Repr

/-- Everything else: what methods do, and which values the literals are. [model] -/
structure Host (σ α : Type) where
  /-- `x.name(*args)` -/
  method : α → String → List α → PyD σ α
  literal : String → α

/-- How Python finds the values of the parameters: positional arguments first, then by keyword, then defaults.  Simplified: the
texts of the messages. [Python: calls] -/
def bindParams (literal : String → α) (kw : List (String × α)) : List (String × Option String) → List α → Except PyErr (List (String × α))
  | [], [] => .ok []
  | [], _ :: _ => .error (.typeError "takes fewer positional arguments")
  | (p, _) :: params, a :: args =>
    if p ∈ kw.map (·.1) then .error (.typeError "got multiple values for argument")
    else do
      let vars ← bindParams literal kw params args
      .ok ((p, a) :: vars)
  | (p, default) :: params, [] =>
    match kw.lookup p, default with
    | some a, _ => do
      let vars ← bindParams literal kw params []
      .ok ((p, a) :: vars)
    | none, some text => do
      let vars ← bindParams literal kw params []
      .ok ((p, literal text) :: vars)
    | none, none => .error (.typeError "missing a required argument")

/-- The body, `return recv.method(args)`, the parameters having values. [Python: calls] -/
def Fn.invoke (h : Host σ α) (f : Fn) (vars : List (String × α)) : PyD σ α :=
  match vars.lookup f.recv, f.args.mapM (fun x => vars.lookup x) with
  | some x, some args => h.method x f.method args
  | _, _ => PyD.raise (.attributeError "name is not defined")

/-- Calling the undecorated function. [Python: calls] -/
def Fn.body (h : Host σ α) (f : Fn) (call : Call α) : PyD σ α :=
  if call.kw.all (fun k => k.1 ∈ f.params.map (·.1)) then
    match bindParams h.literal call.kw f.params call.args with
    | .error e => PyD.raise e
    | .ok vars => f.invoke h vars
  else PyD.raise (.typeError "got an unexpected keyword argument")

/-- `f(*call.args, **call.kw)(x)`, for a function decorated with `curry_flip(1)`; so also `pipe(x, f(*call.args, **call.kw))` -/
def Fn.piped [DecidableEq α] (h : Host σ α) (f : Fn) (call : Call α) (x : α) : PyD σ (Stage α α) :=
  curryFlip f.late (f.body h) call [⟨[x], []⟩]

/-- expression/collections/block.py:561-1037; the numbers are the lines of each function.  `concat`, `cons`, `reduce`, `starmap`, `sum`,
`sum_by`, `unfold` and the makers do not call one method and are in `Model/Block.lean`. -/
def blockFns : List Fn := [
  ⟨"block", "append", [("source", none), ("other", none)], 1, "source", "append", ["other"]⟩,  -- 561-563
  ⟨"block", "choose", [("source", none), ("chooser", none)], 1, "source", "choose", ["chooser"]⟩,  -- 566-568
  ⟨"block", "collect", [("source", none), ("mapping", none)], 1, "source", "collect", ["mapping"]⟩,  -- 571-587
  ⟨"block", "filter", [("source", none), ("predicate", none)], 1, "source", "filter", ["predicate"]⟩,  -- 608-622
  ⟨"block", "fold", [("source", none), ("folder", none), ("state", none)], 1, "source", "fold", ["folder", "state"]⟩,  -- 625-652
  ⟨"block", "forall", [("source", none), ("predicate", none)], 1, "source", "forall", ["predicate"]⟩,  -- 655-669
  ⟨"block", "head", [("source", none)], 0, "source", "head", []⟩,  -- 672-684
  ⟨"block", "indexed", [("source", none)], 0, "source", "indexed", []⟩,  -- 687-697
  ⟨"block", "item", [("source", none), ("index", none)], 1, "source", "item", ["index"]⟩,  -- 700-711
  ⟨"block", "is_empty", [("source", none)], 0, "source", "is_empty", []⟩,  -- 714-716
  ⟨"block", "map", [("source", none), ("mapper", none)], 1, "source", "map", ["mapper"]⟩,  -- 719-733
  ⟨"block", "mapi", [("source", none), ("mapper", none)], 1, "source", "mapi", ["mapper"]⟩,  -- 793-810
  ⟨"block", "partition", [("source", none), ("predicate", none)], 1, "source", "partition", ["predicate"]⟩,  -- 831-851
  ⟨"block", "skip", [("source", none), ("count", none)], 1, "source", "skip", ["count"]⟩,  -- 874-885
  ⟨"block", "skip_last", [("source", none), ("count", none)], 1, "source", "skip_last", ["count"]⟩,  -- 888-899
  ⟨"block", "sort", [("source", none), ("reverse", some "False")], 1, "source", "sort", ["reverse"]⟩,  -- 902-916
  ⟨"block", "sort_with", [("source", none), ("func", none), ("reverse", some "False")], 1, "source", "sort_with", ["func", "reverse"]⟩,  -- 919-931
  ⟨"block", "tail", [("source", none)], 0, "source", "tail", []⟩,  -- 944-945
  ⟨"block", "take", [("source", none), ("count", none)], 1, "source", "take", ["count"]⟩,  -- 948-959
  ⟨"block", "take_last", [("source", none), ("count", none)], 1, "source", "take_last", ["count"]⟩,  -- 962-976
  ⟨"block", "dict", [("source", none)], 0, "source", "dict", []⟩,  -- 979-980
  ⟨"block", "try_head", [("source", none)], 0, "source", "try_head", []⟩,  -- 983-994
  ⟨"block", "zip", [("source", none), ("other", none)], 1, "source", "zip", ["other"]⟩  -- 1018-1037
]

/-- expression/collections/map.py:259-489.  `pick` and the makers are in `Model/Map.lean`.  `len(table)` and `table[key]` are calls of
`__len__` and `__getitem__`. -/
def mapFns : List Fn := [
  ⟨"map", "add", [("table", none), ("key", none), ("value", none)], 1, "table", "add", ["key", "value"]⟩,  -- 259-277
  ⟨"map", "change", [("table", none), ("key", none), ("fn", none)], 1, "table", "change", ["key", "fn"]⟩,  -- 280-295
  ⟨"map", "contains_key", [("table", none), ("key", none)], 1, "table", "contains_key", ["key"]⟩,  -- 298-300
  ⟨"map", "count", [("table", none)], 0, "table", "__len__", []⟩,  -- 303-305
  ⟨"map", "find", [("table", none), ("key", none)], 1, "table", "__getitem__", ["key"]⟩,  -- 312-324
  ⟨"map", "is_empty", [("table", none)], 0, "table", "is_empty", []⟩,  -- 327-336
  ⟨"map", "iterate", [("table", none), ("action", none)], 1, "table", "iterate", ["action"]⟩,  -- 339-343, a nested function
  ⟨"map", "try_pick", [("table", none), ("chooser", none)], 1, "table", "try_pick", ["chooser"]⟩,  -- 346-362
  ⟨"map", "exists", [("table", none), ("predicate", none)], 1, "table", "exists", ["predicate"]⟩,  -- 373-389
  ⟨"map", "filter", [("table", none), ("predicate", none)], 1, "table", "filter", ["predicate"]⟩,  -- 392-394
  ⟨"map", "for_all", [("table", none), ("predicate", none)], 1, "table", "for_all", ["predicate"]⟩,  -- 397-399
  ⟨"map", "map", [("table", none), ("mapping", none)], 1, "table", "map", ["mapping"]⟩,  -- 402-404
  ⟨"map", "fold", [("table", none), ("folder", none), ("state", none)], 1, "table", "fold", ["folder", "state"]⟩,  -- 407-413
  ⟨"map", "fold_back", [("state", none), ("folder", none), ("table", none)], 1, "table", "fold_back", ["folder", "state"]⟩,  -- 416-422
  ⟨"map", "partition", [("table", none), ("predicate", none)], 1, "table", "partition", ["predicate"]⟩,  -- 425-429
  ⟨"map", "remove", [("table", none), ("key", none)], 1, "table", "remove", ["key"]⟩,  -- 432-446
  ⟨"map", "to_list", [("table", none)], 0, "table", "to_list", []⟩,  -- 466-467
  ⟨"map", "to_seq", [("table", none)], 0, "table", "to_seq", []⟩,  -- 470-471
  ⟨"map", "try_find", [("table", none), ("key", none)], 1, "table", "try_find", ["key"]⟩  -- 474-489
]

/-- expression/core/option.py:398-562 without the makers (`Model/Option.lean`) -/
def optionFns : List Fn := [
  ⟨"option", "bind", [("option", none), ("mapper", none)], 1, "option", "bind", ["mapper"]⟩,  -- 398-415
  ⟨"option", "default_value", [("option", none), ("value", none)], 1, "option", "default_value", ["value"]⟩,  -- 418-425
  ⟨"option", "default_with", [("option", none), ("getter", none)], 1, "option", "default_with", ["getter"]⟩,  -- 428-438, a nested function
  ⟨"option", "is_none", [("option", none)], 0, "option", "is_none", []⟩,  -- 441-442
  ⟨"option", "is_some", [("option", none)], 0, "option", "is_some", []⟩,  -- 445-446
  ⟨"option", "map", [("option", none), ("mapper", none)], 1, "option", "map", ["mapper"]⟩,  -- 449-451
  ⟨"option", "map2", [("opt1", none), ("opt2", none), ("mapper", none)], 2, "opt1", "map2", ["mapper", "opt2"]⟩,  -- 454-456
  ⟨"option", "apply", [("value", none), ("function", none)], 1, "value", "apply", ["function"]⟩,  -- 459-468
  ⟨"option", "starmap", [("option", none), ("mapper", none)], 1, "option", "starmap", ["mapper"]⟩,  -- 471-473
  ⟨"option", "or_else", [("option", none), ("if_none", none)], 0, "option", "or_else", ["if_none"]⟩,  -- 476-481
  ⟨"option", "to_list", [("option", none)], 0, "option", "to_list", []⟩,  -- 484-485
  ⟨"option", "to_seq", [("option", none)], 0, "option", "to_seq", []⟩,  -- 488-489
  ⟨"option", "to_optional", [("value", none)], 0, "value", "to_optional", []⟩,  -- 492-501
  ⟨"option", "to_result", [("value", none), ("error", none)], 0, "value", "to_result", ["error"]⟩,  -- 543-544
  ⟨"option", "to_result_with", [("value", none), ("error", none)], 0, "value", "to_result_with", ["error"]⟩,  -- 547-548
  ⟨"option", "model_dump", [("value", none)], 0, "value", "dict", []⟩,  -- 551-552
  ⟨"option", "default_arg", [("value", none), ("default_value", none)], 0, "value", "default_value", ["default_value"]⟩  -- 555-562
]

/-- expression/core/result.py:381-516 without the makers and `to_option` (`Model/Option.lean`) -/
def resultFns : List Fn := [
  ⟨"result", "default_value", [("result", none), ("value", none)], 1, "result", "default_value", ["value"]⟩,  -- 381-391, a nested function
  ⟨"result", "default_with", [("result", none), ("getter", none)], 1, "result", "default_with", ["getter"]⟩,  -- 394-404, a nested function
  ⟨"result", "map", [("result", none), ("mapper", none)], 1, "result", "map", ["mapper"]⟩,  -- 407-409
  ⟨"result", "map2", [("x", none), ("y", none), ("mapper", none)], 2, "x", "map2", ["y", "mapper"]⟩,  -- 412-418
  ⟨"result", "apply", [("value", none), ("function", none)], 1, "value", "apply", ["function"]⟩,  -- 421-431
  ⟨"result", "map_error", [("result", none), ("mapper", none)], 1, "result", "map_error", ["mapper"]⟩,  -- 434-436
  ⟨"result", "bind", [("result", none), ("mapper", none)], 1, "result", "bind", ["mapper"]⟩,  -- 439-444
  ⟨"result", "dict", [("source", none)], 0, "source", "dict", []⟩,  -- 447-448
  ⟨"result", "is_ok", [("result", none)], 0, "result", "is_ok", []⟩,  -- 451-453
  ⟨"result", "is_error", [("result", none)], 0, "result", "is_error", []⟩,  -- 456-458
  ⟨"result", "filter", [("result", none), ("predicate", none), ("default", none)], 1, "result", "filter", ["predicate", "default"]⟩,  -- 461-467
  -- 470-476
  ⟨"result", "filter_with", [("result", none), ("predicate", none), ("default", none)], 1, "result", "filter_with", ["predicate", "default"]⟩,
  ⟨"result", "swap", [("result", none)], 0, "result", "swap", []⟩,  -- 479-481
  ⟨"result", "or_else", [("result", none), ("other", none)], 1, "result", "or_else", ["other"]⟩,  -- 484-486
  ⟨"result", "or_else_with", [("result", none), ("other", none)], 1, "result", "or_else_with", ["other"]⟩,  -- 489-494
  ⟨"result", "merge", [("result", none)], 0, "result", "merge", []⟩,  -- 497-498
  ⟨"result", "of_option", [("value", none), ("error", none)], 0, "value", "to_result", ["error"]⟩,  -- 511-512
  ⟨"result", "of_option_with", [("value", none), ("error", none)], 0, "value", "to_result_with", ["error"]⟩  -- 515-516
]

/-- expression/collections/array.py:475-634 without `sum`, `sum_by`, `unfold` and the makers (`Model/Array.lean`) -/
def arrayFns : List Fn := [
  ⟨"array", "map", [("source", none), ("mapper", none)], 1, "source", "map", ["mapper"]⟩,  -- 475-489
  ⟨"array", "filter", [("source", none), ("predicate", none)], 1, "source", "filter", ["predicate"]⟩,  -- 496-510
  ⟨"array", "fold", [("source", none), ("folder", none), ("state", none)], 1, "source", "fold", ["folder", "state"]⟩,  -- 513-540
  ⟨"array", "indexed", [("source", none), ("start", some "0")], 1, "source", "indexed", []⟩,  -- 543-548
  ⟨"array", "is_empty", [("source", none)], 0, "source", "is_empty", []⟩,  -- 551-553
  ⟨"array", "item", [("source", none), ("index", none)], 1, "source", "item", ["index"]⟩,  -- 556-558
  ⟨"array", "take", [("source", none), ("count", none)], 1, "source", "take", ["count"]⟩,  -- 592-603
  ⟨"array", "take_last", [("source", none), ("count", none)], 1, "source", "take_last", ["count"]⟩,  -- 606-620
  ⟨"array", "try_head", [("source", none)], 0, "source", "try_head", []⟩  -- 623-634
]

/-- all of them [see the lists above] -/
def fns : List Fn := blockFns ++ mapFns ++ optionFns ++ resultFns ++ arrayFns

end Expression.Modules
