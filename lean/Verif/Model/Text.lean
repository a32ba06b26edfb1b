import Verif.Model.Block
import Verif.Model.Map
import Verif.Model.Option
import Verif.Model.TaggedUnion

/-!
# Model of the `__str__` methods of blocks, maps, options and results, and of the `__repr__` of tagged unions

Text is a list of characters; `str` of an element is a parameter.  Simplified: `str` of an element neither raises nor has effects.
-/

namespace Expression

variable {α ε K V : Type}

/-- `sep.join(parts)` [Python] -/
def joinText (sep : List Char) : List (List Char) → List Char
  | [] => []
  | [p] => p
  | p :: q :: rest => p ++ sep ++ joinText sep (q :: rest)

/-- block.py:532-533 (`__repr__`, block.py:535-536, is the same) -/
def Block.str (str : α → List Char) (self : Block α) : List Char :=
  "[".toList ++ joinText ", ".toList (self.value.map str) ++ "]".toList

/-- map.py:246-250: keys that are strings are put in quotes (`isStr`) -/
def Map.itemStr (isStr : K → Bool) (strK : K → List Char) (strV : V → List Char) (item : K × V) : List Char :=
  if isStr item.1 then "(\"".toList ++ strK item.1 ++ "\", ".toList ++ strV item.2 ++ ")".toList
  else "(".toList ++ strK item.1 ++ ", ".toList ++ strV item.2 ++ ")".toList

/-- map.py:245-253 (`__repr__`, map.py:255-256, is the same) -/
def Map.str (isStr : K → Bool) (strK : K → List Char) (strV : V → List Char) (self : Map K V) : Except PyErr (List Char) := do
  let items ← self.toSeq
  .ok ("map [".toList ++ joinText "; ".toList (items.map (Map.itemStr isStr strK strV)) ++ "]".toList)

/-- option.py:302-307 -/
def Opt.str (str : α → List Char) (self : Option α) : List Char :=
  match self with
  | some x => "Some ".toList ++ str x
  | none => "Nothing".toList

/-- result.py:285-290 -/
def Res.str (strA : α → List Char) (strE : ε → List Char) (self : Res α ε) : List Char :=
  match self with
  | .ok value => "Ok ".toList ++ strA value
  | .error e => "Error ".toList ++ strE e

/-- tagged_union.py:113-114; `repr` is that of the payload -/
def TU.repr (repr : V → List Char) (self : TU.Inst V) : Except PyErr (List Char) := do
  let t ← TU.tagOf self
  let v ← TU.payload self
  .ok (self.cls.name.toList ++ "(".toList ++ t.toList ++ "=".toList ++ repr v ++ ")".toList)

end Expression
