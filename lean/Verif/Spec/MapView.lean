import Verif.Model.Py

/-! # Specification vocabulary for maps as mappings -/

namespace Expression.Spec

/-- Python's rule for `__hash__`: equal keys have equal hashes (or both cannot be hashed, with the same exception) -/
def HashRespectsEq {K : Type} [PyOrd K] (hash : K → Except PyErr Int) : Prop := ∀ a b, PyOrd.eq a b = true → hash a = hash b

/-- all these keys can be hashed -/
def Hashable {K : Type} (hash : K → Except PyErr Int) (keys : List K) : Prop := ∀ k ∈ keys, ∃ n, hash k = .ok n

end Expression.Spec
