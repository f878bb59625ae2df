import Verif.HyperSpec
import Verif.ListSpec

/-!
# Quantities read off a listing of weighted hyperedges

A listing is what reading `e` (or `e_of_group`) returns: hyperedges with weights, in order.
-/

set_option linter.unusedSectionVars false
set_option autoImplicit false

namespace DHG
namespace Spec

section
variable {K : Type} [Field K]

/-- vertices of the `j`-th listed hyperedge -/
def hAt (l : List (List Int × K)) (j : Nat) : List Int := (l.getD j ([], 0)).1

/-- weight of the `j`-th listed hyperedge -/
def hWt (l : List (List Int × K)) (j : Nat) : K := (l.getD j ([], 0)).2

/-- 1 if the vertex `v` belongs to the `j`-th listed hyperedge, 0 otherwise -/
def inc (l : List (List Int × K)) (v j : Nat) : K := if (v : Int) ∈ hAt l j then 1 else 0

/-- total weight of the listed hyperedges containing `v` -/
def hDeg (l : List (List Int × K)) (v : Nat) : K :=
  (l.map fun e => if (v : Int) ∈ e.1 then e.2 else 0).sum

/-- number of vertices of the `j`-th listed hyperedge -/
def hSize (l : List (List Int × K)) (j : Nat) : K := ((hAt l j).length : K)

end

section
variable {K : Type} [Field K] [LinearOrder K]

/-- all listed weights are non-negative -/
def HNonneg (l : List (List Int × K)) : Prop := ∀ e ∈ l, 0 ≤ e.2

variable [PyReal K]

/-- the hypergraph has the group asked for (at least one group when asked for all of them) -/
def HasScope (s : HSt K) : Option String → Prop
  | none => hNames s ≠ []
  | some g => g ∈ hNames s

end

end Spec
end DHG
