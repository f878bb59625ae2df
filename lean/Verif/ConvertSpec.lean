import Verif.HyperListSpec

/-!
# Quantities used to state the properties of conversions
-/

set_option linter.unusedSectionVars false
set_option autoImplicit false

namespace DHG
namespace Spec

variable {K : Type} [Field K]

/-- number of listed hyperedges containing both `a` and `b` -/
def together (l : List (List Int × K)) (a b : Int) : Nat :=
  (l.filter fun e => decide (a ∈ e.1 ∧ b ∈ e.1)).length

/-- `{x,y}` is the unordered pair `{a,b}` -/
def SamePair (x y a b : Int) : Prop := (x = a ∧ y = b) ∨ (x = b ∧ y = a)

instance (x y a b : Int) : Decidable (SamePair x y a b) := by unfold SamePair; infer_instance

/-- the feature row of vertex `v` multiplied by the random vector -/
def proj (X : Dense K) (rv : Nat → K) (v : Int) : K :=
  ∑ c ∈ Finset.range X.cols, X.at_ v.toNat c * rv c

section
variable [LinearOrder K]

/-- `A` and `B` choose vertices of each listed hyperedge with largest and smallest projection -/
def Extremes (l : List (List Int × K)) (p : Int → K) (A B : List Int → Int) : Prop :=
  ∀ e ∈ l, A e.1 ∈ e.1 ∧ B e.1 ∈ e.1 ∧ ∀ v ∈ e.1, p v ≤ p (A e.1) ∧ p (B e.1) ≤ p v

end

/-- total weight of the pair `{a,b}` when each hyperedge `e` contributes the edge between `A e` and
`B e` with weight `1/|e|` -/
def plainWt (l : List (List Int × K)) (A B : List Int → Int) (a b : Int) : K :=
  (l.map fun e => if SamePair (A e.1) (B e.1) a b then 1 / (e.1.length : K) else 0).sum

/-- vertices of `e` other than its extremes -/
def mediators (A B : List Int → Int) (e : List Int) : List Int :=
  e.filter fun m => decide (m ≠ A e ∧ m ≠ B e)

/-- total weight of the pair `{a,b}` when each hyperedge `e` contributes, for every mediator `m`, the
edges between `A e` and `m` and between `B e` and `m` with weight `1/(2|e|-3)` -/
def mediatorWt (l : List (List Int × K)) (A B : List Int → Int) (a b : Int) : K :=
  (l.map fun e => ((mediators A B e.1).map fun m =>
    (if SamePair (A e.1) m a b then 1 / (2 * (e.1.length : K) - 3) else 0) +
    (if SamePair (B e.1) m a b then 1 / (2 * (e.1.length : K) - 3) else 0)).sum).sum

end Spec
end DHG
