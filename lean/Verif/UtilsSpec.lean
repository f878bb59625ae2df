import Mathlib.Data.Finset.Card
import Mathlib.Data.Set.Card
import Verif.Utils
import Verif.OrderedSpec

/-! # Vocabulary of the properties about `dhg.utils` -/

set_option linter.unusedSectionVars false
set_option autoImplicit false

namespace DHG
namespace Spec

/-- `f` numbers the strings of `marks` by 0, 1, ... in sorted order: smaller strings get smaller
numbers and exactly the numbers below the number of different strings are used. -/
def Numbers (marks : List String) (f : String → Nat) : Prop :=
  (∀ s ∈ marks, ∀ t ∈ marks, (f s < f t ↔ s < t)) ∧ ∀ k, (∃ s ∈ marks, f s = k) ↔ k < marks.toFinset.card

/-- the dictionary returned with `ret_map=True` is `f` on `marks` -/
def IsMapOf (m : Dict String Nat) (marks : List String) (f : String → Nat) : Prop :=
  ∀ s i, m.get? s = some i ↔ s ∈ marks ∧ f s = i

/-- the edges of `es` with source `a`, in order -/
def edgesFrom (es : List (Int × Int)) (a : Int) : List (Int × Int) := es.filter fun e => decide (e.1 = a)

/-- labels are consecutive numbers starting at 0 or at 1 -/
def Contiguous (labels : List Int) : Prop :=
  ∃ b : Int, (b = 0 ∨ b = 1) ∧ ∃ c : Nat, ∀ x : Int, x ∈ labels ↔ b ≤ x ∧ x < b + c

/-- vertex `v` is selected by mask `m` -/
def On (m : List Bool) (v : Nat) : Prop := m[v]? = some true

/-- the training mask -/
def train : Utils.Masks → List Bool
  | .two t _ => t
  | .three t _ _ => t

/-- the test mask -/
def test : Utils.Masks → List Bool
  | .two _ t => t
  | .three _ _ t => t

/-- the validation mask, if one is returned -/
def val? : Utils.Masks → Option (List Bool)
  | .two _ _ => none
  | .three _ v _ => some v

/-- `v` is a validation vertex -/
def OnVal (ms : Utils.Masks) (v : Nat) : Prop := ∃ m, val? ms = some m ∧ On m v

/-- number of vertices with label `c` selected by `P` -/
noncomputable def inClass (labels : List Int) (c : Int) (P : Nat → Prop) : Nat :=
  Set.ncard {v : Nat | labels[v]? = some c ∧ P v}

/-- everything listed for user `u` on the lines of `adj` that start with `u` -/
def itemsOf (adj : Utils.AdjList) (u : Nat) : List Nat :=
  adj.flatMap fun l => if l.head? = some u then l.tail else []

end Spec
end DHG
