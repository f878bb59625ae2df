import Verif.Evaluator
import Verif.MetricsSpec

/-! # Vocabulary for the properties about evaluators -/

set_option linter.unusedSectionVars false
set_option autoImplicit false

namespace DHG
namespace Metrics
namespace Ev
variable {I : Type}

/-- a call that can change an evaluator -/
inductive Op (I : Type)
  | validateAdd (x : I)
  | validateRes
  | testAdd (x : I)
  | testRes

/-- the evaluator after a call, whether it raised or not -/
noncomputable def after (e : Ev I) : Op I → Ev I
  | .validateAdd x => (validateAdd x e).2
  | .validateRes => (Ev.validateRes e).2
  | .testAdd x => (testAdd x e).2
  | .testRes => (Ev.testRes e).2

/-- the evaluator after a history of calls -/
noncomputable def run (e : Ev I) (h : List (Op I)) : Ev I := h.foldl after e

/-- the inputs of the validation batches in a history -/
def vInputs : List (Op I) → List I
  | [] => []
  | .validateAdd x :: h => x :: vInputs h
  | _ :: h => vInputs h

/-- the inputs of the test batches in a history -/
def tInputs : List (Op I) → List I
  | [] => []
  | .testAdd x :: h => x :: tInputs h
  | _ :: h => tInputs h

end Ev
end Metrics

namespace Spec
open Metrics

/-- the mean of numbers some of which may be `nan`; of nothing it is `nan` -/
noncomputable def mean (xs : List (Option ℝ)) : Option ℝ :=
  if xs = [] ∨ none ∈ xs then none else some (average (xs.map fun x => x.getD 0))

/-- the mean of equally long rows, column by column; a single column gives a number -/
noncomputable def means (n : Nat) (rows : List (List ℝ)) : TVal :=
  if n = 1 then .num (mean (rows.map fun r => r[0]?))
  else .list ((List.range n).map fun j => mean (rows.map fun r => r[j]?))

/-- the value of an epoch, from what a metric returned for its batches: the mean over all samples; for
curves, the mean curve over all samples -/
inductive EpochVal : List (Out ℝ) → TVal → Prop
  | scores (ss : List (List (Option ℝ))) : EpochVal (ss.map .batch) (.num (mean ss.flatten))
  | curves (n : Nat) (cs : List (List (List ℝ) × List (List ℝ)))
      (hw : ∀ c ∈ cs, c.1 ≠ [] ∧ c.2 ≠ [] ∧ ∀ r ∈ c.1 ++ c.2, r.length = n) :
      EpochVal (cs.map fun c => .curves c.1 c.2)
        (.lists [means n (cs.map Prod.fst).flatten, means n (cs.map Prod.snd).flatten])

/-- a configured metric with one value per sample: any of retrieval except `pr_curve`, any of
recommender -/
def PerSample (srt : Argsort ℝ) (f : Metric (Arr ℝ × Arr ℝ)) : Prop :=
  (∃ name ps, name ≠ "pr_curve" ∧ f = retrievalFun srt name ps) ∨ ∃ name ps, f = recommenderFun srt name ps

end Spec
end DHG
