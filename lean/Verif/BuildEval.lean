import Verif.Evaluator

/-!
# `build_evaluator` (`dhg/metrics/__init__.py`)

The evaluator classes for vertex classification on graphs and hypergraphs
(metrics/graphs/graph.py:35-44, metrics/hypergraphs/hypergraph.py:36-45) and
`VertexClassificationEvaluator` (metrics/classification.py:136-159) only pass their arguments on.
-/

set_option linter.unusedSectionVars false
set_option autoImplicit false

namespace DHG
namespace Metrics

/-- what the classification evaluators are given: labels and predictions
(metrics/classification.py:143, 152) -/
abbrev ClsIn : Type := Option (List Int) × Pred ℝ

/-- what the recommender evaluator is given: ratings and predicted ratings
(metrics/recommender.py:264, 280) -/
abbrev RecIn : Type := Arr ℝ × Arr ℝ

/-- the object returned by `build_evaluator` (metrics/__init__.py:26-32): one of three classes -/
inductive AnyEv
  | graphCls (e : Ev ClsIn)
  | hypergraphCls (e : Ev ClsIn)
  | recommender (e : Ev RecIn)

/-- `VertexClassificationEvaluator.__init__` (metrics/classification.py:136-141) with
`BaseEvaluator.__init__` (metrics/base.py:81-96) -/
noncomputable def clsEvaluator (f1 : List Int → List Int → List (String × PVal) → Except Err ℝ)
    (cfgs : List Config) (vidx : Int) : Except Err (Ev ClsIn) := do
  let l ← formatConfigs "classification" (classificationFun f1) cfgs
  Ev.new l vidx

/-- `UserItemRecommenderEvaluator.__init__` (metrics/recommender.py:257-262) with
`BaseEvaluator.__init__` (metrics/base.py:81-96) -/
noncomputable def recEvaluator (srt : Argsort ℝ) (cfgs : List Config) (vidx : Int) :
    Except Err (Ev RecIn) := do
  let l ← formatConfigs "recommender" (recommenderFun srt) cfgs
  Ev.new l vidx

/-- `build_evaluator` (metrics/__init__.py:15-37).  `f1` is scikit-learn's `f1_score`, `srt` the order in
which `torch.argsort` puts scores. -/
noncomputable def buildEvaluator (f1 : List Int → List Int → List (String × PVal) → Except Err ℝ)
    (srt : Argsort ℝ) (task : String) (cfgs : List Config) (vidx : Int) : Except Err AnyEv :=
  if task = "graph_vertex_classification" then (clsEvaluator f1 cfgs vidx).map .graphCls
  else if task = "hypergraph_vertex_classification" then (clsEvaluator f1 cfgs vidx).map .hypergraphCls
  else if task = "user_item_recommender" then (recEvaluator srt cfgs vidx).map .recommender
  else .error .value

/-- `evaluator.validate(y_true, y_pred)` of a classification evaluator, the other has other arguments
(metrics/base.py:167-174) -/
def AnyEv.validateCls : AnyEv → ClsIn → Except Err (Out ℝ)
  | .graphCls e, x => e.validate x
  | .hypergraphCls e, x => e.validate x
  | .recommender _, _ => .error .type

/-- `evaluator.test(y_true, y_pred)` of a classification evaluator (metrics/base.py:176-183) -/
def AnyEv.testCls : AnyEv → ClsIn → Except Err (Dict String (Out ℝ))
  | .graphCls e, x => e.test x
  | .hypergraphCls e, x => e.test x
  | .recommender _, _ => .error .type

end Metrics
end DHG
