import Verif.Metrics

/-!
# `dhg/metrics/base.py`: metric configurations and evaluators

An evaluator is generic in the type `I` of what is passed as `(y_true, y_pred)`: pairs of tensors for
retrieval and recommender, labels and predictions for classification.
-/

set_option linter.unusedSectionVars false
set_option autoImplicit false

namespace DHG
namespace Metrics
open Utils

/-- a metric function: the inputs, and `ret_batch` if it is passed (metrics/base.py:110, 135) -/
abbrev Metric (I : Type) : Type := I → Option Bool → Except Err (Out ℝ)

/-! ### metric configurations -/

/-- a metric parameter; other types than these three are not modelled (metrics/base.py:52-63) -/
inductive PVal
  | int (n : Int)
  | float (x : ℝ)
  | str (s : String)

/-- a metric configuration: a name, a dictionary, or something else (metrics/base.py:36, 42, 66) -/
inductive Config
  | name (s : String)
  | dict (d : List (String × List (String × PVal)))
  | other

/-- `f"{v:.4f}"`.  The number is rounded to the nearest, ties upwards; the code rounds the binary
value, ties to even. (metrics/base.py:59) -/
noncomputable def fmt4 (x : ℝ) : String :=
  let n : Int := ⌊x * 10000 + 1 / 2⌋
  let frac := toString (n.natAbs % 10000)
  (if n < 0 then "-" else "") ++ toString (n.natAbs / 10000) ++ "."
    ++ "".pushn '0' (4 - frac.length) ++ frac

/-- one parameter in a marker (base.py:53-63) -/
noncomputable def paramMark (p : String × PVal) : String :=
  p.1 ++ "@" ++ match p.2 with
    | .int n => toString n
    | .float x => fmt4 x
    | .str s => s

/-- `available_…_metrics()` (classification.py:17-22, retrieval.py:9-14, recommender.py:16-21) -/
def available : String → Option (List String)
  | "classification" => some ["accuracy", "f1_score", "confusion_matrix"]
  | "retrieval" => some ["precision", "recall", "map", "ndcg", "mrr", "pr_curve"]
  | "recommender" => some ["precision", "recall", "ndcg"]
  | _ => none

/-- one entry of the formatted list: marker and function (`func_name` is only stored).  `getfun`
stands for `getattr(module, func_name)` followed by `partial(func, **params)` (base.py:37-67). -/
noncomputable def formatOne {I : Type} (avail : List String)
    (getfun : String → List (String × PVal) → Metric I) : Config → Except Err (String × Metric I)
  | .name s => if s ∈ avail then .ok (s, getfun s []) else .error .assertion
  | .dict [(s, ps)] =>
    if s ∈ avail then .ok (s ++ " -> " ++ " | ".intercalate (ps.map paramMark), getfun s ps)
    else .error .assertion
  | .dict _ => .error .assertion
  | .other => .error .value

/-- `format_metric_configs` (base.py:12-69); `task.lower()` is applied by the caller here -/
noncomputable def formatConfigs {I : Type} (task : String)
    (getfun : String → List (String × PVal) → Metric I) (cfgs : List Config) :
    Except Err (List (String × Metric I)) :=
  match available task with
  | none => .error .value
  | some avail => collectE cfgs (formatOne avail getfun)

/-! ### the metric functions with their parameters -/

/-- the integer parameter `k` or `n_points`; anything but an integer ends in a `TypeError`
(metrics/base.py:50, metrics/retrieval.py:45-51, 388-396) -/
def intParam (ps : List (String × PVal)) (key : String) : Except Err (Option Int) :=
  match Dict.get? ps key with
  | none => .ok none
  | some (.int n) => .ok (some n)
  | some _ => .error .type

/-- the parameter `ratio` (metrics/base.py:50, metrics/retrieval.py:45-51) -/
noncomputable def ratioParam (ps : List (String × PVal)) : Except Err (Option ℝ) :=
  match Dict.get? ps "ratio" with
  | none => .ok none
  | some (.int n) => .ok (some (n : ℝ))
  | some (.float x) => .ok (some x)
  | some (.str _) => .error .type

/-- the parameter `method`, `"pascal_voc"` by default (metrics/retrieval.py:167, 393) -/
def methodParam (ps : List (String × PVal)) : Method :=
  match Dict.get? ps "method" with
  | none => .pascalVoc
  | some (.str "legacy") => .legacy
  | some (.str "pascal_voc") => .pascalVoc
  | some _ => .unknown

/-- keyword arguments the function does not have: `TypeError`.  `ret_batch` as a configured parameter
is not modelled. (`partial(func, **params)`, metrics/base.py:50) -/
def checkKeys (ps : List (String × PVal)) (keys : List String) : Except Err Unit :=
  if ps.all fun p => decide (p.1 ∈ keys) then .ok () else .error .type

/-- the functions of retrieval.py with parameters -/
noncomputable def retrievalFun (srt : Argsort ℝ) (name : String) (ps : List (String × PVal)) :
    Metric (Arr ℝ × Arr ℝ) := fun y rb => do
  let rb := rb.getD false
  match name with
  | "precision" =>
    let _ ← checkKeys ps ["k", "ratio"]
    let k ← intParam ps "k"
    let q ← ratioParam ps
    precision .retrieval srt y.1 y.2 k q rb
  | "recall" =>
    let _ ← checkKeys ps ["k", "ratio"]
    let k ← intParam ps "k"
    let q ← ratioParam ps
    recall .retrieval srt y.1 y.2 k q rb
  | "ndcg" =>
    let _ ← checkKeys ps ["k", "ratio"]
    let k ← intParam ps "k"
    let q ← ratioParam ps
    ndcg .retrieval srt y.1 y.2 k q rb
  | "map" =>
    let _ ← checkKeys ps ["k", "ratio", "method"]
    let k ← intParam ps "k"
    let q ← ratioParam ps
    map srt y.1 y.2 k q (methodParam ps) rb
  | "mrr" =>
    let _ ← checkKeys ps ["k", "ratio"]
    let k ← intParam ps "k"
    let q ← ratioParam ps
    mrr srt y.1 y.2 k q rb
  | "pr_curve" =>
    let _ ← checkKeys ps ["k", "ratio", "method", "n_points"]
    let k ← intParam ps "k"
    let q ← ratioParam ps
    let n ← intParam ps "n_points"
    prCurve srt y.1 y.2 k q (methodParam ps) (n.getD 11) rb
  | _ => .error .attribute

/-- the functions of recommender.py with parameters -/
noncomputable def recommenderFun (srt : Argsort ℝ) (name : String) (ps : List (String × PVal)) :
    Metric (Arr ℝ × Arr ℝ) := fun y rb => do
  let rb := rb.getD false
  let _ ← checkKeys ps ["k", "ratio"]
  let k ← intParam ps "k"
  let q ← ratioParam ps
  match name with
  | "precision" => precision .recommender srt y.1 y.2 k q rb
  | "recall" => recall .recommender srt y.1 y.2 k q rb
  | "ndcg" => ndcg .recommender srt y.1 y.2 k q rb
  | _ => .error .attribute

/-- the functions of classification.py; none of them has a parameter `ret_batch`, so passing it is a
`TypeError`.  `f1` stands for `sklearn.metrics.f1_score`. -/
noncomputable def classificationFun (f1 : List Int → List Int → List (String × PVal) → Except Err ℝ)
    (name : String) (ps : List (String × PVal)) : Metric (Option (List Int) × Pred ℝ) := fun y rb =>
  match rb with
  | some _ => .error .type
  | none =>
    match name with
    | "accuracy" => do
      let _ ← checkKeys ps []
      let x ← accuracy y.1 y.2
      .ok (.mean x)
    | "f1_score" => do
      let _ ← checkKeys ps ["average"]
      let r ← formatCls y.1 y.2
      let x ← f1 r.1 r.2 ps
      .ok (.mean (some x))
    | "confusion_matrix" => do
      let _ ← checkKeys ps []
      let x ← confusionMatrix y.1 y.2
      .ok (.table x)
    | _ => .error .attribute

/-! ### the evaluator -/

/-- a numpy array of shape `(rows.length, w)` (metrics/base.py:111-113) -/
structure Arr2 where
  w : Nat
  rows : List (List (Option ℝ))

/-- `np.array(xs)` with `np.newaxis` (base.py:111-113, 137-139) for a list of numbers -/
def Arr2.col (xs : List (Option ℝ)) : Arr2 := ⟨1, xs.map fun x => [x]⟩

/-- `np.array(rows)` for a list of lists, all of the same length; an empty list becomes a column
(metrics/base.py:111-113) -/
def Arr2.mat (rows : List (List ℝ)) : Arr2 :=
  ⟨match rows with | [] => 1 | r :: _ => r.length, rows.map fun r => r.map some⟩

/-- an entry of `test_res_dict`: the arrays of the batches, or one list of arrays for each component
of a tuple (metrics/base.py:136-148) -/
inductive Entry
  | arrs (bs : List Arr2)
  | lists (subs : List (List Arr2))

/-- a value in the result of `test_epoch_res`: a number, a list of numbers, or a list of those
(metrics/base.py:156-163) -/
inductive TVal
  | num (x : Option ℝ)
  | list (xs : List (Option ℝ))
  | lists (xs : List TVal)

/-- `BaseEvaluator` (base.py:72-183).  `vres` holds, for every batch, the slices of the array along
its first axis.  `objs` are the dictionaries created by the evaluator, `lastT` the one bound to
`last_test_res`; `lastV` is `None` or a number (possibly `nan`). -/
structure Ev (I : Type) where
  vidx : Nat
  markers : List String
  funcs : List (Metric I)
  vres : List (List (List (Option ℝ)))
  tres : Dict String Entry
  lastV : Option (Option ℝ)
  objs : List (Dict String TVal)
  lastT : Nat

namespace Ev
variable {I : Type}

/-- `__init__` (base.py:81-96) after `format_metric_configs` -/
def new (cfgs : List (String × Metric I)) (vidx : Int) : Except Err (Ev I) :=
  if 0 ≤ vidx ∧ vidx < cfgs.length then
    .ok { vidx := vidx.toNat, markers := cfgs.map Prod.fst, funcs := cfgs.map Prod.snd, vres := []
          tres := [], lastV := none, objs := [[]], lastT := 0 }
  else .error .assertion

/-- `self.func_list[self.validate_index]` (metrics/base.py:110) -/
def vfun (e : Ev I) : Metric I := e.funcs.getD e.vidx fun _ _ => .error .index

/-- `np.array(batch_res)` (base.py:111-113), as the list of its slices along the first axis, each
flattened -/
def slabs : Out ℝ → List (List (Option ℝ))
  | .batch xs => xs.map fun x => [x]
  | .mean x => [[x]]
  | .curves p r => [p.flatten.map some, r.flatten.map some]
  | .curve p r => [p.map some, r.map some]
  | .table t => t.map fun r => r.map fun n : Nat => some (n : ℝ)

/-- `validate_add_batch` (base.py:103-114) -/
def validateAdd (x : I) : PyM (Ev I) Unit := fun e =>
  match e.vfun x (some true) with
  | .error er => (.error er, e)
  | .ok o => (.ok (), { e with vres := e.vres ++ [slabs o] })

/-- `np.vstack(validate_res).mean(0).item()` (base.py:122): `ValueError` unless the slices hold one
number each -/
noncomputable def stackMean (bs : List (List (List (Option ℝ)))) : Except Err (Option ℝ) :=
  if bs.flatten.all fun s => decide (s.length = 1) then .ok (fmean bs.flatten.flatten) else .error .value

/-- `validate_epoch_res` (base.py:116-125) -/
noncomputable def validateRes : PyM (Ev I) (Option ℝ) := fun e =>
  match e.vres, e.lastV with
  | [], some x => (.ok x, e)
  | [], none => (.error .assertion, e)
  | b :: bs, _ =>
    match stackMean (b :: bs) with
    | .error er => (.error er, e)
    | .ok x => (.ok x, { e with lastV := some x, vres := [] })

/-- adding one result to `test_res_dict` (base.py:136-148).  An entry of the other kind under the same
name is impossible, because the name determines the function; it is `TypeError` here. -/
def addEntry (old : Option Entry) (o : Out ℝ) : Except Err Entry :=
  match o with
  | .batch xs =>
    match old with
    | none => .ok (.arrs [Arr2.col xs])
    | some (.arrs bs) => .ok (.arrs (bs ++ [Arr2.col xs]))
    | some (.lists _) => .error .type
  | .curves p r =>
    match old with
    | none => .ok (.lists [[Arr2.mat p], [Arr2.mat r]])
    | some (.lists [ps, rs]) => .ok (.lists [ps ++ [Arr2.mat p], rs ++ [Arr2.mat r]])
    | some _ => .error .type
  | _ => .error .type

/-- the loop of `test_add_batch` (base.py:134-148); what was added before an exception stays.  With
`ret_batch=True` the modelled metrics return one value per sample or a pair of curves. -/
def addLoop (x : I) : List (String × Metric I) → PyM (Ev I) Unit
  | [] => fun e => (.ok (), e)
  | (name, f) :: fs => fun e =>
    match f x (some true) with
    | .error er => (.error er, e)
    | .ok o =>
      match addEntry (e.tres.get? name) o with
      | .error er => (.error er, e)
      | .ok en => addLoop x fs { e with tres := e.tres.set name en }

/-- `test_add_batch` (base.py:127-148) -/
def testAdd (x : I) : PyM (Ev I) Unit := fun e => addLoop x (e.markers.zip e.funcs) e

/-- `np.vstack(bs).mean(0).squeeze().tolist()` (base.py:158, 161): `ValueError` for different widths -/
noncomputable def meanRows (bs : List Arr2) : Except Err TVal :=
  match bs with
  | [] => .error .value
  | b :: _ =>
    if bs.all fun b' => decide (b'.w = b.w) then
      let rows := (bs.map Arr2.rows).flatten
      if b.w = 1 then .ok (.num (fmean rows.flatten))
      else .ok (.list ((List.range b.w).map fun j => fmean (rows.map fun r => r.getD j none)))
    else .error .value

/-- the value stored for one name (base.py:157-162) -/
noncomputable def entryVal : Entry → Except Err TVal
  | .arrs bs => meanRows bs
  | .lists subs => (collectE subs meanRows).map TVal.lists

/-- the loop of `test_epoch_res` (base.py:156-162), writing into the dictionary `last_test_res` -/
noncomputable def resLoop : Dict String Entry → PyM (Ev I) Unit
  | [] => fun e => (.ok (), e)
  | (name, en) :: rest => fun e =>
    match entryVal en with
    | .error er => (.error er, e)
    | .ok v => resLoop rest { e with objs := e.objs.modify e.lastT fun d => d.set name v }

/-- `test_epoch_res` (base.py:150-165): it returns the dictionary object itself.  `last_test_res` is
never `None`, so the assertion is never reached. -/
noncomputable def testRes : PyM (Ev I) Nat := fun e =>
  if e.tres = [] then (.ok e.lastT, e)
  else
    match resLoop e.tres e with
    | (.error er, e') => (.error er, e')
    | (.ok _, e') => (.ok e'.lastT, { e' with tres := [] })

/-- what the caller sees in a returned dictionary (metrics/base.py:154, 164-165) -/
def look (e : Ev I) (ref : Nat) : Dict String TVal := e.objs.getD ref []

/-- `validate` (base.py:167-174) -/
def validate (e : Ev I) (x : I) : Except Err (Out ℝ) := e.vfun x none

/-- `test` (base.py:176-183) -/
def test (e : Ev I) (x : I) : Except Err (Dict String (Out ℝ)) := do
  let l ← collectE (e.markers.zip e.funcs) fun p => (p.2 x none).map fun o => (p.1, o)
  .ok (l.foldl (fun d p => d.set p.1 p.2) [])

end Ev
end Metrics
end DHG
