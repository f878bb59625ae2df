import Mathlib.Analysis.SpecialFunctions.Log.Base
import Mathlib.Data.List.Sort
import Verif.Utils

/-!
# `dhg/metrics`: retrieval.py, recommender.py, classification.py

Tensors hold exact numbers; `float32` rounding is not modelled.  A floating point result that is
infinite or not a number is the value `none`.
-/

set_option linter.unusedSectionVars false
set_option autoImplicit false

namespace DHG
namespace Metrics
open Utils

/-- a tensor as far as the metrics look at it: one or two dimensions, anything else only has a
shape.  In `d2 w rows` every row has length `w` (`Arr.Rect`).
(the arguments of metrics/retrieval.py:17-42) -/
inductive Arr (K : Type)
  | d1 (xs : List K)
  | d2 (w : Nat) (rows : List (List K))
  | other (shape : List Nat)
  deriving Repr

/-- the rows of a two dimensional tensor have the stated width
(torch tensors are rectangular, metrics/retrieval.py:28-30) -/
def Arr.Rect {K : Type} : Arr K → Prop
  | .d1 _ => True
  | .d2 w rows => ∀ r ∈ rows, r.length = w
  | .other s => s.length ≠ 1 ∧ s.length ≠ 2

/-- `t.shape` (metrics/retrieval.py:28) -/
def Arr.shape {K : Type} : Arr K → List Nat
  | .d1 xs => [xs.length]
  | .d2 w rows => [rows.length, w]
  | .other s => s

/-- what a metric returns: with `ret_batch` one value per sample, without it their mean; the two
coordinate lists of a precision-recall curve; a confusion matrix
(e.g. metrics/retrieval.py:73-76, 443-448; metrics/classification.py:124) -/
inductive Out (K : Type)
  | batch (xs : List (Option K))
  | mean (x : Option K)
  | curves (precision recall : List (List K))
  | curve (precision recall : List K)
  | table (rows : List (List Nat))
  deriving Repr

section Generic
variable {K : Type} [Field K] [LinearOrder K]

/-- `a / b` of floats; a division by zero gives `inf` or `nan`
(e.g. metrics/retrieval.py:72, 255) -/
def fdiv (a b : K) : Option K := if b = 0 then none else some (a / b)

/-- `res[isinf(res)] = 0; res[isnan(res)] = 0` (retrieval.py:108-109, 256-257) -/
def zeroNan (x : Option K) : Option K := some (x.getD 0)

/-- `mean()`: not a number if there is nothing or if some value is not a number
(e.g. metrics/retrieval.py:76) -/
def fmean (xs : List (Option K)) : Option K :=
  match xs.mapM id with
  | some ys => fdiv ys.sum (ys.length : K)
  | none => none

/-- an `argsort(…, descending=True)`: some permutation of the positions along which the scores do
not increase.  `torch.argsort` does not say how it orders equal scores, so this is a parameter of
every metric; it is a function of the row. (e.g. metrics/retrieval.py:71) -/
abbrev Argsort (K : Type) : Type := List K → List Nat

/-- `y_true.gather(1, argsort(y_pred))` for one row (retrieval.py:71, 104, 246; 148, 290, 371).
The positions come from the permutation, so they are in range and the default is never used. -/
def ranked (srt : Argsort K) (yt yp : List K) : List K := (srt yp).map fun i => yt.getD i 0

/-- `y_true.max() == 1` (retrieval.py:70, 103); `max()` of nothing raises `RuntimeError` -/
def checkBinary (rows : List (List K)) : Except Err Unit :=
  match rows.flatten.max? with
  | none => .error .runtime
  | some m => if m = 1 then .ok () else .error .assertion

/-- `k = min(k, max_k) if k is not None else max_k` (retrieval.py:41, 146, 288, 369) -/
def clipK (maxK : Nat) : Option Int → Int
  | some k => min k maxK
  | none => maxK

/-- the shape assertions and the `unsqueeze` (retrieval.py:28-36, recommender.py:35-44): rows of
both tensors and their width -/
def asRows (yt yp : Arr K) : Except Err (Nat × List (List K) × List (List K)) :=
  if yt.shape ≠ yp.shape then .error .assertion
  else match yt, yp with
    | .d1 a, .d1 b => .ok (a.length, [a], [b])
    | .d2 w a, .d2 _ b => .ok (w, a, b)
    | _, _ => .error .assertion

variable [FloorRing K]

/-- retrieval `_format_inputs` (retrieval.py:17-42) -/
def formatRet (yt yp : Arr K) (k : Option Int) (ratio : Option K) :
    Except Err (List (List K) × List (List K) × Int) := do
  let r ← asRows yt yp
  match ratio with
  | some q =>
    if 0 < q ∧ q ≤ 1 then .ok (r.2.1, r.2.2, ⌈(r.1 : K) * q⌉) else .error .assertion
  | none => .ok (r.2.1, r.2.2, clipK r.1 k)

/-- recommender `_format_inputs` (recommender.py:24-50).  The ratio is not checked, and `np` is not
imported in that file, so a ratio ends in `NameError`. -/
def formatRec (yt yp : Arr K) (k : Option Int) (ratio : Option K) :
    Except Err (List (List K) × List (List K) × Int) := do
  let r ← asRows yt yp
  match ratio with
  | some _ => .error .name
  | none => .ok (r.2.1, r.2.2, clipK r.1 k)

/-- the two modules that define precision, recall and ndcg
(metrics/retrieval.py, metrics/recommender.py) -/
inductive Task
  | retrieval | recommender
  deriving DecidableEq, Repr

/-- `_format_inputs` of either module (metrics/retrieval.py:17-42, metrics/recommender.py:24-50) -/
def format (t : Task) (yt yp : Arr K) (k : Option Int) (ratio : Option K) :
    Except Err (List (List K) × List (List K) × Int) :=
  match t with
  | .retrieval => formatRet yt yp k ratio
  | .recommender => formatRec yt yp k ratio

/-- `if ret_batch: return res_list else: return res_list.mean().item()`
(metrics/retrieval.py:73-76) -/
def finish (retBatch : Bool) (res : List (Option K)) : Out K :=
  if retBatch then .batch res else .mean (fmean res)

/-- `pred_seq.sum(dim=1) / k` for one row (retrieval.py:71-72, recommender.py:80-81) -/
def precisionRow (srt : Argsort K) (k : Int) (yt yp : List K) : Option K :=
  fdiv (slice (ranked srt yt yp) 0 k).sum (k : K)

/-- `precision` (retrieval.py:45-76, recommender.py:53-84) -/
def precision (t : Task) (srt : Argsort K) (yt yp : Arr K) (k : Option Int) (ratio : Option K)
    (retBatch : Bool) : Except Err (Out K) := do
  let r ← format t yt yp k ratio
  let _ ← checkBinary r.1
  .ok (finish retBatch (List.zipWith (precisionRow srt r.2.2) r.1 r.2.1))

/-- one row of `recall` (retrieval.py:104-109, recommender.py:112-117) -/
def recallRow (srt : Argsort K) (k : Int) (yt yp : List K) : Option K :=
  zeroNan (fdiv (slice (ranked srt yt yp) 0 k).sum yt.sum)

/-- `recall` (retrieval.py:79-113, recommender.py:87-121) -/
def recall (t : Task) (srt : Argsort K) (yt yp : Arr K) (k : Option Int) (ratio : Option K)
    (retBatch : Bool) : Except Err (Out K) := do
  let r ← format t yt yp k ratio
  let _ ← checkBinary r.1
  .ok (finish retBatch (List.zipWith (recallRow srt r.2.2) r.1 r.2.1))

/-- `torch.arange(1, len + 1)[pred_seq > 0]` (retrieval.py:149, 372); `i` is the position of the
head -/
def predIndexFrom (i : Nat) : List K → List Nat
  | [] => []
  | x :: xs => if 0 < x then (i + 1) :: predIndexFrom (i + 1) xs else predIndexFrom (i + 1) xs

/-- `recall_seq / pred_index` with `recall_seq = arange(1, len + 1)` (retrieval.py:150-151, 373-374) -/
def precisionAtHits (seq : List K) : List K :=
  (predIndexFrom 0 seq).zipIdx.map fun p => ((p.2 + 1 : Nat) : K) / (p.1 : K)

/-- running maximum (metrics/retrieval.py:158) -/
def cummaxFrom (m : K) : List K → List K
  | [] => []
  | x :: xs => max m x :: cummaxFrom (max m x) xs

/-- `torch.cummax(res, dim=0)[0]` (metrics/retrieval.py:158) -/
def cummax : List K → List K
  | [] => []
  | x :: xs => x :: cummaxFrom x xs

/-- the `method` argument (metrics/retrieval.py:121, 141) -/
inductive Method
  | legacy | pascalVoc | unknown
  deriving DecidableEq, Repr

/-- `ap` (retrieval.py:116-159).  `k` is computed (lines 143-146) and then not used. -/
def ap (srt : Argsort K) (yt yp : Arr K) (_k : Option Int) (ratio : Option K) (method : Method) :
    Except Err (Option K) :=
  if ratio.any fun q => !decide (0 < q ∧ q ≤ 1) then .error .assertion
  else if method = .unknown then .error .assertion
  else if yt.shape ≠ yp.shape then .error .assertion
  else match yt, yp with
    | .d1 a, .d1 b =>
      let res := precisionAtHits (ranked srt a b)
      let res := if method = .pascalVoc then cummax res.reverse else res
      .ok (fmean (res.map some))
    | _, _ => .error .assertion

/-- `map` (retrieval.py:162-206) -/
def map (srt : Argsort K) (yt yp : Arr K) (k : Option Int) (ratio : Option K) (method : Method)
    (retBatch : Bool) : Except Err (Out K) :=
  if method = .unknown then .error .assertion
  else do
    let r ← formatRet yt yp k ratio
    let res ← collectE (r.1.zip r.2.1) fun p => ap srt (.d1 p.1) (.d1 p.2) (some r.2.2) none method
    .ok (finish retBatch res)

/-- `1 / (torch.nonzero(pred_seq) + 1)` (retrieval.py:291-292); `i` is the position of the head -/
def recipRanksFrom (i : Nat) : List K → List K
  | [] => []
  | x :: xs =>
    if x = 0 then recipRanksFrom (i + 1) xs else 1 / ((i + 1 : Nat) : K) :: recipRanksFrom (i + 1) xs

/-- `rr` (retrieval.py:264-296): the mean over *all* non-zero positions; the ratio is not checked -/
def rr (srt : Argsort K) (yt yp : Arr K) (k : Option Int) (ratio : Option K) : Except Err (Option K) :=
  if yt.shape ≠ yp.shape then .error .assertion
  else match yt, yp with
    | .d1 a, .d1 b =>
      let k := match ratio with
        | some q => ⌈(a.length : K) * q⌉
        | none => clipK a.length k
      .ok (fmean ((recipRanksFrom 0 (slice (ranked srt a b) 0 k)).map some))
    | _, _ => .error .assertion

/-- `mrr` (retrieval.py:299-330) -/
def mrr (srt : Argsort K) (yt yp : Arr K) (k : Option Int) (ratio : Option K) (retBatch : Bool) :
    Except Err (Out K) := do
  let r ← formatRet yt yp k ratio
  let res ← collectE (r.1.zip r.2.1) fun p => rr srt (.d1 p.1) (.d1 p.2) (some r.2.2) none
  .ok (finish retBatch res)

/-- `np.linspace(0, 1, n)`; `ValueError` for a negative number of points
(metrics/retrieval.py:382) -/
def linspace01 (n : Int) : Except Err (List K) :=
  if n < 0 then .error .value
  else .ok ((List.range n.toNat).map fun i : Nat => if n = 1 then 0 else (i : K) / ((n - 1 : Int) : K))

/-- `_pr_curve` (retrieval.py:333-385): precision and recall coordinates.  `k` is computed (lines
366-369) and then not used. -/
def prCurve1 (srt : Argsort K) (a b : List K) (method : Method) (nPoints : Int) :
    Except Err (List K × List K) := do
  let res := precisionAtHits (ranked srt a b)
  let res := if method = .pascalVoc then (cummax res.reverse).reverse else res
  let coor ← linspace01 (K := K) nPoints
  let pr ← collectE coor fun c => pyAt res (truncInt (c * (a.sum - 1)))
  .ok (pr, coor)

/-- column means of equally long rows (`np.mean(rows, axis=0)`); of no rows it is `nan`
(metrics/retrieval.py:446-447) -/
def colMeans (n : Nat) (rows : List (List K)) : Except Err (List K) :=
  if rows = [] then .error .nan
  else .ok ((List.range n).map fun j : Nat => (rows.map fun r => r.getD j 0).sum / (rows.length : K))

/-- `pr_curve` (retrieval.py:388-448).  The mean over no samples, a single `nan` in the code, is
the error value `nan` here. -/
def prCurve (srt : Argsort K) (yt yp : Arr K) (k : Option Int) (ratio : Option K) (method : Method)
    (nPoints : Int) (retBatch : Bool) : Except Err (Out K) :=
  if method = .unknown then .error .assertion
  else do
    let r ← formatRet yt yp k ratio
    let cs ← collectE (r.1.zip r.2.1) fun p => prCurve1 srt p.1 p.2 method nPoints
    if retBatch then .ok (.curves (cs.map Prod.fst) (cs.map Prod.snd))
    else do
      let p ← colMeans nPoints.toNat (cs.map Prod.fst)
      let q ← colMeans nPoints.toNat (cs.map Prod.snd)
      .ok (.curve p q)

/-! ### classification.py -/

/-- `row.argmax()`: the first position of the largest value; of an empty row it raises `IndexError`
(metrics/classification.py:36) -/
def argmax (row : List K) : Except Err Nat :=
  match row.max? with
  | none => .error .index
  | some m => .ok (row.idxOf m)

/-- classification `_format_inputs` (classification.py:25-39).  Labels are integers; class scores
are elements of `K`. -/
inductive Pred (K : Type)
  | labels (ys : List Int)
  | scores (w : Nat) (rows : List (List K))
  | other (shape : List Nat)

/-- the predicted labels (classification.py:32-39); `yt` is one dimensional (`none`: it is not) -/
def formatCls (yt : Option (List Int)) (yp : Pred K) : Except Err (List Int × List Int) :=
  match yt with
  | none => .error .assertion
  | some yt => do
    let ys ← match yp with
      | .labels ys => Except.ok ys
      | .scores w rows =>
        if w = 0 then .error .index
        else (collectE rows argmax).map fun l => l.map fun i : Nat => (i : Int)
      | .other _ => .error .assertion
    if yt.length = ys.length then .ok (yt, ys) else .error .assertion

/-- `accuracy` (classification.py:42-68) -/
def accuracy (yt : Option (List Int)) (yp : Pred K) : Except Err (Option K) := do
  let r ← formatCls yt yp
  .ok (fmean ((List.zipWith (fun a b => if a = b then (1 : K) else 0) r.1 r.2).map some))

/-- the labels `sklearn.metrics.confusion_matrix` uses: the sorted distinct labels of both vectors
(metrics/classification.py:124) -/
def labelSet (a b : List Int) : List Int := ((a ++ b).dedup).insertionSort (· ≤ ·)

/-- `confusion_matrix` (classification.py:100-124).  The work is done by
`sklearn.metrics.confusion_matrix`; its documented result is modelled: entry `(i, j)` counts the
samples whose true label is the `i`-th and whose predicted label is the `j`-th. -/
def confusionMatrix (yt : Option (List Int)) (yp : Pred K) : Except Err (List (List Nat)) := do
  let r ← formatCls yt yp
  let ls := labelSet r.1 r.2
  .ok (ls.map fun a => ls.map fun b => (r.1.zip r.2).count (a, b))

end Generic

/-! ### ndcg, over the reals because of the logarithm -/

/-- `_dcg` (retrieval.py:209-218, recommender.py:124-135) for one row -/
noncomputable def dcg (seq : List ℝ) : ℝ :=
  (seq.zipIdx.map fun p => p.1 / Real.logb 2 ((p.2 : ℝ) + 2)).sum

/-- `torch.sort(y_true, descending=True)[0]` for one row (metrics/retrieval.py:250) -/
noncomputable def sortDesc (yt : List ℝ) : List ℝ := yt.insertionSort (fun a b => b ≤ a)

/-- one row of `ndcg` (retrieval.py:246-257, recommender.py:165-174) -/
noncomputable def ndcgRow (srt : Argsort ℝ) (k : Int) (yt yp : List ℝ) : Option ℝ :=
  zeroNan (fdiv (dcg (slice (ranked srt yt yp) 0 k)) (dcg (slice (sortDesc yt) 0 k)))

/-- `ndcg` (retrieval.py:221-261, recommender.py:138-178) -/
noncomputable def ndcg (t : Task) (srt : Argsort ℝ) (yt yp : Arr ℝ) (k : Option Int) (ratio : Option ℝ)
    (retBatch : Bool) : Except Err (Out ℝ) := do
  let r ← format t yt yp k ratio
  .ok (finish retBatch (List.zipWith (ndcgRow srt r.2.2) r.1 r.2.1))

end Metrics
end DHG
