import Verif.Vis
import Verif.Sparse
import Mathlib.Analysis.SpecialFunctions.Artanh
import Mathlib.Analysis.Complex.ExponentialBounds

/-!
# Model of `dhg/visualization/feature`

Numbers are real numbers and `none` is NaN.  matplotlib is not modelled: a picture is the value
`Scatter`.  scikit-learn's `TSNE` and `PCA` are parameters.
-/

set_option linter.unusedSectionVars false
set_option autoImplicit false

namespace DHG
namespace Vis

/-- `eps` (feature/utils.py:11) -/
noncomputable def ballEps : ℝ := 1 / 10 ^ 5

/-- `min_norm` (feature/utils.py:12) -/
noncomputable def minNorm : ℝ := 1 / 10 ^ 15

/-- `tanh` with `clamp = 15` (feature/utils.py:90-97) -/
noncomputable def tanh15 (x : ℝ) : ℝ := Real.tanh (min (max x (-15)) 15)

/-- `LA.norm(x, axis=-1)`: Euclidean norm of row `i` (feature/utils.py:107, 121) -/
noncomputable def rowNorm (X : Dense ℝ) (i : Nat) : ℝ :=
  Real.sqrt (∑ j ∈ Finset.range X.cols, X.at_ i j * X.at_ i j)

/-- `np.clip(LA.norm(x, axis=-1, keepdims=True), a_min=min_norm, a_max=None)`
(feature/utils.py:107, 121) -/
noncomputable def clipNorm (X : Dense ℝ) (i : Nat) : ℝ := max (rowNorm X i) minNorm

/-- `proj` (feature/utils.py:100-111) -/
noncomputable def proj (X : Dense ℝ) (c : ℝ) : Dense ℝ :=
  { X with at_ := fun i j =>
      if (1 - ballEps) / Real.sqrt c < clipNorm X i
      then X.at_ i j / clipNorm X i * ((1 - ballEps) / Real.sqrt c) else X.at_ i j }

/-- `expmap0` (feature/utils.py:114-123) -/
noncomputable def expmap0 (U : Dense ℝ) (c : ℝ) : Dense ℝ :=
  { U with at_ := fun i j =>
      tanh15 (Real.sqrt c * clipNorm U i) * U.at_ i j / (Real.sqrt c * clipNorm U i) }

/-- `proj_tan0` (feature/utils.py:126-132) -/
def projTan0 (U : Dense ℝ) (_c : ℝ) : Dense ℝ := U

open Classical in
/-- `logmap0` (feature/utils.py:135-144).  `arctanh` is infinite or NaN from 1 on; simplified to an
error for the whole array. -/
noncomputable def logmap0 (P : Dense ℝ) (c : ℝ) : Except Err (Dense ℝ) :=
  if ∀ i < P.rows, Real.sqrt c * clipNorm P i < 1 then
    .ok { P with at_ := fun i j =>
            1 / Real.sqrt c * Real.artanh (Real.sqrt c * clipNorm P i) / clipNorm P i * P.at_ i j }
  else .error .nan

/-- what scikit-learn computes: `TSNE(n_components=dim, init="pca").fit_transform` and
`PCA(n_components=dim).fit_transform` (feature/visualization.py:27-28, 110-111) -/
structure Reducer where
  tsne : Nat → Dense ℝ → Except Err (Dense ℝ)
  pca : Nat → Dense ℝ → Except Err (Dense ℝ)

/-- `embeddings / LA.norm(embeddings, axis=1, keepdims=True)` with a zero column in front
(feature/utils.py:159-161), for rows that are not zero; `o[:, 0:1]` has no column if `embeddings` has none,
and then all rows are zero -/
noncomputable def unitRows (X : Dense ℝ) : Dense ℝ :=
  { rows := X.rows, cols := X.cols + 1
    at_ := fun i j => match j with | 0 => 0 | j + 1 => X.at_ i j / rowNorm X i }

/-- minimum of column `j` (`coor.min(0)`, feature/utils.py:86) -/
noncomputable def colMin (X : Dense ℝ) (j : Nat) : ℝ := minTo (fun i => X.at_ i j) (X.rows - 1)

/-- maximum of column `j` (`coor.max(0)`, feature/utils.py:86) -/
noncomputable def colMax (X : Dense ℝ) (j : Nat) : ℝ := maxTo (fun i => X.at_ i j) (X.rows - 1)

/-- `(emb_low - x_min) / (x_max - x_min)` (feature/utils.py:173-175), for columns that are not constant -/
noncomputable def toUnit (X : Dense ℝ) : Dense ℝ :=
  { X with at_ := fun i j => (X.at_ i j - colMin X j) / (colMax X j - colMin X j) }

/-- `MinMaxScaler(feature_range=(-2, 2)).fit_transform` (feature/utils.py:176-177): scikit-learn divides
by the range of the column, or by 1 if that is 0 -/
noncomputable def minMaxScale (X : Dense ℝ) : Dense ℝ :=
  { X with at_ := fun i j =>
      let r := colMax X j - colMin X j
      let s := (2 - (-2)) / (if r = 0 then 1 else r)
      X.at_ i j * s + (-2 - colMin X j * s) }

open Classical in
/-- `project_to_poincare_ball` (feature/utils.py:147-182), curvature `c = 2.0`.

A zero row becomes NaN, which both scikit-learn estimators refuse with `ValueError`.  A constant column of
the reduced array becomes NaN by the division `0 / 0`; the scaler lets NaN pass, the norms of all rows are
then NaN, and so is every entry of the result. -/
noncomputable def projectToPoincareBall (R : Reducer) (X : Dense ℝ) (dim : Int) (method : String) :
    Except Err (Dense (Option ℝ)) := do
  let _ ← need (dim = 2 ∨ dim = 3) Err.assertion
  let _ ← need (method = "pca" ∨ method = "tsne") Err.assertion
  let _ ← need (∀ i < X.rows, rowNorm X i ≠ 0) Err.value
  let H := proj (expmap0 (projTan0 (unitRows X) 2) 2) 2
  let T ← logmap0 H 2
  let L ← if method = "tsne" then R.tsne dim.toNat T else R.pca dim.toNat T
  if L.rows = 0 then .error .value
  else if ∃ j < L.cols, colMax L j - colMin L j = 0 then
    .ok { rows := L.rows, cols := L.cols, at_ := fun _ _ => none }
  else
    let P := proj (expmap0 (minMaxScale (toUnit L)) 2) 2
    .ok { rows := P.rows, cols := P.cols, at_ := fun i j => some (P.at_ i j) }

/-- the colours of a scatter plot: matplotlib's default, one name, or one number per point
(feature/utils.py:29-32, 52-55, 73-76) -/
inductive Colors where
  | default
  | name (s : String)
  | labels (l : List ℝ)

/-- a scatter plot in `dim` dimensions: the coordinates of point `i` are row `i`
(feature/utils.py:53-55, 74-76) -/
structure Scatter where
  dim : Nat
  points : Dense (Option ℝ)
  colors : Colors

/-- `normalize` (feature/utils.py:85-86): every column by itself.  An array without rows has no minimum.
`min` and `max` of a column with NaN are NaN. -/
noncomputable def normalize (X : Dense (Option ℝ)) : Except Err (Dense (Option ℝ)) :=
  if X.rows = 0 then .error .value
  else .ok { rows := X.rows, cols := X.cols, at_ := fun i j =>
    if ∀ k < X.rows, (X.at_ k j).isSome then rescale X.rows (fun k => (X.at_ k j).getD 0) i else none }

/-- `plot_2d_embedding`, `plot_3d_embedding` (feature/utils.py:42-81).  Selecting a missing column
raises. -/
noncomputable def plotEmbedding (d : Nat) (X : Dense (Option ℝ)) (label : Option (List ℝ)) :
    Except Err Scatter := do
  let Y ← normalize X
  let _ ← need (d ≤ Y.cols) Err.index
  pure { dim := d, points := { Y with cols := d }
         colors := match label with | none => .default | some l => .labels l }

/-- an array without NaN (the argument of `normalize`, feature/utils.py:85-86) -/
def someD (X : Dense ℝ) : Dense (Option ℝ) := { X with at_ := fun i j => some (X.at_ i j) }

/-- `draw_in_euclidean_space` (feature/visualization.py:15-34) -/
noncomputable def drawInEuclideanSpace (R : Reducer) (X : Dense ℝ) (label : Option (List ℝ)) (dim : Int) :
    Except Err Scatter := do
  let _ ← need (dim = 2 ∨ dim = 3) Err.assertion
  let L ← R.tsne dim.toNat X
  plotEmbedding dim.toNat (someD L) label

/-- `draw_in_poincare_ball` (feature/visualization.py:37-59) -/
noncomputable def drawInPoincareBall (R : Reducer) (X : Dense ℝ) (label : Option (List ℝ)) (dim : Int)
    (method : String) : Except Err Scatter := do
  let P ← projectToPoincareBall R X dim method
  plotEmbedding dim.toNat P label

/-- `make_animation` (feature/utils.py:15-39): the points shown in every frame -/
noncomputable def makeAnimation (X : Dense (Option ℝ)) (colors : Colors) : Except Err Scatter := do
  let Y ← normalize X
  let _ ← need (3 ≤ Y.cols) Err.index
  pure { dim := 3, points := { Y with cols := 3 }, colors := colors }

/-- `label if label is not None else "r"` (feature/visualization.py:85, 112) -/
def animColors : Option (List ℝ) → Colors
  | none => .name "r"
  | some l => .labels l

/-- `animation_of_3d_poincare_ball` (feature/visualization.py:62-86) -/
noncomputable def animationPoincare (R : Reducer) (X : Dense ℝ) (label : Option (List ℝ)) (method : String) :
    Except Err Scatter := do
  let P ← projectToPoincareBall R X 3 method
  makeAnimation P (animColors label)

/-- `animation_of_3d_euclidean_space` (feature/visualization.py:89-113) -/
noncomputable def animationEuclidean (R : Reducer) (X : Dense ℝ) (label : Option (List ℝ)) :
    Except Err Scatter := do
  let L ← R.tsne 3 X
  makeAnimation (someD L) (animColors label)

end Vis
end DHG
