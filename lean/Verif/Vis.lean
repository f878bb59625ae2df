import Verif.PyOn
import Mathlib.Analysis.SpecialFunctions.Trigonometric.Arctan
import Mathlib.Analysis.SpecialFunctions.Trigonometric.Inverse
import Mathlib.Analysis.SpecialFunctions.Pow.Real

/-!
# Model of `dhg/visualization/structure`

Numbers are real numbers.  matplotlib is not modelled: what is drawn is returned as a value of type
`Picture`.  Random draws and `scipy.spatial.ConvexHull` are parameters.
-/

set_option linter.unusedSectionVars false
set_option autoImplicit false

namespace DHG
namespace Vis

/-! ### defaults.py -/

/-- colours as Python values: a name, a tuple of numbers, a list, or a single number
(the colour arguments of defaults.py:6-61, 194-205) -/
inductive Col where
  | name (s : String)
  | tup (xs : List ℝ)
  | lst (xs : List Col)
  | num (x : ℝ)

/-- `fill_color` (defaults.py:194-205); `none` is `None` -/
def fillColor (custom : Option Col) (dflt : Col) (length : Nat) : Except Err (List Col) :=
  match custom with
  | none => .ok (List.replicate length dflt)
  | some (.lst []) => .error .index
  | some (.lst (.num x :: cs)) => .ok (List.replicate length (.lst (.num x :: cs)))
  | some (.lst (c :: cs)) => .ok (c :: cs)
  | some (.name s) => .ok (List.replicate length (.name s))
  | some (.tup _) => .error .value
  | some (.num _) => .error .value

/-- size arguments as Python values (the size arguments of defaults.py:64-114, 208-219) -/
inductive SizeArg where
  | none
  | list (xs : List ℝ)
  | float (x : ℝ)
  | int (z : Int)
  | other

/-- `fill_sizes` (defaults.py:208-219) -/
noncomputable def fillSizes (custom : SizeArg) (dflt : ℝ) (length : Nat) : Except Err (List ℝ) :=
  match custom with
  | .none => .ok (List.replicate length dflt)
  | .list xs => if xs.length = length then .ok (xs.map fun s => dflt * s) else .error .assertion
  | .float x => .ok (List.replicate length (dflt * x))
  | .int z => .ok (List.replicate length (dflt * (z : ℝ)))
  | .other => .error .value

/-- `fill_strength` (defaults.py:222-225) -/
noncomputable def fillStrength (custom : Option ℝ) (dflt : ℝ) : ℝ :=
  match custom with
  | none => dflt
  | some x => x * dflt

/-- the default vertex size of `default_size` (defaults.py:72) -/
noncomputable def dfltVSize (n : Nat) : ℝ := 1 / Real.sqrt ((n : ℝ) + 10) * (1 / 10)

/-- the default vertex line width (defaults.py:73) -/
noncomputable def dfltVLine (n : Nat) : ℝ := Real.exp (-(n : ℝ) / 50)

/-- the default edge line width (defaults.py:74) -/
noncomputable def dfltELine (m : Nat) : ℝ := Real.exp (-(m : ℝ) / 120)

/-- the default font size (defaults.py:75) -/
noncomputable def dfltFont (n : Nat) : ℝ := 20 * Real.exp (-(n : ℝ) / 100)

/-- sizes of vertices, their lines, the lines of edges, and the font size (defaults.py:64-82) -/
structure Sizes where
  v : List ℝ
  vLine : List ℝ
  eLine : List ℝ
  font : ℝ

/-- `default_size` (defaults.py:64-82) -/
noncomputable def defaultSize (n m : Nat) (vSize vLine eLine : SizeArg) (font : Option ℝ) : Except Err Sizes := do
  let v ← fillSizes vSize (dfltVSize n) n
  let vl ← fillSizes vLine (dfltVLine n) n
  let el ← fillSizes eLine (dfltELine m) m
  pure { v := v, vLine := vl, eLine := el
         font := match font with | none => dfltFont n | some x => x * dfltFont n }

/-- fails with `e` unless `c` (no counterpart in the code; the checks made with it are at the places cited
by the functions that use it) -/
def need (c : Prop) [Decidable c] (e : Err) : Except Err Unit := if c then .ok () else .error e

/-! ### utils.py, layout.py and simulator.py -/

/-- points of the plane (the coordinates of layout.py:9-31 and simulator.py) -/
abbrev Pt := ℝ × ℝ

/-- `np.linalg.norm` of a vector of the plane
(e.g. simulator.py:124, visualization/structure/utils.py:40-50) -/
noncomputable def norm2 (p : Pt) : ℝ := Real.sqrt (p.1 * p.1 + p.2 * p.2)

/-- entry `(i, e)` of the matrix made by `edge_list_to_incidence_matrix` (utils.py:113-119); numpy counts
negative indices from the end -/
def incAt (numV : Nat) (eList : List (List Int)) (i e : Nat) : Bool :=
  match eList[e]? with
  | none => false
  | some vs => vs.any fun v => v = (i : Int) ∨ v + numV = (i : Int)

/-- `edge_list_to_incidence_matrix` (utils.py:113-119) -/
def incidence (numV : Nat) (eList : List (List Int)) : Except Err (Nat → Nat → Bool) :=
  if eList.all fun vs => vs.all fun v => -(numV : Int) ≤ v ∧ v < numV then .ok (incAt numV eList)
  else .error .index

/-- `init_pos` (utils.py:24-25); `u` are the draws of `np.random.rand`, in `[0, 1)` -/
noncomputable def initPos (u : Nat → Pt) (center : Pt) (scale : ℝ) (i : Nat) : Pt :=
  (((u i).1 * 2 - 1) * scale + center.1, ((u i).2 * 2 - 1) * scale + center.2)

/-- `Simulator.__init__` (simulator.py:16-32): strengths (`None` if the force is switched off), one
repulsion and gravity per centre -/
structure Sim where
  nums : Nat
  attraction : Option ℝ
  repulsion : Option (List ℝ)
  edgeRepulsion : Option ℝ
  gravity : Option (List ℝ)
  centers : List Pt

/-- `e_center[e]` of `Simulator._step` (simulator.py:55) for `n` vertices -/
noncomputable def eCenter (n : Nat) (H : Nat → Nat → Bool) (pos : Nat → Pt) (e : Nat) : Pt :=
  ((∑ i ∈ Finset.range n, (if H i e then 1 else 0) * (pos i).1) / ∑ i ∈ Finset.range n, if H i e then 1 else 0,
   (∑ i ∈ Finset.range n, (if H i e then 1 else 0) * (pos i).2) / ∑ i ∈ Finset.range n, if H i e then 1 else 0)

/-- one entry of `safe_div` (utils.py:14-21); `jit` is the random value used for a zero divisor -/
noncomputable def safeDiv (a : Pt) (b : ℝ) (jit : Pt) : Pt := if b = 0 then jit else (a.1 / b, a.2 / b)

/-- `_node_attraction` (simulator.py:99-112) -/
noncomputable def nodeAttraction (n m : Nat) (H : Nat → Nat → Bool) (pos : Nat → Pt) (jit : Nat → Nat → Pt)
    (i : Nat) : Pt :=
  ∑ e ∈ Finset.range m,
    let d := if H i e then norm2 (pos i - eCenter n H pos e) else 0
    (if 0 < d then d - 1 / 10 else d) •
      safeDiv (eCenter n H pos e - pos i) (norm2 (eCenter n H pos e - pos i)) (jit i e)

/-- `_node_repulsion` and the loop of `_edge_repulsion` (simulator.py:114-150), for `n` points.  Simplified:
if two of the points coincide numpy goes on with an infinite force; here the call fails. -/
noncomputable def repulsion (n : Nat) (pos : Nat → Pt) : Except Err (Nat → Pt) := open Classical in
  if ∃ i < n, ∃ j < n, i ≠ j ∧ pos i = pos j then .error .nan
  else .ok fun i => ∑ j ∈ (Finset.range n).erase i,
    (1 / (norm2 (pos i - pos j) ^ 2)) • ((1 / norm2 (pos i - pos j)) • (pos i - pos j))

/-- `_center_gravity` (simulator.py:152-164) -/
noncomputable def centerGravity (pos : Nat → Pt) (center : Pt) (jit : Nat → Pt) (i : Nat) : Pt :=
  norm2 (pos i - center) • safeDiv (center - pos i) (norm2 (center - pos i)) (jit i)

/-- `np.clip(x, -0.1, 0.1)` (simulator.py:93) -/
noncomputable def clip (x : ℝ) : ℝ := min (max x (-(1 / 10))) (1 / 10)

/-- the random values used in one step (`safe_div`, visualization/structure/utils.py:14-21) -/
structure Jitter where
  attraction : Nat → Nat → Pt
  gravity : Nat → Nat → Pt

/-- strength with which vertex `i` repels: the first strength for the first `nums` vertices, the second one
for the others, if there are several centres (simulator.py:66-76) -/
noncomputable def repFactor (s : Sim) (ks : List ℝ) (i : Nat) : ℝ :=
  if s.centers.length = 1 then ks.getD 0 0 else if i < s.nums then ks.getD 0 0 else ks.getD 1 0

/-- the sum over the centres of the gravity (simulator.py:81-89); the `c`-th mask selects the vertices before
or after `nums` -/
noncomputable def gravityAt (s : Sim) (gs : List ℝ) (jit : Nat → Nat → Pt) (pos : Nat → Pt) (i : Nat) : Pt :=
  ∑ c ∈ Finset.range (min (min s.centers.length gs.length) 2),
    (gs.getD c 0 * (if (c = 0) = (i < s.nums) then 1 else 0)) •
      centerGravity pos (s.centers.getD c 0) (jit c) i

/-- the force on each vertex before damping (simulator.py:54-89) -/
noncomputable def force (s : Sim) (n m : Nat) (H : Nat → Nat → Bool) (jit : Jitter) (pos : Nat → Pt) :
    Except Err (Nat → Pt) := do
  -- an edge without vertices makes `e_center` NaN, which `euclidean_distances` refuses
  let _ ← need (∀ e < m, ∃ i < n, H i e) Err.value
  let fa : Nat → Pt := match s.attraction with
    | none => fun _ => 0
    | some k => fun i => k • nodeAttraction n m H pos jit.attraction i
  let fr ← match s.repulsion with
    | none => Except.ok fun (_ : Nat) => (0 : Pt)
    | some ks => do
      let f ← repulsion n pos
      pure fun (i : Nat) => repFactor s ks i • f i
  let fe ← match s.edgeRepulsion with
    | none => Except.ok fun (_ : Nat) => (0 : Pt)
    | some k => do
      let f ← repulsion m (eCenter n H pos)
      pure fun (i : Nat) => k • ∑ e ∈ Finset.range m, if H i e then f e else 0
  let fg : Nat → Pt := match s.gravity with
    | none => fun _ => 0
    | some gs => gravityAt s gs jit.gravity pos
  pure fun i => fa i + fr i + fe i + fg i

/-- `Simulator._step` (simulator.py:50-97) with `dt = 2`: the new positions and the clipped forces -/
noncomputable def step (s : Sim) (n m : Nat) (H : Nat → Nat → Bool) (jit : Jitter) (damping : ℝ) (pos : Nat → Pt) :
    Except Err ((Nat → Pt) × (Nat → Pt)) := do
  let f ← force s n m H jit pos
  let v : Nat → Pt := fun i => (clip ((f i).1 * damping), clip ((f i).2 * damping))
  pure (fun i => ((pos i).1 + (v i).1 * 2, (pos i).2 + (v i).2 * 2), v)

/-- the loop of `Simulator.simulate` (simulator.py:34-48) with `iters` turns left -/
noncomputable def simLoop (s : Sim) (n m : Nat) (H : Nat → Nat → Bool) (jit : Nat → Jitter) :
    Nat → Nat → ℝ → (Nat → Pt) → Except Err (Nat → Pt)
  | 0, _, _, pos => .ok pos
  | iters + 1, it, damping, pos => do
    let (pos', v) ← step s n m H (jit it) damping pos
    if Real.sqrt (∑ i ∈ Finset.range n, ((v i).1 * (v i).1 + (v i).2 * (v i).2)) < 1 / 1000 then .ok pos'
    else simLoop s n m H jit iters (it + 1) (damping * (999 / 1000)) pos'

/-- `Simulator.simulate` with `max_iter = 400` (simulator.py:34-48) -/
noncomputable def simulate (s : Sim) (n m : Nat) (H : Nat → Nat → Bool) (jit : Nat → Jitter) (pos : Nat → Pt) :
    Except Err (Nat → Pt) := simLoop s n m H jit 400 0 1 pos

/-- minimum of `f 0, ..., f n` (`v_coor.min(0)`, layout.py:31) -/
noncomputable def minTo (f : Nat → ℝ) : Nat → ℝ
  | 0 => f 0
  | n + 1 => min (minTo f n) (f (n + 1))

/-- maximum of `f 0, ..., f n` (`v_coor.max(0)`, layout.py:31) -/
noncomputable def maxTo (f : Nat → ℝ) : Nat → ℝ
  | 0 => f 0
  | n + 1 => max (maxTo f n) (f (n + 1))

/-- `(x - x.min(0)) / (x.max(0) - x.min(0)) * 0.8 + 0.1` (layout.py:31, 62) for one column of `n` numbers;
`none` is NaN -/
noncomputable def rescale (n : Nat) (x : Nat → ℝ) (i : Nat) : Option ℝ :=
  if maxTo x (n - 1) - minTo x (n - 1) = 0 then none
  else some ((x i - minTo x (n - 1)) / (maxTo x (n - 1) - minTo x (n - 1)) * (8 / 10) + 1 / 10)

/-- positions that may be NaN (the result of the division in layout.py:31) -/
abbrev NPt := Option ℝ × Option ℝ

/-- the random numbers of one layout (visualization/structure/utils.py:20, 25) -/
structure Rand where
  init : Nat → Pt
  jit : Nat → Jitter

/-- `force_layout` (layout.py:9-32).  An empty array has no maximum. -/
noncomputable def forceLayout (R : Rand) (numV : Nat) (eList : List (List Int)) (pushV : ℝ) (pushE : Option ℝ)
    (pullE pullC : ℝ) : Except Err (Nat → NPt) := do
  let _ ← need (¬ (numV = 0)) Err.value
  let H ← incidence numV eList
  let p ← simulate { nums := numV, attraction := some pullE, repulsion := some [pushV], edgeRepulsion := pushE
                     gravity := some [pullC], centers := [(0, 0)] } numV eList.length H R.jit
            (initPos R.init (0, 0) 5)
  pure fun i => (rescale numV (fun i => (p i).1) i, rescale numV (fun i => (p i).2) i)

/-- `bipartite_force_layout` (layout.py:35-63) -/
noncomputable def bipartiteForceLayout (R : Rand) (numU numV : Nat) (eList : List (List Int))
    (pushU pushV : ℝ) (pushE : Option ℝ) (pullE pullU pullV : ℝ) :
    Except Err ((Nat → NPt) × (Nat → NPt)) := do
  let _ ← need (¬ (numU + numV = 0)) Err.value
  let H ← incidence (numV + numU) eList
  let p ← simulate { nums := numU, attraction := some pullE, repulsion := some [pushU, pushV]
                     edgeRepulsion := pushE, gravity := some [pullU, pullV], centers := [(5, 0), (-5, 0)] }
            (numU + numV) eList.length H R.jit
            (fun i => if i < numU then initPos R.init (5, 0) (9 / 2) i else initPos R.init (-5, 0) (9 / 2) i)
  let q : Nat → NPt := fun i =>
    (rescale (numU + numV) (fun i => (p i).1) i, rescale (numU + numV) (fun i => (p i).2) i)
  pure (q, fun i => q (numU + i))

/-! ### geometry.py -/

/-- `radian_from_atan` (geometry.py:6-19) -/
noncomputable def radianFromAtan (x y : ℝ) : ℝ :=
  if x = 0 then (if 0 < y then Real.pi / 2 else 3 * Real.pi / 2)
  else if y = 0 then (if 0 < x then 0 else Real.pi)
  else if 0 < x ∧ 0 < y then Real.arctan (y / x)
  else if 0 < x ∧ y < 0 then Real.arctan (y / x) + 2 * Real.pi
  else if x < 0 ∧ 0 < y then Real.arctan (y / x) + Real.pi
  else Real.arctan (y / x) + Real.pi

/-- `common_tangent_radian` (geometry.py:26-29); `math.acos` refuses numbers outside `[-1, 1]` -/
noncomputable def commonTangentRadian (r1 r2 d : ℝ) : Except Err ℝ :=
  if d = 0 then (if r2 - r1 = 0 then .error .nan else .error .value)
  else if |r2 - r1| / d > 1 ∨ |r2 - r1| / d < -1 then .error .value
  else
    let alpha := Real.arccos (|r2 - r1| / d)
    .ok (if r1 > r2 then alpha else Real.pi - alpha)

/-- `polar_position` (geometry.py:32-35) -/
noncomputable def polarPosition (r theta : ℝ) (start : Pt) : Pt :=
  (r * Real.cos theta + start.1, r * Real.sin theta + start.2)

/-- `rad_2_deg` (geometry.py:37-38) -/
noncomputable def rad2deg (rad : ℝ) : ℝ := rad * 180 / Real.pi

/-! ### hyperedge outlines -/

/-- an arc: centre, two angles in degrees, radius (visualization/structure/utils.py:64-110) -/
structure Arc where
  center : Pt
  theta1 : ℝ
  theta2 : ℝ
  radius : ℝ

/-- the outline of one hyperedge (visualization/structure/utils.py:64-110) -/
structure Outline where
  lines : List (Pt × Pt)
  arcs : List Arc

/-- the line around the edge of the hull from vertex `i1` to vertex `i2`, and its angle
(utils.py:194-216) -/
noncomputable def hullLine (pos : Nat → Pt) (rad : Nat → ℝ) (i1 i2 : Nat) : Except Err ((Pt × Pt) × ℝ) := do
  let dp := pos i2 - pos i1
  let beta := radianFromAtan dp.1 dp.2
  let alpha ← commonTangentRadian (rad i1) (rad i2) (norm2 dp)
  let theta := beta - alpha
  pure ((polarPosition (rad i1) theta (pos i1), polarPosition (rad i2) theta (pos i2)), theta)

/-- the outline through the vertices `vs` in this order (utils.py:188-227) -/
noncomputable def hullOutline (pos : Nat → Pt) (rad : Nat → ℝ) (vs : List Nat) : Except Err Outline := do
  let ls ← collectE (vs.zip (vs.rotate 1)) fun p => hullLine pos rad p.1 p.2
  let thetas := ls.map Prod.snd
  pure { lines := ls.map Prod.fst
         arcs := vs.zipWith (fun (v : Nat) (t : ℝ × ℝ) => ⟨pos v, rad2deg t.1, rad2deg t.2, rad v⟩)
           ((thetas.rotate (thetas.length - 1)).zip thetas) }

/-- the outline of one hyperedge (utils.py:167-227); `hull` stands for `ConvexHull(points).vertices` -/
noncomputable def edgeOutline (hull : List Pt → Except Err (List Nat)) (pos : Nat → Pt) (rad : Nat → ℝ)
    (edge : List Nat) : Except Err Outline :=
  match edge with
  | [v] => .ok { lines := [], arcs := [⟨pos v, 0, 360, rad v⟩] }
  | [v, w] => hullOutline pos rad [v, w]
  | _ => do
    let idx ← hull (edge.map pos)
    hullOutline pos rad (idx.map fun k => edge.getD k 0)

/-- the loop of `hull_layout` (utils.py:165-236) over the hyperedges in the order `order` -/
noncomputable def hullLoop (hull : List Pt → Except Err (List Nat)) (pos : Nat → Pt) (inc : Nat → ℝ)
    (eList : List (List Nat)) : List Nat → (Nat → ℝ) → Except Err (List (Nat × Outline))
  | [], _ => .ok []
  | e :: es, rad => do
    let o ← edgeOutline hull pos rad (eList.getD e [])
    let os ← hullLoop hull pos inc eList es fun v => if v ∈ eList.getD e [] then rad v + inc v else rad v
    pure ((e, o) :: os)

/-- `hull_layout` (utils.py:151-238): the outlines with the indices of their hyperedges.  `order` is
what `np.argsort` makes of the sizes of the hyperedges. -/
noncomputable def hullLayout (hull : List Pt → Except Err (List Nat)) (order : List Nat) (eList : List (List Nat))
    (pos : Nat → Pt) (vSize : Nat → ℝ) : Except Err (List (Nat × Outline)) :=
  hullLoop hull pos (fun v => vSize v * (3 / 10)) eList order fun v => vSize v + vSize v * (3 / 10)

/-! ### drawing -/

/-- an arrow: start, displacement, width of the head, colour and line width
(visualization/structure/utils.py:28-61) -/
structure Arrow where
  start : Pt
  delta : Pt
  head : ℝ
  color : Col
  width : ℝ

/-- a vertex: centre, radius and line width (visualization/structure/utils.py:122-148).  Simplified: the line
width is what the code stores in the attribute `lineWidth` of the circle, whatever matplotlib makes of it. -/
structure Disc where
  center : Pt
  radius : ℝ
  width : ℝ

/-- a label: position, text and font size (visualization/structure/utils.py:122-148) -/
structure Label where
  at_ : Pt
  text : String
  font : ℝ

/-- one turn of the loop of `draw_line_edge` (utils.py:39-61).  Simplified: between coinciding vertices
matplotlib gets NaN; here the call fails. -/
noncomputable def lineEdge (pos : Nat → Pt) (vSize : List ℝ) (showArrow : Bool) (eColor : List Col) (eLine : List ℝ)
    (k : Nat) (a b : Nat) : Except Err Arrow := do
  let s ← (vSize[a]?).elim (.error .index) .ok
  let t ← (vSize[b]?).elim (.error .index) .ok
  let w ← (eLine[k]?).elim (.error .index) .ok
  let c ← (eColor[k]?).elim (.error .index) .ok
  let dir := pos b - pos a
  if norm2 dir = 0 then .error .nan
  else
    let u := (1 / norm2 dir) • dir
    let p := pos a + s • u
    let q := pos b - t • u
    .ok { start := p, delta := q - p, head := if showArrow then 15 / 1000 * w else 0, color := c, width := w }

/-- `draw_line_edge` (utils.py:28-61) -/
noncomputable def drawLineEdge (pos : Nat → Pt) (vSize : List ℝ) (eList : List (Nat × Nat)) (showArrow : Bool)
    (eColor : List Col) (eLine : List ℝ) : Except Err (List Arrow) :=
  collectE eList.zipIdx fun e => lineEdge pos vSize showArrow eColor eLine e.2 e.1.1 e.1.2

/-- the discs and labels of `draw_vertex` (utils.py:122-148) -/
noncomputable def drawVertex (n : Nat) (pos : Nat → Pt) (label : Option (List String)) (font : ℝ) (vSize vLine : List ℝ) :
    List Disc × List Label :=
  let labels := label.getD (List.replicate n "")
  let rows := (((List.range n).map pos).zip labels).zip (vSize.zip vLine)
  (rows.map fun r => ⟨r.1.1, r.2.1, r.2.2⟩,
   (rows.filter fun r => r.1.2 ≠ "").map fun r => ⟨(r.1.1.1 + 0, r.1.1.2 + -(13 / 10) * r.2.1), r.1.2, font⟩)

/-- what `draw_graph` draws with lines (draw.py:59-89) -/
structure Picture where
  arrows : List Arrow
  discs : List Disc
  faces : List Col
  labels : List Label

/-- the options of `draw_graph`, `draw_digraph` (which has no `e_fill_color`) and `draw_hypergraph`
(draw.py:23-39, 92-107, 272-288) -/
structure DrawArgs where
  label : Option (List String) := none
  vSize : SizeArg := .float 1
  vColor : Option Col := some (.name "r")
  vLine : SizeArg := .float 1
  eColor : Option Col := some (.name "gray")
  eLine : SizeArg := .float 1
  font : Option ℝ := some 1
  pushV : Option ℝ := some 1
  pushE : Option ℝ := some 1
  pullE : Option ℝ := some 1
  pullC : Option ℝ := some 1
  eFill : Option Col := some (.name "whitesmoke")

/-- positions without NaN; simplified: matplotlib leaves out what has a NaN position
(draw.py:78-89) -/
noncomputable def solid (n : Nat) (q : Nat → NPt) : Except Err (Nat → Pt) :=
  if ∀ i < n, (q i).1.isSome ∧ (q i).2.isSome then .ok fun i => ((q i).1.getD 0, (q i).2.getD 0)
  else .error .nan

/-- the part of `draw_graph` and `draw_digraph` after the reads of the structure, for the edge style `line`
(draw.py:59-89, 126-154); `arrow` for directed graphs -/
noncomputable def drawLines (R : Rand) (arrow : Bool) (A : DrawArgs) (numV numE : Nat) (eList : List (Nat × Nat)) :
    Except Err Picture := do
  let _ ← need (numE > 0) Err.assertion
  let vc ← fillColor A.vColor (.name "r") numV
  let ec ← fillColor A.eColor (.name "gray") numE
  -- `font_size` is not passed on, so `default_size` uses its own default 1.0; `push_e_strength` is computed,
  -- but `force_layout` gets `None`
  let z ← defaultSize numV eList.length A.vSize A.vLine A.eLine (some 1)
  let q ← forceLayout R numV (eList.map fun e => [(e.1 : Int), (e.2 : Int)]) (fillStrength A.pushV (6 / 1000)) none
    (fillStrength A.pullE (45 / 1000)) (fillStrength A.pullC (1 / 100))
  let pos ← solid numV q
  let arrows ← drawLineEdge pos z.v eList arrow ec z.eLine
  let (discs, labels) := drawVertex numV pos A.label z.font z.v z.vLine
  pure { arrows := arrows, discs := discs, faces := vc, labels := labels }

/-- `default_bipartite_size` (defaults.py:85-114): sizes for `U`, for `V` and for the edges.  Simplified: the
case of an empty side, where `num_u / num_v` divides by zero, is an error of its own here. -/
noncomputable def defaultBipartiteSize (numU numV m : Nat) (uSize uLine vSize vLine eLine : SizeArg)
    (uFont vFont : Option ℝ) : Except Err (Sizes × Sizes) := do
  let dSize : Nat → ℝ := fun n => 1 / Real.sqrt ((n : ℝ) + 12) * (8 / 100)
  let dFont : Nat → Nat → ℝ := fun a b =>
    12 * Real.exp (-((a : ℝ) / (b : ℝ)) ^ (3 / 10 : ℝ) * ((numU : ℝ) + (numV : ℝ)) / 100)
  let _ ← need (¬ (numU = 0 ∨ numV = 0)) Err.zeroDiv
  let us ← fillSizes uSize (dSize numU) numU
  let ul ← fillSizes uLine (dfltVLine numU) numU
  let vs ← fillSizes vSize (dSize numV) numV
  let vl ← fillSizes vLine (dfltVLine numV) numV
  let el ← fillSizes eLine (Real.exp (-(m : ℝ) / 50)) m
  pure ({ v := us, vLine := ul, eLine := el, font := uFont.elim (dFont numU numV) fun x => x * dFont numU numV },
        { v := vs, vLine := vl, eLine := el, font := vFont.elim (dFont numV numU) fun x => x * dFont numV numU })

/-- the options of `draw_bigraph` (draw.py:157-182) -/
structure BiDrawArgs where
  uLabel : Option (List String) := none
  uSize : SizeArg := .float 1
  uColor : Option Col := some (.name "m")
  uLine : SizeArg := .float 1
  vLabel : Option (List String) := none
  vSize : SizeArg := .float 1
  vColor : Option Col := some (.name "r")
  vLine : SizeArg := .float 1
  eColor : Option Col := some (.name "gray")
  eLine : SizeArg := .float 1
  uFont : Option ℝ := some 1
  vFont : Option ℝ := some 1
  pushU : Option ℝ := some 1
  pushV : Option ℝ := some 1
  pushE : Option ℝ := some 1
  pullE : Option ℝ := some 1
  pullU : Option ℝ := some 1
  pullV : Option ℝ := some 1

/-- `draw_bigraph` after the reads of the structure (draw.py:208-269) -/
noncomputable def drawBigraph (R : Rand) (A : BiDrawArgs) (numU numV : Nat) (eList : List (Nat × Nat)) :
    Except Err Picture := do
  let _ ← need (eList.length > 0) Err.assertion
  let uc ← fillColor A.uColor (.name "m") numU
  let vc ← fillColor A.vColor (.name "r") numV
  let ec ← fillColor A.eColor (.name "gray") eList.length
  let (zu, zv) ← defaultBipartiteSize numU numV eList.length A.uSize A.uLine A.vSize A.vLine A.eLine A.uFont A.vFont
  let (qu, qv) ← bipartiteForceLayout R numU numV (eList.map fun e => [(e.1 : Int), (e.2 : Int)])
    (fillStrength A.pushU (5 / 1000)) (fillStrength A.pushV (5 / 1000)) none (fillStrength A.pullE (3 / 100))
    (fillStrength A.pullU (4 / 100)) (fillStrength A.pullV (4 / 100))
  let pos ← solid (numU + numV) fun i => if i < numU then qu i else qv (i - numU)
  let arrows ← drawLineEdge pos (zu.v ++ zv.v) (eList.map fun e => (e.1, e.2 + numU)) false ec zu.eLine
  let labels := match A.uLabel, A.vLabel with
    | some a, some b => some (a ++ b)
    | _, _ => none
  let (discs, labels) := drawVertex (numU + numV) pos labels (zu.font + zv.font) (zu.v ++ zv.v) (zu.vLine ++ zv.vLine)
  pure { arrows := arrows, discs := discs, faces := uc ++ vc, labels := labels }

/-- line width and colours of a patch (utils.py:90, 106-108) -/
structure Style where
  width : ℝ
  fill : Col
  color : Col

/-- `e_line_width[eidx]`, `e_fill_color[eidx]`, `e_color[eidx]` (utils.py:90, 106-108) -/
def styleAt (eColor eFill : List Col) (eLine : List ℝ) (k : Nat) : Except Err Style := do
  let w ← (eLine[k]?).elim (.error .index) .ok
  let f ← (eFill[k]?).elim (.error .index) .ok
  let c ← (eColor[k]?).elim (.error .index) .ok
  pure { width := w, fill := f, color := c }

/-- the patches added by `draw_circle_edge` (utils.py:64-110): the lines of a hyperedge as one path, and
single arcs -/
structure Patches where
  paths : List (List (Pt × Pt) × Style)
  arcs : List (Arc × Style)

/-- `draw_circle_edge` (utils.py:64-110).  The paths of a hyperedge that `hull_layout` has not visited would be
`None`, over which the loops cannot run. -/
noncomputable def drawCircleEdge (hull : List Pt → Except Err (List Nat)) (order : List Nat) (pos : Nat → Pt)
    (vSize : List ℝ) (eList : List (List Nat)) (eColor eFill : List Col) (eLine : List ℝ) : Except Err Patches := do
  let os ← hullLayout hull order eList pos fun v => vSize.getD v 0
  let paths ← collectE (List.range eList.length) fun k => do
    let o ← (os.lookup k).elim (.error .type) .ok
    if o.lines.isEmpty then .ok [] else (styleAt eColor eFill eLine k).map fun s => [(o.lines, s)]
  let arcs ← collectE (List.range eList.length) fun k => do
    let o ← (os.lookup k).elim (.error .type) .ok
    collectE o.arcs fun a => (styleAt eColor eFill eLine k).map fun s => (a, s)
  pure { paths := paths.flatten, arcs := arcs.flatten }

/-- `draw_graph` after the reads of the structure, for the edge style `circle` (draw.py:59-89) -/
noncomputable def drawCircles (R : Rand) (hull : List Pt → Except Err (List Nat)) (order : List Nat) (A : DrawArgs)
    (numV numE : Nat) (eList : List (Nat × Nat)) : Except Err (Picture × Patches) := do
  let _ ← need (numE > 0) Err.assertion
  let vc ← fillColor A.vColor (.name "r") numV
  let ec ← fillColor A.eColor (.name "gray") numE
  let fc ← fillColor A.eFill (.name "whitesmoke") numE
  let z ← defaultSize numV eList.length A.vSize A.vLine A.eLine (some 1)
  let q ← forceLayout R numV (eList.map fun e => [(e.1 : Int), (e.2 : Int)]) (fillStrength A.pushV (6 / 1000)) none
    (fillStrength A.pullE (45 / 1000)) (fillStrength A.pullC (1 / 100))
  let pos ← solid numV q
  let patches ← drawCircleEdge hull order pos z.v (eList.map fun e => [e.1, e.2]) ec fc z.eLine
  let (discs, labels) := drawVertex numV pos A.label z.font z.v z.vLine
  pure ({ arrows := [], discs := discs, faces := vc, labels := labels }, patches)

/-- `draw_hypergraph` after the reads of the structure (draw.py:308-336) -/
noncomputable def drawHypergraph (R : Rand) (hull : List Pt → Except Err (List Nat)) (order : List Nat)
    (A : DrawArgs) (numV : Nat) (eList : List (List Nat)) : Except Err (Picture × Patches) := do
  let _ ← need (eList.length > 0) Err.assertion
  let vc ← fillColor A.vColor (.name "r") numV
  let ec ← fillColor A.eColor (.name "gray") eList.length
  let fc ← fillColor A.eFill (.name "whitesmoke") eList.length
  let z ← defaultSize numV eList.length A.vSize A.vLine A.eLine (some 1)
  let q ← forceLayout R numV (eList.map fun e => e.map fun v => (v : Int)) (fillStrength A.pushV (6 / 1000))
    (some (fillStrength A.pushE (8 / 1000))) (fillStrength A.pullE (7 / 1000)) (fillStrength A.pullC (1 / 1000))
  let pos ← solid numV q
  let patches ← drawCircleEdge hull order pos z.v eList ec fc z.eLine
  let (discs, labels) := drawVertex numV pos A.label z.font z.v z.vLine
  pure ({ arrows := [], discs := discs, faces := vc, labels := labels }, patches)

end Vis
end DHG
