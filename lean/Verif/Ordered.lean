import Verif.Graph

/-!
# Common part of `DiGraph` and `BiGraph`

The two classes (dhg/structure/graphs/directed_graph.py, bipartite_graph.py) store ordered pairs and
have textually parallel methods: what `DiGraph` calls `A`, `A_T`, `D_v_out`, `D_v_in` is called `B`,
`B_T`, `D_u`, `D_v` in `BiGraph`.  The methods are written once, with the class of the object as an
argument where the two sources differ.  `M` stands for `A`/`B`, `Dr` for `D_v_out`/`D_u`, `Dc` for
`D_v_in`/`D_v`.  The names of the classes are introduced in `DiGraph.lean` and `BiGraph.lean`.
-/

set_option linter.unusedSectionVars false
set_option autoImplicit false

namespace DHG

variable {K : Type} [Field K] [LinearOrder K]

/-- class of the object (directed_graph.py:16, bipartite_graph.py:16) -/
inductive Cls
  | di | bi
  deriving DecidableEq, Repr

/-- cache keys: `"e"`, `"A"`/`"B"`, `"A_T"`/`"B_T"`, `"D_v_out"`/`"D_u"`, `"D_v_in"`/`"D_v"`, their
`_neg_1` versions, and `"A"`, `"L_GCN"` of `BiGraph`
(directed_graph.py:418-491, bipartite_graph.py:472-557, 605) -/
inductive OKey
  | e | M | MT | Dr | Dc | DrN1 | DcN1 | A | LGCN
  deriving DecidableEq, Repr

/-- a `DiGraph` or `BiGraph` object (directed_graph.py:16-39, bipartite_graph.py:16-40) -/
abbrev OSt (K : Type) := Cached (GRaw K) OKey (GVal K)

/-- dictionary comprehension `{k: v for ...}` over a list of pairs
(directed_graph.py:300, bipartite_graph.py:341) -/
def Dict.ofPairs {κ ν : Type} [DecidableEq κ] (l : List (κ × ν)) : Dict κ ν :=
  l.foldl (fun d p => d.set p.1 p.2) []

/-- `BiGraph._format_edges` (bipartite_graph.py:180-205): both columns are bounded, from above
only -/
def formatEdgesBi (numU numV : Nat) : EArg K → Except Err (List (Int × Int) × List K)
  | .single a b w =>
    if a < (numU : Int) ∧ b < (numV : Int) then .ok ([(a, b)], [w.getD 1]) else .error .assertion
  | .many [] _ => .error .index
  | .many (p :: es) ws =>
    if ∀ q ∈ p :: es, q.1 < (numU : Int) ∧ q.2 < (numV : Int) then
      match ws with
      | .none => .ok (p :: es, List.replicate (p :: es).length 1)
      | .list ws => .ok (p :: es, ws)
      | .scalar _ => .error .type
    else .error .assertion

/-- effect of `BiGraph._add_edge` on the raw fields (bipartite_graph.py:318-323): no self loop
case -/
def GRaw.addEdgeBi (r : GRaw K) (f : K → K → K) (src dst : Int) (w : K) : GRaw K :=
  { r with eDict := upsert r.eDict (src, dst) f w }

namespace Ord

/-- number of rows of `A` (`num_v`) or `B` (`num_u`)
(directed_graph.py:420-428, bipartite_graph.py:486-494) -/
def rows : Cls → GRaw K → Nat
  | .di, r => r.numV
  | .bi, r => r.numU

/-- `_format_edges` of the class (base.py:117-140, bipartite_graph.py:180-205) -/
def format : Cls → GRaw K → EArg K → Except Err (List (Int × Int) × List K)
  | .di, r, arg => formatEdges r.numV arg
  | .bi, r, arg => formatEdgesBi r.numU r.numV arg

/-- `_add_edge` of the class (base.py:207-218, bipartite_graph.py:318-323), raw fields -/
def addE : Cls → GRaw K → (K → K → K) → Int → Int → K → GRaw K
  | .di => GRaw.addEdge
  | .bi => GRaw.addEdgeBi

/-- `_add_edge` of the class (base.py:190-219, bipartite_graph.py:301-323) -/
def addEdge (c : Cls) (op : MergeOp) (src dst : Int) (w : K) : PyM (OSt K) Unit := do
  let f ← PyM.lift (mergeFn op)
  setRaw fun r => addE c r f src dst w
  clearCache

/-- `DiGraph.add_edges` (directed_graph.py:252-269 with base.py:175-188), `BiGraph.add_edges`
(bipartite_graph.py:281-299) -/
def addEdges (c : Cls) (arg : EArg K) (op : MergeOp) : PyM (OSt K) Unit :=
  if arg.isEmpty then pure ()
  else do
    let r ← readRaw id
    let p ← PyM.lift (format c r arg)
    PyM.forM (p.1.zip p.2) fun ew => addEdge c op ew.1.1 ew.1.2 ew.2
    clearCache

/-- `DiGraph.remove_edges` (directed_graph.py:271-280), `BiGraph.remove_edges`
(bipartite_graph.py:325-334) -/
def removeEdges (c : Cls) (arg : EArg K) : PyM (OSt K) Unit := do
  let r ← readRaw id
  let p ← PyM.lift (format c r arg.noWeight)
  PyM.forM p.1 fun e => removeEdge e.1 e.2
  clearCache

/-- a cached value used as a pair of lists (structure/base.py:291) -/
def asEdges : GVal K → PyM (OSt K) (List (Int × Int) × List K)
  | .edges es ws => pure (es, ws)
  | .mat _ => PyM.raise .type

/-- a cached value used as a matrix (e.g. directed_graph.py:429) -/
def asMat : GVal K → PyM (OSt K) (Sp K)
  | .mat M => pure M
  | .edges _ _ => PyM.raise .type

/-- `BaseGraph.e` (base.py:279-291) -/
def getE : PyM (OSt K) (List (Int × Int) × List K) := do
  let v ← memo .e (readRaw fun r => .edges r.edgeList r.edgeWts)
  asEdges v

/-- `DiGraph.A` (directed_graph.py:415-429), `BiGraph.B` (bipartite_graph.py:481-495) -/
def getM (c : Cls) : PyM (OSt K) (Sp K) := do
  let v ← memo .M do
    let ne ← readRaw GRaw.numE
    let m ← readRaw (rows c)
    let n ← readRaw GRaw.numV
    if ne = 0 then pure (GVal.mat (Sp.empty m n))
    else do
      let p ← getE
      let M ← PyM.lift (Sp.build m n p.1 p.2)
      pure (GVal.mat M.coalesce)
  asMat v

/-- `DiGraph.A_T` (directed_graph.py:432-437), `BiGraph.B_T` (bipartite_graph.py:498-503) -/
def getMT (c : Cls) : PyM (OSt K) (Sp K) := do
  let v ← memo .MT do
    let M ← getM c
    pure (GVal.mat M.t.coalesce)
  asMat v

/-- `DiGraph.D_v_out` (directed_graph.py:454-465), `BiGraph.D_u` (bipartite_graph.py:506-517) -/
def getDr (c : Cls) : PyM (OSt K) (Sp K) := do
  let v ← memo .Dr do
    let M ← getM c
    pure (GVal.mat (Sp.diag M.rowSum))
  asMat v

/-- `DiGraph.D_v_in` (directed_graph.py:440-451), `BiGraph.D_v` (bipartite_graph.py:520-531) -/
def getDc (c : Cls) : PyM (OSt K) (Sp K) := do
  let v ← memo .Dc do
    let M ← getMT c
    pure (GVal.mat (Sp.diag M.rowSum))
  asMat v

/-- `DiGraph.D_v_out_neg_1` (directed_graph.py:481-491), `BiGraph.D_u_neg_1`
(bipartite_graph.py:534-544) -/
def getDrN1 (c : Cls) : PyM (OSt K) (Sp K) := do
  let v ← memo .DrN1 do
    let D ← getDr c
    pure (GVal.mat D.inv)
  asMat v

/-- `DiGraph.D_v_in_neg_1` (directed_graph.py:468-478), `BiGraph.D_v_neg_1`
(bipartite_graph.py:547-557) -/
def getDcN1 (c : Cls) : PyM (OSt K) (Sp K) := do
  let v ← memo .DcN1 do
    let D ← getDc c
    pure (GVal.mat D.inv)
  asMat v

/-- `DiGraph.N_v_out` (directed_graph.py:502-509), `BiGraph.N_v` (bipartite_graph.py:559-566) -/
def getNr (c : Cls) (i : Int) : PyM (OSt K) (List Nat) := do
  let M ← getM c
  PyM.lift (M.rowIdx i)

/-- `DiGraph.N_v_in` (directed_graph.py:493-500), `BiGraph.N_u` (bipartite_graph.py:568-575) -/
def getNc (c : Cls) (j : Int) : PyM (OSt K) (List Nat) := do
  let M ← getMT c
  PyM.lift (M.rowIdx j)

/-- `DiGraph.e_src` (directed_graph.py:512-515), `BiGraph.e_u` (bipartite_graph.py:578-581) -/
def getERow (c : Cls) : PyM (OSt K) (List Nat) := do
  let M ← getM c
  pure (M.ents.map fun e => e.1.1)

/-- `DiGraph.e_dst` (directed_graph.py:518-521), `BiGraph.e_v` (bipartite_graph.py:584-587) -/
def getECol (c : Cls) : PyM (OSt K) (List Nat) := do
  let M ← getM c
  pure (M.ents.map fun e => e.1.2)

/-- `e_weight` (directed_graph.py:524-527, bipartite_graph.py:590-593) -/
def getEWeight (c : Cls) : PyM (OSt K) (List K) := do
  let M ← getM c
  pure (M.ents.map Prod.snd)

section Real
variable [PyReal K]

/-- message passing without explicit weights (directed_graph.py:558-573 and 597-612,
bipartite_graph.py:659-674 and 712-727) -/
def passDefault (getP getD : PyM (OSt K) (Sp K)) (X : Dense K) (aggr : Aggr) (dropRate : K)
    (keep : Nat → Bool) : PyM (OSt K) (Dense K) := do
  let M ← getP
  let P ← Graph.dropMaybe M dropRate keep
  match aggr with
  | .mean => do
    let Y ← PyM.lift (P.mmD X)
    let D ← getD
    PyM.lift (D.mmD Y)
  | .sum => PyM.lift (P.mmD X)
  | .softmax => PyM.lift (P.softmax.mmD X)
  | .other => pure X

/-- message passing with explicit weights (directed_graph.py:574-595 and 613-638,
bipartite_graph.py:675-693 and 728-746); `tr` tells whether the matrix is transposed first.  The
"mean" multiplies by the row sums (lines 585-589, 627-631, 682-686, 735-739). -/
def passWeighted (c : Cls) (tr : Bool) (w : List K) (X : Dense K) (aggr : Aggr) (dropRate : K)
    (keep : Nat → Bool) : PyM (OSt K) (Dense K) := do
  let ws ← getEWeight c
  PyM.assert (decide (w.length = ws.length))
  let M ← getM c
  let P ← PyM.lift (M.withVals w)
  let P ← Graph.dropMaybe (if tr then P.t.coalesce else P.coalesce) dropRate keep
  match aggr with
  | .mean => do
    let Y ← PyM.lift (P.mmD X)
    pure (Y.scaleRows P.rowSum)
  | .sum => PyM.lift (P.mmD X)
  | .softmax => PyM.lift (P.softmax.mmD X)
  | .other => pure X

/-- messages collected by the row vertices: `DiGraph.v2v(direction="dst2src")`
(directed_graph.py:557-595), `BiGraph.v2u` (bipartite_graph.py:696-747) -/
def toRows (c : Cls) (X : Dense K) (aggr : Aggr) (ew : Option (List K)) (dropRate : K)
    (keep : Nat → Bool) : PyM (OSt K) (Dense K) :=
  match ew with
  | none => passDefault (getM c) (getDrN1 c) X aggr dropRate keep
  | some w => passWeighted c false w X aggr dropRate keep

/-- messages collected by the column vertices: `DiGraph.v2v(direction="src2dst")`
(directed_graph.py:596-638), `BiGraph.u2v` (bipartite_graph.py:643-694) -/
def toCols (c : Cls) (X : Dense K) (aggr : Aggr) (ew : Option (List K)) (dropRate : K)
    (keep : Nat → Bool) : PyM (OSt K) (Dense K) :=
  match ew with
  | none => passDefault (getMT c) (getDcN1 c) X aggr dropRate keep
  | some w => passWeighted c true w X aggr dropRate keep

end Real

end Ord
end DHG
