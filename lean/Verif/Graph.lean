import Verif.BaseGraph

/-!
# `Graph` (dhg/structure/graphs/graph.py)

Every method is written against the object state (raw fields and cache) as in the source.
-/

set_option linter.unusedSectionVars false
set_option autoImplicit false

namespace DHG

variable {K : Type} [Field K] [LinearOrder K]

/-- cache keys used by `Graph` (strings `"e"`, `"e_both_side"`, `"A"`, `"A_{hop}"`, `"D_v"`, ...)
(graph.py:399, 472, 489, 503, 516, 536-542; structure/base.py:282) -/
inductive GKey
  | e | eBoth | A | Apow (hop : Nat) | Dv | DvN1 | DvN12 | L | Lsym | Lrw | LGCN
  deriving DecidableEq, Repr

/-- cached values: the `(e_list, e_weight)` pairs and the sparse matrices
(e.g. structure/base.py:290 and graph.py:477) -/
inductive GVal (K : Type)
  | edges (es : List (Int × Int)) (ws : List K)
  | mat (M : Sp K)
  deriving DecidableEq, Repr

/-- a `Graph` object (graph.py:17-40) -/
abbrev GSt (K : Type) := Cached (GRaw K) GKey (GVal K)

namespace Graph

/-- a cached value used as a pair of lists; entries under the keys `e`, `eBoth` are always pairs,
the other branch is unreachable (structure/base.py:291, graph.py:404) -/
def asEdges : GVal K → PyM (GSt K) (List (Int × Int) × List K)
  | .edges es ws => pure (es, ws)
  | .mat _ => PyM.raise .type

/-- a cached value used as a matrix (e.g. graph.py:483) -/
def asMat : GVal K → PyM (GSt K) (Sp K)
  | .mat M => pure M
  | .edges _ _ => PyM.raise .type

/-- endpoints in ascending order: `sorted(list(e))` (graph.py:323), `if src > dst: swap`
(graph.py:336-337) -/
def sortPair (e : Int × Int) : Int × Int := if e.1 ≤ e.2 then e else (e.2, e.1)

/-- `Graph.add_edges` (graph.py:307-326); pairing by `zip` stops at the shorter list -/
def addEdges (arg : EArg K) (op : MergeOp) : PyM (GSt K) Unit :=
  if arg.isEmpty then pure ()
  else do
    let n ← readRaw GRaw.numV
    let p ← PyM.lift (formatEdges n arg)
    PyM.forM (p.1.zip p.2) fun ew =>
      addEdge op (sortPair ew.1).1 (sortPair ew.1).2 ew.2
    clearCache

/-- `Graph.remove_edges` (graph.py:328-339) -/
def removeEdges (arg : EArg K) : PyM (GSt K) Unit := do
  let n ← readRaw GRaw.numV
  let p ← PyM.lift (formatEdges n arg.noWeight)
  PyM.forM p.1 fun e => removeEdge (sortPair e).1 (sortPair e).2
  clearCache

/-- `Graph.__init__` (graph.py:29-40); `arg = none` is `e_list=None` -/
def new (numV : Int) (arg : Option (EArg K)) (extra : Bool) (op : MergeOp) :
    Except Err (GSt K) := do
  let r ← GRaw.init numV extra
  match arg with
  | none => .ok { raw := r, cache := [] }
  | some arg =>
    match addEdges arg op { raw := r, cache := [] } with
    | (.ok _, s) => .ok s
    | (.error e, _) => .error e

/-- `Graph.clone` (graph.py:145-154): raw fields and cache are deep-copied -/
def clone (s : GSt K) : GSt K := { raw := s.raw, cache := s.cache }

/-- `Graph.state_dict` (graph.py:48-56) -/
structure StateDict (K : Type) where
  numV : Nat
  eDict : Dict (Int × Int) K
  loops : Dict Int K
  extra : Bool
  deriving DecidableEq, Repr

/-- `Graph.state_dict` (graph.py:48-56); sharing of the dict objects is modelled in `Heap.lean` -/
def stateDict (s : GSt K) : StateDict K :=
  { numV := s.raw.numV, eDict := s.raw.eDict, loops := s.raw.loops, extra := s.raw.extra }

/-- `Graph.from_state_dict` (graph.py:168-177) -/
def fromStateDict (d : StateDict K) : Except Err (GSt K) := do
  let r ← GRaw.init (K := K) d.numV d.extra
  .ok { raw := { r with eDict := d.eDict, loops := d.loops }, cache := [] }

/-- `Graph.from_adj_list` (graph.py:180-204): `e_list` of the lines -/
def adjListEdges (adj : List (List Int)) : List (Int × Int) :=
  adj.flatMap fun line => match line with
    | src :: d :: ds => (d :: ds).map fun dst => (src, dst)
    | _ => []

/-- `Graph.from_adj_list` (graph.py:180-204) -/
def fromAdjList (numV : Int) (adj : List (List Int)) (extra : Bool) : Except Err (GSt K) :=
  new numV (some (.many (adjListEdges adj) .none)) extra .mean

/-- filtering comprehension with one random draw per item: keep iff `random() > drop_rate`
(graph.py:364-365); returns the kept items, draws are taken from position `i` on -/
def dropFilter {α : Type} (rate : K) (rnd : Nat → K) : Nat → List α → List α
  | _, [] => []
  | i, x :: xs =>
    if rate < rnd i then x :: dropFilter rate rnd (i + 1) xs else dropFilter rate rnd (i + 1) xs

/-- `Graph.drop_edges` (graph.py:356-376); `rnd i` is the `i`-th value of `random.random()`,
`uniform` is `ord == "uniform"` -/
def dropEdges (rate : K) (uniform : Bool) (rnd : Nat → K) (s : GSt K) : Except Err (GSt K) :=
  if uniform then
    fromStateDict
      { numV := s.raw.numV
        eDict := dropFilter rate rnd 0 s.raw.eDict
        loops := dropFilter rate rnd s.raw.eDict.length s.raw.loops
        extra := s.raw.extra }
  else .error .value

/-- `BaseGraph.e` (base.py:279-291) -/
def getE : PyM (GSt K) (List (Int × Int) × List K) := do
  let v ← memo .e (readRaw fun r => .edges r.edgeList r.edgeWts)
  asEdges v

/-- `Graph.e_both_side` (graph.py:396-404) -/
def getEBoth : PyM (GSt K) (List (Int × Int) × List K) := do
  let v ← memo .eBoth do
    let p ← getE
    readRaw fun r =>
      .edges (p.1 ++ r.eDict.keys.map fun q => (q.2, q.1)) (p.2 ++ r.eDict.vals)
  asEdges v

/-- `BaseGraph.num_e` (base.py:300-308) -/
def getNumE : PyM (GSt K) Nat := readRaw GRaw.numE

/-- `Graph.A` (graph.py:469-483) -/
def getA : PyM (GSt K) (Sp K) := do
  let v ← memo .A do
    let ne ← getNumE
    let n ← readRaw GRaw.numV
    if ne = 0 then pure (GVal.mat (Sp.empty n n))
    else do
      let p ← getEBoth
      let M ← PyM.lift (Sp.build n n p.1 p.2)
      pure (GVal.mat M.coalesce)
  asMat v

/-- `Graph.D_v` (graph.py:486-497); the indices `arange(num_v)` are already sorted, so the final
`coalesce` changes nothing -/
def getDv : PyM (GSt K) (Sp K) := do
  let v ← memo .Dv do
    let A ← getA
    pure (GVal.mat (Sp.diag A.rowSum))
  asMat v

/-- `Graph.D_v_neg_1` (graph.py:500-510) -/
def getDvN1 : PyM (GSt K) (Sp K) := do
  let v ← memo .DvN1 do
    let D ← getDv
    pure (GVal.mat D.inv)
  asMat v

/-- `Graph.deg_v` (graph.py:419-422): `D_v._values()` -/
def getDegV : PyM (GSt K) (List K) := do
  let D ← getDv
  pure (D.ents.map Prod.snd)

/-- loop `for _ in range(n): A_k = torch.sparse.mm(A_k, A_1)` (graph.py:538-539) -/
def powLoop : Nat → Sp K → Sp K → Except Err (Sp K)
  | 0, Ak, _ => .ok Ak
  | n + 1, Ak, A1 => do
    let Ak' ← Ak.mm A1
    powLoop n Ak' A1

/-- the matrix `A_k` used by `N_v` (graph.py:532-542) -/
def getApow (hop : Nat) : PyM (GSt K) (Sp K) :=
  if hop = 1 then getA
  else do
    let v ← memo (.Apow hop) do
      let A ← getA
      let M ← PyM.lift (powLoop (hop - 1) A A)
      pure (GVal.mat M)
    asMat v

/-- `Graph.N_v` / `Graph.nbr_v` (graph.py:525-544, 424-431) -/
def getNv (v hop : Int) : PyM (GSt K) (List Nat) := do
  PyM.assert (decide (1 ≤ hop))
  let Ak ← getApow hop.toNat
  PyM.lift (Ak.rowIdx v)

/-- `Graph.e_src` (graph.py:547-550) -/
def getESrc : PyM (GSt K) (List Nat) := do let A ← getA; pure (A.ents.map fun e => e.1.2)
/-- `Graph.e_dst` (graph.py:553-556) -/
def getEDst : PyM (GSt K) (List Nat) := do let A ← getA; pure (A.ents.map fun e => e.1.1)
/-- `Graph.e_weight` (graph.py:559-562) -/
def getEWeight : PyM (GSt K) (List K) := do let A ← getA; pure (A.ents.map Prod.snd)

/-- `Graph.L` (graph.py:571-581) -/
def getL : PyM (GSt K) (Sp K) := do
  let v ← memo .L do
    let M ← onClone removeSelfloop do
      let D ← getDv
      let A ← getA
      PyM.lift (D.sub A)
    pure (GVal.mat M)
  asMat v

/-- `Graph.L_rw` (graph.py:603-619) -/
def getLrw : PyM (GSt K) (Sp K) := do
  let v ← memo .Lrw do
    let L ← onClone removeSelfloop do
      let D ← getDvN1
      let A ← getA
      PyM.lift (D.mm A)
    let n ← readRaw GRaw.numV
    pure (GVal.mat (Sp.eyeMinus n L))
  asMat v

/-- `BaseGraph.smoothing` (base.py:324-335) and `BaseHypergraph.smoothing` (base.py:999-1010),
`X + lamb * mm(L, X)`; the addition broadcasts a single row -/
def smoothing (X : Dense K) (L : Sp K) (lamb : K) : Except Err (Dense K) := do
  let Y ← L.mmD X
  if Y.rows = X.rows then
    .ok { X with at_ := fun i c => X.at_ i c + lamb * Y.at_ i c }
  else if Y.rows = 1 then
    .ok { X with at_ := fun i c => X.at_ i c + lamb * Y.at_ 0 c }
  else if X.rows = 1 then
    .ok { X with rows := Y.rows, at_ := fun i c => X.at_ 0 c + lamb * Y.at_ i c }
  else .error .runtime

section Real
variable [PyReal K]

/-- `Graph.D_v_neg_1_2` (graph.py:513-523) -/
def getDvN12 : PyM (GSt K) (Sp K) := do
  let v ← memo .DvN12 do
    let D ← getDv
    let M ← PyM.lift D.rsqrt
    pure (GVal.mat M)
  asMat v

/-- `D_v_neg_1_2.mm(A).mm(D_v_neg_1_2)` on one graph object (graph.py:593, 633) -/
def normA : PyM (GSt K) (Sp K) := do
  let D ← getDvN12
  let A ← getA
  let M ← PyM.lift (D.mm A)
  let D' ← getDvN12
  PyM.lift (M.mm D')

/-- `Graph.L_sym` (graph.py:584-600) -/
def getLsym : PyM (GSt K) (Sp K) := do
  let v ← memo .Lsym do
    let L ← onClone removeSelfloop normA
    let n ← readRaw GRaw.numV
    pure (GVal.mat (Sp.eyeMinus n L))
  asMat v

/-- `Graph.L_GCN` (graph.py:623-634) -/
def getLGCN : PyM (GSt K) (Sp K) := do
  let v ← memo .LGCN do
    let L ← onClone addExtraSelfloop normA
    pure (GVal.mat L.coalesce)
  asMat v

/-- `if drop_rate > 0.0: M = sparse_dropout(M, drop_rate)` (graph.py:646-647, 671-672, 692-693) -/
def dropMaybe {σ : Type} (M : Sp K) (dropRate : K) (keep : Nat → Bool) : PyM σ (Sp K) :=
  if 0 < dropRate then PyM.lift (sparseDropout M dropRate 0 keep) else pure M

/-- `Graph.smoothing_with_GCN` (graph.py:636-649); `keep` are the dropout draws -/
def smoothGCN (X : Dense K) (dropRate : K) (keep : Nat → Bool) : PyM (GSt K) (Dense K) := do
  let L ← getLGCN
  let L ← dropMaybe L dropRate keep
  PyM.lift (L.mmD X)

/-- `Graph.v2v` (graph.py:654-705).  Line 680 calls `torch.sparse.mm(P, dim=1)`, which has no
`dim` argument: `TypeError`. -/
def v2v (X : Dense K) (aggr : Aggr) (ew : Option (List K)) (dropRate : K) (keep : Nat → Bool) :
    PyM (GSt K) (Dense K) := do
  PyM.assert (decide (aggr ≠ .other))
  match ew with
  | none =>
    let A ← getA
    let P ← dropMaybe A dropRate keep
    match aggr with
    | .mean => do
      let Y ← PyM.lift (P.mmD X)
      let D ← getDvN1
      PyM.lift (D.mmD Y)
    | .sum => PyM.lift (P.mmD X)
    | .softmax => PyM.raise .type
    | .other => pure X
  | some w =>
    let ws ← getEWeight
    PyM.assert (decide (w.length = ws.length))
    let A ← getA
    let P ← PyM.lift (A.withVals w)
    let P := P.coalesce
    let P ← dropMaybe P dropRate keep
    match aggr with
    | .mean => do
      let Y ← PyM.lift (P.mmD X)
      pure (Y.scaleRows P.rowSum)
    | .sum => PyM.lift (P.mmD X)
    | .softmax => PyM.lift (P.softmax.mmD X)
    | .other => pure X

end Real

end Graph
end DHG
