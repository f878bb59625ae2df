import Verif.SparseLemmas

/-!
# `BaseGraph` (dhg/structure/base.py:28-335)

State and methods shared by `Graph`, `DiGraph` and `BiGraph`.
-/

set_option linter.unusedSectionVars false
set_option autoImplicit false

namespace DHG

variable {K : Type} [Field K] [LinearOrder K]

/-- the `merge_op` string of `add_edges`; `other` is any other string (base.py:199-206) -/
inductive MergeOp
  | mean | max | sum | other
  deriving DecidableEq, Repr

/-- base.py:199-206: the function chosen by `merge_op`, `ValueError` for unknown names -/
def mergeFn : MergeOp → Except Err (K → K → K)
  | .mean => .ok fun x y => (x + y) / 2
  | .max => .ok fun x y => Max.max x y
  | .sum => .ok fun x y => x + y
  | .other => .error .value

/-- raw attributes of a graph object (base.py:46-52, 86-92).  `numU` is only used by `BiGraph`
(bipartite_graph.py:37) and is 0 for the other classes.  Devices are not modelled. -/
structure GRaw (K : Type) where
  numU : Nat := 0
  numV : Nat
  eDict : Dict (Int × Int) K
  loops : Dict Int K
  extra : Bool
  deriving DecidableEq, Repr

/-- the `e_weight` argument next to a list of edges
(`Union[float, List[float]]`, structure/base.py:44, 118, 176) -/
inductive WArg (K : Type)
  | none
  | scalar (w : K)
  | list (ws : List K)
  deriving DecidableEq, Repr

/-- the `(e_list, e_weight)` arguments: one edge `[a, b]` with an optional weight, or a list of
pairs.  Edges with a length other than two are not modelled. (structure/base.py:117-119, 173-178) -/
inductive EArg (K : Type)
  | single (a b : Int) (w : Option K)
  | many (es : List (Int × Int)) (ws : WArg K)
  deriving DecidableEq, Repr

/-- `len(e_list) == 0` (graph.py:320) -/
def EArg.isEmpty : EArg K → Bool
  | .single _ _ _ => false
  | .many es _ => es.isEmpty

/-- the same edges without weights (`remove_edges` passes no weights) (graph.py:334) -/
def EArg.noWeight : EArg K → EArg K
  | .single a b _ => .single a b Option.none
  | .many es _ => .many es .none

/-- `BaseGraph._format_edges` (base.py:117-140).  `e_list[0]` on an empty list raises
`IndexError`; the assertion bounds the maximum only; a scalar weight next to a list of edges makes
the later `zip` raise `TypeError` before anything is changed. -/
def formatEdges (numV : Nat) : EArg K → Except Err (List (Int × Int) × List K)
  | .single a b w =>
    if max a b < (numV : Int) then .ok ([(a, b)], [w.getD 1]) else .error .assertion
  | .many [] _ => .error .index
  | .many (p :: es) ws =>
    if ∀ q ∈ p :: es, q.1 < (numV : Int) ∧ q.2 < (numV : Int) then
      match ws with
      | .none => .ok (p :: es, List.replicate (p :: es).length 1)
      | .list ws => .ok (p :: es, ws)
      | .scalar _ => .error .type
    else .error .assertion

section Methods
variable {κ ν : Type} [DecidableEq κ]

/-- `BaseGraph._clear_cache` (base.py:94-97) -/
def clearCache : PyM (Cached (GRaw K) κ ν) Unit := PyM.modify fun s => { s with cache := [] }

/-- assignment to raw attributes (e.g. structure/base.py:89-91, 245) -/
def setRaw (f : GRaw K → GRaw K) : PyM (Cached (GRaw K) κ ν) Unit :=
  PyM.modify fun s => { s with raw := f s.raw }

/-- `if k in d: d[k] = f(d[k], w) else: d[k] = w` (base.py:208-217) -/
def upsert {α : Type} [DecidableEq α] (d : Dict α K) (k : α) (f : K → K → K) (w : K) : Dict α K :=
  match d.get? k with
  | some o => d.set k (f o w)
  | none => d.set k w

/-- effect of `_add_edge` on the raw fields (base.py:207-218) -/
def GRaw.addEdge (r : GRaw K) (f : K → K → K) (src dst : Int) (w : K) : GRaw K :=
  if src = dst then { r with loops := upsert r.loops src f w }
  else { r with eDict := upsert r.eDict (src, dst) f w }

/-- `BaseGraph._add_edge` (base.py:190-219): the merge operation is resolved first -/
def addEdge (op : MergeOp) (src dst : Int) (w : K) : PyM (Cached (GRaw K) κ ν) Unit := do
  let f ← PyM.lift (mergeFn op)
  setRaw fun r => r.addEdge f src dst w
  clearCache

/-- effect of `_remove_edge` on the raw fields (base.py:236-239) -/
def GRaw.removeEdge (r : GRaw K) (a b : Int) : GRaw K :=
  if a = b ∧ r.loops.has a then { r with loops := r.loops.del a }
  else if r.eDict.has (a, b) then { r with eDict := r.eDict.del (a, b) }
  else r

/-- `BaseGraph._remove_edge` (base.py:229-240) -/
def removeEdge (a b : Int) : PyM (Cached (GRaw K) κ ν) Unit := do
  setRaw fun r => r.removeEdge a b
  clearCache

/-- `BaseGraph.add_extra_selfloop` (base.py:242-246) -/
def addExtraSelfloop : PyM (Cached (GRaw K) κ ν) Unit := do
  setRaw fun r => { r with extra := true }
  clearCache

/-- `BaseGraph.remove_extra_selfloop` (base.py:248-252) -/
def removeExtraSelfloop : PyM (Cached (GRaw K) κ ν) Unit := do
  setRaw fun r => { r with extra := false }
  clearCache

/-- `BaseGraph.remove_selfloop` (base.py:254-259) -/
def removeSelfloop : PyM (Cached (GRaw K) κ ν) Unit := do
  setRaw fun r => { r with loops := [] }
  removeExtraSelfloop
  clearCache

/-- `BaseGraph.clear` (base.py:86-92) -/
def clearAll : PyM (Cached (GRaw K) κ ν) Unit := do
  setRaw fun r => { r with eDict := [], loops := [], extra := false }
  clearCache

end Methods

/-- edge list as assembled by `BaseGraph.e` (base.py:283-289) -/
def GRaw.edgeList (r : GRaw K) : List (Int × Int) :=
  r.eDict.keys ++ r.loops.keys.map (fun v => (v, v)) ++
    (if r.extra then (List.range r.numV).map (fun v : Nat => ((v : Int), (v : Int))) else [])

/-- weight list as assembled by `BaseGraph.e` (base.py:283-289) -/
def GRaw.edgeWts (r : GRaw K) : List K :=
  r.eDict.vals ++ r.loops.vals ++ (if r.extra then List.replicate r.numV 1 else [])

/-- `BaseGraph.num_e` (base.py:300-308) -/
def GRaw.numE (r : GRaw K) : Nat :=
  r.eDict.length + r.loops.length + (if r.extra then r.numV else 0)

/-- `BaseGraph.__init__` (base.py:40-52): `num_v` must be positive -/
def GRaw.init (numV : Int) (extra : Bool) : Except Err (GRaw K) :=
  if 0 < numV then .ok { numV := numV.toNat, eDict := [], loops := [], extra } else .error .assertion

/-- the `aggr` string of message passing methods (e.g. graph.py:655, 665) -/
inductive Aggr
  | mean | sum | softmax | other
  deriving DecidableEq, Repr

/-- `sparse_dropout` (utils/sparse.py:4-27); `keep i` is the Bernoulli draw for the `i`-th stored
value of the coalesced tensor -/
def sparseDropout (M : Sp K) (p fill : K) (keep : Nat → Bool) : Except Err (Sp K) :=
  let M := M.coalesce
  if 0 ≤ p ∧ p ≤ 1 then
    if p = 0 then .ok M
    else .ok { M with
      ents := M.ents.zipIdx.map fun e => (e.1.1, if keep e.2 then e.1.2 else fill) }
  else .error .assertion

/-- `D * X` with a column vector `D` broadcast over the columns (e.g. graph.py:697) -/
def Dense.scaleRows (v : List K) (X : Dense K) : Dense K :=
  { X with at_ := fun i c => v.getD i 0 * X.at_ i c }

end DHG
