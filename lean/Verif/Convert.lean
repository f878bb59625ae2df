import Verif.HyperApi
import Verif.GraphApi
import Verif.BiGraph

/-!
# Conversions between structures

`Graph.from_hypergraph_*`, `BiGraph.from_hypergraph`, `Hypergraph.from_graph`, `from_graph_kHop`,
`from_bigraph`, `from_feature_kNN` and the `add_hyperedges_from_*` methods.  A conversion reads the
source object through its properties and so may fill the cache of the source object; it is a method
of the source object here.
-/

set_option linter.unusedSectionVars false
set_option autoImplicit false

namespace DHG

variable {K : Type} [Field K] [LinearOrder K]

namespace PyM
variable {σ τ α : Type}

/-- a method of the first of two objects (e.g. `hypergraph.e` inside graph.py:207-231) -/
def fst (m : PyM σ α) : PyM (σ × τ) α := fun s => ((m s.1).1, ((m s.1).2, s.2))

/-- a method of the second of two objects (e.g. `hypergraph.e` inside graph.py:207-231) -/
def snd (m : PyM τ α) : PyM (σ × τ) α := fun s => ((m s.2).1, (s.1, (m s.2).2))

end PyM

/-! ### Graphs from hypergraphs -/

namespace Graph

/-- the `e_list` of the star expansion (graph.py:221-224) -/
def starEdges (n : Nat) (H : Sp K) : List (Int × Int) :=
  H.ents.map fun e => ((e.1.1 : Int), ((e.1.2 + n : Nat) : Int))

/-- the `e_weight` argument of the star expansion (graph.py:225-229) -/
def starWts (weighted : Bool) (H : Sp K) : WArg K :=
  if weighted then .list (H.ents.map Prod.snd) else .none

/-- `Graph.from_hypergraph_star` (graph.py:207-231): the graph and the vertex mask -/
def fromHypergraphStar (weighted : Bool) (op : MergeOp) : PyM (HSt K) (GSt K × List Bool) := do
  let H ← Hyper.getH none
  let n ← readRaw HRaw.numV
  let ne ← Hyper.getNumE none
  let g ← PyM.lift (Graph.new ((n + ne : Nat) : Int) (some (.many (starEdges n H) (starWts weighted H)))
    false op)
  pure (g, List.replicate n true ++ List.replicate ne false)

/-- entries above the diagonal (graph.py:248-250) -/
def upper (M : Sp K) : Ents K := M.ents.filter fun e => decide (e.1.1 < e.1.2)

/-- the constructor call of the clique expansion (graph.py:251-255) -/
def cliqueGraph (n : Nat) (weighted : Bool) (adj : Sp K) : Except Err (GSt K) :=
  let es := (upper adj).map fun e => ((e.1.1 : Int), (e.1.2 : Int))
  if weighted then
    Graph.new n (some (.many es (.list ((upper adj).map Prod.snd)))) false .sum
  else Graph.new n (some (.many es .none)) false .mean

/-- `Graph.from_hypergraph_clique` (graph.py:234-256); the argument `miu` is overwritten by 1.0
(line 246) -/
def fromHypergraphClique (weighted : Bool) (_miu : K) : PyM (HSt K) (GSt K) := do
  let n ← readRaw HRaw.numV
  let H ← Hyper.getH none
  let HT ← Hyper.getHT none
  let P ← PyM.lift (H.mm HT)
  let adj := P.coalesce.mapVals fun x => 1 * x
  PyM.lift (cliqueGraph n weighted adj)

/-- Python index into a sequence of length `n` (e.g. graph.py:281-285) -/
def pyIdx (n : Nat) (i : Int) : Except Err Nat :=
  if -(n : Int) ≤ i ∧ i < n then .ok (if 0 ≤ i then i.toNat else (i + n).toNat) else .error .index

/-- `torch.mm(feature[[v], :], rv)`: projection of one row (graph.py:282); `rv` has one row per
feature column -/
def project (X : Dense K) (rv : Nat → K) (i : Nat) : K :=
  ((List.range X.cols).map fun c => X.at_ i c * rv c).sum

/-- position of the first maximal element (`torch.argmax`): `best`, at position `i`, is the best so
far, the list starts at position `j` (graph.py:283) -/
def argmaxFrom (i : Nat) (best : K) : Nat → List K → Nat
  | _, [] => i
  | j, x :: xs => if best < x then argmaxFrom j x (j + 1) xs else argmaxFrom i best (j + 1) xs

/-- `torch.argmax(p)` (graph.py:283): first position of the maximum -/
def argmax : List K → Nat
  | [] => 0
  | x :: xs => argmaxFrom 0 x 1 xs

/-- `torch.argmin(p)` (graph.py:283): first position of the minimum -/
def argmin (l : List K) : Nat := argmax (l.map fun x => -x)

/-- the edges added for one hyperedge with extreme positions `a`, `b` (graph.py:284-294) -/
def gcnEdges (mediator : Bool) (e : List Int) (a b : Nat) : List ((Int × Int) × K) :=
  if mediator then
    (List.range e.length).flatMap fun m =>
      if m ≠ a ∧ m ≠ b then
        [((e.getD a 0, e.getD m 0), 1 / (2 * (e.length : K) - 3)),
         ((e.getD b 0, e.getD m 0), 1 / (2 * (e.length : K) - 3))]
      else []
  else [((e.getD a 0, e.getD b 0), 1 / (e.length : K))]

/-- body of the loop over the hyperedges (graph.py:280-294) -/
def gcnHyperedge (X : Dense K) (rv : Nat → K) (mediator : Bool) (e : List Int) :
    Except Err (List ((Int × Int) × K)) :=
  if 2 ≤ e.length then do
    let is ← collectE e (pyIdx X.rows)
    let p := is.map (project X rv)
    .ok (gcnEdges mediator e (argmax p) (argmin p))
  else .error .assertion

/-- removal of self loops (graph.py:296-301): indexing the one-dimensional tensor made from an
empty list raises `IndexError` -/
def gcnFilter (removeLoop : Bool) (l : List ((Int × Int) × K)) : Except Err (List ((Int × Int) × K)) :=
  if removeLoop then
    if l = [] then .error .index else .ok (l.filter fun e => decide (e.1.1 ≠ e.1.2))
  else .ok l

/-- `Graph.from_hypergraph_hypergcn` (graph.py:259-303); `rv` is the result of `torch.rand`.
Weights do not pass through single precision here. -/
def fromHypergraphHypergcn (X : Dense K) (mediator removeLoop : Bool) (rv : Nat → K) :
    PyM (HSt K) (GSt K) := do
  let n ← readRaw HRaw.numV
  PyM.assert (decide (n = X.rows))
  let p ← Hyper.getE none
  let ls ← PyM.lift (collectE p.1 (gcnHyperedge X rv mediator))
  let l ← PyM.lift (gcnFilter removeLoop ls.flatten)
  PyM.lift (Graph.new n (some (.many (l.map Prod.fst) (.list (l.map Prod.snd)))) false .sum)

end Graph

namespace BiGraph

/-- incidences in listing order (bipartite_graph.py:266, 273) -/
def incPairs (es : List (List Int)) : List (Int × Nat) :=
  es.zipIdx.flatMap fun p => p.1.map fun v => (v, p.2)

/-- the weight of the hyperedge for each incidence (bipartite_graph.py:266-268, 273-275);
`raw_e_list[e_idx]` exists because both lists have the same length -/
def incWts (es : List (List Int)) (ws : List K) : List K :=
  ws.zipIdx.flatMap fun p => List.replicate (es.getD p.2 []).length p.1

/-- `BiGraph.from_hypergraph` (bipartite_graph.py:244-277) -/
def fromHypergraph (vertexAsU weighted : Bool) : PyM (HSt K) (BSt K) := do
  let p ← Hyper.getE none
  let n ← readRaw HRaw.numV
  let ne ← Hyper.getNumE none
  let ws : WArg K := if weighted then .list (incWts p.1 p.2) else .none
  if vertexAsU then
    PyM.lift (BiGraph.new n ne (some (.many ((incPairs p.1).map fun q => (q.1, (q.2 : Int))) ws)) .mean)
  else
    PyM.lift (BiGraph.new ne n (some (.many ((incPairs p.1).map fun q => ((q.2 : Int), q.1)) ws)) .mean)

end BiGraph

/-! ### Hypergraphs from graphs -/

namespace Hyper

/-- `Hypergraph(n, e_list, …)` with the list of lists or tuples `es` (e.g. hypergraph.py:222) -/
def listArg (es : List (List Int)) : HArg := .many false (es.map fun e => ⟨true, e⟩)

/-- the list object returned by `graph.e` is the cached one, and `_format_e_list` (base.py:502-503)
overwrites its elements in place -/
def formatCachedE : PyM (GSt K) Unit := PyM.modify fun s =>
  match s.cache.get? .e with
  | some (.edges es ws) => { s with cache := s.cache.set .e (.edges (es.map Graph.sortPair) ws) }
  | _ => s

/-- `Hypergraph.from_graph` (hypergraph.py:212-223) -/
def fromGraph : PyM (GSt K) (HSt K) := do
  let p ← Graph.getE
  let n ← readRaw GRaw.numV
  formatCachedE
  PyM.lift (Hyper.new n (some (listArg (p.1.map fun e => [e.1, e.2]))) (.list p.2) none .mean)

/-- loop of `_e_list_from_graph_kHop` (hypergraph.py:240-243): the last power and the history -/
def hopLoop (only : Bool) : Nat → Sp K → Sp K → List (Sp K) → Except Err (Sp K × List (Sp K))
  | 0, Ak, _, hist => .ok (Ak, hist)
  | n + 1, Ak, A1, hist => do
    let Ak' ← Ak.mm A1
    hopLoop only n Ak' A1 (if only then hist else hist ++ [Ak'])

/-- `for A_ in A_history: A_k = A_k + A_` (hypergraph.py:246-247) -/
def addAll : Sp K → List (Sp K) → Except Err (Sp K)
  | A, [] => .ok A
  | A, B :: Bs => do
    let C ← A.add B
    addAll C Bs

/-- the matrix whose rows give the hyperedges (hypergraph.py:238-247) -/
def hopMat (only : Bool) (k : Nat) (A : Sp K) : Except Err (Sp K) := do
  let p ← hopLoop only (k - 1) A A []
  if only then .ok p.1 else addAll A p.2

/-- `tuple(set([v_idx] + A_k[v_idx]._indices()...))` (hypergraph.py:248-250); the order of the tuple
is left open by Python and immaterial, since hyperedges are sorted when added -/
def hopEdge (M : Sp K) (v : Nat) : Except Err (List Int) := do
  let l ← M.rowIdx v
  .ok (((v : Int) :: l.map fun u : Nat => (u : Int)).dedup)

/-- `_e_list_from_graph_kHop` (hypergraph.py:226-251) -/
def kHopList (k : Int) (only : Bool) : PyM (GSt K) (List (List Int)) := do
  PyM.assert (decide (1 ≤ k))
  let A ← Graph.getA
  let M ← PyM.lift (hopMat only k.toNat A)
  let n ← readRaw GRaw.numV
  PyM.lift (collectE (List.range n) (hopEdge M))

/-- `Hypergraph.from_graph_kHop` (hypergraph.py:254-270) -/
def fromGraphKHop (k : Int) (only : Bool) : PyM (GSt K) (HSt K) := do
  let es ← kHopList k only
  let n ← readRaw GRaw.numV
  PyM.lift (Hyper.new n (some (listArg es)) .none none .mean)

/-- neighbours of a vertex of one side of a bipartite graph (hypergraph.py:285-293) -/
def sideNbr (uAsVertex : Bool) (i : Nat) : PyM (BSt K) (List Int) := do
  let l ← if uAsVertex then Ord.getNc .bi i else Ord.getNr .bi i
  pure (l.map fun u : Nat => (u : Int))

/-- number of vertices of that side (hypergraph.py:285-293) -/
def sideNum (uAsVertex : Bool) (r : GRaw K) : Nat := if uAsVertex then r.numV else r.numU

/-- `_e_list_from_bigraph` (hypergraph.py:273-295) -/
def bigraphList (uAsVertex : Bool) : PyM (BSt K) (List (List Int)) := do
  let n ← readRaw (sideNum uAsVertex)
  let ls ← PyM.collect (List.range n) (sideNbr uAsVertex)
  pure (ls.filter fun l => decide (0 < l.length))

/-- `Hypergraph.from_bigraph` (hypergraph.py:297-316) -/
def fromBigraph (uAsVertex : Bool) : PyM (BSt K) (HSt K) := do
  let es ← bigraphList uAsVertex
  let n ← readRaw (sideNum (!uAsVertex))
  PyM.lift (Hyper.new n (some (listArg es)) .none none .mean)

/-- `Hypergraph.add_hyperedges_from_graph` (hypergraph.py:366-375) -/
def addFromGraph (g : String) : PyM (HSt K × GSt K) Unit := do
  let n ← PyM.fst (readRaw HRaw.numV)
  let m ← PyM.snd (readRaw GRaw.numV)
  PyM.assert (decide (n = m))
  let p ← PyM.snd Graph.getE
  PyM.snd formatCachedE
  PyM.fst (addHyperedges (listArg (p.1.map fun e => [e.1, e.2])) (.list p.2) .mean g)

/-- `Hypergraph.add_hyperedges_from_graph_kHop` (hypergraph.py:377-393) -/
def addFromGraphKHop (k : Int) (only : Bool) (g : String) : PyM (HSt K × GSt K) Unit := do
  let n ← PyM.fst (readRaw HRaw.numV)
  let m ← PyM.snd (readRaw GRaw.numV)
  PyM.assert (decide (n = m))
  let es ← PyM.snd (kHopList k only)
  PyM.fst (addHyperedges (listArg es) .none .mean g)

/-- `Hypergraph.add_hyperedges_from_bigraph` (hypergraph.py:395-415) -/
def addFromBigraph (uAsVertex : Bool) (g : String) : PyM (HSt K × BSt K) Unit := do
  let n ← PyM.fst (readRaw HRaw.numV)
  let m ← PyM.snd (readRaw (sideNum (!uAsVertex)))
  PyM.assert (decide (n = m))
  let es ← PyM.snd (bigraphList uAsVertex)
  PyM.fst (addHyperedges (listArg es) .none .mean g)

/-- `_e_list_from_feature_kNN` (hypergraph.py:178-193): `topk D` is the index part of
`torch.topk(D, k, largest=False)` for the distance matrix `D = torch.cdist(X, X)`, row by row; it is
a parameter because torch leaves the choice among equal distances open.  Features with other than
two dimensions are not modelled. -/
def kNNList (rows : Nat) (dist : Nat → Nat → K) (topk : (Nat → K) → List Nat) (k : Int) :
    Except Err (List (List Int)) :=
  if k ≤ (rows : Int) then
    .ok ((List.range rows).map fun v => (topk (dist v)).map fun u : Nat => (u : Int))
  else .error .assertion

/-- `Hypergraph.from_feature_kNN` (hypergraph.py:196-209) -/
def fromFeatureKNN (rows : Nat) (dist : Nat → Nat → K) (topk : (Nat → K) → List Nat) (k : Int) :
    Except Err (HSt K) := do
  let es ← kNNList rows dist topk k
  Hyper.new rows (some (listArg es)) .none none .mean

/-- `Hypergraph.add_hyperedges_from_feature_kNN` (hypergraph.py:352-364) -/
def addFromFeatureKNN (rows : Nat) (dist : Nat → Nat → K) (topk : (Nat → K) → List Nat) (k : Int)
    (g : String) : PyM (HSt K) Unit := do
  let n ← readRaw HRaw.numV
  PyM.assert (decide (rows = n))
  let es ← PyM.lift (kNNList rows dist topk k)
  addHyperedges (listArg es) .none .mean g

end Hyper
end DHG
