import Verif.Ordered
import Verif.GraphApi

/-!
# `BiGraph` (dhg/structure/graphs/bipartite_graph.py)
-/

set_option linter.unusedSectionVars false
set_option autoImplicit false

namespace DHG

variable {K : Type} [Field K] [LinearOrder K]

/-- mutating calls on a `BiGraph` (bipartite_graph.py:281-334; inherited: base.py:86-92, 242-259) -/
inductive BOp (K : Type)
  | addEdges (arg : EArg K) (op : MergeOp)
  | removeEdges (arg : EArg K)
  | addExtraSelfloop
  | removeExtraSelfloop
  | removeSelfloop
  | clear

/-- reading calls on a `BiGraph` (bipartite_graph.py:366-747, base.py:262-335) -/
inductive BQuery (K : Type)
  | e | numU | numV | numE | A | B | BT | Du | Dv | DuN1 | DvN1 | Nv (u : Int) | Nu (v : Int)
  | degU | degV | eU | eV | eWeight | LGCN
  | smoothGCN (X : Dense K) (dropRate : K) (keep : Nat → Bool)
  | u2v (X : Dense K) (aggr : Aggr) (ew : Option (List K)) (dropRate : K) (keep : Nat → Bool)
  | v2u (X : Dense K) (aggr : Aggr) (ew : Option (List K)) (dropRate : K) (keep : Nat → Bool)

/-- a `BiGraph` object (bipartite_graph.py:16-40) -/
abbrev BSt (K : Type) := OSt K

/-- `torch.vstack` of two sparse tensors (bipartite_graph.py:477) -/
def Sp.vcat (A B : Sp K) : Except Err (Sp K) :=
  if A.cols = B.cols then
    .ok { rows := A.rows + B.rows, cols := A.cols
          ents := A.ents ++ B.ents.map fun e => ((e.1.1 + A.rows, e.1.2), e.2) }
  else .error .runtime

namespace BiGraph

/-- `BiGraph.__init__` before edges are added (bipartite_graph.py:36-38, base.py:40-52): `num_v`
must be positive, `num_u` is not checked.  Negative `num_u` is not modelled. -/
def initRaw (numU : Nat) (numV : Int) : Except Err (GRaw K) := do
  let r ← GRaw.init numV false
  .ok { r with numU := numU }

/-- `BiGraph.__init__` (bipartite_graph.py:28-40) -/
def new (numU : Nat) (numV : Int) (arg : Option (EArg K)) (op : MergeOp) :
    Except Err (BSt K) := do
  let r ← initRaw numU numV
  match arg with
  | none => .ok { raw := r, cache := [] }
  | some arg =>
    match Ord.addEdges .bi arg op { raw := r, cache := [] } with
    | (.ok _, s) => .ok s
    | (.error e, _) => .error e

/-- `BiGraph.clone` (bipartite_graph.py:162-169): the constructor is called with the two sizes; the
edge dictionary and the cache are deep-copied, `_has_extra_selfloop` is not -/
def clone (s : BSt K) : Except Err (BSt K) := do
  let r ← initRaw s.raw.numU s.raw.numV
  .ok { raw := { r with eDict := s.raw.eDict }, cache := s.cache }

/-- `BiGraph.switch_uv` (bipartite_graph.py:336-343) -/
def switchUv (s : BSt K) : Except Err (BSt K) := do
  let g ← clone s
  .ok { raw := { g.raw with
          numU := s.raw.numV, numV := s.raw.numU
          eDict := Dict.ofPairs (s.raw.eDict.map fun p => ((p.1.2, p.1.1), p.2)) }
        cache := [] }

/-- `BiGraph.state_dict` (bipartite_graph.py:48-55) -/
structure StateDict (K : Type) where
  numU : Nat
  numV : Nat
  eDict : Dict (Int × Int) K
  deriving DecidableEq, Repr

/-- `BiGraph.state_dict` (bipartite_graph.py:48-55); sharing of the dict object is modelled in
`Heap.lean` -/
def stateDict (s : BSt K) : StateDict K :=
  { numU := s.raw.numU, numV := s.raw.numV, eDict := s.raw.eDict }

/-- `BiGraph.from_state_dict` (bipartite_graph.py:210-218) -/
def fromStateDict (d : StateDict K) : Except Err (BSt K) := do
  let r ← initRaw (K := K) d.numU d.numV
  .ok { raw := { r with eDict := d.eDict }, cache := [] }

/-- `BiGraph.from_adj_list` (bipartite_graph.py:221-242) -/
def fromAdjList (numU : Nat) (numV : Int) (adj : List (List Int)) : Except Err (BSt K) :=
  new numU numV (some (.many (Graph.adjListEdges adj) .none)) .mean

/-- `BiGraph.drop_edges` (bipartite_graph.py:345-363) -/
def dropEdges (rate : K) (uniform : Bool) (rnd : Nat → K) (s : BSt K) : Except Err (BSt K) :=
  if uniform then
    fromStateDict
      { numU := s.raw.numU, numV := s.raw.numV
        eDict := Graph.dropFilter rate rnd 0 s.raw.eDict }
  else .error .value

/-- `BiGraph.A` (bipartite_graph.py:469-478) -/
def getA : PyM (BSt K) (Sp K) := do
  let v ← memo .A do
    let nu ← readRaw GRaw.numU
    let nv ← readRaw GRaw.numV
    let B ← Ord.getM .bi
    let up ← PyM.lift ((Sp.empty nu nu).hcat B)
    let BT ← Ord.getMT .bi
    let down ← PyM.lift (BT.hcat (Sp.empty nv nv))
    let A ← PyM.lift (Sp.vcat up down)
    pure (GVal.mat A.coalesce)
  Ord.asMat v

section Real
variable [PyReal K]

/-- the matrix `D^{-1/2} (A + I) D^{-1/2}` as computed by `BiGraph.L_GCN`
(bipartite_graph.py:606-622) from `A` of size `n` -/
def gcnOf (n : Nat) (A : Sp K) : Except Err (Sp K) := do
  let A' : Sp K := Sp.coalesce
    { rows := n, cols := n
      ents := A.ents ++ (List.range n).map fun i : Nat => ((i, i), 1) }
  let D ← (Sp.diag A'.rowSum).rsqrt
  let M ← D.mm A'
  let N ← M.mm D
  .ok N.coalesce

/-- `BiGraph.L_GCN` (bipartite_graph.py:602-623) -/
def getLGCN : PyM (BSt K) (Sp K) := do
  let v ← memo .LGCN do
    let nu ← readRaw GRaw.numU
    let nv ← readRaw GRaw.numV
    let A ← getA
    let L ← PyM.lift (gcnOf (nu + nv) A)
    pure (GVal.mat L)
  Ord.asMat v

/-- `BiGraph.smoothing_with_GCN` (bipartite_graph.py:625-638) -/
def smoothGCN (X : Dense K) (dropRate : K) (keep : Nat → Bool) : PyM (BSt K) (Dense K) := do
  let L ← getLGCN
  let L ← Graph.dropMaybe L dropRate keep
  PyM.lift (L.mmD X)

/-- `BiGraph.u2v` (bipartite_graph.py:643-694) -/
def u2v (X : Dense K) (aggr : Aggr) (ew : Option (List K)) (dropRate : K) (keep : Nat → Bool) :
    PyM (BSt K) (Dense K) := do
  PyM.assert (decide (aggr ≠ .other))
  Ord.toCols .bi X aggr ew dropRate keep

/-- `BiGraph.v2u` (bipartite_graph.py:696-747) -/
def v2u (X : Dense K) (aggr : Aggr) (ew : Option (List K)) (dropRate : K) (keep : Nat → Bool) :
    PyM (BSt K) (Dense K) := do
  PyM.assert (decide (aggr ≠ .other))
  Ord.toRows .bi X aggr ew dropRate keep

end Real

/-- execute one mutating call (the mutating methods, bipartite_graph.py:157-363) -/
def apply : BOp K → PyM (BSt K) Unit
  | .addEdges arg op => Ord.addEdges .bi arg op
  | .removeEdges arg => Ord.removeEdges .bi arg
  | .addExtraSelfloop => DHG.addExtraSelfloop
  | .removeExtraSelfloop => DHG.removeExtraSelfloop
  | .removeSelfloop => DHG.removeSelfloop
  | .clear => clearAll

/-- execute one reading call; `deg_u`, `deg_v` (bipartite_graph.py:407-416) are the values of the
degree matrices, `nbr_u`, `nbr_v` (418-426) call `N_u`, `N_v` -/
def ask [PyReal K] : BQuery K → PyM (BSt K) (GAns K)
  | .e => do let p ← Ord.getE; pure (.edges p.1 p.2)
  | .numU => do let n ← readRaw GRaw.numU; pure (.num n)
  | .numV => do let n ← readRaw GRaw.numV; pure (.num n)
  | .numE => do let n ← readRaw GRaw.numE; pure (.num n)
  | .A => do let M ← getA; pure (.mat M)
  | .B => do let M ← Ord.getM .bi; pure (.mat M)
  | .BT => do let M ← Ord.getMT .bi; pure (.mat M)
  | .Du => do let M ← Ord.getDr .bi; pure (.mat M)
  | .Dv => do let M ← Ord.getDc .bi; pure (.mat M)
  | .DuN1 => do let M ← Ord.getDrN1 .bi; pure (.mat M)
  | .DvN1 => do let M ← Ord.getDcN1 .bi; pure (.mat M)
  | .Nv u => do let l ← Ord.getNr .bi u; pure (.idx l)
  | .Nu v => do let l ← Ord.getNc .bi v; pure (.idx l)
  | .degU => do let M ← Ord.getDr .bi; pure (.vec (M.ents.map Prod.snd))
  | .degV => do let M ← Ord.getDc .bi; pure (.vec (M.ents.map Prod.snd))
  | .eU => do let l ← Ord.getERow .bi; pure (.idx l)
  | .eV => do let l ← Ord.getECol .bi; pure (.idx l)
  | .eWeight => do let l ← Ord.getEWeight .bi; pure (.vec l)
  | .LGCN => do let M ← getLGCN; pure (.mat M)
  | .smoothGCN X p keep => do let Y ← smoothGCN X p keep; pure (.feat Y)
  | .u2v X aggr ew p keep => do let Y ← u2v X aggr ew p keep; pure (.feat Y)
  | .v2u X aggr ew p keep => do let Y ← v2u X aggr ew p keep; pure (.feat Y)

/-- a history: mutations and reads in any order
(a caller of the methods in bipartite_graph.py; no line of its own) -/
inductive Step (K : Type)
  | op (o : BOp K)
  | read (q : BQuery K)

/-- state after one step (calls that raise included: the state is what they left behind)
(a caller of the methods in bipartite_graph.py; no line of its own) -/
def step [PyReal K] (g : BSt K) : Step K → BSt K
  | .op o => (apply o g).2
  | .read q => (ask q g).2

/-- state after a history (a caller of the methods in bipartite_graph.py; no line of its own) -/
def run [PyReal K] (g : BSt K) (h : List (Step K)) : BSt K := h.foldl step g

/-- All `BiGraph` objects obtainable through the public interface with edge arguments satisfying
`P`. (bipartite_graph.py:28-40, 157-363, 368-747) -/
inductive Any [PyReal K] (P : EArg K → Prop) : BSt K → Prop
  | new {m n arg op g} (h : BiGraph.new m n arg op = .ok g) (hP : ∀ a, arg = some a → P a) :
      Any P g
  | adj {m n adj g} (h : fromAdjList m n adj = .ok g)
      (hP : P (.many (Graph.adjListEdges adj) .none)) : Any P g
  | op {g} (o : BOp K) (hg : Any P g) (hP : ∀ a op, o = .addEdges a op → P a) :
      Any P (apply o g).2
  | read {g} (q : BQuery K) (hg : Any P g) : Any P (ask q g).2
  | clone {g g'} (hg : Any P g) (h : clone g = .ok g') : Any P g'
  | switch {g g'} (hg : Any P g) (h : switchUv g = .ok g') : Any P g'
  | state {g g'} (hg : Any P g) (h : fromStateDict (stateDict g) = .ok g') : Any P g'
  | drop {g g' rate uniform rnd} (hg : Any P g) (h : dropEdges rate uniform rnd g = .ok g') :
      Any P g'

/-- calls that clear the cache when they return normally: all, except `add_edges` without edges
(bipartite_graph.py:157-160, 281-334) -/
def Clears : BOp K → Prop
  | .addEdges arg _ => arg.isEmpty = false
  | _ => True

/-- Objects obtainable without `clone` being applied to an object with the extra self loop flag set
(or with a cache clearing call made since).  `switch_uv`, `from_state_dict` and `drop_edges` return
objects with an empty cache and may follow any history.
(bipartite_graph.py:162-169, 210-218, 336-363) -/
inductive Built [PyReal K] (P : EArg K → Prop) : BSt K → Prop
  | new {m n arg op g} (h : BiGraph.new m n arg op = .ok g) (hP : ∀ a, arg = some a → P a) :
      Built P g
  | adj {m n adj g} (h : fromAdjList m n adj = .ok g)
      (hP : P (.many (Graph.adjListEdges adj) .none)) : Built P g
  | refresh {g} (o : BOp K) (hg : Any P g) (hc : Clears o) (hok : (apply o g).1 = .ok ())
      (hP : ∀ a op, o = .addEdges a op → P a) : Built P (apply o g).2
  | op {g} (o : BOp K) (hg : Built P g) (hP : ∀ a op, o = .addEdges a op → P a) :
      Built P (apply o g).2
  | read {g} (q : BQuery K) (hg : Built P g) : Built P (ask q g).2
  | clone {g g'} (hg : Built P g) (hf : g.raw.extra = false) (h : clone g = .ok g') : Built P g'
  | switch {g g'} (hg : Any P g) (h : switchUv g = .ok g') : Built P g'
  | state {g g'} (hg : Any P g) (h : fromStateDict (stateDict g) = .ok g') : Built P g'
  | drop {g g' rate uniform rnd} (hg : Any P g) (h : dropEdges rate uniform rnd g = .ok g') :
      Built P g'

end BiGraph
end DHG
