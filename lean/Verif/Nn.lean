import Verif.Convert
import Mathlib.Algebra.BigOperators.Group.Finset.Basic

/-!
# Neural layers: `dhg/nn/convs`

Batch normalisation and dropout of torch are external: a layer carries them as functions.  In
evaluation mode dropout is the identity and batch normalisation acts on each column entry by entry.
-/

set_option linter.unusedSectionVars false
set_option autoImplicit false

namespace DHG

variable {K : Type} [Field K] [LinearOrder K]

namespace Nn

/-- size of one axis of two broadcast tensors (torch broadcasting)
(torch semantics, e.g. nn/convs/graphs/gin_conv.py:43) -/
def bdim (a b : Nat) : Option Nat :=
  if a = b then some a else if a = 1 then some b else if b = 1 then some a else none

/-- index along one axis of a broadcast tensor
(torch semantics, e.g. nn/convs/graphs/gin_conv.py:43) -/
def bidx (size i : Nat) : Nat := if size = 1 then 0 else i

/-- an elementwise binary operation on two matrices with torch broadcasting
(torch semantics, e.g. nn/convs/graphs/gin_conv.py:43) -/
def zipD (f : K → K → K) (X Y : Dense K) : Except Err (Dense K) :=
  match bdim X.rows Y.rows, bdim X.cols Y.cols with
  | some r, some c => .ok { rows := r, cols := c
                            at_ := fun i j => f (X.at_ (bidx X.rows i) (bidx X.cols j))
                              (Y.at_ (bidx Y.rows i) (bidx Y.cols j)) }
  | _, _ => .error .runtime

/-- an elementwise unary operation (e.g. nn/convs/graphs/gcn_conv.py:39) -/
def mapD (f : K → K) (X : Dense K) : Dense K := { X with at_ := fun i c => f (X.at_ i c) }

/-- `nn.Linear`: weight of shape (out, in) and optional bias
(e.g. nn/convs/graphs/gcn_conv.py:41) -/
structure Linear (K : Type) where
  weight : Dense K
  bias : Option (Nat → K)

/-- `nn.Linear.forward`: `X Wᵀ + b` (e.g. nn/convs/graphs/gcn_conv.py:41) -/
def Linear.fwd (l : Linear K) (X : Dense K) : Except Err (Dense K) :=
  if X.cols = l.weight.cols then
    .ok { rows := X.rows, cols := l.weight.rows
          at_ := fun i o => (∑ c ∈ Finset.range X.cols, X.at_ i c * l.weight.at_ o c) +
            (match l.bias with | none => 0 | some b => b o) }
  else .error .runtime

/-- `nn.ReLU` (nn/convs/graphs/gcn_conv.py:39) -/
def relu (x : K) : K := if 0 < x then x else 0

/-- `nn.LeakyReLU(slope)` (nn/convs/graphs/gat_conv.py:34) -/
def leakyRelu (slope x : K) : K := if 0 < x then x else slope * x

/-- `nn.ELU` with `alpha = 1` (nn/convs/graphs/gat_conv.py:35) -/
def elu [PyReal K] (x : K) : K := if 0 < x then x else PyReal.exp x - 1

/-- `torch.clamp(x, min=lo, max=hi)` (nn/convs/graphs/gat_conv.py:54) -/
def clamp (lo hi x : K) : K := min (max x lo) hi

/-- the constructor arguments shared by the layers (gcn_conv.py:27-41, graphsage_conv.py:24-44,
hgnn_conv.py:29-43, hgnnp_conv.py:38-52, hnhn_conv.py:19-34, dhcf_conv.py:26-40,
unignn_conv.py:36-50, 180-194, 244-264): whether it is the last layer, batch normalisation (absent
unless `use_bn`) and dropout -/
structure Tail (K : Type) where
  isLast : Bool
  bn : Option (Dense K → Except Err (Dense K))
  drop : Dense K → Dense K

/-- the common end of the `forward` methods (gcn_conv.py:52-57, graphsage_conv.py:59-64,
hgnn_conv.py:54-59, hgnnp_conv.py:63-68, hnhn_conv.py:49-54, hypergcn_conv.py:59-64,
dhcf_conv.py:51-56, unignn_conv.py:75-80, 206-211, 276-281) -/
def Tail.run (t : Tail K) (X : Dense K) : Except Err (Dense K) :=
  if t.isLast then .ok X
  else
    match t.bn with
    | none => .ok (t.drop (mapD relu X))
    | some f =>
      match f (mapD relu X) with
      | .ok Y => .ok (t.drop Y)
      | .error e => .error e

/-- a layer with one linear map (e.g. nn/convs/graphs/gcn_conv.py:29-41) -/
structure Conv (K : Type) extends Tail K where
  theta : Linear K

section Real
variable [PyReal K]

/-! ### Layers on graphs -/

/-- `GCNConv.forward` (gcn_conv.py:43-57) -/
def gcnConv (l : Conv K) (X : Dense K) : PyM (GSt K) (Dense K) := do
  let X ← PyM.lift (l.theta.fwd X)
  let X ← Graph.smoothGCN X 0 fun _ => true
  PyM.lift (l.run X)

/-- `GINConv.forward` (gin_conv.py:36-45); `mlp` is the module passed by the user -/
def ginConv (mlp : Dense K → Except Err (Dense K)) (eps : K) (X : Dense K) : PyM (GSt K) (Dense K) := do
  let Y ← Graph.v2v X .sum none 0 fun _ => true
  let Z ← PyM.lift (zipD (· + ·) (mapD (fun x => (1 + eps) * x) X) Y)
  PyM.lift (mlp Z)

/-- `torch.cat([X, Y], dim=1)` (nn/convs/graphs/graphsage_conv.py:55) -/
def catCols (X Y : Dense K) : Except Err (Dense K) :=
  if X.rows = Y.rows then
    .ok { rows := X.rows, cols := X.cols + Y.cols
          at_ := fun i c => if c < X.cols then X.at_ i c else Y.at_ i (c - X.cols) }
  else .error .runtime

/-- `GraphSAGEConv.forward` with `aggr="mean"`, the only value `__init__` accepts
(graphsage_conv.py:35-44, 46-64) -/
def sageConv (l : Conv K) (X : Dense K) : PyM (GSt K) (Dense K) := do
  let Y ← Graph.v2v X .mean none 0 fun _ => true
  let X ← PyM.lift (catCols X Y)
  let X ← PyM.lift (l.theta.fwd X)
  PyM.lift (l.run X)

/-- `GATConv` (gat_conv.py:20-38); `attDrop i x` is what the attention dropout makes of the `i`-th
score `x`; `attSrc` and `attDst` have one output channel -/
structure Gat (K : Type) where
  theta : Linear K
  attSrc : Linear K
  attDst : Linear K
  slope : K
  attDrop : Nat → K → K
  isLast : Bool
  bn : Option (Dense K → Except Err (Dense K))

/-- lines 51-54 of gat_conv.py and 137-142 of unignn_conv.py: activation, `.squeeze()`, dropout and
clamp of one score per message -/
def attWeights (slope : K) (attDrop : Nat → K → K) (s : List K) : List K :=
  s.mapIdx fun i x => clamp (1 / 1000) 5 (attDrop i (leakyRelu slope x))

/-- `x[idx]` for a one-column tensor `x` (nn/convs/graphs/gat_conv.py:50) -/
def gather (X : Dense K) (is : List Nat) : Except Err (List K) :=
  if is.all fun i => decide (i < X.rows) then .ok (is.map fun i => X.at_ i 0) else .error .index

/-- a call of `v2v`/`e2v` with the weight tensor `w` obtained by `.squeeze()`: with exactly one
message the tensor has no dimension left, and `e_weight.shape[0]` raises `IndexError`
(graph.py:687, hypergraph.py:1477) -/
def squeezed {σ α : Type} (w : List K) (m : PyM σ α) : PyM σ α :=
  if w.length = 1 then PyM.raise .index else m

/-- the end of `GATConv.forward` and `UniGATConv.forward` (gat_conv.py:58-62,
unignn_conv.py:146-150): no dropout of features -/
def eluTail (isLast : Bool) (bn : Option (Dense K → Except Err (Dense K))) (X : Dense K) :
    Except Err (Dense K) :=
  if isLast then .ok X
  else
    match bn with
    | none => .ok (mapD elu X)
    | some f => f (mapD elu X)

/-- `GATConv.forward` (gat_conv.py:40-62) -/
def gatConv (l : Gat K) (X : Dense K) : PyM (GSt K) (Dense K) := do
  let X ← PyM.lift (l.theta.fwd X)
  let S ← PyM.lift (l.attSrc.fwd X)
  let T ← PyM.lift (l.attDst.fwd X)
  let src ← Graph.getESrc
  let dst ← Graph.getEDst
  let S ← PyM.lift (gather S src)
  let T ← PyM.lift (gather T dst)
  let w := attWeights l.slope l.attDrop (List.zipWith (· + ·) S T)
  let Y ← squeezed w (Graph.v2v X .softmax (some w) 0 fun _ => true)
  PyM.lift (eluTail l.isLast l.bn Y)

/-! ### Layers on hypergraphs -/

/-- `HGNNConv.forward` (hgnn_conv.py:45-59) -/
def hgnnConv (l : Conv K) (X : Dense K) : PyM (HSt K) (Dense K) := do
  let X ← PyM.lift (l.theta.fwd X)
  let X ← Hyper.smoothHGNN none X 0 fun _ => true
  PyM.lift (l.run X)

/-- `HGNNPConv.forward` (hgnnp_conv.py:54-68) -/
def hgnnpConv (l : Conv K) (X : Dense K) : PyM (HSt K) (Dense K) := do
  let X ← PyM.lift (l.theta.fwd X)
  let X ← Hyper.v2v none X { aggr := .mean, rate := 0 }
  PyM.lift (l.run X)

/-- `HNHNConv.forward` (hnhn_conv.py:36-54); `l.theta` is `theta_v2e` -/
def hnhnConv (l : Conv K) (thetaE2v : Linear K) (X : Dense K) : PyM (HSt K) (Dense K) := do
  let X ← PyM.lift (l.theta.fwd X)
  let Y ← Hyper.v2e none X .mean none none 0 fun _ => true
  let Y ← PyM.lift (thetaE2v.fwd (mapD relu Y))
  let X ← Hyper.e2v none Y .mean none 0 fun _ => true
  PyM.lift (l.run X)

/-- `JHConv.forward` (dhcf_conv.py:42-56) -/
def jhConv (l : Conv K) (X : Dense K) : PyM (HSt K) (Dense K) := do
  let X' ← PyM.lift (l.theta.fwd X)
  let Y ← Hyper.smoothHGNN none X' 0 fun _ => true
  let X ← PyM.lift (zipD (· + ·) Y X)
  PyM.lift (l.run X)

/-- `_De` of `UniGCNConv` (unignn_conv.py:63-69): for each hyperedge, the sum of the degrees of its
vertices over the number of those that are not 0, to the power -1/2, infinite values replaced by 1.
`none` is NaN, which `isinf` does not catch: from `0 / 0` and from negative values. -/
def uniDe (numE : Nat) (dv : List K) (src dst : List Nat) : List (Option K) :=
  (List.range numE).map fun e =>
    let ds := ((List.zip src dst).filter fun p => decide (p.2 = e)).map fun p => dv.getD p.1 0
    let tot := ds.sum
    let num : K := ((ds.filter fun d => decide (d ≠ 0)).length : Nat)
    if num = 0 then none
    else if tot / num = 0 then some 1
    else if tot / num < 0 then none
    else some (PyReal.rsqrt (tot / num))

/-- `_De.view(-1, 1) * Y` (unignn_conv.py:70); a NaN factor gives a result with NaN -/
def scaleNan (d : List (Option K)) (Y : Dense K) : Except Err (Dense K) :=
  if d.length = Y.rows then
    if d.all Option.isSome then .ok { Y with at_ := fun i c => (d.getD i none).getD 0 * Y.at_ i c }
    else .error .nan
  else .error .runtime

/-- `UniGCNConv.forward` (unignn_conv.py:52-80) -/
def uniGcnConv (l : Conv K) (X : Dense K) : PyM (HSt K) (Dense K) := do
  let X ← PyM.lift (l.theta.fwd X)
  let Y ← Hyper.v2e none X .mean none none 0 fun _ => true
  let m ← Hyper.getNumE none
  let D ← Hyper.getDv none
  let T ← Hyper.getHT none
  let d := uniDe m (D.ents.map Prod.snd) (T.ents.map fun e => e.1.2) (T.ents.map fun e => e.1.1)
  let Y ← PyM.lift (scaleNan d Y)
  let X ← Hyper.e2v none Y .sum none 0 fun _ => true
  let D ← Hyper.getDvN12 none
  let X ← PyM.lift (D.mmD X)
  PyM.lift (l.run X)

/-- `UniSAGEConv.forward` (unignn_conv.py:196-211) -/
def uniSageConv (l : Conv K) (X : Dense K) : PyM (HSt K) (Dense K) := do
  let X ← PyM.lift (l.theta.fwd X)
  let Y ← Hyper.v2e none X .mean none none 0 fun _ => true
  let Z ← Hyper.e2v none Y .sum none 0 fun _ => true
  let X ← PyM.lift (zipD (· + ·) Z X)
  PyM.lift (l.run X)

/-- `UniGINConv.forward` (unignn_conv.py:266-281) -/
def uniGinConv (l : Conv K) (eps : K) (X : Dense K) : PyM (HSt K) (Dense K) := do
  let X ← PyM.lift (l.theta.fwd X)
  let Y ← Hyper.v2e none X .mean none none 0 fun _ => true
  let Z ← Hyper.e2v none Y .sum none 0 fun _ => true
  let X ← PyM.lift (zipD (· + ·) (mapD (fun x => (1 + eps) * x) Z) X)
  PyM.lift (l.run X)

/-- `UniGATConv` (unignn_conv.py:107-125); `atten_dst` is created but never used -/
structure UniGat (K : Type) where
  theta : Linear K
  attE : Linear K
  slope : K
  attDrop : Nat → K → K
  isLast : Bool
  bn : Option (Dense K → Except Err (Dense K))

/-- `UniGATConv.forward` (unignn_conv.py:127-150) -/
def uniGatConv (l : UniGat K) (X : Dense K) : PyM (HSt K) (Dense K) := do
  let X ← PyM.lift (l.theta.fwd X)
  let Y ← Hyper.v2e none X .mean none none 0 fun _ => true
  let A ← PyM.lift (l.attE.fwd Y)
  let H ← Hyper.getH none
  let A ← PyM.lift (gather A (H.ents.map fun e => e.1.2))
  let w := attWeights l.slope l.attDrop A
  let X ← squeezed w (Hyper.e2v none Y .softmax (some w) 0 fun _ => true)
  PyM.lift (eluTail l.isLast l.bn X)

/-- run a method of another object held in a variable; its state is not looked at afterwards
(nn/convs/hypergraphs/hypergcn_conv.py:53-58) -/
def onOther {σ τ α : Type} (t : τ) (m : PyM τ α) : PyM σ α := PyM.lift (m t).1

/-- `HyperGCNConv.forward` (hypergcn_conv.py:41-64); `rv` is the random direction drawn by
`from_hypergraph_hypergcn` -/
def hyperGcnConv (l : Conv K) (mediator : Bool) (cached : Option (GSt K)) (rv : Nat → K) (X : Dense K) :
    PyM (HSt K) (Dense K) := do
  let X ← PyM.lift (l.theta.fwd X)
  match cached with
  | none => do
    let g ← Graph.fromHypergraphHypergcn X mediator true rv
    let X ← onOther g (Graph.smoothGCN X 0 fun _ => true)
    PyM.lift (l.run X)
  | some g => do
    let X ← onOther g (Graph.smoothGCN X 0 fun _ => true)
    PyM.lift (l.run X)

end Real
end Nn
end DHG
