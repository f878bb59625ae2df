import Verif.Nn
import Verif.BiGraph

/-!
# Models: `dhg/models`, and the building blocks in `dhg/nn/convs/common.py`

As in `Verif/Nn.lean`, batch normalisation and dropout of torch are parameters.
-/

set_option linter.unusedSectionVars false
set_option autoImplicit false

namespace DHG

variable {K : Type} [Field K] [LinearOrder K]

namespace Nn

/-! ### `MLP` -/

/-- the modules appended to `MLP.layers`, with their channels; `k` numbers the blocks
(nn/convs/common.py:33-47) -/
inductive MlpItem where
  | linear (k inC outC : Nat)
  | act
  | bn (k c : Nat)
  | drop (k : Nat)
  deriving DecidableEq

/-- `Linear`, activation, batch normalisation if wanted, `Dropout` (common.py:34-38, 43-47) -/
def mlpBlock (useBn : Bool) (k i o : Nat) : List MlpItem :=
  [.linear k i o, .act] ++ (if useBn then [.bn k o] else []) ++ [.drop k]

/-- the modules built by `MLP.__init__` (common.py:28-47): one block per two consecutive channels, the
last one without activation if `is_last` -/
def mlpItems (useBn isLast : Bool) (channels : List Nat) : Except Err (List MlpItem) :=
  if channels.length < 2 then .error .assertion
  else
    let n := channels.length
    .ok (((List.range' 1 (n - 2)).flatMap fun idx =>
        mlpBlock useBn (idx - 1) (channels.getD (idx - 1) 0) (channels.getD idx 0)) ++
      (if isLast then [.linear (n - 2) (channels.getD (n - 2) 0) (channels.getD (n - 1) 0)]
        else mlpBlock useBn (n - 2) (channels.getD (n - 2) 0) (channels.getD (n - 1) 0)))

/-- parameters of an `MLP`: weights and biases of the linear maps, the activation, batch normalisation
and dropout (nn/convs/common.py:30-47) -/
structure MlpPar (K : Type) where
  weight : Nat → Nat → Nat → K
  bias : Nat → Nat → K
  act : K → K
  bn : Nat → Dense K → Except Err (Dense K)
  drop : Nat → Dense K → Dense K

/-- one module (nn/convs/common.py:52-53) -/
def MlpPar.item (P : MlpPar K) (it : MlpItem) (X : Dense K) : Except Err (Dense K) :=
  match it with
  | .linear k i o => (Linear.mk { rows := o, cols := i, at_ := P.weight k } (some (P.bias k))).fwd X
  | .act => .ok (mapD P.act X)
  | .bn k _ => P.bn k X
  | .drop k => .ok (P.drop k X)

/-- `MLP.forward` (common.py:49-54) -/
def MlpPar.run (P : MlpPar K) : List MlpItem → Dense K → Except Err (Dense K)
  | [], X => .ok X
  | it :: its, X => do
    let X ← P.item it X
    MlpPar.run P its X

/-- constructor and `forward` together (nn/convs/common.py:19-54) -/
def mlp (P : MlpPar K) (useBn isLast : Bool) (channels : List Nat) (X : Dense K) : Except Err (Dense K) := do
  let its ← mlpItems useBn isLast channels
  P.run its X

/-! ### `MultiHeadWrapper` -/

/-- `torch.cat(outs, dim=-1)` (nn/convs/common.py:97) -/
def catAll : List (Dense K) → Except Err (Dense K)
  | [] => .error .runtime
  | [X] => .ok X
  | X :: Xs => do
    let Y ← catAll Xs
    catCols X Y

/-- `torch.stack(outs)` followed by an operation on the list of values at each place
(nn/convs/common.py:99-105) -/
def stackWith (f : List K → K) (outs : List (Dense K)) : Except Err (Dense K) :=
  match outs with
  | [] => .error .runtime
  | X :: Xs =>
    if Xs.all fun Y => decide (Y.rows = X.rows ∧ Y.cols = X.cols) then
      .ok { rows := X.rows, cols := X.cols, at_ := fun i c => f (outs.map fun Y => Y.at_ i c) }
    else .error .runtime

/-- maximum of a non-empty list (nn/convs/common.py:103) -/
def maxOf : List K → K
  | [] => 0
  | [x] => x
  | x :: xs => max x (maxOf xs)

/-- `MultiHeadWrapper.forward` (common.py:90-107); `heads` are the calls of the layers -/
def multiHead {σ : Type} (readout : String) (heads : List (PyM σ (Dense K))) : PyM σ (Dense K) := do
  let outs ← PyM.collect heads id
  if readout = "concat" then PyM.lift (catAll outs)
  else if readout = "mean" then PyM.lift (stackWith (fun xs => xs.sum / (xs.length : K)) outs)
  else if readout = "max" then PyM.lift (stackWith maxOf outs)
  else if readout = "sum" then PyM.lift (stackWith List.sum outs)
  else do
    let _ ← PyM.lift (stackWith List.sum outs)
    PyM.raise .value

/-! ### stacks of layers -/

/-- `for layer in self.layers: X = layer(X, structure)` (models/graphs/gcn.py:35-37,
graphsage.py:41-43, models/hypergraphs/hgnn.py:43-45, hgnnp.py:43-45, hnhn.py:43-45,
unignn.py:34-36, 125-127, 169-171) -/
def stackRun {σ : Type} : List (Dense K → PyM σ (Dense K)) → Dense K → PyM σ (Dense K)
  | [], X => pure X
  | l :: ls, X => do
    let X ← l X
    stackRun ls X

section Real
variable [PyReal K]

/-- one layer of `GIN` with the prediction layer belonging to it: the parameters and the channels of
its `MLP` (built with `is_last = False`), `eps` (models/graphs/gin.py:42-65) -/
structure GinLayer (K : Type) where
  par : MlpPar K
  useBn : Bool
  channels : List Nat
  eps : K
  pred : Linear K

/-- the loop of `GIN.forward` (models/graphs/gin.py:75-78) -/
def ginLoop : List (GinLayer K) → Dense K → Dense K → PyM (GSt K) (Dense K)
  | [], _, pred => pure pred
  | l :: ls, X, pred => do
    let X ← ginConv (mlp l.par l.useBn false l.channels) l.eps X
    let P ← PyM.lift (l.pred.fwd X)
    let pred ← PyM.lift (zipD (· + ·) pred P)
    ginLoop ls X pred

/-- the models on graphs
(models/graphs/gcn.py:24-26, gat.py:21-52, gin.py:38-61, graphsage.py:30-32) -/
inductive GModel (K : Type) where
  /-- `GCN` (models/graphs/gcn.py:18-37) -/
  | gcn (layers : List (Conv K))
  /-- `GraphSAGE` (models/graphs/graphsage.py:20-43) -/
  | sage (layers : List (Conv K))
  /-- `GIN` (models/graphs/gin.py:24-78) -/
  | gin (pred0 : Linear K) (layers : List (GinLayer K))
  /-- `GAT` (models/graphs/gat.py:21-65) -/
  | gat (drop1 : Dense K → Dense K) (heads : List (Gat K)) (drop2 : Dense K → Dense K) (out : Gat K)

/-- `forward` of the models on graphs
(models/graphs/gcn.py:28-37, gat.py:54-65, gin.py:67-79, graphsage.py:34-43) -/
def GModel.run : GModel K → Dense K → PyM (GSt K) (Dense K)
  | .gcn ls, X => stackRun (ls.map gcnConv) X
  | .sage ls, X => stackRun (ls.map sageConv) X
  | .gin p ls, X => do
    let P ← PyM.lift (p.fwd X)
    ginLoop ls X P
  | .gat d1 hs d2 o, X => do
    let Y ← multiHead "concat" (hs.map fun h => gatConv h (d1 X))
    gatConv o (d2 Y)

/-- the models on hypergraphs that keep no state
(models/hypergraphs/hgnn.py:28-35, hgnnp.py:28-35, hnhn.py:28-35, unignn.py:23-25, 52-83, 114-116,
154-160, hypergcn.py:35-45) -/
inductive HModel (K : Type) where
  /-- `HGNN` (models/hypergraphs/hgnn.py:19-45) -/
  | hgnn (layers : List (Conv K))
  /-- `HGNNP` (models/hypergraphs/hgnnp.py:19-45) -/
  | hgnnp (layers : List (Conv K))
  /-- `HNHN` (models/hypergraphs/hnhn.py:19-45) -/
  | hnhn (layers : List (Conv K × Linear K))
  /-- `UniGCN` (models/hypergraphs/unignn.py:19-36) -/
  | uniGcn (layers : List (Conv K))
  /-- `UniSAGE` (models/hypergraphs/unignn.py:110-127) -/
  | uniSage (layers : List (Conv K))
  /-- `UniGIN` (models/hypergraphs/unignn.py:143-171) -/
  | uniGin (layers : List (Conv K × K))
  /-- `UniGAT` (models/hypergraphs/unignn.py:52-96) -/
  | uniGat (drop1 : Dense K → Dense K) (heads : List (UniGat K)) (drop2 : Dense K → Dense K) (out : UniGat K)

/-- `forward` of the models on hypergraphs
(models/hypergraphs/hgnn.py:36-45, hgnnp.py:36-45, hnhn.py:36-45, unignn.py:27-36, 85-96, 118-127,
162-171) -/
def HModel.run : HModel K → Dense K → PyM (HSt K) (Dense K)
  | .hgnn ls, X => stackRun (ls.map hgnnConv) X
  | .hgnnp ls, X => stackRun (ls.map hgnnpConv) X
  | .hnhn ls, X => stackRun (ls.map fun l => hnhnConv l.1 l.2) X
  | .uniGcn ls, X => stackRun (ls.map uniGcnConv) X
  | .uniSage ls, X => stackRun (ls.map uniSageConv) X
  | .uniGin ls, X => stackRun (ls.map fun l => uniGinConv l.1 l.2) X
  | .uniGat d1 hs d2 o, X => do
    let Y ← multiHead "concat" (hs.map fun h => uniGatConv h (d1 X))
    uniGatConv o (d2 Y)

/-- `HyperGCN` (models/hypergraphs/hypergcn.py:21-45): the layers, each with the random direction its
own conversion would draw -/
structure HyperGcn (K : Type) where
  fast : Bool
  mediator : Bool
  layers : List (Conv K × (Nat → K))

/-- a call of a method of the first of two objects (e.g. models/hypergraphs/dhcf.py:68-94) -/
def onFst {σ τ α : Type} (m : PyM σ α) : PyM (σ × τ) α := fun s => ((m s.1).1, ((m s.1).2, s.2))

/-- a call of a method of the second of two objects (e.g. models/hypergraphs/dhcf.py:68-94) -/
def onSnd {σ τ α : Type} (m : PyM τ α) : PyM (σ × τ) α := fun s => ((m s.2).1, (s.1, (m s.2).2))

/-- `self.cached_g`, created if it is `None` (models/hypergraphs/hypergcn.py:55-58) -/
def HyperGcn.graph (M : HyperGcn K) (rv : Nat → K) (X : Dense K) : PyM (HSt K × Option (GSt K)) (GSt K) :=
  fun s =>
    match s.2 with
    | some g => (.ok g, s)
    | none =>
      match Graph.fromHypergraphHypergcn X M.mediator true rv s.1 with
      | (.ok g, h) => (.ok g, (h, some g))
      | (.error e, h) => (.error e, (h, none))

/-- `HyperGCN.forward` (models/hypergraphs/hypergcn.py:47-64).  The state is the hypergraph passed to the
call and `self.cached_g`; `rv` is the random direction drawn when the latter is created.  What the layers
cache inside `cached_g` is not kept, which no later call can tell. -/
def HyperGcn.run (M : HyperGcn K) (rv : Nat → K) (X : Dense K) : PyM (HSt K × Option (GSt K)) (Dense K) :=
  if M.fast then do
    let g ← M.graph rv X
    onFst (stackRun (M.layers.map fun l => hyperGcnConv l.1 M.mediator (some g) l.2) X)
  else
    onFst (stackRun (M.layers.map fun l => hyperGcnConv l.1 M.mediator none l.2) X)

/-! ### recommendation models -/

/-- `torch.cat([X, Y], dim=0)` (models/graphs/lightgcn.py:51) -/
def catRows (X Y : Dense K) : Except Err (Dense K) :=
  if X.cols = Y.cols then
    .ok { rows := X.rows + Y.rows, cols := X.cols
          at_ := fun i c => if i < X.rows then X.at_ i c else Y.at_ (i - X.rows) c }
  else .error .runtime

/-- `torch.split(X, [m, n], dim=0)` (models/graphs/lightgcn.py:60) -/
def splitRows (m n : Nat) (X : Dense K) : Except Err (Dense K × Dense K) :=
  if m + n = X.rows then
    .ok ({ rows := m, cols := X.cols, at_ := X.at_ },
      { rows := n, cols := X.cols, at_ := fun i c => X.at_ (m + i) c })
  else .error .runtime

/-- the end of the recommendation models (lightgcn.py:57-61, ngcf.py:80-84, dhcf.py:91-95) -/
def meanSplit (m n : Nat) (embs : List (Dense K)) : Except Err (Dense K × Dense K) := do
  let E ← stackWith (fun xs => xs.sum / (xs.length : K)) embs
  splitRows m n E

/-- the parts shared by the recommendation models (lightgcn.py:24-34, ngcf.py:25-44,
dhcf.py:34-44) -/
structure Rec (K : Type) where
  numUsers : Nat
  numItems : Nat
  users : Dense K
  items : Dense K

/-- `for _ in range(num_layers): all_embs = layer(all_embs); embs_list.append(all_embs)`, for a list of
layers (models/graphs/lightgcn.py:53-56) -/
def layerwise {σ : Type} : List (Dense K → PyM σ (Dense K)) → Dense K → PyM σ (List (Dense K))
  | [], X => pure [X]
  | l :: ls, X => do
    let Y ← l X
    let Ys ← layerwise ls Y
    pure (X :: Ys)

/-- `LightGCN.forward` (models/graphs/lightgcn.py:42-61); `keeps` holds one choice of kept entries per
layer -/
def lightGcn (M : Rec K) (dropRate : K) (training : Bool) (keeps : List (Nat → Bool)) :
    PyM (BSt K) (Dense K × Dense K) := do
  let E ← PyM.lift (catRows M.users M.items)
  let Es ← layerwise (keeps.map fun keep X => BiGraph.smoothGCN X (if training then dropRate else 0) keep) E
  PyM.lift (meanSplit M.numUsers M.numItems Es)

/-- square root of a non-negative number (inside `F.normalize`, models/graphs/ngcf.py:77) -/
def sqrtK (x : K) : K := if 0 < x then x * PyReal.rsqrt x else 0

/-- `F.normalize(X, p=2, dim=1)` with its default `eps=1e-12` (models/graphs/ngcf.py:77) -/
def normalizeRows (X : Dense K) : Dense K :=
  { X with at_ := fun i c =>
      X.at_ i c / max (sqrtK (∑ j ∈ Finset.range X.cols, X.at_ i j * X.at_ i j)) (1 / 10 ^ 12) }

/-- parameters of one layer of `NGCF` and `DHCF`: `W_gc`, `W_bi` and what dropout does
(models/graphs/ngcf.py:42-43, models/hypergraphs/dhcf.py:42-43) -/
structure RecLayer (K : Type) where
  gc : Linear K
  bi : Linear K
  drop : Dense K → Dense K

/-- one turn of the loop of `NGCF.forward` (models/graphs/ngcf.py:69-77) -/
def ngcfLayer (l : RecLayer K) (E : Dense K) : PyM (BSt K) (Dense K) := do
  let G ← BiGraph.smoothGCN E 0 fun _ => true
  let S ← PyM.lift (l.gc.fwd G)
  let B ← PyM.lift (zipD (· * ·) E G)
  let B ← PyM.lift (l.bi.fwd B)
  let A ← PyM.lift (zipD (· + ·) (mapD (leakyRelu (1 / 5)) S) (mapD (leakyRelu (1 / 5)) B))
  pure (normalizeRows (l.drop A))

/-- `NGCF.forward` (models/graphs/ngcf.py:57-84) -/
def ngcf (M : Rec K) (ls : List (RecLayer K)) : PyM (BSt K) (Dense K × Dense K) := do
  let E ← PyM.lift (catRows M.users M.items)
  let Es ← layerwise (ls.map ngcfLayer) E
  PyM.lift (meanSplit M.numUsers M.numItems Es)

/-- one turn of the loop of `DHCF.forward` (models/hypergraphs/dhcf.py:72-88); the state is the pair of
hypergraphs passed to `forward` -/
def dhcfLayer (M : Rec K) (l : RecLayer K) (E : Dense K) : PyM (HSt K × HSt K) (Dense K) := do
  let (U, I) ← PyM.lift (splitRows M.numUsers M.numItems E)
  let U ← onFst (Hyper.smoothHGNN none U 0 fun _ => true)
  let I ← onSnd (Hyper.smoothHGNN none I 0 fun _ => true)
  let G ← PyM.lift (catRows U I)
  let S ← PyM.lift (l.gc.fwd G)
  let S ← PyM.lift (zipD (· + ·) S E)
  let B ← PyM.lift (zipD (· * ·) E G)
  let B ← PyM.lift (l.bi.fwd B)
  let A ← PyM.lift (zipD (· + ·) (mapD (leakyRelu (1 / 5)) S) (mapD (leakyRelu (1 / 5)) B))
  pure (normalizeRows (l.drop A))

/-- `DHCF.forward` (models/hypergraphs/dhcf.py:57-95); two different objects are passed -/
def dhcf (M : Rec K) (ls : List (RecLayer K)) : PyM (HSt K × HSt K) (Dense K × Dense K) := do
  let E ← PyM.lift (catRows M.users M.items)
  let Es ← layerwise (ls.map (dhcfLayer M)) E
  PyM.lift (meanSplit M.numUsers M.numItems Es)

end Real
end Nn
end DHG
