import Verif.Models
import Mathlib.Analysis.SpecialFunctions.Artanh

/-!
# `BGNN_Adv` and `BGNN_MLP` (dhg/models/graphs/bgnn.py)

The two classes are textually parallel: `BGNN_MLP` sends the features through a decoder after every layer,
`BGNN_Adv` has no decoders.  They are written once; `dec` is `none` for `BGNN_Adv`.  Numbers are real
numbers.  Here an epoch of training is an arbitrary function (`Trainer`); the losses and the discriminator of
the two classes are in `Verif/BgnnTrain.lean`.
Moves between devices are left out (see `Verif/Device.lean`).
-/

set_option linter.unusedSectionVars false
set_option autoImplicit false

namespace DHG
namespace Nn

/-- `Decoder` (bgnn.py:287-300); `training` is the mode of the module, `drop` what dropout does in
training mode -/
structure Decoder where
  first : Linear ℝ
  second : Linear ℝ
  drop : Dense ℝ → Dense ℝ
  training : Bool

/-- `Decoder.forward` (bgnn.py:298-300): `Linear`, `ReLU`, `Dropout`, `Linear`, `Tanh` -/
noncomputable def Decoder.fwd (d : Decoder) (X : Dense ℝ) : Except Err (Dense ℝ) := do
  let Y ← d.first.fwd X
  let Z ← d.second.fwd (if d.training then d.drop (mapD relu Y) else mapD relu Y)
  pure (mapD Real.tanh Z)

/-- one layer: `self.layers[_idx]` and, for `BGNN_MLP`, `self.decoders[_idx]`
(models/graphs/bgnn.py:25-31, 172-181) -/
structure BgnnLayer where
  lin : Linear ℝ
  dec : Option Decoder

/-- the channels `(in, out)` of the layers of `BGNN_Adv` (bgnn.py:21-31) -/
def bgnnAdvDims (uDim vDim depth : Nat) : List (Nat × Nat) :=
  (List.range depth).map fun idx => if idx % 2 = 0 then (vDim, uDim) else (uDim, vDim)

/-- the channels of the layers and decoders of `BGNN_MLP` (bgnn.py:166-181) -/
def bgnnMlpDims (uDim vDim hid decHid depth : Nat) : List ((Nat × Nat) × (Nat × Nat × Nat)) :=
  (List.range depth).map fun idx =>
    if idx % 2 = 0 then ((vDim, hid), (hid, decHid, uDim)) else ((uDim, hid), (hid, decHid, vDim))

/-- `g.v2u(x, aggr="sum")` towards the left side, `g.u2v(x, aggr="sum")` towards the right side
(models/graphs/bgnn.py:45, 48) -/
noncomputable def bgnnPass (left : Bool) (X : Dense ℝ) : PyM (BSt ℝ) (Dense ℝ) :=
  match left with
  | true => BiGraph.v2u X .sum none 0 fun _ => true
  | false => BiGraph.u2v X .sum none 0 fun _ => true

/-- `self.decoders[_idx]`, if there are decoders (models/graphs/bgnn.py:195, 198) -/
noncomputable def BgnnLayer.decode (l : BgnnLayer) (X : Dense ℝ) : Except Err (Dense ℝ) :=
  match l.dec with
  | none => .ok X
  | some d => d.fwd X

/-- the features of one side computed from those of the other (bgnn.py:44-45, 47-48, 194-195, 197-198) -/
noncomputable def bgnnUpd (l : BgnnLayer) (left : Bool) (X : Dense ℝ) : PyM (BSt ℝ) (Dense ℝ) := do
  let T ← PyM.lift (l.lin.fwd X)
  let Y ← bgnnPass left T
  PyM.lift (l.decode (mapD Real.tanh Y))

/-- the loop of `forward` (bgnn.py:42-48, 192-198); `left` tells whether `_idx` is even -/
noncomputable def bgnnLoop : Bool → List BgnnLayer → Dense ℝ → Dense ℝ → PyM (BSt ℝ) (Dense ℝ × Dense ℝ)
  | _, [], Xu, Xv => pure (Xu, Xv)
  | true, l :: ls, _, Xv => do
    let Y ← bgnnUpd l true Xv
    bgnnLoop false ls Y Xv
  | false, l :: ls, Xu, _ => do
    let Y ← bgnnUpd l false Xu
    bgnnLoop true ls Xu Y

/-- `BGNN_Adv.forward` (bgnn.py:33-49), `BGNN_MLP.forward` (bgnn.py:183-199) -/
noncomputable def bgnn (ls : List BgnnLayer) (Xu Xv : Dense ℝ) : PyM (BSt ℝ) (Dense ℝ) := do
  let r ← bgnnLoop true ls Xu Xv
  pure r.1

/-- training: what is created before the first epoch (discriminator, optimizers), and one epoch, which sees
the features to be imitated, the features computed by the layer, and how these features depend on the
parameters of the layer (needed for gradients)
(models/graphs/bgnn.py:51-95, 201-228) -/
structure Trainer (S : Type) where
  init : BgnnLayer → Dense ℝ → S
  epoch : S → BgnnLayer → Dense ℝ → Dense ℝ → (BgnnLayer → Except Err (Dense ℝ)) → Except Err (S × BgnnLayer)

/-- the features `X_fake` as a function of the parameters, the graph of the computation that `backward`
goes through (bgnn.py:76, 223); evaluating it leaves the bipartite graph as it is -/
noncomputable def bgnnFake (left : Bool) (X : Dense ℝ) : PyM (BSt ℝ) (BgnnLayer → Except Err (Dense ℝ)) :=
  fun g => (.ok fun l => (bgnnUpd l left X g).1, g)

/-- mode of the decoder: `.train()`, `.eval()` (models/graphs/bgnn.py:220, 267, 282) -/
def BgnnLayer.mode (l : BgnnLayer) (training : Bool) : BgnnLayer :=
  { l with dec := l.dec.map fun d => { d with training := training } }

/-- the epochs of `train_one_layer` (bgnn.py:74-95, 220-228) -/
noncomputable def trainEpochs {S : Type} (T : Trainer S) (left : Bool) (Xtrue Xother : Dense ℝ) :
    Nat → S → BgnnLayer → PyM (BSt ℝ) BgnnLayer
  | 0, _, l => pure l
  | k + 1, s, l => do
    let F ← bgnnUpd l left Xother
    let fake ← bgnnFake left Xother
    let r ← PyM.lift (T.epoch s l Xtrue F fake)
    trainEpochs T left Xtrue Xother k r.1 r.2

/-- `train_one_layer` (bgnn.py:51-95, 201-228), followed by the decoder's `.eval()` (bgnn.py:267, 282) -/
noncomputable def trainOne {S : Type} (T : Trainer S) (epochs : Nat) (left : Bool) (l : BgnnLayer)
    (Xtrue Xother : Dense ℝ) : PyM (BSt ℝ) BgnnLayer := do
  let l' ← trainEpochs T left Xtrue Xother epochs (T.init l Xtrue) (l.mode true)
  pure (l'.mode false)

/-- the loop of `train_with_cascaded` (bgnn.py:122-150, 253-283): the trained layers and the final features
of both sides; `T i` trains the `i`-th of the remaining layers -/
noncomputable def cascadeLoop {S : Type} (T : Nat → Trainer S) (epochs : Nat) :
    Bool → List BgnnLayer → Dense ℝ → Dense ℝ → PyM (BSt ℝ) (List BgnnLayer × Dense ℝ × Dense ℝ)
  | _, [], Xu, Xv => pure ([], Xu, Xv)
  | true, l :: ls, Xu, Xv => do
    let l' ← trainOne (T 0) epochs true l Xu Xv
    let Y ← bgnnUpd l' true Xv
    let r ← cascadeLoop (fun i => T (i + 1)) epochs false ls Y Xv
    pure (l' :: r.1, r.2)
  | false, l :: ls, Xu, Xv => do
    let l' ← trainOne (T 0) epochs false l Xv Xu
    let Y ← bgnnUpd l' false Xu
    let r ← cascadeLoop (fun i => T (i + 1)) epochs true ls Xu Y
    pure (l' :: r.1, r.2)

/-- `train_with_cascaded` (bgnn.py:97-151, 230-284): the model after training and what is returned -/
noncomputable def bgnnTrain {S : Type} (T : Nat → Trainer S) (epochs : Nat) (ls : List BgnnLayer) (Xu Xv : Dense ℝ) :
    PyM (BSt ℝ) (List BgnnLayer × Dense ℝ) := do
  let r ← cascadeLoop T epochs true ls Xu Xv
  pure (r.1, r.2.1)

end Nn
end DHG
