import Verif.Bgnn
import Verif.NnLoss

/-!
# What `BGNN_Adv` and `BGNN_MLP` minimise (dhg/models/graphs/bgnn.py, dhg/nn/convs/common.py)

The discriminator, the losses of both classes, and the order of the steps of an epoch.  An optimizer is an
arbitrary function that is given the loss as a function of the parameters: `backward` and `step` use only the
gradient of this function at the present parameters.  Dropout multiplies with an arbitrary mask, drawn anew
at every call.  Numbers are real numbers; a loss over no entry is NaN, which is modelled as an error, although
the code goes on with NaN parameters.
-/

set_option linter.unusedSectionVars false
set_option autoImplicit false

namespace DHG
namespace Nn

/-- `nn.Dropout` in training mode: multiplication with a mask, whose entries torch draws as `0` or
`1 / (1 - p)` (nn/convs/common.py:126, models/graphs/bgnn.py:293) -/
def dropMask (mask : Nat → Nat → ℝ) (X : Dense ℝ) : Dense ℝ := { X with at_ := fun i c => mask i c * X.at_ i c }

/-- the two linear maps of `Discriminator` (nn/convs/common.py:120-129) -/
structure Discriminator where
  first : Linear ℝ
  second : Linear ℝ

/-- `Discriminator.forward` (nn/convs/common.py:123-138): `Linear`, `LeakyReLU` with torch's default slope
`0.01`, `Dropout` (`drop` is the identity in evaluation mode), `Linear`, `Sigmoid` -/
noncomputable def Discriminator.fwd (drop : Dense ℝ → Dense ℝ) (D : Discriminator) (X : Dense ℝ) :
    Except Err (Dense ℝ) := do
  let Y ← D.first.fwd X
  let Z ← D.second.fwd (drop (mapD (leakyRelu (1 / 100)) Y))
  pure (mapD sigmoid Z)

/-- the logarithm inside `F.binary_cross_entropy`, which torch clamps to be at least `-100`
(torch semantics, models/graphs/bgnn.py:84, 93) -/
noncomputable def clampLog (x : ℝ) : ℝ := if x ≤ 0 then -100 else max (Real.log x) (-100)

/-- the entries of a tensor, row by row (torch semantics, models/graphs/bgnn.py:84, 93, 226) -/
def Dense.entries (X : Dense ℝ) : List ℝ :=
  (List.range X.rows).flatMap fun i => (List.range X.cols).map fun c => X.at_ i c

/-- one term of `F.binary_cross_entropy` (torch semantics, models/graphs/bgnn.py:84, 93) -/
noncomputable def bceTerm (p y : ℝ) : ℝ := -(y * clampLog p + (1 - y) * clampLog (1 - p))

/-- `F.binary_cross_entropy(pred, lbl)`: raises `ValueError` for different shapes and `RuntimeError` for
predictions outside `[0, 1]` (torch semantics, models/graphs/bgnn.py:84, 93) -/
noncomputable def bce (pred lbl : Dense ℝ) : Except Err ℝ :=
  if pred.rows = lbl.rows ∧ pred.cols = lbl.cols then
    if ∀ p ∈ Dense.entries pred, 0 ≤ p ∧ p ≤ 1 then
      meanV (List.zipWith bceTerm (Dense.entries pred) (Dense.entries lbl))
    else .error .runtime
  else .error .value

/-- `F.mse_loss(x, y)` (torch semantics, models/graphs/bgnn.py:226).  Simplified: tensors of different shapes
are an error here, while torch broadcasts some of them with a warning. -/
noncomputable def mse (X Y : Dense ℝ) : Except Err ℝ :=
  if X.rows = Y.rows ∧ X.cols = Y.cols then
    meanV (List.zipWith (fun x y => (x - y) ^ 2) (Dense.entries X) (Dense.entries Y))
  else .error .runtime

/-- an optimizer: what it remembers about the parameters, and `zero_grad`, `backward` and `step` for a loss
given as a function of the parameters (models/graphs/bgnn.py:66-67, 79-86, 89-95, 216, 225-228) -/
structure Opt (S P : Type) where
  init : P → S
  step : S → P → (P → Except Err ℝ) → S × P

/-- the local variables of `BGNN_Adv.train_one_layer` that change from epoch to epoch: the number of epochs so
far, the discriminator and the memories of both optimizers (models/graphs/bgnn.py:63-67) -/
structure AdvVars (SD SG : Type) where
  epoch : Nat
  memD : SD
  disc : Discriminator
  memG : SG

/-- `lbl_real`, `lbl_fake`: a column of `n` equal labels (models/graphs/bgnn.py:70-71) -/
def label (n : Nat) (y : ℝ) : Dense ℝ := ⟨n, 1, fun _ _ => y⟩

/-- `loss_D` (models/graphs/bgnn.py:81-84); `drop j` is what dropout does in the `j`-th call of the
discriminator -/
noncomputable def lossD (drop : Nat → Dense ℝ → Dense ℝ) (Xreal Xfake : Dense ℝ) (D : Discriminator) :
    Except Err ℝ := do
  let predReal ← D.fwd (drop 0) Xreal
  let predFake ← D.fwd (drop 1) Xfake
  let a ← bce predReal (label Xreal.rows 1)
  let b ← bce predFake (label Xreal.rows 0)
  pure (a + b)

/-- `loss_G` (models/graphs/bgnn.py:91-93), as a function of the parameters of the layer -/
noncomputable def lossG (drop : Nat → Dense ℝ → Dense ℝ) (Xreal : Dense ℝ) (D : Discriminator)
    (fake : BgnnLayer → Except Err (Dense ℝ)) (l : BgnnLayer) : Except Err ℝ := do
  let Xfake ← fake l
  let predFake ← D.fwd (drop 2) Xfake
  bce predFake (label Xreal.rows 1)

/-- `BGNN_Adv.train_one_layer` (models/graphs/bgnn.py:51-95).  `draw i h o` is the discriminator that torch
initialises at random, `mask k j` the dropout mask of the `j`-th call of the discriminator in epoch `k`. -/
noncomputable def advTrainer {SD SG : Type} (optD : Opt SD Discriminator) (optG : Opt SG BgnnLayer)
    (draw : Nat → Nat → Nat → Discriminator) (mask : Nat → Nat → Nat → Nat → ℝ) : Trainer (AdvVars SD SG) where
  init l Xtrue :=
    let D := draw Xtrue.cols 16 1
    ⟨0, optD.init D, D, optG.init l⟩
  epoch s l Xtrue Xfake fake := do
    let drop := fun j => dropMask (mask s.epoch j)
    let _ ← lossD drop Xtrue Xfake s.disc
    let d := optD.step s.memD s.disc (lossD drop Xtrue Xfake)
    let _ ← lossG drop Xtrue d.2 fake l
    let r := optG.step s.memG l (lossG drop Xtrue d.2 fake)
    pure (⟨s.epoch + 1, d.1, d.2, r.1⟩, r.2)

/-- `loss` of `BGNN_MLP` (models/graphs/bgnn.py:223-226), as a function of the parameters of the layer and its
decoder -/
noncomputable def lossMlp (Xreal : Dense ℝ) (fake : BgnnLayer → Except Err (Dense ℝ)) (l : BgnnLayer) :
    Except Err ℝ := do
  let Xfake ← fake l
  mse Xfake Xreal

/-- the decoder with another dropout mask (models/graphs/bgnn.py:293) -/
def BgnnLayer.remask (l : BgnnLayer) (mask : Nat → Nat → ℝ) : BgnnLayer :=
  { l with dec := l.dec.map fun d => { d with drop := dropMask mask } }

/-- `BGNN_MLP.train_one_layer` (models/graphs/bgnn.py:201-228).  `mask k` is the dropout mask of the decoder in
epoch `k`; the mask of epoch `0` is in the layer passed in. -/
noncomputable def mlpTrainer {S : Type} (opt : Opt S BgnnLayer) (mask : Nat → Nat → Nat → ℝ) :
    Trainer (Nat × S) where
  init l _ := (0, opt.init l)
  epoch s l Xtrue _ fake := do
    let _ ← lossMlp Xtrue fake l
    let r := opt.step s.2 l (lossMlp Xtrue fake)
    pure ((s.1 + 1, r.1), r.2.remask (mask (s.1 + 1)))

end Nn
end DHG
