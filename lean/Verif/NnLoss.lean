import Verif.Sparse
import Mathlib.Analysis.SpecialFunctions.Log.Basic

/-!
# Losses and regularisation: `dhg/nn/loss.py`, `dhg/nn/regularization.py`

Scores and embeddings are exact real numbers; NaN results (means of nothing) are errors.
-/

set_option linter.unusedSectionVars false
set_option autoImplicit false

namespace DHG
namespace Nn

/-- an elementwise operation on two 1-D tensors with torch broadcasting
(torch semantics, nn/loss.py:29, 31) -/
def zipV {α : Type} (f : α → α → α) (x y : List α) : Except Err (List α) :=
  if x.length = y.length then .ok (List.zipWith f x y)
  else
    match x, y with
    | [a], y => .ok (y.map (f a))
    | x, [b] => .ok (x.map fun a => f a b)
    | _, _ => .error .runtime

/-- `Tensor.mean()` of a 1-D tensor; NaN when it is empty (nn/loss.py:34) -/
def meanV {K : Type} [Field K] (x : List K) : Except Err K :=
  if x = [] then .error .nan else .ok (x.sum / (x.length : K))

/-- `Tensor.sigmoid()` (nn/loss.py:29) -/
noncomputable def sigmoid (x : ℝ) : ℝ := 1 / (1 + Real.exp (-x))

/-- `torch.nn.functional.softplus` with its defaults `beta=1`, `threshold=20` (nn/loss.py:31) -/
noncomputable def softplus (x : ℝ) : ℝ := if 20 < x then x else Real.log (1 + Real.exp x)

/-- the activations `BPRLoss.__init__` accepts (loss.py:16) -/
inductive BprAct where
  | sigmoidThenLog
  | softplus
  deriving DecidableEq

/-- `BPRLoss` (nn/loss.py:14-19) -/
structure Bpr where
  alpha : ℝ
  beta : ℝ
  act : BprAct

/-- `BPRLoss.__init__` (loss.py:14-19) -/
noncomputable def Bpr.new (alpha beta : ℝ) (activation : String) : Except Err Bpr :=
  if activation = "sigmoid_then_log" then .ok ⟨alpha, beta, .sigmoidThenLog⟩
  else if activation = "softplus" then .ok ⟨alpha, beta, .softplus⟩
  else .error .assertion

/-- `BPRLoss.forward` (loss.py:21-34) on 1-D tensors of scores -/
noncomputable def Bpr.fwd (l : Bpr) (pos neg : List ℝ) : Except Err ℝ := do
  match l.act with
  | .sigmoidThenLog =>
    let d ← zipV (· - ·) (pos.map fun x => l.alpha * x) (neg.map fun x => l.beta * x)
    meanV (d.map fun x => -Real.log (sigmoid x))
  | .softplus =>
    let d ← zipV (· - ·) (neg.map fun x => l.beta * x) (pos.map fun x => l.alpha * x)
    meanV (d.map Nn.softplus)

section
variable {K : Type} [Field K] [LinearOrder K]

/-- one summand of `EmbeddingRegularization.forward` (regularization.py:28):
`1 / p * emb.pow(p).sum(dim=1).mean()` -/
def embTerm (p : Nat) (emb : Dense K) : Except Err K := do
  let m ← meanV ((List.range emb.rows).map fun i => ((List.range emb.cols).map fun c => emb.at_ i c ^ p).sum)
  .ok (1 / (p : K) * m)

/-- `EmbeddingRegularization.forward` (regularization.py:20-29) for `p ≥ 0`; `1 / 0` raises, unless
there is no embedding -/
def embReg (p : Nat) (weightDecay : K) (embs : List (Dense K)) : Except Err K := do
  if p = 0 ∧ embs ≠ [] then .error .zeroDiv
  else
    let ts ← embs.mapM (embTerm p)
    .ok (weightDecay * ts.sum)

end
end Nn
end DHG
