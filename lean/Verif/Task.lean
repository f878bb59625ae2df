import Verif.Experiment
import Verif.Evaluator

/-!
# The tasks (`dhg/experiments/vertex_classification.py`, `dhg/experiments/recommender.py`)

Models, losses and optimizers are arbitrary functions of a training state `S`, see `Experiment.lean`;
they may raise.  In evaluation mode the output of a model is a function of the model and of its inputs,
and computing it changes nothing; this is an assumption on the models.  The classes in
`experiments/graphs` and `experiments/hypergraphs` only pass their arguments on to the two classes
modelled here.  What the sampler and the pruner decide is a parameter of every trial.
-/

set_option linter.unusedSectionVars false
set_option autoImplicit false

namespace DHG
namespace Tasks
open Metrics Exper

/-- `xs[mask]` for a Boolean mask: `IndexError` unless the lengths agree
(experiments/vertex_classification.py:115, 131) -/
def maskSel {α : Type} (mask : List Bool) (xs : List α) : Except Err (List α) :=
  if mask.length = xs.length then
    .ok ((mask.zip xs).filterMap fun p => if p.1 then some p.2 else none)
  else .error .index

/-- an exception of the code called by `experiment` (experiments/base.py:102-103) -/
def lift {α : Type} : Except Err α → Except XErr α
  | .ok a => .ok a
  | .error e => .error (.raised e)

/-! ### vertex classification -/

/-- `self.data` of a vertex classification task (vertex_classification.py:64-75), with all six entries -/
structure VData (F St : Type) where
  features : F
  struct : St
  labels : List Int
  trainMask : List Bool
  valMask : List Bool
  testMask : List Bool

/-- what the builders make for one trial (base.py:86-94).  `forward` is `model(features, structure)` in
training mode, one row of scores for each of `classes` classes per vertex, and what it changes (random
generators, batch statistics); `learn` is the computation of the loss from the selected outputs and
labels, its gradient, and the step of the optimizer (vertex_classification.py:115-117); `predict` is
`model(features, structure)` in evaluation mode. -/
structure Net (F St S M : Type) where
  classes : Nat
  init : S
  forward : F → St → S → Except Err (List (List ℝ) × S)
  learn : F → St → List Bool → List (List ℝ) → List Int → S → Except Err S
  predict : M → F → St → Except Err (List (List ℝ))
  modelOf : S → M
  step : S → S
  prune : Nat → Bool
  hasOptimizer : Bool
  hasCriterion : Bool
  /-- `structure_builder(trial)`, if there is a builder -/
  built? : Option St

variable {F St S M : Type}

/-- the evaluator's arguments (experiments/vertex_classification.py:131) -/
abbrev VIn := Option (List Int) × Pred ℝ

/-- `train` (vertex_classification.py:95-117) -/
def vTrain (n : Net F St S M) (d : VData F St) (s : S) : Except Err S := do
  let (outputs, s1) ← n.forward d.features d.struct s
  let o ← maskSel d.trainMask outputs
  let l ← maskSel d.trainMask d.labels
  n.learn d.features d.struct d.trainMask o l s1

/-- the number `trial.report(val_res, epoch)` and `val_res > best_score` (base.py:104, 110) need: a
table or a pair of curves is a `TypeError` -/
def number : Out ℝ → Except Err (Option ℝ)
  | .mean x => .ok x
  | _ => .error .type

/-- `validate` (vertex_classification.py:119-132); what it returns is used as a number -/
def vValidate (n : Net F St S M) (ev : Ev VIn) (d : VData F St) (m : M) : Except Err (Option ℝ) := do
  let outputs ← n.predict m d.features d.struct
  let l ← maskSel d.valMask d.labels
  let o ← maskSel d.valMask outputs
  let r ← ev.validate (some l, .scores n.classes o)
  number r

/-- `self.data` after `self.data["structure"] = self.structure_builder(trial)` (base.py:86-87) -/
def rebuilt (n : Net F St S M) (d : VData F St) : VData F St :=
  match n.built? with
  | none => d
  | some st => { d with struct := st }

/-- the trial that `experiment` (base.py:80-116) runs for these builders -/
def vTrial (ev : Ev VIn) (d : VData F St) (n : Net F St S M) : Trial S M St ℝ where
  init := n.init
  train := fun _ s => lift (vTrain n (rebuilt n d) s)
  validate := fun _ s => lift (do
    let v ← vValidate n ev (rebuilt n d) (n.modelOf s)
    .ok (v, s))
  prune := n.prune
  step := n.step
  modelOf := n.modelOf
  hasOptimizer := n.hasOptimizer
  hasCriterion := n.hasCriterion
  struct? := some (rebuilt n d).struct

/-- `test` (vertex_classification.py:134-160) with `data=None` and `model=None`, after a run with the
result `r`; `n` are the builders of the best trial -/
def vTest (n : Net F St S M) (ev : Ev VIn) (d : VData F St) (r : Result M St ℝ) :
    Except Err (Dict String (Out ℝ)) := do
  let outputs ← n.predict r.model d.features r.struct
  let l ← maskSel d.testMask d.labels
  let o ← maskSel d.testMask outputs
  ev.test (some l, .scores n.classes o)

/-- the formatting of the test results (base.py:155-156): `f"{value:.3f}"` is a `TypeError` for anything
but a number -/
noncomputable def vLog (res : Dict String (Out ℝ)) : Except Err Unit :=
  (collectE res fun p => number p.2).map fun _ => ()

/-- `run` (base.py:126-156): the best trial, and the test results that are logged -/
noncomputable def vRun (maxEpoch ran : Nat) (ev : Ev VIn) (d : VData F St) (net : Nat → Net F St S M) (c : Cache M St) :
    Except XErr (Result M St ℝ × Dict String (Out ℝ)) × Cache M St :=
  match run "maximize" maxEpoch ran (fun i => vTrial ev d (net i)) c with
  | (.error e, c1) => (.error e, c1)
  | (.ok r, c1) =>
    match vTest (net r.number) ev d r with
    | .error e => (.error (.raised e), c1)
    | .ok res =>
      match vLog res with
      | .error e => (.error (.raised e), c1)
      | .ok () => (.ok (r, res), c1)

/-! ### recommender -/

/-- a batch of the test loader: users, `train_mask` (`⊥` is minus infinity) and true ratings
(experiments/recommender.py:130) -/
structure Batch where
  users : List Int
  mask : List (List (WithBot ℝ))
  truth : List (List ℝ)

/-- the evaluator's arguments: true ratings and predicted ratings, which may be minus infinity
(experiments/recommender.py:140) -/
abbrev RIn := List (List ℝ) × List (List (WithBot ℝ))

/-- a row of `emb_u[users]`: negative numbers count from the end (experiments/recommender.py:138) -/
def row (emb : List (List ℝ)) (u : Int) : Except Err (List ℝ) :=
  match emb[(if u < 0 then u + emb.length else u).toNat]? with
  | some a => if u < -(emb.length : Int) then .error .index else .ok a
  | none => .error .index

/-- an entry of `torch.mm(a, b.t())` (experiments/recommender.py:138) -/
def dot (a b : List ℝ) : ℝ := (List.zipWith (· * ·) a b).sum

/-- `torch.mm(emb_u[users], emb_i.t()) + train_mask` (recommender.py:138-139, 171-172).  The mask has
the shape of the product here; other shapes, which torch would broadcast, are a `RuntimeError`.  So are
different widths of the embeddings, and a mask on another device than the embeddings. -/
def ratings (sameDevice : Bool) (embU embI : List (List ℝ)) (users : List Int)
    (mask : List (List (WithBot ℝ))) : Except Err (List (List (WithBot ℝ))) := do
  let us ← collectE users (row embU)
  if ¬ ∀ a ∈ us, ∀ b ∈ embI, a.length = b.length then .error .runtime
  else if sameDevice = false then .error .runtime
  else if us.length = mask.length ∧ ∀ r ∈ mask, r.length = embI.length then
    .ok (List.zipWith (fun a m => List.zipWith (fun b x => (dot a b : WithBot ℝ) + x) embI m) us mask)
  else .error .runtime

/-- `model(structure)` or `model()` in evaluation mode (recommender.py:134-137, 167-170): the embeddings
of users and items -/
abbrev Embed (St M : Type) := M → Option St → Except Err (List (List ℝ) × List (List ℝ))

/-- the loop of `validate` (recommender.py:130-140); all three tensors of a batch are moved to the
device -/
def rValidateLoop (emb : Embed St M) (m : M) (st : Option St) : List Batch → PyM (Ev RIn) Unit
  | [] => fun ev => (.ok (), ev)
  | b :: bs => fun ev =>
    match emb m st with
    | .error e => (.error e, ev)
    | .ok (eu, ei) =>
      match ratings true eu ei b.users b.mask with
      | .error e => (.error e, ev)
      | .ok p =>
        match Ev.validateAdd (b.truth, p) ev with
        | (.error e, ev1) => (.error e, ev1)
        | (.ok (), ev1) => rValidateLoop emb m st bs ev1

/-- `validate` (recommender.py:119-142) -/
noncomputable def rValidate (emb : Embed St M) (m : M) (st : Option St) (bs : List Batch) :
    PyM (Ev RIn) (Option ℝ) := fun ev =>
  match rValidateLoop emb m st bs ev with
  | (.error e, ev1) => (.error e, ev1)
  | (.ok (), ev1) => Ev.validateRes ev1

/-- the loop of `test` (recommender.py:164-173): `train_mask` stays on the device of the loader -/
def rTestLoop (emb : Embed St M) (loaderHere : Bool) (m : M) (st : Option St) : List Batch → PyM (Ev RIn) Unit
  | [] => fun ev => (.ok (), ev)
  | b :: bs => fun ev =>
    match emb m st with
    | .error e => (.error e, ev)
    | .ok (eu, ei) =>
      match ratings loaderHere eu ei b.users b.mask with
      | .error e => (.error e, ev)
      | .ok p =>
        match Ev.testAdd (b.truth, p) ev with
        | (.error e, ev1) => (.error e, ev1)
        | (.ok (), ev1) => rTestLoop emb loaderHere m st bs ev1

/-- `test` (recommender.py:144-175); `loaderHere` says whether the tensors of the loader are on the
device of the task.  The result is the number of a dictionary of the evaluator. -/
noncomputable def rTest (emb : Embed St M) (loaderHere : Bool) (m : M) (st : Option St) (bs : List Batch) :
    PyM (Ev RIn) Nat := fun ev =>
  match rTestLoop emb loaderHere m st bs ev with
  | (.error e, ev1) => (.error e, ev1)
  | (.ok (), ev1) => Ev.testRes ev1

/-- what the builders make for one trial of a recommender task; `learn` is the work on one batch of users,
positive and negative items (recommender.py:107-117) -/
structure RNet (St S M : Type) where
  init : S
  learn : Option St → List Int × List Int × List Int → S → Except Err S
  embed : Embed St M
  modelOf : S → M
  step : S → S
  prune : Nat → Bool
  hasOptimizer : Bool
  hasCriterion : Bool
  built? : Option St

/-- `self.data` of a recommender task.  The batches the training loader yields in each epoch are given.
(experiments/recommender.py:103-104, 127-128) -/
structure RData (St : Type) where
  struct? : Option St
  trainLoader : Nat → List (List Int × List Int × List Int)
  testLoader : List Batch

/-- `train` (recommender.py:88-117) -/
def rTrain (n : RNet St S M) (st : Option St) : List (List Int × List Int × List Int) → S → Except Err S
  | [], s => .ok s
  | b :: bs, s => do
    let s1 ← n.learn st b s
    rTrain n st bs s1

/-- the structure of the data after base.py:86-87 -/
def rStruct (n : RNet St S M) (d : RData St) : Option St :=
  match n.built? with
  | none => d.struct?
  | some st => some st

/-- the trial that `experiment` (base.py:80-116) runs, from an evaluator `ev` -/
noncomputable def rTrial (ev : Ev RIn) (d : RData St) (n : RNet St S M) : Trial (S × Ev RIn) M St ℝ where
  init := (n.init, ev)
  train := fun e s => lift (do
    let s1 ← rTrain n (rStruct n d) (d.trainLoader e) s.1
    .ok (s1, s.2))
  validate := fun _ s =>
    match rValidate n.embed (n.modelOf s.1) (rStruct n d) d.testLoader s.2 with
    | (.error e, _) => .error (.raised e)
    | (.ok v, ev1) => .ok (v, (s.1, ev1))
  prune := n.prune
  step := fun s => (n.step s.1, s.2)
  modelOf := fun s => n.modelOf s.1
  hasOptimizer := n.hasOptimizer
  hasCriterion := n.hasCriterion
  struct? := rStruct n d

end Tasks
end DHG
