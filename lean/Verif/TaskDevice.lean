import Verif.Device

/-!
# The data of a task: one dictionary, shared with the caller, and the devices of what is in it
(`dhg/experiments/base.py`, `dhg/experiments/vertex_classification.py`)

A task keeps the dictionary it is given (`self.data = data`) and moves what is in it to its device, in
place.  Tensors are replaced by moved copies; a structure moves itself, so it moves for everybody who holds
it.  This file models which object holds what and the devices; what is computed is modelled in `Task.lean`, files and
logging in `Study.lean`.  `experiments/graphs` and `experiments/hypergraphs` pass everything on.
-/

set_option linter.unusedSectionVars false
set_option autoImplicit false

namespace DHG
namespace TaskDev
open Device (Dev cpu)

/-- an entry of a data dictionary: a tensor (its numbers are named by `id`), a structure, by reference, or
something without a method `to` (experiments/vertex_classification.py:60-63) -/
inductive Val
  | tensor (id : Nat) (dev : Dev)
  | struct (ref : Nat)
  | other (id : Nat)
  deriving DecidableEq, Repr

/-- the attributes of a task that matter here: `self.data`, `self.device`, whether there is a
`structure_builder`, and `self.best_structure` once `run` got there (experiments/base.py:47-52, 140-142) -/
structure Task where
  data : Nat
  device : Dev
  builder : Bool
  best : Option Nat
  deriving DecidableEq, Repr

/-- all objects: the dictionaries, the device of every structure, and the tasks
(the caller's program, e.g. experiments/base.py:35-52) -/
structure World where
  dicts : List (Dict String Val)
  structs : List Dev
  tasks : List Task
  deriving DecidableEq, Repr

/-- a dictionary (experiments/base.py:47) -/
def World.dict (w : World) (D : Nat) : Dict String Val := w.dicts.getD D []

/-- `vars_for_DL` (experiments/vertex_classification.py:65-76) -/
def vars : List String := ["features", "structure", "labels", "train_mask", "val_mask", "test_mask"]

/-- `structure.to(device)`: the structure itself moves (structure/base.py:104-114, 445-458) -/
def moveStruct (r : Nat) (d : Dev) : PyM World Unit := PyM.modify fun w => { w with structs := w.structs.set r d }

/-- `x.to(device)`: a tensor gives a tensor with the same numbers, a structure moves itself and gives itself, other
things raise `AttributeError` (experiments/vertex_classification.py:62) -/
def moveVal (d : Dev) : Val → PyM World Val
  | .tensor id _ => pure (.tensor id d)
  | .struct r => do moveStruct r d; pure (.struct r)
  | .other _ => PyM.raise .attribute

/-- `data[k] = v` (experiments/vertex_classification.py:62) -/
def setEntry (D : Nat) (k : String) (v : Val) : PyM World Unit :=
  PyM.modify fun w => { w with dicts := w.dicts.set D ((w.dict D).set k v) }

/-- one round of the loop of `to` (experiments/vertex_classification.py:61-62; the recommender has the same
loop, experiments/recommender.py:59-61) -/
def moveEntry (D : Nat) (d : Dev) (k : String) : PyM World Unit := fun w =>
  match (w.dict D).get? k with
  | none => (.ok (), w)
  | some v => (do let v' ← moveVal d v; setEntry D k v') w

/-- the loop of `to` (experiments/vertex_classification.py:60-62) -/
def moveAll (names : List String) (D : Nat) (d : Dev) : PyM World Unit := PyM.forM names (moveEntry D d)

/-- the task called; a name that was never assigned is a `NameError` (the caller's program, no line of its own) -/
def theTask (i : Nat) : PyM World Task := fun w =>
  match w.tasks[i]? with
  | some t => (.ok t, w)
  | none => (.error .name, w)

/-- `VertexClassificationTask(…)` as far as data and device go: `self.data = data`, `self.device = device`,
`self.to(self.device)` (experiments/base.py:47-52, experiments/vertex_classification.py:40-51).  The caller gets no task when the loop
raises; what it moved stays moved. -/
def newTask (D : Nat) (d : Dev) (builder : Bool) : PyM World Unit := do
  moveAll vars D d
  PyM.modify fun w => { w with tasks := w.tasks ++ [{ data := D, device := d, builder := builder, best := none }] }

/-- `task.to(device)` (experiments/vertex_classification.py:53-63) -/
def toTask (i : Nat) (d : Dev) : PyM World Unit := do
  let t ← theTask i
  PyM.modify fun w => { w with tasks := w.tasks.set i { t with device := d } }
  moveAll vars t.data d

/-- `data[k]` (experiments/vertex_classification.py:110-111) -/
def entry (D : Nat) (k : String) : PyM World Val := fun w =>
  match (w.dict D).get? k with
  | some v => (.ok v, w)
  | none => (.error .key, w)

/-- the device of a tensor or a structure; anything else is a `TypeError` when used as one
(experiments/vertex_classification.py:114) -/
def devOf : Val → PyM World Dev
  | .tensor _ d => pure d
  | .struct r => fun w =>
    match w.structs[r]? with
    | some d => (.ok d, w)
    | none => (.error .name, w)
  | .other _ => PyM.raise .type

/-- `model(features, structure)`: from the devices of the three, the device of the result and the one of the structure
afterwards (message passing may move the structure, see `Device.lean`); it may raise
(experiments/vertex_classification.py:114) -/
abbrev Fwd := Dev → Dev → Dev → Except Err (Dev × Dev)

/-- `outputs = model(features, structure)`, of a model on the device `m`
(experiments/vertex_classification.py:114, 130, 158) -/
def callModel (fwd : Fwd) (m : Dev) (f s : Val) : PyM World Dev := do
  let df ← devOf f
  let ds ← devOf s
  let r ← PyM.lift (fwd m df ds)
  match s with
  | .struct ref => moveStruct ref r.2
  | _ => pure ()
  pure r.1

/-- the device of `x[mask]`: the mask must be on the CPU or with `x` (experiments/vertex_classification.py:115) -/
def pick (x mask : Dev) : PyM World Dev := if mask = cpu ∨ mask = x then pure x else PyM.raise .runtime

/-- an operation on two tensors (experiments/vertex_classification.py:115) -/
def join (x y : Dev) : PyM World Unit := if x = y then pure () else PyM.raise .runtime

/-- `train` (experiments/vertex_classification.py:95-117) -/
def train (fwd : Fwd) (D : Nat) (m : Dev) : PyM World Unit := do
  let f ← entry D "features"
  let s ← entry D "structure"
  let mask ← entry D "train_mask"
  let l ← entry D "labels"
  let o ← callModel fwd m f s
  let k ← devOf mask
  let dl ← devOf l
  let a ← pick o k
  let b ← pick dl k
  join a b

/-- `validate` (experiments/vertex_classification.py:119-132); the evaluator brings both tensors to the CPU
(metrics/classification.py:34-37) -/
def validate (fwd : Fwd) (D : Nat) (m : Dev) : PyM World Unit := do
  let f ← entry D "features"
  let s ← entry D "structure"
  let mask ← entry D "val_mask"
  let l ← entry D "labels"
  let o ← callModel fwd m f s
  let k ← devOf mask
  let dl ← devOf l
  let _ ← pick dl k
  let _ ← pick o k
  pure ()

/-- how a trial goes: the device the `structure_builder` builds on, the number of epochs, whether it is pruned
after them, and whether any validation result was better than the initial one (experiments/base.py:80-116) -/
structure Trial where
  builtOn : Dev
  epochs : Nat
  pruned : Bool
  improved : Bool
  deriving DecidableEq, Repr

/-- the epochs of a trial (experiments/base.py:101-103) -/
def epochs (fwd : Fwd) (D : Nat) (m : Dev) : Nat → PyM World Unit
  | 0 => pure ()
  | n + 1 => do
    train fwd D m
    validate fwd D m
    epochs fwd D m n

/-- `self.data["structure"] = self.structure_builder(trial).to(self.device)` (experiments/base.py:86-87); the builder makes a new
structure -/
def rebuild (D : Nat) (d on : Dev) : PyM World Unit := do
  let w ← PyM.get
  PyM.modify fun w => { w with structs := w.structs ++ [on] }
  moveStruct w.structs.length d
  setEntry D "structure" (.struct w.structs.length)

/-- `experiment` (experiments/base.py:80-116): whether the trial was completed.  The model is moved to the device of the task before
it is used; `best_model` is `None` when no result improved; `save` needs a structure. -/
def experiment (fwd : Fwd) (t : Task) (x : Trial) : PyM World Bool := do
  (if t.builder then rebuild t.data t.device x.builtOn else pure ())
  epochs fwd t.data t.device x.epochs
  if x.pruned then pure false
  else if x.improved then do
    let s ← entry t.data "structure"
    match s with
    | .struct _ => pure true
    | _ => PyM.raise .attribute
  else PyM.raise .attribute

/-- the trials of `study.optimize`: an exception ends it; was any trial completed? (experiments/base.py:137) -/
def trials (fwd : Fwd) (t : Task) : List Trial → PyM World Bool
  | [] => pure false
  | x :: xs => do
    let a ← experiment fwd t x
    let b ← trials fwd t xs
    pure (a || b)

/-- the calculation at the end of `test` (experiments/vertex_classification.py:155-160); the model was moved to the device
just before -/
def finish (fwd : Fwd) (d : Dev) (f s mask l : Val) : PyM World Unit := do
  let o ← callModel fwd d f s
  let k ← devOf mask
  let dl ← devOf l
  let _ ← pick dl k
  let _ ← pick o k
  pure ()

/-- `test()` (experiments/vertex_classification.py:142-144, 153-160): no `best_structure` before `run` is an `AttributeError` -/
def testOwn (fwd : Fwd) (i : Nat) : PyM World Unit := do
  let t ← theTask i
  let f ← entry t.data "features"
  match t.best with
  | none => PyM.raise .attribute
  | some r => do
    let mask ← entry t.data "test_mask"
    let l ← entry t.data "labels"
    finish fwd t.device f (.struct r) mask l

/-- `test(data)` (experiments/vertex_classification.py:145-160): the entries are moved, the structure in place, the dictionary
keeps the tensors it has -/
def testOn (fwd : Fwd) (i D : Nat) : PyM World Unit := do
  let t ← theTask i
  let f ← entry D "features"
  let f ← moveVal t.device f
  let s ← entry D "structure"
  let s ← moveVal t.device s
  let mask ← entry D "test_mask"
  let mask ← moveVal t.device mask
  let l ← entry D "labels"
  let l ← moveVal t.device l
  finish fwd t.device f s mask l

/-- `run` (experiments/base.py:126-156): the trials; `best_trial` raises `ValueError` when none was completed; the best
structure is loaded to the CPU and moved to the device; then `test()` -/
def run (fwd : Fwd) (i : Nat) (xs : List Trial) : PyM World Unit := do
  let t ← theTask i
  let any ← trials fwd t xs
  if any then do
    let w ← PyM.get
    PyM.modify fun w => { w with structs := w.structs ++ [cpu] }
    moveStruct w.structs.length t.device
    PyM.modify fun w' => { w' with tasks := w'.tasks.set i { t with best := some w.structs.length } }
    testOwn fwd i
  else PyM.raise .value

/-- what the caller can do: make a dictionary or a structure, assign an entry of a dictionary, move a structure, make a task,
move it, run it, test it with its own or with other data (the caller's program, no line of its own) -/
inductive Op
  | dict (d : Dict String Val)
  | struct (d : Dev)
  | put (D : Nat) (k : String) (v : Val)
  | move (r : Nat) (d : Dev)
  | task (D : Nat) (d : Dev) (builder : Bool)
  | to (i : Nat) (d : Dev)
  | run (i : Nat) (xs : List Trial)
  | test (i : Nat)
  | testOn (i D : Nat)
  deriving Repr

/-- the call (the caller's program, no line of its own) -/
def apply (fwd : Fwd) : Op → PyM World Unit
  | .dict d => PyM.modify fun w => { w with dicts := w.dicts ++ [d] }
  | .struct d => PyM.modify fun w => { w with structs := w.structs ++ [d] }
  | .put D k v => setEntry D k v
  | .move r d => moveStruct r d
  | .task D d b => newTask D d b
  | .to i d => toTask i d
  | .run i xs => run fwd i xs
  | .test i => testOwn fwd i
  | .testOn i D => testOn fwd i D

/-- the beginning: no objects (the caller's program, no line of its own) -/
def start : World := { dicts := [], structs := [], tasks := [] }

end TaskDev
end DHG
