import Mathlib.Data.Nat.Digits.Defs
import Mathlib.Order.Defs.LinearOrder
import Verif.Py

/-!
# Experiments (`dhg/experiments/base.py`)

Training, validation, the pruner and the scheduler are arbitrary functions of a training state `S`
(model, optimizer, scheduler and random generators together), and may raise; `modelOf` is its part that
`deepcopy(model)` copies.  The cache directory is a map from file names to contents.  What optuna does
(`study.optimize`, `best_trial`) is written after its documentation: trials are run one after the
other, a pruned trial is recorded as such, any other exception ends the run, the best trial is the
first of the completed ones with the best value.  Logging is left out.
-/

set_option linter.unusedSectionVars false
set_option autoImplicit false

namespace DHG
namespace Exper

/-- the exceptions of experiments/base.py:80-156 -/
inductive XErr
  | assertion | pruned | attribute | key | value | fileNotFound
  | raised (e : Err)
  deriving DecidableEq, Repr

/-- contents of a cached file (experiments/base.py:113-115) -/
inductive FileC (M St : Type)
  | empty
  | model (m : M)
  | struct (st : St)
  deriving DecidableEq, Repr

/-- `self.cache_root`, experiments/base.py:63 -/
abbrev Cache (M St : Type) := List Char → Option (FileC M St)

/-- what the builders make for one trial (base.py:86-93), and what `train`, `validate`, `should_prune`
and `scheduler.step` will do in it, in each epoch; scores that are NaN are `none` -/
structure Trial (S M St K : Type) where
  init : S
  train : Nat → S → Except XErr S
  validate : Nat → S → Except XErr (Option K × S)
  prune : Nat → Bool
  step : S → S
  modelOf : S → M
  hasOptimizer : Bool
  hasCriterion : Bool
  /-- `self.data["structure"]`, if there is one -/
  struct? : Option St

/-- `str(n)` (experiments/base.py:113, 123) -/
def dec (n : Nat) : List Char :=
  if n = 0 then ['0'] else (Nat.digits 10 n).reverse.map fun d => Char.ofNat (48 + d)

/-- `f"{number}_model.pth"` (base.py:113) -/
def modelName (number : Nat) : List Char := dec number ++ "_model.pth".toList

/-- `f"{number}_structure.dhg"` (base.py:115) -/
def structName (number : Nat) : List Char := dec number ++ "_structure.dhg".toList

/-- writing and removing a file, experiments/base.py:113-115, 124 -/
def put {M St : Type} (c : Cache M St) (name : List Char) (v : Option (FileC M St)) : Cache M St :=
  fun q => if q = name then v else c q

section
variable {S M St K : Type} [LinearOrder K]

/-- the test and the update of the best model (base.py:109-112); `-inf` is `none` -/
def keepBest (maximize : Bool) (v : Option K) (m : M) (best : Option (K × M)) : Option (K × M) :=
  if maximize then
    match v with
    | none => best
    | some x =>
      match best with
      | none => some (x, m)
      | some (y, _) => if y < x then some (x, m) else best
  else best

/-- the loop over the epochs (base.py:100-112) -/
def epochs (maximize : Bool) (t : Trial S M St K) :
    Nat → Nat → S → Option (K × M) → Except XErr (Option (K × M))
  | 0, _, _, best => .ok best
  | todo + 1, e, s, best =>
    match t.train e s with
    | .error er => .error er
    | .ok s1 =>
      match t.validate e s1 with
      | .error er => .error er
      | .ok (v, s2) =>
        if t.prune e then .error .pruned else
          let s3 := t.step s2
          epochs maximize t todo (e + 1) s3 (keepBest maximize v (t.modelOf s3) best)

/-- `experiment` (base.py:80-116).  The file of the model is opened before the model is asked for. -/
def experiment (direction : String) (maxEpoch : Nat) (number : Nat) (t : Trial S M St K)
    (c : Cache M St) : Except XErr K × Cache M St :=
  if !t.hasOptimizer then (.error .assertion, c) else
  if !t.hasCriterion then (.error .assertion, c) else
  match epochs (direction = "maximize") t maxEpoch 0 t.init none with
  | .error e => (.error e, c)
  | .ok none => (.error .attribute, put c (modelName number) (some .empty))
  | .ok (some (x, m)) =>
    let c1 := put c (modelName number) (some (.model m))
    match t.struct? with
    | none => (.error .key, c1)
    | some st => (.ok x, put c1 (structName number) (some (.struct st)))

/-- `study.optimize` over trials `i, i+1, …`: the completed trials with their values
(experiments/base.py:138) -/
def optimize (direction : String) (maxEpoch : Nat) (trial : Nat → Trial S M St K) :
    Nat → Nat → Cache M St → Except XErr (List (Nat × K)) × Cache M St
  | 0, _, c => (.ok [], c)
  | todo + 1, i, c =>
    match experiment direction maxEpoch i (trial i) c with
    | (.ok x, c1) =>
      match optimize direction maxEpoch trial todo (i + 1) c1 with
      | (.ok l, c2) => (.ok ((i, x) :: l), c2)
      | (.error e, c2) => (.error e, c2)
    | (.error .pruned, c1) => optimize direction maxEpoch trial todo (i + 1) c1
    | (.error e, c1) => (.error e, c1)

/-- the first completed trial with the greatest value
(`study.best_trial`, experiments/base.py:123, 141) -/
def bestMax : List (Nat × K) → Option (Nat × K)
  | [] => none
  | p :: l =>
    match bestMax l with
    | none => some p
    | some q => if p.2 < q.2 then some q else some p

/-- `PurePath.stem`: the name without its last suffix (experiments/base.py:123) -/
def stem (name : List Char) : List Char :=
  match name.reverse.dropWhile (· ≠ '.') with
  | [] => name
  | _ :: r => if r = [] ∨ name.getLast? = some '.' then name else r.reverse

/-- `filename.stem.split("_")[0]` (base.py:123) -/
def prefixOf (name : List Char) : List Char := (stem name).takeWhile (· ≠ '_')

/-- `_remove_cached_data` (base.py:118-124) -/
def removeCached (best : Nat) (c : Cache M St) : Cache M St :=
  fun name => if prefixOf name ≠ dec best then none else c name

/-- what `run` leaves, experiments/base.py:138-148 -/
structure Result (M St K : Type) where
  number : Nat
  score : K
  model : M
  struct : St

/-- `run` (base.py:126-145) when `ran` trials are run (the number asked for, or fewer when the ten
minutes are over); `direction` is `"maximize"`, as `experiment` never completes otherwise -/
def run (direction : String) (maxEpoch ran : Nat) (trial : Nat → Trial S M St K) (c : Cache M St) :
    Except XErr (Result M St K) × Cache M St :=
  match optimize direction maxEpoch trial ran 0 c with
  | (.error e, c1) => (.error e, c1)
  | (.ok done, c1) =>
    match bestMax done with
    | none => (.error .value, c1)
    | some (k, x) =>
      let c2 := removeCached k c1
      match c2 (modelName k), c2 (structName k) with
      | some (.model m), some (.struct st) => (.ok ⟨k, x, m, st⟩, c2)
      | _, _ => (.error .fileNotFound, c2)

end
end Exper
end DHG
