import Mathlib.Data.Rat.Floor
import Verif.Py

/-!
# The random seed (`dhg/random/_seed.py`)

The three libraries `random`, `numpy` and `torch` are arbitrary: their generators have states in `P`,
`N` and `T`.  `time.time()` is a rational number.  What programs do between the calls modelled here is an
arbitrary function of the three generators.
-/

set_option linter.unusedSectionVars false
set_option autoImplicit false

namespace DHG
namespace Seed

/-- `random.seed`, `numpy.random.seed`, `torch.manual_seed`: the state after seeding
(random/_seed.py:31-33) -/
structure Libs (P N T : Type) where
  py : Int → P
  np : Int → N
  torch : Int → T

/-- `_MANUAL_SEED` (_seed.py:7), the three generators and the clock -/
structure World (P N T : Type) where
  manual : Option Int
  py : P
  np : N
  torch : T
  now : ℚ

variable {P N T : Type}

/-- `seed` (_seed.py:10-17); `int` of a time after 1970 is its floor -/
def seed (w : World P N T) : Int :=
  match w.manual with
  | none => ⌊w.now⌋
  | some s => s

/-- seeds that `numpy.random.seed` accepts, as documented there; `torch.manual_seed` accepts all of them
(random/_seed.py:32) -/
def npRange (s : Int) : Prop := 0 ≤ s ∧ s < 2 ^ 32

/-- decidability of the condition above -/
instance (s : Int) : Decidable (npRange s) := inferInstanceAs (Decidable (_ ∧ _))

/-- `set_seed` (_seed.py:20-33): `ValueError` of numpy for seeds out of its range -/
def setSeed (L : Libs P N T) (s : Int) : PyM (World P N T) Unit := fun w =>
  if npRange s then (.ok (), { w with manual := some s, py := L.py s, np := L.np s, torch := L.torch s })
  else (.error .value, { w with manual := some s, py := L.py s })

/-- one step of a program: a call of anything that draws from the generators, with a result in `R`; time
passing; the two functions of the module (a program using random/_seed.py; no line of its own) -/
inductive Op (P N T R : Type)
  | call (f : P × N × T → R × (P × N × T))
  | wait (t : ℚ)
  | seed
  | setSeed (s : Int)

/-- what a step shows (a program using random/_seed.py; no line of its own) -/
inductive Shown (R : Type)
  | res (r : R)
  | num (s : Int)
  | done (e : Except Err Unit)
  | nothing

/-- one step (a program using random/_seed.py; no line of its own) -/
def step {R : Type} (L : Libs P N T) (w : World P N T) : Op P N T R → Shown R × World P N T
  | .call f =>
    let r := f (w.py, w.np, w.torch)
    (.res r.1, { w with py := r.2.1, np := r.2.2.1, torch := r.2.2.2 })
  | .wait t => (.nothing, { w with now := w.now + t })
  | .seed => (.num (seed w), w)
  | .setSeed s => let r := setSeed L s w; (.done r.1, r.2)

/-- a program (a program using random/_seed.py; no line of its own) -/
def run {R : Type} (L : Libs P N T) : World P N T → List (Op P N T R) → List (Shown R) × World P N T
  | w, [] => ([], w)
  | w, op :: ops =>
    let a := step L w op
    let b := run L a.2 ops
    (a.1 :: b.1, b.2)

/-- the first two lines of `run` of an experiment (experiments/base.py:134-135), `t` seconds apart: the
seed that is logged and the seed of the sampler -/
def runSeeds (w : World P N T) (t : ℚ) : Int × Int := (seed w, seed { w with now := w.now + t })

end Seed
end DHG
