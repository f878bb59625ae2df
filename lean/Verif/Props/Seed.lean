import Verif.Seed

/-! # Properties of the random seed (C69) -/

set_option linter.unusedSectionVars false
set_option autoImplicit false

namespace DHG
namespace Spec

/-- the world right after a successful `set_seed(s)` -/
def Seeded {P N T : Type} (L : Seed.Libs P N T) (s : Int) (w w' : Seed.World P N T) : Prop :=
  Seed.setSeed L s w = (.ok (), w')

/-- steps that are no call of `set_seed` -/
def NoSetSeed {P N T R : Type} (ops : List (Seed.Op P N T R)) : Prop := ∀ s, .setSeed s ∉ ops

end Spec

open Seed

variable {P N T R : Type}

/-- the parts of the world that a program sees once a seed was set -/
theorem Seed.run_agree (L : Libs P N T) (ops : List (Op P N T R)) : ∀ w w' : World P N T,
    (∃ s, w.manual = some s) → w'.manual = w.manual → w'.py = w.py → w'.np = w.np → w'.torch = w.torch →
    (run L w' ops).1 = (run L w ops).1 := by
  induction ops with
  | nil => intros; rfl
  | cons op ops ih =>
    intro w w' ⟨s, hs⟩ h1 h2 h3 h4
    have key : (step L w' op).1 = (step L w op).1 ∧ (∃ s, (step L w op).2.manual = some s) ∧
        (step L w' op).2.manual = (step L w op).2.manual ∧ (step L w' op).2.py = (step L w op).2.py ∧
        (step L w' op).2.np = (step L w op).2.np ∧ (step L w' op).2.torch = (step L w op).2.torch := by
      cases op with
      | call f => simp [step, h2, h3, h4, h1, hs]
      | wait t => exact ⟨rfl, ⟨s, hs⟩, h1, h2, h3, h4⟩
      | seed => exact ⟨by simp only [step, Seed.seed, h1, hs], ⟨s, hs⟩, h1, h2, h3, h4⟩
      | setSeed s' =>
        simp only [step, Seed.setSeed]
        split <;> exact ⟨rfl, ⟨s', rfl⟩, rfl, by first | rfl | exact h2, by first | rfl | exact h3, by first | rfl | exact h4⟩
    simp only [run]
    rw [key.1, ih _ _ key.2.1 key.2.2.1 key.2.2.2.1 key.2.2.2.2.1 key.2.2.2.2.2]

/-- C69.  Seeds between 0 and 2³² - 1 are accepted, and two runs of a program that start by setting the same
seed show the same, whatever was drawn or set before and whatever the time. -/
theorem C69_reproducible (L : Libs P N T) (s : Int) (hs : 0 ≤ s ∧ s < 2 ^ 32) (w w' : World P N T)
    (ops : List (Op P N T R)) :
    (∃ v, Spec.Seeded L s w v) ∧ (run L w (.setSeed s :: ops)).1 = (run L w' (.setSeed s :: ops)).1 := by
  have hs' : npRange s := hs
  refine ⟨⟨_, by simp only [Spec.Seeded, setSeed, if_pos hs']; rfl⟩, ?_⟩
  simp only [run, step, setSeed, if_pos hs']
  congr 1
  exact run_agree L ops _ _ ⟨s, rfl⟩ rfl rfl rfl rfl

/-- C69.  After a successful `set_seed(s)` the function `seed()` answers `s` whatever is called and however long
it takes, until the next `set_seed`; a program that never calls `set_seed` gets the current time in whole
seconds. -/
theorem C69_seed (L : Libs P N T) (w : World P N T) (ops : List (Op P N T R)) (ho : Spec.NoSetSeed ops) :
    (∀ s v, Spec.Seeded L s w v → seed (run L v ops).2 = s) ∧
    (w.manual = none → (seed (run L w ops).2 : ℚ) ≤ (run L w ops).2.now ∧
      (run L w ops).2.now < seed (run L w ops).2 + 1) := by
  have key : ∀ (ops : List (Op P N T R)), Spec.NoSetSeed ops → ∀ v : World P N T,
      (run L v ops).2.manual = v.manual := by
    intro ops
    induction ops with
    | nil => intro _ v; rfl
    | cons op ops ih =>
      intro h v
      simp only [run]
      rw [ih (fun s hm => h s (List.mem_cons_of_mem _ hm))]
      cases op with
      | setSeed s => exact absurd List.mem_cons_self (h s)
      | _ => rfl
  constructor
  · intro s v hv
    have : v.manual = some s := by
      simp only [Spec.Seeded, setSeed] at hv
      split at hv
      · cases hv; rfl
      · cases hv
    simp only [Seed.seed, key ops ho v, this]
  · intro h
    simp only [Seed.seed, key ops ho w, h]
    exact ⟨Int.floor_le _, Int.lt_floor_add_one _⟩

/-- C69.  `set_seed(s)` has the effect of `random.seed(s)`, `numpy.random.seed(s)` and
`torch.manual_seed(s)`: what is called next sees the three generators seeded with `s`. -/
theorem C69_libraries (L : Libs P N T) (s : Int) (hs : 0 ≤ s ∧ s < 2 ^ 32) (w : World P N T)
    (f : P × N × T → R × (P × N × T)) :
    (run L w [.setSeed s, .call f]).1 = [.done (.ok ()), .res (f (L.py s, L.np s, L.torch s)).1] := by
  simp only [run, step, setSeed]
  rw [if_pos (show npRange s from hs)]

/-- C69.  Only the seed set last counts. -/
theorem C69_last (L : Libs P N T) (s s' : Int) (hs' : 0 ≤ s' ∧ s' < 2 ^ 32) (w : World P N T)
    (before after : List (Op P N T R)) :
    (run L w (.setSeed s :: before ++ .setSeed s' :: after)).1.drop (before.length + 1) =
      (run L w (.setSeed s' :: after)).1 := by
  have happ : ∀ (a b : List (Op P N T R)) (v : World P N T), (run L v (a ++ b)).1.drop a.length =
      (run L (run L v a).2 b).1 := by
    intro a
    induction a with
    | nil => intro b v; rfl
    | cons op a ih => intro b v; simp only [List.cons_append, run, List.length_cons, List.drop_succ_cons]; exact ih _ _
  have := happ (.setSeed s :: before) (.setSeed s' :: after) w
  rw [List.length_cons] at this
  rw [this]
  exact ((C69_reproducible L s' hs' _ w after).2)

/-- C69 fails for seeds out of the range of numpy: `set_seed` raises `ValueError`, but `seed()` answers the
refused seed afterwards, and of the three generators only that of `random` is seeded. -/
theorem C69_refused_false (L : Libs P N T) (s : Int) (hs : s < 0 ∨ 2 ^ 32 ≤ s) (w : World P N T) :
    ∃ v, setSeed L s w = (.error .value, v) ∧ seed v = s ∧ v.py = L.py s ∧ v.np = w.np ∧ v.torch = w.torch := by
  refine ⟨{ w with manual := some s, py := L.py s }, ?_, rfl, rfl, rfl, rfl⟩
  simp only [setSeed]
  rw [if_neg]
  unfold npRange
  omega

/-- C69.  The seed an experiment logs is the seed of its sampler, if a seed was set. -/
theorem C69_experiment_partial (w : World P N T) (t : ℚ) (s : Int) (h : w.manual = some s) :
    runSeeds w t = (s, s) := by
  simp only [runSeeds, Seed.seed, h]

/-- C69 fails for experiments without a seed: the second call of `seed()` may fall in the next second, so that
the seed logged is not the one used. -/
theorem C69_experiment_false (p : P) (n : N) (t : T) :
    ∃ (w : World P N T) (d : ℚ), 0 < d ∧ d < 1 / 1000 ∧ (runSeeds w d).1 ≠ (runSeeds w d).2 := by
  refine ⟨⟨none, p, n, t, 1 - 1 / 4000⟩, 1 / 2000, by norm_num, by norm_num, ?_⟩
  simp only [runSeeds, Seed.seed]
  have h1 : ⌊(1 - 1 / 4000 : ℚ)⌋ = 0 := by rw [Int.floor_eq_iff]; norm_num
  have h2 : ⌊(1 - 1 / 4000 + 1 / 2000 : ℚ)⌋ = 1 := by rw [Int.floor_eq_iff]; norm_num
  rw [h1, h2]
  decide

/-! A program that sets a seed twice, waits and draws. -/

example : ∃ (L : Libs Int Int Int) (w : World Int Int Int), Spec.Seeded L 42 w ⟨some 42, 42, 43, 44, 7⟩ :=
  ⟨⟨fun s => s, fun s => s + 1, fun s => s + 2⟩, ⟨some 7, 1, 2, 3, 7⟩, by
    simp only [Spec.Seeded, setSeed]; rw [if_pos (by decide)]; rfl⟩

example : Spec.NoSetSeed (P := Int) (N := Int) (T := Int) (R := Int)
    [.call fun g => (g.1, g.2.1, g.1, g.2.2), .wait 3, .seed] := by
  intro s h; simp at h

end DHG
