import Mathlib.Analysis.SpecialFunctions.Log.Basic
import Mathlib.Data.Nat.Choose.Basic
import Mathlib.Algebra.Order.Round
import Verif.PyOn

/-! # `dhg/utils/math.py` with exact real arithmetic -/

set_option linter.unusedSectionVars false
set_option autoImplicit false

namespace DHG
namespace Utils

/-- `math.log(x)`: `ValueError` for `x <= 0` (utils/math.py:13) -/
noncomputable def mathLog (x : ℝ) : Except Err ℝ := if x ≤ 0 then .error .value else .ok (Real.log x)

/-- `int(round(x, 0))`: to the nearest integer, ties to the even one (utils/math.py:14) -/
noncomputable def pyRound (x : ℝ) : Int :=
  if x - ⌊x⌋ < 1 / 2 then ⌊x⌋
  else if 1 / 2 < x - ⌊x⌋ then ⌊x⌋ + 1
  else if ⌊x⌋ % 2 = 0 then ⌊x⌋ else ⌊x⌋ + 1

/-- the loop `for i in range(1, m + 1)` (math.py:12-13); `k` iterations from `i = 1` -/
noncomputable def binomLoop (n m : Int) : Nat → Except Err ℝ
  | 0 => .ok 0
  | k + 1 => do
    let v ← binomLoop n m k
    let a ← mathLog ((n - m + (k + 1) : Int) : ℝ)
    let b ← mathLog ((k + 1 : Nat) : ℝ)
    .ok (v + a - b)

/-- `C(n, m)` (math.py:4-14) for integers; floating point rounding is not modelled -/
noncomputable def binom (n m : Int) : Except Err Int := do
  let m := min m (n - m)
  let v ← binomLoop n m m.toNat
  .ok (pyRound (Real.exp v))

theorem pyRound_nat (k : Nat) : pyRound (k : ℝ) = k := by
  unfold pyRound
  rw [Int.floor_natCast]
  simp

theorem binomLoop_eq (a : Nat) (n m : Int) (h : n - m = a) (k : Nat) :
    binomLoop n m k = .ok (Real.log ((a + k).choose k : ℝ)) := by
  induction k with
  | zero => simp [binomLoop]
  | succ k ih =>
    unfold binomLoop
    rw [ih]
    have h1 : ((n - m + ((k : Int) + 1) : Int) : ℝ) = (a + k + 1 : Nat) := by
      rw [h]; push_cast; ring
    have hp1 : (0 : ℝ) < (a + k + 1 : Nat) := by positivity
    have hp2 : (0 : ℝ) < (k + 1 : Nat) := by positivity
    simp only [bind, Except.bind]
    rw [h1]
    unfold mathLog
    rw [if_neg (not_le.2 hp1), if_neg (not_le.2 hp2)]
    simp only
    congr 1
    have hc : (0 : ℝ) < ((a + k).choose k : ℝ) := by
      exact_mod_cast Nat.choose_pos (Nat.le_add_left k a)
    have key := Nat.add_one_mul_choose_eq (a + k) k
    have key' : ((a + k + 1 : Nat) : ℝ) * ((a + k).choose k : ℝ) =
        ((a + (k + 1)).choose (k + 1) : ℝ) * ((k + 1 : Nat) : ℝ) := by exact_mod_cast key
    rw [← Real.log_mul hc.ne' hp1.ne', ← Real.log_div (mul_pos hc hp1).ne' hp2.ne']
    congr 1
    rw [div_eq_iff hp2.ne', mul_comm]; exact key'

theorem binom_eq (n m : Nat) (h : m ≤ n) : binom n m = .ok (n.choose m : Nat) := by
  unfold binom
  have key : ∀ a k : Nat, a + k = n → binomLoop n k k = .ok (Real.log (n.choose k : ℝ)) := by
    intro a k hk
    rw [binomLoop_eq a n k (by omega) k, hk]
  have hmin : min (m : Int) (n - m) = ((min m (n - m) : Nat) : Int) := by omega
  simp only
  rw [hmin, Int.toNat_natCast, key (n - min m (n - m)) (min m (n - m)) (by omega)]
  simp only [bind, Except.bind]
  have hc : n.choose (min m (n - m)) = n.choose m := by
    rcases Nat.le_total m (n - m) with h1 | h1
    · rw [Nat.min_eq_left h1]
    · rw [Nat.min_eq_right h1]; exact Nat.choose_symm h
  have hp : (0 : ℝ) < (n.choose m : ℝ) := by exact_mod_cast Nat.choose_pos h
  rw [hc, Real.exp_log hp, pyRound_nat]

theorem binom_outside (n m : Int) (h : ¬ (0 ≤ m ∧ m ≤ n)) : binom n m = .ok 1 := by
  unfold binom
  simp only
  have : (min m (n - m)).toNat = 0 := by omega
  rw [this]
  simp only [binomLoop, bind, Except.bind, Real.exp_zero]
  have := pyRound_nat 1
  rw [Nat.cast_one] at this
  rw [this]; rfl

end Utils
end DHG
