import Mathlib.Algebra.BigOperators.Ring.Finset
import Mathlib.Algebra.Order.BigOperators.Group.Finset
import Mathlib.Algebra.Order.BigOperators.Ring.Finset
import Mathlib.Algebra.Order.Field.Basic
import Mathlib.Tactic.Ring
import Mathlib.Tactic.Linarith

/-!
# Pure facts about finite matrices given as functions
-/

set_option autoImplicit false

namespace DHG

open Finset

variable {K : Type} [Field K] [LinearOrder K] [IsStrictOrderedRing K]

theorem quad_diff (n : Nat) (W : Nat → Nat → K) (hs : ∀ i j, W i j = W j i) (y : Nat → K) :
    ∑ i ∈ range n, ∑ j ∈ range n, W i j * ((y i - y j) * (y i - y j)) =
      2 * ∑ i ∈ range n, (∑ j ∈ range n, W i j) * (y i * y i) -
        2 * ∑ i ∈ range n, ∑ j ∈ range n, y i * W i j * y j := by
  have h1 : ∑ i ∈ range n, ∑ j ∈ range n, W i j * ((y i - y j) * (y i - y j)) =
      ∑ i ∈ range n, ∑ j ∈ range n, W i j * (y i * y i) +
      ∑ i ∈ range n, ∑ j ∈ range n, W i j * (y j * y j) -
      2 * ∑ i ∈ range n, ∑ j ∈ range n, y i * W i j * y j := by
    rw [mul_sum, ← sum_add_distrib, ← sum_sub_distrib]
    apply sum_congr rfl; intro i _
    rw [mul_sum, ← sum_add_distrib, ← sum_sub_distrib]
    apply sum_congr rfl; intro j _
    ring
  have h2 : ∑ i ∈ range n, ∑ j ∈ range n, W i j * (y j * y j) =
      ∑ i ∈ range n, ∑ j ∈ range n, W i j * (y i * y i) := by
    rw [sum_comm]
    apply sum_congr rfl; intro i _
    apply sum_congr rfl; intro j _
    rw [hs]
  rw [h1, h2]
  simp only [sum_mul]
  ring

theorem quad_sum (n : Nat) (W : Nat → Nat → K) (hs : ∀ i j, W i j = W j i) (y : Nat → K) :
    ∑ i ∈ range n, ∑ j ∈ range n, W i j * ((y i + y j) * (y i + y j)) =
      2 * ∑ i ∈ range n, (∑ j ∈ range n, W i j) * (y i * y i) +
        2 * ∑ i ∈ range n, ∑ j ∈ range n, y i * W i j * y j := by
  have h1 : ∑ i ∈ range n, ∑ j ∈ range n, W i j * ((y i + y j) * (y i + y j)) =
      ∑ i ∈ range n, ∑ j ∈ range n, W i j * (y i * y i) +
      ∑ i ∈ range n, ∑ j ∈ range n, W i j * (y j * y j) +
      2 * ∑ i ∈ range n, ∑ j ∈ range n, y i * W i j * y j := by
    rw [mul_sum, ← sum_add_distrib, ← sum_add_distrib]
    apply sum_congr rfl; intro i _
    rw [mul_sum, ← sum_add_distrib, ← sum_add_distrib]
    apply sum_congr rfl; intro j _
    ring
  have h2 : ∑ i ∈ range n, ∑ j ∈ range n, W i j * (y j * y j) =
      ∑ i ∈ range n, ∑ j ∈ range n, W i j * (y i * y i) := by
    rw [sum_comm]
    apply sum_congr rfl; intro i _
    apply sum_congr rfl; intro j _
    rw [hs]
  rw [h1, h2]
  simp only [sum_mul]
  ring

/-- the normalised matrix `s_i W_ij s_j` has its quadratic form between `-|x|²` and `|x|²` -/
theorem norm_bound (n : Nat) (W : Nat → Nat → K) (hs : ∀ i j, W i j = W j i)
    (h0 : ∀ i j, 0 ≤ W i j) (s x : Nat → K)
    (hsd : ∀ i, i < n → s i * s i * (∑ j ∈ range n, W i j) ≤ 1) :
    ∑ i ∈ range n, ∑ j ∈ range n, x i * (s i * W i j * s j) * x j ≤ ∑ i ∈ range n, x i * x i ∧
    -∑ i ∈ range n, x i * x i ≤ ∑ i ∈ range n, ∑ j ∈ range n, x i * (s i * W i j * s j) * x j := by
  have hq : ∑ i ∈ range n, ∑ j ∈ range n, x i * (s i * W i j * s j) * x j =
      ∑ i ∈ range n, ∑ j ∈ range n, (s i * x i) * W i j * (s j * x j) := by
    apply sum_congr rfl; intro i _
    apply sum_congr rfl; intro j _
    ring
  have hd : ∑ i ∈ range n, (∑ j ∈ range n, W i j) * ((s i * x i) * (s i * x i)) ≤
      ∑ i ∈ range n, x i * x i := by
    apply sum_le_sum
    intro i hi
    have := mul_le_mul_of_nonneg_right (hsd i (mem_range.1 hi)) (mul_self_nonneg (x i))
    calc _ = s i * s i * (∑ j ∈ range n, W i j) * (x i * x i) := by ring
      _ ≤ 1 * (x i * x i) := this
      _ = x i * x i := one_mul _
  have h1 : 0 ≤ ∑ i ∈ range n, ∑ j ∈ range n,
      W i j * ((s i * x i - s j * x j) * (s i * x i - s j * x j)) :=
    sum_nonneg fun i _ => sum_nonneg fun j _ => mul_nonneg (h0 i j) (mul_self_nonneg _)
  have h2 : 0 ≤ ∑ i ∈ range n, ∑ j ∈ range n,
      W i j * ((s i * x i + s j * x j) * (s i * x i + s j * x j)) :=
    sum_nonneg fun i _ => sum_nonneg fun j _ => mul_nonneg (h0 i j) (mul_self_nonneg _)
  rw [quad_diff n W hs (fun i => s i * x i)] at h1
  rw [quad_sum n W hs (fun i => s i * x i)] at h2
  rw [hq]
  constructor <;> linarith

theorem sum_ite_eq_single (n : Nat) (a : Nat) (ha : a < n) (f : Nat → K) :
    ∑ i ∈ range n, (if i = a then f i else 0) = f a := by
  rw [sum_ite_eq' (range n) a f, if_pos (mem_range.2 ha)]

/-- a weighted average with nonnegative coefficients summing to one lies between bounds of the
averaged values -/
theorem weighted_avg_bounds (n : Nat) (c x : Nat → K) (lo hi : K) (h0 : ∀ j, j < n → 0 ≤ c j)
    (h1 : ∑ j ∈ range n, c j = 1) (hlo : ∀ j, j < n → c j ≠ 0 → lo ≤ x j)
    (hhi : ∀ j, j < n → c j ≠ 0 → x j ≤ hi) :
    lo ≤ ∑ j ∈ range n, c j * x j ∧ ∑ j ∈ range n, c j * x j ≤ hi := by
  constructor
  · calc lo = ∑ j ∈ range n, c j * lo := by rw [← sum_mul, h1, one_mul]
      _ ≤ _ := sum_le_sum fun j hj => by
        by_cases hc : c j = 0
        · simp [hc]
        · exact mul_le_mul_of_nonneg_left (hlo j (mem_range.1 hj) hc) (h0 j (mem_range.1 hj))
  · calc _ ≤ ∑ j ∈ range n, c j * hi := sum_le_sum fun j hj => by
          by_cases hc : c j = 0
          · simp [hc]
          · exact mul_le_mul_of_nonneg_left (hhi j (mem_range.1 hj) hc) (h0 j (mem_range.1 hj))
      _ = hi := by rw [← sum_mul, h1, one_mul]

end DHG
