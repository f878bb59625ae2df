import Verif.Feature
import Verif.Props.Vis

/-!
# Properties of the drawings of embeddings (C75, C76)
-/

set_option linter.unusedSectionVars false
set_option autoImplicit false

namespace DHG

namespace Spec

/-- The `n` numbers `y` are the `n` numbers `x`, stretched and shifted so that they reach exactly from `lo`
to `hi`. -/
def Fitted (n : Nat) (x y : Nat → ℝ) (lo hi : ℝ) : Prop :=
  ∃ a b : ℝ, 0 < a ∧ (∀ i < n, y i = a * x i + b) ∧ (∀ i < n, lo ≤ y i ∧ y i ≤ hi) ∧
    (∃ i < n, y i = lo) ∧ ∃ i < n, y i = hi

/-- No column of the array is constant. -/
def Spread (L : Dense ℝ) : Prop := ∀ j < L.cols, ∃ i < L.rows, ∃ k < L.rows, L.at_ i j ≠ L.at_ k j

/-- The picture shows one point per row of `L`, in order; along every axis the rows of `L` are fitted into
the interval from 0.1 to 0.9. -/
def Shows (S : Vis.Scatter) (L : Dense ℝ) : Prop :=
  S.dim = L.cols ∧ S.points.rows = L.rows ∧ S.points.cols = L.cols ∧
    ∀ j < L.cols, ∃ y : Nat → ℝ, (∀ i < L.rows, S.points.at_ i j = some (y i)) ∧
      Fitted L.rows (fun i => L.at_ i j) y (1 / 10) (9 / 10)

/-- The points of the picture are not numbers. -/
def AllNaN (P : Dense (Option ℝ)) : Prop := ∀ i < P.rows, ∀ j < P.cols, P.at_ i j = none

/-- Euclidean length of the first `n` numbers -/
noncomputable def len (n : Nat) (x : Nat → ℝ) : ℝ := Real.sqrt (∑ j ∈ Finset.range n, x j ^ 2)

/-- every embedding divided by its length, with a zero in front -/
noncomputable def directions (X : Dense ℝ) : Dense ℝ :=
  { rows := X.rows, cols := X.cols + 1
    at_ := fun i j => if j = 0 then 0 else X.at_ i (j - 1) / len X.cols (X.at_ i) }

/-- no embedding is zero -/
def NonZeroRows (X : Dense ℝ) : Prop := ∀ i < X.rows, ∃ j < X.cols, X.at_ i j ≠ 0

/-- the reduction chosen by name answers `L` when it is given `Y` -/
def Reduces (R : Vis.Reducer) (method : String) (dim : Nat) (Y L : Dense ℝ) : Prop :=
  (method = "pca" ∧ R.pca dim Y = .ok L) ∨ (method = "tsne" ∧ R.tsne dim Y = .ok L)

/-- The reduction answers one row of `dim` numbers per row it is given. -/
def Shaped (dim : Nat) (Y L : Dense ℝ) : Prop := L.rows = Y.rows ∧ L.cols = dim

/-- equal rows are mapped to equal rows, as any map computed row by row does -/
def RowWise (Y L : Dense ℝ) : Prop :=
  ∀ i < Y.rows, ∀ k < Y.rows, (∀ j < Y.cols, Y.at_ i j = Y.at_ k j) → ∀ j < L.cols, L.at_ i j = L.at_ k j

end Spec

namespace Vis
open Spec Props.Vi

theorem tanh_eq_one_sub (x : ℝ) : Real.tanh x = 1 - 2 / (Real.exp (2 * x) + 1) := by
  rw [Real.tanh_eq_sinh_div_cosh, Real.sinh_eq, Real.cosh_eq, Real.exp_neg]
  have h := Real.exp_pos x
  have h2 : Real.exp (2 * x) = Real.exp x * Real.exp x := by rw [← Real.exp_add]; congr 1; ring
  rw [h2]
  field_simp
  ring

theorem tanh_le_of_le_five {x : ℝ} (h : x ≤ 5) : Real.tanh x ≤ 1 - ballEps := by
  rw [tanh_eq_one_sub]
  have h1 : Real.exp (2 * x) ≤ 100000 := by
    calc Real.exp (2 * x) ≤ Real.exp 10 := Real.exp_le_exp.2 (by linarith)
      _ = Real.exp 1 ^ 10 := by rw [← Real.exp_nat_mul]; norm_num
      _ ≤ (2.72 : ℝ) ^ 10 := by
          have := Real.exp_one_lt_d9
          gcongr
          linarith
      _ ≤ 100000 := by norm_num
  have h0 := Real.exp_pos (2 * x)
  have : ballEps ≤ 2 / (Real.exp (2 * x) + 1) := by
    rw [ballEps, div_le_div_iff₀ (by norm_num) (by linarith)]
    nlinarith
  linarith

theorem tanh_pos {x : ℝ} (h : 0 < x) : 0 < Real.tanh x := by
  rw [tanh_eq_one_sub]
  have h1 : 1 < Real.exp (2 * x) := Real.one_lt_exp_iff.2 (by linarith)
  have : 2 / (Real.exp (2 * x) + 1) < 1 := by rw [div_lt_one (by linarith)]; linarith
  linarith

theorem tanh15_eq {x : ℝ} (h0 : 0 ≤ x) (h : x ≤ 15) : tanh15 x = Real.tanh x := by
  rw [tanh15, max_eq_left (by linarith), min_eq_left h]

theorem rowNorm_eq_len (X : Dense ℝ) (i : Nat) : rowNorm X i = len X.cols (X.at_ i) := by
  simp only [rowNorm, len, pow_two]

theorem len_nonneg (n : Nat) (x : Nat → ℝ) : 0 ≤ len n x := Real.sqrt_nonneg _

theorem len_smul (n : Nat) (x : Nat → ℝ) {t : ℝ} (ht : 0 ≤ t) : len n (fun j => t * x j) = t * len n x := by
  unfold len
  have : ∀ j, (t * x j) ^ 2 = t ^ 2 * x j ^ 2 := fun j => by ring
  simp only [this, ← Finset.mul_sum]
  rw [Real.sqrt_mul (by positivity), Real.sqrt_sq ht]

theorem len_congr {n : Nat} {x y : Nat → ℝ} (h : ∀ j < n, x j = y j) : len n x = len n y := by
  unfold len
  congr 1
  exact Finset.sum_congr rfl fun j hj => by rw [h j (Finset.mem_range.1 hj)]

theorem len_eq_zero_iff (n : Nat) (x : Nat → ℝ) : len n x = 0 ↔ ∀ j < n, x j = 0 := by
  unfold len
  rw [Real.sqrt_eq_zero (Finset.sum_nonneg fun _ _ => by positivity),
    Finset.sum_eq_zero_iff_of_nonneg fun _ _ => by positivity]
  simp

theorem len_bound {n : Nat} {x : Nat → ℝ} {B : ℝ} (hB : 0 ≤ B) (h : ∀ j < n, x j ^ 2 ≤ B ^ 2) :
    len n x ≤ Real.sqrt n * B := by
  unfold len
  rw [← Real.sqrt_sq hB, ← Real.sqrt_mul (by positivity)]
  apply Real.sqrt_le_sqrt
  calc _ ≤ ∑ _j ∈ Finset.range n, B ^ 2 := Finset.sum_le_sum fun j hj => h j (Finset.mem_range.1 hj)
    _ = _ := by simp

theorem minNorm_pos : 0 < minNorm := by unfold minNorm; positivity

theorem sqrt2_pos : 0 < Real.sqrt 2 := Real.sqrt_pos.2 (by norm_num)

theorem sqrt2_lt : Real.sqrt 2 < 3 / 2 := by
  rw [Real.sqrt_lt' (by norm_num)]; norm_num

theorem sqrt2_gt : 1 < Real.sqrt 2 := by
  rw [Real.lt_sqrt (by norm_num)]; norm_num

theorem unitRows_eq (X : Dense ℝ) : unitRows X = directions X := by
  unfold unitRows directions
  congr 1
  funext i j
  cases j with
  | zero => rfl
  | succ j => simp [rowNorm_eq_len]

/-- the length of a row of `unitRows` is 1, or the row is zero -/
theorem unit_row (X : Dense ℝ) (i : Nat) :
    rowNorm (directions X) i = 1 ∨ ∀ j, (directions X).at_ i j = 0 := by
  by_cases h : len X.cols (X.at_ i) = 0
  · right
    intro j
    simp only [directions, h, div_zero, ite_self]
  · left
    rw [rowNorm]
    show Real.sqrt (∑ j ∈ Finset.range (X.cols + 1), _) = 1
    rw [Finset.sum_range_succ']
    simp only [directions, Nat.add_eq_zero_iff, one_ne_zero, and_false, ↓reduceIte, Nat.add_sub_cancel, mul_zero,
      add_zero]
    have : (∑ j ∈ Finset.range X.cols, X.at_ i j / len X.cols (X.at_ i) * (X.at_ i j / len X.cols (X.at_ i))) = 1 := by
      have e : ∀ j, X.at_ i j / len X.cols (X.at_ i) * (X.at_ i j / len X.cols (X.at_ i)) =
          X.at_ i j ^ 2 * (len X.cols (X.at_ i) ^ 2)⁻¹ := fun j => by ring
      simp only [e]
      rw [← Finset.sum_mul, len, Real.sq_sqrt (Finset.sum_nonneg fun _ _ => by positivity)]
      apply mul_inv_cancel₀
      intro h0
      exact h (by rw [len, h0, Real.sqrt_zero])
    rw [this, Real.sqrt_one]

theorem rowNorm_zero {X : Dense ℝ} {i : Nat} (h : ∀ j, X.at_ i j = 0) : rowNorm X i = 0 := by
  simp [rowNorm, h]

/-- a row that is multiplied by `t` -/
theorem rowNorm_smul {X Y : Dense ℝ} {i : Nat} {t : ℝ} (ht : 0 ≤ t) (hc : Y.cols = X.cols)
    (h : ∀ j, Y.at_ i j = t * X.at_ i j) : rowNorm Y i = t * rowNorm X i := by
  rw [rowNorm_eq_len, rowNorm_eq_len, hc, ← len_smul _ _ ht]
  exact len_congr fun j _ => h j

/-- the factor by which `expmap0` multiplies row `i`, for curvature 2 -/
noncomputable def expFactor (U : Dense ℝ) (i : Nat) : ℝ :=
  tanh15 (Real.sqrt 2 * clipNorm U i) / (Real.sqrt 2 * clipNorm U i)

theorem expmap0_at (U : Dense ℝ) (i j : Nat) : (expmap0 U 2).at_ i j = expFactor U i * U.at_ i j := by
  simp only [expmap0, expFactor]; ring

theorem clipNorm_pos (U : Dense ℝ) (i : Nat) : 0 < clipNorm U i := lt_max_of_lt_right minNorm_pos

/-- rows of length at most `√12` -/
theorem small_row {U : Dense ℝ} {i : Nat} (h : Real.sqrt 2 * rowNorm U i ≤ 5) :
    0 < expFactor U i ∧ Real.sqrt 2 * clipNorm U i ≤ 5 ∧
      expFactor U i = Real.tanh (Real.sqrt 2 * clipNorm U i) / (Real.sqrt 2 * clipNorm U i) := by
  have hp : 0 < Real.sqrt 2 * clipNorm U i := mul_pos sqrt2_pos (clipNorm_pos U i)
  have h5 : Real.sqrt 2 * clipNorm U i ≤ 5 := by
    unfold clipNorm
    rcases le_total (rowNorm U i) minNorm with h' | h'
    · rw [max_eq_right h']
      have := sqrt2_lt
      have h2 : minNorm ≤ 1 := by unfold minNorm; norm_num
      nlinarith [minNorm_pos, sqrt2_pos]
    · rw [max_eq_left h']; exact h
  have e : expFactor U i = Real.tanh (Real.sqrt 2 * clipNorm U i) / (Real.sqrt 2 * clipNorm U i) := by
    rw [expFactor, tanh15_eq hp.le (by linarith)]
  exact ⟨by rw [e]; exact div_pos (tanh_pos hp) hp, h5, e⟩

/-- length of a row after `expmap0` -/
theorem exp_norm {U : Dense ℝ} {i : Nat} (h : Real.sqrt 2 * rowNorm U i ≤ 5) :
    rowNorm (expmap0 U 2) i = expFactor U i * rowNorm U i ∧
      Real.sqrt 2 * rowNorm (expmap0 U 2) i ≤ 1 - ballEps := by
  obtain ⟨hp, h5, e⟩ := small_row h
  have e1 : rowNorm (expmap0 U 2) i = expFactor U i * rowNorm U i :=
    rowNorm_smul hp.le rfl fun j => expmap0_at U i j
  refine ⟨e1, ?_⟩
  rw [e1]
  have hc : rowNorm U i ≤ clipNorm U i := le_max_left _ _
  have hcp := clipNorm_pos U i
  calc Real.sqrt 2 * (expFactor U i * rowNorm U i) ≤ Real.sqrt 2 * (expFactor U i * clipNorm U i) := by
        gcongr
    _ = Real.tanh (Real.sqrt 2 * clipNorm U i) := by
        rw [e]
        have := sqrt2_pos
        field_simp
    _ ≤ _ := tanh_le_of_le_five h5

/-- `proj` does nothing to rows in the ball -/
theorem proj_at {X : Dense ℝ} {i : Nat} (h : Real.sqrt 2 * rowNorm X i ≤ 1 - ballEps) (j : Nat) :
    (proj X 2).at_ i j = X.at_ i j := by
  simp only [proj]
  rw [if_neg]
  rw [not_lt, le_div_iff₀ sqrt2_pos, mul_comm]
  unfold clipNorm
  rcases le_total (rowNorm X i) minNorm with h' | h'
  · rw [max_eq_right h']
    have h2 : minNorm ≤ 1 / 2 := by unfold minNorm; norm_num
    have h3 : ballEps ≤ 1 / 10 := by unfold ballEps; norm_num
    have := sqrt2_lt
    nlinarith [minNorm_pos, sqrt2_pos]
  · rw [max_eq_left h']; exact h

/-- the detour through the ball before the reduction changes nothing -/
theorem detour (X : Dense ℝ) : logmap0 (proj (expmap0 (projTan0 (unitRows X) 2) 2) 2) 2 = .ok (directions X) := by
  rw [unitRows_eq]
  set U := directions X with hU
  have hs2 := sqrt2_pos
  have hn : ∀ i, Real.sqrt 2 * rowNorm U i ≤ 5 := by
    intro i
    rcases unit_row X i with h | h
    · rw [← hU] at h; rw [h]; linarith [sqrt2_lt]
    · rw [rowNorm_zero h]; simp
  have hp : proj (expmap0 U 2) 2 = expmap0 U 2 := by
    show Dense.mk _ _ _ = Dense.mk _ _ _
    congr 1
    funext i j
    exact proj_at (exp_norm (hn i)).2 j
  show logmap0 (proj (expmap0 U 2) 2) 2 = _
  rw [hp, logmap0, if_pos]
  · congr 1
    show Dense.mk _ _ _ = Dense.mk U.rows U.cols U.at_
    congr 1
    funext i j
    rw [expmap0_at]
    rcases unit_row X i with h | h
    · rw [← hU] at h
      obtain ⟨hp, h5, e⟩ := small_row (hn i)
      have hc : clipNorm U i = 1 := by
        rw [clipNorm, h]; exact max_eq_left (by unfold minNorm; norm_num)
      rw [hc, mul_one] at e
      have hc' : clipNorm (expmap0 U 2) i = expFactor U i := by
        rw [clipNorm, (exp_norm (hn i)).1, h, mul_one]
        refine max_eq_left ?_
        rw [e, le_div_iff₀ hs2]
        have h1 : (1 : ℝ) / 2 ≤ Real.tanh (Real.sqrt 2) := by
          rw [tanh_eq_one_sub]
          have : (3 : ℝ) ≤ Real.exp (2 * Real.sqrt 2) := by
            have := Real.add_one_le_exp (2 * Real.sqrt 2)
            linarith [sqrt2_gt]
          have : 2 / (Real.exp (2 * Real.sqrt 2) + 1) ≤ 1 / 2 := by
            rw [div_le_div_iff₀ (by linarith) (by norm_num)]; linarith
          linarith
        have h2 : minNorm ≤ 1 / 10 := by unfold minNorm; norm_num
        nlinarith [sqrt2_lt, minNorm_pos]
      rw [hc']
      have e2 : Real.sqrt 2 * expFactor U i = Real.tanh (Real.sqrt 2) := by rw [e]; field_simp
      rw [e2, Real.artanh_tanh]
      field_simp
    · rw [← hU] at h
      rw [h j]; simp
  · intro i _
    have := (exp_norm (hn i)).2
    have hb : 0 < ballEps := by unfold ballEps; positivity
    unfold clipNorm
    rcases le_total (rowNorm (expmap0 U 2) i) minNorm with h' | h'
    · rw [max_eq_right h']
      have h2 : minNorm ≤ 1 / 2 := by unfold minNorm; norm_num
      nlinarith [sqrt2_lt, minNorm_pos]
    · rw [max_eq_left h']; linarith

/-! ### Fitting columns into an interval -/

theorem fitted_affine {n : Nat} {x y : Nat → ℝ} {lo s : ℝ} (hs : 0 < s)
    (hx : ∃ i < n, ∃ k < n, x i ≠ x k)
    (hy : ∀ i < n, y i = (x i - minTo x (n - 1)) / (maxTo x (n - 1) - minTo x (n - 1)) * s + lo) :
    0 < maxTo x (n - 1) - minTo x (n - 1) ∧ Fitted n x y lo (lo + s) := by
  obtain ⟨i, hi, k, hk, hne⟩ := hx
  have hpos : 0 < maxTo x (n - 1) - minTo x (n - 1) := by
    have h1 := minTo_le x (n - 1) i (by omega)
    have h2 := le_maxTo x (n - 1) i (by omega)
    have h3 := minTo_le x (n - 1) k (by omega)
    have h4 := le_maxTo x (n - 1) k (by omega)
    rcases lt_or_gt_of_ne hne with h | h <;> linarith
  obtain ⟨a, ha, ha'⟩ := minTo_mem x (n - 1)
  obtain ⟨b, hb, hb'⟩ := maxTo_mem x (n - 1)
  have hlo := fun i (hi : i < n) => minTo_le x (n - 1) i (by omega)
  have hhi := fun i (hi : i < n) => le_maxTo x (n - 1) i (by omega)
  generalize minTo x (n - 1) = m at *
  generalize maxTo x (n - 1) = M at *
  refine ⟨hpos, s / (M - m), lo - m * (s / (M - m)), by positivity, fun i hi => ?_, fun i hi => ?_,
    ⟨a, by omega, ?_⟩, ⟨b, by omega, ?_⟩⟩
  · rw [hy i hi]; ring
  · rw [hy i hi]
    have h1 : 0 ≤ (x i - m) / (M - m) := div_nonneg (by linarith [hlo i hi]) hpos.le
    have h2 : (x i - m) / (M - m) ≤ 1 := by rw [div_le_one hpos]; linarith [hhi i hi]
    constructor <;> nlinarith
  · rw [hy a (by omega), ← ha']; simp
  · rw [hy b (by omega), ← hb', div_self hpos.ne']; ring

theorem fitted_extremes {n : Nat} {x y : Nat → ℝ} {lo hi : ℝ} (h : Fitted n x y lo hi) :
    minTo y (n - 1) = lo ∧ maxTo y (n - 1) = hi := by
  obtain ⟨_, _, _, _, hb, ⟨i, hi, hi'⟩, k, hk, hk'⟩ := h
  constructor
  · obtain ⟨a, ha, ha'⟩ := minTo_mem y (n - 1)
    have h1 := minTo_le y (n - 1) i (by omega)
    have h2 := (hb a (by omega)).1
    rw [← ha'] at h2
    linarith
  · obtain ⟨a, ha, ha'⟩ := maxTo_mem y (n - 1)
    have h1 := le_maxTo y (n - 1) k (by omega)
    have h2 := (hb a (by omega)).2
    rw [← ha'] at h2
    linarith

theorem fitted_trans {n : Nat} {x y z : Nat → ℝ} {a b c d : ℝ} (h : Fitted n x y a b) (h' : Fitted n y z c d) :
    Fitted n x z c d := by
  obtain ⟨p, q, hp, e, _⟩ := h
  obtain ⟨p', q', hp', e', r⟩ := h'
  exact ⟨p' * p, p' * q + q', by positivity, fun i hi => by rw [e' i hi, e i hi]; ring, r⟩

theorem fitted_congr {n : Nat} {x x' y : Nat → ℝ} {a b : ℝ} (h : Fitted n x y a b) (hx : ∀ i < n, x i = x' i) :
    Fitted n x' y a b := by
  obtain ⟨p, q, hp, e, r⟩ := h
  exact ⟨p, q, hp, fun i hi => by rw [e i hi, hx i hi], r⟩

/-- `plot_2d_embedding` and the like on an array without NaN -/
theorem normalize_shows {P : Dense (Option ℝ)} {L : Dense ℝ} (hr : P.rows = L.rows) (hc : P.cols = L.cols)
    (h0 : 0 < L.rows) (hP : ∀ i < L.rows, ∀ j < L.cols, P.at_ i j = some (L.at_ i j)) (hs : Spread L) :
    ∃ Y, normalize P = .ok Y ∧ Y.rows = L.rows ∧ Y.cols = L.cols ∧
      ∀ j < L.cols, ∃ y : Nat → ℝ, (∀ i < L.rows, Y.at_ i j = some (y i)) ∧
        Fitted L.rows (fun i => L.at_ i j) y (1 / 10) (9 / 10) := by
  refine ⟨_, if_neg (by omega), hr, hc, fun j hj => ?_⟩
  obtain ⟨i, hi, k, hk, hne⟩ := hs j hj
  have hx : ∃ i < P.rows, ∃ k < P.rows, (P.at_ i j).getD 0 ≠ (P.at_ k j).getD 0 :=
    ⟨i, by omega, k, by omega, by rw [hP i hi j hj, hP k hk j hj]; exact hne⟩
  obtain ⟨hpos, hf⟩ := fitted_affine (n := P.rows) (x := fun k => (P.at_ k j).getD 0)
    (y := fun i => ((P.at_ i j).getD 0 - minTo (fun k => (P.at_ k j).getD 0) (P.rows - 1)) /
      (maxTo (fun k => (P.at_ k j).getD 0) (P.rows - 1) - minTo (fun k => (P.at_ k j).getD 0) (P.rows - 1))
        * (8 / 10) + 1 / 10) (lo := 1 / 10) (s := 8 / 10) (by norm_num) hx fun i _ => rfl
  refine ⟨fun i => ((P.at_ i j).getD 0 - minTo (fun k => (P.at_ k j).getD 0) (P.rows - 1)) /
      (maxTo (fun k => (P.at_ k j).getD 0) (P.rows - 1) - minTo (fun k => (P.at_ k j).getD 0) (P.rows - 1))
        * (8 / 10) + 1 / 10, fun i hi => ?_, ?_⟩
  · show (if ∀ k < P.rows, (P.at_ k j).isSome = true then _ else none) = _
    rw [if_pos fun k hk => by rw [hP k (by omega) j hj]; rfl, rescale, if_neg hpos.ne']
  · rw [hr] at hf
    have e : (1 / 10 + 8 / 10 : ℝ) = 9 / 10 := by norm_num
    rw [e] at hf
    have := fitted_congr hf (x' := fun i => L.at_ i j) fun i hi => by rw [hP i hi j hj]; rfl
    rw [← hr] at this ⊢
    exact this

theorem plot_shows {P : Dense (Option ℝ)} {L : Dense ℝ} (hr : P.rows = L.rows) (hc : P.cols = L.cols)
    (h0 : 0 < L.rows) (hP : ∀ i < L.rows, ∀ j < L.cols, P.at_ i j = some (L.at_ i j)) (hs : Spread L)
    (label : Option (List ℝ)) :
    ∃ S, plotEmbedding L.cols P label = .ok S ∧ Shows S L ∧
      S.colors = (match label with | none => .default | some l => .labels l) := by
  obtain ⟨Y, e, h1, h2, h3⟩ := normalize_shows hr hc h0 hP hs
  refine ⟨⟨L.cols, { Y with cols := L.cols }, match label with | none => .default | some l => .labels l⟩, ?_,
    ⟨rfl, h1, rfl, h3⟩, rfl⟩
  unfold plotEmbedding
  rw [e]
  simp only [bind, Except.bind, need]
  rw [if_pos (by omega)]
  rfl

theorem animation_shows {P : Dense (Option ℝ)} {L : Dense ℝ} (hr : P.rows = L.rows) (hc : P.cols = L.cols)
    (h3 : L.cols = 3)
    (h0 : 0 < L.rows) (hP : ∀ i < L.rows, ∀ j < L.cols, P.at_ i j = some (L.at_ i j)) (hs : Spread L)
    (c : Colors) : ∃ S, makeAnimation P c = .ok S ∧ Shows S L ∧ S.colors = c := by
  obtain ⟨Y, e, h1, h2, h4⟩ := normalize_shows hr hc h0 hP hs
  refine ⟨⟨3, { Y with cols := 3 }, c⟩, ?_, ⟨h3.symm, h1, h3.symm, h4⟩, rfl⟩
  unfold makeAnimation
  rw [e]
  simp only [bind, Except.bind, need]
  rw [if_pos (by omega)]
  rfl

/-- the two scalings before the final map -/
theorem scaled_fitted {L : Dense ℝ} (hs : Spread L) {j : Nat} (hj : j < L.cols) :
    colMax L j - colMin L j ≠ 0 ∧
      Fitted L.rows (fun i => L.at_ i j) (fun i => (minMaxScale (toUnit L)).at_ i j) (-2) 2 := by
  obtain ⟨hpos, h1⟩ := fitted_affine (n := L.rows) (x := fun i => L.at_ i j)
    (y := fun i => (toUnit L).at_ i j) (lo := 0) (s := 1) one_pos (hs j hj) fun i _ => by
      simp only [toUnit, colMin, colMax]; ring
  refine ⟨hpos.ne', fitted_trans h1 ?_⟩
  have hx := fitted_extremes h1
  obtain ⟨_, _, _, _, _, ⟨a, ha, ha'⟩, b, hb, hb'⟩ := h1
  simp only at ha' hb'
  have h2 := (fitted_affine (n := L.rows) (x := fun i => (toUnit L).at_ i j)
    (y := fun i => (minMaxScale (toUnit L)).at_ i j) (lo := -2) (s := 4) (by norm_num)
    ⟨a, ha, b, hb, by rw [ha', hb']; norm_num⟩ fun i _ => by
      have e1 : colMin (toUnit L) j = 0 := hx.1
      have e2 : colMax (toUnit L) j = 1 := by
        have := hx.2; rw [zero_add] at this; exact this
      rw [hx.1, hx.2]
      simp only [minMaxScale, e1, e2]
      norm_num).2
  norm_num at h2
  exact h2

/-- the rows handed to the final map are short enough -/
theorem scaled_small {L : Dense ℝ} (hs : Spread L) (hc : L.cols ≤ 3) {i : Nat} (hi : i < L.rows) :
    Real.sqrt 2 * rowNorm (minMaxScale (toUnit L)) i ≤ 5 := by
  rw [rowNorm_eq_len]
  show Real.sqrt 2 * len L.cols _ ≤ 5
  have h : len L.cols ((minMaxScale (toUnit L)).at_ i) ≤ Real.sqrt L.cols * 2 := by
    refine len_bound (by norm_num) fun j hj => ?_
    obtain ⟨_, _, _, _, _, hb, _⟩ := scaled_fitted hs hj
    have := hb i hi
    nlinarith [this.1, this.2]
  have h6 : Real.sqrt 2 * Real.sqrt L.cols ≤ 5 / 2 := by
    rw [← Real.sqrt_mul (by norm_num)]
    rw [Real.sqrt_le_left (by norm_num)]
    have : (L.cols : ℝ) ≤ 3 := by exact_mod_cast hc
    linarith
  nlinarith [sqrt2_pos]

/-- the points returned by `project_to_poincare_ball` -/
noncomputable def ball (L : Dense ℝ) : Dense ℝ := expmap0 (minMaxScale (toUnit L)) 2

theorem ball_spread {L : Dense ℝ} (hs : Spread L) (hc : L.cols ≤ 3) : Spread (ball L) := by
  intro j hj
  obtain ⟨_, _, _, _, _, _, ⟨a, ha, ha'⟩, b, hb, hb'⟩ := scaled_fitted hs hj
  refine ⟨a, ha, b, hb, ?_⟩
  have h1 := (small_row (scaled_small hs hc ha)).1
  have h2 := (small_row (scaled_small hs hc hb)).1
  unfold ball
  rw [expmap0_at, expmap0_at]
  simp only at ha' hb'
  rw [ha', hb']
  intro h
  linarith

theorem project_eq {R : Reducer} {X L : Dense ℝ} {dim : Int} {method : String} (hd : dim = 2 ∨ dim = 3)
    (hX : NonZeroRows X) (hR : Reduces R method dim.toNat (directions X) L) :
    projectToPoincareBall R X dim method =
      (if L.rows = 0 then .error .value
       else if ∃ j < L.cols, colMax L j - colMin L j = 0 then
         .ok { rows := L.rows, cols := L.cols, at_ := fun _ _ => none }
       else .ok (someD (proj (ball L) 2))) := by
  have hn : ∀ i < X.rows, rowNorm X i ≠ 0 := by
    intro i hi h
    rw [rowNorm_eq_len, len_eq_zero_iff] at h
    obtain ⟨j, hj, hne⟩ := hX i hi
    exact hne (h j hj)
  unfold projectToPoincareBall
  simp only [need, if_pos hd, if_pos hn, bind, Except.bind]
  rcases hR with ⟨rfl, h⟩ | ⟨rfl, h⟩
  · rw [if_pos (Or.inl rfl)]
    simp only [detour, h]
    rfl
  · rw [if_pos (Or.inr rfl)]
    simp only [detour, h]
    rfl

theorem project_ok {R : Reducer} {X L : Dense ℝ} {dim : Int} {method : String} (hd : dim = 2 ∨ dim = 3)
    (hX : NonZeroRows X) (hR : Reduces R method dim.toNat (directions X) L) (h0 : 0 < L.rows)
    (hc : L.cols ≤ 3) (hs : Spread L) :
    ∃ P, projectToPoincareBall R X dim method = .ok P ∧ P.rows = L.rows ∧ P.cols = L.cols ∧
      ∀ i < L.rows, ∀ j < L.cols, P.at_ i j = some ((ball L).at_ i j) := by
  refine ⟨someD (proj (ball L) 2), ?_, rfl, rfl, fun i hi j _ => ?_⟩
  · rw [project_eq hd hX hR, if_neg (by omega), if_neg]
    rintro ⟨j, hj, h⟩
    exact (scaled_fitted hs hj).1 h
  · exact congrArg some (proj_at (X := ball L) (exp_norm (scaled_small hs hc hi)).2 j)

end Vis

open Spec Vis Props.Vi

/-! ### C75: drawings of embeddings -/

/-- C75.  `draw_in_euclidean_space` shows one point per embedding, in order and with the labels given, and
every axis of the reduction fills the interval from 0.1 to 0.9, whatever t-SNE answers.  Missing: a
reduction with a constant column. -/
theorem C75_euclidean_partial (R : Reducer) (X L : Dense ℝ) (label : Option (List ℝ)) (dim : Int)
    (hd : dim = 2 ∨ dim = 3) (hR : R.tsne dim.toNat X = .ok L) (hL : Shaped dim.toNat X L) (h0 : 0 < X.rows)
    (hs : Spread L) :
    ∃ S, drawInEuclideanSpace R X label dim = .ok S ∧ Shows S L ∧
      S.colors = (match label with | none => .default | some l => .labels l) := by
  obtain ⟨S, e, h⟩ := plot_shows (P := someD L) (L := L) rfl rfl (by rw [hL.1]; exact h0) (fun _ _ _ _ => rfl) hs
    label
  refine ⟨S, ?_, h⟩
  unfold drawInEuclideanSpace
  simp only [need, if_pos hd, bind, Except.bind, hR]
  rw [← hL.2]
  exact e

/-- C75.  The same for `draw_in_poincare_ball` and the points of the ball.  Missing: as above. -/
theorem C75_poincare_partial (R : Reducer) (X L : Dense ℝ) (label : Option (List ℝ)) (dim : Int) (method : String)
    (hd : dim = 2 ∨ dim = 3) (hX : NonZeroRows X) (hR : Reduces R method dim.toNat (directions X) L)
    (hL : Shaped dim.toNat X L) (h0 : 0 < X.rows) (hs : Spread L) :
    ∃ (Q : Dense ℝ) (S : Scatter),
      (∃ P, projectToPoincareBall R X dim method = .ok P ∧ P.rows = Q.rows ∧ P.cols = Q.cols ∧
        ∀ i < Q.rows, ∀ j < Q.cols, P.at_ i j = some (Q.at_ i j)) ∧
      Q.rows = X.rows ∧ drawInPoincareBall R X label dim method = .ok S ∧ Shows S Q ∧
      S.colors = (match label with | none => .default | some l => .labels l) := by
  have hc : L.cols ≤ 3 := by rw [hL.2]; rcases hd with rfl | rfl <;> decide
  have hr : 0 < L.rows := by rw [hL.1]; exact h0
  obtain ⟨P, e, h1, h2, h3⟩ := project_ok hd hX hR hr hc hs
  obtain ⟨S, e', h⟩ := plot_shows (P := P) (L := ball L) h1 h2 hr h3 (ball_spread hs hc) label
  refine ⟨ball L, S, ⟨P, e, h1, h2, h3⟩, hL.1, ?_, h⟩
  unfold drawInPoincareBall
  rw [e, ← hL.2]
  exact e'

/-- C75.  The animations show the same points in three dimensions, red if there are no labels.  Missing: as
above. -/
theorem C75_animations_partial (R : Reducer) (X : Dense ℝ) (label : Option (List ℝ)) (method : String)
    (h0 : 0 < X.rows) :
    (∀ L, R.tsne 3 X = .ok L → Shaped 3 X L → Spread L →
      ∃ S, animationEuclidean R X label = .ok S ∧ Shows S L ∧
        S.colors = (match label with | none => .name "r" | some l => .labels l)) ∧
    ∀ L, NonZeroRows X → Reduces R method 3 (directions X) L → Shaped 3 X L → Spread L →
      ∃ (Q : Dense ℝ) (S : Scatter),
        (∃ P, projectToPoincareBall R X 3 method = .ok P ∧ P.rows = Q.rows ∧ P.cols = Q.cols ∧
          ∀ i < Q.rows, ∀ j < Q.cols, P.at_ i j = some (Q.at_ i j)) ∧
        animationPoincare R X label method = .ok S ∧ Shows S Q ∧
        S.colors = (match label with | none => .name "r" | some l => .labels l) := by
  have hcol : animColors label = (match label with | none => .name "r" | some l => .labels l) := by
    cases label <;> rfl
  constructor
  · intro L hR hL hs
    obtain ⟨S, e, h1, h2⟩ := animation_shows (P := someD L) (L := L) rfl rfl hL.2 (by rw [hL.1]; exact h0)
      (fun _ _ _ _ => rfl) hs (animColors label)
    refine ⟨S, ?_, h1, by rw [h2, hcol]⟩
    unfold animationEuclidean
    rw [hR]
    exact e
  · intro L hX hR hL hs
    have hr : 0 < L.rows := by rw [hL.1]; exact h0
    have hc : L.cols ≤ 3 := by rw [hL.2]
    obtain ⟨P, e, h1, h2, h3⟩ := project_ok (dim := 3) (Or.inr rfl) hX hR hr hc hs
    obtain ⟨S, e', h4, h5⟩ := animation_shows (P := P) (L := ball L) h1 h2 hL.2 hr h3 (ball_spread hs hc)
      (animColors label)
    refine ⟨ball L, S, ⟨P, e, h1, h2, h3⟩, ?_, h4, by rw [h5, hcol]⟩
    unfold animationPoincare
    rw [e]
    exact e'

/-- C75.  Other dimensions are refused. -/
theorem C75_dim_raises (R : Reducer) (X : Dense ℝ) (label : Option (List ℝ)) (dim : Int) (method : String)
    (hd : dim ≠ 2 ∧ dim ≠ 3) :
    drawInEuclideanSpace R X label dim = .error .assertion ∧
      drawInPoincareBall R X label dim method = .error .assertion := by
  have h : ¬ (dim = 2 ∨ dim = 3) := by tauto
  unfold drawInEuclideanSpace drawInPoincareBall projectToPoincareBall
  simp only [need, if_neg h, bind, Except.bind, and_self]

/-! ### C76: the Poincaré ball -/

/-- C76.  `project_to_poincare_ball` reduces the directions of the embeddings, fits every coordinate of the
reduction into the interval from -2 to 2, and maps each point `u` so obtained to the point `p` in the same
direction whose length satisfies `√2 |p| = tanh (√2 |u|)`; all results lie inside the ball of radius
`(1 - 10⁻⁵) / √2`.  Missing: a reduction with a constant column. -/
theorem C76_poincare_partial (R : Reducer) (X L : Dense ℝ) (dim : Int) (method : String)
    (hd : dim = 2 ∨ dim = 3) (hX : NonZeroRows X) (hR : Reduces R method dim.toNat (directions X) L)
    (hL : Shaped dim.toNat X L) (h0 : 0 < X.rows) (hs : Spread L) :
    ∃ (P : Dense (Option ℝ)) (u p : Nat → Nat → ℝ), projectToPoincareBall R X dim method = .ok P ∧
      P.rows = X.rows ∧ P.cols = dim.toNat ∧
      (∀ j < dim.toNat, Fitted X.rows (fun i => L.at_ i j) (fun i => u i j) (-2) 2) ∧
      ∀ i < X.rows, (∀ j < dim.toNat, P.at_ i j = some (p i j)) ∧
        (∃ t : ℝ, 0 < t ∧ ∀ j < dim.toNat, p i j = t * u i j) ∧
        len dim.toNat (p i) ≤ (1 - 1 / 10 ^ 5) / Real.sqrt 2 ∧
        (1 / 10 ^ 15 ≤ len dim.toNat (u i) →
          Real.sqrt 2 * len dim.toNat (p i) = Real.tanh (Real.sqrt 2 * len dim.toNat (u i))) := by
  have hc : L.cols ≤ 3 := by rw [hL.2]; rcases hd with rfl | rfl <;> decide
  have hr : 0 < L.rows := by rw [hL.1]; exact h0
  obtain ⟨P, e, h1, h2, h3⟩ := project_ok hd hX hR hr hc hs
  have hrX : L.rows = X.rows := hL.1
  have hcX : L.cols = dim.toNat := hL.2
  refine ⟨P, (minMaxScale (toUnit L)).at_, (ball L).at_, e, by rw [h1, hrX], by rw [h2, hcX], fun j hj => ?_,
    fun i hi => ⟨fun j hj => h3 i (by omega) j (by omega), ?_⟩⟩
  · rw [← hrX]; exact (scaled_fitted hs (by omega)).2
  · have hsm := scaled_small hs hc (i := i) (by omega)
    obtain ⟨hp, h5, ef⟩ := small_row hsm
    obtain ⟨hn, hb⟩ := exp_norm hsm
    rw [rowNorm_eq_len, rowNorm_eq_len] at hn
    rw [rowNorm_eq_len] at hb
    change len L.cols _ = _ * len L.cols _ at hn
    change _ * len L.cols _ ≤ _ at hb
    rw [hcX] at hn hb
    refine ⟨⟨_, hp, fun j _ => expmap0_at _ i j⟩, ?_, fun hm => ?_⟩
    · rw [le_div_iff₀ sqrt2_pos, mul_comm]; exact hb
    · show Real.sqrt 2 * len dim.toNat ((expmap0 (minMaxScale (toUnit L)) 2).at_ i) = _
      rw [hn, ef]
      have hcl : clipNorm (minMaxScale (toUnit L)) i = len dim.toNat ((minMaxScale (toUnit L)).at_ i) := by
        rw [clipNorm, rowNorm_eq_len]
        show max (len L.cols _) _ = _
        rw [hcX]
        exact max_eq_left hm
      have hpos : 0 < len dim.toNat ((minMaxScale (toUnit L)).at_ i) := lt_of_lt_of_le minNorm_pos hm
      rw [hcl]
      have := sqrt2_pos
      field_simp

/-- C76.  `proj` keeps the points that lie in the ball of radius `(1 - 10⁻⁵) / √c` and moves all others towards
the origin, into that ball. -/
theorem C76_clip (X : Dense ℝ) (c : ℝ) (hc : 0 < c) :
    (proj X c).rows = X.rows ∧ (proj X c).cols = X.cols ∧
    ∀ i, len X.cols ((proj X c).at_ i) ≤ (1 - 1 / 10 ^ 5) / Real.sqrt c ∧
      (∃ t : ℝ, 0 < t ∧ t ≤ 1 ∧ ∀ j, (proj X c).at_ i j = t * X.at_ i j) ∧
      (1 / 10 ^ 15 ≤ (1 - 1 / 10 ^ 5) / Real.sqrt c → len X.cols (X.at_ i) ≤ (1 - 1 / 10 ^ 5) / Real.sqrt c →
        ∀ j, (proj X c).at_ i j = X.at_ i j) := by
  refine ⟨rfl, rfl, fun i => ?_⟩
  have hR : 0 < (1 - ballEps) / Real.sqrt c := by
    have : ballEps < 1 := by unfold ballEps; norm_num
    exact div_pos (by linarith) (Real.sqrt_pos.2 hc)
  change len X.cols ((proj X c).at_ i) ≤ (1 - ballEps) / Real.sqrt c ∧ _ ∧
    (minNorm ≤ (1 - ballEps) / Real.sqrt c → len X.cols (X.at_ i) ≤ (1 - ballEps) / Real.sqrt c → _)
  have hcp := clipNorm_pos X i
  have hle : len X.cols (X.at_ i) ≤ clipNorm X i := by rw [← rowNorm_eq_len]; exact le_max_left _ _
  have hd : (proj X c).at_ i = fun j => if (1 - ballEps) / Real.sqrt c < clipNorm X i
      then X.at_ i j / clipNorm X i * ((1 - ballEps) / Real.sqrt c) else X.at_ i j := rfl
  by_cases h : (1 - ballEps) / Real.sqrt c < clipNorm X i
  · simp only [hd, if_pos h]
    generalize (1 - ballEps) / Real.sqrt c = R at *
    have he : ∀ j, X.at_ i j / clipNorm X i * R = R / clipNorm X i * X.at_ i j := fun j => by ring
    have ht : 0 < R / clipNorm X i := div_pos hR hcp
    refine ⟨?_, ⟨_, ht, by rw [div_le_one hcp]; exact h.le, he⟩, fun hm hl => ?_⟩
    · simp only [he]
      rw [len_smul _ _ ht.le, div_mul_eq_mul_div, div_le_iff₀ hcp]
      exact mul_le_mul_of_nonneg_left hle hR.le
    · exact absurd h (not_lt.2 (by rw [clipNorm, rowNorm_eq_len]; exact max_le hl hm))
  · simp only [hd, if_neg h]
    exact ⟨hle.trans (not_lt.1 h), ⟨1, one_pos, le_refl _, fun j => (one_mul _).symm⟩, fun _ _ _ => trivial⟩

/-- C76.  `logmap0` undoes `expmap0`, row by row, for points that are zero, or neither beyond the bound at which
`tanh` is cut off nor so close to the origin that their lengths are replaced. -/
theorem C76_inverse (U : Dense ℝ) (c : ℝ) (hc : 0 < c) (hc' : Real.sqrt c < 10 ^ 15)
    (hU : ∀ i < U.rows, (∀ j < U.cols, U.at_ i j = 0) ∨
      (1 / 10 ^ 15 ≤ len U.cols (U.at_ i) ∧ Real.sqrt c * len U.cols (U.at_ i) ≤ 15 ∧
        Real.sqrt c / 10 ^ 15 ≤ Real.tanh (Real.sqrt c * len U.cols (U.at_ i)))) :
    ∃ V, logmap0 (expmap0 U c) c = .ok V ∧ V.rows = U.rows ∧ V.cols = U.cols ∧
      ∀ i < U.rows, ∀ j < U.cols, V.at_ i j = U.at_ i j := by
  have hs : 0 < Real.sqrt c := Real.sqrt_pos.2 hc
  set E := expmap0 U c with hE
  have hat : ∀ i j, E.at_ i j = tanh15 (Real.sqrt c * clipNorm U i) / (Real.sqrt c * clipNorm U i) * U.at_ i j := by
    intro i j
    rw [hE]
    simp only [expmap0]
    ring
  have hm : Real.sqrt c * minNorm < 1 := by
    unfold minNorm
    rw [mul_one_div, div_lt_one (by positivity)]
    exact hc'
  -- a row that is not zero
  have key : ∀ i, 1 / 10 ^ 15 ≤ len U.cols (U.at_ i) → Real.sqrt c * len U.cols (U.at_ i) ≤ 15 →
      Real.sqrt c / 10 ^ 15 ≤ Real.tanh (Real.sqrt c * len U.cols (U.at_ i)) →
      Real.sqrt c * clipNorm E i = Real.tanh (Real.sqrt c * len U.cols (U.at_ i)) ∧
      0 < len U.cols (U.at_ i) ∧ ∀ j, E.at_ i j =
        Real.tanh (Real.sqrt c * len U.cols (U.at_ i)) / (Real.sqrt c * len U.cols (U.at_ i)) * U.at_ i j := by
    intro i h1 h2 h3
    have hl : 0 < len U.cols (U.at_ i) := lt_of_lt_of_le minNorm_pos h1
    have hcl : clipNorm U i = len U.cols (U.at_ i) := by
      rw [clipNorm, rowNorm_eq_len]; exact max_eq_left h1
    have hat' : ∀ j, E.at_ i j =
        Real.tanh (Real.sqrt c * len U.cols (U.at_ i)) / (Real.sqrt c * len U.cols (U.at_ i)) * U.at_ i j := by
      intro j
      rw [hat, hcl, tanh15_eq (by positivity) h2]
    have hn : len U.cols (E.at_ i) = Real.tanh (Real.sqrt c * len U.cols (U.at_ i)) / Real.sqrt c := by
      have ht := tanh_pos (mul_pos hs hl)
      rw [len_congr (y := fun j => Real.tanh (Real.sqrt c * len U.cols (U.at_ i)) /
        (Real.sqrt c * len U.cols (U.at_ i)) * U.at_ i j) fun j _ => hat' j, len_smul _ _ (by positivity)]
      field_simp
    refine ⟨?_, hl, hat'⟩
    rw [clipNorm, rowNorm_eq_len]
    show Real.sqrt c * max (len U.cols (E.at_ i)) minNorm = _
    rw [hn, max_eq_left]
    · field_simp
    · unfold minNorm
      rw [le_div_iff₀ hs]
      calc _ = Real.sqrt c / 10 ^ 15 := by ring
        _ ≤ _ := h3
  -- a row that is zero
  have key0 : ∀ i, (∀ j < U.cols, U.at_ i j = 0) → clipNorm E i = minNorm := by
    intro i h
    rw [clipNorm, rowNorm_eq_len]
    have : len E.cols (E.at_ i) = 0 := (len_eq_zero_iff _ _).2 fun j hj => by rw [hat, h j hj, mul_zero]
    rw [this]
    exact max_eq_right minNorm_pos.le
  rw [logmap0, if_pos]
  · refine ⟨_, rfl, rfl, rfl, fun i hi j hj => ?_⟩
    dsimp only
    rcases hU i hi with h | ⟨h1, h2, h3⟩
    · rw [hat, h j hj]; simp
    · obtain ⟨k1, k2, k3⟩ := key i h1 h2 h3
      have ht := tanh_pos (mul_pos hs k2)
      have k4 : clipNorm E i = Real.tanh (Real.sqrt c * len U.cols (U.at_ i)) / Real.sqrt c := by
        rw [← k1]; field_simp
      rw [k1, Real.artanh_tanh, k3, k4]
      field_simp
  · intro i hi
    rcases hU i hi with h | ⟨h1, h2, h3⟩
    · rw [key0 i h]; exact hm
    · rw [(key i h1 h2 h3).1]
      exact Real.tanh_lt_one _

/-- C76.  The lengths of the embeddings play no role: multiplying each of them by a positive number changes
nothing. -/
theorem C76_scale (R : Reducer) (X : Dense ℝ) (a : Nat → ℝ) (ha : ∀ i, 0 < a i) (dim : Int) (method : String) :
    projectToPoincareBall R { X with at_ := fun i j => a i * X.at_ i j } dim method =
      projectToPoincareBall R X dim method := by
  have hn : ∀ i, rowNorm { X with at_ := fun i j => a i * X.at_ i j } i = a i * rowNorm X i := fun i =>
    rowNorm_smul (ha i).le rfl fun _ => rfl
  have hu : unitRows { X with at_ := fun i j => a i * X.at_ i j } = unitRows X := by
    unfold unitRows
    congr 1
    funext i j
    cases j with
    | zero => rfl
    | succ j =>
      show a i * X.at_ i j / _ = X.at_ i j / _
      rw [hn i, mul_div_mul_left _ _ (ha i).ne']
  have hz : (∀ i < X.rows, rowNorm { X with at_ := fun i j => a i * X.at_ i j } i ≠ 0) ↔
      ∀ i < X.rows, rowNorm X i ≠ 0 := by
    constructor <;> intro h i hi h' <;> refine h i hi ?_
    · rw [hn i, h', mul_zero]
    · rw [hn i] at h'
      exact (mul_eq_zero.1 h').resolve_left (ha i).ne'
  unfold projectToPoincareBall
  simp only [need, hu, hz]

/-- C76.  Other dimensions, other methods and zero embeddings are refused. -/
theorem C76_raises (R : Reducer) (X : Dense ℝ) (dim : Int) (method : String) :
    ((dim ≠ 2 ∧ dim ≠ 3) ∨ (method ≠ "pca" ∧ method ≠ "tsne") →
      projectToPoincareBall R X dim method = .error .assertion) ∧
    ((dim = 2 ∨ dim = 3) → (method = "pca" ∨ method = "tsne") →
      (∃ i < X.rows, ∀ j < X.cols, X.at_ i j = 0) →
      projectToPoincareBall R X dim method = .error .value) := by
  constructor
  · intro h
    unfold projectToPoincareBall
    simp only [need, bind, Except.bind]
    by_cases hd : dim = 2 ∨ dim = 3
    · have hm : ¬ (method = "pca" ∨ method = "tsne") := by tauto
      rw [if_pos hd, if_neg hm]
    · rw [if_neg hd]
  · rintro hd hm ⟨i, hi, hz⟩
    unfold projectToPoincareBall
    simp only [need, bind, Except.bind, if_pos hd, if_pos hm]
    rw [if_neg]
    intro h
    exact h i hi (by rw [rowNorm_eq_len, len_eq_zero_iff]; exact hz)

/-- C75, C76 fail for embeddings that all point in the same direction: with a reduction that maps equal
rows to equal rows, every coordinate of the projection and of the picture is NaN. -/
theorem C76_same_direction_false (R : Reducer) (X L : Dense ℝ) (dim : Int) (method : String)
    (hd : dim = 2 ∨ dim = 3) (hX : NonZeroRows X) (hR : Reduces R method dim.toNat (directions X) L)
    (hL : Shaped dim.toNat X L) (h0 : 0 < X.rows) (hw : RowWise (directions X) L)
    (v : Nat → ℝ) (hv : ∀ i < X.rows, ∃ a : ℝ, 0 < a ∧ ∀ j < X.cols, X.at_ i j = a * v j) :
    ∃ P, projectToPoincareBall R X dim method = .ok P ∧ P.rows = X.rows ∧ AllNaN P ∧
      ∃ S, drawInPoincareBall R X none dim method = .ok S ∧ S.points.rows = X.rows ∧ AllNaN S.points := by
  have hdir : ∀ i < X.rows, ∀ j < X.cols + 1, (directions X).at_ i j =
      if j = 0 then 0 else v (j - 1) / len X.cols v := by
    intro i hi j hj
    obtain ⟨a, ha, he⟩ := hv i hi
    show (if j = 0 then 0 else X.at_ i (j - 1) / len X.cols (X.at_ i)) = _
    by_cases hj0 : j = 0
    · rw [if_pos hj0, if_pos hj0]
    · rw [if_neg hj0, if_neg hj0, he (j - 1) (by omega), len_congr he, len_smul _ _ ha.le,
        mul_div_mul_left _ _ ha.ne']
  have hcol : ∃ j < L.cols, colMax L j - colMin L j = 0 := by
    have hlc : 0 < L.cols := by rw [hL.2]; rcases hd with rfl | rfl <;> decide
    refine ⟨0, hlc, ?_⟩
    obtain ⟨a, ha, ha'⟩ := minTo_mem (fun i => L.at_ i 0) (L.rows - 1)
    obtain ⟨b, hb, hb'⟩ := maxTo_mem (fun i => L.at_ i 0) (L.rows - 1)
    have hl : L.rows = X.rows := hL.1
    unfold colMax colMin
    rw [ha', hb']
    have := hw b (show b < X.rows by omega) a (show a < X.rows by omega) (fun j hj => by
      rw [hdir b (by omega) j hj, hdir a (by omega) j hj]) 0 hlc
    show L.at_ b 0 - L.at_ a 0 = 0
    rw [this, sub_self]
  have e := project_eq hd hX hR
  have hl : L.rows = X.rows := hL.1
  rw [if_neg (by omega), if_pos hcol] at e
  refine ⟨_, e, hl, fun _ _ _ _ => rfl,
    ⟨dim.toNat, { rows := L.rows, cols := dim.toNat, at_ := fun _ _ => none }, .default⟩, ?_, ?_, ?_⟩
  · unfold drawInPoincareBall
    rw [e]
    simp only [bind, Except.bind, plotEmbedding, Vis.normalize, need]
    rw [if_neg (show ¬ L.rows = 0 by omega)]
    simp only
    rw [if_pos (by rw [hL.2])]
    simp only [pure, Except.pure]
    congr 2
    congr 1
    funext i j
    rw [if_neg]
    intro h
    exact absurd (h 0 (by omega)) (by simp)
  · exact hl
  · intro _ _ _ _; rfl

/-- C75 fails for the picture in the Poincaré ball of embeddings that all point in one direction: no vertex is
drawn, as all coordinates are NaN. -/
theorem C75_same_direction_false (R : Reducer) (X L : Dense ℝ) (dim : Int) (method : String)
    (hd : dim = 2 ∨ dim = 3) (hX : NonZeroRows X) (hR : Reduces R method dim.toNat (directions X) L)
    (hL : Shaped dim.toNat X L) (h0 : 0 < X.rows) (hw : RowWise (directions X) L)
    (v : Nat → ℝ) (hv : ∀ i < X.rows, ∃ a : ℝ, 0 < a ∧ ∀ j < X.cols, X.at_ i j = a * v j) :
    ∃ S, drawInPoincareBall R X none dim method = .ok S ∧ S.points.rows = X.rows ∧ AllNaN S.points := by
  obtain ⟨_, _, _, _, h⟩ := C76_same_direction_false R X L dim method hd hX hR hL h0 hw v hv
  exact h

/-! A reduction and embeddings that meet the hypotheses: two embeddings, reduced to their own last two
coordinates. -/

/-- drops the zero in front -/
def exRed : Reducer where
  tsne := fun d Y => .ok { rows := Y.rows, cols := d, at_ := fun i j => Y.at_ i j }
  pca := fun d Y => .ok { rows := Y.rows, cols := d, at_ := fun i j => Y.at_ i (j + 1) }

/-- the embeddings `(3, 4)` and `(4, 3)` -/
def exEmb : Dense ℝ := { rows := 2, cols := 2, at_ := fun i j => if i = j then 3 else 4 }

theorem exEmb_len (i : Nat) (hi : i < 2) : len 2 (exEmb.at_ i) = 5 := by
  have : i = 0 ∨ i = 1 := by omega
  have e : (25 : ℝ) = 5 ^ 2 := by norm_num
  rcases this with rfl | rfl <;>
    · simp only [len, exEmb, Finset.sum_range_succ, Finset.sum_range_zero]
      norm_num
      rw [e, Real.sqrt_sq (by norm_num)]

example : ∃ P, projectToPoincareBall exRed exEmb 2 "pca" = .ok P ∧ P.rows = 2 := by
  obtain ⟨P, _, _, h, hr, _⟩ := C76_poincare_partial exRed exEmb _ 2 "pca" (Or.inl rfl)
    (fun i _ => ⟨0, by decide, by simp only [exEmb]; split <;> norm_num⟩) (Or.inl ⟨rfl, rfl⟩) ⟨rfl, rfl⟩ (by decide)
    (by
      intro j hj
      have hj : j < 2 := hj
      refine ⟨0, by decide, 1, by decide, ?_⟩
      have h0 : len 2 (exEmb.at_ 0) = 5 := exEmb_len 0 (by norm_num)
      have h1 : len 2 (exEmb.at_ 1) = 5 := exEmb_len 1 (by norm_num)
      show exEmb.at_ 0 j / len 2 (exEmb.at_ 0) ≠ exEmb.at_ 1 j / len 2 (exEmb.at_ 1)
      rw [h0, h1]
      have : j = 0 ∨ j = 1 := by omega
      rcases this with rfl | rfl <;> simp only [exEmb] <;> norm_num)
  exact ⟨P, h, hr⟩

/-- these embeddings survive the way to the ball and back -/
example : ∃ V, logmap0 (expmap0 exEmb 1) 1 = .ok V ∧ V.at_ 1 0 = 4 := by
  obtain ⟨V, h, _, _, hV⟩ := C76_inverse exEmb 1 one_pos (by rw [Real.sqrt_one]; norm_num) (by
    intro i hi
    right
    show 1 / 10 ^ 15 ≤ len 2 (exEmb.at_ i) ∧ Real.sqrt 1 * len 2 (exEmb.at_ i) ≤ 15 ∧
      Real.sqrt 1 / 10 ^ 15 ≤ Real.tanh (Real.sqrt 1 * len 2 (exEmb.at_ i))
    rw [exEmb_len i hi, Real.sqrt_one]
    refine ⟨by norm_num, by norm_num, ?_⟩
    rw [tanh_eq_one_sub]
    have h1 : (11 : ℝ) ≤ Real.exp (2 * (1 * 5)) := by
      have := Real.add_one_le_exp (2 * (1 * 5) : ℝ)
      linarith
    have h2 : 2 / (Real.exp (2 * (1 * 5)) + 1) ≤ (1 : ℝ) / 2 := by
      rw [div_le_div_iff₀ (by linarith) (by norm_num)]; linarith
    have h3 : (1 : ℝ) / 10 ^ 15 ≤ 1 / 2 := by norm_num
    linarith)
  exact ⟨V, h, (hV 1 (by decide) 0 (by decide)).trans (by simp [exEmb])⟩

example : ∃ S, drawInEuclideanSpace exRed exEmb none 2 = .ok S ∧ S.points.rows = 2 := by
  obtain ⟨S, h, hs, _⟩ := C75_euclidean_partial exRed exEmb _ none 2 (Or.inl rfl) rfl ⟨rfl, rfl⟩ (by decide)
    (by
      intro j hj
      have hj : j < 2 := hj
      refine ⟨0, by decide, 1, by decide, ?_⟩
      show exEmb.at_ 0 j ≠ exEmb.at_ 1 j
      have : j = 0 ∨ j = 1 := by omega
      rcases this with rfl | rfl <;> simp only [exEmb] <;> norm_num)
  exact ⟨S, h, hs.2.1⟩

/-- two embeddings in the same direction -/
def exPar : Dense ℝ := { rows := 2, cols := 2, at_ := fun i j => ((i : ℝ) + 1) * ((j : ℝ) + 1) }

example : ∃ P, projectToPoincareBall exRed exPar 2 "pca" = .ok P ∧ P.rows = 2 ∧ AllNaN P := by
  obtain ⟨P, h, hr, hn, _⟩ := C76_same_direction_false exRed exPar _ 2 "pca" (Or.inl rfl)
    (fun i _ => ⟨0, by decide, by simp only [exPar]; positivity⟩) (Or.inl ⟨rfl, rfl⟩) ⟨rfl, rfl⟩ (by decide)
    (fun i _ k _ h j hj => h (j + 1) (Nat.succ_lt_succ hj)) (fun j => (j : ℝ) + 1)
    (fun i _ => ⟨(i : ℝ) + 1, by positivity, fun _ _ => rfl⟩)
  exact ⟨P, h, hr, hn⟩

end DHG
