import Verif.NnLoss
import Mathlib.Tactic.Linarith
import Mathlib.Tactic.Positivity
import Mathlib.Tactic.NormNum
import Mathlib.Tactic.FieldSimp
import Mathlib.Tactic.Ring
import Mathlib.Algebra.BigOperators.Fin
import Mathlib.Algebra.Order.BigOperators.Group.Finset

/-!
# Properties of the BPR loss and of the embedding regularisation (C92, C93)
-/

set_option linter.unusedSectionVars false
set_option autoImplicit false

namespace DHG

namespace Spec

/-- the Bayesian personalised ranking loss: average over the pairs of
`log (1 + exp (beta * negative - alpha * positive))` -/
noncomputable def bpr {n : Nat} (alpha beta : ℝ) (pos neg : Fin n → ℝ) : ℝ :=
  (∑ i, Real.log (1 + Real.exp (beta * neg i - alpha * pos i))) / n

end Spec

namespace Props

open Nn

theorem ofFn_sum_div {n : Nat} (f : Fin n → ℝ) (hn : 0 < n) :
    meanV (List.ofFn f) = .ok ((∑ i, f i) / n) := by
  unfold meanV
  rw [if_neg, List.sum_ofFn, List.length_ofFn]
  intro h
  have := congrArg List.length h
  simp at this
  omega

theorem zipV_ofFn {n : Nat} (g : ℝ → ℝ → ℝ) (x y : Fin n → ℝ) :
    zipV g (List.ofFn x) (List.ofFn y) = .ok (List.ofFn fun i => g (x i) (y i)) := by
  unfold zipV
  rw [if_pos (by simp)]
  congr 1
  apply List.ext_getElem
  · simp
  · intro i h1 h2; simp

theorem bpr_fwd {n : Nat} (hn : 0 < n) (l : Bpr) (pos neg : Fin n → ℝ) :
    l.fwd (List.ofFn pos) (List.ofFn neg) = .ok ((∑ i,
      match l.act with
      | .sigmoidThenLog => -Real.log (sigmoid (l.alpha * pos i - l.beta * neg i))
      | .softplus => Nn.softplus (l.beta * neg i - l.alpha * pos i)) / n) := by
  unfold Bpr.fwd
  cases h : l.act with
  | sigmoidThenLog =>
    simp only [List.map_ofFn, zipV_ofFn, bind, Except.bind, ofFn_sum_div _ hn, Function.comp_def]
  | softplus =>
    simp only [List.map_ofFn, zipV_ofFn, bind, Except.bind, ofFn_sum_div _ hn, Function.comp_def]

theorem neg_log_sigmoid (x : ℝ) : -Real.log (sigmoid x) = Real.log (1 + Real.exp (-x)) := by
  unfold sigmoid
  rw [one_div, Real.log_inv, neg_neg]

/-- `log (1 + exp x)`, strictly increasing -/
theorem lse_lt {x y : ℝ} (h : x < y) : Real.log (1 + Real.exp x) < Real.log (1 + Real.exp y) :=
  Real.log_lt_log (by positivity) (by linarith [Real.exp_lt_exp.2 h])

theorem lse_pos (x : ℝ) : 0 < Real.log (1 + Real.exp x) := Real.log_pos (by linarith [Real.exp_pos x])

theorem lse_gt (x : ℝ) : x < Real.log (1 + Real.exp x) := by
  conv_lhs => rw [← Real.log_exp x]
  exact Real.log_lt_log (Real.exp_pos x) (by linarith)

theorem lse_sub (x : ℝ) : Real.log (1 + Real.exp x) - x = Real.log (1 + Real.exp (-x)) := by
  conv_lhs => rw [show x = Real.log (Real.exp x) by rw [Real.log_exp]]
  rw [Real.exp_log (Real.exp_pos x), ← Real.log_div (by positivity) (by positivity)]
  congr 1
  rw [Real.exp_neg]
  field_simp
  ring

theorem softplus_pos (x : ℝ) : 0 < Nn.softplus x := by
  unfold Nn.softplus
  split
  · linarith
  · exact lse_pos x

/-- C92. `BPRLoss` with `sigmoid_then_log` on `n > 0` pairs is the BPR loss; with `softplus` as well, if
no difference of weighted scores exceeds torch's threshold 20, and always up to `exp(-20)`. -/
theorem C92_bpr_value {n : Nat} (hn : 0 < n) (alpha beta : ℝ) (pos neg : Fin n → ℝ) :
    (⟨alpha, beta, .sigmoidThenLog⟩ : Bpr).fwd (List.ofFn pos) (List.ofFn neg) =
      .ok (Spec.bpr alpha beta pos neg) ∧
    ((∀ i, beta * neg i - alpha * pos i ≤ 20) →
      (⟨alpha, beta, .softplus⟩ : Bpr).fwd (List.ofFn pos) (List.ofFn neg) =
        .ok (Spec.bpr alpha beta pos neg)) ∧
    ∃ v, (⟨alpha, beta, .softplus⟩ : Bpr).fwd (List.ofFn pos) (List.ofFn neg) = .ok v ∧
      v ≤ Spec.bpr alpha beta pos neg ∧ Spec.bpr alpha beta pos neg ≤ v + Real.exp (-20) := by
  have hn' : (0 : ℝ) < n := by exact_mod_cast hn
  refine ⟨?_, fun h => ?_, _, bpr_fwd hn _ _ _, ?_, ?_⟩
  · rw [bpr_fwd hn]
    simp only [neg_log_sigmoid, neg_sub, Spec.bpr]
  · rw [bpr_fwd hn]
    simp only [Spec.bpr]
    congr 2
    exact Finset.sum_congr rfl fun i _ => by unfold Nn.softplus; rw [if_neg (not_lt.2 (h i))]
  · simp only [Spec.bpr]
    apply div_le_div_of_nonneg_right _ hn'.le
    refine Finset.sum_le_sum fun i _ => ?_
    unfold Nn.softplus
    split
    · exact (lse_gt _).le
    · exact le_rfl
  · simp only [Spec.bpr]
    rw [div_add' _ _ _ hn'.ne']
    apply div_le_div_of_nonneg_right _ hn'.le
    have : Real.exp (-20) * (n : ℝ) = ∑ _i : Fin n, Real.exp (-20) := by
      simp [mul_comm]
    rw [this, ← Finset.sum_add_distrib]
    refine Finset.sum_le_sum fun i _ => ?_
    unfold Nn.softplus
    split
    · rename_i h
      have h1 := lse_sub (beta * neg i - alpha * pos i)
      have h2 : Real.log (1 + Real.exp (-(beta * neg i - alpha * pos i))) ≤
          Real.exp (-(beta * neg i - alpha * pos i)) := by
        have := Real.log_le_sub_one_of_pos (x := 1 + Real.exp (-(beta * neg i - alpha * pos i))) (by positivity)
        linarith
      have h3 : Real.exp (-(beta * neg i - alpha * pos i)) ≤ Real.exp (-20) := Real.exp_le_exp.2 (by linarith)
      linarith
    · linarith [Real.exp_pos (-20)]

/-- C92. The loss is positive. -/
theorem C92_bpr_positive {n : Nat} (hn : 0 < n) (l : Bpr) (pos neg : Fin n → ℝ) :
    ∃ v, l.fwd (List.ofFn pos) (List.ofFn neg) = .ok v ∧ 0 < v := by
  refine ⟨_, bpr_fwd hn _ _ _, ?_⟩
  have hn' : (0 : ℝ) < n := by exact_mod_cast hn
  apply div_pos _ hn'
  have : Nonempty (Fin n) := ⟨⟨0, hn⟩⟩
  apply Finset.sum_pos
  · intro i _
    split
    · rw [neg_log_sigmoid]; exact lse_pos _
    · exact softplus_pos _
  · exact Finset.univ_nonempty

/-- C92, partial. For positive `alpha` and `beta`, raising positive scores and lowering negative scores
(at least one of them strictly) lowers the loss. Missing: `softplus` with differences of weighted scores
above torch's threshold 20 (`C92_bpr_softplus_false`). -/
theorem C92_bpr_monotone_partial {n : Nat} (l : Bpr) (ha : 0 < l.alpha) (hb : 0 < l.beta)
    (pos pos' neg neg' : Fin n → ℝ) (hp : ∀ i, pos i ≤ pos' i) (hq : ∀ i, neg' i ≤ neg i)
    (hs : ∃ i, pos i < pos' i ∨ neg' i < neg i)
    (ht : l.act = .softplus → ∀ i, l.beta * neg i - l.alpha * pos i ≤ 20) :
    ∃ v v', l.fwd (List.ofFn pos) (List.ofFn neg) = .ok v ∧
      l.fwd (List.ofFn pos') (List.ofFn neg') = .ok v' ∧ v' < v := by
  obtain ⟨k, hk⟩ := hs
  have hn : 0 < n := k.pos
  have hn' : (0 : ℝ) < n := by exact_mod_cast hn
  have hle : ∀ i, l.beta * neg' i - l.alpha * pos' i ≤ l.beta * neg i - l.alpha * pos i := by
    intro i
    have := mul_le_mul_of_nonneg_left (hp i) ha.le
    have := mul_le_mul_of_nonneg_left (hq i) hb.le
    linarith
  have hlt : l.beta * neg' k - l.alpha * pos' k < l.beta * neg k - l.alpha * pos k := by
    rcases hk with hk | hk
    · have := mul_lt_mul_of_pos_left hk ha
      have := mul_le_mul_of_nonneg_left (hq k) hb.le
      linarith
    · have := mul_lt_mul_of_pos_left hk hb
      have := mul_le_mul_of_nonneg_left (hp k) ha.le
      linarith
  have key : (∑ i, Real.log (1 + Real.exp (l.beta * neg' i - l.alpha * pos' i))) <
      ∑ i, Real.log (1 + Real.exp (l.beta * neg i - l.alpha * pos i)) := by
    apply Finset.sum_lt_sum
    · intro i _
      rcases (hle i).lt_or_eq with h | h
      · exact (lse_lt h).le
      · rw [h]
    · exact ⟨k, Finset.mem_univ _, lse_lt hlt⟩
  obtain ⟨alpha, beta, act⟩ := l
  refine ⟨Spec.bpr alpha beta pos neg, Spec.bpr alpha beta pos' neg', ?_, ?_, div_lt_div_of_pos_right key hn'⟩
  · cases act with
    | sigmoidThenLog => exact (C92_bpr_value hn alpha beta pos neg).1
    | softplus => exact (C92_bpr_value hn alpha beta pos neg).2.1 (ht rfl)
  · cases act with
    | sigmoidThenLog => exact (C92_bpr_value hn alpha beta pos' neg').1
    | softplus => exact (C92_bpr_value hn alpha beta pos' neg').2.1 fun i => (hle i).trans (ht rfl i)

example : ∃ l : Bpr, 0 < l.alpha ∧ 0 < l.beta ∧ l.act = .softplus ∧
    ∀ i : Fin 2, l.beta * (![1, 2] i : ℝ) - l.alpha * (![3, 0] i : ℝ) ≤ 20 :=
  ⟨⟨1, 1, .softplus⟩, one_pos, one_pos, rfl, by intro i; fin_cases i <;> norm_num⟩

/-- C92 is false with `softplus`: torch switches to the identity above 20, so a negative score slightly
above 20 has a lower loss than a negative score of 20. -/
theorem C92_bpr_softplus_false :
    ¬ ∀ (l : Bpr), 0 < l.alpha → 0 < l.beta → ∀ (p q q' v v' : ℝ), q < q' →
      l.fwd [p] [q] = .ok v → l.fwd [p] [q'] = .ok v' → v ≤ v' := by
  intro h
  have hg := lse_gt 20
  have e : ∀ q : ℝ, (⟨1, 1, .softplus⟩ : Bpr).fwd [0] [q] = .ok (Nn.softplus q) := by
    intro q
    have := bpr_fwd (n := 1) one_pos ⟨1, 1, .softplus⟩ (fun _ => 0) (fun _ => q)
    simp only [List.ofFn_succ, List.ofFn_zero, Finset.univ_unique, Finset.sum_singleton] at this
    rw [this]
    simp
  have := h ⟨1, 1, .softplus⟩ one_pos one_pos 0 20 ((20 + Real.log (1 + Real.exp 20)) / 2) _ _ (by linarith) (e _) (e _)
  unfold Nn.softplus at this
  rw [if_neg (lt_irrefl _), if_pos (by linarith)] at this
  linarith

/-- C92. The constructor accepts exactly the two documented activations; an empty batch gives NaN. -/
theorem C92_bpr_arguments (alpha beta : ℝ) (activation : String) :
    ((∃ l, Bpr.new alpha beta activation = .ok l) ↔
      activation = "sigmoid_then_log" ∨ activation = "softplus") ∧
    (∀ e, Bpr.new alpha beta activation = .error e → e = .assertion) ∧
    ∀ l : Bpr, l.fwd [] [] = .error .nan := by
  refine ⟨?_, ?_, ?_⟩
  · unfold Bpr.new
    by_cases h1 : activation = "sigmoid_then_log"
    · simp [h1]
    · by_cases h2 : activation = "softplus"
      · simp [h2]
      · simp [h1, h2]
  · intro e h
    unfold Bpr.new at h
    split at h
    · cases h
    · split at h
      · cases h
      · cases h; rfl
  · intro l
    unfold Bpr.fwd
    cases l.act <;> rfl

/-! ## C93 -/

namespace Emb
variable {K : Type} [Field K] [LinearOrder K]

theorem term_ok (p : Nat) {E : Dense K} (h : 0 < E.rows) :
    embTerm p E = .ok (1 / (p : K) *
      ((∑ i ∈ Finset.range E.rows, ∑ c ∈ Finset.range E.cols, E.at_ i c ^ p) / (E.rows : K))) := by
  unfold embTerm meanV
  rw [if_neg (by simp; omega)]
  simp only [bind, Except.bind, List.length_map, List.length_range]
  congr 3

end Emb


/-- average over the rows of the sums of the `p`-th powers of the entries -/
def Spec.powMean {K : Type} [Field K] (p : Nat) (E : Dense K) : K :=
  (∑ i ∈ Finset.range E.rows, ∑ c ∈ Finset.range E.cols, E.at_ i c ^ p) / (E.rows : K)

variable {K : Type} [Field K] [LinearOrder K]

/-- C93. The regularisation of embeddings with at least one row is `weight_decay / p` times the sum of
their mean `p`-th powers. -/
theorem C93_reg_value {p : Nat} (hp : 0 < p) (wd : K) (embs : List (Dense K))
    (hr : ∀ E ∈ embs, 0 < E.rows) :
    embReg p wd embs = .ok (wd * (embs.map fun E => 1 / (p : K) * Spec.powMean p E).sum) := by
  unfold embReg
  rw [if_neg (by omega)]
  have : embs.mapM (embTerm p) = .ok (embs.map fun E => 1 / (p : K) * Spec.powMean p E) := by
    induction embs with
    | nil => rfl
    | cons E es ih =>
      rw [List.mapM_cons, Emb.term_ok p (hr E List.mem_cons_self),
        ih fun E h => hr E (List.mem_cons_of_mem _ h)]
      rfl
  rw [this]
  rfl

theorem powMean_nonneg [IsStrictOrderedRing K] {p : Nat} (he : Even p) (E : Dense K) : 0 ≤ Spec.powMean p E :=
  div_nonneg (Finset.sum_nonneg fun _ _ => Finset.sum_nonneg fun _ _ => he.pow_nonneg _) (Nat.cast_nonneg _)

theorem powMean_eq_zero [IsStrictOrderedRing K] {p : Nat} (hp : 0 < p) (he : Even p) {E : Dense K} (hr : 0 < E.rows) :
    Spec.powMean p E = 0 ↔ ∀ i c, i < E.rows → c < E.cols → E.at_ i c = 0 := by
  unfold Spec.powMean
  rw [div_eq_zero_iff, or_iff_left (by exact_mod_cast hr.ne'),
    Finset.sum_eq_zero_iff_of_nonneg fun _ _ => Finset.sum_nonneg fun _ _ => he.pow_nonneg _]
  constructor
  · intro h i c hi hc
    have := h i (Finset.mem_range.2 hi)
    rw [Finset.sum_eq_zero_iff_of_nonneg fun _ _ => he.pow_nonneg _] at this
    exact (pow_eq_zero_iff hp.ne').1 (this c (Finset.mem_range.2 hc))
  · intro h i hi
    refine Finset.sum_eq_zero fun c hc => ?_
    rw [h i c (Finset.mem_range.1 hi) (Finset.mem_range.1 hc), zero_pow hp.ne']

/-- C93, partial. For an even power (2 by default) the regularisation is non-negative, and 0 exactly when
all entries are 0. Missing: odd powers (`C93_reg_nonneg_false`). -/
theorem C93_reg_nonneg_partial [IsStrictOrderedRing K] {p : Nat} (hp : 0 < p) (he : Even p) {wd : K} (hw : 0 < wd)
    (embs : List (Dense K)) (hr : ∀ E ∈ embs, 0 < E.rows) :
    ∃ v, embReg p wd embs = .ok v ∧ 0 ≤ v ∧
      (v = 0 ↔ ∀ E ∈ embs, ∀ i c, i < E.rows → c < E.cols → E.at_ i c = 0) := by
  refine ⟨_, C93_reg_value hp wd embs hr, ?_, ?_⟩
  · refine mul_nonneg hw.le (List.sum_nonneg ?_)
    intro x hx
    obtain ⟨E, _, rfl⟩ := List.mem_map.1 hx
    exact mul_nonneg (by positivity) (powMean_nonneg he E)
  · rw [mul_eq_zero, or_iff_right hw.ne']
    clear hw
    induction embs with
    | nil => simp
    | cons E es ih =>
      have ih := ih fun E h => hr E (List.mem_cons_of_mem _ h)
      have hp' : (0 : K) < 1 / (p : K) := by positivity
      have h0 : 0 ≤ (es.map fun E => 1 / (p : K) * Spec.powMean p E).sum := by
        refine List.sum_nonneg ?_
        intro x hx
        obtain ⟨E, _, rfl⟩ := List.mem_map.1 hx
        exact mul_nonneg hp'.le (powMean_nonneg he E)
      rw [List.map_cons, List.sum_cons, add_eq_zero_iff_of_nonneg (mul_nonneg hp'.le (powMean_nonneg he E)) h0,
        ih, mul_eq_zero, or_iff_right hp'.ne', powMean_eq_zero hp he (hr E List.mem_cons_self)]
      simp

example : (0 : Nat) < 2 ∧ Even 2 ∧ (0 : ℝ) < 1 / 10000 ∧ ∃ E : Dense ℝ, 0 < E.rows ∧ E.cols = 3 :=
  ⟨by decide, by decide, by norm_num, ⟨2, 3, fun i c => i - c⟩, by decide, rfl⟩

/-- C93 is false for odd powers: the powers are not of absolute values, and the regularisation of a
negative embedding is negative. -/
theorem C93_reg_nonneg_false :
    ¬ ∀ (p : Nat) (wd : ℝ) (embs : List (Dense ℝ)) (v : ℝ), 0 < p → 0 < wd → embReg p wd embs = .ok v → 0 ≤ v := by
  intro h
  have := h 1 1 [⟨1, 1, fun _ _ => -1⟩] _ one_pos one_pos (C93_reg_value one_pos _ _ (by simp))
  norm_num [Spec.powMean] at this

/-- C93. Multiplying all embeddings by `t` multiplies the regularisation by `t ^ p`. -/
theorem C93_reg_scale {p : Nat} (hp : 0 < p) (wd t : K) (embs : List (Dense K)) (hr : ∀ E ∈ embs, 0 < E.rows) :
    ∃ v, embReg p wd embs = .ok v ∧
      embReg p wd (embs.map fun E => { E with at_ := fun i c => t * E.at_ i c }) = .ok (t ^ p * v) := by
  refine ⟨_, C93_reg_value hp wd embs hr, ?_⟩
  rw [C93_reg_value hp wd _ (by
    intro E hE
    obtain ⟨E', h, rfl⟩ := List.mem_map.1 hE
    exact hr E' h)]
  congr 1
  rw [mul_left_comm (t ^ p), List.map_map,
    ← List.sum_map_mul_left embs (fun E : Dense K => 1 / (p : K) * Spec.powMean p E) (t ^ p)]
  congr 3
  funext E
  have : (∑ i ∈ Finset.range E.rows, ∑ c ∈ Finset.range E.cols, (t * E.at_ i c) ^ p) =
      t ^ p * ∑ i ∈ Finset.range E.rows, ∑ c ∈ Finset.range E.cols, E.at_ i c ^ p := by
    simp only [Finset.mul_sum, mul_pow]
  simp only [Function.comp_def, Spec.powMean]
  rw [this, mul_div_assoc, mul_left_comm]

end Props
end DHG
