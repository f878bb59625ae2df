import Verif.Datapipe
import Mathlib.Algebra.Order.Field.Basic
import Mathlib.Algebra.Order.BigOperators.Group.List
import Mathlib.Tactic.Linarith
import Mathlib.Tactic.FieldSimp
import Mathlib.Tactic.Ring
import Mathlib.Tactic.NormNum

/-!
# Data pipes (C83) and loaders (C86)
-/

set_option linter.unusedSectionVars false
set_option autoImplicit false

namespace DHG
open Data Pipe

/-! ## Composition -/

/-- C83. The pipes are applied in the order given: none at all is the identity, and adding a pipe at
the end applies it to what the others returned; when a pipe raises, the later ones are not run and the
exception comes through. -/
theorem C83_compose {V : Type} (x : Val V) :
    composePipes ([] : List (Pipe V)) x = .ok x ∧
    ∀ (ps : List (Pipe V)) (p : Pipe V),
      (∀ y, composePipes ps x = .ok y → composePipes (ps ++ [p]) x = p y) ∧
      (∀ e, composePipes ps x = .error e → composePipes (ps ++ [p]) x = .error e) := by
  refine ⟨rfl, fun ps p => ?_⟩
  have h : composePipes (ps ++ [p]) x = (composePipes ps x).bind p := by
    induction ps generalizing x with
    | nil =>
      simp only [List.nil_append, composePipes, Except.bind]
      cases p x <;> rfl
    | cons q ps ih =>
      simp only [List.cons_append, composePipes]
      rcases q x with e | y
      · rfl
      · exact ih y
  constructor
  · intro y hy; rw [h, hy]; rfl
  · intro e he; rw [h, he]; rfl

example : composePipes [fun x => .ok (x.map (· + 1)), fun x => .ok (x.map (· * 2))] (some 3) = .ok (some 8) := rfl

/-! ## Normalisation -/

/-- C83. Every row keeps its length and its direction: it is multiplied by one non-negative number. -/
theorem C83_norm_direction (o : Ord) (X : List (List ℝ)) :
    ∃ s : List ℝ, s.length = X.length ∧ (∀ c ∈ s, 0 ≤ c) ∧
      normFt o X = List.zipWith (fun r c => r.map (· * c)) X s := by
  have hn : ∀ r, 0 ≤ vecNorm o r := by
    intro r
    cases o with
    | default => exact Real.sqrt_nonneg _
    | inf =>
      show 0 ≤ (r.map abs).foldl max 0
      have : ∀ (l : List ℝ) (a : ℝ), 0 ≤ a → 0 ≤ l.foldl max a := by
        intro l
        induction l with
        | nil => intro a h; exact h
        | cons b l ih => intro a h; exact ih _ (le_max_of_le_left h)
      exact this _ 0 le_rfl
    | neginf =>
      cases r with
      | nil => exact le_rfl
      | cons b r =>
        show 0 ≤ (r.map abs).foldl min |b|
        have : ∀ (l : List ℝ) (a : ℝ), 0 ≤ a → (∀ c ∈ l, 0 ≤ c) → 0 ≤ l.foldl min a := by
          intro l
          induction l with
          | nil => intro a h _; exact h
          | cons b l ih =>
            intro a h hl
            exact ih _ (le_min h (hl b (by simp))) (fun c hc => hl c (by simp [hc]))
        refine this _ _ (abs_nonneg _) ?_
        intro c hc
        obtain ⟨d, _, rfl⟩ := List.mem_map.1 hc
        exact abs_nonneg _
    | zero => exact Nat.cast_nonneg _
    | pow p =>
      refine Real.rpow_nonneg (List.sum_nonneg ?_) _
      intro c hc
      obtain ⟨d, _, rfl⟩ := List.mem_map.1 hc
      exact Real.rpow_nonneg (abs_nonneg _) _
  refine ⟨X.map fun r => if vecNorm o r = 0 then 0 else 1 / vecNorm o r, by simp, ?_, ?_⟩
  · intro c hc
    obtain ⟨r, _, rfl⟩ := List.mem_map.1 hc
    split
    · exact le_rfl
    · exact div_nonneg zero_le_one (hn r)
  · unfold normFt
    rw [List.zipWith_map_right]
    induction X with
    | nil => rfl
    | cons r X ih => simp only [List.map_cons, List.zipWith_cons_cons, ih]; rfl

/-- C83. Zero rows stay zero, for every order. -/
theorem C83_norm_zero_rows (o : Ord) (X : List (List ℝ)) (i : Nat) (h : ∀ a ∈ X.getD i [], a = 0) :
    (normFt o X).getD i [] = X.getD i [] := by
  unfold normFt
  by_cases hi : i < X.length
  · simp only [List.getD_eq_getElem?_getD, List.getElem?_map, List.getElem?_eq_getElem hi,
      Option.map_some, Option.getD_some] at h ⊢
    unfold normRow
    conv => rhs; rw [← List.map_id (X[i])]
    refine List.map_congr_left fun a ha => ?_
    rw [h a ha]; simp
  · simp [List.getD_eq_getElem?_getD, List.getElem?_eq_none (not_lt.1 hi)]

theorem normFt_row (o : Ord) (X : List (List ℝ)) (i : Nat) (hi : i < X.length) :
    (normFt o X)[i]? = some (normRow o X[i]) := by
  simp [normFt, List.getElem?_eq_getElem hi]

theorem sum_map_mul_const (l : List ℝ) (f : ℝ → ℝ) (c : ℝ) :
    (l.map fun a => f a * c).sum = (l.map f).sum * c := by
  induction l with
  | nil => simp
  | cons a l ih => simp only [List.map_cons, List.sum_cons, ih]; ring

/-- C83. With the default order every row that has a non-zero entry gets Euclidean length 1. -/
theorem C83_norm_default (X : List (List ℝ)) (i : Nat) (hi : i < X.length) (h : ∃ a ∈ X[i], a ≠ 0) :
    ∃ y, (normFt .default X)[i]? = some y ∧ (y.map fun a => a ^ 2).sum = 1 := by
  refine ⟨_, normFt_row _ X i hi, ?_⟩
  set x := X[i]
  have hs : 0 < (x.map fun a => a ^ 2).sum := by
    obtain ⟨a, ha, h0⟩ := h
    have h1 : a ^ 2 ≤ (x.map fun a => a ^ 2).sum :=
      List.single_le_sum (by
        intro c hc
        obtain ⟨d, _, rfl⟩ := List.mem_map.1 hc
        exact sq_nonneg d) _ (List.mem_map.2 ⟨a, ha, rfl⟩)
    have h2 : 0 < a ^ 2 := by positivity
    linarith
  have hn : vecNorm .default x ≠ 0 := (Real.sqrt_pos.2 hs).ne'
  have h3 : vecNorm .default x ^ 2 = (x.map fun a => a ^ 2).sum := Real.sq_sqrt hs.le
  unfold normRow
  simp only [hn, if_false, List.map_map]
  have h4 : ((fun a : ℝ => a ^ 2) ∘ fun a => a * (1 / vecNorm .default x)) =
      fun a => a ^ 2 * (1 / vecNorm .default x ^ 2) := by
    funext a
    simp only [Function.comp]
    rw [mul_pow, div_pow, one_pow]
  rw [h4, sum_map_mul_const, ← h3]
  field_simp

/-- C83. With a positive order `p` every row that has a non-zero entry gets p-norm 1; for `p = 1` and
non-negative entries, its entries add up to 1. -/
theorem C83_norm_pow (p : ℝ) (hp : 0 < p) (X : List (List ℝ)) (i : Nat) (hi : i < X.length)
    (h : ∃ a ∈ X[i], a ≠ 0) :
    ∃ y, (normFt (.pow p) X)[i]? = some y ∧ (y.map fun a => |a| ^ p).sum = 1 := by
  refine ⟨_, normFt_row _ X i hi, ?_⟩
  set x := X[i]
  set S := (x.map fun a => |a| ^ p).sum with hS
  have hs : 0 < S := by
    obtain ⟨a, ha, h0⟩ := h
    have h1 : |a| ^ p ≤ S :=
      List.single_le_sum (by
        intro c hc
        obtain ⟨d, _, rfl⟩ := List.mem_map.1 hc
        exact Real.rpow_nonneg (abs_nonneg _) _) _ (List.mem_map.2 ⟨a, ha, rfl⟩)
    have h2 : 0 < |a| ^ p := Real.rpow_pos_of_pos (abs_pos.2 h0) _
    linarith
  have hnp : 0 < vecNorm (.pow p) x := Real.rpow_pos_of_pos hs _
  have h3 : vecNorm (.pow p) x ^ p = S := by
    show (S ^ (1 / p)) ^ p = S
    rw [← Real.rpow_mul hs.le, one_div, inv_mul_cancel₀ hp.ne', Real.rpow_one]
  unfold normRow
  simp only [hnp.ne', if_false, List.map_map]
  have h4 : ((fun a : ℝ => |a| ^ p) ∘ fun a => a * (1 / vecNorm (.pow p) x)) =
      fun a => |a| ^ p * S⁻¹ := by
    funext a
    simp only [Function.comp]
    rw [abs_mul, abs_of_pos (one_div_pos.2 hnp), Real.mul_rpow (abs_nonneg _) (one_div_pos.2 hnp).le,
      one_div, Real.inv_rpow hnp.le, h3]
  rw [h4, sum_map_mul_const, ← hS]
  exact mul_inv_cancel₀ hs.ne'

/-- C83. With `ord=1` and non-negative entries the entries of every row that is not zero add up to 1. -/
theorem C83_norm_one (X : List (List ℝ)) (i : Nat) (hi : i < X.length)
    (h : ∃ a ∈ X[i], a ≠ 0) (hnn : ∀ a ∈ X[i], 0 ≤ a) :
    ∃ y, (normFt (.pow 1) X)[i]? = some y ∧ y.sum = 1 := by
  obtain ⟨y, hy, hsum⟩ := C83_norm_pow 1 one_pos X i hi h
  refine ⟨y, hy, ?_⟩
  rw [← hsum]
  have hy' : y = normRow (.pow 1) X[i] := by
    rw [normFt_row _ X i hi] at hy
    exact (Option.some.inj hy).symm
  congr 1
  conv => lhs; rw [← List.map_id y]
  refine List.map_congr_left fun a ha => ?_
  rw [hy'] at ha
  unfold normRow at ha
  obtain ⟨b, hb, rfl⟩ := List.mem_map.1 ha
  rw [Real.rpow_one, id, abs_of_nonneg]
  refine mul_nonneg (hnn b hb) ?_
  split
  · exact le_rfl
  · refine div_nonneg zero_le_one (Real.rpow_nonneg (List.sum_nonneg ?_) _)
    intro c hc
    obtain ⟨d, _, rfl⟩ := List.mem_map.1 hc
    exact Real.rpow_nonneg (abs_nonneg _) _

theorem foldl_max_spec {K : Type} [LinearOrder K] (l : List K) (a : K) :
    (∀ c ∈ a :: l, c ≤ l.foldl max a) ∧ l.foldl max a ∈ a :: l := by
  induction l generalizing a with
  | nil => simp
  | cons b l ih =>
    obtain ⟨h1, h2⟩ := ih (max a b)
    simp only [List.foldl_cons]
    have h3 : max a b ≤ l.foldl max (max a b) := h1 _ (by simp)
    refine ⟨?_, ?_⟩
    · intro c hc
      rcases List.mem_cons.1 hc with rfl | hc
      · exact le_trans (le_max_left _ _) h3
      · rcases List.mem_cons.1 hc with rfl | hc
        · exact le_trans (le_max_right _ _) h3
        · exact h1 c (by simp [hc])
    · rcases List.mem_cons.1 h2 with h | h
      · rw [h]
        rcases max_choice a b with h' | h' <;> rw [h'] <;> simp
      · simp [h]

theorem foldl_min_spec {K : Type} [LinearOrder K] (l : List K) (a : K) :
    (∀ c ∈ a :: l, l.foldl min a ≤ c) ∧ l.foldl min a ∈ a :: l := by
  induction l generalizing a with
  | nil => simp
  | cons b l ih =>
    obtain ⟨h1, h2⟩ := ih (min a b)
    simp only [List.foldl_cons]
    have h3 : l.foldl min (min a b) ≤ min a b := h1 _ (by simp)
    refine ⟨?_, ?_⟩
    · intro c hc
      rcases List.mem_cons.1 hc with rfl | hc
      · exact le_trans h3 (min_le_left _ _)
      · rcases List.mem_cons.1 hc with rfl | hc
        · exact le_trans h3 (min_le_right _ _)
        · exact h1 c (by simp [hc])
    · rcases List.mem_cons.1 h2 with h | h
      · rw [h]
        rcases min_choice a b with h' | h' <;> rw [h'] <;> simp
      · simp [h]

/-- C83. With `ord=inf` the largest absolute value of every row that is not zero becomes 1. -/
theorem C83_norm_inf (X : List (List ℝ)) (i : Nat) (hi : i < X.length) (h : ∃ a ∈ X[i], a ≠ 0) :
    ∃ y, (normFt .inf X)[i]? = some y ∧ (∀ a ∈ y, |a| ≤ 1) ∧ ∃ a ∈ y, |a| = 1 := by
  refine ⟨_, normFt_row _ X i hi, ?_⟩
  set x := X[i]
  obtain ⟨h1, h2⟩ := foldl_max_spec (x.map abs) 0
  set n := (x.map abs).foldl max 0 with hn
  have hpos : 0 < n := by
    obtain ⟨a, ha, h0⟩ := h
    have := h1 |a| (by simp only [List.mem_cons, List.mem_map]; exact .inr ⟨a, ha, rfl⟩)
    exact lt_of_lt_of_le (abs_pos.2 h0) this
  have hrow : normRow .inf x = x.map fun a => a * (1 / n) := by
    unfold normRow
    have : vecNorm .inf x = n := rfl
    simp only [this, hpos.ne', if_false]
  rw [hrow]
  have hab : ∀ a : ℝ, |a * (1 / n)| = |a| / n := by
    intro a
    rw [abs_mul, abs_of_pos (one_div_pos.2 hpos), mul_one_div]
  refine ⟨?_, ?_⟩
  · intro a ha
    obtain ⟨b, hb, rfl⟩ := List.mem_map.1 ha
    rw [hab, div_le_one hpos]
    exact h1 _ (by simp only [List.mem_cons, List.mem_map]; exact .inr ⟨b, hb, rfl⟩)
  · rcases List.mem_cons.1 h2 with h3 | h3
    · exact absurd h3 hpos.ne'
    · obtain ⟨b, hb, hb2⟩ := List.mem_map.1 h3
      refine ⟨b * (1 / n), List.mem_map.2 ⟨b, hb, rfl⟩, ?_⟩
      rw [hab, hb2, div_self hpos.ne']

/-- C83. Not for every order: with `ord=0` rows do not get norm 1, and with `ord=-inf` a row with one
zero entry is wiped out. -/
theorem C83_norm_other_false :
    normFt .zero [[1, 1]] = [[1 / 2, 1 / 2]] ∧ vecNorm .zero [1 / 2, 1 / 2] = 2 ∧
    normFt .neginf [[1, 0]] = [[0, 0]] := by
  have h1 : vecNorm .zero [1, 1] = 2 := by simp [vecNorm]
  have h2 : vecNorm .zero [1 / 2, 1 / 2] = 2 := by simp [vecNorm]
  have h3 : vecNorm .neginf [1, 0] = 0 := by simp [vecNorm]
  refine ⟨?_, h2, ?_⟩
  · simp [normFt, normRow, h1]
  · simp [normFt, normRow, h3]

example : ∃ a ∈ ([[3, 4], [0, 0]] : List (List ℝ))[0], a ≠ 0 := ⟨3, by simp, by norm_num⟩

/-! ## Scaling -/

section
variable {K : Type} [Field K] [LinearOrder K] [IsStrictOrderedRing K]

/-- C83. On a matrix with at least two different entries the scaler answers a matrix of the same shape
whose entry at any place is an increasing affine function of the entry there; all entries are in
`[ft_min, ft_max]`, the smallest ones become `ft_min` and the largest ones `ft_max`. -/
theorem C83_scaler (X : List (List K)) (lo hi : K) (hlh : lo < hi)
    (h : ∃ a ∈ X.flatten, ∃ b ∈ X.flatten, a ≠ b) :
    ∃ f : K → K, minMaxScaler X lo hi = .ok (X.map fun r => r.map f) ∧
      (∀ x y, x < y → f x < f y) ∧ (∀ x y z, y ≠ z → (f x - f y) * (y - z) = (f y - f z) * (x - y)) ∧
      (∀ x ∈ X.flatten, lo ≤ f x ∧ f x ≤ hi) ∧
      (∀ x ∈ X.flatten, (∀ y ∈ X.flatten, x ≤ y) → f x = lo) ∧
      (∀ x ∈ X.flatten, (∀ y ∈ X.flatten, y ≤ x) → f x = hi) := by
  unfold minMaxScaler
  rw [if_neg (not_not.2 hlh)]
  rcases hX : X.flatten with _ | ⟨a, xs⟩
  · rw [hX] at h; obtain ⟨a, ha, _⟩ := h; simp at ha
  · rw [hX] at h
    simp only
    obtain ⟨h1, h2⟩ := foldl_min_spec xs a
    obtain ⟨h3, h4⟩ := foldl_max_spec xs a
    set mn := xs.foldl min a with hmn
    set mx := xs.foldl max a with hmx
    have hlt : mn < mx := by
      obtain ⟨u, hu, v, hv, huv⟩ := h
      by_contra hc
      have := not_lt.1 hc
      exact huv (le_antisymm (by linarith [h3 u hu, h1 v hv]) (by linarith [h3 v hv, h1 u hu]))
    have hr : 0 < mx - mn := sub_pos.2 hlt
    rw [if_neg hr.ne']
    have hsc : 0 < (hi - lo) / (mx - mn) := div_pos (sub_pos.2 hlh) hr
    set sc := (hi - lo) / (mx - mn) with hscd
    have hsm : sc * (mx - mn) = hi - lo := div_mul_cancel₀ _ hr.ne'
    refine ⟨fun x => x * sc + (lo - mn * sc), rfl, ?_, ?_, ?_, ?_, ?_⟩
    · intro x y hxy
      have := mul_lt_mul_of_pos_right hxy hsc
      simp only
      linarith
    · intro x y z _
      simp only
      ring
    · intro x hx
      have hx1 := h1 x hx
      have hx2 := h3 x hx
      simp only
      constructor
      · have := mul_le_mul_of_nonneg_right hx1 hsc.le
        linarith
      · have h5 := mul_le_mul_of_nonneg_right hx2 hsc.le
        have h6 : mx * sc - mn * sc = hi - lo := by rw [← hsm]; ring
        linarith
    · intro x hx hall
      have : x = mn := le_antisymm (hall mn h2) (h1 x hx)
      rw [this]; ring
    · intro x hx hall
      have : x = mx := le_antisymm (h3 x hx) (hall mx h4)
      have h6 : mx * sc - mn * sc = hi - lo := by rw [← hsm]; ring
      rw [this]
      simp only
      linarith

/-- C83. A matrix whose entries are all equal is refused with a `ZeroDivisionError`. -/
theorem C83_scaler_constant_false (X : List (List K)) (lo hi : K) (hlh : lo < hi) (c : K)
    (hne : X.flatten ≠ []) (h : ∀ a ∈ X.flatten, a = c) :
    minMaxScaler X lo hi = .error .zeroDiv := by
  unfold minMaxScaler
  rw [if_neg (not_not.2 hlh)]
  rcases hX : X.flatten with _ | ⟨a, xs⟩
  · exact absurd hX hne
  · rw [hX] at h
    simp only
    have h1 := h _ (foldl_min_spec xs a).2
    have h2 := h _ (foldl_max_spec xs a).2
    rw [h1, h2, if_pos (sub_self c)]

/-- C83. An empty target range is refused. -/
theorem C83_scaler_range (X : List (List K)) (lo hi : K) (h : hi ≤ lo) :
    minMaxScaler X lo hi = .error .assertion := by
  unfold minMaxScaler
  rw [if_pos (not_lt.2 h)]

end

example : minMaxScaler [[(1 : ℚ), 2], [5, 3]] (-1) 1 = .ok [[-1, -1/2], [1, 0]] := by decide +kernel

end DHG
