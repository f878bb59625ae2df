import Mathlib.Probability.Independence.InfinitePi
import Mathlib.MeasureTheory.Measure.Lebesgue.Basic
import Mathlib.MeasureTheory.Function.Floor
import Mathlib.Data.Bool.Count
import Verif.Props.Random
import Verif.Props.RandomHyper

/-!
# The distribution of the random graphs (C133)

`random.random()` is a sequence of independent numbers, uniform in `[0, 1)`.
-/

set_option linter.unusedSectionVars false
set_option autoImplicit false

open MeasureTheory ProbabilityTheory

namespace DHG

/-! ## Specification -/

namespace Spec

/-- the draws `ρ 0, ρ 1, …` are numbers in `[0, 1)`, each below `t` with probability `t`, and independent -/
structure UniformDraws {Ω : Type} [MeasurableSpace Ω] (P : Measure Ω) (ρ : Nat → Ω → ℝ) : Prop where
  measurable : ∀ i, Measurable (ρ i)
  range : ∀ i ω, 0 ≤ ρ i ω ∧ ρ i ω < 1
  law : ∀ i t, 0 ≤ t → t ≤ 1 → P {ω | ρ i ω < t} = ENNReal.ofReal t
  indep : iIndepFun ρ P

/-- the probability that of `N` independent events of probability `p` exactly `m` given ones occur -/
noncomputable def bernoulli (p : ℝ) (N m : Nat) : ENNReal := ENNReal.ofReal (p ^ m * (1 - p) ^ (N - m))

end Spec

namespace Props
namespace Law

open RandGen Finset

variable {Ω : Type} [MeasurableSpace Ω] {P : Measure Ω} [IsProbabilityMeasure P] {ρ : Nat → Ω → ℝ}

theorem law_ge (h : Spec.UniformDraws P ρ) (i : Nat) {t : ℝ} (h0 : 0 ≤ t) (h1 : t ≤ 1) :
    P {ω | t ≤ ρ i ω} = ENNReal.ofReal (1 - t) := by
  have hs : {ω | t ≤ ρ i ω} = {ω | ρ i ω < t}ᶜ := by ext ω; simp
  rw [hs, prob_compl_eq_one_sub (measurableSet_lt (h.measurable i) measurable_const), h.law i t h0 h1,
    ENNReal.ofReal_sub _ h0, ENNReal.ofReal_one]

/-- independent draws, one for each candidate -/
theorem candidates (h : Spec.UniformDraws P ρ) {α : Type} [DecidableEq α] (V E : Finset α) (hE : E ⊆ V)
    (d : α → Nat) (hd : Set.InjOn d (V : Set α)) {p : ℝ} (h0 : 0 ≤ p) (h1 : p ≤ 1) :
    P {ω | ∀ x ∈ V, x ∈ E ↔ ρ (d x) ω < p} = Spec.bernoulli p V.card E.card := by
  classical
  let B : Nat → Set ℝ := fun i => if i ∈ E.image d then Set.Iio p else Set.Ici p
  have hB : ∀ x ∈ V, B (d x) = if x ∈ E then Set.Iio p else Set.Ici p := by
    intro x hx
    have : d x ∈ E.image d ↔ x ∈ E := by
      rw [mem_image]
      exact ⟨fun ⟨y, hy, e⟩ => hd (hE hy) hx e ▸ hy, fun hx => ⟨x, hx, rfl⟩⟩
    simp only [B, this]
  have hset : {ω | ∀ x ∈ V, x ∈ E ↔ ρ (d x) ω < p} = ⋂ i ∈ V.image d, ρ i ⁻¹' B i := by
    ext ω
    simp only [Set.mem_ofPred_eq, Set.mem_iInter, mem_image, forall_exists_index, and_imp, forall_apply_eq_imp_iff₂,
      Set.mem_preimage]
    refine forall₂_congr fun x hx => ?_
    rw [hB x hx]
    by_cases hxE : x ∈ E <;> simp [hxE]
  rw [hset, h.indep.measure_inter_preimage_eq_mul _ fun i _ => ?_]
  · rw [prod_image hd]
    have : ∀ x ∈ V, P (ρ (d x) ⁻¹' B (d x)) = if x ∈ E then ENNReal.ofReal p else ENNReal.ofReal (1 - p) := by
      intro x hx
      rw [hB x hx]
      split
      · exact h.law _ _ h0 h1
      · exact law_ge h _ h0 h1
    rw [prod_congr rfl this, prod_ite, prod_const, prod_const, filter_mem_eq_inter, inter_eq_right.2 hE,
      filter_not, filter_mem_eq_inter, inter_eq_right.2 hE, card_sdiff_of_subset hE, Spec.bernoulli,
      ENNReal.ofReal_mul (pow_nonneg h0 _), ENNReal.ofReal_pow h0, ENNReal.ofReal_pow (by linarith)]
  · simp only [B]
    split
    · exact measurableSet_Iio
    · exact measurableSet_Ici

/-! ### Skipping candidates -/

/-- the candidates taken when draw `j` skips `s j` of them -/
def hit (s : Nat → Nat) (q : Nat) : Prop := ∃ k, ∑ j ∈ range (k + 1), (s j + 1) = q + 1

theorem hit_iff (s : Nat → Nat) (q : Nat) :
    hit s q ↔ q = s 0 ∨ ∃ r, q = s 0 + 1 + r ∧ hit (fun j => s (j + 1)) r := by
  constructor
  · rintro ⟨k, hk⟩
    rw [sum_range_succ'] at hk
    cases k with
    | zero => left; simp at hk; omega
    | succ k =>
      right
      have : k + 1 ≤ ∑ j ∈ range (k + 1), (s (j + 1) + 1) := by
        calc k + 1 = ∑ j ∈ range (k + 1), 1 := by simp
          _ ≤ _ := sum_le_sum fun j _ => by omega
      exact ⟨∑ j ∈ range (k + 1), (s (j + 1) + 1) - 1, by omega, k,
        show ∑ j ∈ range (k + 1), (s (j + 1) + 1) = _ by omega⟩
  · rintro (rfl | ⟨r, rfl, k, hk⟩)
    · exact ⟨0, by simp⟩
    · exact ⟨k + 1, by rw [sum_range_succ', hk]; omega⟩

theorem le_of_hit {s : Nat → Nat} {q : Nat} (h : hit s q) : s 0 ≤ q := by
  rcases (hit_iff s q).1 h with rfl | ⟨r, rfl, _⟩ <;> omega

/-- what the draws have to skip for the pattern `b` to come out, when `d` candidates are behind: exactly so many
(`true`), at least so many (`false`) -/
def box : Nat → List Bool → List (Nat × Bool)
  | d, [] => [(d, false)]
  | d, true :: b => (d, true) :: box 0 b
  | d, false :: b => box (d + 1) b

/-- `x` is as required -/
def fits (c : Nat × Bool) (x : Nat) : Prop := if c.2 then x = c.1 else c.1 ≤ x

theorem box_iff (b : List Bool) (d : Nat) (s : Nat → Nat) :
    (d ≤ s 0 ∧ ∀ q, (hq : q < b.length) → (hit s (q + d) ↔ b[q] = true)) ↔
      ∀ i, (hi : i < (box d b).length) → fits ((box d b)[i]) (s i) := by
  induction b generalizing d s with
  | nil =>
    simp only [box, List.length_nil, List.length_cons, Nat.zero_add, Nat.not_lt_zero, IsEmpty.forall_iff, implies_true,
      and_true]
    constructor
    · intro h i hi
      obtain rfl : i = 0 := by omega
      exact h
    · intro h
      exact h 0 (by omega)
  | cons a b ih =>
    cases a with
    | true =>
      have hb := ih 0 fun j => s (j + 1)
      constructor
      · rintro ⟨h1, h2⟩
        have h3 : hit s (0 + d) := (h2 0 (by simp)).2 rfl
        rw [Nat.zero_add] at h3
        have h4 : s 0 = d := le_antisymm (le_of_hit h3) h1
        have h5 := hb.1 ⟨Nat.zero_le _, fun q hq => by
          have h6 := h2 (q + 1) (by simpa using hq)
          rw [List.getElem_cons_succ] at h6
          rw [← h6, hit_iff s, Nat.add_zero]
          constructor
          · intro h; exact .inr ⟨q, by omega, h⟩
          · rintro (h | ⟨r, h, h'⟩)
            · omega
            · obtain rfl : q = r := by omega
              exact h'⟩
        intro i hi
        cases i with
        | zero => exact h4
        | succ i => exact h5 i (by simpa [box] using hi)
      · intro h
        have h4 : s 0 = d := h 0 (by simp [box])
        have h5 := hb.2 fun i hi => h (i + 1) (by simpa [box] using hi)
        refine ⟨h4.ge, fun q hq => ?_⟩
        cases q with
        | zero => simp only [List.getElem_cons_zero, iff_true, Nat.zero_add]; exact (hit_iff s d).2 (.inl h4.symm)
        | succ q =>
          rw [List.getElem_cons_succ, ← h5.2 q (by simpa using hq), hit_iff s, Nat.add_zero]
          constructor
          · rintro (h | ⟨r, h, h'⟩)
            · omega
            · obtain rfl : q = r := by omega
              exact h'
          · intro h; exact .inr ⟨q, by omega, h⟩
    | false =>
      have hb := ih (d + 1) s
      show _ ↔ ∀ i, (hi : i < (box (d + 1) b).length) → fits ((box (d + 1) b)[i]) (s i)
      rw [← hb]
      constructor
      · rintro ⟨h1, h2⟩
        have h3 : ¬ hit s (0 + d) := fun h => absurd ((h2 0 (by simp)).1 h) Bool.false_ne_true
        refine ⟨?_, fun q hq => ?_⟩
        · by_contra hlt
          exact h3 ((hit_iff s _).2 (.inl (by omega)))
        · have := h2 (q + 1) (by simpa using hq)
          rw [List.getElem_cons_succ] at this
          rwa [show q + (d + 1) = q + 1 + d by omega]
      · rintro ⟨h1, h2⟩
        refine ⟨by omega, fun q hq => ?_⟩
        cases q with
        | zero =>
          simp only [List.getElem_cons_zero, Bool.false_eq_true, iff_false]
          intro h
          have := le_of_hit h
          omega
        | succ q =>
          have := h2 q (by simpa using hq)
          rw [List.getElem_cons_succ, ← this, show q + (d + 1) = q + 1 + d by omega]

theorem box_length (b : List Bool) (d : Nat) : (box d b).length = b.count true + 1 := by
  induction b generalizing d with
  | nil => rfl
  | cons a b ih => cases a <;> simp [box, ih]

/-- the probability of one requirement -/
noncomputable def weight (p : ℝ) (c : Nat × Bool) : ℝ := if c.2 then p * (1 - p) ^ c.1 else (1 - p) ^ c.1

theorem box_weight (p : ℝ) (b : List Bool) (d : Nat) :
    ((box d b).map (weight p)).prod = (1 - p) ^ d * (p ^ b.count true * (1 - p) ^ b.count false) := by
  induction b generalizing d with
  | nil => simp [box, weight]
  | cons a b ih =>
    cases a with
    | true => simp [box, ih, weight]; ring
    | false => simp [box, ih]; ring

/-- how many candidates a draw skips -/
noncomputable def skip (p x : ℝ) : Nat := ⌊Real.log (1 - x) / Real.log (1 - p)⌋.toNat

theorem skip_measurable (p : ℝ) : Measurable (skip p) := by
  unfold skip
  have h : Measurable fun x : ℝ => Real.log (1 - x) / Real.log (1 - p) :=
    (Real.measurable_log.comp (measurable_const.sub measurable_id)).div_const _
  have h2 : Measurable fun x : ℝ => ⌊Real.log (1 - x) / Real.log (1 - p)⌋ := Int.measurable_floor.comp h
  have h3 : Measurable Int.toNat := measurable_from_top
  exact h3.comp h2

theorem le_skip {p x : ℝ} (h0 : 0 < p) (h1 : p < 1) (hx0 : 0 ≤ x) (hx1 : x < 1) (k : Nat) :
    k ≤ skip p x ↔ 1 - (1 - p) ^ k ≤ x := by
  have hp : Real.log (1 - p) < 0 := Real.log_neg (by linarith) (by linarith)
  have hq : Real.log (1 - x) ≤ 0 := Real.log_nonpos (by linarith) (by linarith)
  have hn : 0 ≤ Real.log (1 - x) / Real.log (1 - p) := div_nonneg_of_nonpos hq hp.le
  unfold skip
  rw [Int.le_toNat (Int.floor_nonneg.2 hn), Int.le_floor, le_div_iff_of_neg hp, Int.cast_natCast, ← Real.log_pow,
    Real.log_le_log_iff (by linarith) (pow_pos (by linarith) _)]
  constructor <;> intro h <;> linarith

theorem fits_law (h : Spec.UniformDraws P ρ) {p : ℝ} (h0 : 0 < p) (h1 : p < 1) (i : Nat) (c : Nat × Bool) :
    P {ω | fits c (skip p (ρ i ω))} = ENNReal.ofReal (weight p c) := by
  have hpow : ∀ k : Nat, 0 ≤ (1 - p) ^ k ∧ (1 - p) ^ k ≤ 1 := fun k =>
    ⟨pow_nonneg (by linarith) _, pow_le_one₀ (by linarith) (by linarith)⟩
  have hge : ∀ k : Nat, P {ω | k ≤ skip p (ρ i ω)} = ENNReal.ofReal ((1 - p) ^ k) := by
    intro k
    have : {ω | k ≤ skip p (ρ i ω)} = {ω | 1 - (1 - p) ^ k ≤ ρ i ω} := by
      ext ω
      exact le_skip h0 h1 (h.range i ω).1 (h.range i ω).2 k
    rw [this, law_ge h i (by linarith [(hpow k).2]) (by linarith [(hpow k).1]), sub_sub_cancel]
  obtain ⟨k, b⟩ := c
  cases b with
  | false => exact hge k
  | true =>
    have : {ω | fits (k, true) (skip p (ρ i ω))} = {ω | k ≤ skip p (ρ i ω)} \ {ω | k + 1 ≤ skip p (ρ i ω)} := by
      ext ω
      show skip p (ρ i ω) = k ↔ k ≤ skip p (ρ i ω) ∧ ¬ (k + 1 ≤ skip p (ρ i ω))
      omega
    have hm : MeasurableSet {ω | k + 1 ≤ skip p (ρ i ω)} :=
      measurableSet_le measurable_const ((skip_measurable p).comp (h.measurable i))
    have hsub : {ω | k + 1 ≤ skip p (ρ i ω)} ⊆ {ω | k ≤ skip p (ρ i ω)} := fun ω hω => Nat.le_of_succ_le hω
    rw [this, measure_sdiff hsub hm.nullMeasurableSet (measure_ne_top _ _), hge, hge,
      ← ENNReal.ofReal_sub _ (hpow _).1]
    show _ = ENNReal.ofReal (p * (1 - p) ^ k)
    congr 1
    ring

theorem prod_getD {α M : Type} [CommMonoid M] (f : α → M) (l : List α) (d : α) :
    ∏ i ∈ range l.length, f (l.getD i d) = (l.map f).prod := by
  induction l with
  | nil => rfl
  | cons a l ih =>
    rw [List.length_cons, prod_range_succ', List.map_cons, List.prod_cons, mul_comm]
    exact congrArg₂ (· * ·) rfl ih

theorem boxes_law (h : Spec.UniformDraws P ρ) {p : ℝ} (h0 : 0 < p) (h1 : p < 1) (l : List (Nat × Bool)) :
    P {ω | ∀ i, (hi : i < l.length) → fits l[i] (skip p (ρ i ω))} = ENNReal.ofReal ((l.map (weight p)).prod) := by
  have hset : {ω | ∀ i, (hi : i < l.length) → fits l[i] (skip p (ρ i ω))} =
      ⋂ i ∈ range l.length, ρ i ⁻¹' {x | fits (l.getD i (0, false)) (skip p x)} := by
    ext ω
    simp only [Set.mem_ofPred_eq, Set.mem_iInter, mem_range, Set.mem_preimage]
    refine forall₂_congr fun i hi => ?_
    rw [List.getD_eq_getElem?_getD, List.getElem?_eq_getElem hi, Option.getD_some]
  rw [hset, h.indep.measure_inter_preimage_eq_mul _ fun i _ => ?_]
  · have : ∀ i ∈ range l.length, P (ρ i ⁻¹' {x | fits (l.getD i (0, false)) (skip p x)}) =
        ENNReal.ofReal (weight p (l.getD i (0, false))) := fun i _ => fits_law h h0 h1 i _
    rw [prod_congr rfl this, prod_getD fun c => ENNReal.ofReal (weight p c)]
    clear this hset
    induction l with
    | nil => simp
    | cons a l ih =>
      rw [List.map_cons, List.prod_cons, List.map_cons, List.prod_cons, ih, ENNReal.ofReal_mul]
      unfold weight
      have : 0 ≤ 1 - p := by linarith
      split <;> positivity
  · have : MeasurableSet {n : Nat | fits (l.getD i (0, false)) n} := trivial
    exact skip_measurable p this

/-! ### Candidates -/

theorem shows_unique {l : List ((Int × Int) × ℝ)} {n : Int} {x y : Except Err (GAns ℝ)} {E F : Int × Int → Prop}
    (h : Spec.ShowsEdges x y l n E) (h' : Spec.ShowsEdges x y l n F) (p : Int × Int) : E p ↔ F p := by
  have h1 := h.edges p 1
  have h2 := h'.edges p 1
  simp only [and_true] at h1 h2
  exact h1.symm.trans h2

theorem shows_congr {l : List ((Int × Int) × ℝ)} {n : Int} {x y : Except Err (GAns ℝ)} {E F : Int × Int → Prop}
    (h : Spec.ShowsEdges x y l n E) (he : ∀ p, E p ↔ F p) : Spec.ShowsEdges x y l n F := by
  have : E = F := funext fun p => propext (he p)
  exact this ▸ h

/-- upTo `a < b < n` -/
noncomputable def upTo (n : Int) : Finset (Int × Int) := (Ico 0 n ×ˢ Ico 0 n).filter fun p => p.1 < p.2

theorem mem_upTo {n : Int} {p : Int × Int} : p ∈ upTo n ↔ 0 ≤ p.1 ∧ p.1 < p.2 ∧ p.2 < n := by
  unfold upTo
  rw [mem_filter, Finset.mem_product, mem_Ico, mem_Ico]
  omega

theorem tri_succ (b : Int) : (b + 1) * (b + 1 - 1) / 2 = b * (b - 1) / 2 + b := by
  rw [show (b + 1) * (b + 1 - 1) = b * (b - 1) + b * 2 by ring, Int.add_mul_ediv_right _ _ (by norm_num)]

theorem tri_mono {a b : Int} (ha : 0 ≤ a) (h : a ≤ b) : a * (a - 1) / 2 ≤ b * (b - 1) / 2 := by
  refine Int.ediv_le_ediv (by norm_num) ?_
  by_cases h' : a = b
  · rw [h']
  · have : a + 1 ≤ b := by omega
    nlinarith [mul_nonneg ha (by omega : 0 ≤ b - a - 1), mul_nonneg (by omega : 0 ≤ b) (by omega : 0 ≤ b - a - 1)]

theorem tri_nonneg {a : Int} (ha : 0 ≤ a) : 0 ≤ a * (a - 1) / 2 := by
  have := tri_mono le_rfl ha
  simpa using this

theorem position_lt {n : Int} {p : Int × Int} (h : p ∈ upTo n) :
    0 ≤ Spec.position p ∧ Spec.position p < n * (n - 1) / 2 := by
  obtain ⟨h1, h2, h3⟩ := mem_upTo.1 h
  have e1 := tri_succ p.2
  have e2 := tri_mono (a := p.2 + 1) (b := n) (by omega) (by omega)
  have e3 := tri_nonneg (a := p.2) (by omega)
  unfold Spec.position
  omega

theorem position_inj {n : Int} : Set.InjOn Spec.position (upTo n : Set (Int × Int)) := by
  intro p hp q hq h
  obtain ⟨h1, h2, h3⟩ := mem_upTo.1 hp
  obtain ⟨h1', h2', h3'⟩ := mem_upTo.1 hq
  unfold Spec.position at h
  have key : p.2 = q.2 := by
    rcases lt_trichotomy p.2 q.2 with hlt | he | hlt
    · have e1 := tri_succ p.2
      have e2 := tri_mono (a := p.2 + 1) (b := q.2) (by omega) (by omega)
      omega
    · exact he
    · have e1 := tri_succ q.2
      have e2 := tri_mono (a := q.2 + 1) (b := p.2) (by omega) (by omega)
      omega
  rw [key] at h
  exact Prod.ext (by omega) key

theorem position_surj {n : Int} (hn : 0 ≤ n) {q : Int} (h0 : 0 ≤ q) (h1 : q < n * (n - 1) / 2) :
    ∃ p ∈ upTo n, Spec.position p = q := by
  obtain ⟨n, rfl⟩ := Int.eq_ofNat_of_zero_le hn
  induction n with
  | zero => simp at h1; omega
  | succ n ih =>
    by_cases h : q < (n : Int) * (n - 1) / 2
    · obtain ⟨p, hp, e⟩ := ih (by omega) h
      refine ⟨p, mem_upTo.2 ?_, e⟩
      have := mem_upTo.1 hp
      push_cast
      omega
    · have e := tri_succ (n : Int)
      push_cast at h1
      refine ⟨(q - (n : Int) * (n - 1) / 2, n), mem_upTo.2 ⟨?_, ?_, ?_⟩, ?_⟩
      · simp only; omega
      · simp only; omega
      · simp only; push_cast; omega
      · unfold Spec.position; simp only; omega

theorem card_upTo {n : Int} (hn : 0 ≤ n) : (upTo n).card = (n * (n - 1) / 2).toNat := by
  have : (upTo n).image Spec.position = Ico 0 (n * (n - 1) / 2) := by
    ext q
    rw [mem_image, mem_Ico]
    exact ⟨fun ⟨p, hp, e⟩ => e ▸ position_lt hp, fun ⟨h0, h1⟩ => position_surj hn h0 h1⟩
  rw [← card_image_of_injOn position_inj, this, Int.card_Ico, sub_zero]

/-- the pattern of the set `E` along the enumeration of the candidates -/
def pattern (E : Finset (Int × Int)) (N : Nat) : List Bool :=
  (List.range N).map fun q : Nat => decide (∃ e ∈ E, Spec.position e = (q : Int))

theorem pattern_get (E : Finset (Int × Int)) (N q : Nat) (hq : q < (pattern E N).length) :
    (pattern E N)[q] = true ↔ ∃ e ∈ E, Spec.position e = (q : Int) := by
  simp [pattern]

theorem pattern_true {n : Int} {E : Finset (Int × Int)} (hE : E ⊆ upTo n) :
    (pattern E (n * (n - 1) / 2).toNat).count true = E.card := by
  classical
  have h : (pattern E (n * (n - 1) / 2).toNat).count true =
      ((range (n * (n - 1) / 2).toNat).filter fun q : Nat => ∃ e ∈ E, Spec.position e = (q : Int)).card := by
    unfold pattern
    rw [List.count, List.countP_map, List.countP_eq_length_filter]
    show (List.filter _ (List.range _)).length = (List.filter _ (List.range _)).length
    congr 2
    funext q
    simp
  rw [h, ← card_image_of_injOn (f := fun e => (Spec.position e).toNat) (s := E)]
  · congr 1
    ext q
    rw [mem_filter, mem_image, mem_range]
    constructor
    · rintro ⟨_, e, he, h⟩
      exact ⟨e, he, by simp only [h, Int.toNat_natCast]⟩
    · rintro ⟨e, he, h⟩
      have := position_lt (hE he)
      exact ⟨by omega, e, he, by omega⟩
  · intro x hx y hy h
    have h1 := position_lt (hE hx)
    have h2 := position_lt (hE hy)
    simp only at h
    exact position_inj (hE hx) (hE hy) (by omega)

theorem pattern_false {n : Int} {E : Finset (Int × Int)} (hE : E ⊆ upTo n) :
    (pattern E (n * (n - 1) / 2).toNat).count false = (n * (n - 1) / 2).toNat - E.card := by
  have h := pattern_true hE
  have h2 := List.count_false_add_count_true (pattern E (n * (n - 1) / 2).toNat)
  have h3 : (pattern E (n * (n - 1) / 2).toNat).length = (n * (n - 1) / 2).toNat := by simp [pattern]
  omega

theorem landing_hit {p : ℝ} (h0 : 0 < p) (h1 : p < 1) {r : Nat → ℝ} (hr : ∀ i, 0 ≤ r i ∧ r i < 1) (k : Nat) :
    Spec.landing p r k = ((∑ j ∈ range (k + 1), (skip p (r j) + 1) : Nat) : Int) - 1 := by
  have hf : ∀ j, (skip p (r j) : Int) = ⌊Real.log (1 - r j) / Real.log (1 - p)⌋ := by
    intro j
    unfold skip
    refine Int.toNat_of_nonneg (Int.floor_nonneg.2 (div_nonneg_of_nonpos ?_ ?_))
    · exact Real.log_nonpos (by linarith [(hr j).2]) (by linarith [(hr j).1])
    · exact Real.log_nonpos (by linarith) (by linarith)
  unfold Spec.landing
  congr 1
  rw [Finset.sum, Finset.range_val, Multiset.range, Multiset.map_coe, Multiset.sum_coe]
  push_cast [List.map_map]
  congr 1
  refine List.map_congr_left fun j _ => ?_
  simp only [Function.comp_apply]
  rw [← hf]; push_cast; ring

/-- the landing places make up the set `E` exactly if the draws are in the boxes of its pattern -/
theorem landing_box {n : Int} (hn : 0 ≤ n) {p : ℝ} (h0 : 0 < p) (h1 : p < 1) {r : Nat → ℝ} (hr : ∀ i, 0 ≤ r i ∧ r i < 1)
    {E : Finset (Int × Int)} (hE : E ⊆ upTo n) :
    (∀ x ∈ upTo n, x ∈ E ↔ ∃ k, Spec.position x = Spec.landing p r k) ↔
      ∀ i, (hi : i < (box 0 (pattern E (n * (n - 1) / 2).toNat)).length) →
        fits ((box 0 (pattern E (n * (n - 1) / 2).toNat))[i]) (skip p (r i)) := by
  rw [← box_iff (pattern E (n * (n - 1) / 2).toNat) 0 fun i => skip p (r i)]
  have hh : ∀ q : Nat, hit (fun i => skip p (r i)) q ↔ ∃ k, (q : Int) = Spec.landing p r k := by
    intro q
    unfold hit
    refine exists_congr fun k => ?_
    rw [landing_hit h0 h1 hr]
    show ∑ j ∈ range (k + 1), (skip p (r j) + 1) = q + 1 ↔ _
    omega
  constructor
  · intro h
    refine ⟨Nat.zero_le _, fun q hq => ?_⟩
    have hq' : q < (n * (n - 1) / 2).toNat := by simpa [pattern] using hq
    obtain ⟨x, hx, e⟩ := position_surj hn (q := q) (by omega) (by omega)
    rw [Nat.add_zero, hh, ← e, ← h x hx]
    rw [pattern_get]
    constructor
    · intro hxE; exact ⟨x, hxE, e⟩
    · rintro ⟨y, hy, e'⟩
      rwa [position_inj hx (hE hy) (e.trans e'.symm)]
  · rintro ⟨_, h⟩ x hx
    obtain ⟨p0, p1⟩ := position_lt hx
    have hq : (Spec.position x).toNat < (n * (n - 1) / 2).toNat := by omega
    have := h (Spec.position x).toNat (by simpa [pattern] using hq)
    rw [Nat.add_zero, hh] at this
    rw [← Int.toNat_of_nonneg p0, this]
    rw [pattern_get]
    constructor
    · intro hxE; exact ⟨x, hxE, by rw [Int.toNat_of_nonneg p0]⟩
    · rintro ⟨y, hy, e'⟩
      rw [Int.toNat_of_nonneg p0] at e'
      rwa [← position_inj (hE hy) hx e']

/-- the number of the draw that leaves the candidates -/
theorem leaves {n : Int} (hn : 0 ≤ n) {p : ℝ} (h0 : 0 < p) (h1 : p < 1) {r : Nat → ℝ} (hr : ∀ i, 0 ≤ r i ∧ r i < 1)
    {E : Finset (Int × Int)} (hE : E ⊆ upTo n) (h : ∀ x ∈ upTo n, x ∈ E ↔ ∃ k, Spec.position x = Spec.landing p r k)
    {c : Nat} (hc : n * (n - 1) / 2 ≤ Spec.landing p r c) (hc' : ∀ t < c, Spec.landing p r t < n * (n - 1) / 2) :
    c = E.card := by
  have hmono : StrictMono (Spec.landing p r) := by
    refine strictMono_nat_of_lt_succ fun k => ?_
    rw [landing_hit h0 h1 hr, landing_hit h0 h1 hr, sum_range_succ _ (k + 1)]
    push_cast
    omega
  have hnn : ∀ k, 0 ≤ Spec.landing p r k := by
    intro k
    rw [landing_hit h0 h1 hr, sum_range_succ]
    push_cast
    have : (0 : Int) ≤ ∑ j ∈ range k, ((skip p (r j) : Int) + 1) := sum_nonneg fun _ _ => by omega
    omega
  have he : E.image Spec.position = (range c).image (Spec.landing p r) := by
    ext q
    rw [mem_image, mem_image]
    constructor
    · rintro ⟨x, hx, rfl⟩
      obtain ⟨k, hk⟩ := (h x (hE hx)).1 hx
      refine ⟨k, mem_range.2 (hmono.lt_iff_lt.1 ?_), hk.symm⟩
      have := (position_lt (hE hx)).2
      omega
    · rintro ⟨k, hk, rfl⟩
      obtain ⟨x, hx, e⟩ := position_surj hn (hnn k) (hc' k (mem_range.1 hk))
      exact ⟨x, (h x hx).2 ⟨k, e⟩, e⟩
  have h2 := congrArg Finset.card he
  rw [card_image_of_injOn (position_inj.mono (by exact_mod_cast hE)), card_image_of_injective _ hmono.injective, card_range] at h2
  exact h2.symm

theorem fits_append (a b : List (Nat × Bool)) (s : Nat → Nat) :
    (∀ i, (hi : i < (a ++ b).length) → fits (a ++ b)[i] (s i)) ↔
      (∀ i, (hi : i < a.length) → fits a[i] (s i)) ∧ ∀ i, (hi : i < b.length) → fits b[i] (s (a.length + i)) := by
  constructor
  · intro h
    refine ⟨fun i hi => ?_, fun i hi => ?_⟩
    · have := h i (by rw [List.length_append]; omega)
      rwa [List.getElem_append_left hi] at this
    · have := h (a.length + i) (by rw [List.length_append]; omega)
      rw [List.getElem_append_right (by omega)] at this
      simpa using this
  · rintro ⟨h1, h2⟩ i hi
    by_cases hl : i < a.length
    · rw [List.getElem_append_left hl]; exact h1 i hl
    · rw [List.getElem_append_right (by omega)]
      rw [List.length_append] at hi
      have := h2 (i - a.length) (by omega)
      rwa [show a.length + (i - a.length) = i by omega] at this

end Law

open Law RandGen Finset

variable {Ω : Type} [MeasurableSpace Ω] {P : Measure Ω} [IsProbabilityMeasure P] {ρ : Nat → Ω → ℝ}

/-- C133. `graph_Gnp`: every graph with `n` vertices comes out with the probability that exactly its edges
are chosen, each independently with probability `prob`. -/
theorem C133_graph_Gnp (h : Spec.UniformDraws P ρ) {n : Int} (hn : 1 < n) {prob : ℝ} (h0 : 0 ≤ prob) (h1 : prob ≤ 1)
    (E : Finset (Int × Int)) (hE : ∀ p ∈ E, 0 ≤ p.1 ∧ p.1 < p.2 ∧ p.2 < n) :
    P {ω | ∃ g, graphGnp n prob (fun i => ρ i ω) = .ok g ∧ Spec.GraphIs g n fun p => p ∈ E} =
      Spec.bernoulli prob (n * (n - 1) / 2).toNat E.card := by
  obtain ⟨d, hd, hg⟩ := C70_graph_Gnp (K := ℝ) n hn
  have hE' : E ⊆ upTo n := fun p hp => mem_upTo.2 (hE p hp)
  rw [← card_upTo (by omega), ← candidates h (upTo n) E hE' d (fun p hp q hq => hd (mem_upTo.1 hp) (mem_upTo.1 hq)) h0 h1]
  congr 1
  ext ω
  obtain ⟨g, g1, g2⟩ := hg prob (fun i => ρ i ω) h0 h1
  constructor
  · rintro ⟨g', g1', g2'⟩ p hp
    rw [g1] at g1'; cases g1'
    rw [shows_unique g2' g2 p]
    exact ⟨And.right, fun h => ⟨mem_upTo.1 hp, h⟩⟩
  · intro hω
    refine ⟨g, g1, shows_congr g2 fun p => ⟨fun ⟨h, h'⟩ => (hω p (mem_upTo.2 h)).2 h', fun hp => ⟨hE p hp, ?_⟩⟩⟩
    exact (hω p (hE' hp)).1 hp

/-- C133. `graph_Gnp_fast` has the same distribution.  Missing: the probabilities zero and one, where it
raises (`C133_fast_ends_false`). -/
theorem C133_graph_Gnp_fast_partial (h : Spec.UniformDraws P ρ) {n : Int} (hn : 1 < n) {prob : ℝ} (h0 : 0 < prob) (h1 : prob < 1)
    {fuel : Nat} (hf : n * n ≤ fuel) (E : Finset (Int × Int)) (hE : ∀ p ∈ E, 0 ≤ p.1 ∧ p.1 < p.2 ∧ p.2 < n) :
    P {ω | ∃ g, graphGnpFast n prob (fun i => ρ i ω) fuel = some (.ok g) ∧ Spec.GraphIs g n fun p => p ∈ E} =
      Spec.bernoulli prob (n * (n - 1) / 2).toNat E.card := by
  have hE' : E ⊆ upTo n := fun p hp => mem_upTo.2 (hE p hp)
  have hb := boxes_law h h0 h1 (box 0 (pattern E (n * (n - 1) / 2).toNat))
  rw [box_weight, pattern_true hE', pattern_false hE', pow_zero, one_mul] at hb
  rw [Spec.bernoulli, ← hb]
  congr 1
  ext ω
  have hr : ∀ i, 0 ≤ ρ i ω ∧ ρ i ω < 1 := fun i => h.range i ω
  obtain ⟨g, g1, g2⟩ := C72_graph_Gnp_fast_partial hn h0 h1 hr
  have hl := landing_box (n := n) (by omega) h0 h1 hr hE'
  refine Iff.trans ?_ hl
  constructor
  · rintro ⟨g', g1', g2'⟩ p hp
    rw [g1 fuel hf] at g1'; cases g1'
    rw [shows_unique g2' g2 p]
    exact ⟨And.right, fun h => ⟨mem_upTo.1 hp, h⟩⟩
  · intro hω
    refine ⟨g, g1 fuel hf, shows_congr g2 fun p => ⟨fun ⟨h, h'⟩ => (hω p (mem_upTo.2 h)).2 h', fun hp => ⟨hE p hp, ?_⟩⟩⟩
    exact (hω p (hE' hp)).1 hp

/-- C133. `digraph_Gnp`. -/
theorem C133_digraph_Gnp (h : Spec.UniformDraws P ρ) {n : Int} (hn : 1 < n) {prob : ℝ} (h0 : 0 ≤ prob) (h1 : prob ≤ 1)
    (E : Finset (Int × Int)) (hE : ∀ p ∈ E, 0 ≤ p.1 ∧ p.1 < n ∧ 0 ≤ p.2 ∧ p.2 < n ∧ p.1 ≠ p.2) :
    P {ω | ∃ g, digraphGnp n prob (fun i => ρ i ω) = .ok g ∧ Spec.DigraphIs g n fun p => p ∈ E} =
      Spec.bernoulli prob (n * (n - 1)).toNat E.card := by
  obtain ⟨d, hd, hg⟩ := C70_digraph_Gnp (K := ℝ) n hn
  have hm : ∀ p, p ∈ (Ico 0 n).offDiag ↔ 0 ≤ p.1 ∧ p.1 < n ∧ 0 ≤ p.2 ∧ p.2 < n ∧ p.1 ≠ p.2 := by
    intro p
    rw [mem_offDiag, mem_Ico, mem_Ico]
    tauto
  have hE' : E ⊆ (Ico 0 n).offDiag := fun p hp => (hm p).2 (hE p hp)
  have hc : (n * (n - 1)).toNat = ((Ico 0 n).offDiag).card := by
    rw [offDiag_card, Int.card_Ico, sub_zero]
    obtain ⟨k, rfl⟩ := Int.eq_ofNat_of_zero_le (by omega : 0 ≤ n)
    rw [Int.toNat_natCast, ← Nat.mul_sub_one]
    obtain ⟨k, rfl⟩ : ∃ j, k = j + 1 := ⟨k - 1, by omega⟩
    have : ((k + 1 : Nat) : Int) * (((k + 1 : Nat) : Int) - 1) = (((k + 1) * k : Nat) : Int) := by push_cast; ring
    rw [this, Int.toNat_natCast, Nat.add_sub_cancel]
  rw [hc, ← candidates h _ E hE' d (fun p hp q hq => hd ((hm p).1 hp) ((hm q).1 hq)) h0 h1]
  congr 1
  ext ω
  obtain ⟨g, g1, g2⟩ := hg prob (fun i => ρ i ω) h0 h1
  constructor
  · rintro ⟨g', g1', g2'⟩ p hp
    rw [g1] at g1'; cases g1'
    rw [shows_unique g2' g2 p]
    exact ⟨And.right, fun h => ⟨(hm p).1 hp, h⟩⟩
  · intro hω
    refine ⟨g, g1, shows_congr g2 fun p => ⟨fun ⟨h, h'⟩ => (hω p ((hm p).2 h)).2 h', fun hp => ⟨hE p hp, ?_⟩⟩⟩
    exact (hω p (hE' hp)).1 hp

/-- C133. `bigraph_Gnp`. -/
theorem C133_bigraph_Gnp (h : Spec.UniformDraws P ρ) {m n : Int} (hm : 1 < m) (hn : 1 < n) {prob : ℝ} (h0 : 0 ≤ prob)
    (h1 : prob ≤ 1) (E : Finset (Int × Int)) (hE : ∀ p ∈ E, 0 ≤ p.1 ∧ p.1 < m ∧ 0 ≤ p.2 ∧ p.2 < n) :
    P {ω | ∃ g, bigraphGnp m n prob (fun i => ρ i ω) = .ok g ∧ Spec.BigraphIs g m n fun p => p ∈ E} =
      Spec.bernoulli prob (m * n).toNat E.card := by
  obtain ⟨d, hd, hg⟩ := C70_bigraph_Gnp (K := ℝ) m n hm hn
  have hme : ∀ p, p ∈ Ico 0 m ×ˢ Ico 0 n ↔ 0 ≤ p.1 ∧ p.1 < m ∧ 0 ≤ p.2 ∧ p.2 < n := by
    intro p
    rw [Finset.mem_product, mem_Ico, mem_Ico]
    tauto
  have hE' : E ⊆ Ico 0 m ×ˢ Ico 0 n := fun p hp => (hme p).2 (hE p hp)
  have hc : (m * n).toNat = (Ico 0 m ×ˢ Ico 0 n).card := by
    rw [card_product, Int.card_Ico, Int.card_Ico, sub_zero, sub_zero, Int.toNat_mul (by omega) (by omega)]
  rw [hc, ← candidates h _ E hE' d (fun p hp q hq => hd ((hme p).1 hp) ((hme q).1 hq)) h0 h1]
  congr 1
  ext ω
  obtain ⟨g, g1, g2⟩ := hg prob (fun i => ρ i ω) h0 h1
  constructor
  · rintro ⟨g', g1', g2'⟩ p hp
    rw [g1] at g1'; cases g1'
    rw [shows_unique g2'.2 g2.2 p]
    exact ⟨And.right, fun h => ⟨(hme p).1 hp, h⟩⟩
  · intro hω
    refine ⟨g, g1, g2.1, shows_congr g2.2 fun p => ⟨fun ⟨h, h'⟩ => (hω p ((hme p).2 h)).2 h', fun hp => ⟨hE p hp, ?_⟩⟩⟩
    exact (hω p (hE' hp)).1 hp

/-- C133. `uniform_hypergraph_Gnp`: the candidates are the sets of `k` vertices. -/
theorem C133_uniform_hypergraph_Gnp (h : Spec.UniformDraws P ρ) {k n : Int} (hk : 1 < k) (hn : 1 < n) {prob : ℝ}
    (h0 : 0 ≤ prob) (h1 : prob ≤ 1) (E : Finset (Multiset Int)) (hE : ∀ e ∈ E, Spec.IsSubset n k e) :
    P {ω | ∃ s, uniformGnp k n prob (fun i => ρ i ω) = .ok s ∧ Spec.HypergraphIs s n fun e => e ∈ E} =
      Spec.bernoulli prob (n.toNat.choose k.toNat) E.card := by
  obtain ⟨d, hd, hg⟩ := C70_uniform_hypergraph_Gnp (K := ℝ) k n hk hn
  have hme : ∀ e, e ∈ (powersetCard k.toNat (Ico 0 n)).image Finset.val ↔ Spec.IsSubset n k e := by
    intro e
    unfold Spec.IsSubset
    rw [mem_image]
    constructor
    · rintro ⟨s, hs, rfl⟩
      rw [mem_powersetCard] at hs
      refine ⟨s.nodup, ?_, fun v hv => ?_⟩
      · have : s.val.card = k.toNat := hs.2
        omega
      · have := mem_Ico.1 (hs.1 hv)
        exact this
    · rintro ⟨e1, e2, e3⟩
      refine ⟨⟨e, e1⟩, mem_powersetCard.2 ⟨fun v hv => mem_Ico.2 (e3 v hv), ?_⟩, rfl⟩
      show e.card = k.toNat
      omega
  have hE' : E ⊆ (powersetCard k.toNat (Ico 0 n)).image Finset.val := fun p hp => (hme p).2 (hE p hp)
  have hc : n.toNat.choose k.toNat = ((powersetCard k.toNat (Ico 0 n)).image Finset.val).card := by
    rw [card_image_of_injective _ Finset.val_injective, card_powersetCard, Int.card_Ico, sub_zero]
  rw [hc, ← candidates h _ E hE' d (fun p hp q hq => hd ((hme p).1 hp) ((hme q).1 hq)) h0 h1]
  congr 1
  ext ω
  obtain ⟨g, g1, g2⟩ := hg prob (fun i => ρ i ω) h0 h1
  constructor
  · rintro ⟨g', g1', g2'⟩ p hp
    rw [g1] at g1'; cases g1'
    have e1 := g2'.edges p 1
    have e2 := g2.edges p 1
    simp only [and_true] at e1 e2
    rw [← e1, e2]
    exact ⟨And.right, fun h => ⟨(hme p).1 hp, h⟩⟩
  · intro hω
    have : (fun e => Spec.IsSubset n k e ∧ ρ (d e) ω < prob) = fun e => e ∈ E := by
      funext p
      exact propext ⟨fun ⟨h, h'⟩ => (hω p ((hme p).2 h)).2 h', fun hp => ⟨hE p hp, (hω p (hE' hp)).1 hp⟩⟩
    exact ⟨g, g1, this ▸ g2⟩

/-- C133. `digraph_Gnp_fast` has the same distribution as `digraph_Gnp`.  Missing: the probabilities
zero and one, where it raises (`C133_fast_ends_false`). -/
theorem C133_digraph_Gnp_fast_partial (h : Spec.UniformDraws P ρ) {n : Int} (hn : 1 < n) {prob : ℝ} (h0 : 0 < prob) (h1 : prob < 1)
    {fuel : Nat} (hf : n * n ≤ fuel) (E : Finset (Int × Int))
    (hE : ∀ p ∈ E, 0 ≤ p.1 ∧ p.1 < n ∧ 0 ≤ p.2 ∧ p.2 < n ∧ p.1 ≠ p.2) :
    P {ω | ∃ g, digraphGnpFast n prob (fun i => ρ i ω) fuel = some (.ok g) ∧ Spec.DigraphIs g n fun p => p ∈ E} =
      Spec.bernoulli prob (n * (n - 1)).toNat E.card := by
  classical
  let E1 : Finset (Int × Int) := E.filter fun p => p.1 < p.2
  let E2 : Finset (Int × Int) := (E.filter fun p => ¬ p.1 < p.2).image Prod.swap
  have m1 : ∀ a b, (a, b) ∈ E1 ↔ (a, b) ∈ E ∧ a < b := fun a b => mem_filter
  have m2 : ∀ a b, (a, b) ∈ E2 ↔ (b, a) ∈ E ∧ a < b := by
    intro a b
    simp only [E2, mem_image, mem_filter]
    constructor
    · rintro ⟨⟨x, y⟩, ⟨hx, hlt⟩, e⟩
      cases e
      have := hE _ hx
      simp only at this hlt
      exact ⟨hx, by omega⟩
    · rintro ⟨hx, hlt⟩
      exact ⟨(b, a), ⟨hx, by simp only; omega⟩, rfl⟩
  have hE1 : E1 ⊆ upTo n := by
    rintro ⟨a, b⟩ hp
    rw [m1] at hp
    have := hE _ hp.1
    exact mem_upTo.2 ⟨this.1, hp.2, this.2.2.2.1⟩
  have hE2 : E2 ⊆ upTo n := by
    rintro ⟨a, b⟩ hp
    rw [m2] at hp
    have := hE _ hp.1
    exact mem_upTo.2 ⟨this.2.2.1, hp.2, this.2.1⟩
  have hcard : E1.card + E2.card = E.card := by
    simp only [E1, E2]
    rw [card_image_of_injective _ Prod.swap_injective]
    exact card_filter_add_card_filter_not _
  have c1 : E1.card ≤ (n * (n - 1) / 2).toNat := card_upTo (n := n) (by omega) ▸ card_le_card hE1
  have c2 : E2.card ≤ (n * (n - 1) / 2).toNat := card_upTo (n := n) (by omega) ▸ card_le_card hE2
  have hN : (n * (n - 1)).toNat = (n * (n - 1) / 2).toNat + (n * (n - 1) / 2).toNat := by
    have : n * (n - 1) % 2 = 0 := by
      rcases Int.emod_two_eq_zero_or_one n with e | e
      · rw [Int.mul_emod, e]; simp
      · rw [Int.mul_emod, show (n - 1) % 2 = 0 by omega]; simp
    omega
  have hb := boxes_law h h0 h1 (box 0 (pattern E1 (n * (n - 1) / 2).toNat) ++ box 0 (pattern E2 (n * (n - 1) / 2).toNat))
  rw [List.map_append, List.prod_append, box_weight, box_weight, pattern_true hE1, pattern_false hE1, pattern_true hE2,
    pattern_false hE2, pow_zero, one_mul, one_mul] at hb
  have hw : prob ^ E.card * (1 - prob) ^ ((n * (n - 1)).toNat - E.card) =
      prob ^ E1.card * (1 - prob) ^ ((n * (n - 1) / 2).toNat - E1.card) *
        (prob ^ E2.card * (1 - prob) ^ ((n * (n - 1) / 2).toNat - E2.card)) := by
    rw [hN, ← hcard, show (n * (n - 1) / 2).toNat + (n * (n - 1) / 2).toNat - (E1.card + E2.card) =
      ((n * (n - 1) / 2).toNat - E1.card) + ((n * (n - 1) / 2).toNat - E2.card) by omega, pow_add, pow_add]
    ring
  rw [Spec.bernoulli, hw, ← hb]
  congr 1
  ext ω
  have hr : ∀ i, 0 ≤ ρ i ω ∧ ρ i ω < 1 := fun i => h.range i ω
  obtain ⟨c, hc, hc', g, g1, g2⟩ := C72_digraph_Gnp_fast_partial hn h0 h1 hr
  have hl1 := landing_box (n := n) (by omega) h0 h1 hr hE1
  have hl2 := landing_box (n := n) (by omega) h0 h1 (r := fun j => ρ (c + 1 + j) ω) (fun i => hr _) hE2
  have key : (∃ g, digraphGnpFast n prob (fun i => ρ i ω) fuel = some (.ok g) ∧ Spec.DigraphIs g n fun p => p ∈ E) ↔
      (∀ x ∈ upTo n, x ∈ E1 ↔ ∃ k, Spec.position x = Spec.landing prob (fun i => ρ i ω) k) ∧
      (∀ x ∈ upTo n, x ∈ E2 ↔ ∃ k, Spec.position x = Spec.landing prob (fun j => ρ (c + 1 + j) ω) k) := by
    constructor
    · rintro ⟨g', g1', g2'⟩
      rw [g1 fuel hf] at g1'; cases g1'
      have hu := fun p => shows_unique g2' g2 p
      refine ⟨fun x hx => ?_, fun x hx => ?_⟩
      · obtain ⟨a, b⟩ := x
        have hx' := mem_upTo.1 hx
        simp only at hx'
        rw [m1, hu]
        simp only
        constructor
        · rintro ⟨⟨_, ⟨_, h⟩ | ⟨h, _⟩⟩, _⟩
          · exact h
          · omega
        · intro h
          exact ⟨⟨by omega, .inl ⟨by omega, h⟩⟩, by omega⟩
      · obtain ⟨a, b⟩ := x
        have hx' := mem_upTo.1 hx
        simp only at hx'
        rw [m2, hu]
        simp only
        constructor
        · rintro ⟨⟨_, ⟨h, _⟩ | ⟨_, h⟩⟩, _⟩
          · omega
          · exact h
        · intro h
          exact ⟨⟨by omega, .inr ⟨by omega, h⟩⟩, by omega⟩
    · rintro ⟨k1, k2⟩
      refine ⟨g, g1 fuel hf, shows_congr g2 ?_⟩
      rintro ⟨a, b⟩
      simp only
      constructor
      · rintro ⟨h, ⟨hlt, hk⟩ | ⟨hlt, hk⟩⟩
        · exact ((m1 a b).1 ((k1 (a, b) (mem_upTo.2 ⟨h.1, hlt, h.2.2.2⟩)).2 hk)).1
        · exact ((m2 b a).1 ((k2 (b, a) (mem_upTo.2 ⟨h.2.2.1, hlt, h.2.1⟩)).2 hk)).1
      · intro hp
        obtain ⟨e1, e2, e3, e4, e5⟩ := hE _ hp
        simp only at e1 e2 e3 e4 e5
        refine ⟨⟨e1, e2, e3, e4⟩, ?_⟩
        rcases lt_or_gt_of_ne e5 with hlt | hlt
        · exact .inl ⟨hlt, (k1 (a, b) (mem_upTo.2 ⟨e1, hlt, e4⟩)).1 ((m1 a b).2 ⟨hp, hlt⟩)⟩
        · exact .inr ⟨hlt, (k2 (b, a) (mem_upTo.2 ⟨e3, hlt, e2⟩)).1 ((m2 b a).2 ⟨hp, hlt⟩)⟩
  refine key.trans ?_
  refine Iff.trans ?_ (fits_append _ _ fun i => skip prob (ρ i ω)).symm
  rw [← hl1]
  refine and_congr_right fun k1 => ?_
  have hce := leaves (n := n) (by omega) h0 h1 hr hE1 k1 hc hc'
  have hlen : (box 0 (pattern E1 (n * (n - 1) / 2).toNat)).length = c + 1 := by
    rw [box_length, pattern_true hE1, ← hce]
  rw [hlen]
  exact hl2

/-- C133. The two ways of drawing an undirected random graph cannot be told apart, unless the probability is
zero or one. -/
theorem C133_graph_same_partial (h : Spec.UniformDraws P ρ) {n : Int} (hn : 1 < n) {prob : ℝ} (h0 : 0 < prob) (h1 : prob < 1)
    {fuel : Nat} (hf : n * n ≤ fuel) (E : Finset (Int × Int)) (hE : ∀ p ∈ E, 0 ≤ p.1 ∧ p.1 < p.2 ∧ p.2 < n) :
    P {ω | ∃ g, graphGnpFast n prob (fun i => ρ i ω) fuel = some (.ok g) ∧ Spec.GraphIs g n fun p => p ∈ E} =
      P {ω | ∃ g, graphGnp n prob (fun i => ρ i ω) = .ok g ∧ Spec.GraphIs g n fun p => p ∈ E} := by
  rw [C133_graph_Gnp_fast_partial h hn h0 h1 hf E hE, C133_graph_Gnp h hn h0.le h1.le E hE]

/-- C133 fails for the fast generators at the ends: with probability zero the graph without edges should come out
always, with probability one the complete graph; neither ever does. -/
theorem C133_fast_ends_false (h : Spec.UniformDraws P ρ) {n : Int} (hn : 1 < n) (fuel : Nat) :
    Spec.bernoulli 0 (n * (n - 1) / 2).toNat (∅ : Finset (Int × Int)).card = 1 ∧
    P {ω | ∃ g, graphGnpFast n 0 (fun i => ρ i ω) (fuel + 1) = some (.ok g) ∧
      Spec.GraphIs g n fun p => p ∈ (∅ : Finset (Int × Int))} = 0 ∧
    Spec.bernoulli 1 (n * (n - 1) / 2).toNat (n * (n - 1) / 2).toNat = 1 ∧
    P {ω | ∃ g, graphGnpFast n 1 (fun i => ρ i ω) fuel = some (.ok g) ∧
      Spec.GraphIs g n fun p => 0 ≤ p.1 ∧ p.1 < p.2 ∧ p.2 < n} = 0 := by
  refine ⟨by simp [Spec.bernoulli], ?_, by simp [Spec.bernoulli], ?_⟩
  · convert measure_empty (μ := P)
    ext ω
    simp only [Set.mem_ofPred_eq, Set.mem_empty_iff_false, iff_false]
    rintro ⟨g, hg, _⟩
    rw [(C72_prob_zero_false hn (fun i => ρ i ω) (h.range 0 ω).2 fuel).1] at hg
    cases hg
  · convert measure_empty (μ := P)
    ext ω
    simp only [Set.mem_ofPred_eq, Set.mem_empty_iff_false, iff_false]
    rintro ⟨g, hg, _⟩
    rw [(C72_prob_one_false hn (fun i => ρ i ω) fuel).1] at hg
    cases hg

/-- the uniform distribution -/
noncomputable def Law.unit : Measure ℝ := volume.restrict (Set.Ico 0 1)

instance Law.unit_prob : IsProbabilityMeasure Law.unit := ⟨by simp [Law.unit]⟩

/-- There are such draws: independent coordinates, uniform in `[0, 1)`. -/
theorem C133_draws_exist : ∃ (P : Measure (Nat → ℝ)) (ρ : Nat → (Nat → ℝ) → ℝ), IsProbabilityMeasure P ∧ Spec.UniformDraws P ρ := by
  refine ⟨Measure.infinitePi fun _ => Law.unit, fun i ω => Int.fract (ω i), inferInstance, ?_, ?_, ?_, ?_⟩
  · intro i
    exact measurable_fract.comp (measurable_pi_apply i)
  · exact fun i ω => ⟨Int.fract_nonneg _, Int.fract_lt_one _⟩
  · intro i t h0 h1
    have hs : MeasurableSet {x : ℝ | Int.fract x < t} := measurableSet_lt measurable_fract measurable_const
    have : {ω : Nat → ℝ | Int.fract (ω i) < t} = (fun ω => ω i) ⁻¹' {x | Int.fract x < t} := rfl
    rw [this, ← Measure.map_apply (measurable_pi_apply i) hs, Measure.infinitePi_map_eval]
    show (volume.restrict (Set.Ico 0 1)) _ = _
    rw [Measure.restrict_apply hs]
    have he : {x : ℝ | Int.fract x < t} ∩ Set.Ico 0 1 = Set.Ico 0 t := by
      ext x
      simp only [Set.mem_inter_iff, Set.mem_ofPred_eq, Set.mem_Ico]
      constructor
      · rintro ⟨h2, h3, h4⟩
        rw [Int.fract_eq_self.2 ⟨h3, h4⟩] at h2
        exact ⟨h3, h2⟩
      · rintro ⟨h2, h3⟩
        rw [Int.fract_eq_self.2 ⟨h2, by linarith⟩]
        exact ⟨h3, h2, by linarith⟩
    rw [he, Real.volume_Ico, sub_zero]
  · exact iIndepFun_infinitePi (P := fun _ => Law.unit) (X := fun _ x => Int.fract x) fun i => measurable_fract

/-- The hypotheses are met by a graph with one of three edges. -/
example : ∃ (P : Measure (Nat → ℝ)) (ρ : Nat → (Nat → ℝ) → ℝ), IsProbabilityMeasure P ∧ Spec.UniformDraws P ρ ∧
    P {ω | ∃ g, graphGnp 3 (1 / 2) (fun i => ρ i ω) = .ok g ∧ Spec.GraphIs g 3 fun p => p ∈ ({(0, 2)} : Finset (Int × Int))} =
      ENNReal.ofReal (1 / 8) ∧
    P {ω | ∃ g, graphGnpFast 3 (1 / 2) (fun i => ρ i ω) 9 = some (.ok g) ∧
      Spec.GraphIs g 3 fun p => p ∈ ({(0, 2)} : Finset (Int × Int))} = ENNReal.ofReal (1 / 8) := by
  obtain ⟨P, ρ, hP, h⟩ := C133_draws_exist
  refine ⟨P, ρ, hP, h, ?_, ?_⟩
  · rw [C133_graph_Gnp h (by norm_num) (by norm_num) (by norm_num) _ (by simp)]
    rw [Spec.bernoulli, show ((3 : Int) * (3 - 1) / 2).toNat = 3 from rfl, card_singleton]
    congr 1
    norm_num
  · rw [C133_graph_Gnp_fast_partial h (by norm_num) (by norm_num) (by norm_num) (by norm_num) _ (by simp)]
    rw [Spec.bernoulli, show ((3 : Int) * (3 - 1) / 2).toNat = 3 from rfl, card_singleton]
    congr 1
    norm_num

end Props
end DHG
