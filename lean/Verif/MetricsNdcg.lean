import Mathlib.Algebra.Order.Rearrangement
import Mathlib.Data.Fintype.EquivFin
import Verif.MetricsLemmas

/-! # Discounted cumulative gain: the best ranking is the one by relevance -/

set_option linter.unusedSectionVars false
set_option autoImplicit false

namespace DHG
namespace Metrics
open Utils Spec

/-- an argsort that keeps equal scores in their order -/
def stableSrt {K : Type} [Field K] [LinearOrder K] (xs : List K) : List Nat :=
  (List.range xs.length).insertionSort fun i j => xs.getD j 0 ≤ xs.getD i 0

theorem stableSrt_sorts {K : Type} [Field K] [LinearOrder K] : SortsDesc (stableSrt (K := K)) := by
  intro xs
  refine ⟨List.perm_insertionSort _ _, ?_⟩
  haveI : Std.Total (fun i j : Nat => xs.getD j 0 ≤ xs.getD i 0) := ⟨fun i j => le_total _ _⟩
  haveI : IsTrans Nat (fun i j : Nat => xs.getD j 0 ≤ xs.getD i 0) := ⟨fun _ _ _ h1 h2 => le_trans h2 h1⟩
  exact List.pairwise_insertionSort _ _

theorem map_range_getD {K : Type} [Field K] (a : List K) :
    ((List.range a.length).map fun i => a.getD i 0) = a := by
  apply List.ext_getElem
  · simp
  · intro i h1 h2
    simp [h2]

theorem sortDesc_eq (a : List ℝ) : sortDesc a = ranked stableSrt a a := by
  have hp : (ranked stableSrt a a).Perm a := by
    have := (stableSrt_sorts a).1.map fun i => a.getD i 0
    rwa [map_range_getD] at this
  haveI : Std.Total (fun x y : ℝ => y ≤ x) := ⟨fun i j => le_total _ _⟩
  haveI : IsTrans ℝ (fun x y : ℝ => y ≤ x) := ⟨fun _ _ _ h1 h2 => le_trans h2 h1⟩
  have h1 : (sortDesc a).Perm a := List.perm_insertionSort _ _
  refine (h1.trans hp.symm).eq_of_pairwise (le := fun x y : ℝ => y ≤ x) ?_ ?_ ?_
  · intro x y _ _ h1 h2
    exact le_antisymm h2 h1
  · exact List.pairwise_insertionSort _ _
  · rw [ranked_eq, List.pairwise_map]
    exact (stableSrt_sorts a).2

theorem dcg_ranked {srt : Argsort ℝ} (hs : SortsDesc srt) (a b : List ℝ) (hab : a.length = b.length)
    (c : Int) (hc : 0 ≤ c) : dcg (slice (ranked srt a b) 0 c) = Spec.dcg a (rankOf srt b) c := by
  unfold dcg Spec.dcg
  exact ranked_sum_at hs a b hab c hc fun p x => x / Real.logb 2 ((p : ℝ) + 2)

/-- the discount of a place, 0 beyond the counted places -/
noncomputable def disc (c : Int) (p : Nat) : ℝ := if (p : Int) < c then (Real.logb 2 ((p : ℝ) + 2))⁻¹ else 0

theorem logb_pos (p : Nat) : 0 < Real.logb 2 ((p : ℝ) + 2) := by
  have : (0 : ℝ) ≤ p := Nat.cast_nonneg p
  exact Real.logb_pos (by norm_num) (by linarith)

theorem disc_nonneg (c : Int) (p : Nat) : 0 ≤ disc c p := by
  unfold disc
  split
  · exact inv_nonneg.mpr (logb_pos p).le
  · exact le_rfl

theorem disc_anti (c : Int) {p q : Nat} (h : p ≤ q) : disc c q ≤ disc c p := by
  by_cases hq : (q : Int) < c
  · have hp : (p : Int) < c := by omega
    simp only [disc, if_pos hq, if_pos hp]
    apply inv_anti₀ (logb_pos p)
    apply Real.logb_le_logb_of_le (by norm_num)
    · positivity
    · have : (p : ℝ) ≤ q := by exact_mod_cast h
      linarith
  · rw [show disc c q = 0 from if_neg hq]
    exact disc_nonneg c p

theorem dcg_eq_disc (a : List ℝ) (r : Nat → Nat) (c : Int) :
    Spec.dcg a r c = ∑ i ∈ Finset.range a.length, a.getD i 0 * disc c (r i) := by
  unfold Spec.dcg disc
  rw [Finset.sum_filter]
  apply Finset.sum_congr rfl
  intro i _
  split <;> simp [div_eq_mul_inv]

/-- a ranking as a permutation of the positions -/
noncomputable def rankPerm (b : List ℝ) (r : Nat → Nat) (hr : Ranks b r) : Equiv.Perm (Fin b.length) :=
  Equiv.ofBijective (fun i => ⟨r i, hr.1 i i.2⟩) (Finite.injective_iff_bijective.1 fun i j h =>
    Fin.ext (hr.2.1 i i.2 j j.2 (by simpa using h)))

/-- ranking the items by relevance is optimal -/
theorem dcg_le {a b : List ℝ} (hab : a.length = b.length) {r r' : Nat → Nat} (hr : Ranks b r)
    (hr' : Ranks a r') (c : Int) : Spec.dcg a r c ≤ Spec.dcg a r' c := by
  have hr2 : (∀ i < a.length, r i < a.length) ∧
      (∀ i < a.length, ∀ j < a.length, r i = r j → i = j) := by rw [hab]; exact ⟨hr.1, hr.2.1⟩
  let σ : Equiv.Perm (Fin a.length) :=
    Equiv.ofBijective (fun i => ⟨r i, hr2.1 i i.2⟩) (Finite.injective_iff_bijective.1 fun i j h =>
      Fin.ext (hr2.2 i i.2 j j.2 (by simpa using h)))
  let τ := rankPerm a r' hr'
  rw [dcg_eq_disc, dcg_eq_disc, Finset.sum_range, Finset.sum_range]
  have hm : Monovary (fun i : Fin a.length => a.getD i 0) (fun i : Fin a.length => disc c (r' i)) := by
    intro i j hij
    by_contra hlt
    rw [not_le] at hlt
    have := hr'.2.2 i i.2 j j.2 hlt
    exact absurd hij (not_lt.mpr (disc_anti c this.le))
  have := hm.sum_mul_comp_perm_le_sum_mul (σ := σ.trans τ.symm)
  refine le_trans (le_of_eq ?_) this
  apply Finset.sum_congr rfl
  intro i _
  congr 2
  have : τ ((σ.trans τ.symm) i) = σ i := by simp
  have h2 := congrArg Fin.val this
  exact h2.symm

theorem dcg_nonneg {a : List ℝ} (ha : ∀ x ∈ a, 0 ≤ x) (r : Nat → Nat) (c : Int) : 0 ≤ Spec.dcg a r c := by
  rw [dcg_eq_disc]
  apply Finset.sum_nonneg
  intro i hi
  apply mul_nonneg _ (disc_nonneg _ _)
  rw [List.getD_eq_getElem _ _ (Finset.mem_range.mp hi)]
  exact ha _ (List.getElem_mem _)

/-- the best ranking has a positive gain as soon as something is relevant -/
theorem dcg_pos {a : List ℝ} (ha : ∀ x ∈ a, 0 ≤ x) (hpos : ∃ x ∈ a, 0 < x) {r : Nat → Nat}
    (hr : Ranks a r) (c : Int) (hc : 0 < c) : 0 < Spec.dcg a r c := by
  obtain ⟨x, hx, hx0⟩ := hpos
  have hn : 0 < a.length := List.length_pos_of_mem hx
  obtain ⟨⟨i0, hi0⟩, h0⟩ := (rankPerm a r hr).surjective ⟨0, hn⟩
  have hr0 : r i0 = 0 := congrArg Fin.val h0
  have hi0pos : 0 < a.getD i0 0 := by
    obtain ⟨j, hj, rfl⟩ := List.mem_iff_getElem.mp hx
    by_contra hcon
    have hlt : a.getD i0 0 < a.getD j 0 := by
      rw [List.getD_eq_getElem _ _ hj]; exact lt_of_le_of_lt (not_lt.mp hcon) hx0
    have := hr.2.2 j hj i0 hi0 hlt
    omega
  rw [dcg_eq_disc]
  apply Finset.sum_pos'
  · intro i hi
    apply mul_nonneg _ (disc_nonneg _ _)
    rw [List.getD_eq_getElem _ _ (Finset.mem_range.mp hi)]
    exact ha _ (List.getElem_mem _)
  · refine ⟨i0, Finset.mem_range.mpr hi0, mul_pos hi0pos ?_⟩
    rw [hr0]
    unfold disc
    rw [if_pos (by simpa using hc)]
    exact inv_pos.mpr (logb_pos 0)

end Metrics
end DHG
