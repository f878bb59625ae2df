import Verif.HyperMat
import Mathlib.Tactic.Positivity

/-!
# Laplacians and message passing of a `Hypergraph`
-/

set_option linter.unusedSectionVars false
set_option autoImplicit false

namespace DHG

namespace Spec
variable {K : Type} [Field K]

/-- entry of `H W_e D_e^{-1} H^T`: over the listed hyperedges containing both vertices, the sum of
weight divided by size -/
def share (l : List (List Int × K)) (i j : Nat) : K :=
  ∑ k ∈ Finset.range l.length, inc l i k * hWt l k * (hSize l k)⁻¹ * inc l j k

end Spec

namespace Hyper

open Finset

section Alg
variable {K : Type} [Field K]

theorem share_symm (l : List (List Int × K)) (i j : Nat) : Spec.share l i j = Spec.share l j i := by
  unfold Spec.share
  exact sum_congr rfl fun k _ => by ring

end Alg

section Alg2
variable {K : Type} [Field K] [LinearOrder K]

theorem inc_sq (l : List (List Int × K)) (i j : Nat) : Spec.inc l i j * Spec.inc l i j = Spec.inc l i j := by
  unfold Spec.inc; split <;> simp

theorem size_ne_zero [IsStrictOrderedRing K] {l : List (List Int × K)} {i j : Nat}
    (h : (i : Int) ∈ Spec.hAt l j) : Spec.hSize l j ≠ 0 := by
  unfold Spec.hSize
  have : 0 < (Spec.hAt l j).length := List.length_pos_of_mem h
  exact_mod_cast this.ne'

theorem sum_share [IsStrictOrderedRing K] {n : Nat} {l : List (List Int × K)} (h : Rng n l) (i : Nat) :
    ∑ j ∈ range n, Spec.share l i j = Spec.hDeg l i := by
  unfold Spec.share
  rw [sum_comm, ← sum_inc_wt]
  apply sum_congr rfl
  intro k hk
  rw [← mul_sum, sum_inc h (mem_range.1 hk)]
  by_cases hi : (i : Int) ∈ Spec.hAt l k
  · have := size_ne_zero hi
    field_simp
  · unfold Spec.inc; rw [if_neg hi]; simp

theorem hWt_nonneg {l : List (List Int × K)} (h : Spec.HNonneg l) (k : Nat) : 0 ≤ Spec.hWt l k := by
  by_cases hk : k < l.length
  · rw [hWt_of_lt hk]; exact h _ (List.getElem_mem hk)
  · unfold Spec.hWt
    simp [List.getD_eq_getElem?_getD, List.getElem?_eq_none (not_lt.1 hk)]

theorem inc_nonneg [IsStrictOrderedRing K] (l : List (List Int × K)) (i j : Nat) : 0 ≤ Spec.inc l i j := by
  unfold Spec.inc; split
  · exact zero_le_one
  · exact le_refl _

theorem hSize_nonneg [IsStrictOrderedRing K] (l : List (List Int × K)) (j : Nat) : 0 ≤ Spec.hSize l j := by
  unfold Spec.hSize; exact Nat.cast_nonneg _

theorem share_nonneg [IsStrictOrderedRing K] {l : List (List Int × K)} (h : Spec.HNonneg l) (i j : Nat) :
    0 ≤ Spec.share l i j := by
  apply sum_nonneg
  intro k _
  exact mul_nonneg (mul_nonneg (mul_nonneg (inc_nonneg _ _ _) (hWt_nonneg h _))
    (inv_nonneg.2 (hSize_nonneg _ _))) (inc_nonneg _ _ _)

theorem hDeg_nonneg [IsStrictOrderedRing K] {l : List (List Int × K)} (h : Spec.HNonneg l) (i : Nat) :
    0 ≤ Spec.hDeg l i := by
  apply List.sum_nonneg
  intro x hx
  obtain ⟨e, he, rfl⟩ := List.mem_map.1 hx
  split
  · exact h e he
  · exact le_refl _

/-- the quadratic form of `share` as a sum of squares -/
theorem quad_share (n : Nat) (l : List (List Int × K)) (y : Nat → K) :
    ∑ i ∈ range n, ∑ j ∈ range n, y i * Spec.share l i j * y j =
      ∑ k ∈ range l.length, Spec.hWt l k * (Spec.hSize l k)⁻¹ *
        ((∑ i ∈ range n, Spec.inc l i k * y i) * (∑ i ∈ range n, Spec.inc l i k * y i)) := by
  have h1 : ∀ k ∈ range l.length, Spec.hWt l k * (Spec.hSize l k)⁻¹ *
        ((∑ i ∈ range n, Spec.inc l i k * y i) * (∑ i ∈ range n, Spec.inc l i k * y i)) =
      ∑ i ∈ range n, ∑ j ∈ range n,
        y i * (Spec.inc l i k * Spec.hWt l k * (Spec.hSize l k)⁻¹ * Spec.inc l j k) * y j := by
    intro k _
    rw [sum_mul_sum, mul_sum]
    apply sum_congr rfl; intro i _
    rw [mul_sum]
    exact sum_congr rfl fun j _ => by ring
  rw [sum_congr rfl h1]
  symm
  rw [sum_comm]
  apply sum_congr rfl; intro i _
  rw [sum_comm]
  apply sum_congr rfl; intro j _
  unfold Spec.share
  rw [mul_sum, sum_mul]

theorem quad_share_nonneg [IsStrictOrderedRing K] (n : Nat) {l : List (List Int × K)} (h : Spec.HNonneg l)
    (y : Nat → K) : 0 ≤ ∑ i ∈ range n, ∑ j ∈ range n, y i * Spec.share l i j * y j := by
  rw [quad_share]
  apply sum_nonneg
  intro k _
  exact mul_nonneg (mul_nonneg (hWt_nonneg h _) (inv_nonneg.2 (hSize_nonneg _ _))) (mul_self_nonneg _)

theorem sum_hDeg {n : Nat} {l : List (List Int × K)} (h : Rng n l) :
    ∑ i ∈ range n, Spec.hDeg l i = ∑ k ∈ range l.length, Spec.hWt l k * Spec.hSize l k := by
  simp only [← sum_inc_wt]
  rw [sum_comm]
  apply sum_congr rfl
  intro k hk
  rw [← sum_mul, sum_inc h (mem_range.1 hk), mul_comm]

theorem mmChain_append (A : Sp K) (xs ys : List (Sp K)) :
    mmChain A (xs ++ ys) = mmChain A xs >>= fun B => mmChain B ys := by
  induction xs generalizing A with
  | nil => rfl
  | cons x xs ih =>
    simp only [List.cons_append, mmChain]
    cases A.mm x with
    | error e => rfl
    | ok C => exact ih C

theorem chain_spec {n : Nat} {l : List (List Int × K)} {H : Sp K} (hH : IncM n l H) (f : Nat → K) :
    ∃ L, mmChain (Sp.diag ((List.range n).map f)) [H, Sp.diag ((List.range l.length).map (Spec.hWt l)),
        Sp.diag ((List.range l.length).map fun j => (Spec.hSize l j)⁻¹), H.t] = .ok L ∧
      Spec.IsMat n n (fun i j => f i * Spec.share l i j) L := by
  obtain ⟨A1, h1⟩ := Sp.mm_ok (P := Sp.diag ((List.range n).map f)) (Q := H) (by simp [Sp.diag_cols, hH.rows])
  have s1 := Sp.mm_shape h1
  rw [Sp.diag_rows, hH.cols] at s1
  simp only [List.length_map, List.length_range] at s1
  have w1 := (Sp.diag_WF _).mm hH.wf h1
  obtain ⟨A2, h2⟩ := Sp.mm_ok (P := A1) (Q := Sp.diag ((List.range l.length).map (Spec.hWt l)))
    (by simp [Sp.diag_rows, s1.2])
  have s2 := Sp.mm_shape h2
  rw [Sp.diag_cols, s1.1] at s2
  simp only [List.length_map, List.length_range] at s2
  have w2 := w1.mm (Sp.diag_WF _) h2
  obtain ⟨A3, h3⟩ := Sp.mm_ok (P := A2) (Q := Sp.diag ((List.range l.length).map fun j => (Spec.hSize l j)⁻¹))
    (by simp [Sp.diag_rows, s2.2])
  have s3 := Sp.mm_shape h3
  rw [Sp.diag_cols, s2.1] at s3
  simp only [List.length_map, List.length_range] at s3
  have w3 := w2.mm (Sp.diag_WF _) h3
  obtain ⟨A4, h4⟩ := Sp.mm_ok (P := A3) (Q := H.t) (by simp [Sp.t, s3.2, hH.cols])
  have s4 := Sp.mm_shape h4
  rw [s3.1] at s4
  have w4 := w3.mm hH.wf.t h4
  refine ⟨A4, ?_, s4.1, s4.2.trans hH.rows, w4, ?_⟩
  · simp only [mmChain, h1, h2, h3, h4, bind, Except.bind]
  · intro i j hi hj
    rw [Sp.mm_get h4 w3, s3.2]
    unfold Spec.share
    rw [mul_sum]
    apply sum_congr rfl
    intro k hk
    rw [mem_range] at hk
    rw [Sp.get_t, hH.get hj, Sp.mm_diag_get w2 h3 s2.2 i hk, Sp.mm_diag_get w1 h2 s1.2 i hk,
      Sp.diag_mm_get h1 hi, hH.get hi]
    ring

theorem chain_spec' {n : Nat} {l : List (List Int × K)} {H : Sp K} (hH : IncM n l H) (f : Nat → K) :
    ∃ L, mmChain (Sp.diag ((List.range n).map f)) [H, Sp.diag ((List.range l.length).map (Spec.hWt l)),
        Sp.diag ((List.range l.length).map fun j => (Spec.hSize l j)⁻¹), H.t,
        Sp.diag ((List.range n).map f)] = .ok L ∧
      Spec.IsMat n n (fun i j => f i * Spec.share l i j * f j) L := by
  obtain ⟨A, h1, h2⟩ := chain_spec hH f
  obtain ⟨L, hL⟩ := Sp.mm_ok (P := A) (Q := Sp.diag ((List.range n).map f)) (by simp [Sp.diag_rows, h2.cols])
  have hs := Sp.mm_shape hL
  refine ⟨L, ?_, hs.1.trans h2.rows, hs.2.trans (by simp [Sp.diag_cols]), h2.wf.mm (Sp.diag_WF _) hL, ?_⟩
  · have := mmChain_append (Sp.diag ((List.range n).map f)) [H, Sp.diag ((List.range l.length).map (Spec.hWt l)),
        Sp.diag ((List.range l.length).map fun j => (Spec.hSize l j)⁻¹), H.t] [Sp.diag ((List.range n).map f)]
    rw [h1] at this
    simp only [List.cons_append, List.nil_append] at this
    rw [this]
    show mmChain A _ = _
    simp only [mmChain, hL, bind, Except.bind]
  · intro i j hi hj
    rw [Sp.mm_diag_get h2.wf hL h2.cols i hj, h2.get i j hi hj]

variable [PyReal K] {r : HRaw K}

theorem evDvN12_spec [IsStrictOrderedRing K] (hr : Inv r) (hi : InRange r) {sc : Option String}
    (h : Has sc r) (hw : Spec.HNonneg (lstOf sc r)) :
    evDvN12 sc r = .ok (Sp.diag ((List.range r.numV).map fun i => negHalf (Spec.hDeg (lstOf sc r) i))) := by
  simp only [evDvN12, evDv_spec hr hi h, bind, Except.bind]
  rw [Sp.rsqrt_diag, if_pos, List.map_map]
  · rfl
  · intro x hx
    obtain ⟨i, _, rfl⟩ := List.mem_map.1 hx
    exact not_lt.2 (hDeg_nonneg hw i)

theorem evLHGNN_spec [IsStrictOrderedRing K] (hr : Inv r) (hi : InRange r) {sc : Option String}
    (h : Has sc r) (hw : Spec.HNonneg (lstOf sc r)) :
    ∃ L, evLHGNN sc r = .ok L ∧ Spec.IsMat r.numV r.numV (fun i j =>
      negHalf (Spec.hDeg (lstOf sc r) i) * Spec.share (lstOf sc r) i j *
        negHalf (Spec.hDeg (lstOf sc r) j)) L := by
  obtain ⟨H, hH, hT, hI⟩ := evHT_spec hr hi h
  obtain ⟨L, hL, hM⟩ := chain_spec' hI fun i => negHalf (Spec.hDeg (lstOf sc r) i)
  refine ⟨L.coalesce, ?_, hM.rows, hM.cols, hM.wf.coalesce, fun i j h1 h2 => ?_⟩
  · simp only [evLHGNN, evDvN12_spec hr hi h hw, hH, hT, evWe_spec hr h, evDeN1_spec hr hi h, bind,
      Except.bind, hL]
  · rw [Sp.get_coalesce]; exact hM.get i j h1 h2

theorem evLrw_spec (hr : Inv r) (hi : InRange r) {sc : Option String} (h : Has sc r) :
    ∃ L, evLrw sc r = .ok L ∧ Spec.IsMat r.numV r.numV (fun i j =>
      (if i = j then 1 else 0) - (Spec.hDeg (lstOf sc r) i)⁻¹ * Spec.share (lstOf sc r) i j) L := by
  obtain ⟨H, hH, hT, hI⟩ := evHT_spec hr hi h
  obtain ⟨L, hL, hM⟩ := chain_spec hI fun i => (Spec.hDeg (lstOf sc r) i)⁻¹
  refine ⟨Sp.eyeMinus r.numV L, ?_, rfl, rfl, Sp.WF.eyeMinus hM.wf hM.rows hM.cols, fun i j h1 h2 => ?_⟩
  · simp only [evLrw, evDvN1_spec hr hi h, hH, hT, evWe_spec hr h, evDeN1_spec hr hi h, bind,
      Except.bind, hL]
  · rw [Sp.eyeMinus_get, hM.get i j h1 h2]
    by_cases hij : i = j <;> simp [hij, h2]

end Alg2
end Hyper
end DHG
