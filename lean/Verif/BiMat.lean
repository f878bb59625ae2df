import Verif.OrderedRaw
import Verif.GraphMat2

/-!
# The block matrix `BiGraph.A` and `BiGraph.L_GCN`
-/

set_option linter.unusedSectionVars false
set_option autoImplicit false

namespace DHG
open Finset
open Graph (lst)

variable {K : Type} [Field K] [LinearOrder K]

omit [LinearOrder K] in
theorem Ents.get_shift (l : Ents K) (a b i j : Nat) :
    Ents.get (l.map fun e => ((e.1.1 + a, e.1.2 + b), e.2)) i j =
      if a ≤ i ∧ b ≤ j then Ents.get l (i - a) (j - b) else 0 := by
  induction l with
  | nil => simp
  | cons e l ih =>
    rw [List.map_cons, Ents.get_cons, ih]
    obtain ⟨⟨p, q⟩, x⟩ := e
    by_cases h : a ≤ i ∧ b ≤ j
    · rw [if_pos h, if_pos h, Ents.get_cons]
      congr 1
      simp only [Prod.mk.injEq]
      by_cases h1 : p + a = i ∧ q + b = j
      · rw [if_pos h1, if_pos (by omega)]
      · rw [if_neg h1, if_neg (by omega)]
    · rw [if_neg h, if_neg h, add_zero, if_neg]
      simp only [Prod.mk.injEq]; omega

theorem WF_get_row {M : Sp K} (h : M.WF) {i : Nat} (hi : M.rows ≤ i) (j : Nat) : M.get i j = 0 := by
  apply Ents.get_eq_zero
  intro hm
  obtain ⟨e, he, h1⟩ := List.mem_map.1 hm
  have := (h e he).1
  rw [h1] at this
  simp only at this
  omega

theorem WF_get_col {M : Sp K} (h : M.WF) {j : Nat} (hj : M.cols ≤ j) (i : Nat) : M.get i j = 0 := by
  apply Ents.get_eq_zero
  intro hm
  obtain ⟨e, he, h1⟩ := List.mem_map.1 hm
  have := (h e he).2
  rw [h1] at this
  simp only at this
  omega

namespace Ord

/-- the entries of the block matrix `[[0, B], [B_T, 0]]` -/
def block (nu : Nat) (l : List ((Int × Int) × K)) (i j : Nat) : K :=
  if i < nu ∧ nu ≤ j then Spec.O.wt l (i : Int) ((j - nu : Nat) : Int)
  else if nu ≤ i ∧ j < nu then Spec.O.wt l (j : Int) ((i - nu : Nat) : Int) else 0

theorem evA_spec {r : GRaw K} (h : Fits .bi r) :
    ∃ A, evA r = .ok A ∧
      Spec.IsMat (r.numU + r.numV) (r.numU + r.numV) (block r.numU (lst r)) A := by
  obtain ⟨B, hB, hb⟩ := evM_spec h
  obtain ⟨BT, hBT, hbt⟩ := evMT_spec h
  have hbr : B.rows = r.numU := hb.rows
  have hbc : B.cols = r.numV := hb.cols
  have htr : BT.rows = r.numV := hbt.rows
  have htc : BT.cols = r.numU := hbt.cols
  unfold evA
  rw [hB, hBT]
  simp only [bind, Except.bind, Sp.hcat, Sp.empty, hbr, htr, if_true]
  simp only [Sp.vcat, hbc, htc]
  simp only [if_true]
  refine ⟨_, rfl, rfl, rfl, ?_, ?_⟩
  · apply Sp.WF.coalesce
    intro e he
    simp only [List.nil_append, List.map_nil, List.append_nil] at he
    rcases List.mem_append.1 he with he | he
    · obtain ⟨e', he', rfl⟩ := List.mem_map.1 he
      have := hb.wf e' he'
      rw [hbr, hbc] at this
      simp only; omega
    · obtain ⟨e', he', rfl⟩ := List.mem_map.1 he
      have := hbt.wf e' he'
      rw [htr, htc] at this
      simp only; omega
  · intro i j hi hj
    rw [Sp.get_coalesce]
    unfold Sp.get
    simp only [List.nil_append, List.map_nil, List.append_nil]
    rw [Ents.get_append]
    have e1 := Ents.get_shift B.ents 0 r.numU i j
    have e2 := Ents.get_shift BT.ents r.numU 0 i j
    simp only [Nat.add_zero, Nat.zero_le, true_and, and_true, Nat.sub_zero] at e1 e2
    rw [e1, e2]
    have b1 := hb.get i (j - r.numU)
    have b2 := hbt.get (i - r.numU) j
    unfold Sp.get at b1 b2
    unfold block
    by_cases hiu : i < r.numU
    · have : ¬ r.numU ≤ i := by omega
      by_cases hju : r.numU ≤ j
      · simp only [hiu, hju, this, and_self, if_true, if_false, add_zero]
        rw [b1]
      · simp [hju, this]
    · have hiu' : r.numU ≤ i := by omega
      have z1 : Ents.get B.ents i (j - r.numU) = 0 := WF_get_row hb.wf (by omega) _
      rw [z1]
      simp only [ite_self, zero_add, hiu, false_and, if_false, hiu', if_true, true_and]
      by_cases hju : j < r.numU
      · rw [if_pos hju, b2, wt_sw]
      · rw [if_neg hju]
        exact WF_get_col hbt.wf (by omega) _

variable [PyReal K]

theorem gcnOf_spec {n : Nat} {A : Sp K} {f : Nat → Nat → K} (h : Spec.IsMat n n f A)
    (h0 : ∀ i, i < n → ¬ (∑ j ∈ range n, f i j) + 1 < 0) :
    ∃ L, BiGraph.gcnOf n A = .ok L ∧ Spec.IsMat n n (fun i j =>
      negHalf ((∑ k ∈ range n, f i k) + 1) * (f i j + if i = j then 1 else 0) *
      negHalf ((∑ k ∈ range n, f j k) + 1)) L := by
  set A' : Sp K := Sp.coalesce { rows := n, cols := n
                                 ents := A.ents ++ (List.range n).map fun i : Nat => ((i, i), 1) } with hA'
  have hwf : A'.WF := by
    apply Sp.WF.coalesce
    intro e he
    rcases List.mem_append.1 he with he | he
    · have := h.wf e he
      rw [h.rows, h.cols] at this
      exact this
    · obtain ⟨i, hi, rfl⟩ := List.mem_map.1 he
      have := List.mem_range.1 hi
      exact ⟨this, this⟩
  have hget : ∀ i j, i < n → j < n → A'.get i j = f i j + if i = j then 1 else 0 := by
    intro i j hi hj
    rw [hA', Sp.get_coalesce]
    unfold Sp.get
    simp only
    rw [Ents.get_append, Ents.get_range_one]
    have := h.get i j hi hj
    unfold Sp.get at this
    rw [this]
    simp [hi]
  have hrow : A'.rowSum = (List.range n).map fun i => (∑ k ∈ range n, f i k) + 1 := by
    apply List.ext_getElem
    · rw [Sp.rowSum_length]; simp [hA', Sp.coalesce]
    · intro i h1 h2
      have hi : i < n := by simpa using h2
      rw [Sp.rowSum_getElem hwf, List.getElem_map, List.getElem_range]
      show ∑ j ∈ range n, A'.get i j = _
      rw [sum_congr rfl fun j hj => hget i j hi (mem_range.1 hj), sum_add_distrib]
      congr 1
      simp [hi]
  unfold BiGraph.gcnOf
  simp only
  rw [← hA', hrow, Sp.rsqrt_diag, if_pos]
  swap
  · intro x hx
    obtain ⟨i, hi, rfl⟩ := List.mem_map.1 hx
    exact h0 i (List.mem_range.1 hi)
  rw [List.map_map]
  obtain ⟨L, hL⟩ := Sp.mm_ok (P := Sp.diag ((List.range n).map
    fun i => negHalf ((∑ k ∈ range n, f i k) + 1))) (Q := A') (by simp [Sp.diag_cols, hA', Sp.coalesce])
  have hs := Sp.mm_shape hL
  have hcols : A'.cols = n := rfl
  rw [hcols, Sp.diag_rows] at hs
  simp only [List.length_map, List.length_range] at hs
  obtain ⟨M, hM⟩ := Sp.mm_ok (P := L) (Q := Sp.diag ((List.range n).map
    fun i => negHalf ((∑ k ∈ range n, f i k) + 1))) (by simp [Sp.diag_rows, hs.2])
  have hs' := Sp.mm_shape hM
  have hLw := (Sp.diag_WF _).mm hwf hL
  refine ⟨M.coalesce, ?_, hs'.1.trans hs.1, hs'.2.trans (by simp [Sp.diag_cols]),
    (hLw.mm (Sp.diag_WF _) hM).coalesce, ?_⟩
  · simp only [bind, Except.bind, Function.comp_def]; rw [hL]; simp only []; rw [hM]
  · intro i j hi hj
    rw [Sp.get_coalesce, Sp.mm_diag_get hLw hM hs.2 i hj, Sp.diag_mm_get hL hi, hget i j hi hj]

end Ord
end DHG
