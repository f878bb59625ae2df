import Verif.GraphMat

/-!
# Degree matrices, Laplacians, powers and message passing of a `Graph`
-/

set_option linter.unusedSectionVars false
set_option autoImplicit false

namespace DHG

open Finset

section Gen
variable {K : Type} [Field K]

theorem getD_map_range (n : Nat) (f : Nat → K) (i : Nat) :
    ((List.range n).map f).getD i 0 = if i < n then f i else 0 := by
  by_cases h : i < n
  · simp [List.getD_eq_getElem?_getD, h]
  · simp [List.getD_eq_getElem?_getD, h]

theorem Sp.diag_range_get (n : Nat) (f : Nat → K) (i j : Nat) :
    (Sp.diag ((List.range n).map f)).get i j = if i = j ∧ i < n then f i else 0 := by
  rw [Sp.diag_get, getD_map_range]
  by_cases h : i = j <;> by_cases h' : i < n <;> simp [h, h']

theorem Sp.diag_rows (v : List K) : (Sp.diag v).rows = v.length := rfl
theorem Sp.diag_cols (v : List K) : (Sp.diag v).cols = v.length := rfl

/-- diagonal times matrix -/
theorem Sp.diag_mm_get {n : Nat} {f : Nat → K} {A R : Sp K}
    (h : (Sp.diag ((List.range n).map f)).mm A = .ok R) {i : Nat} (hi : i < n) (j : Nat) :
    R.get i j = f i * A.get i j := by
  rw [Sp.mm_get h (Sp.diag_WF _)]
  simp only [Sp.diag_cols, List.length_map, List.length_range, Sp.diag_range_get]
  rw [sum_eq_single i]
  · simp [hi]
  · intro b _ hb; rw [if_neg (by omega), zero_mul]
  · intro h'; exact absurd (mem_range.2 hi) h'

/-- matrix times diagonal -/
theorem Sp.mm_diag_get {n : Nat} {f : Nat → K} {A R : Sp K} (hA : A.WF)
    (h : A.mm (Sp.diag ((List.range n).map f)) = .ok R) (hc : A.cols = n) (i : Nat) {j : Nat} (hj : j < n) :
    R.get i j = A.get i j * f j := by
  rw [Sp.mm_get h hA, hc]
  simp only [Sp.diag_range_get]
  rw [sum_eq_single j]
  · simp [hj]
  · intro b _ hb; rw [if_neg (by omega), mul_zero]
  · intro h'; exact absurd (mem_range.2 hj) h'

theorem Sp.diag_mmD_at {n : Nat} {f : Nat → K} {X Y : Dense K}
    (h : (Sp.diag ((List.range n).map f)).mmD X = .ok Y) {i : Nat} (hi : i < n) (c : Nat) :
    Y.at_ i c = f i * X.at_ i c := by
  rw [Sp.mmD_at h (Sp.diag_WF _)]
  simp only [Sp.diag_cols, List.length_map, List.length_range, Sp.diag_range_get]
  rw [sum_eq_single i]
  · simp [hi]
  · intro b _ hb; rw [if_neg (by omega), zero_mul]
  · intro h'; exact absurd (mem_range.2 hi) h'

theorem coalesce_of_sorted {l : Ents K} (h : Ents.Sorted l) : Ents.coalesce l = l :=
  (sorted_coalesce l).ext h (fun k => mem_keys_coalesce l k) (fun i j => get_coalesce l i j)

theorem Sp.mm_sorted {P Q R : Sp K} (h : P.mm Q = .ok R) : Ents.Sorted R.ents := by
  unfold Sp.mm at h
  split at h
  · cases h; exact sorted_coalesce _
  · cases h

theorem Sp.rowIdx_ok {M : Sp K} {v : Nat} (hv : v < M.rows) :
    M.rowIdx (v : Int) = .ok ((M.ents.filter fun e => e.1.1 = v).map fun e => e.1.2) := by
  unfold Sp.rowIdx
  rw [if_pos (by omega), if_pos (by omega)]
  simp

theorem Sp.rowIdx_mem {M : Sp K} {v : Nat} (j : Nat) :
    j ∈ ((M.ents.filter fun e => e.1.1 = v).map fun e => e.1.2) ↔ (v, j) ∈ M.ents.map Prod.fst := by
  simp only [List.mem_map, List.mem_filter, decide_eq_true_eq]
  constructor
  · rintro ⟨e, ⟨he, h1⟩, h2⟩; exact ⟨e, he, Prod.ext h1 h2⟩
  · rintro ⟨e, he, h⟩; exact ⟨e, ⟨he, by rw [h]⟩, by rw [h]⟩

theorem Sp.rowIdx_sorted {M : Sp K} (hM : Ents.Sorted M.ents) (v : Nat) :
    ((M.ents.filter fun e => e.1.1 = v).map fun e => e.1.2).Pairwise (· < ·) := by
  rw [List.pairwise_map]
  have h1 : (M.ents.filter fun e => e.1.1 = v).Pairwise (fun a b => lexLt a.1 b.1) := by
    have : M.ents.Pairwise (fun a b => lexLt a.1 b.1) := List.pairwise_map.1 hM
    exact this.sublist List.filter_sublist
  refine h1.imp_of_mem ?_
  intro a b ha hb hab
  simp only [List.mem_filter, decide_eq_true_eq] at ha hb
  unfold lexLt at hab
  omega

end Gen

namespace Graph

section Lists
variable {K : Type} [Field K]

/-- a listing with all weights multiplied -/
theorem wt_nonneg [LinearOrder K] [IsStrictOrderedRing K] {l : List ((Int × Int) × K)}
    (h : Spec.NonnegWeights l) (i j : Int) : 0 ≤ Spec.wt l i j := by
  apply List.sum_nonneg
  intro x hx
  obtain ⟨e, he, rfl⟩ := List.mem_map.1 hx
  split
  · exact h e he
  · exact le_refl _

theorem deg_nonneg [LinearOrder K] [IsStrictOrderedRing K] {l : List ((Int × Int) × K)}
    (h : Spec.NonnegWeights l) (i : Int) : 0 ≤ Spec.deg l i := by
  apply List.sum_nonneg
  intro x hx
  obtain ⟨e, he, rfl⟩ := List.mem_map.1 hx
  split
  · exact h e he
  · exact le_refl _

theorem NonnegWeights.proper [LinearOrder K] {l : List ((Int × Int) × K)}
    (h : Spec.NonnegWeights l) : Spec.NonnegWeights (Spec.proper l) := by
  intro e he
  exact h e (List.mem_filter.1 he).1

theorem wt_proper_self (l : List ((Int × Int) × K)) (i : Int) : Spec.wt (Spec.proper l) i i = 0 := by
  unfold Spec.wt
  apply List.sum_eq_zero
  intro x hx
  obtain ⟨e, he, rfl⟩ := List.mem_map.1 hx
  have := (List.mem_filter.1 he).2
  simp only [ne_eq, decide_eq_true_eq] at this
  rw [if_neg]
  rintro (h | h) <;> exact this (by rw [h])

theorem wt_proper_of_ne (l : List ((Int × Int) × K)) {i j : Int} (hij : i ≠ j) :
    Spec.wt (Spec.proper l) i j = Spec.wt l i j := by
  induction l with
  | nil => rfl
  | cons e l ih =>
    unfold Spec.proper at ih ⊢
    rw [List.filter_cons]
    by_cases h : e.1.1 = e.1.2
    · simp only [h, ne_eq, not_true_eq_false, decide_false, Bool.false_eq_true, if_false]
      rw [ih, wt_cons, if_neg, zero_add]
      rintro (h' | h') <;> rw [h'] at h <;> simp only at h <;> omega
    · simp only [h, ne_eq, not_false_eq_true, decide_true, if_true]
      rw [wt_cons, wt_cons, ih]

theorem wt_eq_zero_of_not_adj {l : List ((Int × Int) × K)} {i j : Nat} (h : ¬ Spec.Adj l i j) :
    Spec.wt l (i : Int) (j : Int) = 0 := by
  apply List.sum_eq_zero
  intro x hx
  obtain ⟨e, he, rfl⟩ := List.mem_map.1 hx
  rw [if_neg]
  intro h'
  exact h ⟨e, he, h'⟩

theorem Adj.symm {l : List ((Int × Int) × K)} {i j : Nat} (h : Spec.Adj l i j) : Spec.Adj l j i := by
  obtain ⟨e, he, h⟩ := h
  exact ⟨e, he, h.symm⟩

end Lists

theorem Walk.trans_one {R : Nat → Nat → Prop} {k i j l : Nat} (h : R i j) (w : Spec.Walk R k j l) :
    Spec.Walk R (k + 1) i l := by
  induction w with
  | one h' => exact .step (.one h) h'
  | step _ h' ih => exact .step (ih h) h'

theorem Walk.symm {R : Nat → Nat → Prop} (hR : ∀ i j, R i j → R j i) {k i j : Nat}
    (w : Spec.Walk R k i j) : Spec.Walk R k j i := by
  induction w with
  | one h => exact .one (hR _ _ h)
  | step _ h ih => exact Walk.trans_one (hR _ _ h) ih

variable {K : Type} [Field K] [LinearOrder K]

/-- structural power pattern -/
theorem powLoop_spec {A : Sp K} {n : Nat} (hr : A.rows = n) (hc : A.cols = n) (hA : A.WF)
    {R : Nat → Nat → Prop} (hR : ∀ i j, (i, j) ∈ A.ents.map Prod.fst ↔ R i j) :
    ∀ (m k : Nat) (Ak : Sp K), Ak.rows = n → Ak.cols = n → Ak.WF → Ents.Sorted Ak.ents →
      (∀ i j, (i, j) ∈ Ak.ents.map Prod.fst ↔ Spec.Walk R k i j) → 1 ≤ k →
      ∃ M, powLoop m Ak A = .ok M ∧ M.rows = n ∧ M.cols = n ∧ M.WF ∧ Ents.Sorted M.ents ∧
        ∀ i j, (i, j) ∈ M.ents.map Prod.fst ↔ Spec.Walk R (k + m) i j := by
  intro m
  induction m with
  | zero =>
    intro k Ak h1 h2 h3 h4 h5 _
    exact ⟨Ak, rfl, h1, h2, h3, h4, h5⟩
  | succ m ih =>
    intro k Ak h1 h2 h3 h4 h5 hk
    obtain ⟨Ak', hm⟩ := Sp.mm_ok (P := Ak) (Q := A) (by rw [h2, hr])
    have hs := Sp.mm_shape hm
    obtain ⟨M, hM, r1, r2, r3, r4, r5⟩ := ih (k + 1) Ak' (by rw [hs.1, h1]) (by rw [hs.2, hc])
      (h3.mm hA hm) (Sp.mm_sorted hm) (by
        intro i j
        rw [Sp.mm_keys hm]
        constructor
        · rintro ⟨t, ht1, ht2⟩
          exact .step ((h5 i t).1 ht1) ((hR t j).1 ht2)
        · intro w
          cases w with
          | one h => omega
          | step w h => exact ⟨_, (h5 _ _).2 w, (hR _ _).2 h⟩) (by omega)
    refine ⟨M, ?_, r1, r2, r3, r4, ?_⟩
    · unfold powLoop
      rw [hm]; exact hM
    · intro i j
      rw [r5, show k + 1 + m = k + (m + 1) by omega]

variable [PyReal K]

theorem evApow_spec {r : GRaw K} (hr : Inv r) (hp : Pos r) (k : Nat) (hk : 1 ≤ k) :
    ∃ M, evApow k r = .ok M ∧ M.rows = r.numV ∧ M.cols = r.numV ∧ M.WF ∧ Ents.Sorted M.ents ∧
      ∀ i j, (i, j) ∈ M.ents.map Prod.fst ↔ Spec.Walk (Spec.Adj (lst r)) k i j := by
  obtain ⟨A, hA, h⟩ := evA_spec hr hp
  unfold evApow
  rw [hA]
  obtain ⟨M, hM, h1, h2, h3, h4, h5⟩ := powLoop_spec h.rows h.cols h.wf h.keys (k - 1) 1 A h.rows h.cols
    h.wf h.sorted (by
      intro i j
      rw [h.keys]
      constructor
      · exact .one
      · intro w
        cases w with
        | one h => exact h
        | step w h =>
          exfalso
          cases w) (le_refl _)
  refine ⟨M, hM, h1, h2, h3, h4, ?_⟩
  intro i j
  rw [h5, show 1 + (k - 1) = k by omega]

/-- degrees -/
def degs (r : GRaw K) (i : Nat) : K := Spec.deg (lst r) (i : Int)

theorem evDv_spec {r : GRaw K} (hr : Inv r) (hp : Pos r) :
    evDv r = .ok (Sp.diag ((List.range r.numV).map (degs r))) := by
  obtain ⟨A, hA, h⟩ := evA_spec hr hp
  unfold evDv
  rw [hA]
  show Except.ok _ = _
  rw [rowSum_of_IsA hr hp h]
  rfl

theorem evDvN1_spec {r : GRaw K} (hr : Inv r) (hp : Pos r) :
    evDvN1 r = .ok (Sp.diag ((List.range r.numV).map fun i => (degs r i)⁻¹)) := by
  unfold evDvN1
  rw [evDv_spec hr hp]
  show Except.ok _ = _
  unfold Sp.inv
  rw [Sp.diag_mapVals, List.map_map]
  rfl

theorem evDvN12_spec {r : GRaw K} (hr : Inv r) (hp : Pos r) (h0 : ∀ i, i < r.numV → ¬ degs r i < 0) :
    evDvN12 r = .ok (Sp.diag ((List.range r.numV).map fun i => negHalf (degs r i))) := by
  unfold evDvN12
  rw [evDv_spec hr hp]
  show Sp.rsqrt _ = _
  rw [Sp.rsqrt_diag, if_pos, List.map_map]
  · rfl
  · intro x hx
    obtain ⟨i, hi, rfl⟩ := List.mem_map.1 hx
    exact h0 i (List.mem_range.1 hi)

theorem evL_spec {r : GRaw K} (hr : Inv r) (hp : Pos r) :
    ∃ M, evL r = .ok M ∧ Spec.IsMat r.numV r.numV (fun i j => (if i = j then Spec.deg (Spec.proper (lst r)) (i : Int) else 0) -
      Spec.wt (Spec.proper (lst r)) (i : Int) (j : Int)) M := by
  obtain ⟨A, hA, h⟩ := evA_spec hr.noLoops hp.noLoops
  unfold evL
  rw [evDv_spec hr.noLoops hp.noLoops, hA]
  have hn : (noLoops r).numV = r.numV := rfl
  have : ∃ M, (Sp.diag ((List.range r.numV).map (degs (noLoops r)))).sub A = .ok M := by
    unfold Sp.sub
    rw [if_pos]
    · exact ⟨_, rfl⟩
    · simp [Sp.diag_rows, Sp.diag_cols, h.rows, h.cols, hn]
  obtain ⟨M, hM⟩ := this
  refine ⟨M, hM, ?_⟩
  have hsh : M.rows = r.numV ∧ M.cols = r.numV := by
    unfold Sp.sub at hM
    split at hM
    · cases hM; simp [Sp.diag]
    · cases hM
  refine ⟨hsh.1, hsh.2, (Sp.diag_WF _).sub h.wf hM, ?_⟩
  intro i j hi hj
  rw [Sp.sub_get hM, Sp.diag_range_get, h.get, lst_noLoops hr]
  unfold degs
  rw [lst_noLoops hr]
  by_cases hij : i = j <;> simp [hij, hi, hj]

theorem evLrw_spec {r : GRaw K} (hr : Inv r) (hp : Pos r) :
    ∃ M, evLrw r = .ok M ∧ Spec.IsMat r.numV r.numV (fun i j => (if i = j then 1 else 0) -
      (Spec.deg (Spec.proper (lst r)) (i : Int))⁻¹ *
      Spec.wt (Spec.proper (lst r)) (i : Int) (j : Int)) M := by
  obtain ⟨A, hA, h⟩ := evA_spec hr.noLoops hp.noLoops
  unfold evLrw
  rw [evDvN1_spec hr.noLoops hp.noLoops, hA]
  have hn : (noLoops r).numV = r.numV := rfl
  obtain ⟨L, hL⟩ := Sp.mm_ok (P := Sp.diag ((List.range (noLoops r).numV).map
    fun i => (degs (noLoops r) i)⁻¹)) (Q := A) (by simp [Sp.diag_cols, h.rows])
  have hs := Sp.mm_shape hL
  rw [h.cols, Sp.diag_rows] at hs
  simp only [List.length_map, List.length_range] at hs
  refine ⟨Sp.eyeMinus r.numV L, ?_, rfl, rfl, ?_, ?_⟩
  · simp only [bind, Except.bind]; rw [hL]
  · exact Sp.WF.eyeMinus ((Sp.diag_WF _).mm h.wf hL) hs.1 hs.2
  · intro i j hi hj
    rw [Sp.eyeMinus_get, Sp.diag_mm_get hL (hn ▸ hi), h.get, lst_noLoops hr]
    unfold degs
    rw [lst_noLoops hr]
    by_cases hij : i = j <;> simp [hij, hj]

theorem evNormA_spec {r : GRaw K} (hr : Inv r) (hp : Pos r) (h0 : ∀ i, i < r.numV → ¬ degs r i < 0) :
    ∃ M, evNormA r = .ok M ∧ Ents.Sorted M.ents ∧ Spec.IsMat r.numV r.numV (fun i j => negHalf (degs r i) *
      Spec.wt (lst r) (i : Int) (j : Int) * negHalf (degs r j)) M := by
  obtain ⟨A, hA, h⟩ := evA_spec hr hp
  unfold evNormA
  rw [evDvN12_spec hr hp h0, hA]
  obtain ⟨L, hL⟩ := Sp.mm_ok (P := Sp.diag ((List.range r.numV).map
    fun i => negHalf (degs r i))) (Q := A) (by simp [Sp.diag_cols, h.rows])
  have hs := Sp.mm_shape hL
  rw [h.cols, Sp.diag_rows] at hs
  simp only [List.length_map, List.length_range] at hs
  obtain ⟨M, hM⟩ := Sp.mm_ok (P := L) (Q := Sp.diag ((List.range r.numV).map
    fun i => negHalf (degs r i))) (by simp [Sp.diag_rows, hs.2])
  have hs' := Sp.mm_shape hM
  have hLw := (Sp.diag_WF _).mm h.wf hL
  refine ⟨M, ?_, Sp.mm_sorted hM, ⟨hs'.1.trans hs.1, hs'.2.trans (by simp [Sp.diag_cols]),
    hLw.mm (Sp.diag_WF _) hM, ?_⟩⟩
  · simp only [bind, Except.bind]; rw [hL]; exact hM
  · intro i j hi hj
    rw [Sp.mm_diag_get hLw hM hs.2 i hj, Sp.diag_mm_get hL hi, h.get]

variable [IsStrictOrderedRing K]

theorem negHalf_invSqrt {d : K} (h : 0 ≤ d) : Spec.InvSqrt d (negHalf d) := by
  unfold negHalf
  constructor
  · intro h'; rw [if_pos h']
  · intro h'
    rw [if_neg h']
    have hd : 0 < d := lt_of_le_of_ne h (Ne.symm h')
    exact ⟨PyReal.rsqrt_pos d hd, by rw [PyReal.rsqrt_sq d hd, inv_mul_cancel₀ h']⟩

theorem InvSqrt.unique {d s s' : K} (h : Spec.InvSqrt d s) (h' : Spec.InvSqrt d s') : s = s' := by
  by_cases hd : d = 0
  · rw [h.1 hd, h'.1 hd]
  · obtain ⟨p, e⟩ := h.2 hd
    obtain ⟨p', e'⟩ := h'.2 hd
    have : s * s = s' * s' := mul_right_cancel₀ hd (e.trans e'.symm)
    exact (mul_self_inj p.le p'.le).1 this

theorem InvSqrt.sq_mul_le {d s : K} (h : Spec.InvSqrt d s) : s * s * d ≤ 1 := by
  by_cases hd : d = 0
  · rw [hd, mul_zero]; exact zero_le_one
  · exact (h.2 hd).2.le

end Graph
end DHG
