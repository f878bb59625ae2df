import Verif.Props.GraphMatrices

/-! # Spectral smoothing with a strength (C66) -/

set_option linter.unusedSectionVars false
set_option autoImplicit false

namespace DHG
namespace Props
open Graph Finset

variable {K : Type} [Field K] [LinearOrder K]

/-- C66. For a square `L` and features with as many rows, `smoothing(X, L, lamb)` is
`X + lamb * L X`. -/
theorem C66_smoothing {n : Nat} {f : Nat → Nat → K} {L : Sp K} (hL : Spec.IsMat n n f L) (X : Dense K)
    (hX : X.rows = n) (lamb : K) :
    ∃ Y, smoothing X L lamb = .ok Y ∧ Y.rows = n ∧ Y.cols = X.cols ∧
      ∀ i c, i < n → Y.at_ i c = X.at_ i c + lamb * ∑ j ∈ range n, f i j * X.at_ j c := by
  obtain ⟨Z, hZ⟩ := Sp.mmD_ok (P := L) (X := X) (by rw [hL.cols, hX])
  have hs := Sp.mmD_shape hZ
  refine ⟨{ X with at_ := fun i c => X.at_ i c + lamb * Z.at_ i c }, ?_, hX, rfl, ?_⟩
  · unfold smoothing
    rw [hZ]
    exact if_pos (by rw [hs.2.1, hL.rows, hX])
  · intro i c hi
    show X.at_ i c + lamb * Z.at_ i c = _
    rw [Sp.mmD_at hZ hL.wf, hL.cols]
    congr 2
    apply sum_congr rfl
    intro j hj
    rw [hL.get i j hi (mem_range.mp hj)]

/-- C66. Features with another number of rows than `L` has columns are refused; so is a matrix `L` that is
not square, unless it has exactly one row or one column. -/
theorem C66_smoothing_raises (X : Dense K) (L : Sp K) (lamb : K)
    (h : L.cols ≠ X.rows ∨ (L.rows ≠ L.cols ∧ L.rows ≠ 1 ∧ L.cols ≠ 1)) :
    smoothing X L lamb = .error .runtime := by
  unfold smoothing
  by_cases hc : L.cols = X.rows
  · obtain ⟨Z, hZ⟩ := Sp.mmD_ok (P := L) (X := X) hc
    have hs := Sp.mmD_shape hZ
    obtain ⟨h1, h2, h3⟩ := h.resolve_left (not_not.2 hc)
    rw [hZ]
    show (if Z.rows = X.rows then _ else if Z.rows = 1 then _ else if X.rows = 1 then _ else _) = _
    rw [if_neg (by rw [hs.2.1, ← hc]; exact h1), if_neg (by rw [hs.2.1]; exact h2),
      if_neg (by rw [← hc]; exact h3)]
  · unfold Sp.mmD
    rw [if_neg hc]
    rfl

/-- C66. Whatever is returned has the columns of the features, and as many rows as they have, unless these
are a single row. -/
theorem C66_smoothing_shape (X : Dense K) (L : Sp K) (lamb : K) (Y : Dense K) (h : smoothing X L lamb = .ok Y) :
    Y.cols = X.cols ∧ (X.rows ≠ 1 → Y.rows = X.rows) ∧ (L.rows = L.cols → Y.rows = X.rows) := by
  by_cases hc : L.cols = X.rows
  · obtain ⟨Z, hZ⟩ := Sp.mmD_ok (P := L) (X := X) hc
    have hs := Sp.mmD_shape hZ
    unfold smoothing at h
    rw [hZ] at h
    change (if Z.rows = X.rows then _ else if Z.rows = 1 then _ else if X.rows = 1 then _ else _) = _ at h
    split at h
    · cases h; exact ⟨rfl, fun _ => rfl, fun _ => rfl⟩
    · next h1 =>
      split at h
      · cases h; exact ⟨rfl, fun _ => rfl, fun _ => rfl⟩
      · split at h
        · next h3 => cases h; exact ⟨rfl, fun h4 => absurd h3 h4, fun h4 => by
            show Z.rows = X.rows
            rw [hs.2.1, h4, hc]⟩
        · cases h
  · rw [C66_smoothing_raises X L lamb (.inl hc)] at h
    cases h

/-- C66. Smoothing with the Laplacian of a graph leaves a constant column unchanged and keeps the
total of every column, whatever the strength. -/
theorem C66_graph_smoothing_laplacian [PyReal K] {g : GSt K} (hg : Built NonNeg g) {n : Nat}
    (hn : (ask .numV g).1 = .ok (.num n)) {L : Sp K} (hL : (ask .L g).1 = .ok (.mat L)) (X : Dense K)
    (hX : X.rows = n) (lamb : K) :
    ∃ Y, smoothing X L lamb = .ok Y ∧
      (∀ c x, (∀ i < n, X.at_ i c = x) → ∀ i < n, Y.at_ i c = x) ∧
      ∀ c, ∑ i ∈ range n, Y.at_ i c = ∑ i ∈ range n, X.at_ i c := by
  obtain ⟨L', hL', hm, hsym, hrow, _⟩ := C08_graph_laplacian hg hn
  rw [hL] at hL'; cases hL'
  have hm' : Spec.IsMat n n L.get L := ⟨hm.rows, hm.cols, hm.wf, fun _ _ _ _ => rfl⟩
  obtain ⟨Y, hY, _, _, hat⟩ := C66_smoothing hm' X hX lamb
  refine ⟨Y, hY, ?_, ?_⟩
  · intro c x hx i hi
    rw [hat i c hi, hx i hi]
    have : ∑ j ∈ range n, L.get i j * X.at_ j c = 0 := by
      rw [sum_congr rfl fun j hj => by rw [hx j (mem_range.mp hj)], ← sum_mul, hrow i hi, zero_mul]
    rw [this, mul_zero, add_zero]
  · intro c
    rw [sum_congr rfl fun i hi => hat i c (mem_range.mp hi), sum_add_distrib, ← mul_sum, sum_comm]
    have : ∑ j ∈ range n, ∑ i ∈ range n, L.get i j * X.at_ j c = 0 := by
      apply sum_eq_zero
      intro j hj
      rw [← sum_mul, sum_congr rfl fun i hi => hsym i j (mem_range.mp hi) (mem_range.mp hj),
        hrow j (mem_range.mp hj), zero_mul]
    rw [this, mul_zero, add_zero]

example : Built NonNeg exG ∧ (ask .numV exG).1 = .ok (.num 3) := ⟨exG_nonneg, rfl⟩

end Props
end DHG
