import Verif.Props.DropSpread

/-!
# How far dropout is from its mean, in directed and bipartite graphs (C138)
-/

set_option linter.unusedSectionVars false
set_option autoImplicit false

open MeasureTheory ProbabilityTheory

namespace DHG
namespace Props
namespace Law

variable {Ω : Type} [MeasurableSpace Ω] {P : Measure Ω} [IsProbabilityMeasure P] {ρ : Nat → Ω → ℝ}

/-- a query that is the product with a dropped matrix: mean and variance -/
theorem spread_call (h : Spec.UniformDraws P ρ) {p : ℝ} (h0 : 0 ≤ p) (h1 : p ≤ 1) {call : ℝ → (Nat → Bool) → Except Err (GAns ℝ)}
    {M : Sp ℝ} (hM : M.WF) {X : Dense ℝ} (hX : M.cols = X.rows)
    (hc : ∀ q k, call q k = (Graph.evDrop M q k >>= fun N => N.mmD X).map GAns.feat) :
    ∃ (Y : Dense ℝ) (Z : Ω → Dense ℝ), call 0 (fun _ => true) = .ok (.feat Y) ∧
      (∀ ω, call p (fun i => decide (ρ i ω < 1 - p)) = .ok (.feat (Z ω))) ∧ Spec.MeanShare P (1 - p) Z Y ∧
      Spec.SquaredDistance P (1 - p) Z Y fun i c => p * (1 - p) * ∑ j ∈ Finset.range M.cols, (M.get i j * X.at_ j c) ^ 2 := by
  obtain ⟨Y, hY⟩ : ∃ Y, M.mmD X = .ok Y := by
    unfold Sp.mmD
    rw [if_pos hX]
    exact ⟨_, rfl⟩
  have hY' : (Graph.evDrop M 0 (fun _ => true) >>= fun N => N.mmD X) = .ok Y := by
    rw [evDrop_zero]; exact hY
  obtain ⟨Z, hZ, hm⟩ := share_sum h h0 h1 (eP := .ok M) (X := X) (Y := Y) (k := fun _ => true) hY'
  refine ⟨Y, Z, ?_, fun ω => ?_, hm, spread_drop h h0 h1 hM hY fun ω => hZ ω⟩
  · rw [hc, hY']; rfl
  · rw [hc]
    have := hZ ω
    change (Graph.evDrop M p (mask ρ p ω) >>= fun N => N.mmD X) = .ok (Z ω) at this
    show (Graph.evDrop M p (mask ρ p ω) >>= fun N => N.mmD X).map GAns.feat = _
    rw [this]; rfl

end Law

open Law
open Graph (NonNeg)

variable {Ω : Type} [MeasurableSpace Ω] {P : Measure Ω} [IsProbabilityMeasure P] {ρ : Nat → Ω → ℝ}

theorem map_mat {x : Except Err (Sp ℝ)} {M : Sp ℝ} (h : x.map GAns.mat = .ok (.mat M)) : x = .ok M := by
  rcases x with e | M'
  · cases h
  · cases h; rfl

/-- C138 (DiGraph). The variance of summed messages with dropout against the edges (`dst2src`). -/
theorem C138_digraph_dst2src_variance (h : Spec.UniformDraws P ρ) {p : ℝ} (h0 : 0 ≤ p) (h1 : p ≤ 1) {w : Bool} {g : DSt ℝ}
    (hg : DiGraph.Built NonNeg w g) {n : Nat} (hn : (DiGraph.ask .numV g).1 = .ok (.num n)) {A : Sp ℝ}
    (hA : (DiGraph.ask .A g).1 = .ok (.mat A)) (X : Dense ℝ) (hX : X.rows = n) :
    ∃ (Y : Dense ℝ) (Z : Ω → Dense ℝ), (DiGraph.ask (.v2v X .sum none .dst2src 0 fun _ => true) g).1 = .ok (.feat Y) ∧
      (∀ ω, (DiGraph.ask (.v2v X .sum none .dst2src p fun i => decide (ρ i ω < 1 - p)) g).1 = .ok (.feat (Z ω))) ∧
      Spec.MeanShare P (1 - p) Z Y ∧
      Spec.SquaredDistance P (1 - p) Z Y fun i c => p * (1 - p) * ∑ j ∈ Finset.range n, (A.get i j * X.at_ j c) ^ 2 := by
  obtain ⟨A', AT, hA', -, hI, -⟩ := C23_digraph_adjacency hg hn
  rw [hA] at hA'; cases hA'
  rw [hg.ask] at hA
  have hAe : Ord.evM .di g.raw = .ok A := map_mat hA
  have := spread_call h h0 h1 (call := fun q k => (DiGraph.ask (.v2v X .sum none .dst2src q k) g).1) hI.wf (X := X)
    (hI.cols.trans hX.symm) fun q k => by
      rw [hg.ask]
      show (Ord.evM .di g.raw >>= fun M => Graph.evDrop M q k >>= fun N => N.mmD X).map GAns.feat = _
      rw [hAe]; rfl
  rw [hI.cols] at this
  exact this

/-- C138 (DiGraph). The same along the edges (`src2dst`), with the transposed matrix. -/
theorem C138_digraph_src2dst_variance (h : Spec.UniformDraws P ρ) {p : ℝ} (h0 : 0 ≤ p) (h1 : p ≤ 1) {w : Bool} {g : DSt ℝ}
    (hg : DiGraph.Built NonNeg w g) {n : Nat} (hn : (DiGraph.ask .numV g).1 = .ok (.num n)) {AT : Sp ℝ}
    (hA : (DiGraph.ask .AT g).1 = .ok (.mat AT)) (X : Dense ℝ) (hX : X.rows = n) :
    ∃ (Y : Dense ℝ) (Z : Ω → Dense ℝ), (DiGraph.ask (.v2v X .sum none .src2dst 0 fun _ => true) g).1 = .ok (.feat Y) ∧
      (∀ ω, (DiGraph.ask (.v2v X .sum none .src2dst p fun i => decide (ρ i ω < 1 - p)) g).1 = .ok (.feat (Z ω))) ∧
      Spec.MeanShare P (1 - p) Z Y ∧
      Spec.SquaredDistance P (1 - p) Z Y fun i c => p * (1 - p) * ∑ j ∈ Finset.range n, (AT.get i j * X.at_ j c) ^ 2 := by
  obtain ⟨A, A', -, hA', -, hI, -⟩ := C23_digraph_adjacency hg hn
  rw [hA] at hA'; cases hA'
  rw [hg.ask] at hA
  have hAe : Ord.evMT .di g.raw = .ok AT := map_mat hA
  have := spread_call h h0 h1 (call := fun q k => (DiGraph.ask (.v2v X .sum none .src2dst q k) g).1) hI.wf (X := X)
    (hI.cols.trans hX.symm) fun q k => by
      rw [hg.ask]
      show (Ord.evMT .di g.raw >>= fun M => Graph.evDrop M q k >>= fun N => N.mmD X).map GAns.feat = _
      rw [hAe]; rfl
  rw [hI.cols] at this
  exact this

/-- C138 (BiGraph). The variance of `v2u` with sums and dropout. -/
theorem C138_bigraph_v2u_variance (h : Spec.UniformDraws P ρ) {p : ℝ} (h0 : 0 ≤ p) (h1 : p ≤ 1) {g : BSt ℝ}
    (hg : BiGraph.Built NonNeg g) {m n : Nat} (hm : (BiGraph.ask .numU g).1 = .ok (.num m))
    (hn : (BiGraph.ask .numV g).1 = .ok (.num n)) (hx : Spec.Bipartite m n g) {B : Sp ℝ}
    (hB : (BiGraph.ask .B g).1 = .ok (.mat B)) (X : Dense ℝ) (hX : X.rows = n) :
    ∃ (Y : Dense ℝ) (Z : Ω → Dense ℝ), (BiGraph.ask (.v2u X .sum none 0 fun _ => true) g).1 = .ok (.feat Y) ∧
      (∀ ω, (BiGraph.ask (.v2u X .sum none p fun i => decide (ρ i ω < 1 - p)) g).1 = .ok (.feat (Z ω))) ∧
      Spec.MeanShare P (1 - p) Z Y ∧
      Spec.SquaredDistance P (1 - p) Z Y fun i c => p * (1 - p) * ∑ j ∈ Finset.range n, (B.get i j * X.at_ j c) ^ 2 := by
  obtain ⟨B', BT, hB', -, hI, -⟩ := C25_bigraph_incidence hg hm hn hx
  rw [hB] at hB'; cases hB'
  rw [hg.ask] at hB
  have hBe : Ord.evM .bi g.raw = .ok B := map_mat hB
  have := spread_call h h0 h1 (call := fun q k => (BiGraph.ask (.v2u X .sum none q k) g).1) hI.wf (X := X)
    (hI.cols.trans hX.symm) fun q k => by
      rw [hg.ask]
      show (Ord.evM .bi g.raw >>= fun M => Graph.evDrop M q k >>= fun N => N.mmD X).map GAns.feat = _
      rw [hBe]; rfl
  rw [hI.cols] at this
  exact this

/-- C138 (BiGraph). The variance of `u2v` with sums and dropout. -/
theorem C138_bigraph_u2v_variance (h : Spec.UniformDraws P ρ) {p : ℝ} (h0 : 0 ≤ p) (h1 : p ≤ 1) {g : BSt ℝ}
    (hg : BiGraph.Built NonNeg g) {m n : Nat} (hm : (BiGraph.ask .numU g).1 = .ok (.num m))
    (hn : (BiGraph.ask .numV g).1 = .ok (.num n)) (hx : Spec.Bipartite m n g) {BT : Sp ℝ}
    (hB : (BiGraph.ask .BT g).1 = .ok (.mat BT)) (X : Dense ℝ) (hX : X.rows = m) :
    ∃ (Y : Dense ℝ) (Z : Ω → Dense ℝ), (BiGraph.ask (.u2v X .sum none 0 fun _ => true) g).1 = .ok (.feat Y) ∧
      (∀ ω, (BiGraph.ask (.u2v X .sum none p fun i => decide (ρ i ω < 1 - p)) g).1 = .ok (.feat (Z ω))) ∧
      Spec.MeanShare P (1 - p) Z Y ∧
      Spec.SquaredDistance P (1 - p) Z Y fun i c => p * (1 - p) * ∑ j ∈ Finset.range m, (BT.get i j * X.at_ j c) ^ 2 := by
  obtain ⟨B, B', -, hB', -, hI, -⟩ := C25_bigraph_incidence hg hm hn hx
  rw [hB] at hB'; cases hB'
  rw [hg.ask] at hB
  have hBe : Ord.evMT .bi g.raw = .ok BT := map_mat hB
  have := spread_call h h0 h1 (call := fun q k => (BiGraph.ask (.u2v X .sum none q k) g).1) hI.wf (X := X)
    (hI.cols.trans hX.symm) fun q k => by
      rw [hg.ask]
      show (Ord.evMT .bi g.raw >>= fun M => Graph.evDrop M q k >>= fun N => N.mmD X).map GAns.feat = _
      rw [hBe]; rfl
  rw [hI.cols] at this
  exact this

/-- C138 (BiGraph). The variance of `smoothing_with_GCN` with dropout. -/
theorem C138_bigraph_smoothing_variance (h : Spec.UniformDraws P ρ) {p : ℝ} (h0 : 0 ≤ p) (h1 : p ≤ 1) {g : BSt ℝ}
    (hg : BiGraph.Built NonNeg g) {m n : Nat} (hm : (BiGraph.ask .numU g).1 = .ok (.num m))
    (hn : (BiGraph.ask .numV g).1 = .ok (.num n)) (hw : Spec.NonnegWeights (Spec.listingB g)) {A L : Sp ℝ}
    (hA : (BiGraph.ask .A g).1 = .ok (.mat A)) (hL : (BiGraph.ask .LGCN g).1 = .ok (.mat L)) (X : Dense ℝ) (hX : X.rows = m + n) :
    ∃ (Y : Dense ℝ) (Z : Ω → Dense ℝ), (BiGraph.ask (.smoothGCN X 0 fun _ => true) g).1 = .ok (.feat Y) ∧
      (∀ ω, (BiGraph.ask (.smoothGCN X p fun i => decide (ρ i ω < 1 - p)) g).1 = .ok (.feat (Z ω))) ∧
      Spec.MeanShare P (1 - p) Z Y ∧
      Spec.SquaredDistance P (1 - p) Z Y fun i c => p * (1 - p) * ∑ j ∈ Finset.range (m + n), (L.get i j * X.at_ j c) ^ 2 := by
  obtain ⟨L', _, hL', -, hI, -⟩ := C65_bigraph_LGCN hg hm hn hw hA
  rw [hL] at hL'; cases hL'
  have hLe := evLGCN_of_askB hg hL
  have := spread_call h h0 h1 (call := fun q k => (BiGraph.ask (.smoothGCN X q k) g).1) hI.wf (X := X)
    (hI.cols.trans hX.symm) fun q k => by
      rw [hg.ask]
      show (Ord.evLGCN g.raw >>= fun M => Graph.evDrop M q k >>= fun N => N.mmD X).map GAns.feat = _
      rw [hLe]; rfl
  rw [hI.cols] at this
  exact this

example : ∃ (P : Measure (Nat → ℝ)) (ρ : Nat → (Nat → ℝ) → ℝ) (A AT : Sp ℝ), IsProbabilityMeasure P ∧ Spec.UniformDraws P ρ ∧
    DiGraph.Built NonNeg false exD ∧ (DiGraph.ask .numV exD).1 = .ok (.num 3) ∧ (DiGraph.ask .A exD).1 = .ok (.mat A) ∧
    (DiGraph.ask .AT exD).1 = .ok (.mat AT) := by
  obtain ⟨P, ρ, hP, h⟩ := C133_draws_exist
  obtain ⟨A, AT, hA, hAT, -⟩ := C23_digraph_adjacency exD_nonneg exD_numV
  exact ⟨P, ρ, A, AT, hP, h, exD_nonneg, exD_numV, hA, hAT⟩

example : ∃ (P : Measure (Nat → ℝ)) (ρ : Nat → (Nat → ℝ) → ℝ) (A L B BT : Sp ℝ), IsProbabilityMeasure P ∧ Spec.UniformDraws P ρ ∧
    BiGraph.Built NonNeg exB ∧ (BiGraph.ask .numU exB).1 = .ok (.num 2) ∧ (BiGraph.ask .numV exB).1 = .ok (.num 3) ∧
    Spec.Bipartite 2 3 exB ∧ Spec.NonnegWeights (Spec.listingB exB) ∧ (BiGraph.ask .B exB).1 = .ok (.mat B) ∧
    (BiGraph.ask .BT exB).1 = .ok (.mat BT) ∧ (BiGraph.ask .A exB).1 = .ok (.mat A) ∧ (BiGraph.ask .LGCN exB).1 = .ok (.mat L) := by
  obtain ⟨P, ρ, hP, h⟩ := C133_draws_exist
  obtain ⟨B, BT, hB, hBT, -⟩ := C25_bigraph_incidence exB_nonneg exB_numU exB_numV exB_flag
  obtain ⟨A, hA, -⟩ := C25_bigraph_A_blocks exB_nonneg exB_numU exB_numV exB_flag hB
  obtain ⟨L, _, hL, -⟩ := C65_bigraph_LGCN exB_nonneg exB_numU exB_numV exB_nonnegWeights hA
  exact ⟨P, ρ, A, L, B, BT, hP, h, exB_nonneg, exB_numU, exB_numV, exB_flag, exB_nonnegWeights, hB, hBT, hA, hL⟩

end Props
end DHG
