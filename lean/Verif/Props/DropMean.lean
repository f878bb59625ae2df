import Verif.Props.DropRows

/-!
# How far averaged messages with dropout are from their mean (C138)
-/

set_option linter.unusedSectionVars false
set_option autoImplicit false

open MeasureTheory ProbabilityTheory

namespace DHG
namespace Props

open Law
open Graph (NonNeg)

variable {Ω : Type} [MeasurableSpace Ω] {P : Measure Ω} [IsProbabilityMeasure P] {ρ : Nat → Ω → ℝ}

/-- C138 (Graph). The variance of averaged messages with dropout. The divisor is the degree without dropout, so each message keeps
its share of the average: `p (1 - p)` times the sum of the squares of the shares. -/
theorem C138_graph_mean_variance (h : Spec.UniformDraws P ρ) {p : ℝ} (h0 : 0 ≤ p) (h1 : p ≤ 1) {g : GSt ℝ} (hg : Graph.Built NonNeg g)
    {n : Nat} (hn : (Graph.ask .numV g).1 = .ok (.num n)) {A : Sp ℝ} (hA : (Graph.ask .A g).1 = .ok (.mat A)) (X : Dense ℝ)
    (hX : X.rows = n) :
    ∃ (Y : Dense ℝ) (Z : Ω → Dense ℝ), (Graph.ask (.v2v X .mean none 0 fun _ => true) g).1 = .ok (.feat Y) ∧
      (∀ ω, (Graph.ask (.v2v X .mean none p fun i => decide (ρ i ω < 1 - p)) g).1 = .ok (.feat (Z ω))) ∧
      Spec.MeanShare P (1 - p) Z Y ∧
      ∀ i c, i < n → Integrable (fun ω => ((Z ω).at_ i c - (1 - p) * Y.at_ i c) ^ 2) P ∧
        ∫ ω, ((Z ω).at_ i c - (1 - p) * Y.at_ i c) ^ 2 ∂P =
          p * (1 - p) * ∑ j ∈ Finset.range n, (A.get i j * X.at_ j c / Spec.deg (Spec.listing g) (i : Int)) ^ 2 := by
  obtain ⟨W, V, hW, hV, hs, hq⟩ := C138_graph_sum_variance h h0 h1 hg hn hA X hX
  have hn' := numV_eq hn
  have hW' : Graph.evV2v X .sum none 0 (fun _ => true) g.raw = .ok W := by rw [ask_eq hg] at hW; exact map_feat hW
  have hV' : ∀ ω, Graph.evV2v X .sum none p (mask ρ p ω) g.raw = .ok (V ω) := fun ω => by
    have := hV ω
    rw [ask_eq hg] at this
    exact map_feat this
  have hWr : W.rows = n := by
    obtain ⟨W', h2, h3, -⟩ := C12_graph_v2v_sum hg hn X hX fun _ => true
    rw [hW] at h2; cases h2; exact h3
  have hD := Graph.evDvN1_spec hg.inv.1 hg.pos
  have hmean : ∀ q k U, Graph.evV2v X .sum none q k g.raw = .ok U → Graph.evV2v X .mean none q k g.raw =
      (Sp.diag ((List.range g.raw.numV).map fun i => (Graph.degs g.raw i)⁻¹)).mmD U := by
    intro q k U hU
    have e1 : Graph.evV2v X .mean none q k g.raw =
        (Graph.evV2v X .sum none q k g.raw >>= fun U => Graph.evDvN1 g.raw >>= fun D => D.mmD U) := by
      show (Graph.evA g.raw >>= fun M => Graph.evDrop M q k >>= fun N => N.mmD X >>= fun U => Graph.evDvN1 g.raw >>= fun D => D.mmD U) =
        ((Graph.evA g.raw >>= fun M => Graph.evDrop M q k >>= fun N => N.mmD X) >>= fun U => Graph.evDvN1 g.raw >>= fun D => D.mmD U)
      rcases Graph.evA g.raw with e | M
      · rfl
      · show (Graph.evDrop M q k >>= _) = ((Graph.evDrop M q k >>= fun N => N.mmD X) >>= _)
        rcases Graph.evDrop M q k with e | N <;> rfl
    rw [e1, hU, hD]
    rfl
  obtain ⟨Y, hY⟩ := Sp.mmD_ok (P := Sp.diag ((List.range g.raw.numV).map fun i => (Graph.degs g.raw i)⁻¹)) (X := W) (by
    simp [Sp.diag, hWr, hn'])
  have hYa : (Graph.ask (.v2v X .mean none 0 fun _ => true) g).1 = .ok (.feat Y) := by
    rw [ask_eq hg]
    show (Graph.evV2v X .mean none 0 (fun _ => true) g.raw).map GAns.feat = _
    rw [hmean _ _ _ hW', hY]; rfl
  obtain ⟨Z, hZ, hm⟩ := C138_graph_v2v_dropout h h0 h1 (built_any hg) (.inr rfl) hYa
  refine ⟨Y, Z, hYa, hZ, hm, fun i c hi => ?_⟩
  have hZ' : ∀ ω, (Sp.diag ((List.range g.raw.numV).map fun i => (Graph.degs g.raw i)⁻¹)).mmD (V ω) = .ok (Z ω) := fun ω => by
    have := hZ ω
    rw [ask_eq hg] at this
    rw [← hmean _ _ _ (hV' ω)]
    exact map_feat this
  rw [← hn'] at hi
  have e2 : ∀ ω, ((Z ω).at_ i c - (1 - p) * Y.at_ i c) ^ 2 =
      ((Graph.degs g.raw i)⁻¹) ^ 2 * ((V ω).at_ i c - (1 - p) * W.at_ i c) ^ 2 := by
    intro ω
    rw [Sp.diag_mmD_at (hZ' ω) hi, Sp.diag_mmD_at hY hi]; ring
  obtain ⟨q1, q2⟩ := hq i c
  simp only [e2]
  refine ⟨q1.const_mul _, ?_⟩
  rw [integral_const_mul, q2, listing_lst hg, mul_left_comm, Finset.mul_sum]
  refine congrArg _ (Finset.sum_congr rfl fun j _ => ?_)
  rw [div_eq_mul_inv]
  show ((Spec.deg (Graph.lst g.raw) (i : Int))⁻¹) ^ 2 * _ = _
  ring

example : ∃ (P : Measure (Nat → ℝ)) (ρ : Nat → (Nat → ℝ) → ℝ) (A : Sp ℝ), IsProbabilityMeasure P ∧ Spec.UniformDraws P ρ ∧
    Graph.Built NonNeg exG ∧ (Graph.ask .numV exG).1 = .ok (.num 3) ∧ (Graph.ask .A exG).1 = .ok (.mat A) := by
  obtain ⟨P, ρ, hP, h⟩ := C133_draws_exist
  obtain ⟨A, hA, -⟩ := C05_graph_adjacency exG_nonneg exG_numV
  exact ⟨P, ρ, A, hP, h, exG_nonneg, exG_numV, hA⟩

end Props
end DHG
