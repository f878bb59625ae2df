import Verif.Props.DropSpread2

/-!
# Dropout errors at different vertices are uncorrelated (C138)
-/

set_option linter.unusedSectionVars false
set_option autoImplicit false

open MeasureTheory ProbabilityTheory

namespace DHG

namespace Spec

/-- the distances of two different rows of `Z` from `t` times those of `Y` are uncorrelated -/
def RowsUncorrelated {Ω : Type} [MeasurableSpace Ω] (P : Measure Ω) (t : ℝ) (Z : Ω → Dense ℝ) (Y : Dense ℝ) : Prop :=
  ∀ i k c d, i ≠ k →
    Integrable (fun ω => ((Z ω).at_ i c - t * Y.at_ i c) * ((Z ω).at_ k d - t * Y.at_ k d)) P ∧
      ∫ ω, ((Z ω).at_ i c - t * Y.at_ i c) * ((Z ω).at_ k d - t * Y.at_ k d) ∂P = 0

end Spec

namespace Props
namespace Law

variable {Ω : Type} [MeasurableSpace Ω] {P : Measure Ω} [IsProbabilityMeasure P] {ρ : Nat → Ω → ℝ}

theorem noise_add {α : Type} (p : ℝ) (l : List (α × Nat)) (a b : α → ℝ) (s : ℝ) (ω : Ω) :
    noise p ρ (l.map fun e => (a e.1 + s * b e.1, e.2)) ω =
      noise p ρ (l.map fun e => (a e.1, e.2)) ω + s * noise p ρ (l.map fun e => (b e.1, e.2)) ω := by
  induction l with
  | nil => simp [noise]
  | cons e l ih =>
    simp only [noise, List.map_cons, List.sum_cons] at ih ⊢
    rw [ih]; ring

/-- sums of the same draws with coefficients that are never both nonzero -/
theorem noise_apart {α : Type} (h : Spec.UniformDraws P ρ) {p : ℝ} (h0 : 0 ≤ p) (h1 : p ≤ 1) (l : List (α × Nat))
    (hl : (l.map Prod.snd).Nodup) (a b : α → ℝ) (hab : ∀ x, a x * b x = 0) :
    Integrable (fun ω => noise p ρ (l.map fun e => (a e.1, e.2)) ω * noise p ρ (l.map fun e => (b e.1, e.2)) ω) P ∧
      ∫ ω, noise p ρ (l.map fun e => (a e.1, e.2)) ω * noise p ρ (l.map fun e => (b e.1, e.2)) ω ∂P = 0 := by
  have hd : ∀ f : α → ℝ, ((l.map fun e => (f e.1, e.2)).map Prod.snd).Nodup := by
    intro f
    rw [List.map_map]
    exact hl
  obtain ⟨p1, p2⟩ := noise_square h h0 h1 _ (hd fun x => a x + 1 * b x)
  obtain ⟨m1, m2⟩ := noise_square h h0 h1 _ (hd fun x => a x + (-1) * b x)
  have hs : ((l.map fun e => (a e.1 + 1 * b e.1, e.2)).map fun e => e.1 ^ 2) =
      ((l.map fun e => (a e.1 + (-1) * b e.1, e.2)).map fun e => e.1 ^ 2) := by
    rw [List.map_map, List.map_map]
    refine List.map_congr_left fun e _ => ?_
    simp only [Function.comp]
    linear_combination 4 * hab e.1
  have e1 : (fun ω => noise p ρ (l.map fun e => (a e.1, e.2)) ω * noise p ρ (l.map fun e => (b e.1, e.2)) ω) =
      fun ω => 1 / 4 * (noise p ρ (l.map fun e => (a e.1 + 1 * b e.1, e.2)) ω ^ 2 -
        noise p ρ (l.map fun e => (a e.1 + (-1) * b e.1, e.2)) ω ^ 2) := by
    funext ω
    rw [noise_add, noise_add]
    ring
  rw [e1]
  refine ⟨(p1.sub m1).const_mul _, ?_⟩
  rw [integral_const_mul, integral_sub p1 m1, p2, m2, hs]
  ring

/-- the distance of one entry from its mean, as a sum over the stored values -/
theorem drop_noise {p : ℝ} (hp : 0 < p) (h1 : p ≤ 1) {M : Sp ℝ} {X Y : Dense ℝ} (hY : M.mmD X = .ok Y) {Z : Ω → Dense ℝ}
    (hZ : ∀ ω, (Graph.evDrop M p (mask ρ p ω) >>= fun N => N.mmD X) = .ok (Z ω)) (i c : Nat) (ω : Ω) :
    (Z ω).at_ i c - (1 - p) * Y.at_ i c =
      noise p ρ (M.coalesce.ents.zipIdx.map fun e => (if e.1.1.1 = i then e.1.2 * X.at_ e.1.1.2 c else 0, e.2)) ω := by
  have hcols : M.cols = X.rows := (Sp.mmD_shape hY).1
  have hYat : Y.at_ i c = row M.ents i fun k => X.at_ k c := by
    unfold Sp.mmD at hY
    rw [if_pos hcols] at hY
    cases hY
    rfl
  have hZat : (Z ω).at_ i c = row (M.coalesce.ents.zipIdx.map fun e =>
      (e.1.1, if decide (ρ e.2 ω < 1 - p) then e.1.2 else 0)) i fun k => X.at_ k c := by
    have h2 := hZ ω
    unfold Graph.evDrop sparseDropout at h2
    rw [if_pos hp] at h2
    simp only at h2
    rw [if_pos ⟨hp.le, h1⟩, if_neg hp.ne'] at h2
    simp only [bind, Except.bind] at h2
    unfold Sp.mmD at h2
    rw [if_pos (show M.coalesce.cols = X.rows from hcols)] at h2
    rw [← Except.ok.inj h2]
    rfl
  have hr := row_noise (ρ := ρ) p i (fun k => X.at_ k c) ω M.coalesce.ents.zipIdx
  rw [List.zipIdx_map_fst] at hr
  rw [hZat, hYat, ← row_coalesce]
  exact hr

theorem rows_drop (h : Spec.UniformDraws P ρ) {p : ℝ} (h0 : 0 ≤ p) (h1 : p ≤ 1) {M : Sp ℝ} {X Y : Dense ℝ}
    (hY : M.mmD X = .ok Y) {Z : Ω → Dense ℝ} (hZ : ∀ ω, (Graph.evDrop M p (mask ρ p ω) >>= fun N => N.mmD X) = .ok (Z ω)) :
    Spec.RowsUncorrelated P (1 - p) Z Y := by
  intro i k c d hik
  rcases h0.eq_or_lt with rfl | hp
  · have : ∀ ω, Z ω = Y := by
      intro ω
      have h2 := hZ ω
      rw [evDrop_zero] at h2
      change M.mmD X = .ok (Z ω) at h2
      rw [hY] at h2; cases h2; rfl
    simp [this]
  · simp only [drop_noise hp h1 hY hZ]
    refine noise_apart h h0 h1 M.coalesce.ents.zipIdx ?_ (fun x => if x.1.1 = i then x.2 * X.at_ x.1.2 c else 0)
      (fun x => if x.1.1 = k then x.2 * X.at_ x.1.2 d else 0) fun x => ?_
    · rw [List.zipIdx_map_snd]
      exact List.nodup_range' ..
    · by_cases hx : x.1.1 = i
      · rw [if_neg (show ¬ x.1.1 = k from fun e => hik (hx.symm.trans e)), mul_zero]
      · rw [if_neg hx, zero_mul]

/-- a query with dropout that is the product with a matrix -/
theorem rows_call (h : Spec.UniformDraws P ρ) {p : ℝ} (h0 : 0 ≤ p) (h1 : p ≤ 1) {eP : Except Err (Sp ℝ)} {X Y : Dense ℝ}
    {k : Nat → Bool} (hY : (eP >>= fun M => Graph.evDrop M 0 k >>= fun N => N.mmD X) = .ok Y) {Z : Ω → Dense ℝ}
    (hZ : ∀ ω, (eP >>= fun M => Graph.evDrop M p (mask ρ p ω) >>= fun N => N.mmD X) = .ok (Z ω)) :
    Spec.RowsUncorrelated P (1 - p) Z Y := by
  rcases eP with e | M
  · cases hY
  · change (Graph.evDrop M 0 k >>= fun N => N.mmD X) = .ok Y at hY
    rw [evDrop_zero] at hY
    exact rows_drop h h0 h1 hY hZ

end Law

open Law
open Graph (AnyArg)

variable {Ω : Type} [MeasurableSpace Ω] {P : Measure Ω} [IsProbabilityMeasure P] {ρ : Nat → Ω → ℝ}

/-- C138 (Graph). With dropout the errors of summed messages at two vertices are uncorrelated, also when the vertices are
neighbours: the two directions of an edge are dropped by different draws. -/
theorem C138_graph_sum_rows (h : Spec.UniformDraws P ρ) {p : ℝ} (h0 : 0 ≤ p) (h1 : p ≤ 1) {g : GSt ℝ} (hg : Graph.Built AnyArg g)
    {X Y : Dense ℝ} {k : Nat → Bool} (hY : (Graph.ask (.v2v X .sum none 0 k) g).1 = .ok (.feat Y)) {Z : Ω → Dense ℝ}
    (hZ : ∀ ω, (Graph.ask (.v2v X .sum none p fun i => decide (ρ i ω < 1 - p)) g).1 = .ok (.feat (Z ω))) :
    Spec.RowsUncorrelated P (1 - p) Z Y := by
  have hask : ∀ q, (Graph.ask q g).1 = Graph.evAsk q g.raw := fun q => (Graph.reads_ask q g hg.inv.2).1
  rw [hask] at hY
  exact rows_call h h0 h1 (eP := Graph.evA g.raw) (map_feat hY) fun ω => by
    have h2 := hZ ω
    rw [hask] at h2
    exact map_feat h2

/-- C138 (Graph). The same for `smoothing_with_GCN`. -/
theorem C138_graph_smoothing_rows (h : Spec.UniformDraws P ρ) {p : ℝ} (h0 : 0 ≤ p) (h1 : p ≤ 1) {g : GSt ℝ}
    (hg : Graph.Built AnyArg g) {X Y : Dense ℝ} {k : Nat → Bool} (hY : (Graph.ask (.smoothGCN X 0 k) g).1 = .ok (.feat Y))
    {Z : Ω → Dense ℝ} (hZ : ∀ ω, (Graph.ask (.smoothGCN X p fun i => decide (ρ i ω < 1 - p)) g).1 = .ok (.feat (Z ω))) :
    Spec.RowsUncorrelated P (1 - p) Z Y := by
  have hask : ∀ q, (Graph.ask q g).1 = Graph.evAsk q g.raw := fun q => (Graph.reads_ask q g hg.inv.2).1
  rw [hask] at hY
  exact rows_call h h0 h1 (eP := Graph.evLGCN g.raw) (map_feat hY) fun ω => by
    have h2 := hZ ω
    rw [hask] at h2
    exact map_feat h2

/-- C138 (DiGraph). The same for `v2v` with sums, in both directions. -/
theorem C138_digraph_sum_rows (h : Spec.UniformDraws P ρ) {p : ℝ} (h0 : 0 ≤ p) (h1 : p ≤ 1) {w : Bool} {g : DSt ℝ}
    (hg : DiGraph.Built AnyArg w g) {dir : Dir} {X Y : Dense ℝ} {k : Nat → Bool}
    (hY : (DiGraph.ask (.v2v X .sum none dir 0 k) g).1 = .ok (.feat Y)) {Z : Ω → Dense ℝ}
    (hZ : ∀ ω, (DiGraph.ask (.v2v X .sum none dir p fun i => decide (ρ i ω < 1 - p)) g).1 = .ok (.feat (Z ω))) :
    Spec.RowsUncorrelated P (1 - p) Z Y := by
  rw [hg.ask] at hY
  have hZ' : ∀ ω, DiGraph.evV2v X .sum none dir p (mask ρ p ω) g.raw = .ok (Z ω) := fun ω => by
    have h2 := hZ ω
    rw [hg.ask] at h2
    exact map_feat h2
  have hY' := map_feat hY
  cases dir with
  | dst2src => exact rows_call h h0 h1 (eP := Ord.evM .di g.raw) hY' hZ'
  | src2dst => exact rows_call h h0 h1 (eP := Ord.evMT .di g.raw) hY' hZ'
  | other => cases hY'

/-- C138 (BiGraph). The same for `u2v` with sums. -/
theorem C138_bigraph_u2v_rows (h : Spec.UniformDraws P ρ) {p : ℝ} (h0 : 0 ≤ p) (h1 : p ≤ 1) {g : BSt ℝ}
    (hg : BiGraph.Built AnyArg g) {X Y : Dense ℝ} {k : Nat → Bool} (hY : (BiGraph.ask (.u2v X .sum none 0 k) g).1 = .ok (.feat Y))
    {Z : Ω → Dense ℝ} (hZ : ∀ ω, (BiGraph.ask (.u2v X .sum none p fun i => decide (ρ i ω < 1 - p)) g).1 = .ok (.feat (Z ω))) :
    Spec.RowsUncorrelated P (1 - p) Z Y := by
  rw [hg.ask] at hY
  exact rows_call h h0 h1 (eP := Ord.evMT .bi g.raw) (map_feat hY) fun ω => by
    have h2 := hZ ω
    rw [hg.ask] at h2
    exact map_feat h2

/-- C138 (BiGraph). The same for `v2u` with sums. -/
theorem C138_bigraph_v2u_rows (h : Spec.UniformDraws P ρ) {p : ℝ} (h0 : 0 ≤ p) (h1 : p ≤ 1) {g : BSt ℝ}
    (hg : BiGraph.Built AnyArg g) {X Y : Dense ℝ} {k : Nat → Bool} (hY : (BiGraph.ask (.v2u X .sum none 0 k) g).1 = .ok (.feat Y))
    {Z : Ω → Dense ℝ} (hZ : ∀ ω, (BiGraph.ask (.v2u X .sum none p fun i => decide (ρ i ω < 1 - p)) g).1 = .ok (.feat (Z ω))) :
    Spec.RowsUncorrelated P (1 - p) Z Y := by
  rw [hg.ask] at hY
  exact rows_call h h0 h1 (eP := Ord.evM .bi g.raw) (map_feat hY) fun ω => by
    have h2 := hZ ω
    rw [hg.ask] at h2
    exact map_feat h2

/-- C138 (BiGraph). The same for `smoothing_with_GCN`. -/
theorem C138_bigraph_smoothing_rows (h : Spec.UniformDraws P ρ) {p : ℝ} (h0 : 0 ≤ p) (h1 : p ≤ 1) {g : BSt ℝ}
    (hg : BiGraph.Built AnyArg g) {X Y : Dense ℝ} {k : Nat → Bool} (hY : (BiGraph.ask (.smoothGCN X 0 k) g).1 = .ok (.feat Y))
    {Z : Ω → Dense ℝ} (hZ : ∀ ω, (BiGraph.ask (.smoothGCN X p fun i => decide (ρ i ω < 1 - p)) g).1 = .ok (.feat (Z ω))) :
    Spec.RowsUncorrelated P (1 - p) Z Y := by
  rw [hg.ask] at hY
  exact rows_call h h0 h1 (eP := Ord.evLGCN g.raw) (map_feat hY) fun ω => by
    have h2 := hZ ω
    rw [hg.ask] at h2
    exact map_feat h2

/-- C138 (Hypergraph). The same for `smoothing_with_HGNN` and its group version. -/
theorem C138_hypergraph_smoothing_rows (h : Spec.UniformDraws P ρ) {p : ℝ} (h0 : 0 ≤ p) (h1 : p ≤ 1) {b : Bool} {s : HSt ℝ}
    (hs : Hyper.Built Hyper.AnyH b s) {sc : Option String} {X Y : Dense ℝ} {k : Nat → Bool}
    (hY : (Hyper.ask (.smoothHGNN sc X 0 k) s).1 = .ok (.feat Y)) {Z : Ω → Dense ℝ}
    (hZ : ∀ ω, (Hyper.ask (.smoothHGNN sc X p fun i => decide (ρ i ω < 1 - p)) s).1 = .ok (.feat (Z ω))) :
    Spec.RowsUncorrelated P (1 - p) Z Y := by
  have hq : ∀ q k W, (Hyper.ask (.smoothHGNN sc X q k) s).1 = .ok (.feat W) → Hyper.evSmooth sc X q k s.raw = .ok W := by
    intro q k W h2
    rw [Hyper.ask_eq _ hs.inv.2 (.inr (by simp))] at h2
    rcases hE : Hyper.evSmooth sc X q k s.raw with e | V
    · simp only [Hyper.evAsk, hE, bind, Except.bind] at h2; cases h2
    · simp only [Hyper.evAsk, hE, bind, Except.bind] at h2; cases h2; rfl
  exact rows_call h h0 h1 (eP := Hyper.evLHGNN sc s.raw) (hq _ _ _ hY) fun ω => hq _ _ _ (hZ ω)

example : ∃ (P : Measure (Nat → ℝ)) (ρ : Nat → (Nat → ℝ) → ℝ) (X Y : Dense ℝ) (Z : (Nat → ℝ) → Dense ℝ), IsProbabilityMeasure P ∧
    Spec.UniformDraws P ρ ∧ Graph.Built AnyArg exG ∧ (Graph.ask (.v2v X .sum none 0 fun _ => true) exG).1 = .ok (.feat Y) ∧
    ∀ ω, (Graph.ask (.v2v X .sum none (1 / 4) fun i => decide (ρ i ω < 1 - 1 / 4)) exG).1 = .ok (.feat (Z ω)) := by
  obtain ⟨P, ρ, hP, h⟩ := C133_draws_exist
  obtain ⟨A, hA, -⟩ := C05_graph_adjacency exG_nonneg exG_numV
  obtain ⟨Y, Z, hY, hZ, -⟩ := C138_graph_sum_variance h (p := 1 / 4) (by norm_num) (by norm_num) exG_nonneg exG_numV hA
    ⟨3, 1, fun i _ => (i : ℝ)⟩ rfl
  exact ⟨P, ρ, _, Y, Z, hP, h, exG_built, hY, hZ⟩

example : ∃ (P : Measure (Nat → ℝ)) (ρ : Nat → (Nat → ℝ) → ℝ) (X Y : Dense ℝ) (Z : (Nat → ℝ) → Dense ℝ), IsProbabilityMeasure P ∧
    Spec.UniformDraws P ρ ∧ Graph.Built AnyArg exG ∧ (Graph.ask (.smoothGCN X 0 fun _ => true) exG).1 = .ok (.feat Y) ∧
    ∀ ω, (Graph.ask (.smoothGCN X (1 / 4) fun i => decide (ρ i ω < 1 - 1 / 4)) exG).1 = .ok (.feat (Z ω)) := by
  obtain ⟨P, ρ, hP, h⟩ := C133_draws_exist
  obtain ⟨L, _, hL, -⟩ := C11_graph_LGCN exG_nonneg exG_numV exG_nonnegWeights
  obtain ⟨Y, Z, hY, hZ, -⟩ := C138_graph_smoothing_variance h (p := 1 / 4) (by norm_num) (by norm_num) exG_nonneg exG_numV
    exG_nonnegWeights hL ⟨3, 1, fun i _ => (i : ℝ)⟩ rfl
  exact ⟨P, ρ, _, Y, Z, hP, h, exG_built, hY, hZ⟩

example : ∃ (P : Measure (Nat → ℝ)) (ρ : Nat → (Nat → ℝ) → ℝ) (X Y : Dense ℝ) (Z : (Nat → ℝ) → Dense ℝ), IsProbabilityMeasure P ∧
    Spec.UniformDraws P ρ ∧ DiGraph.Built AnyArg false exD ∧
    (DiGraph.ask (.v2v X .sum none .src2dst 0 fun _ => true) exD).1 = .ok (.feat Y) ∧
    ∀ ω, (DiGraph.ask (.v2v X .sum none .src2dst (1 / 4) fun i => decide (ρ i ω < 1 - 1 / 4)) exD).1 = .ok (.feat (Z ω)) := by
  obtain ⟨P, ρ, hP, h⟩ := C133_draws_exist
  obtain ⟨A, AT, -, hAT, -⟩ := C23_digraph_adjacency exD_nonneg exD_numV
  obtain ⟨Y, Z, hY, hZ, -⟩ := C138_digraph_src2dst_variance h (p := 1 / 4) (by norm_num) (by norm_num) exD_nonneg exD_numV hAT
    ⟨3, 1, fun i _ => (i : ℝ)⟩ rfl
  exact ⟨P, ρ, _, Y, Z, hP, h, exD_built, hY, hZ⟩

example : ∃ (P : Measure (Nat → ℝ)) (ρ : Nat → (Nat → ℝ) → ℝ) (X Y : Dense ℝ) (Z : (Nat → ℝ) → Dense ℝ), IsProbabilityMeasure P ∧
    Spec.UniformDraws P ρ ∧ Hyper.Built Hyper.AnyH true exH ∧ (Hyper.ask (.smoothHGNN none X 0 fun _ => true) exH).1 = .ok (.feat Y) ∧
    ∀ ω, (Hyper.ask (.smoothHGNN none X (1 / 4) fun i => decide (ρ i ω < 1 - 1 / 4)) exH).1 = .ok (.feat (Z ω)) := by
  obtain ⟨P, ρ, hP, h⟩ := C133_draws_exist
  have hsc : Spec.HasScope exH none := List.cons_ne_nil _ _
  have hw : Spec.HNonneg (Spec.hListing exH none) := by
    rw [show Spec.hListing exH none = [([0, 1, 2], 2), ([1, 3], 3), ([3], 5)] from rfl]
    intro e he
    simp only [List.mem_cons, List.not_mem_nil, or_false] at he
    rcases he with rfl | rfl | rfl <;> norm_num
  obtain ⟨L, _, _, hL, _⟩ := C36_hypergraph_L_HGNN_partial exH_proper hsc (n := 4) rfl hw
  obtain ⟨Y, Z, hY, hZ, -⟩ := C138_hypergraph_smoothing_variance h (p := 1 / 4) (by norm_num) (by norm_num) exH_proper hsc (n := 4) rfl hw
    hL ⟨4, 1, fun i _ => (i : ℝ)⟩ rfl
  exact ⟨P, ρ, _, Y, Z, hP, h, exH_built, hY, hZ⟩

example : ∃ (P : Measure (Nat → ℝ)) (ρ : Nat → (Nat → ℝ) → ℝ) (X Y : Dense ℝ) (Z : (Nat → ℝ) → Dense ℝ), IsProbabilityMeasure P ∧
    Spec.UniformDraws P ρ ∧ BiGraph.Built AnyArg exB ∧ (BiGraph.ask (.u2v X .sum none 0 fun _ => true) exB).1 = .ok (.feat Y) ∧
    ∀ ω, (BiGraph.ask (.u2v X .sum none (1 / 4) fun i => decide (ρ i ω < 1 - 1 / 4)) exB).1 = .ok (.feat (Z ω)) := by
  obtain ⟨P, ρ, hP, h⟩ := C133_draws_exist
  obtain ⟨B, BT, hB, hBT, -⟩ := C25_bigraph_incidence exB_nonneg exB_numU exB_numV exB_flag
  obtain ⟨Y, Z, hY, hZ, -⟩ := C138_bigraph_u2v_variance h (p := 1 / 4) (by norm_num) (by norm_num) exB_nonneg exB_numU exB_numV
    exB_flag hBT ⟨2, 1, fun i _ => (i : ℝ)⟩ rfl
  exact ⟨P, ρ, _, Y, Z, hP, h, exB_built, hY, hZ⟩

example : ∃ (P : Measure (Nat → ℝ)) (ρ : Nat → (Nat → ℝ) → ℝ) (X Y : Dense ℝ) (Z : (Nat → ℝ) → Dense ℝ), IsProbabilityMeasure P ∧
    Spec.UniformDraws P ρ ∧ BiGraph.Built AnyArg exB ∧ (BiGraph.ask (.v2u X .sum none 0 fun _ => true) exB).1 = .ok (.feat Y) ∧
    ∀ ω, (BiGraph.ask (.v2u X .sum none (1 / 4) fun i => decide (ρ i ω < 1 - 1 / 4)) exB).1 = .ok (.feat (Z ω)) := by
  obtain ⟨P, ρ, hP, h⟩ := C133_draws_exist
  obtain ⟨B, BT, hB, hBT, -⟩ := C25_bigraph_incidence exB_nonneg exB_numU exB_numV exB_flag
  obtain ⟨Y, Z, hY, hZ, -⟩ := C138_bigraph_v2u_variance h (p := 1 / 4) (by norm_num) (by norm_num) exB_nonneg exB_numU exB_numV
    exB_flag hB ⟨3, 1, fun i _ => (i : ℝ)⟩ rfl
  exact ⟨P, ρ, _, Y, Z, hP, h, exB_built, hY, hZ⟩

example : ∃ (P : Measure (Nat → ℝ)) (ρ : Nat → (Nat → ℝ) → ℝ) (X Y : Dense ℝ) (Z : (Nat → ℝ) → Dense ℝ), IsProbabilityMeasure P ∧
    Spec.UniformDraws P ρ ∧ BiGraph.Built AnyArg exB ∧ (BiGraph.ask (.smoothGCN X 0 fun _ => true) exB).1 = .ok (.feat Y) ∧
    ∀ ω, (BiGraph.ask (.smoothGCN X (1 / 4) fun i => decide (ρ i ω < 1 - 1 / 4)) exB).1 = .ok (.feat (Z ω)) := by
  obtain ⟨P, ρ, hP, h⟩ := C133_draws_exist
  obtain ⟨B, BT, hB, hBT, -⟩ := C25_bigraph_incidence exB_nonneg exB_numU exB_numV exB_flag
  obtain ⟨A, hA, -⟩ := C25_bigraph_A_blocks exB_nonneg exB_numU exB_numV exB_flag hB
  obtain ⟨L, _, hL, -⟩ := C65_bigraph_LGCN exB_nonneg exB_numU exB_numV exB_nonnegWeights hA
  obtain ⟨Y, Z, hY, hZ, -⟩ := C138_bigraph_smoothing_variance h (p := 1 / 4) (by norm_num) (by norm_num) exB_nonneg exB_numU exB_numV
    exB_nonnegWeights hA hL ⟨5, 1, fun i _ => (i : ℝ)⟩ rfl
  exact ⟨P, ρ, _, Y, Z, hP, h, exB_built, hY, hZ⟩

end Props
end DHG
