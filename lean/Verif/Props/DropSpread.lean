import Verif.Props.DropTwice
import Verif.Props.DropDeep

/-!
# How far dropout is from its mean (C138)
-/

set_option linter.unusedSectionVars false
set_option autoImplicit false

open MeasureTheory ProbabilityTheory

namespace DHG

namespace Spec

/-- `Z` is a random table whose entries have the mean squared distance `v` from `t` times those of `Y` -/
def SquaredDistance {Ω : Type} [MeasurableSpace Ω] (P : Measure Ω) (t : ℝ) (Z : Ω → Dense ℝ) (Y : Dense ℝ) (v : Nat → Nat → ℝ) : Prop :=
  ∀ i c, Integrable (fun ω => ((Z ω).at_ i c - t * Y.at_ i c) ^ 2) P ∧ ∫ ω, ((Z ω).at_ i c - t * Y.at_ i c) ^ 2 ∂P = v i c

end Spec

namespace Props
namespace Law

variable {Ω : Type} [MeasurableSpace Ω] {P : Measure Ω} [IsProbabilityMeasure P] {ρ : Nat → Ω → ℝ}

/-- a draw that is kept or not, minus its mean -/
noncomputable def cen (p x : ℝ) : ℝ := (if x < 1 - p then 1 else 0) - (1 - p)

theorem cen_measurable (p : ℝ) : Measurable (cen p) :=
  (Measurable.ite (measurableSet_lt measurable_id measurable_const) measurable_const measurable_const).sub measurable_const

theorem cen_moments (h : Spec.UniformDraws P ρ) {p : ℝ} (h0 : 0 ≤ p) (h1 : p ≤ 1) (k : Nat) :
    Integrable (fun ω => cen p (ρ k ω)) P ∧ ∫ ω, cen p (ρ k ω) ∂P = 0 ∧
      Integrable (fun ω => cen p (ρ k ω) ^ 2) P ∧ ∫ ω, cen p (ρ k ω) ^ 2 ∂P = p * (1 - p) := by
  have hm : MeasurableSet {ω | ρ k ω < 1 - p} := measurableSet_lt (h.measurable _) measurable_const
  have hi : Integrable (Set.indicator {ω | ρ k ω < 1 - p} fun _ => (1 : ℝ)) P := (integrable_const _).indicator hm
  have hv : ∫ ω, Set.indicator {ω | ρ k ω < 1 - p} (fun _ => (1 : ℝ)) ω ∂P = 1 - p := by
    rw [integral_indicator_const _ hm, Measure.real, h.law _ _ (by linarith) (by linarith),
      ENNReal.toReal_ofReal (by linarith), smul_eq_mul, mul_one]
  have e1 : (fun ω => cen p (ρ k ω)) = fun ω => Set.indicator {ω | ρ k ω < 1 - p} (fun _ => (1 : ℝ)) ω - (1 - p) := by
    funext ω
    rw [Set.indicator_apply]
    rfl
  have e2 : (fun ω => cen p (ρ k ω) ^ 2) =
      fun ω => (1 - 2 * (1 - p)) * Set.indicator {ω | ρ k ω < 1 - p} (fun _ => (1 : ℝ)) ω + (1 - p) ^ 2 := by
    funext ω
    rw [Set.indicator_apply]
    by_cases hω : ρ k ω < 1 - p
    · simp only [cen, Set.mem_ofPred_eq, if_pos hω]; ring
    · simp only [cen, Set.mem_ofPred_eq, if_neg hω]; ring
  rw [e1, e2]
  refine ⟨hi.sub (integrable_const _), ?_, (hi.const_mul _).add (integrable_const _), ?_⟩
  · rw [integral_sub hi (integrable_const _), hv]; simp
  · rw [integral_add (hi.const_mul _) (integrable_const _), integral_const_mul, hv]
    simp only [integral_const, probReal_univ, smul_eq_mul]
    ring

theorem cen_cross (h : Spec.UniformDraws P ρ) {p : ℝ} (h0 : 0 ≤ p) (h1 : p ≤ 1) {j k : Nat} (hjk : j ≠ k) :
    Integrable (fun ω => cen p (ρ j ω) * cen p (ρ k ω)) P ∧ ∫ ω, cen p (ρ j ω) * cen p (ρ k ω) ∂P = 0 := by
  have hind : IndepFun (fun ω => cen p (ρ j ω)) (fun ω => cen p (ρ k ω)) P :=
    (h.indep.indepFun hjk).comp (cen_measurable p) (cen_measurable p)
  obtain ⟨a1, a2, -, -⟩ := cen_moments h h0 h1 j
  obtain ⟨b1, -, -, -⟩ := cen_moments h h0 h1 k
  refine ⟨hind.integrable_mul a1 b1, ?_⟩
  rw [hind.integral_fun_mul_eq_mul_integral a1.aestronglyMeasurable b1.aestronglyMeasurable, a2, zero_mul]

/-- a weighted sum of centred draws -/
noncomputable def noise (p : ℝ) (ρ : Nat → Ω → ℝ) (l : List (ℝ × Nat)) (ω : Ω) : ℝ := (l.map fun e => e.1 * cen p (ρ e.2 ω)).sum

theorem noise_cross (h : Spec.UniformDraws P ρ) {p : ℝ} (h0 : 0 ≤ p) (h1 : p ≤ 1) (j : Nat) (l : List (ℝ × Nat))
    (hj : j ∉ l.map Prod.snd) :
    Integrable (fun ω => cen p (ρ j ω) * noise p ρ l ω) P ∧ ∫ ω, cen p (ρ j ω) * noise p ρ l ω ∂P = 0 := by
  induction l with
  | nil => simp [noise]
  | cons e l ih =>
    rw [List.map_cons, List.mem_cons, not_or] at hj
    obtain ⟨i1, i2⟩ := ih hj.2
    obtain ⟨c1, c2⟩ := cen_cross h h0 h1 hj.1
    have e1 : ∀ ω, cen p (ρ j ω) * noise p ρ (e :: l) ω =
        e.1 * (cen p (ρ j ω) * cen p (ρ e.2 ω)) + cen p (ρ j ω) * noise p ρ l ω := by
      intro ω; simp only [noise, List.map_cons, List.sum_cons]; ring
    simp only [e1]
    refine ⟨(c1.const_mul _).add i1, ?_⟩
    rw [integral_add (c1.const_mul _) i1, integral_const_mul, c2, i2]; simp

theorem noise_square (h : Spec.UniformDraws P ρ) {p : ℝ} (h0 : 0 ≤ p) (h1 : p ≤ 1) (l : List (ℝ × Nat)) (hl : (l.map Prod.snd).Nodup) :
    Integrable (fun ω => noise p ρ l ω ^ 2) P ∧ ∫ ω, noise p ρ l ω ^ 2 ∂P = p * (1 - p) * (l.map fun e => e.1 ^ 2).sum := by
  induction l with
  | nil => simp [noise]
  | cons e l ih =>
    rw [List.map_cons, List.nodup_cons] at hl
    obtain ⟨i1, i2⟩ := ih hl.2
    obtain ⟨x1, x2⟩ := noise_cross h h0 h1 e.2 l hl.1
    obtain ⟨-, -, s1, s2⟩ := cen_moments h h0 h1 e.2
    have e1 : ∀ ω, noise p ρ (e :: l) ω ^ 2 =
        e.1 ^ 2 * cen p (ρ e.2 ω) ^ 2 + (2 * e.1 * (cen p (ρ e.2 ω) * noise p ρ l ω) + noise p ρ l ω ^ 2) := by
      intro ω; simp only [noise, List.map_cons, List.sum_cons]; ring
    simp only [e1]
    have hx := x1.const_mul (2 * e.1)
    refine ⟨(s1.const_mul _).add (hx.add i1), ?_⟩
    have hs := s1.const_mul (e.1 ^ 2)
    have hxi : Integrable (fun ω => 2 * e.1 * (cen p (ρ e.2 ω) * noise p ρ l ω) + noise p ρ l ω ^ 2) P := hx.add i1
    rw [integral_add hs hxi, integral_add hx i1, integral_const_mul, integral_const_mul, s2, x2, i2,
      List.map_cons, List.sum_cons]
    ring

theorem row_noise (p : ℝ) (i : Nat) (f : Nat → ℝ) (ω : Ω) (l : List (((Nat × Nat) × ℝ) × Nat)) :
    row (l.map fun e => (e.1.1, if decide (ρ e.2 ω < 1 - p) then e.1.2 else 0)) i f - (1 - p) * row (l.map Prod.fst) i f =
      noise p ρ (l.map fun e => (if e.1.1.1 = i then e.1.2 * f e.1.1.2 else 0, e.2)) ω := by
  induction l with
  | nil => simp [row, noise]
  | cons e l ih =>
    simp only [row, noise, List.map_cons, List.sum_cons] at ih ⊢
    rw [← ih]
    simp only [cen, decide_eq_true_eq]
    by_cases hr : e.1.1.1 = i <;> by_cases hω : ρ e.2 ω < 1 - p <;> simp [hr, hω] <;> ring

theorem get_square (l : Ents ℝ) (hl : (l.map Prod.fst).Nodup) (i j : Nat) :
    Ents.get (l.map fun e => (e.1, e.2 ^ 2)) i j = Ents.get l i j ^ 2 := by
  induction l with
  | nil => simp [Ents.get]
  | cons e l ih =>
    rw [List.map_cons, List.nodup_cons] at hl
    rw [List.map_cons, Ents.get_cons, Ents.get_cons, ih hl.2]
    by_cases he : e.1 = (i, j)
    · have hz : Ents.get l i j = 0 := by
        unfold Ents.get
        refine List.sum_eq_zero fun x hx => ?_
        obtain ⟨e', he', rfl⟩ := List.mem_map.1 hx
        rw [if_neg]
        rintro rfl'
        exact hl.1 (List.mem_map.2 ⟨e', he', rfl'.trans he.symm⟩)
      simp only [if_pos he, hz]; ring
    · simp only [if_neg he]; ring

theorem squares (l : Ents ℝ) (hl : (l.map Prod.fst).Nodup) (i n : Nat) (f : Nat → ℝ) (hn : ∀ e ∈ l, e.1.2 < n) :
    (l.map fun e => (if e.1.1 = i then e.2 * f e.1.2 else 0) ^ 2).sum = ∑ j ∈ Finset.range n, (Ents.get l i j * f j) ^ 2 := by
  have := Ents.sum_row (l.map fun e => (e.1, e.2 ^ 2)) i n (fun j => f j ^ 2) (by
    intro e he
    obtain ⟨e', he', rfl⟩ := List.mem_map.1 he
    exact hn e' he')
  rw [List.map_map] at this
  rw [show (l.map fun e => (if e.1.1 = i then e.2 * f e.1.2 else 0) ^ 2) =
    l.map ((fun e : (Nat × Nat) × ℝ => if e.1.1 = i then e.2 * f e.1.2 ^ 2 else 0) ∘ fun e => (e.1, e.2 ^ 2)) from
      List.map_congr_left fun e _ => by
        simp only [Function.comp]
        by_cases h : e.1.1 = i
        · rw [if_pos h, if_pos h]; ring
        · rw [if_neg h, if_neg h]; ring, this]
  exact Finset.sum_congr rfl fun j _ => by rw [get_square l hl]; ring

/-- a product with a dropped matrix: the mean squared distance from the mean -/
theorem spread_drop (h : Spec.UniformDraws P ρ) {p : ℝ} (h0 : 0 ≤ p) (h1 : p ≤ 1) {M : Sp ℝ} (hM : M.WF) {X Y : Dense ℝ}
    (hY : M.mmD X = .ok Y) {Z : Ω → Dense ℝ} (hZ : ∀ ω, (Graph.evDrop M p (mask ρ p ω) >>= fun N => N.mmD X) = .ok (Z ω)) :
    Spec.SquaredDistance P (1 - p) Z Y fun i c => p * (1 - p) * ∑ j ∈ Finset.range M.cols, (M.get i j * X.at_ j c) ^ 2 := by
  have hcols : M.cols = X.rows := (Sp.mmD_shape hY).1
  intro i c
  have hYat : Y.at_ i c = row M.ents i fun k => X.at_ k c := by
    unfold Sp.mmD at hY
    rw [if_pos hcols] at hY
    cases hY
    rfl
  rcases h0.eq_or_lt with rfl | hp
  · have : ∀ ω, Z ω = Y := by
      intro ω
      have h2 := hZ ω
      rw [evDrop_zero] at h2
      change M.mmD X = .ok (Z ω) at h2
      rw [hY] at h2; cases h2; rfl
    simp [this]
  · have hZat : ∀ ω, (Z ω).at_ i c = row (M.coalesce.ents.zipIdx.map fun e =>
        (e.1.1, if decide (ρ e.2 ω < 1 - p) then e.1.2 else 0)) i fun k => X.at_ k c := by
      intro ω
      have h2 := hZ ω
      unfold Graph.evDrop sparseDropout at h2
      rw [if_pos hp] at h2
      simp only at h2
      rw [if_pos ⟨hp.le, h1⟩, if_neg hp.ne'] at h2
      simp only [bind, Except.bind] at h2
      unfold Sp.mmD at h2
      rw [if_pos (show M.coalesce.cols = X.rows from hcols)] at h2
      rw [← Except.ok.inj h2]
      rfl
    have hd : ∀ ω, (Z ω).at_ i c - (1 - p) * Y.at_ i c =
        noise p ρ (M.coalesce.ents.zipIdx.map fun e => (if e.1.1.1 = i then e.1.2 * X.at_ e.1.1.2 c else 0, e.2)) ω := by
      intro ω
      have hr := row_noise (ρ := ρ) p i (fun k => X.at_ k c) ω M.coalesce.ents.zipIdx
      rw [List.zipIdx_map_fst] at hr
      rw [hZat, hYat, ← row_coalesce]
      exact hr
    simp only [hd]
    have key := noise_square h h0 h1 (M.coalesce.ents.zipIdx.map fun e => (if e.1.1.1 = i then e.1.2 * X.at_ e.1.1.2 c else 0, e.2)) (by
      rw [List.map_map]
      show (M.coalesce.ents.zipIdx.map Prod.snd).Nodup
      rw [List.zipIdx_map_snd]
      exact List.nodup_range' ..)
    refine ⟨key.1, key.2.trans ?_⟩
    congr 1
    rw [List.map_map]
    have hq := squares M.coalesce.ents (sorted_coalesce M.ents).nodup i M.cols (fun k => X.at_ k c) fun e he => (hM.coalesce e he).2
    rw [show (M.coalesce.ents.zipIdx.map ((fun e : ℝ × Nat => e.1 ^ 2) ∘
      fun e => (if e.1.1.1 = i then e.1.2 * X.at_ e.1.1.2 c else 0, e.2))) =
      (M.coalesce.ents.zipIdx.map Prod.fst).map fun e => (if e.1.1 = i then e.2 * X.at_ e.1.2 c else 0) ^ 2 by
        rw [List.map_map]; rfl, List.zipIdx_map_fst, hq]
    exact Finset.sum_congr rfl fun j _ => by
      rw [show Ents.get M.coalesce.ents i j = M.get i j from Sp.get_coalesce M i j]

/-- a graph built from ids that are not negative is a graph built from any arguments -/
theorem built_any {g : GSt ℝ} (hg : Graph.Built Graph.NonNeg g) : Graph.Built Graph.AnyArg g := by
  induction hg with
  | new h _ => exact .new h fun _ _ => trivial
  | adj h _ => exact .adj h trivial
  | op o _ _ ih => exact .op o ih fun _ _ _ => trivial
  | read q _ ih => exact .read q ih
  | clone _ ih => exact .clone ih
  | state _ h ih => exact .state ih h
  | drop _ h ih => exact .drop ih h

end Law

open Law
open Graph (NonNeg)

variable {Ω : Type} [MeasurableSpace Ω] {P : Measure Ω} [IsProbabilityMeasure P] {ρ : Nat → Ω → ℝ}

/-- C138 (Graph). The variance of summed messages with dropout: `p (1 - p)` times the sum of the squares of the messages. -/
theorem C138_graph_sum_variance (h : Spec.UniformDraws P ρ) {p : ℝ} (h0 : 0 ≤ p) (h1 : p ≤ 1) {g : GSt ℝ} (hg : Graph.Built NonNeg g)
    {n : Nat} (hn : (Graph.ask .numV g).1 = .ok (.num n)) {A : Sp ℝ} (hA : (Graph.ask .A g).1 = .ok (.mat A)) (X : Dense ℝ)
    (hX : X.rows = n) :
    ∃ (Y : Dense ℝ) (Z : Ω → Dense ℝ), (Graph.ask (.v2v X .sum none 0 fun _ => true) g).1 = .ok (.feat Y) ∧
      (∀ ω, (Graph.ask (.v2v X .sum none p fun i => decide (ρ i ω < 1 - p)) g).1 = .ok (.feat (Z ω))) ∧
      Spec.MeanShare P (1 - p) Z Y ∧
      Spec.SquaredDistance P (1 - p) Z Y fun i c => p * (1 - p) * ∑ j ∈ Finset.range n, (A.get i j * X.at_ j c) ^ 2 := by
  obtain ⟨Y, hY, -⟩ := C12_graph_v2v_sum hg hn X hX fun _ => true
  obtain ⟨A', hA', a1, a2, a3, -⟩ := C05_graph_adjacency hg hn
  rw [hA] at hA'; cases hA'
  obtain ⟨Z, hZ, hm⟩ := C138_graph_v2v_dropout h h0 h1 (built_any hg) (.inl rfl) hY
  refine ⟨Y, Z, hY, hZ, hm, ?_⟩
  have hAe : Graph.evA g.raw = .ok A := by
    rw [ask_eq hg] at hA
    simp only [Graph.evAsk] at hA
    rcases hv : Graph.evA g.raw with e | A'
    · rw [hv] at hA; cases hA
    · rw [hv] at hA; cases hA; rfl
  rw [ask_eq hg] at hY
  have hY' := map_feat hY
  have e1 : ∀ q k, Graph.evV2v X .sum none q k g.raw = (Graph.evDrop A q k >>= fun N => N.mmD X) := by
    intro q k
    show (Graph.evA g.raw >>= fun M => Graph.evDrop M q k >>= fun N => N.mmD X) = _
    rw [hAe]; rfl
  rw [e1, evDrop_zero] at hY'
  have := spread_drop h h0 h1 a3 (X := X) (Y := Y) hY' (Z := Z) fun ω => by
    have h2 := hZ ω
    rw [ask_eq hg] at h2
    have h3 := map_feat h2
    rw [e1] at h3
    exact h3
  rw [a2] at this
  exact this

/-- C138 (Graph). The variance of `smoothing_with_GCN` with dropout, the messages being those of the propagation matrix. -/
theorem C138_graph_smoothing_variance (h : Spec.UniformDraws P ρ) {p : ℝ} (h0 : 0 ≤ p) (h1 : p ≤ 1) {g : GSt ℝ}
    (hg : Graph.Built NonNeg g) {n : Nat} (hn : (Graph.ask .numV g).1 = .ok (.num n)) (hw : Spec.NonnegWeights (Spec.listing g))
    {L : Sp ℝ} (hL : (Graph.ask .LGCN g).1 = .ok (.mat L)) (X : Dense ℝ) (hX : X.rows = n) :
    ∃ (Y : Dense ℝ) (Z : Ω → Dense ℝ), (Graph.ask (.smoothGCN X 0 fun _ => true) g).1 = .ok (.feat Y) ∧
      (∀ ω, (Graph.ask (.smoothGCN X p fun i => decide (ρ i ω < 1 - p)) g).1 = .ok (.feat (Z ω))) ∧
      Spec.MeanShare P (1 - p) Z Y ∧
      Spec.SquaredDistance P (1 - p) Z Y fun i c => p * (1 - p) * ∑ j ∈ Finset.range n, (L.get i j * X.at_ j c) ^ 2 := by
  obtain ⟨L', _, hL', -, hI, -⟩ := C11_graph_LGCN hg hn hw
  rw [hL] at hL'; cases hL'
  have hLe := evLGCN_of_ask (built_any hg) hL
  have hq : ∀ q k, (Graph.ask (.smoothGCN X q k) g).1 = (Graph.evDrop L q k >>= fun N => N.mmD X).map GAns.feat := by
    intro q k
    rw [(Graph.reads_ask _ g hg.inv.2).1]
    show (Graph.evLGCN g.raw >>= fun M => Graph.evDrop M q k >>= fun N => N.mmD X).map GAns.feat = _
    rw [hLe]; rfl
  obtain ⟨Y, hY⟩ : ∃ Y, L.mmD X = .ok Y := by
    unfold Sp.mmD
    rw [if_pos (hI.cols.trans hX.symm)]
    exact ⟨_, rfl⟩
  have hY' : (Graph.ask (.smoothGCN X 0 fun _ => true) g).1 = .ok (.feat Y) := by
    rw [hq, evDrop_zero]
    show (L.mmD X).map GAns.feat = _
    rw [hY]; rfl
  obtain ⟨Z, hZ, hm⟩ := C138_graph_smoothing_dropout h h0 h1 (built_any hg) hY'
  refine ⟨Y, Z, hY', hZ, hm, ?_⟩
  have := spread_drop h h0 h1 hI.wf hY (Z := Z) fun ω => by
    have h2 := hZ ω
    rw [hq] at h2
    exact map_feat h2
  rw [hI.cols] at this
  exact this

example : ∃ (P : Measure (Nat → ℝ)) (ρ : Nat → (Nat → ℝ) → ℝ) (L : Sp ℝ), IsProbabilityMeasure P ∧ Spec.UniformDraws P ρ ∧
    Graph.Built NonNeg exG ∧ (Graph.ask .numV exG).1 = .ok (.num 3) ∧ Spec.NonnegWeights (Spec.listing exG) ∧
    (Graph.ask .LGCN exG).1 = .ok (.mat L) := by
  obtain ⟨P, ρ, hP, h⟩ := C133_draws_exist
  obtain ⟨L, _, hL, _⟩ := C11_graph_LGCN exG_nonneg exG_numV exG_nonnegWeights
  exact ⟨P, ρ, L, hP, h, exG_nonneg, exG_numV, exG_nonnegWeights, hL⟩

example : ∃ (P : Measure (Nat → ℝ)) (ρ : Nat → (Nat → ℝ) → ℝ) (A : Sp ℝ), IsProbabilityMeasure P ∧ Spec.UniformDraws P ρ ∧
    Graph.Built NonNeg exG ∧ (Graph.ask .numV exG).1 = .ok (.num 3) ∧ (Graph.ask .A exG).1 = .ok (.mat A) := by
  obtain ⟨P, ρ, hP, h⟩ := C133_draws_exist
  obtain ⟨A, hA, -⟩ := C05_graph_adjacency exG_nonneg exG_numV
  exact ⟨P, ρ, A, hP, h, exG_nonneg, exG_numV, hA⟩

/-- C138 (Hypergraph). The variance of `smoothing_with_HGNN` and its group version with dropout. -/
theorem C138_hypergraph_smoothing_variance (h : Spec.UniformDraws P ρ) {p : ℝ} (h0 : 0 ≤ p) (h1 : p ≤ 1) {b : Bool} {s : HSt ℝ}
    (hs : Hyper.Built Hyper.Proper b s) {sc : Option String} (hsc : Spec.HasScope s sc) {n : Nat}
    (hn : (Hyper.ask .numV s).1 = .ok (.num n)) (hw : Spec.HNonneg (Spec.hListing s sc)) {L : Sp ℝ}
    (hL : (Hyper.ask (.LHGNN sc) s).1 = .ok (.mat L)) (X : Dense ℝ) (hX : X.rows = n) :
    ∃ (Y : Dense ℝ) (Z : Ω → Dense ℝ), (Hyper.ask (.smoothHGNN sc X 0 fun _ => true) s).1 = .ok (.feat Y) ∧
      (∀ ω, (Hyper.ask (.smoothHGNN sc X p fun i => decide (ρ i ω < 1 - p)) s).1 = .ok (.feat (Z ω))) ∧
      Spec.MeanShare P (1 - p) Z Y ∧
      Spec.SquaredDistance P (1 - p) Z Y fun i c => p * (1 - p) * ∑ j ∈ Finset.range n, (L.get i j * X.at_ j c) ^ 2 := by
  have hs' := hs.mono (Q := Hyper.AnyH) fun _ _ _ => trivial
  obtain ⟨L', _, _, hL', -, -, hI, -⟩ := C36_hypergraph_L_HGNN_partial hs hsc hn hw
  rw [hL] at hL'; cases hL'
  obtain ⟨Y, hY', -⟩ := C110_hypergraph hs hsc hn hw hL X hX fun _ => true
  have hLe := evLHGNN_of_ask hs' hL
  have hq : ∀ q k W, (Hyper.ask (.smoothHGNN sc X q k) s).1 = .ok (.feat W) → (Graph.evDrop L q k >>= fun N => N.mmD X) = .ok W := by
    intro q k W h2
    rw [Hyper.ask_eq _ hs'.inv.2 (.inr (by simp))] at h2
    rcases hE : Hyper.evSmooth sc X q k s.raw with e | V
    · simp only [Hyper.evAsk, hE, bind, Except.bind] at h2; cases h2
    · simp only [Hyper.evAsk, hE, bind, Except.bind] at h2; cases h2
      rw [Hyper.evSmooth, hLe] at hE
      exact hE
  have hY := hq _ _ _ hY'
  rw [evDrop_zero] at hY
  obtain ⟨Z, hZ, hm⟩ := C138_hypergraph_smoothing_dropout h h0 h1 hs' hY'
  refine ⟨Y, Z, hY', hZ, hm, ?_⟩
  have := spread_drop h h0 h1 hI.wf (Y := Y) hY (Z := Z) fun ω => hq _ _ _ (hZ ω)
  rw [hI.cols] at this
  exact this

example : ∃ (P : Measure (Nat → ℝ)) (ρ : Nat → (Nat → ℝ) → ℝ) (L : Sp ℝ), IsProbabilityMeasure P ∧ Spec.UniformDraws P ρ ∧
    Hyper.Built Hyper.Proper true exH ∧ Spec.HasScope exH none ∧ (Hyper.ask .numV exH).1 = .ok (.num 4) ∧
    Spec.HNonneg (Spec.hListing exH none) ∧ (Hyper.ask (.LHGNN none) exH).1 = .ok (.mat L) := by
  obtain ⟨P, ρ, hP, h⟩ := C133_draws_exist
  have hsc : Spec.HasScope exH none := List.cons_ne_nil _ _
  have hw : Spec.HNonneg (Spec.hListing exH none) := by
    rw [show Spec.hListing exH none = [([0, 1, 2], 2), ([1, 3], 3), ([3], 5)] from rfl]
    intro e he
    simp only [List.mem_cons, List.not_mem_nil, or_false] at he
    rcases he with rfl | rfl | rfl <;> norm_num
  obtain ⟨L, _, _, hL, _⟩ := C36_hypergraph_L_HGNN_partial exH_proper hsc (n := 4) rfl hw
  exact ⟨P, ρ, L, hP, h, exH_proper, hsc, rfl, hw, hL⟩

end Props
end DHG
