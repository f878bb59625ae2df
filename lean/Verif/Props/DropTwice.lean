import Mathlib.Probability.Independence.Integration
import Verif.Props.DropLaw

/-!
# Dropout in both halves of hypergraph message passing (C138)
-/

set_option linter.unusedSectionVars false
set_option autoImplicit false

open MeasureTheory ProbabilityTheory

namespace DHG
namespace Props
namespace Law

variable {Ω : Type} [MeasurableSpace Ω] {P : Measure Ω} [IsProbabilityMeasure P] {ρ : Nat → Ω → ℝ}

/-- `mean_terms` for random features that are independent of the draws -/
theorem mean_terms_indep (h : Spec.UniformDraws P ρ) {p : ℝ} (h0 : 0 ≤ p) (h1 : p ≤ 1) (i : Nat) {f : Nat → Ω → ℝ} {m : Nat → ℝ}
    (hf : ∀ k, Integrable (f k) P ∧ ∫ ω, f k ω ∂P = m k) (hi : ∀ k j, IndepFun (f k) (ρ j) P)
    (l : List (((Nat × Nat) × ℝ) × Nat)) :
    Integrable (fun ω => row (l.map fun e => (e.1.1, if decide (ρ e.2 ω < 1 - p) then e.1.2 else 0)) i fun k => f k ω) P ∧
    ∫ ω, row (l.map fun e => (e.1.1, if decide (ρ e.2 ω < 1 - p) then e.1.2 else 0)) i (fun k => f k ω) ∂P =
      (1 - p) * row (l.map Prod.fst) i m := by
  induction l with
  | nil => simp [row]
  | cons e l ih =>
    have hsum : ∀ ω, row ((e :: l).map fun e => (e.1.1, if decide (ρ e.2 ω < 1 - p) then e.1.2 else 0)) i (fun k => f k ω) =
        (if e.1.1.1 = i then (if decide (ρ e.2 ω < 1 - p) then e.1.2 else 0) * f e.1.1.2 ω else 0) +
          row (l.map fun e => (e.1.1, if decide (ρ e.2 ω < 1 - p) then e.1.2 else 0)) i fun k => f k ω := by
      intro ω
      unfold row
      rw [List.map_cons, List.map_cons, List.sum_cons]
    have hrow : row ((e :: l).map Prod.fst) i m = (if e.1.1.1 = i then e.1.2 * m e.1.1.2 else 0) + row (l.map Prod.fst) i m := by
      unfold row
      rw [List.map_cons, List.map_cons, List.sum_cons]
    simp only [hsum]
    rw [hrow]
    by_cases hr : e.1.1.1 = i
    · simp only [if_pos hr]
      let g : ℝ → ℝ := fun x => if decide (x < 1 - p) then e.1.2 else 0
      have hg : Measurable g := by
        simp only [g, decide_eq_true_eq]
        exact Measurable.ite (measurableSet_lt measurable_id measurable_const) measurable_const measurable_const
      have hind : IndepFun (fun ω => g (ρ e.2 ω)) (f e.1.1.2) P := ((hi e.1.1.2 e.2).comp measurable_id hg).symm
      have hm : MeasurableSet {ω | ρ e.2 ω < 1 - p} := measurableSet_lt (h.measurable _) measurable_const
      have hterm : (fun ω => g (ρ e.2 ω)) = Set.indicator {ω | ρ e.2 ω < 1 - p} fun _ => e.1.2 := by
        funext ω
        rw [Set.indicator_apply]
        by_cases hω : ρ e.2 ω < 1 - p
        · simp [g, hω]
        · simp [g, hω]
      have hgi : Integrable (fun ω => g (ρ e.2 ω)) P := by
        rw [hterm]
        exact (integrable_const _).indicator hm
      have hgv : ∫ ω, g (ρ e.2 ω) ∂P = (1 - p) * e.1.2 := by
        rw [hterm, integral_indicator_const _ hm, Measure.real, h.law _ _ (by linarith) (by linarith),
          ENNReal.toReal_ofReal (by linarith), smul_eq_mul]
      have hpi : Integrable (fun ω => g (ρ e.2 ω) * f e.1.1.2 ω) P := hind.integrable_mul hgi (hf _).1
      have hpv : ∫ ω, g (ρ e.2 ω) * f e.1.1.2 ω ∂P = (1 - p) * (e.1.2 * m e.1.1.2) := by
        rw [hind.integral_fun_mul_eq_mul_integral hgi.aestronglyMeasurable (hf _).1.aestronglyMeasurable, hgv, (hf _).2]
        ring
      refine ⟨hpi.add ih.1, ?_⟩
      rw [integral_add hpi ih.1, hpv, ih.2, ← mul_add]
    · simp only [if_neg hr, zero_add]
      exact ih

/-- what depends on the first `N` draws only is independent of the later ones -/
theorem indep_first (h : Spec.UniformDraws P ρ) (N : Nat) (p : ℝ) {φ : (Nat → Bool) → ℝ}
    (hφ : ∀ k k' : Nat → Bool, (∀ i, i < N → k i = k' i) → φ k = φ k') (i : Nat) :
    IndepFun (fun ω => φ (mask ρ p ω)) (ρ (N + i)) P := by
  have hd : Disjoint (Finset.range N) {N + i} := by
    rw [Finset.disjoint_singleton_right, Finset.mem_range]; omega
  have hind := h.indep.indepFun_finset (Finset.range N) {N + i} hd h.measurable
  let ψ : (Finset.range N → Bool) → ℝ := fun b => φ fun j => if hj : j ∈ Finset.range N then b ⟨j, hj⟩ else false
  let B : (Finset.range N → ℝ) → (Finset.range N → Bool) := fun x j => decide (x j < 1 - p)
  have hB : Measurable B := by
    refine measurable_pi_lambda _ fun j => measurable_to_bool ?_
    have : (fun x : Finset.range N → ℝ => B x j) ⁻¹' {true} = {x | x j < 1 - p} := by
      ext x; simp [B]
    rw [this]
    exact measurableSet_lt (measurable_pi_apply j) measurable_const
  have hψ : Measurable ψ := measurable_of_finite ψ
  have hG : Measurable fun y : ({N + i} : Finset Nat) → ℝ => y ⟨N + i, Finset.mem_singleton_self _⟩ := measurable_pi_apply _
  have := hind.comp (hψ.comp hB) hG
  refine (this : IndepFun _ _ P).congr ?_ ?_
  · refine Filter.Eventually.of_forall fun ω => ?_
    show ψ (B fun j => ρ j ω) = φ (mask ρ p ω)
    refine hφ _ _ fun j hj => ?_
    rw [dif_pos (Finset.mem_range.2 hj)]
  · exact Filter.Eventually.of_forall fun ω => rfl

/-- only as many draws are read as there are stored entries -/
theorem evDrop_congr (M : Sp ℝ) (p : ℝ) {k k' : Nat → Bool} (h : ∀ i, i < M.coalesce.ents.length → k i = k' i) :
    Graph.evDrop M p k = Graph.evDrop M p k' := by
  unfold Graph.evDrop sparseDropout
  have : (M.coalesce.ents.zipIdx.map fun e => (e.1.1, if k e.2 then e.1.2 else 0)) =
      M.coalesce.ents.zipIdx.map fun e => (e.1.1, if k' e.2 then e.1.2 else (0 : ℝ)) := by
    refine List.map_congr_left fun e he => ?_
    have := List.snd_lt_of_mem_zipIdx he
    rw [h e.2 (by omega)]
  simp only [this]

/-- a product with a dropped matrix, the features random and independent of the draws -/
theorem mean_drop_indep (h : Spec.UniformDraws P ρ) {p : ℝ} (h0 : 0 ≤ p) (h1 : p ≤ 1) {M : Sp ℝ} {V Y : Dense ℝ} (hY : M.mmD V = .ok Y)
    {t : ℝ} {F : Ω → Dense ℝ} (hF : Spec.MeanShare P t F V) (hi : ∀ k c j, IndepFun (fun ω => (F ω).at_ k c) (ρ j) P) :
    ∃ Z : Ω → Dense ℝ, (∀ ω, (Graph.evDrop M p (mask ρ p ω) >>= fun N => N.mmD (F ω)) = .ok (Z ω)) ∧
      Spec.MeanShare P (t * (1 - p)) Z Y := by
  have hcols : M.cols = V.rows := (Sp.mmD_shape hY).1
  have hYat : ∀ i c, Y.at_ i c = row M.ents i fun k => V.at_ k c := by
    intro i c
    unfold Sp.mmD at hY
    rw [if_pos hcols] at hY
    cases hY
    rfl
  rcases h0.eq_or_lt with rfl | hp
  · obtain ⟨Z, hZ, hs, hm⟩ := mean_mmD hY hF.1 hF.2
    refine ⟨Z, fun ω => ?_, hs, by simpa using hm⟩
    rw [evDrop_zero]
    exact hZ ω
  · refine ⟨fun ω => { rows := M.rows, cols := (F ω).cols, at_ := fun i c => row (M.coalesce.ents.zipIdx.map fun e =>
        (e.1.1, if decide (ρ e.2 ω < 1 - p) then e.1.2 else 0)) i fun k => (F ω).at_ k c }, fun ω => ?_, fun ω => ?_, ?_⟩
    · unfold Graph.evDrop sparseDropout
      rw [if_pos hp]
      simp only
      rw [if_pos ⟨hp.le, h1⟩, if_neg hp.ne']
      simp only [bind, Except.bind]
      unfold Sp.mmD
      rw [if_pos (show M.coalesce.cols = (F ω).rows from hcols.trans (hF.1 ω).1.symm)]
      rfl
    · exact ⟨(Sp.mmD_shape hY).2.1.symm, (hF.1 ω).2.trans (Sp.mmD_shape hY).2.2.symm⟩
    · intro i c
      have := mean_terms_indep h hp.le h1 i (f := fun k ω => (F ω).at_ k c) (m := fun k => t * V.at_ k c) (fun k => hF.2 k c)
        (fun k j => hi k c j) M.coalesce.ents.zipIdx
      rw [List.zipIdx_map_fst, row_coalesce] at this
      refine ⟨this.1, this.2.trans ?_⟩
      have hlin : row M.ents i (fun k => t * V.at_ k c) = t * row M.ents i fun k => V.at_ k c := by
        unfold row
        rw [← List.sum_map_mul_left]
        congr 1
        refine List.map_congr_left fun e _ => ?_
        split
        · ring
        · ring
      rw [hlin, ← hYat]
      ring

/-- `share_agg` for random features that are independent of the draws -/
theorem share_agg_indep (h : Spec.UniformDraws P ρ) {p : ℝ} (h0 : 0 ≤ p) (h1 : p ≤ 1) {evP evD : HRaw ℝ → Except Err (Sp ℝ)} {r : HRaw ℝ}
    {k : Nat → Bool} {V Y : Dense ℝ} {aggr : Aggr} (ha : aggr = .sum ∨ aggr = .mean)
    (hY : Hyper.evAgg evP evD V aggr none 0 k r = .ok Y) {t : ℝ} {F : Ω → Dense ℝ} (hF : Spec.MeanShare P t F V)
    (hi : ∀ k c j, IndepFun (fun ω => (F ω).at_ k c) (ρ j) P) :
    ∃ Z : Ω → Dense ℝ, (∀ ω, Hyper.evAgg evP evD (F ω) aggr none p (mask ρ p ω) r = .ok (Z ω)) ∧
      Spec.MeanShare P (t * (1 - p)) Z Y := by
  unfold Hyper.evAgg at hY ⊢
  rcases ha with rfl | rfl
  · simp only [reduceCtorEq, if_false, bind, Except.bind] at hY ⊢
    rcases hM : evP r with e | M
    · rw [hM] at hY; cases hY
    · rw [hM] at hY
      simp only [evDrop_zero] at hY
      obtain ⟨Z, hZ, hm⟩ := mean_drop_indep h h0 h1 hY hF hi
      exact ⟨Z, fun ω => hZ ω, hm⟩
  · simp only [reduceCtorEq, if_false, bind, Except.bind] at hY ⊢
    rcases hM : evP r with e | M
    · rw [hM] at hY; cases hY
    · rw [hM] at hY
      simp only [evDrop_zero] at hY
      rcases hW : M.mmD V with e | W
      · rw [hW] at hY; cases hY
      · rw [hW] at hY
        simp only at hY
        rcases hD : evD r with e | D
        · rw [hD] at hY; cases hY
        · rw [hD] at hY
          simp only at hY
          obtain ⟨Z, hZ, hm⟩ := mean_drop_indep h h0 h1 hW hF hi
          obtain ⟨Z', hZ', hs', hm'⟩ := mean_mmD hY hm.1 hm.2
          refine ⟨Z', fun ω => ?_, hs', hm'⟩
          have := hZ ω
          simp only [bind, Except.bind] at this
          rcases hN : Graph.evDrop M p (mask ρ p ω) with e | N
          · rw [hN] at this; cases this
          · rw [hN] at this
            simp only at this
            simp only [hN, this]
            exact hZ' ω

end Law

open Law

variable {Ω : Type} [MeasurableSpace Ω] {P : Measure Ω} [IsProbabilityMeasure P] {ρ : Nat → Ω → ℝ}

/-- C138 (Hypergraph). `v2v` with drop rates `p` and `q` for its halves, the second half taking the draws after those of
the first (one for each connection): the mean is `(1 - p) * (1 - q)` times the result without dropout. -/
theorem C138_hypergraph_v2v_dropout (h : Spec.UniformDraws P ρ) {p q : ℝ} (h0 : 0 ≤ p) (h1 : p ≤ 1) (g0 : 0 ≤ q) (g1 : q ≤ 1)
    {b : Bool} {s : HSt ℝ} (hs : Hyper.Built Hyper.Proper b s) {sc : Option String} (hsc : Spec.HasScope s sc) {a : Hyper.V2VArgs ℝ}
    (ha1 : a.v2eAggr.getD a.aggr = .sum ∨ a.v2eAggr.getD a.aggr = .mean)
    (ha2 : a.e2vAggr.getD a.aggr = .sum ∨ a.e2vAggr.getD a.aggr = .mean)
    (hw1 : a.v2eWeight = none) (hw2 : a.eWeight = none) (hw3 : a.e2vWeight = none) {send : List Nat}
    (hsend : (Hyper.ask (.v2eSrc sc) s).1 = .ok (.idx send)) {X Y : Dense ℝ}
    (hY : (Hyper.ask (.v2v sc X { a with v2eRate := some 0, e2vRate := some 0 }) s).1 = .ok (.feat Y)) :
    ∃ Z : Ω → Dense ℝ, (∀ ω, (Hyper.ask (.v2v sc X { a with
          v2eRate := some p, keep1 := fun i => decide (ρ i ω < 1 - p)
          e2vRate := some q, keep2 := fun i => decide (ρ (send.length + i) ω < 1 - q) }) s).1 = .ok (.feat (Z ω))) ∧
      Spec.MeanShare P ((1 - p) * (1 - q)) Z Y := by
  have hs' := hs.mono (Q := Hyper.AnyH) fun _ _ _ => trivial
  obtain ⟨hi, hc⟩ := hs'.inv
  obtain ⟨M, hM, hT, hI⟩ := Hyper.evHT_spec hi hs.inRange (Hy.has_of_scope hsc)
  have hN : M.t.coalesce.ents.length = send.length := by
    rw [Hyper.ask_eq _ hc (.inr (by simp))] at hsend
    simp only [Hyper.evAsk, hT, bind, Except.bind] at hsend
    have hsend' : send = M.t.ents.map (fun e => e.1.2) := by
      injection hsend with h; injection h with h; exact h.symm
    have hnd : (M.t.ents.map Prod.fst).Nodup := by
      have : M.t.ents.map Prod.fst = (M.ents.map Prod.fst).map Prod.swap := by
        simp only [Sp.t, List.map_map]; rfl
      rw [this]; exact hI.nodup.map Prod.swap_injective
    rw [hsend', List.length_map]
    exact (Ord.coalesce_perm hnd).length_eq
  -- the first half without dropout
  set a0 : Hyper.V2VArgs ℝ := { a with v2eRate := some 0, e2vRate := some 0 } with ha0
  obtain ⟨c1, c2⟩ := C37_hypergraph_v2v_is_composition hs' hsc X a0
  have hE : ∃ E, (Hyper.ask (.v2e sc X (a.v2eAggr.getD a.aggr) none none 0 a.keep1) s).1 = .ok (.feat E) := by
    have hq : (Hyper.ask (.v2e sc X (a0.v2eAggr.getD a0.aggr) a0.v2eWeight a0.eWeight (a0.v2eRate.getD a0.rate) a0.keep1) s).1 =
        (Hyper.ask (.v2e sc X (a.v2eAggr.getD a.aggr) none none 0 a.keep1) s).1 := by
      simp only [ha0, hw1, hw2, Option.getD_some]
    rw [hq] at c2
    rw [Hyper.ask_eq _ hc (.inr (by simp))] at c2 ⊢
    simp only [Hyper.evAsk] at c2 ⊢
    rcases hv : Hyper.evV2e sc X (a.v2eAggr.getD a.aggr) none none 0 a.keep1 s.raw with e | E
    · have := c2 e (by rw [hv]; rfl)
      rw [hY] at this; cases this
    · exact ⟨E, rfl⟩
  obtain ⟨E, hE⟩ := hE
  have hEY : (Hyper.ask (.e2v sc E (a.e2vAggr.getD a.aggr) none 0 a.keep2) s).1 = .ok (.feat Y) := by
    have := c1 E (by simpa only [ha0, hw1, hw2, Option.getD_some] using hE)
    rw [hY] at this
    simpa only [ha0, hw3, Option.getD_some] using this.symm
  -- the first half with dropout
  obtain ⟨F, hF, hFm⟩ := (C138_hypergraph_dropout h h0 h1 hs' ha1).1 hE
  -- it depends on the first draws only
  have hind : ∀ k c j, IndepFun (fun ω => (F ω).at_ k c) (ρ (send.length + j)) P := by
    intro k c j
    let φ : (Nat → Bool) → ℝ := fun keep =>
      match Hyper.evV2e sc X (a.v2eAggr.getD a.aggr) none none p keep s.raw with
      | .ok D => D.at_ k c
      | .error _ => 0
    have hφ : ∀ m m' : Nat → Bool, (∀ i, i < send.length → m i = m' i) → φ m = φ m' := by
      intro m m' hm
      have : Hyper.evV2e sc X (a.v2eAggr.getD a.aggr) none none p m s.raw =
          Hyper.evV2e sc X (a.v2eAggr.getD a.aggr) none none p m' s.raw := by
        simp only [Hyper.evV2e, Hyper.evV2eAggr, Hyper.evAgg, hT, bind, Except.bind,
          evDrop_congr M.t p (k := m) (k' := m') fun i hi => hm i (hN ▸ hi)]
      simp only [φ, this]
    have hFφ : (fun ω => (F ω).at_ k c) = fun ω => φ (mask ρ p ω) := by
      funext ω
      have := hF ω
      rw [Hyper.ask_eq _ hc (.inr (by simp))] at this
      simp only [Hyper.evAsk] at this
      rcases hv : Hyper.evV2e sc X (a.v2eAggr.getD a.aggr) none none p (mask ρ p ω) s.raw with e | D
      · rw [hv] at this; cases this
      · rw [hv] at this; cases this
        simp only [φ, hv]
    rw [hFφ]
    exact indep_first h send.length p hφ j
  -- the second half
  have h' : Spec.UniformDraws P fun i => ρ (send.length + i) :=
    ⟨fun i => h.measurable _, fun i => h.range _, fun i => h.law _, h.indep.precomp (g := fun i => send.length + i) fun x y e => by
      simpa using e⟩
  rw [Hyper.ask_eq _ hc (.inr (by simp))] at hEY
  simp only [Hyper.evAsk, Hyper.evE2v, Hyper.evE2vAggr, Hyper.evE2vUpd] at hEY
  rcases hk : Hyper.chk sc s.raw with e | u
  · rw [hk] at hEY; cases hEY
  · rw [hk] at hEY
    rcases hA : Hyper.evAgg (Hyper.evH sc) (Hyper.evDvN1 sc) E (a.e2vAggr.getD a.aggr) none 0 a.keep2 s.raw with e | W
    · simp only [bind, Except.bind, hA] at hEY; cases hEY
    · simp only [bind, Except.bind, hA] at hEY; cases hEY
      obtain ⟨Z, hZ, hm⟩ := share_agg_indep h' g0 g1 ha2 hA hFm hind
      refine ⟨Z, fun ω => ?_, hm⟩
      have := (C37_hypergraph_v2v_is_composition hs' hsc X { a with
          v2eRate := some p, keep1 := fun i => decide (ρ i ω < 1 - p)
          e2vRate := some q, keep2 := fun i => decide (ρ (send.length + i) ω < 1 - q) }).1 (F ω)
        (by simpa only [hw1, hw2, Option.getD_some] using hF ω)
      rw [this]
      simp only [hw3, Option.getD_some]
      rw [Hyper.ask_eq _ hc (.inr (by simp))]
      simp only [Hyper.evAsk, Hyper.evE2v, Hyper.evE2vAggr, Hyper.evE2vUpd, hk, bind, Except.bind]
      have hz := hZ ω
      rw [hz]

/-- three hyperedges, sums in both halves: on average `3/4 * 1/2` of the result is left -/
example : ∃ (P : Measure (Nat → ℝ)) (ρ : Nat → (Nat → ℝ) → ℝ) (send : List Nat) (X Y : Dense ℝ) (Z : (Nat → ℝ) → Dense ℝ),
    IsProbabilityMeasure P ∧ (Hyper.ask (.v2eSrc none) exH).1 = .ok (.idx send) ∧ send.length = 6 ∧
    (Hyper.ask (.v2v none X { aggr := .sum, rate := 0, v2eRate := some 0, e2vRate := some 0 }) exH).1 = .ok (.feat Y) ∧
    (∀ ω, (Hyper.ask (.v2v none X {
          aggr := .sum
          rate := 0
          v2eRate := some (1 / 4)
          keep1 := fun i => decide (ρ i ω < 1 - 1 / 4)
          e2vRate := some (1 / 2)
          keep2 := fun i => decide (ρ (send.length + i) ω < 1 - 1 / 2) }) exH).1 = .ok (.feat (Z ω))) ∧
    Spec.MeanShare P ((1 - 1 / 4) * (1 - 1 / 2)) Z Y := by
  obtain ⟨P, ρ, hP, h⟩ := C133_draws_exist
  have hsc : Spec.HasScope exH none := List.cons_ne_nil _ _
  have hsend : (Hyper.ask (.v2eSrc none) exH).1 = .ok (.idx [0, 1, 1, 2, 3, 3]) := by
    rw [Hyper.ask_eq _ exH_proper.inv.2 (.inr (by simp))]; rfl
  obtain ⟨⟨E, hE, hr, -⟩, -⟩ := C37_hypergraph_v2e_partial exH_proper (sc := none) hsc (n := 4) rfl
    (⟨4, 1, fun i _ => (i : ℝ)⟩ : Dense ℝ) rfl fun _ => true
  obtain ⟨⟨Y, hY, -⟩, -⟩ := C37_hypergraph_e2v_partial exH_proper (sc := none) hsc (n := 4) rfl E hr fun _ => true
  have hv := (C37_hypergraph_v2v_is_composition exH_built hsc (⟨4, 1, fun i _ => (i : ℝ)⟩ : Dense ℝ)
    { aggr := .sum, rate := 0, v2eRate := some 0, e2vRate := some 0 }).1 E hE
  obtain ⟨Z, hZ, hm⟩ := C138_hypergraph_v2v_dropout h (p := 1 / 4) (q := 1 / 2) (by norm_num) (by norm_num) (by norm_num) (by norm_num)
    exH_proper hsc (a := { aggr := .sum, rate := 0 }) (.inl rfl) (.inl rfl) rfl rfl rfl hsend (hv.trans hY)
  exact ⟨P, ρ, _, _, Y, Z, hP, hsend, rfl, hv.trans hY, hZ, hm⟩

end Props
end DHG
