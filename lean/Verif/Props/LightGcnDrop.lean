import Verif.Props.DropTwice
import Verif.Props.Recommend

/-!
# The mean of `LightGCN` in training (C140)
-/

set_option linter.unusedSectionVars false
set_option autoImplicit false

open MeasureTheory ProbabilityTheory

namespace DHG

namespace Spec

/-- Layer `l` of `k` keeps the stored entry `i` if the draw number `l * N + i` says so: `N` draws for each layer, one layer
after the other. -/
noncomputable def layerKeeps (N : Nat) (p : ℝ) (k : Nat) (draws : Nat → ℝ) : List (Nat → Bool) :=
  (List.range k).map fun l i => decide (draws (l * N + i) < 1 - p)

/-- `U` are random tables of `m` rows and `d` columns with the means `E` -/
def MeanTable {Ω : Type} [MeasurableSpace Ω] (P : Measure Ω) (m d : Nat) (U : Ω → Dense ℝ) (E : Nat → Nat → ℝ) : Prop :=
  (∀ ω, (U ω).rows = m ∧ (U ω).cols = d) ∧
    ∀ i c, i < m → c < d → Integrable (fun ω => (U ω).at_ i c) P ∧ ∫ ω, (U ω).at_ i c ∂P = E i c

end Spec

namespace Props
namespace Law

open Finset Nn

section
variable (L : Sp ℝ) (p : ℝ) (N : Nat) (E : Dense ℝ)

/-- the embeddings after `l` layers, `m` telling what is kept -/
noncomputable def gcnLayers (m : Nat → Bool) : Nat → Dense ℝ
  | 0 => E
  | l + 1 =>
    match (Graph.evDrop L p (fun i => m (l * N + i)) >>= fun A => A.mmD (gcnLayers m l)) with
    | .ok D => D
    | .error _ => E

variable {L p N E}

theorem gcnLayers_local (hN : L.coalesce.ents.length ≤ N) {m m' : Nat → Bool} (l : Nat) (h : ∀ i, i < l * N → m i = m' i) :
    gcnLayers L p N E m l = gcnLayers L p N E m' l := by
  induction l with
  | zero => rfl
  | succ l ih =>
    rw [Nat.succ_mul] at h
    have hd := evDrop_congr L p (k := fun i => m (l * N + i)) (k' := fun i => m' (l * N + i)) fun i hi => h _ (by omega)
    simp only [gcnLayers, ih fun i hi => h i (by omega), hd]

end

theorem sum_map_range (f : Nat → ℝ) (k : Nat) : ((List.range k).map f).sum = ∑ l ∈ range k, f l := by
  induction k with
  | zero => simp
  | succ k ih => rw [List.range_succ, List.map_append, List.sum_append, ih, sum_range_succ]; simp

theorem spread_succ (A : Nat → Nat → ℝ) (n t : Nat) : ∀ (E : Nat → Nat → ℝ) (i c : Nat),
    Spec.spread A n (t + 1) E i c = ∑ j ∈ range n, A i j * Spec.spread A n t E j c := by
  induction t with
  | zero => intro E i c; rfl
  | succ t ih =>
    intro E i c
    rw [Spec.spread, ih]
    rfl

variable {Ω : Type} [MeasurableSpace Ω] {P : Measure Ω} [IsProbabilityMeasure P] {ρ : Nat → Ω → ℝ}

theorem shift_draws (h : Spec.UniformDraws P ρ) (o : Nat) : Spec.UniformDraws P fun i => ρ (o + i) :=
  ⟨fun i => h.measurable _, fun i => h.range _, fun i => h.law _, h.indep.precomp (g := fun i => o + i) fun x y e => by
    simpa using e⟩

/-- the layers, their means and that each is made from the one before -/
theorem gcnLayers_mean (h : Spec.UniformDraws P ρ) {p : ℝ} (h0 : 0 ≤ p) (h1 : p ≤ 1) {L : Sp ℝ} {N n : Nat}
    (hN : L.coalesce.ents.length ≤ N) {E : Dense ℝ} (hE : E.rows = n)
    (hL : ∀ X : Dense ℝ, X.rows = n → ∃ Y, L.mmD X = .ok Y ∧ Y.rows = n ∧ Y.cols = X.cols ∧
      ∀ i c, Y.at_ i c = ∑ j ∈ range n, L.get i j * X.at_ j c) (l : Nat) :
    ∃ W : Dense ℝ, W.rows = n ∧ W.cols = E.cols ∧ (∀ i c, W.at_ i c = Spec.spread L.get n l E.at_ i c) ∧
      Spec.MeanShare P ((1 - p) ^ l) (fun ω => gcnLayers L p N E (mask ρ p ω) l) W ∧
      ∀ ω, (Graph.evDrop L p (fun i => mask ρ p ω (l * N + i)) >>= fun A => A.mmD (gcnLayers L p N E (mask ρ p ω) l)) =
        .ok (gcnLayers L p N E (mask ρ p ω) (l + 1)) := by
  have step : ∀ (l : Nat) (W : Dense ℝ), W.rows = n →
      Spec.MeanShare P ((1 - p) ^ l) (fun ω => gcnLayers L p N E (mask ρ p ω) l) W →
      ∃ W' : Dense ℝ, L.mmD W = .ok W' ∧ Spec.MeanShare P ((1 - p) ^ (l + 1)) (fun ω => gcnLayers L p N E (mask ρ p ω) (l + 1)) W' ∧
        ∀ ω, (Graph.evDrop L p (fun i => mask ρ p ω (l * N + i)) >>= fun A => A.mmD (gcnLayers L p N E (mask ρ p ω) l)) =
          .ok (gcnLayers L p N E (mask ρ p ω) (l + 1)) := by
    intro l W hW hm
    obtain ⟨W', hW', -, -, -⟩ := hL W hW
    obtain ⟨Z, hZ, hZm⟩ := mean_drop_indep (shift_draws h (l * N)) h0 h1 hW' hm fun k c j =>
      indep_first h (l * N) p (φ := fun m => (gcnLayers L p N E m l).at_ k c)
        (fun m m' hmm => by rw [gcnLayers_local hN l hmm]) j
    have hG : ∀ ω, gcnLayers L p N E (mask ρ p ω) (l + 1) = Z ω := by
      intro ω
      have := hZ ω
      simp only [gcnLayers]
      rw [show (fun i => mask ρ p ω (l * N + i)) = mask (fun i => ρ (l * N + i)) p ω from rfl, this]
    refine ⟨W', hW', ?_, fun ω => by rw [hG]; exact hZ ω⟩
    simp only [hG, pow_succ]
    exact hZm
  have main : ∀ l, ∃ W : Dense ℝ, W.rows = n ∧ W.cols = E.cols ∧ (∀ i c, W.at_ i c = Spec.spread L.get n l E.at_ i c) ∧
      Spec.MeanShare P ((1 - p) ^ l) (fun ω => gcnLayers L p N E (mask ρ p ω) l) W := by
    intro l
    induction l with
    | zero => exact ⟨E, hE, rfl, fun i c => rfl, fun ω => ⟨rfl, rfl⟩, fun i c => ⟨integrable_const (E.at_ i c), by simp [gcnLayers]⟩⟩
    | succ l ih =>
      obtain ⟨W, w1, w2, w3, w4⟩ := ih
      obtain ⟨W', s1, s2, -⟩ := step l W w1 w4
      obtain ⟨W'', e1, e2, e3, e4⟩ := hL W w1
      rw [s1] at e1; cases e1
      refine ⟨W', e2, e3.trans w2, fun i c => ?_, s2⟩
      rw [e4, spread_succ]
      exact sum_congr rfl fun j _ => by rw [w3]
  obtain ⟨W, w1, w2, w3, w4⟩ := main l
  obtain ⟨W', s1, s2, s3⟩ := step l W w1 w4
  exact ⟨W, w1, w2, w3, w4, s3⟩

/-- the loop of `LightGCN.forward` -/
theorem layerwise_gcn {g : BSt ℝ} {L : Sp ℝ} (hL : Ord.evLGCN g.raw = .ok L) {p : ℝ} {N : Nat} {E : Dense ℝ} {m : Nat → Bool}
    (hs : ∀ l, (Graph.evDrop L p (fun i => m (l * N + i)) >>= fun A => A.mmD (gcnLayers L p N E m l)) =
      .ok (gcnLayers L p N E m (l + 1))) (k : Nat) : ∀ (l : Nat) (s : BSt ℝ), Coherent (Ord.evKey .bi) s → s.raw = g.raw →
    ∃ s', layerwise (((List.range' l k).map fun l i => m (l * N + i)).map fun keep X => BiGraph.smoothGCN X p keep)
      (gcnLayers L p N E m l) s = (.ok ((List.range' l (k + 1)).map (gcnLayers L p N E m)), s') := by
  induction k with
  | zero => intro l s _ _; exact ⟨s, rfl⟩
  | succ k ih =>
    intro l s hc hr
    have h1 := BiGraph.reads_smoothGCN (gcnLayers L p N E m l) p (fun i => m (l * N + i)) s hc
    obtain ⟨s', hs'⟩ := ih (l + 1) _ h1.2.2 (h1.2.1.trans hr)
    have h2 : (BiGraph.smoothGCN (gcnLayers L p N E m l) p (fun i => m (l * N + i)) s).1 = .ok (gcnLayers L p N E m (l + 1)) := by
      rw [h1.1, hr, ← hs l]
      simp only [BiGraph.evSmoothGCN, hL]
      rfl
    refine ⟨s', ?_⟩
    rw [List.range'_succ, List.map_cons, List.map_cons, layerwise, PyM.bind_apply]
    rw [show BiGraph.smoothGCN (gcnLayers L p N E m l) p (fun i => m (l * N + i)) s =
      (.ok (gcnLayers L p N E m (l + 1)), (BiGraph.smoothGCN (gcnLayers L p N E m l) p (fun i => m (l * N + i)) s).2) from Prod.ext h2 rfl]
    simp only [PyM.bind_apply, hs', PyM.pure_apply]
    rw [List.range'_succ (s := l), List.map_cons]

end Law

open Law Finset Nn

variable {Ω : Type} [MeasurableSpace Ω] {P : Measure Ω} [IsProbabilityMeasure P] {ρ : Nat → Ω → ℝ}

/-- C140. `LightGCN` in training with `k` layers and drop rate `p`, every layer taking the draws after those of the layer
before: the forward pass succeeds, and on average the embedding of each user and item is the mean over `t = 0, ..., k` of
`(1 - p)^t` times the rows of `L_GCN^t E`. -/
theorem C140_lightgcn_training (h : Spec.UniformDraws P ρ) {p : ℝ} (h0 : 0 ≤ p) (h1 : p ≤ 1) {g : BSt ℝ} {d : Nat} {M : Rec ℝ}
    (hg : BiGraph.Built Graph.NonNeg g)
    (hm : (BiGraph.ask .numU g).1 = .ok (.num M.numUsers)) (hn : (BiGraph.ask .numV g).1 = .ok (.num M.numItems))
    (hw : Spec.NonnegWeights (Spec.listingB g)) {L : Sp ℝ}
    (hL : (BiGraph.ask .LGCN g).1 = .ok (.mat L)) (hM : Spec.RecFits M d) (k : Nat) {N : Nat} (hN : L.coalesce.ents.length ≤ N) :
    ∃ U V : Ω → Dense ℝ, (∀ ω, (lightGcn M p true (Spec.layerKeeps N p k fun i => ρ i ω) g).1 = .ok (U ω, V ω)) ∧
      Spec.MeanTable P M.numUsers d U (fun i c =>
        (∑ t ∈ range (k + 1), (1 - p) ^ t * Spec.spread L.get (M.numUsers + M.numItems) t (Spec.allEmb M) i c) / ((k + 1 : Nat) : ℝ)) ∧
      Spec.MeanTable P M.numItems d V (fun i c =>
        (∑ t ∈ range (k + 1), (1 - p) ^ t * Spec.spread L.get (M.numUsers + M.numItems) t (Spec.allEmb M) (M.numUsers + i) c) /
          ((k + 1 : Nat) : ℝ)) := by
  obtain ⟨E, hE, e1, e2, e3⟩ := catRows_run hM
  have hEat : E.at_ = Spec.allEmb M := funext fun i => funext fun c => e3 i c
  have hLe : Ord.evLGCN g.raw = .ok L := by
    rw [hg.ask] at hL
    simp only [BiGraph.evAsk] at hL
    rcases hv : Ord.evLGCN g.raw with e | L'
    · rw [hv] at hL; cases hL
    · rw [hv] at hL; cases hL; rfl
  have hmm : ∀ X : Dense ℝ, X.rows = M.numUsers + M.numItems → ∃ Y, L.mmD X = .ok Y ∧ Y.rows = M.numUsers + M.numItems ∧
      Y.cols = X.cols ∧ ∀ i c, Y.at_ i c = ∑ j ∈ range (M.numUsers + M.numItems), L.get i j * X.at_ j c := by
    intro X hX
    obtain ⟨A, hA⟩ : ∃ A, (BiGraph.ask .A g).1 = .ok (.mat A) := by
      have hx : Spec.Bipartite M.numUsers M.numItems g := by
        rw [← Bi.numV_eq hn, ← Bi.numU_eq hm]; exact Bi.bipartite_of_LGCN hg hL
      obtain ⟨B, _, hB, _⟩ := C25_bigraph_incidence hg hm hn hx
      obtain ⟨A', hA', _⟩ := C25_bigraph_A_blocks hg hm hn hx hB
      exact ⟨A', hA'⟩
    obtain ⟨L', s, hL', _, _, _, hY⟩ := C65_bigraph_LGCN hg hm hn hw hA
    rw [hL] at hL'; cases hL'
    obtain ⟨Y, hY, y1, y2, y3⟩ := hY X (fun _ => true) hX
    refine ⟨Y, ?_, y1, y2, y3⟩
    rw [hg.ask] at hY
    simp only [BiGraph.evAsk, BiGraph.evSmoothGCN, hLe, bind, Except.bind, evDrop_zero] at hY
    rcases hv : L.mmD X with e | Z
    · rw [hv] at hY; cases hY
    · rw [hv] at hY; cases hY; rfl
  have hlay := gcnLayers_mean h h0 h1 hN e1 hmm
  have hrun : ∀ ω, Spec.Splits M.numUsers M.numItems d (fun i c =>
      (∑ t ∈ range (k + 1), (gcnLayers L p N E (mask ρ p ω) t).at_ i c) / ((k + 1 : Nat) : ℝ))
      (lightGcn M p true (Spec.layerKeeps N p k fun i => ρ i ω) g).1 := by
    intro ω
    obtain ⟨s', hs'⟩ := layerwise_gcn hLe (fun l => by obtain ⟨_, _, _, _, _, hl⟩ := hlay l; exact hl ω) k 0 g hg.coh rfl
    have hr : (lightGcn M p true (Spec.layerKeeps N p k fun i => ρ i ω) g).1 =
        meanSplit M.numUsers M.numItems ((List.range' 0 (k + 1)).map (gcnLayers L p N E (mask ρ p ω))) := by
      rw [← List.range_eq_range'] at hs'
      have hs'' : layerwise ((Spec.layerKeeps N p k fun i => ρ i ω).map fun keep X => BiGraph.smoothGCN X p keep) E g =
        (.ok ((List.range' 0 (k + 1)).map (gcnLayers L p N E (mask ρ p ω))), s') := hs'
      simp only [lightGcn, PyM.bind_apply, PyM.lift_apply, hE, if_true, hs'']
    rw [hr]
    refine Splits.congr (meanSplit_run _ (by simp) ?_) fun i c _ _ => ?_
    · intro D hD
      obtain ⟨l, -, rfl⟩ := List.mem_map.1 hD
      obtain ⟨W, w1, w2, -, w4, -⟩ := hlay l
      exact ⟨(w4.1 ω).1.trans w1, ((w4.1 ω).2.trans w2).trans e2⟩
    · unfold Spec.meanEmb
      rw [List.map_map, List.map_map, List.length_map, List.length_map, List.length_range', ← List.range_eq_range', ← sum_map_range]
      rfl
  choose U V hUV u1 u2 v1 v2 hU hV using hrun
  have hmean : ∀ i c, Integrable (fun ω => (∑ t ∈ range (k + 1), (gcnLayers L p N E (mask ρ p ω) t).at_ i c) / ((k + 1 : Nat) : ℝ)) P ∧
      ∫ ω, (∑ t ∈ range (k + 1), (gcnLayers L p N E (mask ρ p ω) t).at_ i c) / ((k + 1 : Nat) : ℝ) ∂P =
        (∑ t ∈ range (k + 1), (1 - p) ^ t * Spec.spread L.get (M.numUsers + M.numItems) t (Spec.allEmb M) i c) / ((k + 1 : Nat) : ℝ) := by
    intro i c
    have hi : ∀ t ∈ range (k + 1), Integrable (fun ω => (gcnLayers L p N E (mask ρ p ω) t).at_ i c) P := by
      intro t _
      obtain ⟨W, -, -, -, w4, -⟩ := hlay t
      exact (w4.2 i c).1
    refine ⟨(integrable_finset_sum _ hi).div_const _, ?_⟩
    rw [integral_div, integral_finset_sum _ hi]
    congr 1
    refine sum_congr rfl fun t _ => ?_
    obtain ⟨W, -, -, w3, w4, -⟩ := hlay t
    rw [(w4.2 i c).2, w3, hEat]
  refine ⟨U, V, hUV, ⟨fun ω => ⟨u1 ω, u2 ω⟩, fun i c hi hc => ?_⟩, ⟨fun ω => ⟨v1 ω, v2 ω⟩, fun i c hi hc => ?_⟩⟩
  · simp only [hU _ i c hi hc]
    exact hmean i c
  · simp only [hV _ i c hi hc]
    exact hmean (M.numUsers + i) c

/-- two users, three items, three layers, one draw for each stored entry -/
example : ∃ (P : Measure (Nat → ℝ)) (ρ : Nat → (Nat → ℝ) → ℝ) (L : Sp ℝ) (N : Nat), IsProbabilityMeasure P ∧ Spec.UniformDraws P ρ ∧
    BiGraph.Built Graph.NonNeg exB ∧ (BiGraph.ask .numU exB).1 = .ok (.num exRec.numUsers) ∧
    (BiGraph.ask .numV exB).1 = .ok (.num exRec.numItems) ∧ Spec.NonnegWeights (Spec.listingB exB) ∧
    (BiGraph.ask .LGCN exB).1 = .ok (.mat L) ∧ Spec.RecFits exRec 2 ∧ L.coalesce.ents.length ≤ N := by
  obtain ⟨P, ρ, hP, h⟩ := C133_draws_exist
  obtain ⟨B, _, hB, _⟩ := C25_bigraph_incidence exB_nonneg exB_numU exB_numV exB_flag
  obtain ⟨A', hA', _⟩ := C25_bigraph_A_blocks exB_nonneg exB_numU exB_numV exB_flag hB
  obtain ⟨L, _, hL, _⟩ := C65_bigraph_LGCN exB_nonneg exB_numU exB_numV exB_nonnegWeights hA'
  exact ⟨P, ρ, L, _, hP, h, exB_nonneg, exB_numU, exB_numV, exB_nonnegWeights, hL, exRec_fits, le_refl _⟩

end Props
end DHG
