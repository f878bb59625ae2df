import Verif.Props.LightGcnDrop
import Verif.Props.Contract

/-!
# Repeated smoothing with dropout (C138)
-/

set_option linter.unusedSectionVars false
set_option autoImplicit false

open MeasureTheory ProbabilityTheory

namespace DHG

namespace Spec

/-- calls one after the other on one object, each on the features returned by the call before; the first error ends it -/
def successive {σ : Type} (call : Dense ℝ → (Nat → Bool) → σ → Except Err (Dense ℝ) × σ) :
    List (Nat → Bool) → Dense ℝ → σ → Except Err (Dense ℝ) × σ
  | [], X, s => (.ok X, s)
  | keep :: ks, X, s =>
    match call X keep s with
    | (.ok Y, s') => successive call ks Y s'
    | (.error e, s') => (.error e, s')

end Spec

namespace Props
namespace Law

variable {Ω : Type} [MeasurableSpace Ω] {P : Measure Ω} [IsProbabilityMeasure P] {ρ : Nat → Ω → ℝ}

theorem gcnLayers_step (h : Spec.UniformDraws P ρ) {p : ℝ} (h0 : 0 ≤ p) (h1 : p ≤ 1) {L : Sp ℝ} {N : Nat}
    (hN : L.coalesce.ents.length ≤ N) {E W W' : Dense ℝ} {l : Nat} (hW' : L.mmD W = .ok W')
    (hm : Spec.MeanShare P ((1 - p) ^ l) (fun ω => gcnLayers L p N E (mask ρ p ω) l) W) :
    Spec.MeanShare P ((1 - p) ^ (l + 1)) (fun ω => gcnLayers L p N E (mask ρ p ω) (l + 1)) W' ∧
      ∀ ω, (Graph.evDrop L p (fun i => mask ρ p ω (l * N + i)) >>= fun A => A.mmD (gcnLayers L p N E (mask ρ p ω) l)) =
        .ok (gcnLayers L p N E (mask ρ p ω) (l + 1)) := by
  obtain ⟨Z, hZ, hZm⟩ := mean_drop_indep (shift_draws h (l * N)) h0 h1 hW' hm fun k c j =>
    indep_first h (l * N) p (φ := fun m => (gcnLayers L p N E m l).at_ k c)
      (fun m m' hmm => by rw [gcnLayers_local hN l hmm]) j
  have hG : ∀ ω, gcnLayers L p N E (mask ρ p ω) (l + 1) = Z ω := by
    intro ω
    have := hZ ω
    simp only [gcnLayers]
    rw [show (fun i => mask ρ p ω (l * N + i)) = mask (fun i => ρ (l * N + i)) p ω from rfl, this]
  refine ⟨?_, fun ω => by rw [hG]; exact hZ ω⟩
  simp only [hG, pow_succ]
  exact hZm

section
variable {σ : Type} {call : ℝ → Dense ℝ → (Nat → Bool) → σ → Except Err (Dense ℝ) × σ} {I : σ → Prop} {L : Sp ℝ}

/-- what the calls without dropout return -/
theorem successive_chain (hc : ∀ p X keep s, I s → (call p X keep s).1 = (Graph.evDrop L p keep >>= fun A => A.mmD X) ∧
    I (call p X keep s).2) (kp : Nat → Bool) (k : Nat) : ∀ (X Y : Dense ℝ) (s : σ), I s →
    (Spec.successive (call 0) (List.replicate k kp) X s).1 = .ok Y →
    ∃ W : Nat → Dense ℝ, W 0 = X ∧ W k = Y ∧ ∀ l, l < k → L.mmD (W l) = .ok (W (l + 1)) := by
  induction k with
  | zero => intro X Y s _ h; cases h; exact ⟨fun _ => X, rfl, rfl, fun l hl => absurd hl (by omega)⟩
  | succ k ih =>
    intro X Y s hs h
    obtain ⟨h1, h2⟩ := hc 0 X kp s hs
    rw [evDrop_zero] at h1
    change (call 0 X kp s).1 = L.mmD X at h1
    rw [List.replicate_succ, Spec.successive] at h
    rcases hr : call 0 X kp s with ⟨r, s'⟩
    rw [hr] at h h1 h2
    rcases r with e | X1
    · cases h
    · obtain ⟨W, w0, wk, hW⟩ := ih X1 Y s' h2 h
      refine ⟨fun l => match l with | 0 => X | l + 1 => W l, rfl, wk, fun l hl => ?_⟩
      cases l with
      | zero => show L.mmD X = .ok (W 0); rw [w0]; exact h1.symm
      | succ l => exact hW l (by omega)

/-- what the calls with dropout return -/
theorem successive_run (hc : ∀ p X keep s, I s → (call p X keep s).1 = (Graph.evDrop L p keep >>= fun A => A.mmD X) ∧
    I (call p X keep s).2) {p : ℝ} {N : Nat} {E : Dense ℝ} {m : Nat → Bool} (k : Nat) : ∀ (l : Nat) (s : σ), I s →
    (∀ t, l ≤ t → t < l + k → (Graph.evDrop L p (fun i => m (t * N + i)) >>= fun A => A.mmD (gcnLayers L p N E m t)) =
      .ok (gcnLayers L p N E m (t + 1))) →
    (Spec.successive (call p) ((List.range' l k).map fun l i => m (l * N + i)) (gcnLayers L p N E m l) s).1 =
      .ok (gcnLayers L p N E m (l + k)) := by
  induction k with
  | zero => intro l s _ _; rfl
  | succ k ih =>
    intro l s hs h
    obtain ⟨h1, h2⟩ := hc p (gcnLayers L p N E m l) (fun i => m (l * N + i)) s hs
    rw [h l (le_refl _) (by omega)] at h1
    rw [List.range'_succ, List.map_cons, Spec.successive]
    rcases hr : call p (gcnLayers L p N E m l) (fun i => m (l * N + i)) s with ⟨r, s'⟩
    rw [hr] at h1 h2
    cases h1
    show (Spec.successive (call p) _ _ s').1 = _
    rw [ih (l + 1) s' h2 fun t ht ht' => h t (by omega) (by omega)]
    rw [show l + 1 + k = l + (k + 1) by omega]

theorem successive_mean (h : Spec.UniformDraws P ρ) {p : ℝ} (h0 : 0 ≤ p) (h1 : p ≤ 1)
    (hc : ∀ p X keep s, I s → (call p X keep s).1 = (Graph.evDrop L p keep >>= fun A => A.mmD X) ∧ I (call p X keep s).2)
    {N : Nat} (hN : L.coalesce.ents.length ≤ N) {s : σ} (hs : I s) {kp : Nat → Bool} {k : Nat} {X Y : Dense ℝ}
    (hY : (Spec.successive (call 0) (List.replicate k kp) X s).1 = .ok Y) :
    ∃ Z : Ω → Dense ℝ, (∀ ω, (Spec.successive (call p) (Spec.layerKeeps N p k fun i => ρ i ω) X s).1 = .ok (Z ω)) ∧
      Spec.MeanShare P ((1 - p) ^ k) Z Y := by
  obtain ⟨W, rfl, rfl, hW⟩ := successive_chain hc kp k X Y s hs hY
  have hm : ∀ l, l ≤ k → Spec.MeanShare P ((1 - p) ^ l) (fun ω => gcnLayers L p N (W 0) (mask ρ p ω) l) (W l) := by
    intro l
    induction l with
    | zero =>
      intro _
      exact ⟨fun ω => ⟨rfl, rfl⟩, fun i c => ⟨integrable_const ((W 0).at_ i c), by simp [gcnLayers]⟩⟩
    | succ l ih => intro hl; exact (gcnLayers_step h h0 h1 hN (hW l (by omega)) (ih (by omega))).1
  refine ⟨_, fun ω => ?_, hm k (le_refl _)⟩
  have := successive_run hc (p := p) (N := N) (E := W 0) (m := mask ρ p ω) k 0 s hs fun t _ ht =>
    (gcnLayers_step h h0 h1 hN (hW t (by omega)) (hm t (by omega))).2 ω
  rw [← List.range_eq_range', Nat.zero_add] at this
  exact this

theorem successive_ok (hc : ∀ p X keep s, I s → (call p X keep s).1 = (Graph.evDrop L p keep >>= fun A => A.mmD X) ∧
    I (call p X keep s).2) {n : Nat} (hL : ∀ X : Dense ℝ, X.rows = n → ∃ Y, L.mmD X = .ok Y ∧ Y.rows = n) (kp : Nat → Bool) (k : Nat) :
    ∀ (X : Dense ℝ) (s : σ), X.rows = n → I s → ∃ Y, (Spec.successive (call 0) (List.replicate k kp) X s).1 = .ok Y := by
  induction k with
  | zero => intro X s _ _; exact ⟨X, rfl⟩
  | succ k ih =>
    intro X s hX hs
    obtain ⟨h1, h2⟩ := hc 0 X kp s hs
    rw [evDrop_zero] at h1
    change (call 0 X kp s).1 = L.mmD X at h1
    obtain ⟨Y, hY, hr⟩ := hL X hX
    rw [hY] at h1
    rw [List.replicate_succ, Spec.successive]
    rcases he : call 0 X kp s with ⟨r, s'⟩
    rw [he] at h1 h2
    cases h1
    exact ih Y s' hr h2

end

theorem graph_call {g : GSt ℝ} {L : Sp ℝ} (hL : Graph.evLGCN g.raw = .ok L) (p : ℝ) (X : Dense ℝ) (keep : Nat → Bool) (s : GSt ℝ)
    (hs : Coherent Graph.evKey s ∧ s.raw = g.raw) :
    (Graph.smoothGCN X p keep s).1 = (Graph.evDrop L p keep >>= fun A => A.mmD X) ∧
      Coherent Graph.evKey (Graph.smoothGCN X p keep s).2 ∧ (Graph.smoothGCN X p keep s).2.raw = g.raw := by
  have h1 := Graph.reads_smoothGCN X p keep s hs.1
  refine ⟨?_, h1.2.2, h1.2.1.trans hs.2⟩
  rw [h1.1, hs.2, Graph.evSmoothGCN, hL]
  rfl

theorem hyper_call {b : Bool} {t : HSt ℝ} {sc : Option String} {L : Sp ℝ} (hL : Hyper.evLHGNN sc t.raw = .ok L) (p : ℝ) (X : Dense ℝ)
    (keep : Nat → Bool) (s : HSt ℝ) (hs : Hyper.Coh b s ∧ s.raw = t.raw) :
    (Hyper.smoothHGNN sc X p keep s).1 = (Graph.evDrop L p keep >>= fun A => A.mmD X) ∧
      Hyper.Coh b (Hyper.smoothHGNN sc X p keep s).2 ∧ (Hyper.smoothHGNN sc X p keep s).2.raw = t.raw := by
  have h1 := Hyper.reads_smooth sc X p keep s hs.1
  refine ⟨?_, h1.2.2, h1.2.1.trans hs.2⟩
  rw [h1.1, hs.2, Hyper.evSmooth, hL]
  rfl

theorem bi_call {g : BSt ℝ} {L : Sp ℝ} (hL : Ord.evLGCN g.raw = .ok L) (p : ℝ) (X : Dense ℝ) (keep : Nat → Bool) (s : BSt ℝ)
    (hs : Coherent (Ord.evKey .bi) s ∧ s.raw = g.raw) :
    (BiGraph.smoothGCN X p keep s).1 = (Graph.evDrop L p keep >>= fun A => A.mmD X) ∧
      Coherent (Ord.evKey .bi) (BiGraph.smoothGCN X p keep s).2 ∧ (BiGraph.smoothGCN X p keep s).2.raw = g.raw := by
  have h1 := BiGraph.reads_smoothGCN X p keep s hs.1
  refine ⟨?_, h1.2.2, h1.2.1.trans hs.2⟩
  rw [h1.1, hs.2, BiGraph.evSmoothGCN, hL]
  rfl

theorem evLGCN_of_ask {g : GSt ℝ} (hg : Graph.Built Graph.AnyArg g) {L : Sp ℝ} (hL : (Graph.ask .LGCN g).1 = .ok (.mat L)) :
    Graph.evLGCN g.raw = .ok L := by
  rw [(Graph.reads_ask _ g hg.inv.2).1] at hL
  simp only [Graph.evAsk] at hL
  rcases hv : Graph.evLGCN g.raw with e | L'
  · rw [hv] at hL; cases hL
  · rw [hv] at hL; cases hL; rfl

theorem evLGCN_of_askB {g : BSt ℝ} {Q : EArg ℝ → Prop} (hg : BiGraph.Built Q g) {L : Sp ℝ}
    (hL : (BiGraph.ask .LGCN g).1 = .ok (.mat L)) : Ord.evLGCN g.raw = .ok L := by
  rw [hg.ask] at hL
  simp only [BiGraph.evAsk] at hL
  rcases hv : Ord.evLGCN g.raw with e | L'
  · rw [hv] at hL; cases hL
  · rw [hv] at hL; cases hL; rfl

theorem evLHGNN_of_ask {b : Bool} {s : HSt ℝ} (hs : Hyper.Built Hyper.AnyH b s) {sc : Option String} {L : Sp ℝ}
    (hL : (Hyper.ask (.LHGNN sc) s).1 = .ok (.mat L)) : Hyper.evLHGNN sc s.raw = .ok L := by
  rw [Hyper.ask_eq _ hs.inv.2 (.inr (by simp))] at hL
  simp only [Hyper.evAsk] at hL
  rcases hv : Hyper.evLHGNN sc s.raw with e | L'
  · rw [hv] at hL; cases hL
  · rw [hv] at hL; cases hL; rfl

/-- a call without dropout that returns is the product with the matrix -/
theorem mmD_of_call {L : Sp ℝ} {X Y : Dense ℝ} {kp : Nat → Bool} {r : Except Err (Dense ℝ)}
    (h : r = (Graph.evDrop L 0 kp >>= fun A => A.mmD X)) (hr : r = .ok Y) : L.mmD X = .ok Y := by
  rw [evDrop_zero] at h
  exact h.symm.trans hr

end Law

open Law
open Graph (AnyArg)

variable {Ω : Type} [MeasurableSpace Ω] {P : Measure Ω} [IsProbabilityMeasure P] {ρ : Nat → Ω → ℝ}

/-- C138 (Graph). `k` calls of `smoothing_with_GCN` one after the other, each dropping with fresh draws: the mean is
`(1 - p)^k` times what the `k` calls without dropout return. -/
theorem C138_graph_smoothing_layers (h : Spec.UniformDraws P ρ) {p : ℝ} (h0 : 0 ≤ p) (h1 : p ≤ 1) {g : GSt ℝ} (hg : Graph.Built AnyArg g)
    {L : Sp ℝ} (hL : (Graph.ask .LGCN g).1 = .ok (.mat L)) {N : Nat} (hN : L.coalesce.ents.length ≤ N) {k : Nat} {kp : Nat → Bool}
    {X Y : Dense ℝ} (hY : (Spec.successive (fun X keep => Graph.smoothGCN X 0 keep) (List.replicate k kp) X g).1 = .ok Y) :
    ∃ Z : Ω → Dense ℝ,
      (∀ ω, (Spec.successive (fun X keep => Graph.smoothGCN X p keep) (Spec.layerKeeps N p k fun i => ρ i ω) X g).1 = .ok (Z ω)) ∧
      Spec.MeanShare P ((1 - p) ^ k) Z Y := by
  exact successive_mean (call := fun p X keep => Graph.smoothGCN X p keep)
    (I := fun s => Coherent Graph.evKey s ∧ s.raw = g.raw) (L := L) h h0 h1 (graph_call (evLGCN_of_ask hg hL)) hN ⟨hg.inv.2, rfl⟩ hY

/-- C138 (BiGraph). The same for `BiGraph.smoothing_with_GCN`. -/
theorem C138_bigraph_smoothing_layers (h : Spec.UniformDraws P ρ) {p : ℝ} (h0 : 0 ≤ p) (h1 : p ≤ 1) {Q : EArg ℝ → Prop} {g : BSt ℝ}
    (hg : BiGraph.Built Q g)
    {L : Sp ℝ} (hL : (BiGraph.ask .LGCN g).1 = .ok (.mat L)) {N : Nat} (hN : L.coalesce.ents.length ≤ N) {k : Nat} {kp : Nat → Bool}
    {X Y : Dense ℝ} (hY : (Spec.successive (fun X keep => BiGraph.smoothGCN X 0 keep) (List.replicate k kp) X g).1 = .ok Y) :
    ∃ Z : Ω → Dense ℝ,
      (∀ ω, (Spec.successive (fun X keep => BiGraph.smoothGCN X p keep) (Spec.layerKeeps N p k fun i => ρ i ω) X g).1 = .ok (Z ω)) ∧
      Spec.MeanShare P ((1 - p) ^ k) Z Y := by
  exact successive_mean (call := fun p X keep => BiGraph.smoothGCN X p keep)
    (I := fun s => Coherent (Ord.evKey .bi) s ∧ s.raw = g.raw) (L := L) h h0 h1 (bi_call (evLGCN_of_askB hg hL)) hN ⟨hg.coh, rfl⟩ hY

/-- C138 (Hypergraph). The same for `smoothing_with_HGNN` and its group version. -/
theorem C138_hypergraph_smoothing_layers (h : Spec.UniformDraws P ρ) {p : ℝ} (h0 : 0 ≤ p) (h1 : p ≤ 1) {b : Bool} {s : HSt ℝ}
    (hs : Hyper.Built Hyper.AnyH b s) {sc : Option String} {L : Sp ℝ} (hL : (Hyper.ask (.LHGNN sc) s).1 = .ok (.mat L)) {N : Nat}
    (hN : L.coalesce.ents.length ≤ N) {k : Nat} {kp : Nat → Bool} {X Y : Dense ℝ}
    (hY : (Spec.successive (fun X keep => Hyper.smoothHGNN sc X 0 keep) (List.replicate k kp) X s).1 = .ok Y) :
    ∃ Z : Ω → Dense ℝ,
      (∀ ω, (Spec.successive (fun X keep => Hyper.smoothHGNN sc X p keep) (Spec.layerKeeps N p k fun i => ρ i ω) X s).1 = .ok (Z ω)) ∧
      Spec.MeanShare P ((1 - p) ^ k) Z Y := by
  exact successive_mean (call := fun p X keep => Hyper.smoothHGNN sc X p keep)
    (I := fun t => Hyper.Coh b t ∧ t.raw = s.raw) (L := L) h h0 h1 (hyper_call (evLHGNN_of_ask hs hL)) hN ⟨hs.inv.2, rfl⟩ hY

/-- three layers on a graph with three vertices -/
example : ∃ (P : Measure (Nat → ℝ)) (ρ : Nat → (Nat → ℝ) → ℝ) (L : Sp ℝ) (X Y : Dense ℝ), IsProbabilityMeasure P ∧ Spec.UniformDraws P ρ ∧
    Graph.Built AnyArg exG ∧ (Graph.ask .LGCN exG).1 = .ok (.mat L) ∧
    (Spec.successive (fun X keep => Graph.smoothGCN X 0 keep) (List.replicate 3 fun _ => true) X exG).1 = .ok Y := by
  obtain ⟨P, ρ, hP, h⟩ := C133_draws_exist
  obtain ⟨L, _, hL, _⟩ := C11_graph_LGCN exG_nonneg exG_numV exG_nonnegWeights
  have hLe := evLGCN_of_ask exG_built hL
  obtain ⟨Y, hY⟩ := successive_ok (call := fun p X keep => Graph.smoothGCN X p keep)
    (I := fun s => Coherent Graph.evKey s ∧ s.raw = exG.raw) (graph_call hLe) (n := 3) (fun X hX => by
      obtain ⟨Y, h1, h2, _⟩ := C11_graph_smoothing exG_nonneg exG_numV exG_nonnegWeights hL X hX fun _ => true
      refine ⟨Y, ?_, h2⟩
      rw [(Graph.reads_ask _ exG exG_built.inv.2).1] at h1
      have h3 := map_feat h1
      rw [Graph.evSmoothGCN, hLe] at h3
      exact mmD_of_call (kp := fun _ => true) rfl h3) (fun _ => true) 3 ⟨3, 1, fun i _ => (i : ℝ)⟩ exG rfl ⟨exG_built.inv.2, rfl⟩
  exact ⟨P, ρ, L, _, Y, hP, h, exG_built, hL, hY⟩

/-- two layers on a hypergraph with four vertices -/
example : ∃ (P : Measure (Nat → ℝ)) (ρ : Nat → (Nat → ℝ) → ℝ) (L : Sp ℝ) (X Y : Dense ℝ), IsProbabilityMeasure P ∧ Spec.UniformDraws P ρ ∧
    Hyper.Built Hyper.AnyH true exH ∧ (Hyper.ask (.LHGNN none) exH).1 = .ok (.mat L) ∧
    (Spec.successive (fun X keep => Hyper.smoothHGNN none X 0 keep) (List.replicate 2 fun _ => true) X exH).1 = .ok Y := by
  obtain ⟨P, ρ, hP, h⟩ := C133_draws_exist
  have hsc : Spec.HasScope exH none := List.cons_ne_nil _ _
  have hw : Spec.HNonneg (Spec.hListing exH none) := by
    rw [show Spec.hListing exH none = [([0, 1, 2], 2), ([1, 3], 3), ([3], 5)] from rfl]
    intro e he
    simp only [List.mem_cons, List.not_mem_nil, or_false] at he
    rcases he with rfl | rfl | rfl <;> norm_num
  obtain ⟨L, _, _, hL, _⟩ := C36_hypergraph_L_HGNN_partial exH_proper hsc (n := 4) rfl hw
  have hLe := evLHGNN_of_ask exH_built hL
  obtain ⟨Y, hY⟩ := successive_ok (call := fun p X keep => Hyper.smoothHGNN none X p keep)
    (I := fun s => Hyper.Coh true s ∧ s.raw = exH.raw) (hyper_call hLe) (n := 4) (fun X hX => by
      obtain ⟨Y, h1, h2, _⟩ := C110_hypergraph exH_proper hsc (n := 4) rfl hw hL X hX fun _ => true
      refine ⟨Y, ?_, h2⟩
      rw [Hyper.ask_eq _ exH_built.inv.2 (.inr (by simp))] at h1
      rcases hE : Hyper.evSmooth none X 0 (fun _ => true) exH.raw with e | W
      · simp only [Hyper.evAsk, hE, bind, Except.bind] at h1; cases h1
      · simp only [Hyper.evAsk, hE, bind, Except.bind] at h1; cases h1
        rw [Hyper.evSmooth, hLe] at hE
        exact mmD_of_call (kp := fun _ => true) rfl hE) (fun _ => true) 2 ⟨4, 1, fun i _ => (i : ℝ)⟩ exH rfl ⟨exH_built.inv.2, rfl⟩
  exact ⟨P, ρ, L, _, Y, hP, h, exH_built, hL, hY⟩

/-- two layers on a bipartite graph -/
example : ∃ (P : Measure (Nat → ℝ)) (ρ : Nat → (Nat → ℝ) → ℝ) (L : Sp ℝ) (X Y : Dense ℝ), IsProbabilityMeasure P ∧ Spec.UniformDraws P ρ ∧
    BiGraph.Built Graph.NonNeg exB ∧ (BiGraph.ask .LGCN exB).1 = .ok (.mat L) ∧
    (Spec.successive (fun X keep => BiGraph.smoothGCN X 0 keep) (List.replicate 2 fun _ => true) X exB).1 = .ok Y := by
  obtain ⟨P, ρ, hP, h⟩ := C133_draws_exist
  obtain ⟨B, _, hB, _⟩ := C25_bigraph_incidence exB_nonneg exB_numU exB_numV exB_flag
  obtain ⟨A', hA', _⟩ := C25_bigraph_A_blocks exB_nonneg exB_numU exB_numV exB_flag hB
  obtain ⟨L, _, hL, _, _, _, hS⟩ := C65_bigraph_LGCN exB_nonneg exB_numU exB_numV exB_nonnegWeights hA'
  have hLe := evLGCN_of_askB exB_nonneg hL
  obtain ⟨Y, hY⟩ := successive_ok (call := fun p X keep => BiGraph.smoothGCN X p keep)
    (I := fun s => Coherent (Ord.evKey .bi) s ∧ s.raw = exB.raw) (bi_call hLe) (fun X hX => by
      obtain ⟨Y, h1, h2, _⟩ := hS X (fun _ => true) hX
      refine ⟨Y, ?_, h2⟩
      rw [exB_nonneg.ask] at h1
      have h3 := map_feat h1
      rw [BiGraph.evSmoothGCN, hLe] at h3
      exact mmD_of_call (kp := fun _ => true) rfl h3) (fun _ => true) 2 ⟨_, 1, fun i _ => (i : ℝ)⟩ exB rfl ⟨exB_nonneg.coh, rfl⟩
  exact ⟨P, ρ, L, _, Y, hP, h, exB_nonneg, hL, hY⟩

end Props
end DHG
