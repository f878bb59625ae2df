import Mathlib.MeasureTheory.Integral.Bochner.Set
import Verif.Props.RandomLaw
import Verif.Props.Drops
import Verif.Props.DiGraphEdges
import Verif.Props.GraphEdges2
import Verif.Props.HyperMatrices
import Verif.Props.GraphMatrices
import Verif.Props.UtilsData
import Verif.Props.GraphMessages
import Verif.Props.HyperMessages

/-!
# Dropping is independent for all edges (C138)
-/

set_option linter.unusedSectionVars false
set_option autoImplicit false

open MeasureTheory ProbabilityTheory

namespace DHG

/-! ## Specification -/

namespace Spec

/-- `Z` are random feature matrices of the shape of `Y` whose mean is `t` times `Y`, entry by entry -/
def MeanShare {Ω : Type} [MeasurableSpace Ω] (P : Measure Ω) (t : ℝ) (Z : Ω → Dense ℝ) (Y : Dense ℝ) : Prop :=
  (∀ ω, (Z ω).rows = Y.rows ∧ (Z ω).cols = Y.cols) ∧
    ∀ i c, Integrable (fun ω => (Z ω).at_ i c) P ∧ ∫ ω, (Z ω).at_ i c ∂P = t * Y.at_ i c

end Spec

namespace Props
namespace Law

open Finset

section Lists
variable {α : Type}

theorem sublist_eq_filter [DecidableEq α] {l' l : List α} (h : l'.Sublist l) (hn : l.Nodup) : l.filter (· ∈ l') = l' := by
  induction h with
  | slnil => rfl
  | @cons l₁ l₂ a h ih =>
    have ha := List.nodup_cons.1 hn
    rw [List.filter_cons_of_neg (by simpa using fun h' => ha.1 (h.subset h')), ih ha.2]
  | @cons_cons l₁ l₂ a h ih =>
    have ha := List.nodup_cons.1 hn
    rw [List.filter_cons_of_pos (by simp)]
    congr 1
    rw [← ih ha.2]
    refine List.filter_congr fun x hx => ?_
    rw [ih ha.2]
    have : x ≠ a := fun e => ha.1 (e ▸ hx)
    simp [this]

theorem filter_eq_iff [DecidableEq α] {l' l : List α} (h : l'.Sublist l) (hn : l.Nodup) (p : α → Bool) :
    l.filter p = l' ↔ ∀ x ∈ l, x ∈ l' ↔ p x = true := by
  constructor
  · rintro rfl x hx
    simp [hx]
  · intro hp
    rw [← sublist_eq_filter h hn]
    refine List.filter_congr fun x hx => ?_
    have := hp x hx
    by_cases hx' : x ∈ l'
    · simp [hx', this.1 hx']
    · have h' : ¬ p x = true := fun h => hx' (this.2 h)
      simp [hx', h']

theorem filter_zipIdx [BEq α] [LawfulBEq α] {l : List α} (hn : l.Nodup) (k : Nat) (q : Nat → Bool) :
    ((l.zipIdx k).filter fun p => q p.2).map Prod.fst = l.filter fun x => q (k + l.idxOf x) := by
  induction l generalizing k with
  | nil => rfl
  | cons a l ih =>
    have ha := List.nodup_cons.1 hn
    have hrest : l.filter (fun x => q (k + (a :: l).idxOf x)) = l.filter fun x => q (k + 1 + l.idxOf x) := by
      refine List.filter_congr fun x hx => ?_
      rw [List.idxOf_cons_ne _ (by rintro rfl; exact ha.1 hx), show k + (l.idxOf x).succ = k + 1 + l.idxOf x by omega]
    rw [List.zipIdx_cons]
    by_cases hq : q k = true
    · rw [List.filter_cons_of_pos (by simpa using hq), List.filter_cons_of_pos (by simpa using hq), List.map_cons, ih ha.2, hrest]
    · rw [List.filter_cons_of_neg (by simpa using hq), List.filter_cons_of_neg (by simpa using hq), ih ha.2, hrest]

/-- everything behind position `m` stays -/
theorem filter_guard (l : List α) (m k : Nat) (q : Nat → Bool) :
    ((l.zipIdx k).filter fun p => decide (p.2 < k + m → q p.2 = true)).map Prod.fst =
      (((l.take m).zipIdx k).filter fun p => q p.2).map Prod.fst ++ l.drop m := by
  induction l generalizing m k with
  | nil => simp
  | cons a l ih =>
    cases m with
    | zero =>
      rw [List.take_zero, List.drop_zero, List.filter_eq_self.2, List.zipIdx_map_fst]
      · rfl
      · intro x hx
        have := List.le_snd_of_mem_zipIdx hx
        rw [decide_eq_true_iff]
        intro h; omega
    | succ m =>
      have hstep := ih m (k + 1)
      rw [show k + 1 + m = k + (m + 1) by omega] at hstep
      rw [List.zipIdx_cons, List.take_succ_cons, List.zipIdx_cons, List.drop_succ_cons]
      by_cases hq : q k = true
      · rw [List.filter_cons_of_pos (by simp [hq]), List.filter_cons_of_pos (by simpa using hq), List.map_cons, List.map_cons, hstep,
          List.cons_append]
      · rw [List.filter_cons_of_neg (by simp [hq]), List.filter_cons_of_neg (by simpa using hq), hstep]

theorem idxOf_map_pair {β : Type} [BEq (β × α)] [LawfulBEq (β × α)] [BEq α] [LawfulBEq α] (g : β) (l : List α) (e : α) :
    (l.map fun e => (g, e)).idxOf (g, e) = l.idxOf e := by
  induction l with
  | nil => rfl
  | cons a l ih =>
    rw [List.map_cons]
    by_cases h : a = e
    · subst h
      rw [List.idxOf_cons_self, List.idxOf_cons_self]
    · rw [List.idxOf_cons_ne _ (by simpa using h), List.idxOf_cons_ne _ h, ih]

end Lists

variable {Ω : Type} [MeasurableSpace Ω] {P : Measure Ω} [IsProbabilityMeasure P] {ρ : Nat → Ω → ℝ}

/-- the probability of a draw that does not exceed `t` -/
theorem law_le (h : Spec.UniformDraws P ρ) (i : Nat) {t : ℝ} (h0 : 0 ≤ t) (h1 : t ≤ 1) :
    P {ω | ρ i ω ≤ t} = ENNReal.ofReal t := by
  apply le_antisymm
  · rcases h1.eq_or_lt with rfl | h1
    · rw [ENNReal.ofReal_one]; exact prob_le_one
    · refine ENNReal.le_of_forall_pos_le_add fun ε hε _ => ?_
      have hm : t < min (t + ε) 1 := lt_min (by have : (0 : ℝ) < ε := hε; linarith) h1
      calc P {ω | ρ i ω ≤ t} ≤ P {ω | ρ i ω < min (t + ε) 1} := measure_mono fun ω hω => lt_of_le_of_lt hω hm
        _ = ENNReal.ofReal (min (t + ε) 1) := h.law i _ (h0.trans hm.le) (min_le_right _ _)
        _ ≤ ENNReal.ofReal (t + ε) := ENNReal.ofReal_le_ofReal (min_le_left _ _)
        _ = ENNReal.ofReal t + ε := by rw [ENNReal.ofReal_add h0 ε.coe_nonneg, ENNReal.ofReal_coe_nnreal]
  · rw [← h.law i t h0 h1]
    exact measure_mono fun ω (hω : ρ i ω < t) => hω.le

theorem law_gt (h : Spec.UniformDraws P ρ) (i : Nat) {t : ℝ} (h0 : 0 ≤ t) (h1 : t ≤ 1) :
    P {ω | t < ρ i ω} = ENNReal.ofReal (1 - t) := by
  have hs : {ω | t < ρ i ω} = {ω | ρ i ω ≤ t}ᶜ := by ext ω; simp
  rw [hs, prob_compl_eq_one_sub (measurableSet_le (h.measurable i) measurable_const), law_le h i h0 h1,
    ENNReal.ofReal_sub _ h0, ENNReal.ofReal_one]

/-- independent draws, one for each thing that may be dropped -/
theorem kept (h : Spec.UniformDraws P ρ) {α : Type} [DecidableEq α] (V E : Finset α) (hE : E ⊆ V)
    (d : α → Nat) (hd : Set.InjOn d (V : Set α)) {p : ℝ} (h0 : 0 ≤ p) (h1 : p ≤ 1) :
    P {ω | ∀ x ∈ V, x ∈ E ↔ p < ρ (d x) ω} = Spec.bernoulli (1 - p) V.card E.card := by
  classical
  let B : Nat → Set ℝ := fun i => if i ∈ E.image d then Set.Ioi p else Set.Iic p
  have hB : ∀ x ∈ V, B (d x) = if x ∈ E then Set.Ioi p else Set.Iic p := by
    intro x hx
    have : d x ∈ E.image d ↔ x ∈ E := by
      rw [mem_image]
      exact ⟨fun ⟨y, hy, e⟩ => hd (hE hy) hx e ▸ hy, fun hx => ⟨x, hx, rfl⟩⟩
    simp only [B, this]
  have hset : {ω | ∀ x ∈ V, x ∈ E ↔ p < ρ (d x) ω} = ⋂ i ∈ V.image d, ρ i ⁻¹' B i := by
    ext ω
    simp only [Set.mem_ofPred_eq, Set.mem_iInter, mem_image, forall_exists_index, and_imp, forall_apply_eq_imp_iff₂,
      Set.mem_preimage]
    refine forall₂_congr fun x hx => ?_
    rw [hB x hx]
    by_cases hxE : x ∈ E <;> simp [hxE]
  rw [hset, h.indep.measure_inter_preimage_eq_mul _ fun i _ => ?_]
  · rw [prod_image hd]
    have : ∀ x ∈ V, P (ρ (d x) ⁻¹' B (d x)) = if x ∈ E then ENNReal.ofReal (1 - p) else ENNReal.ofReal p := by
      intro x hx
      rw [hB x hx]
      split
      · exact law_gt h _ h0 h1
      · exact law_le h _ h0 h1
    rw [prod_congr rfl this, prod_ite, prod_const, prod_const, filter_mem_eq_inter, inter_eq_right.2 hE,
      filter_not, filter_mem_eq_inter, inter_eq_right.2 hE, card_sdiff_of_subset hE, Spec.bernoulli, sub_sub_cancel,
      ENNReal.ofReal_mul (pow_nonneg (by linarith) _), ENNReal.ofReal_pow (by linarith), ENNReal.ofReal_pow h0]
  · simp only [B]
    split
    · exact measurableSet_Ioi
    · exact measurableSet_Iic

/-- the sublist that is left of a list -/
theorem kept_list (h : Spec.UniformDraws P ρ) {α : Type} {l l' : List α} (hn : l.Nodup) (hs : l'.Sublist l) (k : Nat)
    {p : ℝ} (h0 : 0 ≤ p) (h1 : p ≤ 1) :
    P {ω | ((l.zipIdx k).filter fun x => decide (p < ρ x.2 ω)).map Prod.fst = l'} = Spec.bernoulli (1 - p) l.length l'.length := by
  classical
  rw [← List.toFinset_card_of_nodup hn, ← List.toFinset_card_of_nodup (hs.nodup hn),
    ← kept h l.toFinset l'.toFinset (fun x hx => List.mem_toFinset.2 (hs.subset (List.mem_toFinset.1 hx))) (fun x => k + l.idxOf x)
      (fun x hx y hy e => (List.idxOf_inj (List.mem_toFinset.1 hx)).1 (by simp only at e; omega)) h0 h1]
  congr 1
  ext ω
  simp only [Set.mem_ofPred_eq, List.mem_toFinset]
  rw [filter_zipIdx hn k (fun i => decide (p < ρ i ω)), filter_eq_iff hs hn]
  simp only [decide_eq_true_eq]

/-- edges and loops are listed once -/
theorem nodup_stored {K : Type} {d : Dict (Int × Int) K} {e : Dict Int K} (hd : d.keys.Nodup) (he : e.keys.Nodup)
    (hne : ∀ p ∈ d.keys, p.1 ≠ p.2) : (d ++ e.map fun p => ((p.1, p.1), p.2)).Nodup := by
  have hk : ((d ++ e.map fun p => ((p.1, p.1), p.2)).map Prod.fst).Nodup := by
    rw [List.map_append, List.map_map]
    refine List.Nodup.append hd ?_ ?_
    · have : (Prod.fst ∘ fun p : Int × K => ((p.1, p.1), p.2)) = (fun v : Int => (v, v)) ∘ Prod.fst := rfl
      rw [this, ← List.map_map]
      exact List.Nodup.map (fun a b h => (Prod.ext_iff.1 h).1) he
    · intro x hx hx'
      obtain ⟨p, -, rfl⟩ := List.mem_map.1 hx'
      exact hne _ hx rfl
  exact hk.of_map _

end Law

open Law
open Graph (AnyArg)

/-! ## C138 -/

variable {Ω : Type} [MeasurableSpace Ω] {P : Measure Ω} [IsProbabilityMeasure P] {ρ : Nat → Ω → ℝ}

/-- C138 (Graph). Every selection of the stored edges and self loops (the unit loops of the flag always stay) is what
`drop_edges(rate)` leaves with the probability that exactly these are kept, each independently with probability
`1 - rate`. -/
theorem C138_graph_drop_edges (h : Spec.UniformDraws P ρ) {g : GSt ℝ} (hg : Graph.Built AnyArg g) {rate : ℝ} (h0 : 0 ≤ rate)
    (h1 : rate ≤ 1) {m : Nat} (hm : m = (Graph.stateDict g).eDict.length + (Graph.stateDict g).loops.length)
    {left : List ((Int × Int) × ℝ)} (hl : left.Sublist ((Spec.listing g).take m)) :
    P {ω | ∃ g', Graph.dropEdges rate true (fun i => ρ i ω) g = .ok g' ∧ Spec.listing g' = left ++ (Spec.listing g).drop m} =
      Spec.bernoulli (1 - rate) m left.length := by
  have hstored : (Spec.listing g).take m = g.raw.eDict ++ g.raw.loops.map fun p => ((p.1, p.1), p.2) := by
    rw [Graph.listing_eq hg.inv.2, Graph.zip_listing, List.take_left' (by rw [hm, List.length_append, List.length_map]; rfl)]
  have hn : ((Spec.listing g).take m).Nodup := by
    rw [hstored]
    exact nodup_stored hg.inv.1.nodupE hg.inv.1.nodupL fun p hp => (hg.inv.1.lt p hp).ne
  have hlen : ((Spec.listing g).take m).length = m := by
    rw [hstored, hm, List.length_append, List.length_map]; rfl
  conv_rhs => rw [← hlen]
  rw [← kept_list h hn hl 0 h0 h1]
  congr 1
  ext ω
  obtain ⟨⟨g', e1, -, e2⟩, -⟩ := C17_graph_drop_edges hg rate (fun i => ρ i ω)
  have e3 := filter_guard (Spec.listing g) m 0 fun i => decide (rate < ρ i ω)
  simp only [decide_eq_true_eq, Nat.zero_add] at e3
  simp only [← hm] at e2
  rw [e3] at e2
  simp only [Set.mem_ofPred_eq]
  constructor
  · rintro ⟨g'', e1', e2'⟩
    rw [e1] at e1'; cases e1'
    rw [e2] at e2'
    exact List.append_cancel_right e2'
  · intro e
    exact ⟨g', e1, by rw [e2, e]⟩

/-- C138 (DiGraph). The same. -/
theorem C138_digraph_drop_edges (h : Spec.UniformDraws P ρ) {w : Bool} {g : DSt ℝ} (hg : DiGraph.Built AnyArg w g) {rate : ℝ}
    (h0 : 0 ≤ rate) (h1 : rate ≤ 1) {m : Nat} (hm : m = (DiGraph.stateDict g).eDict.length + (DiGraph.stateDict g).loops.length)
    {left : List ((Int × Int) × ℝ)} (hl : left.Sublist ((Spec.listingD g).take m)) :
    P {ω | ∃ g', DiGraph.dropEdges rate true (fun i => ρ i ω) g = .ok g' ∧ Spec.listingD g' = left ++ (Spec.listingD g).drop m} =
      Spec.bernoulli (1 - rate) m left.length := by
  have hstored : (Spec.listingD g).take m = g.raw.eDict ++ g.raw.loops.map fun p => ((p.1, p.1), p.2) := by
    have : Spec.listingD g = g.raw.edgeList.zip g.raw.edgeWts := by
      unfold Spec.listingD
      rw [hg.ask .e]
      rfl
    rw [this, Graph.zip_listing, List.take_left' (by rw [hm, List.length_append, List.length_map]; rfl)]
  have hn : ((Spec.listingD g).take m).Nodup := by
    rw [hstored]
    exact nodup_stored hg.any.inv.nodupE hg.any.inv.nodupL (hg.any.inv.ne rfl)
  have hlen : ((Spec.listingD g).take m).length = m := by
    rw [hstored, hm, List.length_append, List.length_map]; rfl
  conv_rhs => rw [← hlen]
  rw [← kept_list h hn hl 0 h0 h1]
  congr 1
  ext ω
  obtain ⟨⟨g', e1, -, e2⟩, -⟩ := C17_digraph_drop_edges hg rate (fun i => ρ i ω)
  have e3 := filter_guard (Spec.listingD g) m 0 fun i => decide (rate < ρ i ω)
  simp only [decide_eq_true_eq, Nat.zero_add] at e3
  simp only [← hm] at e2
  rw [e3] at e2
  simp only [Set.mem_ofPred_eq]
  constructor
  · rintro ⟨g'', e1', e2'⟩
    rw [e1] at e1'; cases e1'
    rw [e2] at e2'
    exact List.append_cancel_right e2'
  · intro e
    exact ⟨g', e1, by rw [e2, e]⟩

/-- C138 (BiGraph). The same; there are no self loops. -/
theorem C138_bigraph_drop_edges (h : Spec.UniformDraws P ρ) {g : BSt ℝ} (hg : BiGraph.Any AnyArg g) (hv : 0 < g.raw.numV)
    {rate : ℝ} (h0 : 0 ≤ rate) (h1 : rate ≤ 1) {left : List ((Int × Int) × ℝ)} (hl : left.Sublist (BiGraph.stateDict g).eDict) :
    P {ω | ∃ g', BiGraph.dropEdges rate true (fun i => ρ i ω) g = .ok g' ∧ Spec.listingB g' = left} =
      Spec.bernoulli (1 - rate) (BiGraph.stateDict g).eDict.length left.length := by
  have hn : (BiGraph.stateDict g).eDict.Nodup := List.Nodup.of_map _ hg.inv.nodupE
  rw [← kept_list h hn hl 0 h0 h1]
  congr 1
  ext ω
  obtain ⟨⟨g', e1, -, -, e2⟩, -⟩ := C17_bigraph_drop_edges hg hv rate (fun i => ρ i ω)
  simp only [Set.mem_ofPred_eq]
  constructor
  · rintro ⟨g'', e1', e2'⟩
    rw [e1] at e1'; cases e1'
    rw [← e2', e2]
  · intro e
    exact ⟨g', e1, by rw [e2, e]⟩

/-- C138 (Hypergraph). Every selection of hyperedges, group by group, is what `drop_hyperedges(rate)` leaves with the
probability that exactly these are kept, each independently with probability `1 - rate`. -/
theorem C138_hypergraph_drop (h : Spec.UniformDraws P ρ) {b : Bool} {s : HSt ℝ} (hs : Hyper.Built Hyper.AnyH b s) {rate : ℝ}
    (h0 : 0 ≤ rate) (h1 : rate ≤ 1) {left : String → List (List Int × ℝ)}
    (hl : ∀ g ∈ Spec.hNames s, (left g).Sublist (Spec.hListing s (some g))) :
    P {ω | ∃ s', Hyper.dropHyperedges rate true (fun i => ρ i ω) s = .ok s' ∧ Spec.hNames s' = Spec.hNames s ∧
        ∀ g ∈ Spec.hNames s, Spec.hListing s' (some g) = left g} =
      Spec.bernoulli (1 - rate) ((Spec.hNames s).map fun g => (Spec.hListing s (some g)).length).sum
        ((Spec.hNames s).map fun g => (left g).length).sum := by
  classical
  have hnames : (Spec.hNames s).Nodup := hs.inv.1.names
  have hlist : ∀ g, (Spec.hListing s (some g)).Nodup := by
    intro g
    rw [Hyper.hListing_eq hs.inv.2]
    rcases hd : s.raw.groups.get? g with _ | d
    · exact List.nodup_nil
    · exact List.Nodup.of_map _ (hs.inv.1.nodup (g, d) (Dict.mem_of_get? hd))
  set names := Spec.hNames s with hN
  let all : (String → List (List Int × ℝ)) → List String → List (String × (List Int × ℝ)) := fun f ns =>
    ns.flatMap fun g => (f g).map fun e => (g, e)
  have hmem : ∀ f ns g e, (g, e) ∈ all f ns ↔ g ∈ ns ∧ e ∈ f g := by
    intro f ns g e
    simp only [all, List.mem_flatMap, List.mem_map, Prod.mk.injEq]
    constructor
    · rintro ⟨g', hg', e', he', rfl, rfl⟩
      exact ⟨hg', he'⟩
    · rintro ⟨hg, he⟩
      exact ⟨g, hg, e, he, rfl, rfl⟩
  have hlen : ∀ f ns, (all f ns).length = (ns.map fun g => (f g).length).sum := by
    intro f ns
    simp only [all, List.length_flatMap, List.length_map]
  have hnd : ∀ f : String → List (List Int × ℝ), (∀ g ∈ names, (f g).Nodup) → (all f names).Nodup := by
    intro f hf
    refine List.nodup_flatMap.2 ⟨fun g hg => (hf g hg).map fun a b e => (Prod.ext_iff.1 e).2, ?_⟩
    refine hnames.imp ?_
    intro g g' hne x hx hx'
    obtain ⟨e, -, rfl⟩ := List.mem_map.1 hx
    obtain ⟨e', -, h'⟩ := List.mem_map.1 hx'
    exact hne (Prod.ext_iff.1 h').1.symm
  set full : String → List (List Int × ℝ) := fun g => Spec.hListing s (some g) with hfull
  have hnA := hnd full fun g _ => hlist g
  have hnL := hnd left fun g hg => (hl g hg).nodup (hlist g)
  rw [show ((names.map fun g => (Spec.hListing s (some g)).length).sum) = (all full names).length from (hlen _ _).symm, ← hlen,
    ← List.toFinset_card_of_nodup hnA, ← List.toFinset_card_of_nodup hnL,
    ← kept h (all full names).toFinset (all left names).toFinset
      (fun x hx => by
        rw [List.mem_toFinset] at hx ⊢
        obtain ⟨g, e⟩ := x
        rw [hmem] at hx ⊢
        exact ⟨hx.1, (hl g hx.1).subset hx.2⟩)
      (fun x => (all full names).idxOf x)
      (fun x hx y hy e => (List.idxOf_inj (List.mem_toFinset.1 hx)).1 e) h0 h1]
  congr 1
  ext ω
  obtain ⟨⟨s', e1, -, e2, e3⟩, -⟩ := C17_hypergraph_drop hs rate (fun i => ρ i ω)
  have hone : ∀ g ∈ names, Spec.hListing s' (some g) = (full g).filter fun e => decide (rate < ρ ((all full names).idxOf (g, e)) ω) := by
    intro g hg
    obtain ⟨pre, post, hp⟩ := List.append_of_mem hg
    rw [e3 pre g post hp, filter_zipIdx (hlist g) _ fun i => decide (rate < ρ i ω)]
    show (full g).filter (fun x => decide (rate < ρ ((pre.map fun g' => (full g').length).sum + (full g).idxOf x) ω)) = _
    refine List.filter_congr fun e he => ?_
    have hgp : g ∉ pre := by
      intro h'
      rw [hp] at hnames
      exact (List.nodup_append.1 hnames).2.2 g h' g (by simp) rfl
    have hsplit : all full names = all full pre ++ ((full g).map (fun e => (g, e)) ++ all full post) := by
      simp only [all, hp, List.flatMap_append, List.flatMap_cons]
    have : (all full names).idxOf (g, e) = (pre.map fun g' => (full g').length).sum + (full g).idxOf e := by
      rw [hsplit, List.idxOf_append_of_notMem (fun h' => hgp ((hmem _ _ _ _).1 h').1), hlen,
        List.idxOf_append_of_mem (List.mem_map.2 ⟨e, he, rfl⟩)]
      congr 1
      exact idxOf_map_pair g (full g) e
    rw [this]
  simp only [Set.mem_ofPred_eq, List.mem_toFinset]
  constructor
  · rintro ⟨s'', e1', -, e3'⟩ ⟨g, e⟩ hx
    rw [e1] at e1'; cases e1'
    rw [hmem] at hx ⊢
    rw [← e3' g hx.1, hone g hx.1, List.mem_filter, decide_eq_true_eq]
    exact ⟨fun h' => h'.2.2, fun h' => ⟨hx.1, hx.2, h'⟩⟩
  · intro hω
    refine ⟨s', e1, e2, fun g hg => ?_⟩
    rw [hone g hg, filter_eq_iff (hl g hg) (hlist g)]
    intro e he
    have := hω (g, e) ((hmem _ _ _ _).2 ⟨hg, he⟩)
    rw [hmem] at this
    rw [decide_eq_true_eq, ← this]
    exact ⟨fun h' => ⟨hg, h'⟩, fun h' => h'.2⟩

/-- C138 (Hypergraph). The same for `drop_hyperedges_of_group`, within the group. -/
theorem C138_hypergraph_drop_group (h : Spec.UniformDraws P ρ) {b : Bool} {s : HSt ℝ} (hs : Hyper.Built Hyper.AnyH b s) {rate : ℝ}
    (h0 : 0 ≤ rate) (h1 : rate ≤ 1) (g : String) {left : List (List Int × ℝ)} (hl : left.Sublist (Spec.hListing s (some g))) :
    P {ω | ∃ s', Hyper.dropHyperedgesOfGroup g rate true (fun i => ρ i ω) s = .ok s' ∧ Spec.hNames s' = Spec.hNames s ∧
        Spec.hListing s' (some g) = left} =
      Spec.bernoulli (1 - rate) (Spec.hListing s (some g)).length left.length := by
  have hlist : (Spec.hListing s (some g)).Nodup := by
    rw [Hyper.hListing_eq hs.inv.2]
    rcases hd : s.raw.groups.get? g with _ | d
    · exact List.nodup_nil
    · exact List.Nodup.of_map _ (hs.inv.1.nodup (g, d) (Dict.mem_of_get? hd))
  rw [← kept_list h hlist hl 0 h0 h1]
  congr 1
  ext ω
  have hmap : (s.raw.groups.map fun p => if p.1 = g then (p.1, Graph.dropFilter rate (fun i => ρ i ω) 0 p.2) else p) =
      s.raw.groups.map fun p => (p.1, if p.1 = g then Graph.dropFilter rate (fun i => ρ i ω) 0 p.2 else p.2) := by
    refine List.map_congr_left fun p _ => ?_
    split <;> rfl
  have hdrop : ∃ s', Hyper.dropHyperedgesOfGroup g rate true (fun i => ρ i ω) s = .ok s' ∧ Spec.hNames s' = Spec.hNames s ∧
      Spec.hListing s' (some g) = (((Spec.hListing s (some g)).zipIdx 0).filter fun x => decide (rate < ρ x.2 ω)).map Prod.fst := by
    unfold Hyper.dropHyperedgesOfGroup
    simp only [if_true]
    refine ⟨_, Hyper.fromStateDict_of_pos hs.inv.1.pos, ?_, ?_⟩
    · show (s.raw.groups.map fun p => if p.1 = g then (p.1, Graph.dropFilter rate (fun i => ρ i ω) 0 p.2) else p).map Prod.fst =
        s.raw.groups.map Prod.fst
      rw [hmap, List.map_map]
      rfl
    · rw [Hyper.hListing_eq (b := true) coherentOn_nil, Hyper.hListing_eq hs.inv.2, hmap]
      show (Dict.get? (s.raw.groups.map fun p => (p.1, if p.1 = g then Graph.dropFilter rate (fun i => ρ i ω) 0 p.2 else p.2)) g).getD [] = _
      rw [Dict.get?_map_val s.raw.groups (fun k d => if k = g then Graph.dropFilter rate (fun i => ρ i ω) 0 d else d) g]
      rcases Dict.get? s.raw.groups g with _ | d
      · rfl
      · simp only [Option.map_some, if_true, Option.getD_some]
        exact dropFilter_eq rate (fun i => ρ i ω) 0 d
  obtain ⟨s', e1, e2, e3⟩ := hdrop
  simp only [Set.mem_ofPred_eq]
  constructor
  · rintro ⟨s'', e1', -, e3'⟩
    rw [e1] at e1'; cases e1'
    rw [← e3', e3]
  · intro e
    exact ⟨s', e1, e2, by rw [e3, e]⟩

namespace Law

/-- row `i` of a matrix times a column -/
def row (l : Ents ℝ) (i : Nat) (f : Nat → ℝ) : ℝ := (l.map fun e => if e.1.1 = i then e.2 * f e.1.2 else 0).sum

theorem exists_bound (l : Ents ℝ) : ∃ n, ∀ e ∈ l, e.1.2 < n := by
  induction l with
  | nil => exact ⟨0, by simp⟩
  | cons a l ih =>
    obtain ⟨n, hn⟩ := ih
    refine ⟨n + a.1.2 + 1, fun e he => ?_⟩
    rcases List.mem_cons.1 he with rfl | he
    · omega
    · have := hn e he; omega

theorem row_coalesce (M : Sp ℝ) (i : Nat) (f : Nat → ℝ) : row M.coalesce.ents i f = row M.ents i f := by
  obtain ⟨n, hn⟩ := exists_bound M.ents
  obtain ⟨n', hn'⟩ := exists_bound M.coalesce.ents
  unfold row
  rw [Ents.sum_row M.ents i (n + n') f fun e he => by have := hn e he; omega,
    Ents.sum_row M.coalesce.ents i (n + n') f fun e he => by have := hn' e he; omega]
  exact Finset.sum_congr rfl fun k _ => by rw [show Ents.get M.coalesce.ents i k = Ents.get M.ents i k from Sp.get_coalesce M i k]

theorem mean_terms (h : Spec.UniformDraws P ρ) {p : ℝ} (h0 : 0 ≤ p) (h1 : p ≤ 1) (i : Nat) (f : Nat → ℝ)
    (l : List (((Nat × Nat) × ℝ) × Nat)) :
    Integrable (fun ω => row (l.map fun e => (e.1.1, if decide (ρ e.2 ω < 1 - p) then e.1.2 else 0)) i f) P ∧
    ∫ ω, row (l.map fun e => (e.1.1, if decide (ρ e.2 ω < 1 - p) then e.1.2 else 0)) i f ∂P = (1 - p) * row (l.map Prod.fst) i f := by
  induction l with
  | nil => simp [row]
  | cons e l ih =>
    have hterm : (fun ω => if e.1.1.1 = i then (if decide (ρ e.2 ω < 1 - p) then e.1.2 else 0) * f e.1.1.2 else 0) =
        Set.indicator {ω | ρ e.2 ω < 1 - p} fun _ => if e.1.1.1 = i then e.1.2 * f e.1.1.2 else 0 := by
      funext ω
      rw [Set.indicator_apply]
      by_cases hω : ρ e.2 ω < 1 - p
      · simp [hω]
      · simp [hω]
    have hm : MeasurableSet {ω | ρ e.2 ω < 1 - p} := measurableSet_lt (h.measurable _) measurable_const
    have hint : Integrable (fun ω => if e.1.1.1 = i then (if decide (ρ e.2 ω < 1 - p) then e.1.2 else 0) * f e.1.1.2 else 0) P := by
      rw [hterm]
      exact (integrable_const _).indicator hm
    have hval : ∫ ω, (if e.1.1.1 = i then (if decide (ρ e.2 ω < 1 - p) then e.1.2 else 0) * f e.1.1.2 else 0) ∂P =
        (1 - p) * if e.1.1.1 = i then e.1.2 * f e.1.1.2 else 0 := by
      rw [hterm, integral_indicator_const _ hm, Measure.real, h.law _ _ (by linarith) (by linarith),
        ENNReal.toReal_ofReal (by linarith), smul_eq_mul]
    have hsum : ∀ ω, row ((e :: l).map fun e => (e.1.1, if decide (ρ e.2 ω < 1 - p) then e.1.2 else 0)) i f =
        (if e.1.1.1 = i then (if decide (ρ e.2 ω < 1 - p) then e.1.2 else 0) * f e.1.1.2 else 0) +
          row (l.map fun e => (e.1.1, if decide (ρ e.2 ω < 1 - p) then e.1.2 else 0)) i f := by
      intro ω
      unfold row
      rw [List.map_cons, List.map_cons, List.sum_cons]
    simp only [hsum]
    refine ⟨hint.add ih.1, ?_⟩
    rw [integral_add hint ih.1, hval, ih.2, ← mul_add]
    rfl

/-- on average, dropping entries multiplies the product by the share that is kept -/
theorem mean_drop (h : Spec.UniformDraws P ρ) {p : ℝ} (h0 : 0 ≤ p) (h1 : p ≤ 1) {M : Sp ℝ} {X Y : Dense ℝ} (hY : M.mmD X = .ok Y) :
    ∃ (N : Ω → Sp ℝ) (Z : Ω → Dense ℝ), (∀ ω, Graph.evDrop M p (fun i => decide (ρ i ω < 1 - p)) = .ok (N ω)) ∧
      (∀ ω, (N ω).mmD X = .ok (Z ω)) ∧ (∀ ω, (Z ω).rows = Y.rows ∧ (Z ω).cols = Y.cols) ∧
      ∀ i c, Integrable (fun ω => (Z ω).at_ i c) P ∧ ∫ ω, (Z ω).at_ i c ∂P = (1 - p) * Y.at_ i c := by
  have hcols : M.cols = X.rows := (Sp.mmD_shape hY).1
  have hYat : ∀ i c, Y.at_ i c = row M.ents i fun k => X.at_ k c := by
    intro i c
    unfold Sp.mmD at hY
    rw [if_pos hcols] at hY
    cases hY
    rfl
  rcases h0.eq_or_lt with rfl | hp
  · refine ⟨fun _ => M, fun _ => Y, fun ω => ?_, fun ω => hY, fun ω => ⟨rfl, rfl⟩, fun i c => ⟨integrable_const _, ?_⟩⟩
    · unfold Graph.evDrop
      rw [if_neg (lt_irrefl _)]
    · simp
  · refine ⟨fun ω => { M.coalesce with ents := M.coalesce.ents.zipIdx.map fun e =>
        (e.1.1, if decide (ρ e.2 ω < 1 - p) then e.1.2 else 0) },
      fun ω => { rows := M.rows, cols := X.cols, at_ := fun i c => row (M.coalesce.ents.zipIdx.map fun e =>
        (e.1.1, if decide (ρ e.2 ω < 1 - p) then e.1.2 else 0)) i fun k => X.at_ k c }, fun ω => ?_, fun ω => ?_, fun ω => ?_, ?_⟩
    · unfold Graph.evDrop sparseDropout
      rw [if_pos hp]
      simp only
      rw [if_pos ⟨hp.le, h1⟩, if_neg hp.ne']
    · unfold Sp.mmD
      rw [if_pos (show M.coalesce.cols = X.rows from hcols)]
      rfl
    · exact ⟨(Sp.mmD_shape hY).2.1.symm, (Sp.mmD_shape hY).2.2.symm⟩
    · intro i c
      have := mean_terms h hp.le h1 i (fun k => X.at_ k c) M.coalesce.ents.zipIdx
      rw [List.zipIdx_map_fst, row_coalesce, ← hYat] at this
      exact this

/-- multiplying by a fixed matrix commutes with the mean -/
theorem mean_mmD {D : Sp ℝ} {Y W : Dense ℝ} (hW : D.mmD Y = .ok W) {Z : Ω → Dense ℝ} (hs : ∀ ω, (Z ω).rows = Y.rows ∧ (Z ω).cols = Y.cols)
    {t : ℝ} (hZ : ∀ i c, Integrable (fun ω => (Z ω).at_ i c) P ∧ ∫ ω, (Z ω).at_ i c ∂P = t * Y.at_ i c) :
    ∃ V : Ω → Dense ℝ, (∀ ω, D.mmD (Z ω) = .ok (V ω)) ∧ (∀ ω, (V ω).rows = W.rows ∧ (V ω).cols = W.cols) ∧
      ∀ i c, Integrable (fun ω => (V ω).at_ i c) P ∧ ∫ ω, (V ω).at_ i c ∂P = t * W.at_ i c := by
  have hcols : D.cols = Y.rows := (Sp.mmD_shape hW).1
  refine ⟨fun ω => { rows := D.rows, cols := (Z ω).cols, at_ := fun i c => row D.ents i fun k => (Z ω).at_ k c }, fun ω => ?_,
    fun ω => ⟨(Sp.mmD_shape hW).2.1.symm, (hs ω).2.trans (Sp.mmD_shape hW).2.2.symm⟩, fun i c => ?_⟩
  · unfold Sp.mmD
    rw [if_pos (hcols.trans (hs ω).1.symm)]
    rfl
  · have hWat : W.at_ i c = row D.ents i fun k => Y.at_ k c := by
      unfold Sp.mmD at hW
      rw [if_pos hcols] at hW
      cases hW
      rfl
    rw [hWat]
    generalize D.ents = l
    induction l with
    | nil => simp [row]
    | cons e l ih =>
      have hsum : ∀ f : Nat → ℝ, row (e :: l) i f = (if e.1.1 = i then e.2 * f e.1.2 else 0) + row l i f := by
        intro f
        unfold row
        rw [List.map_cons, List.sum_cons]
      simp only [hsum]
      by_cases hi : e.1.1 = i
      · simp only [if_pos hi]
        have h2 := (hZ e.1.2 c).1.const_mul e.2
        refine ⟨h2.add ih.1, ?_⟩
        rw [integral_add h2 ih.1, integral_const_mul, (hZ e.1.2 c).2, ih.2]
        ring
      · simp only [if_neg hi, zero_add]
        exact ih

end Law

namespace Law

/-- the draws of `torch.bernoulli(1 - p)` -/
noncomputable abbrev mask (ρ : Nat → Ω → ℝ) (p : ℝ) (ω : Ω) : Nat → Bool := fun i => decide (ρ i ω < 1 - p)

theorem evDrop_zero (M : Sp ℝ) (k : Nat → Bool) : Graph.evDrop M 0 k = .ok M := by
  unfold Graph.evDrop
  rw [if_neg (lt_irrefl _)]

theorem share_sum (h : Spec.UniformDraws P ρ) {p : ℝ} (h0 : 0 ≤ p) (h1 : p ≤ 1) {eP : Except Err (Sp ℝ)} {k : Nat → Bool} {X Y : Dense ℝ}
    (hY : (eP >>= fun M => Graph.evDrop M 0 k >>= fun N => N.mmD X) = .ok Y) :
    ∃ Z : Ω → Dense ℝ, (∀ ω, (eP >>= fun M => Graph.evDrop M p (mask ρ p ω) >>= fun N => N.mmD X) = .ok (Z ω)) ∧
      Spec.MeanShare P (1 - p) Z Y := by
  rcases eP with e | M
  · cases hY
  · simp only [bind, Except.bind, evDrop_zero] at hY ⊢
    obtain ⟨N, Z, hN, hZ, hs, hm⟩ := mean_drop h h0 h1 hY
    exact ⟨Z, fun ω => by simp only [hN ω, hZ ω], hs, hm⟩

theorem share_mean (h : Spec.UniformDraws P ρ) {p : ℝ} (h0 : 0 ≤ p) (h1 : p ≤ 1) {eP eD : Except Err (Sp ℝ)} {k : Nat → Bool} {X Y : Dense ℝ}
    (hY : (eP >>= fun M => Graph.evDrop M 0 k >>= fun N => N.mmD X >>= fun W => eD >>= fun D => D.mmD W) = .ok Y) :
    ∃ Z : Ω → Dense ℝ, (∀ ω, (eP >>= fun M => Graph.evDrop M p (mask ρ p ω) >>= fun N => N.mmD X >>= fun W => eD >>= fun D =>
        D.mmD W) = .ok (Z ω)) ∧ Spec.MeanShare P (1 - p) Z Y := by
  rcases eP with e | M
  · cases hY
  · simp only [bind, Except.bind, evDrop_zero] at hY ⊢
    rcases hW : M.mmD X with e | W
    · rw [hW] at hY; cases hY
    · rw [hW] at hY
      rcases eD with e | D
      · cases hY
      · simp only at hY
        obtain ⟨N, Z, hN, hZ, hs, hm⟩ := mean_drop h h0 h1 hW
        obtain ⟨V, hV, hs', hm'⟩ := mean_mmD hY hs hm
        exact ⟨V, fun ω => by simp only [hN ω, hZ ω, hV ω], hs', hm'⟩

theorem share_pass (h : Spec.UniformDraws P ρ) {p : ℝ} (h0 : 0 ≤ p) (h1 : p ≤ 1) {evP evD : GRaw ℝ → Except Err (Sp ℝ)} {r : GRaw ℝ}
    {k : Nat → Bool} {X Y : Dense ℝ} {aggr : Aggr} (ha : aggr = .sum ∨ aggr = .mean) (hY : Ord.evPass evP evD X aggr 0 k r = .ok Y) :
    ∃ Z : Ω → Dense ℝ, (∀ ω, Ord.evPass evP evD X aggr p (mask ρ p ω) r = .ok (Z ω)) ∧ Spec.MeanShare P (1 - p) Z Y := by
  rcases ha with rfl | rfl
  · exact share_sum h h0 h1 hY
  · exact share_mean h h0 h1 hY

theorem share_agg (h : Spec.UniformDraws P ρ) {p : ℝ} (h0 : 0 ≤ p) (h1 : p ≤ 1) {evP evD : HRaw ℝ → Except Err (Sp ℝ)} {r : HRaw ℝ}
    {k : Nat → Bool} {X Y : Dense ℝ} {aggr : Aggr} (ha : aggr = .sum ∨ aggr = .mean)
    (hY : Hyper.evAgg evP evD X aggr none 0 k r = .ok Y) :
    ∃ Z : Ω → Dense ℝ, (∀ ω, Hyper.evAgg evP evD X aggr none p (mask ρ p ω) r = .ok (Z ω)) ∧ Spec.MeanShare P (1 - p) Z Y := by
  rcases ha with rfl | rfl
  · exact share_sum h h0 h1 hY
  · exact share_mean h h0 h1 hY

theorem map_feat {x : Except Err (Dense ℝ)} {Y : Dense ℝ} (h : x.map GAns.feat = .ok (.feat Y)) : x = .ok Y := by
  rcases x with e | Z
  · cases h
  · cases h; rfl

end Law

/-- C138 (Graph). On average, message passing with dropout (sums or means) gives the share `1 - p` of the result without
dropout: nothing is rescaled. -/
theorem C138_graph_v2v_dropout (h : Spec.UniformDraws P ρ) {p : ℝ} (h0 : 0 ≤ p) (h1 : p ≤ 1) {g : GSt ℝ} (hg : Graph.Built AnyArg g)
    {aggr : Aggr} (ha : aggr = .sum ∨ aggr = .mean) {X Y : Dense ℝ} {k : Nat → Bool}
    (hY : (Graph.ask (.v2v X aggr none 0 k) g).1 = .ok (.feat Y)) :
    ∃ Z : Ω → Dense ℝ, (∀ ω, (Graph.ask (.v2v X aggr none p fun i => decide (ρ i ω < 1 - p)) g).1 = .ok (.feat (Z ω))) ∧
      Spec.MeanShare P (1 - p) Z Y := by
  have hask : ∀ q, (Graph.ask q g).1 = Graph.evAsk q g.raw := fun q => (Graph.reads_ask q g hg.inv.2).1
  rw [hask] at hY
  have hY' := map_feat hY
  have hZ : ∃ Z : Ω → Dense ℝ, (∀ ω, Graph.evV2v X aggr none p (mask ρ p ω) g.raw = .ok (Z ω)) ∧ Spec.MeanShare P (1 - p) Z Y := by
    rcases ha with rfl | rfl
    · exact share_sum h h0 h1 hY'
    · exact share_mean h h0 h1 hY'
  obtain ⟨Z, hZ, hm⟩ := hZ
  refine ⟨Z, fun ω => ?_, hm⟩
  rw [hask]
  show (Graph.evV2v X aggr none p (mask ρ p ω) g.raw).map GAns.feat = _
  rw [hZ ω]
  rfl

/-- C138 (Graph). The same for `smoothing_with_GCN`. -/
theorem C138_graph_smoothing_dropout (h : Spec.UniformDraws P ρ) {p : ℝ} (h0 : 0 ≤ p) (h1 : p ≤ 1) {g : GSt ℝ} (hg : Graph.Built AnyArg g)
    {X Y : Dense ℝ} {k : Nat → Bool} (hY : (Graph.ask (.smoothGCN X 0 k) g).1 = .ok (.feat Y)) :
    ∃ Z : Ω → Dense ℝ, (∀ ω, (Graph.ask (.smoothGCN X p fun i => decide (ρ i ω < 1 - p)) g).1 = .ok (.feat (Z ω))) ∧
      Spec.MeanShare P (1 - p) Z Y := by
  have hask : ∀ q, (Graph.ask q g).1 = Graph.evAsk q g.raw := fun q => (Graph.reads_ask q g hg.inv.2).1
  rw [hask] at hY
  obtain ⟨Z, hZ, hm⟩ := share_sum h h0 h1 (eP := Graph.evLGCN g.raw) (map_feat hY)
  refine ⟨Z, fun ω => ?_, hm⟩
  rw [hask]
  show (Graph.evSmoothGCN X p (mask ρ p ω) g.raw).map GAns.feat = _
  rw [show Graph.evSmoothGCN X p (mask ρ p ω) g.raw = .ok (Z ω) from hZ ω]
  rfl

/-- C138 (DiGraph). The same for `v2v` in both directions. -/
theorem C138_digraph_v2v_dropout (h : Spec.UniformDraws P ρ) {p : ℝ} (h0 : 0 ≤ p) (h1 : p ≤ 1) {w : Bool} {g : DSt ℝ}
    (hg : DiGraph.Built AnyArg w g) {aggr : Aggr} (ha : aggr = .sum ∨ aggr = .mean) {dir : Dir} {X Y : Dense ℝ} {k : Nat → Bool}
    (hY : (DiGraph.ask (.v2v X aggr none dir 0 k) g).1 = .ok (.feat Y)) :
    ∃ Z : Ω → Dense ℝ, (∀ ω, (DiGraph.ask (.v2v X aggr none dir p fun i => decide (ρ i ω < 1 - p)) g).1 = .ok (.feat (Z ω))) ∧
      Spec.MeanShare P (1 - p) Z Y := by
  have ho : aggr ≠ .other := by rcases ha with rfl | rfl <;> simp
  rw [hg.ask] at hY
  have hY' := map_feat hY
  have hZ : ∃ Z : Ω → Dense ℝ, (∀ ω, DiGraph.evV2v X aggr none dir p (mask ρ p ω) g.raw = .ok (Z ω)) ∧ Spec.MeanShare P (1 - p) Z Y := by
    unfold DiGraph.evV2v at hY' ⊢
    simp only [if_neg ho] at hY' ⊢
    cases dir with
    | dst2src => exact share_pass h h0 h1 ha (evP := Ord.evM .di) (evD := Ord.evDrN1 .di) hY'
    | src2dst => exact share_pass h h0 h1 ha (evP := Ord.evMT .di) (evD := Ord.evDcN1 .di) hY'
    | other => cases hY'
  obtain ⟨Z, hZ, hm⟩ := hZ
  refine ⟨Z, fun ω => ?_, hm⟩
  rw [hg.ask]
  show (DiGraph.evV2v X aggr none dir p (mask ρ p ω) g.raw).map GAns.feat = _
  rw [hZ ω]
  rfl

/-- C138 (BiGraph). The same for `u2v`. -/
theorem C138_bigraph_u2v_dropout (h : Spec.UniformDraws P ρ) {p : ℝ} (h0 : 0 ≤ p) (h1 : p ≤ 1) {g : BSt ℝ}
    (hg : BiGraph.Built AnyArg g) {aggr : Aggr} (ha : aggr = .sum ∨ aggr = .mean) {X Y : Dense ℝ} {k : Nat → Bool}
    (hY : (BiGraph.ask (.u2v X aggr none 0 k) g).1 = .ok (.feat Y)) :
    ∃ Z : Ω → Dense ℝ, (∀ ω, (BiGraph.ask (.u2v X aggr none p fun i => decide (ρ i ω < 1 - p)) g).1 = .ok (.feat (Z ω))) ∧
      Spec.MeanShare P (1 - p) Z Y := by
  rw [hg.ask] at hY
  have hY' := map_feat hY
  have ho : aggr ≠ .other := by rcases ha with rfl | rfl <;> simp
  unfold BiGraph.evU2v at hY'
  rw [if_neg ho] at hY'
  obtain ⟨Z, hZ, hm⟩ := share_pass h h0 h1 ha (evP := Ord.evMT .bi) (evD := Ord.evDcN1 .bi) hY'
  refine ⟨Z, fun ω => ?_, hm⟩
  rw [hg.ask]
  show (BiGraph.evU2v X aggr none p (mask ρ p ω) g.raw).map GAns.feat = _
  unfold BiGraph.evU2v
  rw [if_neg ho]
  show (Ord.evPass (Ord.evMT .bi) (Ord.evDcN1 .bi) X aggr p (mask ρ p ω) g.raw).map GAns.feat = _
  rw [hZ ω]
  rfl

/-- C138 (BiGraph). The same for `v2u`. -/
theorem C138_bigraph_v2u_dropout (h : Spec.UniformDraws P ρ) {p : ℝ} (h0 : 0 ≤ p) (h1 : p ≤ 1) {g : BSt ℝ}
    (hg : BiGraph.Built AnyArg g) {aggr : Aggr} (ha : aggr = .sum ∨ aggr = .mean) {X Y : Dense ℝ} {k : Nat → Bool}
    (hY : (BiGraph.ask (.v2u X aggr none 0 k) g).1 = .ok (.feat Y)) :
    ∃ Z : Ω → Dense ℝ, (∀ ω, (BiGraph.ask (.v2u X aggr none p fun i => decide (ρ i ω < 1 - p)) g).1 = .ok (.feat (Z ω))) ∧
      Spec.MeanShare P (1 - p) Z Y := by
  rw [hg.ask] at hY
  have hY' := map_feat hY
  have ho : aggr ≠ .other := by rcases ha with rfl | rfl <;> simp
  unfold BiGraph.evV2u at hY'
  rw [if_neg ho] at hY'
  obtain ⟨Z, hZ, hm⟩ := share_pass h h0 h1 ha (evP := Ord.evM .bi) (evD := Ord.evDrN1 .bi) hY'
  refine ⟨Z, fun ω => ?_, hm⟩
  rw [hg.ask]
  show (BiGraph.evV2u X aggr none p (mask ρ p ω) g.raw).map GAns.feat = _
  unfold BiGraph.evV2u
  rw [if_neg ho]
  show (Ord.evPass (Ord.evM .bi) (Ord.evDrN1 .bi) X aggr p (mask ρ p ω) g.raw).map GAns.feat = _
  rw [hZ ω]
  rfl

/-- C138 (BiGraph). The same for `smoothing_with_GCN`. -/
theorem C138_bigraph_smoothing_dropout (h : Spec.UniformDraws P ρ) {p : ℝ} (h0 : 0 ≤ p) (h1 : p ≤ 1) {g : BSt ℝ}
    (hg : BiGraph.Built AnyArg g) {X Y : Dense ℝ} {k : Nat → Bool} (hY : (BiGraph.ask (.smoothGCN X 0 k) g).1 = .ok (.feat Y)) :
    ∃ Z : Ω → Dense ℝ, (∀ ω, (BiGraph.ask (.smoothGCN X p fun i => decide (ρ i ω < 1 - p)) g).1 = .ok (.feat (Z ω))) ∧
      Spec.MeanShare P (1 - p) Z Y := by
  rw [hg.ask] at hY
  obtain ⟨Z, hZ, hm⟩ := share_sum h h0 h1 (eP := Ord.evLGCN g.raw) (map_feat hY)
  refine ⟨Z, fun ω => ?_, hm⟩
  rw [hg.ask]
  show (BiGraph.evSmoothGCN X p (mask ρ p ω) g.raw).map GAns.feat = _
  rw [show BiGraph.evSmoothGCN X p (mask ρ p ω) g.raw = .ok (Z ω) from hZ ω]
  rfl

/-- C138 (Hypergraph). The same for the two halves of message passing. -/
theorem C138_hypergraph_aggr_dropout (h : Spec.UniformDraws P ρ) {p : ℝ} (h0 : 0 ≤ p) (h1 : p ≤ 1) {b : Bool} {s : HSt ℝ}
    (hs : Hyper.Built Hyper.AnyH b s) {sc : Option String} {aggr : Aggr} (ha : aggr = .sum ∨ aggr = .mean) {X Y : Dense ℝ} {k : Nat → Bool} :
    ((Hyper.ask (.v2eAggr sc X aggr none 0 k) s).1 = .ok (.feat Y) →
      ∃ Z : Ω → Dense ℝ, (∀ ω, (Hyper.ask (.v2eAggr sc X aggr none p fun i => decide (ρ i ω < 1 - p)) s).1 = .ok (.feat (Z ω))) ∧
        Spec.MeanShare P (1 - p) Z Y) ∧
    ((Hyper.ask (.e2vAggr sc X aggr none 0 k) s).1 = .ok (.feat Y) →
      ∃ Z : Ω → Dense ℝ, (∀ ω, (Hyper.ask (.e2vAggr sc X aggr none p fun i => decide (ρ i ω < 1 - p)) s).1 = .ok (.feat (Z ω))) ∧
        Spec.MeanShare P (1 - p) Z Y) := by
  constructor
  · intro hY
    rw [Hyper.ask_eq _ hs.inv.2 (.inr (by simp))] at hY
    simp only [Hyper.evAsk, Hyper.evV2eAggr] at hY
    rcases hc : Hyper.chk sc s.raw with e | u
    · rw [hc] at hY; cases hY
    · rw [hc] at hY
      rcases hE : Hyper.evAgg (Hyper.evHT sc) (Hyper.evDeN1 sc) X aggr none 0 k s.raw with e | W
      · simp only [bind, Except.bind, hE] at hY; cases hY
      · simp only [bind, Except.bind, hE] at hY; cases hY
        obtain ⟨Z, hZ, hm⟩ := share_agg h h0 h1 ha hE
        refine ⟨Z, fun ω => ?_, hm⟩
        rw [Hyper.ask_eq _ hs.inv.2 (.inr (by simp))]
        simp only [Hyper.evAsk, Hyper.evV2eAggr, hc, bind, Except.bind, hZ ω]
  · intro hY
    rw [Hyper.ask_eq _ hs.inv.2 (.inr (by simp))] at hY
    simp only [Hyper.evAsk, Hyper.evE2vAggr] at hY
    rcases hc : Hyper.chk sc s.raw with e | u
    · rw [hc] at hY; cases hY
    · rw [hc] at hY
      rcases hE : Hyper.evAgg (Hyper.evH sc) (Hyper.evDvN1 sc) X aggr none 0 k s.raw with e | W
      · simp only [bind, Except.bind, hE] at hY; cases hY
      · simp only [bind, Except.bind, hE] at hY; cases hY
        obtain ⟨Z, hZ, hm⟩ := share_agg h h0 h1 ha hE
        refine ⟨Z, fun ω => ?_, hm⟩
        rw [Hyper.ask_eq _ hs.inv.2 (.inr (by simp))]
        simp only [Hyper.evAsk, Hyper.evE2vAggr, hc, bind, Except.bind, hZ ω]

/-- C138 (Hypergraph). The same for `v2e` and `e2v`, with the stored weights of the hyperedges. -/
theorem C138_hypergraph_dropout (h : Spec.UniformDraws P ρ) {p : ℝ} (h0 : 0 ≤ p) (h1 : p ≤ 1) {b : Bool} {s : HSt ℝ}
    (hs : Hyper.Built Hyper.AnyH b s) {sc : Option String} {aggr : Aggr} (ha : aggr = .sum ∨ aggr = .mean) {X Y : Dense ℝ} {k : Nat → Bool} :
    ((Hyper.ask (.v2e sc X aggr none none 0 k) s).1 = .ok (.feat Y) →
      ∃ Z : Ω → Dense ℝ, (∀ ω, (Hyper.ask (.v2e sc X aggr none none p fun i => decide (ρ i ω < 1 - p)) s).1 = .ok (.feat (Z ω))) ∧
        Spec.MeanShare P (1 - p) Z Y) ∧
    ((Hyper.ask (.e2v sc X aggr none 0 k) s).1 = .ok (.feat Y) →
      ∃ Z : Ω → Dense ℝ, (∀ ω, (Hyper.ask (.e2v sc X aggr none p fun i => decide (ρ i ω < 1 - p)) s).1 = .ok (.feat (Z ω))) ∧
        Spec.MeanShare P (1 - p) Z Y) := by
  constructor
  · intro hY
    rw [Hyper.ask_eq _ hs.inv.2 (.inr (by simp))] at hY
    simp only [Hyper.evAsk, Hyper.evV2e, Hyper.evV2eAggr, Hyper.evV2eUpd] at hY
    rcases hc : Hyper.chk sc s.raw with e | u
    · rw [hc] at hY; cases hY
    · rw [hc] at hY
      rcases hE : Hyper.evAgg (Hyper.evHT sc) (Hyper.evDeN1 sc) X aggr none 0 k s.raw with e | V
      · simp only [bind, Except.bind, hE] at hY; cases hY
      · rcases hW : Hyper.evWe sc s.raw with e | W
        · simp only [bind, Except.bind, hE, hW] at hY; cases hY
        · rcases hV : W.mmD V with e | T
          · simp only [bind, Except.bind, hE, hW, hV] at hY; cases hY
          · simp only [bind, Except.bind, hE, hW, hV] at hY; cases hY
            obtain ⟨Z, hZ, hs', hm⟩ := share_agg h h0 h1 ha hE
            obtain ⟨Z', hZ', hs'', hm'⟩ := mean_mmD hV hs' hm
            refine ⟨Z', fun ω => ?_, hs'', hm'⟩
            rw [Hyper.ask_eq _ hs.inv.2 (.inr (by simp))]
            simp only [Hyper.evAsk, Hyper.evV2e, Hyper.evV2eAggr, Hyper.evV2eUpd, hc, bind, Except.bind, hZ ω, hW, hZ' ω]
  · intro hY
    rw [Hyper.ask_eq _ hs.inv.2 (.inr (by simp))] at hY
    simp only [Hyper.evAsk, Hyper.evE2v, Hyper.evE2vAggr, Hyper.evE2vUpd] at hY
    rcases hc : Hyper.chk sc s.raw with e | u
    · rw [hc] at hY; cases hY
    · rw [hc] at hY
      rcases hE : Hyper.evAgg (Hyper.evH sc) (Hyper.evDvN1 sc) X aggr none 0 k s.raw with e | W
      · simp only [bind, Except.bind, hE] at hY; cases hY
      · simp only [bind, Except.bind, hE] at hY; cases hY
        obtain ⟨Z, hZ, hm⟩ := share_agg h h0 h1 ha hE
        refine ⟨Z, fun ω => ?_, hm⟩
        rw [Hyper.ask_eq _ hs.inv.2 (.inr (by simp))]
        simp only [Hyper.evAsk, Hyper.evE2v, Hyper.evE2vAggr, Hyper.evE2vUpd, hc, bind, Except.bind, hZ ω]

/-- C138 (Hypergraph). The same for `smoothing_with_HGNN`. -/
theorem C138_hypergraph_smoothing_dropout (h : Spec.UniformDraws P ρ) {p : ℝ} (h0 : 0 ≤ p) (h1 : p ≤ 1) {b : Bool} {s : HSt ℝ}
    (hs : Hyper.Built Hyper.AnyH b s) {sc : Option String} {X Y : Dense ℝ} {k : Nat → Bool}
    (hY : (Hyper.ask (.smoothHGNN sc X 0 k) s).1 = .ok (.feat Y)) :
    ∃ Z : Ω → Dense ℝ, (∀ ω, (Hyper.ask (.smoothHGNN sc X p fun i => decide (ρ i ω < 1 - p)) s).1 = .ok (.feat (Z ω))) ∧
      Spec.MeanShare P (1 - p) Z Y := by
  rw [Hyper.ask_eq _ hs.inv.2 (.inr (by simp))] at hY
  rcases hE : Hyper.evSmooth sc X 0 k s.raw with e | W
  · simp only [Hyper.evAsk, hE, bind, Except.bind] at hY; cases hY
  · simp only [Hyper.evAsk, hE, bind, Except.bind] at hY; cases hY
    obtain ⟨Z, hZ, hm⟩ := share_sum h h0 h1 (eP := Hyper.evLHGNN sc s.raw) hE
    refine ⟨Z, fun ω => ?_, hm⟩
    rw [Hyper.ask_eq _ hs.inv.2 (.inr (by simp))]
    have : Hyper.evSmooth sc X p (mask ρ p ω) s.raw = .ok (Z ω) := hZ ω
    simp only [Hyper.evAsk, this, bind, Except.bind]

/-- C138. `sparse_dropout`: every selection of stored entries is what is left with the probability that exactly these are
kept, each independently with probability `1 - p`. -/
theorem C138_sparse_dropout (h : Spec.UniformDraws P ρ) {p : ℝ} (h0 : 0 ≤ p) (h1 : p ≤ 1) (M : Sp ℝ) {fill : ℝ}
    (hfill : ∀ e ∈ M.coalesce.ents, e.2 ≠ fill) {S : Finset Nat} (hS : ∀ i ∈ S, i < M.coalesce.ents.length) :
    P {ω | ∃ N, Utils.dropoutWith M p fill (fun i => ρ i ω) = .ok N ∧ ∀ i ij x, M.coalesce.ents[i]? = some (ij, x) →
        N.ents[i]? = some (ij, if i ∈ S then x else fill)} =
      Spec.bernoulli (1 - p) M.coalesce.ents.length S.card := by
  have key := candidates h (Finset.range M.coalesce.ents.length) S (fun i hi => Finset.mem_range.2 (hS i hi)) id
    (fun a _ b _ e => e) (p := 1 - p) (by linarith) (by linarith)
  rw [Finset.card_range] at key
  rw [← key]
  congr 1
  ext ω
  have hN : ∃ N, Utils.dropoutWith M p fill (fun i => ρ i ω) = .ok N ∧ ∀ i ij x, M.coalesce.ents[i]? = some (ij, x) →
      N.ents[i]? = some (ij, if ρ i ω < 1 - p then x else fill) := by
    rcases h0.eq_or_lt with rfl | hp
    · refine ⟨M.coalesce, ?_, fun i ij x hx => ?_⟩
      · unfold Utils.dropoutWith
        simp
      · rw [hx, if_pos (by simpa using (h.range i ω).2)]
    · exact C58_sparse_dropout_entry M p fill hp h1 fun i => ρ i ω
  obtain ⟨N, e1, e2⟩ := hN
  simp only [Set.mem_ofPred_eq, Finset.mem_range, id]
  constructor
  · rintro ⟨N', e1', e2'⟩ i hi
    rw [e1] at e1'; cases e1'
    have hx : M.coalesce.ents[i]? = some (M.coalesce.ents[i].1, M.coalesce.ents[i].2) := List.getElem?_eq_getElem hi
    have h3 := (e2 i _ _ hx).symm.trans (e2' i _ _ hx)
    have hne := hfill _ (List.getElem_mem hi)
    simp only [Option.some.injEq, Prod.mk.injEq, true_and] at h3
    by_cases hr : ρ i ω < 1 - p <;> by_cases hiS : i ∈ S
    · exact ⟨fun _ => hr, fun _ => hiS⟩
    · rw [if_pos hr, if_neg hiS] at h3; exact absurd h3 hne
    · rw [if_neg hr, if_pos hiS] at h3; exact absurd h3.symm hne
    · exact ⟨fun h' => absurd h' hiS, fun h' => absurd h' hr⟩
  · intro hω
    refine ⟨N, e1, fun i ij x hx => ?_⟩
    rw [e2 i ij x hx]
    have := hω i (List.getElem?_eq_some_iff.1 hx).1
    by_cases hr : ρ i ω < 1 - p
    · rw [if_pos hr, if_pos (this.2 hr)]
    · rw [if_neg hr, if_neg fun h' => hr (this.1 h')]

/-- a graph with two edges and a loop, of which the last two are kept -/
example : ∃ (P : Measure (Nat → ℝ)) (ρ : Nat → (Nat → ℝ) → ℝ), IsProbabilityMeasure P ∧
    P {ω | ∃ g', Graph.dropEdges (1 / 4) true (fun i => ρ i ω) exG = .ok g' ∧ Spec.listing g' = [((1, 2), 3), ((2, 2), 7)]} =
      Spec.bernoulli (1 - 1 / 4) 3 2 := by
  obtain ⟨P, ρ, hP, h⟩ := C133_draws_exist
  refine ⟨P, ρ, hP, ?_⟩
  have := C138_graph_drop_edges h exG_built (rate := 1 / 4) (by norm_num) (by norm_num) (m := 3) rfl
    (left := [((1, 2), 3), ((2, 2), 7)]) (by rw [exG_listing]; exact .cons _ (List.Sublist.refl _))
  exact this

/-- on average, a quarter of the means of neighbours is lost -/
example : ∃ (P : Measure (Nat → ℝ)) (ρ : Nat → (Nat → ℝ) → ℝ) (X Y : Dense ℝ) (Z : (Nat → ℝ) → Dense ℝ), IsProbabilityMeasure P ∧
    (Graph.ask (.v2v X .mean none 0 fun _ => true) exG).1 = .ok (.feat Y) ∧
    (∀ ω, (Graph.ask (.v2v X .mean none (1 / 4) fun i => decide (ρ i ω < 1 - 1 / 4)) exG).1 = .ok (.feat (Z ω))) ∧
    Spec.MeanShare P (1 - 1 / 4) Z Y := by
  obtain ⟨P, ρ, hP, h⟩ := C133_draws_exist
  obtain ⟨Y, hY, -⟩ := C12_graph_v2v_mean exG_nonneg exG_numV (⟨3, 1, fun i _ => (i : ℝ)⟩ : Dense ℝ) rfl fun _ => true
  obtain ⟨Z, hZ, hm⟩ := C138_graph_v2v_dropout h (p := 1 / 4) (by norm_num) (by norm_num) exG_built (.inr rfl) hY
  exact ⟨P, ρ, _, Y, Z, hP, hY, hZ, hm⟩

example : ∃ (P : Measure (Nat → ℝ)) (ρ : Nat → (Nat → ℝ) → ℝ) (X Y : Dense ℝ) (Z : (Nat → ℝ) → Dense ℝ), IsProbabilityMeasure P ∧
    (Hyper.ask (.v2e none X .sum none none 0 fun _ => true) exH).1 = .ok (.feat Y) ∧
    (∀ ω, (Hyper.ask (.v2e none X .sum none none (1 / 4) fun i => decide (ρ i ω < 1 - 1 / 4)) exH).1 = .ok (.feat (Z ω))) ∧
    Spec.MeanShare P (1 - 1 / 4) Z Y := by
  obtain ⟨P, ρ, hP, h⟩ := C133_draws_exist
  obtain ⟨⟨Y, hY, -⟩, -⟩ := C37_hypergraph_v2e_partial exH_proper (sc := none) (List.cons_ne_nil _ _) (n := 4) rfl
    (⟨4, 1, fun i _ => (i : ℝ)⟩ : Dense ℝ) rfl fun _ => true
  obtain ⟨Z, hZ, hm⟩ := (C138_hypergraph_dropout h (p := 1 / 4) (by norm_num) (by norm_num) exH_built (.inl rfl)).1 hY
  exact ⟨P, ρ, _, Y, Z, hP, hY, hZ, hm⟩

end Props
end DHG
