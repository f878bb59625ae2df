import Verif.Props.Contract
import Verif.Props.GraphMessages
import Verif.Props.DiGraphMatrices
import Verif.Props.HyperMessages

/-!
# Message passing in one direction is the transpose of message passing in the other (C122)
-/

set_option linter.unusedSectionVars false
set_option autoImplicit false

namespace DHG

variable {K : Type} [Field K] [LinearOrder K] [PyReal K]

namespace Spec

/-- the sum over the first `n` rows of the products of column `c` of `X` with column `d` of `Y` -/
def colDot (n : Nat) (X : Dense K) (c : Nat) (Y : Dense K) (d : Nat) : K :=
  ∑ i ∈ Finset.range n, X.at_ i c * Y.at_ i d

end Spec

namespace Props
open Finset

/-- products with a matrix and with its transpose -/
theorem dot_transpose {n m : Nat} {M N : Nat → Nat → K} (h : ∀ i j, i < n → j < m → M i j = N j i) {X Z P Q : Dense K}
    {c d : Nat} (hP : ∀ i, i < n → P.at_ i c = ∑ j ∈ range m, M i j * X.at_ j c)
    (hQ : ∀ j, j < m → Q.at_ j d = ∑ i ∈ range n, N j i * Z.at_ i d) : Spec.colDot n P c Z d = Spec.colDot m X c Q d := by
  unfold Spec.colDot
  have h1 : ∑ i ∈ range n, P.at_ i c * Z.at_ i d = ∑ i ∈ range n, ∑ j ∈ range m, M i j * X.at_ j c * Z.at_ i d :=
    sum_congr rfl fun i hi => by rw [hP i (mem_range.1 hi), sum_mul]
  have h2 : ∑ j ∈ range m, X.at_ j c * Q.at_ j d = ∑ j ∈ range m, ∑ i ∈ range n, X.at_ j c * (N j i * Z.at_ i d) :=
    sum_congr rfl fun j hj => by rw [hQ j (mem_range.1 hj), mul_sum]
  rw [h1, h2, sum_comm]
  refine sum_congr rfl fun j hj => sum_congr rfl fun i hi => ?_
  rw [h i j (mem_range.1 hi) (mem_range.1 hj)]; ring

/-- C122. `v2v` with `aggr="sum"` of a Graph is its own transpose. -/
theorem C122_graph_v2v {g : GSt K} (hg : Graph.Built Graph.NonNeg g) {n : Nat} (hn : (Graph.ask .numV g).1 = .ok (.num n))
    {X Z P Q : Dense K} (hX : X.rows = n) (hZ : Z.rows = n) {keep keep' : Nat → Bool}
    (hP : (Graph.ask (.v2v X .sum none 0 keep) g).1 = .ok (.feat P))
    (hQ : (Graph.ask (.v2v Z .sum none 0 keep') g).1 = .ok (.feat Q)) (c d : Nat) :
    Spec.colDot n P c Z d = Spec.colDot n X c Q d := by
  obtain ⟨P', hP', _, _, p⟩ := C12_graph_v2v_sum hg hn X hX keep
  obtain ⟨Q', hQ', _, _, q⟩ := C12_graph_v2v_sum hg hn Z hZ keep'
  rw [hP] at hP'; cases hP'
  rw [hQ] at hQ'; cases hQ'
  exact dot_transpose (fun i j _ _ => Graph.wt_symm _ _ _) (fun i _ => p i c) fun j _ => q j d

/-- C122. `smoothing_with_GCN` of a Graph is its own transpose. -/
theorem C122_graph_smoothing [IsStrictOrderedRing K] {g : GSt K} (hg : Graph.Built Graph.NonNeg g) {n : Nat}
    (hn : (Graph.ask .numV g).1 = .ok (.num n)) (hw : Spec.NonnegWeights (Spec.listing g)) {X Z P Q : Dense K}
    (hX : X.rows = n) (hZ : Z.rows = n) {keep keep' : Nat → Bool}
    (hP : (Graph.ask (.smoothGCN X 0 keep) g).1 = .ok (.feat P))
    (hQ : (Graph.ask (.smoothGCN Z 0 keep') g).1 = .ok (.feat Q)) (c d : Nat) :
    Spec.colDot n P c Z d = Spec.colDot n X c Q d := by
  obtain ⟨L, s, hL, _, _, hsym, _⟩ := C11_graph_LGCN hg hn hw
  obtain ⟨P', hP', _, _, p⟩ := C11_graph_smoothing hg hn hw hL X hX keep
  obtain ⟨Q', hQ', _, _, q⟩ := C11_graph_smoothing hg hn hw hL Z hZ keep'
  rw [hP] at hP'; cases hP'
  rw [hQ] at hQ'; cases hQ'
  exact dot_transpose hsym (fun i _ => p i c) fun j _ => q j d

/-- C122. For a DiGraph, passing messages from targets to sources is the transpose of passing them from sources to
targets. -/
theorem C122_digraph_v2v {w : Bool} {g : DSt K} (hg : DiGraph.Built Graph.NonNeg w g) {n : Nat}
    (hn : (DiGraph.ask .numV g).1 = .ok (.num n)) {X Z P Q : Dense K} (hX : X.rows = n) (hZ : Z.rows = n)
    {keep keep' : Nat → Bool} (hP : (DiGraph.ask (.v2v X .sum none .dst2src 0 keep) g).1 = .ok (.feat P))
    (hQ : (DiGraph.ask (.v2v Z .sum none .src2dst 0 keep') g).1 = .ok (.feat Q)) (c d : Nat) :
    Spec.colDot n P c Z d = Spec.colDot n X c Q d := by
  obtain ⟨P', hP', _, _, p⟩ := (C24_digraph_v2v_sum hg hn X hX keep).1
  obtain ⟨Q', hQ', _, _, q⟩ := (C24_digraph_v2v_sum hg hn Z hZ keep').2
  rw [hP] at hP'; cases hP'
  rw [hQ] at hQ'; cases hQ'
  exact dot_transpose (fun i j _ _ => rfl) (fun i _ => p i c) fun j _ => q j d

section Hypergraphs
open Hyper Hy
variable {b : Bool}

/-- C122. For a Hypergraph and `aggr="sum"`, the transpose of `v2e` is to multiply the features of each hyperedge by its
weight and then to call `e2v` (`R` is `Z` with each row multiplied by the weight of the hyperedge). -/
theorem C122_hypergraph_v2e {s : HSt K} (hs : Built Proper b s) {sc : Option String} (hsc : Spec.HasScope s sc) {n : Nat}
    (hn : (ask .numV s).1 = .ok (.num n)) {X Z P R Q : Dense K} (hX : X.rows = n)
    {keep keep' : Nat → Bool}
    (hP : (ask (.v2e sc X .sum none none 0 keep) s).1 = .ok (.feat P)) (hR : R.rows = (Spec.hListing s sc).length)
    (hw : ∀ j d, j < (Spec.hListing s sc).length → R.at_ j d = Spec.hWt (Spec.hListing s sc) j * Z.at_ j d)
    (hQ : (ask (.e2v sc R .sum none 0 keep') s).1 = .ok (.feat Q)) (c d : Nat) :
    Spec.colDot (Spec.hListing s sc).length P c Z d = Spec.colDot n X c Q d := by
  obtain ⟨P', hP', _, _, p⟩ := (C37_hypergraph_v2e_partial hs hsc hn X hX keep).1
  obtain ⟨Q', hQ', _, _, q⟩ := (C37_hypergraph_e2v_partial hs hsc hn R hR keep').1
  rw [hP] at hP'; cases hP'
  rw [hQ] at hQ'; cases hQ'
  have hs' := hs.mono (Q := AnyH) fun _ _ _ => trivial
  have hRg := lst_rng hs'.inv.1 hs.inRange sc
  rw [← listing_eq hs', Hy.numV_eq hn] at hRg
  refine dot_transpose (M := fun j v => Spec.hWt (Spec.hListing s sc) j * Spec.inc (Spec.hListing s sc) v j)
    (N := fun v j => Spec.hWt (Spec.hListing s sc) j * Spec.inc (Spec.hListing s sc) v j) (fun _ _ _ _ => rfl)
    (fun j hj => ?_) fun v hv => ?_
  · rw [p j c hj, ← memberSum_eq hRg hj, mul_sum]
    exact sum_congr rfl fun v _ => (mul_assoc _ _ _).symm
  · rw [q v d hv, ← incidentSum_eq]
    refine sum_congr rfl fun j hj => ?_
    rw [hw j d (mem_range.1 hj)]; ring

/-- C122. `v2v` with `aggr="sum"` of a Hypergraph is its own transpose. -/
theorem C122_hypergraph_v2v {s : HSt K} (hs : Built Proper b s) {sc : Option String} (hsc : Spec.HasScope s sc) {n : Nat}
    (hn : (ask .numV s).1 = .ok (.num n)) {X Z P Q : Dense K} (hX : X.rows = n) (hZ : Z.rows = n)
    {k1 k2 k3 k4 : Nat → Bool}
    (hP : (ask (.v2v sc X { aggr := .sum, rate := 0, keep1 := k1, keep2 := k2 }) s).1 = .ok (.feat P))
    (hQ : (ask (.v2v sc Z { aggr := .sum, rate := 0, keep1 := k3, keep2 := k4 }) s).1 = .ok (.feat Q)) (c d : Nat) :
    Spec.colDot n P c Z d = Spec.colDot n X c Q d := by
  have hs' := hs.mono (Q := AnyH) fun _ _ _ => trivial
  have hRg := lst_rng hs'.inv.1 hs.inRange sc
  rw [← listing_eq hs', Hy.numV_eq hn] at hRg
  have key : ∀ (X P : Dense K) (k1 k2 : Nat → Bool), X.rows = n →
      (ask (.v2v sc X { aggr := .sum, rate := 0, keep1 := k1, keep2 := k2 }) s).1 = .ok (.feat P) → ∀ i c, i < n →
      P.at_ i c = ∑ j ∈ range n, (∑ k ∈ range (Spec.hListing s sc).length, Spec.inc (Spec.hListing s sc) i k *
        (Spec.hWt (Spec.hListing s sc) k * Spec.inc (Spec.hListing s sc) j k)) * X.at_ j c := by
    intro X P k1 k2 hX hP i c hi
    obtain ⟨Y, hY, y1, _, y⟩ := (C37_hypergraph_v2e_partial hs hsc hn X hX k1).1
    obtain ⟨P', hP', _, _, p⟩ := (C37_hypergraph_e2v_partial hs hsc hn Y y1 k2).1
    have hc := (C37_hypergraph_v2v_is_composition hs' hsc X
      { aggr := .sum, rate := 0, keep1 := k1, keep2 := k2 }).1 Y hY
    rw [hP] at hc
    have hc' := hc.trans hP'
    cases hc'
    rw [p i c hi, ← incidentSum_eq]
    rw [sum_congr rfl fun k hk => by
      rw [y k c (mem_range.1 hk), ← memberSum_eq hRg (mem_range.1 hk), mul_sum, mul_sum], sum_comm]
    refine sum_congr rfl fun j _ => ?_
    rw [sum_mul]
    exact sum_congr rfl fun k _ => by ring
  exact dot_transpose (fun i j _ _ => sum_congr rfl fun k _ => by ring) (fun i hi => key X P k1 k2 hX hP i c hi)
    fun j hj => key Z Q k3 k4 hZ hQ j d hj

/-- C122. `smoothing_with_HGNN` (and `_of_group`) is its own transpose. -/
theorem C122_hypergraph_smoothing [IsStrictOrderedRing K] {s : HSt K} (hs : Built Proper b s) {sc : Option String}
    (hsc : Spec.HasScope s sc) {n : Nat} (hn : (ask .numV s).1 = .ok (.num n))
    (hw : Spec.HNonneg (Spec.hListing s sc)) {X Z P Q : Dense K} (hX : X.rows = n) (hZ : Z.rows = n)
    {keep keep' : Nat → Bool} (hP : (ask (.smoothHGNN sc X 0 keep) s).1 = .ok (.feat P))
    (hQ : (ask (.smoothHGNN sc Z 0 keep') s).1 = .ok (.feat Q)) (c d : Nat) :
    Spec.colDot n P c Z d = Spec.colDot n X c Q d := by
  obtain ⟨L, _, _, hL, _, _, _, _, hsym, _⟩ := C36_hypergraph_L_HGNN_partial hs hsc hn hw
  obtain ⟨P', hP', _, _, p, _⟩ := C110_hypergraph hs hsc hn hw hL X hX keep
  obtain ⟨Q', hQ', _, _, q, _⟩ := C110_hypergraph hs hsc hn hw hL Z hZ keep'
  rw [hP] at hP'; cases hP'
  rw [hQ] at hQ'; cases hQ'
  exact dot_transpose hsym (fun i _ => p i c) fun j _ => q j d

end Hypergraphs

/-! ## Examples -/

example : Graph.Built Graph.NonNeg exG ∧ (Graph.ask .numV exG).1 = .ok (.num 3) ∧
    ∃ Y, (Graph.ask (.v2v ⟨3, 1, fun i _ => (i : ℝ)⟩ .sum none 0 fun _ => true) exG).1 = .ok (.feat Y) :=
  ⟨exG_nonneg, exG_numV, (C12_graph_v2v_sum exG_nonneg exG_numV _ rfl _).imp fun _ h => h.1⟩

example : ∃ Y, (DiGraph.ask (.v2v ⟨3, 1, fun i _ => (i : ℝ)⟩ .sum none .dst2src 0 fun _ => true) exD).1 = .ok (.feat Y) :=
  (C24_digraph_v2v_sum exD_nonneg exD_numV _ rfl _).1.imp fun _ h => h.1

example : Spec.HasScope exH none ∧ ∃ Y, (Hyper.ask (.v2e none ⟨4, 1, fun i _ => (i : ℝ)⟩ .sum none none 0 fun _ => true) exH).1 =
    .ok (.feat Y) :=
  ⟨List.cons_ne_nil _ _, (C37_hypergraph_v2e_partial exH_proper (sc := none) (List.cons_ne_nil _ _) rfl
    ⟨4, 1, fun i _ => (i : ℝ)⟩ rfl _).1.imp fun _ h => h.1⟩

end Props
end DHG
