import Verif.Props.Adjoint

/-!
# What message passing conserves (C123)
-/

set_option linter.unusedSectionVars false
set_option autoImplicit false

namespace DHG

variable {K : Type} [Field K] [LinearOrder K] [PyReal K]

namespace Spec

/-- the sum of column `c` over the first `n` rows -/
def colTotal (n : Nat) (X : Dense K) (c : Nat) : K := ∑ i ∈ Finset.range n, X.at_ i c

/-- the sum of column `c`, each row multiplied by the number given for it -/
def weightedTotal (d : List K) (X : Dense K) (c : Nat) : K := ∑ i ∈ Finset.range d.length, d.getD i 0 * X.at_ i c

end Spec

namespace Props
open Finset

/-- the total of a product with a matrix -/
theorem total_mul {n m : Nat} {M : Nat → Nat → K} {X P : Dense K} {c : Nat}
    (hP : ∀ i, i < n → P.at_ i c = ∑ j ∈ range m, M i j * X.at_ j c) {d : Nat → K}
    (hd : ∀ j, j < m → ∑ i ∈ range n, M i j = d j) :
    Spec.colTotal n P c = Spec.weightedTotal ((List.range m).map d) X c := by
  unfold Spec.colTotal Spec.weightedTotal
  rw [sum_congr rfl fun i hi => hP i (mem_range.1 hi), sum_comm, List.length_map, List.length_range]
  refine sum_congr rfl fun j hj => ?_
  rw [← sum_mul, hd j (mem_range.1 hj)]
  simp [mem_range.1 hj]

/-- the weighted total of a mean: rows of sum zero are rows of zeros -/
theorem total_mean {n m : Nat} {M : Nat → Nat → K} {X P : Dense K} {c : Nat} {r d : Nat → K}
    (hP : ∀ i, i < n → (r i = 0 → P.at_ i c = 0) ∧ (r i ≠ 0 → P.at_ i c = (∑ j ∈ range m, M i j * X.at_ j c) / r i))
    (h0 : ∀ i, i < n → r i = 0 → ∀ j, j < m → M i j = 0) (hd : ∀ j, j < m → ∑ i ∈ range n, M i j = d j) :
    Spec.weightedTotal ((List.range n).map r) P c = Spec.weightedTotal ((List.range m).map d) X c := by
  rw [← total_mul (P := ⟨n, 0, fun i c => ∑ j ∈ range m, M i j * X.at_ j c⟩) (fun i _ => rfl) hd]
  unfold Spec.colTotal Spec.weightedTotal
  rw [List.length_map, List.length_range]
  refine sum_congr rfl fun i hi => ?_
  have hi' := mem_range.1 hi
  have e : ((List.range n).map r).getD i 0 = r i := by simp [hi']
  rw [e]
  by_cases h : r i = 0
  · rw [h, zero_mul]
    have e0 : ∑ j ∈ range m, M i j * X.at_ j c = 0 :=
      sum_eq_zero fun j hj => by rw [h0 i hi' h j (mem_range.1 hj), zero_mul]
    exact e0.symm
  · rw [(hP i hi').2 h, mul_div_cancel₀ _ h]

/-- non-negative numbers of sum zero -/
theorem all_zero [IsStrictOrderedRing K] {m : Nat} {f : Nat → K} (h0 : ∀ j, 0 ≤ f j) (h : ∑ j ∈ range m, f j = 0) (j : Nat)
    (hj : j < m) : f j = 0 :=
  (sum_eq_zero_iff_of_nonneg fun j _ => h0 j).1 h j (mem_range.2 hj)

section Graphs
open Graph
variable {g : GSt K} {n : Nat}

/-- C123. The total of what `v2v` with `aggr="sum"` gives to the vertices of a Graph is the total of the features, each
counted as often as the degree of its vertex says. -/
theorem C123_graph_sum (hg : Built NonNeg g) (hn : (ask .numV g).1 = .ok (.num n)) {X Y : Dense K} (hX : X.rows = n)
    {keep : Nat → Bool} (hY : (ask (.v2v X .sum none 0 keep) g).1 = .ok (.feat Y)) {d : List K}
    (hd : (ask .degV g).1 = .ok (.vec d)) (c : Nat) : Spec.colTotal n Y c = Spec.weightedTotal d X c := by
  obtain ⟨Y', hY', _, _, h⟩ := C12_graph_v2v_sum hg hn X hX keep
  rw [hY] at hY'; cases hY'
  rw [(C06_graph_degrees hg hn).1] at hd; cases hd
  have hR : InR n (Spec.listing g) := by rw [listing_lst hg, ← numV_eq hn]; exact lst_InR hg.inv.1 hg.pos
  refine total_mul (fun i _ => h i c) fun j _ => ?_
  rw [← sum_wt_deg hR]
  exact sum_congr rfl fun i _ => wt_symm _ _ _

/-- C123. `v2v` with `aggr="mean"` of a Graph with non-negative weights does not change the total weighted by degrees. -/
theorem C123_graph_mean [IsStrictOrderedRing K] (hg : Built NonNeg g) (hn : (ask .numV g).1 = .ok (.num n))
    (hw : Spec.NonnegWeights (Spec.listing g)) {X Y : Dense K} (hX : X.rows = n) {keep : Nat → Bool}
    (hY : (ask (.v2v X .mean none 0 keep) g).1 = .ok (.feat Y)) {d : List K}
    (hd : (ask .degV g).1 = .ok (.vec d)) (c : Nat) : Spec.weightedTotal d Y c = Spec.weightedTotal d X c := by
  obtain ⟨Y', hY', _, _, h⟩ := C12_graph_v2v_mean hg hn X hX keep
  rw [hY] at hY'; cases hY'
  rw [(C06_graph_degrees hg hn).1] at hd; cases hd
  have hR : InR n (Spec.listing g) := by rw [listing_lst hg, ← numV_eq hn]; exact lst_InR hg.inv.1 hg.pos
  refine total_mean (fun i hi => h i c hi) (fun i hi h0 j hj => ?_) fun j _ => ?_
  · rw [← sum_wt_deg hR] at h0
    exact all_zero (fun j => wt_nonneg hw i j) h0 j hj
  · rw [← sum_wt_deg hR]
    exact sum_congr rfl fun i _ => wt_symm _ _ _

/-- C123. `smoothing_with_GCN` of a Graph with non-negative weights does not change the total weighted by the square
roots `r` of the degrees (with the unit loops of `L_GCN`). -/
theorem C123_graph_smoothing [IsStrictOrderedRing K] (hg : Built NonNeg g) (hn : (ask .numV g).1 = .ok (.num n))
    (hw : Spec.NonnegWeights (Spec.listing g)) {X Y : Dense K} (hX : X.rows = n) {keep : Nat → Bool}
    (hY : (ask (.smoothGCN X 0 keep) g).1 = .ok (.feat Y)) {r : List K} (hr : r.length = n)
    (hd : ∀ i, i < n → 0 ≤ r.getD i 0 ∧ r.getD i 0 * r.getD i 0 =
      Spec.deg (Spec.withUnitLoops n (Spec.listing (apply .removeExtraSelfloop g).2)) (i : Int)) (c : Nat) :
    Spec.weightedTotal r Y c = Spec.weightedTotal r X c := by
  obtain ⟨Q, hQ, q⟩ := C110_graph_fixed hg hn hw ⟨n, 1, fun i _ => r.getD i 0⟩ rfl keep (c := 0) hd
  have h := C122_graph_smoothing hg hn hw hX rfl hY hQ c 0
  unfold Spec.colDot at h
  unfold Spec.weightedTotal
  rw [hr]
  refine (sum_congr rfl fun i _ => mul_comm _ _).trans (h.trans (sum_congr rfl fun i hi => ?_))
  rw [q i (mem_range.1 hi), mul_comm]

end Graphs

section DiGraphs
open DiGraph Di
variable {w : Bool} {g : DSt K} {n : Nat}

/-- C123. The total of what `v2v` with `aggr="sum"` of a DiGraph gives is the total of the features, each counted as
often as the degree of its vertex on the sending side says. -/
theorem C123_digraph_sum (hg : Built Graph.NonNeg w g) (hn : (ask .numV g).1 = .ok (.num n)) {X Y Z : Dense K}
    (hX : X.rows = n) {keep keep' : Nat → Bool}
    (hY : (ask (.v2v X .sum none .dst2src 0 keep) g).1 = .ok (.feat Y))
    (hZ : (ask (.v2v X .sum none .src2dst 0 keep') g).1 = .ok (.feat Z)) {din dout : List K}
    (hi : (ask .degIn g).1 = .ok (.vec din)) (ho : (ask .degOut g).1 = .ok (.vec dout)) (c : Nat) :
    Spec.colTotal n Y c = Spec.weightedTotal din X c ∧ Spec.colTotal n Z c = Spec.weightedTotal dout X c := by
  obtain ⟨Y', hY', _, _, y⟩ := (C24_digraph_v2v_sum hg hn X hX keep).1
  obtain ⟨Z', hZ', _, _, z⟩ := (C24_digraph_v2v_sum hg hn X hX keep').2
  rw [hY] at hY'; cases hY'
  rw [hZ] at hZ'; cases hZ'
  obtain ⟨A, dout', din', _, _, _, ho', hi', h1, h2, _⟩ := C23_digraph_degrees hg hn
  rw [hi] at hi'; cases hi'
  rw [ho] at ho'; cases ho'
  have hI := Di.In hg hn
  exact ⟨total_mul (fun i _ => y i c) fun j _ => by rw [h2, Ord.sum_wt' hI],
    total_mul (fun i _ => z i c) fun j _ => by rw [h1, Ord.sum_wt hI]⟩

/-- C123. With `aggr="mean"` and non-negative weights, the total weighted by the degrees on the receiving side is the
total before weighted by the degrees on the sending side. -/
theorem C123_digraph_mean [IsStrictOrderedRing K] (hg : Built Graph.NonNeg w g) (hn : (ask .numV g).1 = .ok (.num n))
    (hw : Spec.NonnegWeights (Spec.listingD g)) {X Y Z : Dense K}
    (hX : X.rows = n) {keep keep' : Nat → Bool}
    (hY : (ask (.v2v X .mean none .dst2src 0 keep) g).1 = .ok (.feat Y))
    (hZ : (ask (.v2v X .mean none .src2dst 0 keep') g).1 = .ok (.feat Z)) {din dout : List K}
    (hi : (ask .degIn g).1 = .ok (.vec din)) (ho : (ask .degOut g).1 = .ok (.vec dout)) (c : Nat) :
    Spec.weightedTotal dout Y c = Spec.weightedTotal din X c ∧
      Spec.weightedTotal din Z c = Spec.weightedTotal dout X c := by
  obtain ⟨Y', hY', _, _, y⟩ := (C24_digraph_v2v_mean hg hn X hX keep).1
  obtain ⟨Z', hZ', _, _, z⟩ := (C24_digraph_v2v_mean hg hn X hX keep').2
  rw [hY] at hY'; cases hY'
  rw [hZ] at hZ'; cases hZ'
  obtain ⟨A, dout', din', _, _, _, ho', hi', h1, h2, _⟩ := C23_digraph_degrees hg hn
  rw [hi] at hi'; cases hi'
  rw [ho] at ho'; cases ho'
  have hI := Di.In hg hn
  refine ⟨total_mean (fun i hi => by rw [h1]; exact y i c hi) (fun i _ h0 j hj => ?_)
      fun j _ => by rw [h2, Ord.sum_wt' hI],
    total_mean (fun i hi => by rw [h2]; exact z i c hi) (fun i _ h0 j hj => ?_)
      fun j _ => by rw [h1, Ord.sum_wt hI]⟩
  · rw [h1, ← Ord.sum_wt hI] at h0
    exact all_zero (fun j => Ord.wt_nonneg hw i j) h0 j hj
  · rw [h2, ← Ord.sum_wt' hI] at h0
    exact all_zero (fun j => Ord.wt_nonneg hw j i) h0 j hj

end DiGraphs

section BiGraphs
open BiGraph Bi
variable {g : BSt K} {m n : Nat}

/-- C123. The total of what `u2v` and `v2u` with `aggr="sum"` of a BiGraph give is the total of the features, each
counted as often as the degree of its vertex says. -/
theorem C123_bigraph_sum (hg : Built Graph.NonNeg g) (hm : (ask .numU g).1 = .ok (.num m))
    (hn : (ask .numV g).1 = .ok (.num n)) (hx : Spec.Bipartite m n g) {X Z P Q : Dense K} (hX : X.rows = m)
    (hZ : Z.rows = n) {keep : Nat → Bool} (hP : (ask (.u2v X .sum none 0 keep) g).1 = .ok (.feat P))
    (hQ : (ask (.v2u Z .sum none 0 keep) g).1 = .ok (.feat Q)) {du dv : List K}
    (hu : (ask .degU g).1 = .ok (.vec du)) (hv : (ask .degV g).1 = .ok (.vec dv)) (c : Nat) :
    Spec.colTotal n P c = Spec.weightedTotal du X c ∧ Spec.colTotal m Q c = Spec.weightedTotal dv Z c := by
  obtain ⟨B, P', Q', hB, hP', _, _, p, hQ', _, _, q⟩ := C27_bigraph_sum hg hm hn hx X Z hX hZ keep
  rw [hP] at hP'; cases hP'
  rw [hQ] at hQ'; cases hQ'
  obtain ⟨B', du', dv', _, _, hB', hu', hv', h1, h2, _⟩ := C25_bigraph_degrees hg hm hn hx
  rw [hB] at hB'; cases hB'
  rw [hu] at hu'; cases hu'
  rw [hv] at hv'; cases hv'
  exact ⟨total_mul (fun i _ => p i c) fun j _ => (h1 j).symm, total_mul (fun i _ => q i c) fun j _ => (h2 j).symm⟩

/-- C123. With `aggr="mean"` and non-negative weights, the total weighted by the degrees of the receivers is the total
before weighted by the degrees of the senders. -/
theorem C123_bigraph_mean [IsStrictOrderedRing K] (hg : Built Graph.NonNeg g) (hm : (ask .numU g).1 = .ok (.num m))
    (hn : (ask .numV g).1 = .ok (.num n)) (hx : Spec.Bipartite m n g) (hw : Spec.NonnegWeights (Spec.listingB g))
    {X Z P Q : Dense K} (hX : X.rows = m)
    (hZ : Z.rows = n) {keep : Nat → Bool} (hP : (ask (.u2v X .mean none 0 keep) g).1 = .ok (.feat P))
    (hQ : (ask (.v2u Z .mean none 0 keep) g).1 = .ok (.feat Q)) {du dv : List K}
    (hu : (ask .degU g).1 = .ok (.vec du)) (hv : (ask .degV g).1 = .ok (.vec dv)) (c : Nat) :
    Spec.weightedTotal dv P c = Spec.weightedTotal du X c ∧ Spec.weightedTotal du Q c = Spec.weightedTotal dv Z c := by
  obtain ⟨B, P', Q', hB, hP', hQ', _, _, _, _, p, q⟩ := C27_bigraph_mean hg hm hn hx hw X Z hX hZ keep
  rw [hP] at hP'; cases hP'
  rw [hQ] at hQ'; cases hQ'
  obtain ⟨B', du', dv', _, _, hB', hu', hv', h1, h2, _⟩ := C25_bigraph_degrees hg hm hn hx
  rw [hB] at hB'; cases hB'
  rw [hu] at hu'; cases hu'
  rw [hv] at hv'; cases hv'
  obtain ⟨B', _, hB', _, hBm, _⟩ := C25_bigraph_incidence hg hm hn hx
  rw [hB] at hB'; cases hB'
  have h0 : ∀ u v, u < m → v < n → 0 ≤ B.get u v := fun u v hu hv => by
    rw [hBm.get u v hu hv]; exact Ord.wt_nonneg hw _ _
  refine ⟨total_mean (M := fun v u => B.get u v) (fun v hv => ?_) (fun v hv h u hu => ?_) fun j _ => (h1 j).symm,
    total_mean (M := fun u v => B.get u v) (fun u hu => ?_) (fun u hu h v hv => ?_) fun j _ => (h2 j).symm⟩
  · rw [h2]; exact ⟨(p v c hv).1, fun h => ((p v c hv).2 h).1⟩
  · rw [h2] at h
    exact (sum_eq_zero_iff_of_nonneg fun u hu => h0 u v (mem_range.1 hu) hv).1 h u (mem_range.2 hu)
  · rw [h1]; exact ⟨(q u c hu).1, fun h => ((q u c hu).2 h).1⟩
  · rw [h1] at h
    exact (sum_eq_zero_iff_of_nonneg fun v hv => h0 u v hu (mem_range.1 hv)).1 h v (mem_range.2 hv)

end BiGraphs

section Hypergraphs
open Hyper Hy
variable {b : Bool} {s : HSt K} {n : Nat}

/-- C123. With `aggr="sum"`, the total that `v2e` gives to the hyperedges is the total of the vertex features, each
counted as often as the degree of the vertex says; the total that `e2v` gives to the vertices is the total of the
features of the hyperedges, each counted as often as the hyperedge has vertices. -/
theorem C123_hypergraph_sum (hs : Built Proper b s) {sc : Option String} (hsc : Spec.HasScope s sc)
    (hn : (ask .numV s).1 = .ok (.num n)) {X Y P Q : Dense K} (hX : X.rows = n)
    (hY : Y.rows = (Spec.hListing s sc).length) {keep keep' : Nat → Bool}
    (hP : (ask (.v2e sc X .sum none none 0 keep) s).1 = .ok (.feat P))
    (hQ : (ask (.e2v sc Y .sum none 0 keep') s).1 = .ok (.feat Q)) {dv de : List K}
    (hv : (ask (.degV sc) s).1 = .ok (.vec dv)) (he : (ask (.degE sc) s).1 = .ok (.vec de)) (c : Nat) :
    Spec.colTotal (Spec.hListing s sc).length P c = Spec.weightedTotal dv X c ∧
      Spec.colTotal n Q c = Spec.weightedTotal de Y c := by
  obtain ⟨P', hP', _, _, p⟩ := (C37_hypergraph_v2e_partial hs hsc hn X hX keep).1
  obtain ⟨Q', hQ', _, _, q⟩ := (C37_hypergraph_e2v_partial hs hsc hn Y hY keep').1
  rw [hP] at hP'; cases hP'
  rw [hQ] at hQ'; cases hQ'
  have hs' := hs.mono (Q := AnyH) fun _ _ _ => trivial
  have hRg := lst_rng hs'.inv.1 hs.inRange sc
  rw [← listing_eq hs', Hy.numV_eq hn] at hRg
  have hd := C34_hypergraph_degrees_partial hs hsc hn
  rw [hv, he] at hd
  obtain ⟨h1, h2, _⟩ := hd
  cases h1
  have e2 : de = (List.range (Spec.hListing s sc).length).map fun j => Spec.hSize (Spec.hListing s sc) j := by
    cases h2
    refine List.ext_getElem (by simp) fun i h1 h2 => ?_
    have : i < (Spec.hListing s sc).length := by simpa using h1
    simp [Spec.hSize, hAt_of_lt this]
  rw [e2]
  refine ⟨total_mul (M := fun j v => Spec.hWt (Spec.hListing s sc) j * Spec.inc (Spec.hListing s sc) v j)
    (fun j hj => ?_) fun v _ => ?_,
    total_mul (M := fun v j => Spec.inc (Spec.hListing s sc) v j) (fun v hv => ?_) fun j hj => sum_inc hRg hj⟩
  · rw [p j c hj, ← memberSum_eq hRg hj, mul_sum]
    exact sum_congr rfl fun v _ => (mul_assoc _ _ _).symm
  · rw [← sum_inc_wt]
    exact sum_congr rfl fun j _ => mul_comm _ _
  · rw [q v c hv, ← incidentSum_eq]

/-- C123. `v2v` with `aggr="mean"` of a Hypergraph with non-negative weights does not change the total weighted by
degrees. -/
theorem C123_hypergraph_mean [IsStrictOrderedRing K] (hs : Built Proper b s) {sc : Option String}
    (hsc : Spec.HasScope s sc) (hn : (ask .numV s).1 = .ok (.num n)) (hw : Spec.HNonneg (Spec.hListing s sc))
    {X Z : Dense K} (hX : X.rows = n) {k1 k2 : Nat → Bool}
    (hZ : (ask (.v2v sc X { aggr := .mean, rate := 0, keep1 := k1, keep2 := k2 }) s).1 = .ok (.feat Z)) {d : List K}
    (hd : (ask (.degV sc) s).1 = .ok (.vec d)) (c : Nat) : Spec.weightedTotal d Z c = Spec.weightedTotal d X c := by
  have hs' := hs.mono (Q := AnyH) fun _ _ _ => trivial
  have hRg := lst_rng hs'.inv.1 hs.inRange sc
  rw [← listing_eq hs', Hy.numV_eq hn] at hRg
  obtain ⟨Y, hY, y1, _, y⟩ := (C37_hypergraph_v2e_partial hs hsc hn X hX k1).2
  obtain ⟨Z', hZ', _, _, z⟩ := (C37_hypergraph_e2v_partial hs hsc hn Y y1 k2).2
  have hc := (C37_hypergraph_v2v_is_composition hs' hsc X { aggr := .mean, rate := 0, keep1 := k1, keep2 := k2 }).1 Y hY
  rw [hZ] at hc
  have hc' := hc.trans hZ'
  cases hc'
  rw [(C34_hypergraph_degrees_partial hs hsc hn).1] at hd
  cases hd
  generalize Spec.hListing s sc = l at *
  have hM : ∀ i c, Spec.incidentSum l i (fun k => Y.at_ k c) = ∑ j ∈ range n,
      (∑ k ∈ range l.length, Spec.inc l i k * (Spec.hWt l k * Spec.inc l j k / Spec.hSize l k)) * X.at_ j c := by
    intro i c
    rw [← incidentSum_eq]
    have e : ∀ k ∈ range l.length, Spec.inc l i k * Y.at_ k c =
        ∑ j ∈ range n, Spec.inc l i k * (Spec.hWt l k * Spec.inc l j k / Spec.hSize l k) * X.at_ j c := by
      intro k hk
      rw [y k c (mem_range.1 hk), ← memberSum_eq hRg (mem_range.1 hk), sum_div, mul_sum, mul_sum]
      exact sum_congr rfl fun j _ => by ring
    rw [sum_congr rfl e, sum_comm]
    exact sum_congr rfl fun j _ => by rw [sum_mul]
  have hrow : ∀ j, ∑ i ∈ range n,
      (∑ k ∈ range l.length, Spec.inc l i k * (Spec.hWt l k * Spec.inc l j k / Spec.hSize l k)) = Spec.hDeg l j := by
    intro j
    rw [sum_comm, ← sum_inc_wt]
    refine sum_congr rfl fun k hk => ?_
    rw [← sum_mul, sum_inc hRg (mem_range.1 hk)]
    by_cases hm : (j : Int) ∈ Spec.hAt l k
    · have hz := size_ne_zero (K := K) hm
      field_simp
    · simp [Spec.inc, hm]
  refine total_mean (r := Spec.hDeg l) (M := fun i j => ∑ k ∈ range l.length,
    Spec.inc l i k * (Spec.hWt l k * Spec.inc l j k / Spec.hSize l k)) (fun i hi => ?_) (fun i hi h0 j hj => ?_) fun j _ => hrow j
  · rw [(z i c hi).1, hM]
    exact ⟨fun h => by rw [h, div_zero], fun _ => rfl⟩
  · refine sum_eq_zero fun k hk => ?_
    rw [← sum_inc_wt] at h0
    have hnn : ∀ k ∈ range l.length, 0 ≤ Spec.inc l i k * Spec.hWt l k := by
      intro k hk
      unfold Spec.inc
      split
      · rw [one_mul]; exact hWt_nonneg hw k
      · rw [zero_mul]
    have h1 := (sum_eq_zero_iff_of_nonneg hnn).1 h0 k hk
    rw [mul_div_assoc, ← mul_assoc, h1, zero_mul]

end Hypergraphs

/-! ## Examples -/

example : Graph.Built Graph.NonNeg exG ∧ Spec.NonnegWeights (Spec.listing exG) ∧ (Graph.ask .numV exG).1 = .ok (.num 3) ∧
    (∃ Y, (Graph.ask (.v2v ⟨3, 1, fun i _ => (i : ℝ)⟩ .mean none 0 fun _ => true) exG).1 = .ok (.feat Y)) ∧
    ∃ d, (Graph.ask .degV exG).1 = .ok (.vec d) :=
  ⟨exG_nonneg, exG_nonnegWeights, exG_numV, (C12_graph_v2v_mean exG_nonneg exG_numV _ rfl _).imp fun _ h => h.1,
    _, (C06_graph_degrees exG_nonneg exG_numV).1⟩

example : DiGraph.Built Graph.NonNeg false exD ∧ ∃ Y, (DiGraph.ask (.v2v ⟨3, 1, fun i _ => (i : ℝ)⟩ .mean none .dst2src 0
    fun _ => true) exD).1 = .ok (.feat Y) :=
  ⟨exD_nonneg, (C24_digraph_v2v_mean exD_nonneg exD_numV _ rfl _).1.imp fun _ h => h.1⟩

example : BiGraph.Built Graph.NonNeg exB ∧ Spec.NonnegWeights (Spec.listingB exB) := ⟨exB_nonneg, exB_nonnegWeights⟩

example : Hyper.Built Hyper.Proper true exH ∧ Spec.HasScope exH none ∧ (∃ d, (Hyper.ask (.degV none) exH).1 = .ok (.vec d)) ∧
    ∃ Y, (Hyper.ask (.v2e none ⟨4, 1, fun i _ => (i : ℝ)⟩ .mean none none 0 fun _ => true) exH).1 = .ok (.feat Y) :=
  ⟨exH_proper, List.cons_ne_nil _ _, ⟨_, (C34_hypergraph_degrees_partial exH_proper (sc := none) (List.cons_ne_nil _ _) rfl).1⟩,
    (C37_hypergraph_v2e_partial exH_proper (sc := none) (List.cons_ne_nil _ _) rfl
    ⟨4, 1, fun i _ => (i : ℝ)⟩ rfl _).2.imp fun _ h => h.1⟩

end Props
end DHG
