import Verif.Props.Contract
import Verif.Props.Kernel
import Verif.Props.HyperMessages

/-!
# Smoothing makes features smoother (C124)
-/

set_option linter.unusedSectionVars false
set_option autoImplicit false

namespace DHG

variable {K : Type} [Field K] [LinearOrder K]

namespace Spec

/-- how much a feature differs along the listed edges: the weighted sum of the squares of the differences of its values,
each value divided by the number given for its vertex -/
def roughness (l : List ((Int × Int) × K)) (r x : Nat → K) : K :=
  (l.map fun e => e.2 * ((x e.1.1.toNat / r e.1.1.toNat - x e.1.2.toNat / r e.1.2.toNat) *
    (x e.1.1.toNat / r e.1.1.toNat - x e.1.2.toNat / r e.1.2.toNat))).sum

/-- the same for hyperedges: the weighted sum over the hyperedges of the differences between all pairs of their vertices,
divided by the number of vertices -/
def hRoughness (l : List (List Int × K)) (r x : Nat → K) : K :=
  ∑ k ∈ Finset.range l.length, hWt l k * memberSum l k (fun u => memberSum l k fun v =>
    (x u / r u - x v / r v) * (x u / r u - x v / r v)) / hSize l k

end Spec

namespace Props
open Finset

variable [IsStrictOrderedRing K]

namespace Rough

/-- the form `|x|² - xᵀLx` does not grow under `L` -/
theorem form_le (n : Nat) (L : Nat → Nat → K) (hs : ∀ i j, i < n → j < n → L i j = L j i)
    (hq : ∀ x : Nat → K, -∑ i ∈ range n, x i * x i ≤ ∑ i ∈ range n, ∑ j ∈ range n, x i * L i j * x j)
    {x y : Nat → K} (hy : ∀ i, i < n → y i = ∑ j ∈ range n, L i j * x j) :
    ∑ i ∈ range n, y i * y i - ∑ i ∈ range n, ∑ j ∈ range n, y i * L i j * y j ≤
      ∑ i ∈ range n, x i * x i - ∑ i ∈ range n, ∑ j ∈ range n, x i * L i j * x j := by
  have h := hq fun i => x i - y i
  have hyx : ∑ i ∈ range n, ∑ j ∈ range n, y i * L i j * x j = ∑ i ∈ range n, y i * y i := by
    refine sum_congr rfl fun i hi => ?_
    rw [hy i (mem_range.1 hi), mul_sum]
    exact sum_congr rfl fun j _ => by ring
  have hxx : ∑ i ∈ range n, ∑ j ∈ range n, x i * L i j * x j = ∑ i ∈ range n, x i * y i := by
    refine sum_congr rfl fun i hi => ?_
    rw [hy i (mem_range.1 hi), mul_sum]
    exact sum_congr rfl fun j _ => by ring
  have hsw : ∑ i ∈ range n, ∑ j ∈ range n, x i * L i j * y j = ∑ i ∈ range n, y i * y i := by
    rw [sum_comm, ← hyx]
    refine sum_congr rfl fun i hi => sum_congr rfl fun j hj => ?_
    rw [hs j i (mem_range.1 hj) (mem_range.1 hi)]; ring
  have e2 : ∑ i ∈ range n, ∑ j ∈ range n, (x i - y i) * L i j * (x j - y j) =
      ∑ i ∈ range n, ∑ j ∈ range n, x i * L i j * x j - ∑ i ∈ range n, ∑ j ∈ range n, x i * L i j * y j -
      (∑ i ∈ range n, ∑ j ∈ range n, y i * L i j * x j - ∑ i ∈ range n, ∑ j ∈ range n, y i * L i j * y j) := by
    simp only [← sum_sub_distrib]
    exact sum_congr rfl fun i _ => sum_congr rfl fun j _ => by ring
  have e3 : ∑ i ∈ range n, (x i - y i) * (x i - y i) =
      ∑ i ∈ range n, x i * x i - 2 * ∑ i ∈ range n, x i * y i + ∑ i ∈ range n, y i * y i := by
    rw [mul_sum, ← sum_sub_distrib, ← sum_add_distrib]
    exact sum_congr rfl fun i _ => by ring
  rw [e2, e3, hsw, hyx, hxx] at h
  rw [hxx]
  linarith

variable {n : Nat} {W : Nat → Nat → K} {d s : Nat → K}

/-- `½ Σ W_ij (s_i x_i - s_j x_j)²` does not grow under `x ↦ (s W s) x` -/
theorem diff_le (hsym : ∀ i j, W i j = W j i) (h0 : ∀ i j, 0 ≤ W i j)
    (hd : ∀ i, i < n → d i = ∑ j ∈ range n, W i j) (hs : ∀ i, i < n → Spec.InvSqrt (d i) (s i)) {x y : Nat → K}
    (hy : ∀ i, i < n → y i = ∑ j ∈ range n, s i * W i j * s j * x j) :
    ∑ i ∈ range n, ∑ j ∈ range n, W i j * ((s i * y i - s j * y j) * (s i * y i - s j * y j)) ≤
      ∑ i ∈ range n, ∑ j ∈ range n, W i j * ((s i * x i - s j * x j) * (s i * x i - s j * x j)) := by
  have key : ∀ z : Nat → K, (∀ i, i < n → d i = 0 → z i = 0) →
      ∑ i ∈ range n, ∑ j ∈ range n, W i j * ((s i * z i - s j * z j) * (s i * z i - s j * z j)) =
      2 * (∑ i ∈ range n, z i * z i - ∑ i ∈ range n, ∑ j ∈ range n, z i * (s i * W i j * s j) * z j) := by
    intro z hz
    rw [diff_quad hsym hd fun i => s i * z i, ← sum_sub_distrib]
    congr 1
    refine sum_congr rfl fun i hi => ?_
    rw [mul_sub, mul_sum]
    congr 1
    · by_cases h : d i = 0
      · rw [hz i (mem_range.1 hi) h]; ring
      · have := ((hs i (mem_range.1 hi)).2 h).2
        calc s i * z i * (d i * (s i * z i)) = (s i * s i * d i) * (z i * z i) := by ring
          _ = z i * z i := by rw [this, one_mul]
    · exact sum_congr rfl fun j _ => by ring
  set x' : Nat → K := fun i => if d i = 0 then 0 else x i with hx'
  have hsx : ∀ i, i < n → s i * x' i = s i * x i := by
    intro i hi
    simp only [hx']
    split
    · next h => rw [(hs i hi).1 h]; ring
    · rfl
  have e1 : ∑ i ∈ range n, ∑ j ∈ range n, W i j * ((s i * x i - s j * x j) * (s i * x i - s j * x j)) =
      ∑ i ∈ range n, ∑ j ∈ range n, W i j * ((s i * x' i - s j * x' j) * (s i * x' i - s j * x' j)) :=
    sum_congr rfl fun i hi => sum_congr rfl fun j hj => by
      rw [hsx i (mem_range.1 hi), hsx j (mem_range.1 hj)]
  have hy' : ∀ i, i < n → y i = ∑ j ∈ range n, s i * W i j * s j * x' j := by
    intro i hi
    rw [hy i hi]
    refine sum_congr rfl fun j hj => ?_
    rw [mul_assoc, mul_assoc _ (s j), hsx j (mem_range.1 hj)]
  have hy0 : ∀ i, i < n → d i = 0 → y i = 0 := by
    intro i hi h
    rw [hy i hi]
    exact sum_eq_zero fun j _ => by rw [(hs i hi).1 h]; ring
  rw [e1, key x' fun i _ h => by simp only [hx']; rw [if_pos h], key y hy0]
  refine mul_le_mul_of_nonneg_left (form_le n (fun i j => s i * W i j * s j) (fun i j _ _ => ?_) (fun z => ?_) hy') (by norm_num)
  · simp only [hsym i j]; ring
  · refine (norm_bound n W hsym h0 s z fun i hi => ?_).2
    rw [← hd i hi]
    by_cases h : d i = 0
    · rw [h]; simp
    · exact ((hs i hi).2 h).2.le

/-- an inverse square root is the inverse of a square root -/
theorem inv_root {d s r : K} (h : Spec.InvSqrt d s) (hr : 0 ≤ r) (hd : r * r = d) (x : K) : x / r = s * x := by
  by_cases h0 : d = 0
  · rw [h.1 h0]
    rw [h0] at hd
    rw [mul_self_eq_zero.1 hd]; simp
  · obtain ⟨h1, h2⟩ := h.2 h0
    have hr0 : r ≠ 0 := fun e => h0 (by rw [← hd, e, mul_zero])
    have h3 : (s * r) * (s * r) = 1 := by rw [← h2, ← hd]; ring
    have h4 : s * r = 1 := by
      rcases mul_self_eq_one_iff.1 h3 with h | h
      · exact h
      · have := mul_nonneg h1.le hr
        rw [h] at this
        linarith
    rw [div_eq_iff hr0]
    calc x = s * r * x := by rw [h4, one_mul]
      _ = s * x * r := by ring

end Rough

open Rough

section Graphs
open Graph
variable [PyReal K]

/-- loops do not count -/
theorem Rough.proper_eq (l : List ((Int × Int) × K)) (r x : Nat → K) :
    Spec.roughness (Spec.proper l) r x = Spec.roughness l r x := by
  unfold Spec.roughness Spec.proper
  induction l with
  | nil => rfl
  | cons e l ih =>
    rw [List.filter_cons]
    split
    · rw [List.map_cons, List.map_cons, List.sum_cons, List.sum_cons, ih]
    · next h =>
      have h' : e.1.1 = e.1.2 := by simpa using h
      rw [ih, List.map_cons, List.sum_cons, h', sub_self, mul_zero, mul_zero, zero_add]

/-- C124. One call of `smoothing_with_GCN` on a Graph with non-negative weights does not make any feature rougher along
the edges (values divided by the square roots `r` of the degrees with the unit loops of `L_GCN`). -/
theorem C124_graph {g : GSt K} (hg : Built NonNeg g) {n : Nat} (hn : (ask .numV g).1 = .ok (.num n))
    (hw : Spec.NonnegWeights (Spec.listing g)) {X Y : Dense K} (hX : X.rows = n) {keep : Nat → Bool}
    (hY : (ask (.smoothGCN X 0 keep) g).1 = .ok (.feat Y)) {r : Nat → K}
    (hr : ∀ i, i < n → 0 ≤ r i ∧ r i * r i =
      Spec.deg (Spec.withUnitLoops n (Spec.listing (apply .removeExtraSelfloop g).2)) (i : Int)) (c : Nat) :
    Spec.roughness (Spec.listing g) r (fun i => Y.at_ i c) ≤ Spec.roughness (Spec.listing g) r (fun i => X.at_ i c) := by
  obtain ⟨L, s, hL, hs, hm, _, _⟩ := C11_graph_LGCN hg hn hw
  obtain ⟨Y', hY', _, _, h4⟩ := C11_graph_smoothing hg hn hw hL X hX keep
  rw [hY] at hY'; cases hY'
  have hn' := numV_eq hn
  have hg' : Built NonNeg (apply .removeExtraSelfloop g).2 := .op _ hg (by intro a op h; cases h)
  have hl : lst (withExtra g.raw) = Spec.withUnitLoops n (Spec.listing (apply .removeExtraSelfloop g).2) := by
    rw [listing_lst hg', lst_withExtra, hn']; rfl
  have hR : InR n (Spec.withUnitLoops n (Spec.listing (apply .removeExtraSelfloop g).2)) := by
    rw [← hl, ← hn']; exact lst_InR hg.inv.1.withExtra hg.pos.withExtra
  have hsub : ∀ e ∈ Spec.listing (apply .removeExtraSelfloop g).2, e ∈ Spec.listing g := by
    intro e he
    rw [listing_lst hg'] at he
    rw [listing_lst hg]
    unfold lst at he ⊢
    rw [zip_listing] at he ⊢
    have he' : e ∈ (g.raw.eDict ++ g.raw.loops.map fun p => ((p.1, p.1), p.2)) ++
        (if false = true then (List.range g.raw.numV).map fun v : Nat => (((v : Int), (v : Int)), (1 : K)) else []) := he
    simp only [Bool.false_eq_true, if_false, List.append_nil] at he'
    exact List.mem_append_left _ he'
  have hpw : Spec.NonnegWeights (Spec.withUnitLoops n (Spec.listing (apply .removeExtraSelfloop g).2)) := by
    intro e he
    rcases List.mem_append.1 he with he | he
    · exact hw e (hsub e he)
    · obtain ⟨v, _, rfl⟩ := List.mem_map.1 he
      exact zero_le_one
  have hloops : ∀ (m : Nat) (x : Nat → K), Spec.roughness
      ((List.range m).map fun v : Nat => (((v : Int), (v : Int)), (1 : K))) r x = 0 := by
    intro m x
    unfold Spec.roughness
    rw [List.map_map]
    exact List.sum_eq_zero fun y hy => by
      obtain ⟨v, _, rfl⟩ := List.mem_map.1 hy
      simp
  have happ : ∀ (l l' : List ((Int × Int) × K)) (x : Nat → K),
      Spec.roughness (l ++ l') r x = Spec.roughness l r x + Spec.roughness l' r x := by
    intro l l' x
    unfold Spec.roughness
    rw [List.map_append, List.sum_append]
  have heq : ∀ x : Nat → K, Spec.roughness (Spec.listing g) r x =
      Spec.roughness (Spec.withUnitLoops n (Spec.listing (apply .removeExtraSelfloop g).2)) r x := by
    intro x
    have h1 : Spec.listing (apply .removeExtraSelfloop g).2 = g.raw.eDict ++ g.raw.loops.map fun p => ((p.1, p.1), p.2) := by
      rw [listing_lst hg']
      unfold lst
      rw [zip_listing]
      exact List.append_nil _
    have h2 : Spec.listing g = (g.raw.eDict ++ g.raw.loops.map fun p => ((p.1, p.1), p.2)) ++
        (if g.raw.extra then (List.range g.raw.numV).map fun v : Nat => (((v : Int), (v : Int)), (1 : K)) else []) := by
      rw [listing_lst hg]
      unfold lst
      rw [zip_listing]
    rw [h1, h2]
    unfold Spec.withUnitLoops
    rw [happ (g.raw.eDict ++ _), happ (g.raw.eDict ++ _), hloops]
    congr 1
    split
    · rw [hloops]
    · rfl
  rw [heq, heq]
  generalize Spec.withUnitLoops n (Spec.listing (apply .removeExtraSelfloop g).2) = l at *
  have hform : ∀ x : Nat → K, 2 * Spec.roughness l r x = ∑ i ∈ range n, ∑ j ∈ range n, Spec.wt l (i : Int) (j : Int) *
      ((s i * x i - s j * x j) * (s i * x i - s j * x j)) := by
    intro x
    have hq := quad_form hR fun i => x i / r i
    rw [← proper_eq]
    unfold Spec.roughness
    rw [← hq, diff_quad (W := fun i j => Spec.wt l (i : Int) (j : Int)) (d := fun i => Spec.deg l (i : Int))
      (fun i j => wt_symm _ _ _) (fun i _ => (sum_wt_deg hR i).symm) fun i => s i * x i]
    congr 1
    rw [← sum_sub_distrib]
    refine sum_congr rfl fun i hi => ?_
    have hi' := mem_range.1 hi
    rw [mul_sub, mul_sum, inv_root (hs i hi') (hr i hi').1 (hr i hi').2]
    congr 1
    refine sum_congr rfl fun j hj => ?_
    have hj' := mem_range.1 hj
    rw [inv_root (hs j hj') (hr j hj').1 (hr j hj').2, mul_assoc]
  have := diff_le (n := n) (W := fun i j => Spec.wt l (i : Int) (j : Int)) (d := fun i => Spec.deg l (i : Int)) (s := s)
    (x := fun i => X.at_ i c) (y := fun i => Y.at_ i c)
    (fun i j => wt_symm _ _ _) (fun i j => wt_nonneg hpw _ _) (fun i _ => (sum_wt_deg hR i).symm) hs
    (fun i hi => by
      rw [h4]
      exact sum_congr rfl fun j hj => by rw [hm.get i j hi (mem_range.1 hj)])
  rw [← hform, ← hform] at this
  linarith

/-- C124. The same for any number of calls. -/
theorem C124_graph_layers {k : Nat} {g : GSt K} (hg : Built NonNeg g) {n : Nat} (hn : (ask .numV g).1 = .ok (.num n))
    (hw : Spec.NonnegWeights (Spec.listing g)) {X Z : Dense K} (hX : X.rows = n) (h : Spec.SmoothsG k g X Z) {r : Nat → K}
    (hr : ∀ i, i < n → 0 ≤ r i ∧ r i * r i =
      Spec.deg (Spec.withUnitLoops n (Spec.listing (apply .removeExtraSelfloop g).2)) (i : Int)) (c : Nat) :
    Spec.roughness (Spec.listing g) r (fun i => Z.at_ i c) ≤ Spec.roughness (Spec.listing g) r (fun i => X.at_ i c) := by
  induction h with
  | nil g X => exact le_rfl
  | @step k g g' X Y Z keep h _ ih =>
    obtain ⟨Y', h1, h2, h3, _⟩ := C110_graph hg hn hw X hX keep
    rw [h] at h1
    cases h1
    have hg' : Built NonNeg g' := by
      have := Built.read (.smoothGCN X 0 keep) hg
      rwa [h] at this
    have hraw : g'.raw = g.raw := by
      have := (reads_ask (.smoothGCN X 0 keep) g hg.inv.2).2.1
      rwa [h] at this
    have hl : Spec.listing g' = Spec.listing g := by rw [listing_lst hg', listing_lst hg, hraw]
    have hl' : Spec.listing (apply .removeExtraSelfloop g').2 = Spec.listing (apply .removeExtraSelfloop g).2 := by
      have a : Built NonNeg (apply .removeExtraSelfloop g).2 := .op _ hg (by intro a op h; cases h)
      have a' : Built NonNeg (apply .removeExtraSelfloop g').2 := .op _ hg' (by intro a op h; cases h)
      rw [listing_lst a, listing_lst a']
      have e : ∀ g : GSt K, (apply .removeExtraSelfloop g).2.raw = { g.raw with extra := false } := fun _ => rfl
      rw [e, e, hraw]
    have i1 := ih hg' (by
      have h5 : (ask .numV g').1 = .ok (.num g'.raw.numV) := rfl
      rw [h5, hraw, numV_eq hn]) (by rw [hl]; exact hw) h2 (by rw [hl']; exact hr)
    rw [hl] at i1
    exact i1.trans (C124_graph hg hn hw hX (by rw [h]) hr c)

end Graphs

section Hypers
open Hyper Hy
variable [PyReal K] {b : Bool}

/-- C124. One call of `smoothing_with_HGNN` (or of `smoothing_with_HGNN_of_group`) on a Hypergraph with non-negative
weights does not make any feature rougher along the hyperedges (values divided by the square roots `r` of the degrees). -/
theorem C124_hypergraph {s : HSt K} (hs : Built Proper b s) {sc : Option String} (hsc : Spec.HasScope s sc) {n : Nat}
    (hn : (ask .numV s).1 = .ok (.num n)) (hw : Spec.HNonneg (Spec.hListing s sc)) {X Y : Dense K} (hX : X.rows = n)
    {keep : Nat → Bool} (hY : (ask (.smoothHGNN sc X 0 keep) s).1 = .ok (.feat Y)) {r : Nat → K}
    (hr : ∀ i, i < n → 0 ≤ r i ∧ r i * r i = Spec.hDeg (Spec.hListing s sc) i) (c : Nat) :
    Spec.hRoughness (Spec.hListing s sc) r (fun i => Y.at_ i c) ≤
      Spec.hRoughness (Spec.hListing s sc) r (fun i => X.at_ i c) := by
  obtain ⟨L, _, q, hL, _, hq, hm, _, _, _⟩ := C36_hypergraph_L_HGNN_partial hs hsc hn hw
  obtain ⟨Y', hY', _, _, h4, _⟩ := C110_hypergraph hs hsc hn hw hL X hX keep
  rw [hY] at hY'; cases hY'
  have hs' := hs.mono (Q := AnyH) fun _ _ _ => trivial
  have hRg := lst_rng hs'.inv.1 hs.inRange sc
  rw [← listing_eq hs', Hy.numV_eq hn] at hRg
  generalize Spec.hListing s sc = l at *
  have hform : ∀ x : Nat → K, Spec.hRoughness l r x = ∑ i ∈ range n, ∑ j ∈ range n, Spec.share l i j *
      ((q i * x i - q j * x j) * (q i * x i - q j * x j)) := by
    intro x
    have e1 : ∀ k ∈ range l.length, Spec.hWt l k * Spec.memberSum l k (fun u => Spec.memberSum l k fun v =>
        (x u / r u - x v / r v) * (x u / r u - x v / r v)) / Spec.hSize l k =
        ∑ i ∈ range n, ∑ j ∈ range n, Spec.inc l i k * Spec.hWt l k * (Spec.hSize l k)⁻¹ * Spec.inc l j k *
          ((q i * x i - q j * x j) * (q i * x i - q j * x j)) := by
      intro k hk
      rw [← memberSum_eq hRg (mem_range.1 hk), mul_sum, sum_div]
      refine sum_congr rfl fun i hi => ?_
      rw [← memberSum_eq hRg (mem_range.1 hk), mul_sum, mul_sum, sum_div]
      refine sum_congr rfl fun j hj => ?_
      have hi' := mem_range.1 hi
      have hj' := mem_range.1 hj
      rw [inv_root (hq i hi') (hr i hi').1 (hr i hi').2, inv_root (hq j hj') (hr j hj').1 (hr j hj').2, div_eq_mul_inv]
      ring
    unfold Spec.hRoughness
    rw [sum_congr rfl e1, sum_comm]
    refine sum_congr rfl fun i _ => ?_
    rw [sum_comm]
    refine sum_congr rfl fun j _ => ?_
    unfold Spec.share
    rw [sum_mul]
  rw [hform, hform]
  exact diff_le (n := n) (W := Spec.share l) (d := Spec.hDeg l) (s := q)
    (x := fun i => X.at_ i c) (y := fun i => Y.at_ i c) (share_symm l) (share_nonneg hw)
    (fun i _ => (sum_share hRg i).symm) hq
    (fun i hi => by
      rw [h4]
      exact sum_congr rfl fun j hj => by rw [hm.get i j hi (mem_range.1 hj)])

/-- C124. The same for any number of calls. -/
theorem C124_hypergraph_layers {k : Nat} {s : HSt K} (hs : Built Proper b s) {sc : Option String}
    (hsc : Spec.HasScope s sc) {n : Nat} (hn : (ask .numV s).1 = .ok (.num n))
    (hw : Spec.HNonneg (Spec.hListing s sc)) {X Z : Dense K} (hX : X.rows = n) (h : Spec.SmoothsH sc k s X Z) {r : Nat → K}
    (hr : ∀ i, i < n → 0 ≤ r i ∧ r i * r i = Spec.hDeg (Spec.hListing s sc) i) (c : Nat) :
    Spec.hRoughness (Spec.hListing s sc) r (fun i => Z.at_ i c) ≤
      Spec.hRoughness (Spec.hListing s sc) r (fun i => X.at_ i c) := by
  induction h with
  | nil g X => exact le_rfl
  | @step k s s' X Y Z keep h _ ih =>
    obtain ⟨L, _, _, hL, _⟩ := C36_hypergraph_L_HGNN_partial hs hsc hn hw
    obtain ⟨Y', h1, h2, _⟩ := C110_hypergraph hs hsc hn hw hL X hX keep
    rw [h] at h1
    cases h1
    have hi := (hs.mono (Q := AnyH) fun _ _ _ => trivial).inv
    have hs' : Built Proper b s' := by
      have := Built.read (.smoothHGNN sc X 0 keep) hs
      rwa [h] at this
    have hraw : s'.raw = s.raw := by
      have := (reads_ask (b := b) (.smoothHGNN sc X 0 keep) (.inr (by intro h; cases h)) s hi.2).2.1
      rwa [h] at this
    have hl : Spec.hListing s' sc = Spec.hListing s sc := by
      rw [listing_eq (hs'.mono fun _ _ _ => trivial), listing_eq (hs.mono fun _ _ _ => trivial), hraw]
    have hnm : Spec.hNames s' = Spec.hNames s := by
      show s'.raw.groups.keys = s.raw.groups.keys
      rw [hraw]
    have hsc' : Spec.HasScope s' sc := by
      cases sc with
      | none =>
        show Spec.hNames s' ≠ []
        rw [hnm]; exact hsc
      | some g =>
        show g ∈ Spec.hNames s'
        rw [hnm]; exact hsc
    have i1 := ih hs' hsc' (by
      have h5 : (ask .numV s').1 = .ok (.num s'.raw.numV) := rfl
      rw [h5, hraw, Hy.numV_eq hn]) (by rw [hl]; exact hw) h2 (by rw [hl]; exact hr)
    rw [hl] at i1
    exact i1.trans (C124_hypergraph hs hsc hn hw hX (by rw [h]) hr c)

end Hypers

/-! ## Examples -/

example : Spec.roughness [(((0 : Int), (1 : Int)), (2 : ℝ)), ((1, 2), 3)] (fun _ => 1) (fun i => (i : ℝ)) = 5 := by
  have h : Int.toNat 2 = 2 := rfl
  norm_num [Spec.roughness, h]

example : ∃ r : Nat → ℝ, ∀ i, i < 3 → 0 ≤ r i ∧ r i * r i =
    Spec.deg (Spec.withUnitLoops 3 (Spec.listing (Graph.apply .removeExtraSelfloop exG).2)) (i : Int) := by
  refine ⟨fun i => Real.sqrt <|
      (Spec.deg (Spec.withUnitLoops 3 (Spec.listing (Graph.apply .removeExtraSelfloop exG).2)) (i : Int)),
    fun i _ => ⟨Real.sqrt_nonneg _, Real.mul_self_sqrt (Graph.deg_nonneg ?_ _)⟩⟩
  intro e he
  rcases List.mem_append.1 he with he | he
  · rw [show Spec.listing (Graph.apply .removeExtraSelfloop exG).2 = [((0, 1), 2), ((1, 2), 3), ((2, 2), 7)] from rfl] at he
    simp only [List.mem_cons, List.not_mem_nil, or_false] at he
    rcases he with rfl | rfl | rfl <;> norm_num
  · obtain ⟨v, _, rfl⟩ := List.mem_map.1 he
    exact zero_le_one

example : Hyper.Built Hyper.Proper true exH ∧ Spec.HasScope exH none ∧ ∃ r : Nat → ℝ, ∀ i, i < 4 →
    0 ≤ r i ∧ r i * r i = Spec.hDeg (Spec.hListing exH none) i := by
  refine ⟨exH_proper, List.cons_ne_nil _ _, fun i => Real.sqrt (Spec.hDeg (Spec.hListing exH none) i),
    fun i _ => ⟨Real.sqrt_nonneg _, Real.mul_self_sqrt (Hyper.hDeg_nonneg ?_ _)⟩⟩
  intro e he
  rw [show Spec.hListing exH none = [([0, 1, 2], 2), ([1, 3], 3), ([3], 5)] from rfl] at he
  simp only [List.mem_cons, List.not_mem_nil, or_false] at he
  rcases he with rfl | rfl | rfl <;> norm_num

end Props
end DHG
