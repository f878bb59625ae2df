import Verif.Props.GraphMatrices
import Verif.Props.BiGraphMatrices
import Verif.Props.HyperMatrices

/-!
# Smoothing does not amplify features (C110)
-/

set_option linter.unusedSectionVars false
set_option autoImplicit false

namespace DHG

variable {K : Type} [Field K] [LinearOrder K] [PyReal K]

/-! ## Specification -/

namespace Spec

/-- the sum of the squares of the values of feature number `c` -/
def energy (X : Dense K) (c : Nat) : K := ∑ i ∈ Finset.range X.rows, X.at_ i c * X.at_ i c

/-- `Z` is what `k` successive calls `X = g.smoothing_with_GCN(X)` make of `X` -/
inductive SmoothsG : Nat → GSt K → Dense K → Dense K → Prop
  | nil (g : GSt K) (X : Dense K) : SmoothsG 0 g X X
  | step {k : Nat} {g g' : GSt K} {X Y Z : Dense K} {keep : Nat → Bool}
      (h : Graph.ask (.smoothGCN X 0 keep) g = (.ok (.feat Y), g')) (hs : SmoothsG k g' Y Z) : SmoothsG (k + 1) g X Z

/-- `Z` is what `k` successive calls `X = hg.smoothing_with_HGNN(X)`, or those of one group, make of `X` -/
inductive SmoothsH (sc : Option String) : Nat → HSt K → Dense K → Dense K → Prop
  | nil (s : HSt K) (X : Dense K) : SmoothsH sc 0 s X X
  | step {k : Nat} {s s' : HSt K} {X Y Z : Dense K} {keep : Nat → Bool}
      (h : Hyper.ask (.smoothHGNN sc X 0 keep) s = (.ok (.feat Y), s')) (hs : SmoothsH sc k s' Y Z) :
      SmoothsH sc (k + 1) s X Z

end Spec

namespace Props

open Finset

variable [IsStrictOrderedRing K]

/-- a symmetric matrix whose quadratic form lies between `-|x|²` and `|x|²` does not make vectors longer -/
theorem contract (n : Nat) (L : Nat → Nat → K) (hs : ∀ i j, i < n → j < n → L i j = L j i)
    (hq : ∀ x : Nat → K, ∑ i ∈ range n, ∑ j ∈ range n, x i * L i j * x j ≤ ∑ i ∈ range n, x i * x i ∧
      -∑ i ∈ range n, x i * x i ≤ ∑ i ∈ range n, ∑ j ∈ range n, x i * L i j * x j) (x : Nat → K) :
    ∑ i ∈ range n, (∑ j ∈ range n, L i j * x j) * (∑ j ∈ range n, L i j * x j) ≤ ∑ i ∈ range n, x i * x i := by
  set y : Nat → K := fun i => ∑ j ∈ range n, L i j * x j with hy
  have h1 := (hq fun i => x i + y i).1
  have h2 := (hq fun i => x i - y i).2
  have hsw : ∑ i ∈ range n, ∑ j ∈ range n, x i * L i j * y j = ∑ i ∈ range n, ∑ j ∈ range n, y i * L i j * x j := by
    rw [sum_comm]
    refine sum_congr rfl fun i hi => sum_congr rfl fun j hj => ?_
    rw [hs j i (mem_range.1 hj) (mem_range.1 hi)]; ring
  have hyy : ∑ i ∈ range n, ∑ j ∈ range n, y i * L i j * x j = ∑ i ∈ range n, y i * y i := by
    refine sum_congr rfl fun i _ => ?_
    rw [hy]
    simp only
    rw [mul_sum]
    exact sum_congr rfl fun j _ => by ring
  have e1 : ∑ i ∈ range n, ∑ j ∈ range n, (x i + y i) * L i j * (x j + y j) =
      ∑ i ∈ range n, ∑ j ∈ range n, x i * L i j * x j + ∑ i ∈ range n, ∑ j ∈ range n, x i * L i j * y j +
      (∑ i ∈ range n, ∑ j ∈ range n, y i * L i j * x j + ∑ i ∈ range n, ∑ j ∈ range n, y i * L i j * y j) := by
    simp only [← sum_add_distrib]
    exact sum_congr rfl fun i _ => sum_congr rfl fun j _ => by ring
  have e2 : ∑ i ∈ range n, ∑ j ∈ range n, (x i - y i) * L i j * (x j - y j) =
      ∑ i ∈ range n, ∑ j ∈ range n, x i * L i j * x j - ∑ i ∈ range n, ∑ j ∈ range n, x i * L i j * y j -
      (∑ i ∈ range n, ∑ j ∈ range n, y i * L i j * x j - ∑ i ∈ range n, ∑ j ∈ range n, y i * L i j * y j) := by
    simp only [← sum_sub_distrib]
    exact sum_congr rfl fun i _ => sum_congr rfl fun j _ => by ring
  have e3 : ∑ i ∈ range n, (x i + y i) * (x i + y i) + ∑ i ∈ range n, (x i - y i) * (x i - y i) =
      2 * ∑ i ∈ range n, x i * x i + 2 * ∑ i ∈ range n, y i * y i := by
    rw [← sum_add_distrib, mul_sum, mul_sum, ← sum_add_distrib]
    exact sum_congr rfl fun i _ => by ring
  rw [e1, hsw, hyy] at h1
  rw [e2, hsw, hyy] at h2
  show ∑ i ∈ range n, y i * y i ≤ _
  linarith

theorem energy_le {n : Nat} {L : Nat → Nat → K} (hs : ∀ i j, i < n → j < n → L i j = L j i)
    (hq : ∀ x : Nat → K, ∑ i ∈ range n, ∑ j ∈ range n, x i * L i j * x j ≤ ∑ i ∈ range n, x i * x i ∧
      -∑ i ∈ range n, x i * x i ≤ ∑ i ∈ range n, ∑ j ∈ range n, x i * L i j * x j)
    {X Y : Dense K} (hX : X.rows = n) (hY : Y.rows = n)
    (h : ∀ i c, Y.at_ i c = ∑ j ∈ range n, L i j * X.at_ j c) (c : Nat) : Spec.energy Y c ≤ Spec.energy X c := by
  unfold Spec.energy
  rw [hX, hY]
  have := contract n L hs hq fun j => X.at_ j c
  simpa only [← h] using this

/-! ## C110 -/

section Graphs
open Graph

/-- C110 for simple graphs with weights that are not negative: no feature is amplified by `smoothing_with_GCN`. -/
theorem C110_graph {g : GSt K} (hg : Built NonNeg g) {n : Nat} (hn : (ask .numV g).1 = .ok (.num n))
    (hw : Spec.NonnegWeights (Spec.listing g)) (X : Dense K) (hX : X.rows = n) (keep : Nat → Bool) :
    ∃ Y, (ask (.smoothGCN X 0 keep) g).1 = .ok (.feat Y) ∧ Y.rows = n ∧ Y.cols = X.cols ∧
      ∀ c, Spec.energy Y c ≤ Spec.energy X c := by
  obtain ⟨L, s, hL, _, _, hsym, hq⟩ := C11_graph_LGCN hg hn hw
  obtain ⟨Y, h1, h2, h3, h4⟩ := C11_graph_smoothing hg hn hw hL X hX keep
  exact ⟨Y, h1, h2, h3, energy_le hsym hq hX h2 h4⟩

/-- C110 for simple graphs, any number of layers. -/
theorem C110_graph_layers {k : Nat} {g : GSt K} (hg : Built NonNeg g) {n : Nat} (hn : (ask .numV g).1 = .ok (.num n))
    (hw : Spec.NonnegWeights (Spec.listing g)) {X Z : Dense K} (hX : X.rows = n) (h : Spec.SmoothsG k g X Z) :
    Z.rows = n ∧ Z.cols = X.cols ∧ ∀ c, Spec.energy Z c ≤ Spec.energy X c := by
  induction h with
  | nil g X => exact ⟨hX, rfl, fun c => le_rfl⟩
  | @step k g g' X Y Z keep h _ ih =>
    obtain ⟨Y', h1, h2, h3, h4⟩ := C110_graph hg hn hw X hX keep
    rw [h] at h1
    cases h1
    have hg' : Built NonNeg g' := by
      have := Built.read (.smoothGCN X 0 keep) hg
      rwa [h] at this
    have hr : g'.raw = g.raw := by
      have := (reads_ask (.smoothGCN X 0 keep) g hg.inv.2).2.1
      rwa [h] at this
    have hl : Spec.listing g' = Spec.listing g := by rw [listing_lst hg', listing_lst hg, hr]
    obtain ⟨i1, i2, i3⟩ := ih hg' (by
      have h5 : (ask .numV g').1 = .ok (.num g'.raw.numV) := rfl
      rw [h5, hr, numV_eq hn]) (by rw [hl]; exact hw) h2
    exact ⟨i1, i2.trans h3, fun c => (i3 c).trans (h4 c)⟩

/-- C110 is tight: the feature that holds the square roots of the degrees (with the unit loops of `L_GCN`) is left
unchanged. -/
theorem C110_graph_fixed {g : GSt K} (hg : Built NonNeg g) {n : Nat} (hn : (ask .numV g).1 = .ok (.num n))
    (hw : Spec.NonnegWeights (Spec.listing g)) (X : Dense K) (hX : X.rows = n) (keep : Nat → Bool) {c : Nat}
    (hc : ∀ i, i < n → 0 ≤ X.at_ i c ∧ X.at_ i c * X.at_ i c =
      Spec.deg (Spec.withUnitLoops n (Spec.listing (apply .removeExtraSelfloop g).2)) (i : Int)) :
    ∃ Y, (ask (.smoothGCN X 0 keep) g).1 = .ok (.feat Y) ∧ ∀ i, i < n → Y.at_ i c = X.at_ i c := by
  obtain ⟨L, s, hL, hs, hm, _, _⟩ := C11_graph_LGCN hg hn hw
  obtain ⟨Y, h1, _, _, h4⟩ := C11_graph_smoothing hg hn hw hL X hX keep
  refine ⟨Y, h1, fun i hi => ?_⟩
  have hn' := numV_eq hn
  have hg' : Built NonNeg (apply .removeExtraSelfloop g).2 := .op _ hg (by intro a op h; cases h)
  have hl : lst (withExtra g.raw) = Spec.withUnitLoops n (Spec.listing (apply .removeExtraSelfloop g).2) := by
    rw [listing_lst hg', lst_withExtra, hn']; rfl
  have hR : InR n (Spec.withUnitLoops n (Spec.listing (apply .removeExtraSelfloop g).2)) := by
    rw [← hl, ← hn']; exact lst_InR hg.inv.1.withExtra hg.pos.withExtra
  generalize hl' : Spec.withUnitLoops n (Spec.listing (apply .removeExtraSelfloop g).2) = l at *
  have key : ∀ j, j < n → s j * X.at_ j c = 1 ∨ Spec.deg l (j : Int) = 0 := by
    intro j hj
    by_cases hd : Spec.deg l (j : Int) = 0
    · exact .inr hd
    · left
      obtain ⟨h5, h6⟩ := (hs j hj).2 hd
      obtain ⟨h7, h8⟩ := hc j hj
      have h9 : (s j * X.at_ j c) * (s j * X.at_ j c) = 1 := by rw [← h6, ← h8]; ring
      rcases mul_self_eq_one_iff.1 h9 with h | h
      · exact h
      · have := mul_nonneg h5.le h7
        rw [h] at this
        linarith
  have hzero : ∀ j, j < n → Spec.deg l (j : Int) = 0 → X.at_ j c = 0 := by
    intro j hj hd
    have := (hc j hj).2
    rw [hd] at this
    exact mul_self_eq_zero.1 this
  rw [h4]
  by_cases hd : Spec.deg l (i : Int) = 0
  · rw [hzero i hi hd]
    refine sum_eq_zero fun j hj => ?_
    rw [hm.get i j hi (mem_range.1 hj), (hs i hi).1 hd]; ring
  · have h5 : ∀ j ∈ range n, L.get i j * X.at_ j c = s i * Spec.wt l (i : Int) (j : Int) * (s j * X.at_ j c) := by
      intro j hj
      rw [hm.get i j hi (mem_range.1 hj)]; ring
    have hnn : Spec.NonnegWeights l → ∀ j, j < n → Spec.deg l (j : Int) = 0 → Spec.wt l (i : Int) (j : Int) = 0 := by
      intro hp j hj h0
      have h6 : ∑ k ∈ range n, Spec.wt l (j : Int) (k : Int) = 0 := (sum_wt_deg hR j).trans h0
      have := (sum_eq_zero_iff_of_nonneg (f := fun k : Nat => Spec.wt l (j : Int) (k : Int))
        fun k _ => wt_nonneg hp (j : Int) (k : Int)).1 h6 i (mem_range.2 hi)
      rw [wt_symm]; exact this
    have hpw : Spec.NonnegWeights l := by
      rw [← hl']
      intro e he
      rcases List.mem_append.1 he with he | he
      · apply hw
        rw [listing_lst hg'] at he
        rw [listing_lst hg]
        unfold lst at he ⊢
        rw [zip_listing] at he ⊢
        have he' : e ∈ (g.raw.eDict ++ g.raw.loops.map fun p => ((p.1, p.1), p.2)) ++
            (if false = true then (List.range g.raw.numV).map fun v : Nat => (((v : Int), (v : Int)), (1 : K)) else []) := he
        simp only [Bool.false_eq_true, if_false, List.append_nil] at he'
        exact List.mem_append_left _ he'
      · obtain ⟨v, _, rfl⟩ := List.mem_map.1 he
        exact zero_le_one
    have h7 : ∀ j ∈ range n, L.get i j * X.at_ j c = s i * Spec.wt l (i : Int) (j : Int) := by
      intro j hj
      rw [h5 j hj]
      rcases key j (mem_range.1 hj) with h | h
      · rw [h, mul_one]
      · rw [hnn hpw j (mem_range.1 hj) h]; ring
    rw [sum_congr rfl h7, ← mul_sum, sum_wt_deg hR, ← (hc i hi).2, ← mul_assoc]
    rcases key i hi with h | h
    · rw [h, one_mul]
    · exact absurd h hd

end Graphs

section BiGraphs
open BiGraph Bi

/-- C110 for bipartite graphs whose matrix can be read, with weights that are not negative. -/
theorem C110_bigraph {g : BSt K} {m n : Nat} (hg : Built Graph.NonNeg g) (hm : (ask .numU g).1 = .ok (.num m))
    (hn : (ask .numV g).1 = .ok (.num n)) (hw : Spec.NonnegWeights (Spec.listingB g)) {A : Sp K}
    (hA : (ask .A g).1 = .ok (.mat A)) (X : Dense K) (hX : X.rows = m + n) (keep : Nat → Bool) :
    ∃ Y, (ask (.smoothGCN X 0 keep) g).1 = .ok (.feat Y) ∧ Y.rows = m + n ∧ Y.cols = X.cols ∧
      ∀ c, Spec.energy Y c ≤ Spec.energy X c := by
  obtain ⟨L, s, hL, hs, hM, hsym, hY⟩ := C65_bigraph_LGCN hg hm hn hw hA
  obtain ⟨Y, h1, h2, h3, h4⟩ := hY X keep hX
  refine ⟨Y, h1, h2, h3, energy_le hsym (fun x => ?_) hX h2 h4⟩
  have hx : Spec.Bipartite m n g := by
    rw [← Bi.numV_eq hn, ← numU_eq hm]; exact bipartite_of_A hg hA
  obtain ⟨B, _, hB, _, hBm, _⟩ := C25_bigraph_incidence hg hm hn hx
  obtain ⟨A', hA', _, _, a1, a2, a3, a4⟩ := C25_bigraph_A_blocks hg hm hn hx hB
  rw [hA] at hA'; cases hA'
  have hB0 : ∀ u v, u < m → v < n → 0 ≤ B.get u v := fun u v hu hv => by
    rw [hBm.get u v hu hv]; exact Ord.wt_nonneg hw _ _
  have hA0 : ∀ i j, i < m + n → j < m + n → 0 ≤ A.get i j := by
    intro i j hi hj
    rcases Nat.lt_or_ge i m with h | h <;> rcases Nat.lt_or_ge j m with h' | h'
    · rw [a2 i j h h']
    · obtain ⟨v, rfl⟩ := Nat.exists_eq_add_of_le h'
      rw [(a1 i v h (by omega)).1]; exact hB0 i v h (by omega)
    · obtain ⟨v, rfl⟩ := Nat.exists_eq_add_of_le h
      rw [(a1 j v h' (by omega)).2]; exact hB0 j v h' (by omega)
    · obtain ⟨v, rfl⟩ := Nat.exists_eq_add_of_le h
      obtain ⟨v', rfl⟩ := Nat.exists_eq_add_of_le h'
      rw [a3 v v' (by omega) (by omega)]
  set W : Nat → Nat → K := fun i j => if i < m + n ∧ j < m + n then A.get i j + (if i = j then 1 else 0) else 0 with hW
  have hWin : ∀ i j, i < m + n → j < m + n → W i j = A.get i j + if i = j then 1 else 0 := by
    intro i j hi hj; simp only [hW]; rw [if_pos ⟨hi, hj⟩]
  have hb := norm_bound (m + n) W ?_ ?_ s x ?_
  · have he : ∑ i ∈ range (m + n), ∑ j ∈ range (m + n), x i * L.get i j * x j =
        ∑ i ∈ range (m + n), ∑ j ∈ range (m + n), x i * (s i * W i j * s j) * x j := by
      refine sum_congr rfl fun i hi => sum_congr rfl fun j hj => ?_
      rw [hM.get i j (mem_range.1 hi) (mem_range.1 hj), hWin i j (mem_range.1 hi) (mem_range.1 hj)]
    rw [he]; exact hb
  · intro i j
    by_cases h : i < m + n ∧ j < m + n
    · rw [hWin i j h.1 h.2, hWin j i h.2 h.1, a4 i j h.1 h.2]
      simp only [eq_comm (a := i) (b := j)]
    · simp only [hW]; rw [if_neg h, if_neg (by tauto)]
  · intro i j
    simp only [hW]
    split
    · next h =>
      have := hA0 i j h.1 h.2
      split <;> linarith
    · exact le_rfl
  · intro i hi
    have : ∑ j ∈ range (m + n), W i j = (∑ j ∈ range (m + n), A.get i j) + 1 := by
      rw [sum_congr rfl fun j hj => hWin i j hi (mem_range.1 hj), sum_add_distrib, sum_ite_eq (range (m + n)) i,
        if_pos (mem_range.2 hi)]
    rw [this]
    exact (hs i hi).2.le

end BiGraphs

section Hypers
open Hyper Hy

variable {b : Bool}

/-- C110 for hypergraphs with weights that are not negative, for all groups or one group: `smoothing_with_HGNN` is
the product with `L_HGNN` and amplifies no feature.  (A hypergraph without groups has no `L_HGNN`, see C36.) -/
theorem C110_hypergraph {s : HSt K} (hs : Built Proper b s) {sc : Option String} (hsc : Spec.HasScope s sc) {n : Nat}
    (hn : (ask .numV s).1 = .ok (.num n)) (hw : Spec.HNonneg (Spec.hListing s sc)) {L : Sp K}
    (hL : (ask (.LHGNN sc) s).1 = .ok (.mat L)) (X : Dense K) (hX : X.rows = n)
    (keep : Nat → Bool) :
    ∃ Y, (ask (.smoothHGNN sc X 0 keep) s).1 = .ok (.feat Y) ∧ Y.rows = n ∧ Y.cols = X.cols ∧
      (∀ i c, Y.at_ i c = ∑ j ∈ range n, L.get i j * X.at_ j c) ∧
      ∀ c, Spec.energy Y c ≤ Spec.energy X c := by
  obtain ⟨L', _, _, hL', _, _, hm, _, hsym, hq⟩ := C36_hypergraph_L_HGNN_partial hs hsc hn hw
  rw [hL] at hL'; cases hL'
  obtain ⟨hi, hcoh⟩ := (hs.mono (Q := AnyH) fun _ _ _ => trivial).inv
  have hev : evLHGNN sc s.raw = .ok L := by
    rw [Hyper.ask_eq _ hcoh (.inr (by simp))] at hL
    simp only [evAsk] at hL
    cases h : evLHGNN sc s.raw <;> rw [h] at hL <;> cases hL
    rfl
  obtain ⟨Y, hY⟩ := Sp.mmD_ok (P := L) (X := X) (by rw [hm.cols, hX])
  have hsh := Sp.mmD_shape hY
  have hat : ∀ i c, Y.at_ i c = ∑ j ∈ range n, L.get i j * X.at_ j c := fun i c => by rw [Sp.mmD_at hY hm.wf, hm.cols]
  refine ⟨Y, ?_, hsh.2.1.trans hm.rows, hsh.2.2, hat,
    energy_le hsym (fun x => ⟨(hq x).2, ?_⟩) hX (hsh.2.1.trans hm.rows) hat⟩
  · rw [Hyper.ask_eq _ hcoh (.inr (by simp))]
    simp only [evAsk, evSmooth, hev, Graph.evDrop, bind, Except.bind]
    simp [hY]
  · have h0 : 0 ≤ ∑ i ∈ range n, x i * x i := sum_nonneg fun i _ => mul_self_nonneg _
    exact le_trans (by linarith) (hq x).1

/-- C110 for hypergraphs, any number of layers. -/
theorem C110_hypergraph_layers {k : Nat} {s : HSt K} (hs : Built Proper b s) {sc : Option String}
    (hsc : Spec.HasScope s sc) {n : Nat} (hn : (ask .numV s).1 = .ok (.num n))
    (hw : Spec.HNonneg (Spec.hListing s sc)) {X Z : Dense K} (hX : X.rows = n) (h : Spec.SmoothsH sc k s X Z) :
    Z.rows = n ∧ Z.cols = X.cols ∧ ∀ c, Spec.energy Z c ≤ Spec.energy X c := by
  induction h with
  | nil g X => exact ⟨hX, rfl, fun c => le_rfl⟩
  | @step k s s' X Y Z keep h _ ih =>
    obtain ⟨L, _, _, hL, _⟩ := C36_hypergraph_L_HGNN_partial hs hsc hn hw
    obtain ⟨Y', h1, h2, h3, _, h4⟩ := C110_hypergraph hs hsc hn hw hL X hX keep
    rw [h] at h1
    cases h1
    have hi := (hs.mono (Q := AnyH) fun _ _ _ => trivial).inv
    have hs' : Built Proper b s' := by
      have := Built.read (.smoothHGNN sc X 0 keep) hs
      rwa [h] at this
    have hr : s'.raw = s.raw := by
      have := (reads_ask (b := b) (.smoothHGNN sc X 0 keep) (.inr (by intro h; cases h)) s hi.2).2.1
      rwa [h] at this
    have hl : Spec.hListing s' sc = Spec.hListing s sc := by
      rw [listing_eq (hs'.mono fun _ _ _ => trivial), listing_eq (hs.mono fun _ _ _ => trivial), hr]
    have hsc' : Spec.HasScope s' sc := by
      cases sc with
      | none =>
        show Spec.hNames s' ≠ []
        have : Spec.hNames s' = Spec.hNames s := by
          show s'.raw.groups.keys = s.raw.groups.keys
          rw [hr]
        rw [this]; exact hsc
      | some g =>
        show g ∈ Spec.hNames s'
        have : Spec.hNames s' = Spec.hNames s := by
          show s'.raw.groups.keys = s.raw.groups.keys
          rw [hr]
        rw [this]; exact hsc
    obtain ⟨i1, i2, i3⟩ := ih hs' hsc' (by
      have h5 : (ask .numV s').1 = .ok (.num s'.raw.numV) := rfl
      rw [h5, hr, Hy.numV_eq hn]) (by rw [hl]; exact hw) h2
    exact ⟨i1, i2.trans h3, fun c => (i3 c).trans (h4 c)⟩

end Hypers

/-! ## Examples -/

example : Graph.Built Graph.NonNeg exG ∧ Spec.NonnegWeights (Spec.listing exG) ∧
    ∃ n, (Graph.ask .numV exG).1 = .ok (.num n) := ⟨exG_nonneg, exG_nonnegWeights, _, rfl⟩

example (X : Dense ℝ) (hX : X.rows = exG.raw.numV) : ∃ Z, Spec.SmoothsG 2 exG X Z := by
  obtain ⟨Y, h1, h2, _⟩ := C110_graph exG_nonneg rfl exG_nonnegWeights X hX fun _ => true
  have hr := (Graph.reads_ask (.smoothGCN X 0 fun _ => true) exG exG_nonneg.inv.2).2.1
  rcases hx : Graph.ask (.smoothGCN X 0 fun _ => true) exG with ⟨x, g'⟩
  rw [hx] at h1 hr
  cases h1
  have hg' : Graph.Built Graph.NonNeg g' := by
    have := Graph.Built.read (.smoothGCN X 0 fun _ => true) exG_nonneg
    rwa [hx] at this
  have hl : Spec.listing g' = Spec.listing exG := by rw [listing_lst hg', listing_lst exG_nonneg, hr]
  obtain ⟨Z, h3, _⟩ := C110_graph hg' rfl (by rw [hl]; exact exG_nonnegWeights) Y (by rw [h2, hr]) fun _ => true
  rcases hy : Graph.ask (.smoothGCN Y 0 fun _ => true) g' with ⟨y, g''⟩
  rw [hy] at h3
  cases h3
  exact ⟨Z, .step hx (.step hy (.nil _ _))⟩

example : ∃ X : Dense ℝ, X.rows = 3 ∧ ∀ i, i < 3 → 0 ≤ X.at_ i 0 ∧ X.at_ i 0 * X.at_ i 0 =
    Spec.deg (Spec.withUnitLoops 3 (Spec.listing (Graph.apply .removeExtraSelfloop exG).2)) (i : Int) := by
  refine ⟨{ rows := 3, cols := 1, at_ := fun i _ => Real.sqrt <|
      (Spec.deg (Spec.withUnitLoops 3 (Spec.listing (Graph.apply .removeExtraSelfloop exG).2)) (i : Int)) }, rfl,
    fun i _ => ⟨Real.sqrt_nonneg _, Real.mul_self_sqrt (Graph.deg_nonneg ?_ _)⟩⟩
  intro e he
  rcases List.mem_append.1 he with he | he
  · rw [show Spec.listing (Graph.apply .removeExtraSelfloop exG).2 = [((0, 1), 2), ((1, 2), 3), ((2, 2), 7)] from rfl] at he
    simp only [List.mem_cons, List.not_mem_nil, or_false] at he
    rcases he with rfl | rfl | rfl <;> norm_num
  · obtain ⟨v, _, rfl⟩ := List.mem_map.1 he
    exact zero_le_one

example : BiGraph.Built Graph.NonNeg exB ∧ Spec.NonnegWeights (Spec.listingB exB) ∧
    ∃ A, (BiGraph.ask .A exB).1 = .ok (.mat A) :=
  ⟨exB_nonneg, exB_nonnegWeights, by
    obtain ⟨B, _, hB, _⟩ := C25_bigraph_incidence exB_nonneg exB_numU exB_numV exB_flag
    obtain ⟨A, hA, _⟩ := C25_bigraph_A_blocks exB_nonneg exB_numU exB_numV exB_flag hB
    exact ⟨A, hA⟩⟩

example : Hyper.Built Hyper.Proper true exH ∧ Spec.HasScope exH none ∧ (Hyper.ask .numV exH).1 = .ok (.num 4) ∧
    Spec.HNonneg (Spec.hListing exH none) := by
  refine ⟨exH_proper, List.cons_ne_nil _ _, rfl, ?_⟩
  intro e he
  rw [show Spec.hListing exH none = [([0, 1, 2], 2), ([1, 3], 3), ([3], 5)] from rfl] at he
  simp only [List.mem_cons, List.not_mem_nil, or_false] at he
  rcases he with rfl | rfl | rfl <;> norm_num

end Props
end DHG
