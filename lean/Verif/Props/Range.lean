import Verif.Props.GraphMessages
import Verif.Props.DiGraphMatrices
import Verif.Props.BiGraphMatrices
import Verif.Props.HyperMessages

/-!
# Averages stay in the range of what is averaged (C111)
-/

set_option linter.unusedSectionVars false
set_option autoImplicit false

namespace DHG

variable {K : Type} [Field K] [LinearOrder K] [PyReal K]

/-! ## Specification -/

namespace Spec

/-- every value of feature number `c` lies between `lo` and `hi` -/
def Within (lo hi : K) (X : Dense K) (c : Nat) : Prop := ∀ i, i < X.rows → lo ≤ X.at_ i c ∧ X.at_ i c ≤ hi

/-- some listed hyperedge contains both vertices -/
def Share (l : List (List Int × K)) (v u : Nat) : Prop := ∃ e ∈ l, (v : Int) ∈ e.1 ∧ (u : Int) ∈ e.1

/-- `Z` is what `k` successive calls `X = g.v2v(X, aggr="mean")` make of `X` -/
inductive MeansG : Nat → GSt K → Dense K → Dense K → Prop
  | nil (g : GSt K) (X : Dense K) : MeansG 0 g X X
  | step {k : Nat} {g g' : GSt K} {X Y Z : Dense K} {keep : Nat → Bool}
      (h : Graph.ask (.v2v X .mean none 0 keep) g = (.ok (.feat Y), g')) (hs : MeansG k g' Y Z) :
      MeansG (k + 1) g X Z

/-- `Z` is what `k` successive calls `X = hg.v2v(X, aggr="mean")`, or those of one group, make of `X` -/
inductive MeansH (sc : Option String) : Nat → HSt K → Dense K → Dense K → Prop
  | nil (s : HSt K) (X : Dense K) : MeansH sc 0 s X X
  | step {k : Nat} {s s' : HSt K} {X Y Z : Dense K} {keep1 keep2 : Nat → Bool}
      (h : Hyper.ask (.v2v sc X { aggr := .mean, rate := 0, keep1 := keep1, keep2 := keep2 }) s =
        (.ok (.feat Y), s')) (hs : MeansH sc k s' Y Z) : MeansH sc (k + 1) s X Z

end Spec

namespace Props

open Finset

variable [IsStrictOrderedRing K]

/-! ## C111 -/

section
open Graph

/-- C111 for simple graphs: `v2v(aggr="mean")` gives every vertex with neighbours (more exactly: of nonzero degree) a
value between the least and the largest value of its neighbours, and 0 to the others. -/
theorem C111_graph {g : GSt K} (hg : Built NonNeg g) {n : Nat} (hn : (ask .numV g).1 = .ok (.num n))
    (hw : Spec.NonnegWeights (Spec.listing g)) (X : Dense K) (hX : X.rows = n) (keep : Nat → Bool) :
    ∃ Y, (ask (.v2v X .mean none 0 keep) g).1 = .ok (.feat Y) ∧ Y.rows = n ∧ Y.cols = X.cols ∧
      ∀ i c, i < n → (Spec.deg (Spec.listing g) (i : Int) = 0 → Y.at_ i c = 0) ∧
        (Spec.deg (Spec.listing g) (i : Int) ≠ 0 → ∀ lo hi,
          (∀ j, j < n → Spec.Adj (Spec.listing g) i j → lo ≤ X.at_ j c ∧ X.at_ j c ≤ hi) →
          lo ≤ Y.at_ i c ∧ Y.at_ i c ≤ hi) := by
  obtain ⟨Y, h1, h2, h3, h4⟩ := C12_graph_v2v_mean hg hn X hX keep
  exact ⟨Y, h1, h2, h3, fun i c hi => ⟨(h4 i c hi).1, fun hd lo hi' h =>
    C12_graph_v2v_mean_bounds hg hn hw X Y hX keep h1 i c hi hd lo hi' (fun j hj ha => (h j hj ha).1)
      fun j hj ha => (h j hj ha).2⟩⟩

/-- C111 for simple graphs, any number of layers: a range that contains 0 is never left; any range if every vertex
has a nonzero degree. -/
theorem C111_graph_layers {k : Nat} {g : GSt K} (hg : Built NonNeg g) {n : Nat}
    (hn : (ask .numV g).1 = .ok (.num n)) (hw : Spec.NonnegWeights (Spec.listing g)) {X Z : Dense K} (hX : X.rows = n)
    (h : Spec.MeansG k g X Z) {lo hi : K}
    (h0 : lo ≤ 0 ∧ 0 ≤ hi ∨ ∀ i : Nat, i < n → Spec.deg (Spec.listing g) (i : Int) ≠ 0) {c : Nat}
    (hr : Spec.Within lo hi X c) : Z.rows = n ∧ Z.cols = X.cols ∧ Spec.Within lo hi Z c := by
  induction h with
  | nil g X => exact ⟨hX, rfl, hr⟩
  | @step k g g' X Y Z keep h _ ih =>
    obtain ⟨Y', h1, h2, h3, h4⟩ := C111_graph hg hn hw X hX keep
    rw [h] at h1
    cases h1
    have hg' : Built NonNeg g' := by
      have := Built.read (.v2v X .mean none 0 keep) hg
      rwa [h] at this
    have hr' : Spec.Within lo hi Y c := by
      intro i hi'
      rw [h2] at hi'
      by_cases hd : Spec.deg (Spec.listing g) (i : Int) = 0
      · rcases h0 with h0 | h0
        · rw [(h4 i c hi').1 hd]; exact h0
        · exact absurd hd (h0 i hi')
      · exact (h4 i c hi').2 hd lo hi fun j hj _ => hr j (hX ▸ hj)
    have hr2 : g'.raw = g.raw := by
      have := (reads_ask (.v2v X .mean none 0 keep) g hg.inv.2).2.1
      rwa [h] at this
    have hl : Spec.listing g' = Spec.listing g := by rw [listing_lst hg', listing_lst hg, hr2]
    obtain ⟨i1, i2, i3⟩ := ih hg' (by
      have h5 : (ask .numV g').1 = .ok (.num g'.raw.numV) := rfl
      rw [h5, hr2, numV_eq hn]) (by rw [hl]; exact hw) h2 (by rw [hl]; exact h0) hr'
    exact ⟨i1, i2.trans h3, i3⟩

end

section
open DiGraph Di

/-- C111 for directed graphs: `v2v(aggr="mean")` gives every vertex a value in the range of the vertices it hears
from, in both directions; a vertex of degree 0 gets 0. -/
theorem C111_digraph {w : Bool} {g : DSt K} (hg : Built Graph.NonNeg w g) {n : Nat} (hn : (ask .numV g).1 = .ok (.num n))
    (hw : Spec.NonnegWeights (Spec.listingD g)) (X : Dense K) (hX : X.rows = n) (keep : Nat → Bool) :
    (∃ Y, (ask (.v2v X .mean none .dst2src 0 keep) g).1 = .ok (.feat Y) ∧ Y.rows = n ∧ Y.cols = X.cols ∧
      ∀ i c, i < n → (Spec.O.degOut (Spec.listingD g) (i : Int) = 0 → Y.at_ i c = 0) ∧
        (Spec.O.degOut (Spec.listingD g) (i : Int) ≠ 0 → ∀ lo hi,
          (∀ j : Nat, j < n → (∃ x, (((i : Int), (j : Int)), x) ∈ Spec.listingD g) → lo ≤ X.at_ j c ∧ X.at_ j c ≤ hi) →
          lo ≤ Y.at_ i c ∧ Y.at_ i c ≤ hi)) ∧
    (∃ Y, (ask (.v2v X .mean none .src2dst 0 keep) g).1 = .ok (.feat Y) ∧ Y.rows = n ∧ Y.cols = X.cols ∧
      ∀ i c, i < n → (Spec.O.degIn (Spec.listingD g) (i : Int) = 0 → Y.at_ i c = 0) ∧
        (Spec.O.degIn (Spec.listingD g) (i : Int) ≠ 0 → ∀ lo hi,
          (∀ j : Nat, j < n → (∃ x, (((j : Int), (i : Int)), x) ∈ Spec.listingD g) → lo ≤ X.at_ j c ∧ X.at_ j c ≤ hi) →
          lo ≤ Y.at_ i c ∧ Y.at_ i c ≤ hi)) := by
  obtain ⟨⟨Y, h1, r1, s1, h2⟩, Z, k1, r2, s2, k2⟩ := C24_digraph_v2v_mean hg hn X hX keep
  have hI := Di.In hg hn
  refine ⟨⟨Y, h1, r1, s1, fun i c hi => ⟨(h2 i c hi).1, fun hd lo hi' h => ?_⟩⟩,
    ⟨Z, k1, r2, s2, fun i c hi => ⟨(k2 i c hi).1, fun hd lo hi' h => ?_⟩⟩⟩
  · rw [(h2 i c hi).2 hd]
    exact Ord.mean_bounds hI hw (fun j => X.at_ j c) i hd lo hi' (fun j hj hx => (h j hj hx).1) fun j hj hx => (h j hj hx).2
  · rw [(k2 i c hi).2 hd]
    have hex : ∀ u : Nat, (∃ x, (((i : Int), (u : Int)), x) ∈ Ord.sw (Spec.listingD g)) →
        ∃ x, (((u : Int), (i : Int)), x) ∈ Spec.listingD g := by
      rintro u ⟨x, hx⟩
      obtain ⟨⟨⟨a, b⟩, y⟩, he, h1⟩ := List.mem_map.1 hx
      simp only [Prod.mk.injEq] at h1
      obtain ⟨⟨rfl, rfl⟩, rfl⟩ := h1
      exact ⟨_, he⟩
    have := Ord.mean_bounds hI.sw (Ord.NonnegWeights.sw hw) (fun u => X.at_ u c) i
      (by rw [Ord.degOut_sw]; exact hd) lo hi'
      (fun u hu hx => (h u hu (hex u hx)).1) (fun u hu hx => (h u hu (hex u hx)).2)
    rw [Ord.degOut_sw] at this
    simpa only [Ord.wt_sw] using this

end

section
open Hyper Hy

variable {b : Bool}

/-- C111 for hypergraphs with weights that are not negative, for all groups or one group: `v2v(aggr="mean")` gives
every vertex a value in the range of the vertices it shares a hyperedge with; a vertex of degree 0 gets 0. -/
theorem C111_hypergraph {s : HSt K} (hs : Built Proper b s) {sc : Option String} (hsc : Spec.HasScope s sc) {n : Nat}
    (hn : (ask .numV s).1 = .ok (.num n)) (hw : Spec.HNonneg (Spec.hListing s sc)) (X : Dense K) (hX : X.rows = n)
    (keep1 keep2 : Nat → Bool) :
    ∃ Z, (ask (.v2v sc X { aggr := .mean, rate := 0, keep1 := keep1, keep2 := keep2 }) s).1 = .ok (.feat Z) ∧
      Z.rows = n ∧ Z.cols = X.cols ∧
      ∀ v c, v < n → (Spec.hDeg (Spec.hListing s sc) v = 0 → Z.at_ v c = 0) ∧
        (Spec.hDeg (Spec.hListing s sc) v ≠ 0 → ∀ lo hi,
          (∀ u, u < n → Spec.Share (Spec.hListing s sc) v u → lo ≤ X.at_ u c ∧ X.at_ u c ≤ hi) →
          lo ≤ Z.at_ v c ∧ Z.at_ v c ≤ hi) := by
  have hs' := hs.mono (Q := AnyH) fun _ _ _ => trivial
  obtain ⟨Y, hY, y1, y2, y3⟩ := (C37_hypergraph_v2e_partial hs hsc hn X hX keep1).2
  obtain ⟨Z, hZ, z1, z2, z3⟩ := (C37_hypergraph_e2v_partial hs hsc hn Y y1 keep2).2
  refine ⟨Z, ?_, z1, z2.trans y2, ?_⟩
  · have := (C37_hypergraph_v2v_is_composition hs' hsc X
      { aggr := .mean, rate := 0, keep1 := keep1, keep2 := keep2 }).1 Y
    simp only [Option.getD_none] at this
    rw [this hY]
    exact hZ
  · intro v c hv
    rw [(z3 v c hv).1]
    have hR : Rng n (Spec.hListing s sc) := by
      rw [listing_eq hs', ← Hy.numV_eq hn]; exact lst_rng hs'.inv.1 hs.inRange sc
    generalize Spec.hListing s sc = l at *
    refine ⟨fun hd => by rw [hd, div_zero], fun hd lo hi h => ?_⟩
    have hd0 : 0 ≤ Spec.hDeg l v := hDeg_nonneg hw v
    rw [← incidentSum_eq, sum_div]
    have hwt : ∀ j, j < l.length → 0 ≤ Spec.hWt l j := fun j hj => by
      rw [hWt_of_lt hj]
      exact hw _ (List.getElem_mem hj)
    have e : ∀ j ∈ range l.length, Spec.inc l v j * Y.at_ j c / Spec.hDeg l v =
        (Spec.inc l v j * Spec.hWt l j / Spec.hDeg l v) *
          (Spec.memberSum l j (fun u => X.at_ u c) / Spec.hSize l j) := fun j hj => by
      rw [y3 j c (mem_range.1 hj)]; ring
    rw [sum_congr rfl e]
    have hb : ∀ j, j < l.length → (v : Int) ∈ Spec.hAt l j →
        lo ≤ Spec.memberSum l j (fun u => X.at_ u c) / Spec.hSize l j ∧
        Spec.memberSum l j (fun u => X.at_ u c) / Spec.hSize l j ≤ hi := by
      intro j hj hm
      have hz := size_ne_zero (K := K) hm
      rw [← memberSum_eq hR hj, sum_div,
        sum_congr rfl fun u _ => show Spec.inc l u j * X.at_ u c / Spec.hSize l j =
          (Spec.inc l u j / Spec.hSize l j) * X.at_ u c by ring]
      have hsh : ∀ u, Spec.inc l u j / Spec.hSize l j ≠ 0 → Spec.Share l v u := by
        intro u hu
        have hm' : (u : Int) ∈ Spec.hAt l j := by
          by_contra hc
          exact hu (by unfold Spec.inc; rw [if_neg hc, zero_div])
        rw [hAt_of_lt hj] at hm hm'
        exact ⟨_, List.getElem_mem hj, hm, hm'⟩
      refine weighted_avg_bounds n _ _ lo hi (fun u _ => div_nonneg ?_ ?_) ?_
        (fun u hu h1 => (h u hu (hsh u h1)).1) (fun u hu h1 => (h u hu (hsh u h1)).2)
      · unfold Spec.inc; split <;> norm_num
      · exact Nat.cast_nonneg _
      · rw [← sum_div, sum_inc hR hj, div_self hz]
    have hin : ∀ j, Spec.inc l v j * Spec.hWt l j / Spec.hDeg l v ≠ 0 → (v : Int) ∈ Spec.hAt l j := by
      intro j hj
      by_contra hc
      exact hj (by unfold Spec.inc; rw [if_neg hc, zero_mul, zero_div])
    refine weighted_avg_bounds l.length _ _ lo hi (fun j hj => div_nonneg (mul_nonneg ?_ (hwt j hj)) hd0) ?_
      (fun j hj h1 => (hb j hj (hin j h1)).1) (fun j hj h1 => (hb j hj (hin j h1)).2)
    · unfold Spec.inc; split <;> norm_num
    · rw [← sum_div, sum_inc_wt, div_self hd]

/-- C111 for hypergraphs, any number of layers: a range that contains 0 is never left; any range if every vertex has a
nonzero degree. -/
theorem C111_hypergraph_layers {k : Nat} {s : HSt K} (hs : Built Proper true s) {sc : Option String}
    (hsc : Spec.HasScope s sc) {n : Nat} (hn : (ask .numV s).1 = .ok (.num n))
    (hw : Spec.HNonneg (Spec.hListing s sc)) {X Z : Dense K} (hX : X.rows = n) (h : Spec.MeansH sc k s X Z) {lo hi : K}
    (h0 : lo ≤ 0 ∧ 0 ≤ hi ∨ ∀ v, v < n → Spec.hDeg (Spec.hListing s sc) v ≠ 0) {c : Nat}
    (hr : Spec.Within lo hi X c) : Z.rows = n ∧ Z.cols = X.cols ∧ Spec.Within lo hi Z c := by
  induction h with
  | nil g X => exact ⟨hX, rfl, hr⟩
  | @step k s s' X Y Z keep1 keep2 h _ ih =>
    obtain ⟨Y', h1, h2, h3, h4⟩ := C111_hypergraph hs hsc hn hw X hX keep1 keep2
    rw [h] at h1
    cases h1
    have hi' := (hs.mono (Q := AnyH) fun _ _ _ => trivial).inv
    have hs' : Built Proper true s' := by
      have := Built.read (.v2v sc X { aggr := .mean, rate := 0, keep1 := keep1, keep2 := keep2 }) hs
      rwa [h] at this
    have hrw : s'.raw = s.raw := by
      have := (reads_ask (b := true) (.v2v sc X { aggr := .mean, rate := 0, keep1 := keep1, keep2 := keep2 })
        (.inl rfl) s hi'.2).2.1
      rwa [h] at this
    have hl : Spec.hListing s' sc = Spec.hListing s sc := by
      rw [listing_eq (hs'.mono fun _ _ _ => trivial), listing_eq (hs.mono fun _ _ _ => trivial), hrw]
    have hnm : Spec.hNames s' = Spec.hNames s := by
      show s'.raw.groups.keys = s.raw.groups.keys
      rw [hrw]
    have hsc' : Spec.HasScope s' sc := by
      cases sc with
      | none => show Spec.hNames s' ≠ []; rw [hnm]; exact hsc
      | some g => show g ∈ Spec.hNames s'; rw [hnm]; exact hsc
    have hr' : Spec.Within lo hi Y c := by
      intro i hi'
      rw [h2] at hi'
      by_cases hd : Spec.hDeg (Spec.hListing s sc) i = 0
      · rcases h0 with h0 | h0
        · rw [(h4 i c hi').1 hd]; exact h0
        · exact absurd hd (h0 i hi')
      · exact (h4 i c hi').2 hd lo hi fun j hj _ => hr j (hX ▸ hj)
    obtain ⟨i1, i2, i3⟩ := ih hs' hsc' (by
      have h5 : (ask .numV s').1 = .ok (.num s'.raw.numV) := rfl
      rw [h5, hrw, Hy.numV_eq hn]) (by rw [hl]; exact hw) h2 (by rw [hl]; exact h0) hr'
    exact ⟨i1, i2.trans h3, i3⟩

end

/-! ## Examples -/

example : Graph.Built Graph.NonNeg exG ∧ Spec.NonnegWeights (Spec.listing exG) ∧
    (Graph.ask .numV exG).1 = .ok (.num 3) := ⟨exG_nonneg, exG_nonnegWeights, rfl⟩

example : DiGraph.Built Graph.NonNeg false exD ∧ Spec.NonnegWeights (Spec.listingD exD) ∧
    (DiGraph.ask .numV exD).1 = .ok (.num 3) := ⟨exD_nonneg, exD_nonnegWeights, rfl⟩

example : Hyper.Built Hyper.Proper true exH ∧ Spec.HasScope exH none ∧ (Hyper.ask .numV exH).1 = .ok (.num 4) ∧
    Spec.HNonneg (Spec.hListing exH none) ∧ ∀ v, v < 4 → Spec.hDeg (Spec.hListing exH none) v ≠ 0 := by
  have hl : Spec.hListing exH none = [([0, 1, 2], 2), ([1, 3], 3), ([3], 5)] := rfl
  refine ⟨exH_proper, List.cons_ne_nil _ _, rfl, ?_, ?_⟩
  · rw [hl]; intro e he
    simp only [List.mem_cons, List.not_mem_nil, or_false] at he
    rcases he with rfl | rfl | rfl <;> norm_num
  · intro v hv
    rw [hl]
    rcases v with _ | _ | _ | _ | v
    · norm_num [Spec.hDeg]
    · norm_num [Spec.hDeg]
    · norm_num [Spec.hDeg]
    · norm_num [Spec.hDeg]
    · omega

end Props
end DHG
