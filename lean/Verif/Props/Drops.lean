import Verif.Props.BiGraphEdges
import Verif.Props.HyperEdges

/-!
# Dropping everything

A drop rate of at least 1 leaves no edge of a bipartite graph and no hyperedge; a negative rate leaves
all of them.  (Draws are at least 0 and below 1.)
-/

set_option linter.unusedSectionVars false
set_option autoImplicit false

namespace DHG
namespace Props

open Graph (AnyArg)

variable {K : Type} [Field K] [LinearOrder K] [PyReal K] {b : Bool}

theorem filter_zipIdx_all {α : Type} (l : List α) (k : Nat) {p : Nat → Bool} (h : ∀ i, p i = true) :
    ((l.zipIdx k).filter fun x => p x.2).map Prod.fst = l := by
  rw [List.filter_eq_self.2 fun x _ => h x.2]
  exact List.zipIdx_map_fst k l

theorem filter_zipIdx_none {α : Type} (l : List α) (k : Nat) {p : Nat → Bool} (h : ∀ i, p i = false) :
    ((l.zipIdx k).filter fun x => p x.2).map Prod.fst = [] := by
  rw [List.filter_eq_nil_iff.2 fun x _ => by simp [h x.2]]
  rfl

/-- C17 (BiGraph). A drop rate of at least 1 drops every edge, a negative one none of the stored
edges. -/
theorem C17_bigraph_drop_all {g : BSt K} (hg : BiGraph.Any AnyArg g) (hv : 0 < g.raw.numV) (rate : K)
    (rnd : Nat → K) :
    (1 ≤ rate → (∀ i, rnd i < 1) → ∃ g', BiGraph.dropEdges rate true rnd g = .ok g' ∧
      Spec.listingB g' = []) ∧
    (rate < 0 → (∀ i, 0 ≤ rnd i) → ∃ g', BiGraph.dropEdges rate true rnd g = .ok g' ∧
      Spec.listingB g' = (BiGraph.stateDict g).eDict) := by
  obtain ⟨⟨g', h1, _, _, h2⟩, _⟩ := C17_bigraph_drop_edges hg hv rate rnd
  refine ⟨fun hr hd => ⟨g', h1, ?_⟩, fun hr hd => ⟨g', h1, ?_⟩⟩
  · rw [h2]
    exact filter_zipIdx_none _ 0 (p := fun i => decide (rate < rnd i)) fun i =>
      decide_eq_false (not_lt.2 ((hd i).le.trans hr))
  · rw [h2]
    exact filter_zipIdx_all _ 0 (p := fun i => decide (rate < rnd i)) fun i =>
      decide_eq_true (lt_of_lt_of_le hr (hd i))

example : BiGraph.Any AnyArg exB ∧ 0 < exB.raw.numV ∧ (1 : ℝ) ≤ 1 ∧ ∀ _ : Nat, (1 / 2 : ℝ) < 1 :=
  ⟨exB_built.any, by simp [exB], le_refl _, fun _ => by norm_num⟩

/-- C17 (Hypergraph). A drop rate of at least 1 empties every group, a negative one keeps everything. -/
theorem C17_hypergraph_drop_all {s : HSt K} (hs : Hyper.Built Hyper.AnyH b s) (rate : K) (rnd : Nat → K) :
    (1 ≤ rate → (∀ i, rnd i < 1) → ∃ s', Hyper.dropHyperedges rate true rnd s = .ok s' ∧
      Spec.hNames s' = Spec.hNames s ∧ ∀ g ∈ Spec.hNames s, Spec.hListing s' (some g) = []) ∧
    (rate < 0 → (∀ i, 0 ≤ rnd i) → ∃ s', Hyper.dropHyperedges rate true rnd s = .ok s' ∧
      Spec.hNames s' = Spec.hNames s ∧
      ∀ g ∈ Spec.hNames s, Spec.hListing s' (some g) = Spec.hListing s (some g)) := by
  obtain ⟨⟨s', h1, _, h2, h3⟩, _⟩ := C17_hypergraph_drop hs rate rnd
  refine ⟨fun hr hd => ⟨s', h1, h2, fun g hg => ?_⟩, fun hr hd => ⟨s', h1, h2, fun g hg => ?_⟩⟩
  · obtain ⟨pre, post, hp⟩ := List.append_of_mem hg
    rw [h3 pre g post hp]
    exact filter_zipIdx_none _ _ (p := fun i => decide (rate < rnd i)) fun i =>
      decide_eq_false (not_lt.2 ((hd i).le.trans hr))
  · obtain ⟨pre, post, hp⟩ := List.append_of_mem hg
    rw [h3 pre g post hp]
    exact filter_zipIdx_all _ _ (p := fun i => decide (rate < rnd i)) fun i =>
      decide_eq_true (lt_of_lt_of_le hr (hd i))

example : Hyper.Built Hyper.AnyH true exH ∧ (1 : ℝ) ≤ 1 ∧ ∀ _ : Nat, (1 / 2 : ℝ) < 1 :=
  ⟨exH_built, le_refl _, fun _ => by norm_num⟩

end Props
end DHG
