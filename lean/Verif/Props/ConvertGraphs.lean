import Verif.ConvertBi
import Verif.Props.HyperMatrices
import Verif.Props.HyperMessages
import Verif.Props.GraphMatrices
import Verif.Props.BiGraphMatrices

/-!
# Graphs made from hypergraphs: clique, star, HyperGCN expansions and the bipartite graph

`Spec.hListing s none` is what reading `e` of the hypergraph `s` shows, `Spec.Listed g a b w` says
that reading `e` of the graph `g` shows the edge `{a,b}` with weight `w`.
-/

set_option linter.unusedSectionVars false
set_option autoImplicit false

namespace DHG
namespace Props

variable {K : Type} [Field K] [LinearOrder K] [PyReal K] {b : Bool}

/-- example: two vertices, one hyperedge `{0,1}` -/
noncomputable def exH2 : HSt ℝ :=
  { raw := { numV := 2, vWeight := some [1, 1], groups := [("main", [([0, 1], 1)])] }, cache := [] }

theorem exH2_new : Hyper.new (K := ℝ) 2 (some (.one true [0, 1])) .none none .mean = .ok exH2 := rfl

theorem exH2_proper : Hyper.Built Hyper.Proper true exH2 := .new exH2_new (by
  intro a ha; cases ha
  intro e he
  simp [Hyper.argEdges] at he
  subst he
  simp)

theorem exH2_listing : Spec.hListing exH2 none = [([0, 1], 1)] := rfl
theorem exH2_scope : Spec.HasScope exH2 none := by
  show Dict.keys exH2.raw.groups ≠ []
  simp [exH2, Dict.keys]

/-! ## C40 -/

/-- C40. Clique expansion: `{a,b}` is an edge iff `a ≠ b` and some hyperedge contains both, with the
number of such hyperedges as weight (1 when not weighted); in particular there are no self loops.
Missing: the scaling by `miu` (see `C40_clique_miu_false`), and hypergraphs without any group (see
`C40_clique_empty_false`). -/
theorem C40_clique_partial [IsStrictOrderedRing K] {s : HSt K} (hs : Hyper.Built Hyper.Proper b s)
    {n : Nat} (hn : (Hyper.ask .numV s).1 = .ok (.num n)) (hsc : Spec.HasScope s none)
    (weighted : Bool) (miu : K) :
    ∃ g, (Graph.fromHypergraphClique weighted miu s).1 = .ok g ∧ (Graph.ask .numV g).1 = .ok (.num n) ∧
      ∀ (x y : Int) (w : K), Spec.Listed g x y w ↔
        x ≠ y ∧ (∃ e ∈ Spec.hListing s none, x ∈ e.1 ∧ y ∈ e.1) ∧
          w = if weighted then (Spec.together (Spec.hListing s none) x y : K) else 1 := by
  have hs' := hs.mono (Q := Hyper.AnyH) fun _ _ _ => trivial
  obtain ⟨hi, hc⟩ := hs'.inv
  rw [Hy.listing_eq hs']
  obtain ⟨H, hH, hT, hI⟩ := Hyper.evHT_spec hi hs.inRange (Hy.has_of_scope hsc)
  obtain ⟨P, hP, hM⟩ := Graph.cliqueM_of hI
  obtain ⟨g, hg, hl⟩ := Graph.clique_listed (K := K) hi.pos hM (Hyper.lst_rng hi hs.inRange none) weighted
  refine ⟨g, ?_, ?_, hl⟩
  · rw [(Graph.reads_clique weighted miu s hc).1]
    unfold Graph.evClique
    rw [hH, hT]
    simp only [bind, Except.bind]
    rw [hP]
    exact hg
  · unfold Graph.cliqueGraph at hg
    simp only at hg
    rw [← Hy.numV_eq hn]
    split at hg
    · exact Graph.new_numV hg
    · exact Graph.new_numV hg

example : Hyper.Built Hyper.Proper true exH ∧ (Hyper.ask .numV exH).1 = .ok (.num 4) ∧
    Spec.HasScope exH none := ⟨exH_proper, rfl, by
  show Dict.keys exH.raw.groups ≠ []
  simp [exH, Dict.keys]⟩

/-- C40. The clique expansion leaves the hypergraph as it was: no later calls and reads tell the
difference. -/
theorem C40_clique_source {s : HSt K} (hs : Hyper.Built Hyper.AnyH true s) (weighted : Bool) (miu : K) :
    Spec.HIndist (fun _ => True) (Graph.fromHypergraphClique weighted miu s).2 s := by
  obtain ⟨_, h1, h2⟩ := Graph.reads_clique weighted miu s hs.inv.2
  exact Hyper.indist_of_raw h1 h2 hs.inv.2

example : Hyper.Built Hyper.AnyH true exH := exH_built

/-- C40 is false about `miu`: the argument has no effect, so the weights are not scaled by it. -/
theorem C40_clique_miu_false :
    ¬ ∀ (s : HSt ℝ) (miu : ℝ) (g : GSt ℝ), Hyper.Built Hyper.Proper true s →
      (Graph.fromHypergraphClique true miu s).1 = .ok g →
      ∀ x y w, Spec.Listed g x y w → w = miu * (Spec.together (Spec.hListing s none) x y : ℝ) := by
  intro h
  obtain ⟨g, hg, _, hl⟩ := C40_clique_partial exH2_proper (n := 2) rfl exH2_scope true 5
  have h1 : Spec.together (Spec.hListing exH2 none) 0 1 = 1 := rfl
  have h2 := h exH2 5 g exH2_proper hg 0 1 1 ((hl 0 1 1).2 ⟨by decide, by
    rw [exH2_listing]; simp, by rw [h1]; simp⟩)
  rw [h1] at h2
  norm_num at h2

/-- C40 is false for hypergraphs without any group: the expansion raises. -/
theorem C40_clique_empty_false :
    ¬ ∀ (s : HSt ℝ) (weighted : Bool) (miu : ℝ), Hyper.Built Hyper.Proper true s →
      ∃ g, (Graph.fromHypergraphClique weighted miu s).1 = .ok g := by
  intro h
  obtain ⟨g, hg⟩ := h exHe true 1 exHe_proper
  rw [show (Graph.fromHypergraphClique true (1 : ℝ) exHe).1 = .error .runtime from rfl] at hg
  cases hg

/-! ## C41, star expansion -/

/-- C41. Star expansion: `num_v + num_e` vertices, the mask is true exactly on the original
vertices, and the edges join `v` to `num_v + j` exactly when `v` belongs to the `j`-th hyperedge, all
with weight 1.  Missing: hypergraphs without any group (see `C41_star_empty_false`). -/
theorem C41_star_partial {s : HSt K} (hs : Hyper.Built Hyper.Proper b s)
    {n : Nat} (hn : (Hyper.ask .numV s).1 = .ok (.num n)) (hsc : Spec.HasScope s none)
    (weighted : Bool) {op : MergeOp} (hop : op ≠ .other) :
    ∃ g mask, (Graph.fromHypergraphStar weighted op s).1 = .ok (g, mask) ∧
      (Graph.ask .numV g).1 = .ok (.num (n + (Spec.hListing s none).length)) ∧
      mask.length = n + (Spec.hListing s none).length ∧
      (∀ i, i < mask.length → mask[i]? = some (decide (i < n))) ∧
      ∀ (x y : Int) (w : K), Spec.Listed g x y w ↔ w = 1 ∧ ∃ v j : Nat, v < n ∧
        j < (Spec.hListing s none).length ∧ (v : Int) ∈ Spec.hAt (Spec.hListing s none) j ∧
        ((x = v ∧ y = n + j) ∨ (x = n + j ∧ y = v)) := by
  have hs' := hs.mono (Q := Hyper.AnyH) fun _ _ _ => trivial
  obtain ⟨hi, hc⟩ := hs'.inv
  rw [Hy.listing_eq hs', ← Hy.numV_eq hn]
  obtain ⟨H, hH, _, hI⟩ := Hyper.evHT_spec hi hs.inRange (Hy.has_of_scope hsc)
  obtain ⟨g, hg⟩ := Graph.new_many_ok (K := K) (n := s.raw.numV + (Hyper.lstOf none s.raw).length)
    (by have := hi.pos; omega) (Graph.star_bounds hI) (extra := false) (op := op) (.inl hop)
    (Graph.starWts_not_scalar weighted H)
  refine ⟨g, List.replicate s.raw.numV true ++ List.replicate (Hyper.lstOf none s.raw).length false,
    ?_, Graph.new_numV hg, ?_, ?_, ?_⟩
  · rw [(Graph.reads_star weighted op s hc).1]
    unfold Graph.evStar
    rw [hH, Hyper.evNumE_spec (.inr rfl)]
    simp only [bind, Except.bind]
    rw [hg]
  · simp
  · intro i hi
    simp only [List.length_append, List.length_replicate] at hi
    by_cases h : i < s.raw.numV
    · rw [List.getElem?_append_left (by simpa using h)]
      simp [h]
    · rw [List.getElem?_append_right (by simpa using h)]
      have : i - s.raw.numV < (Hyper.lstOf none s.raw).length := by omega
      simp [h, this]
  · intro x y w
    rw [Graph.new_many_listed (Graph.star_bounds hI) hop (Graph.starWts_not_scalar weighted H) hg,
      Graph.star_ents hI, Graph.star_fold hI]

example : Hyper.Built Hyper.Proper true exH2 ∧ (Hyper.ask .numV exH2).1 = .ok (.num 2) ∧
    Spec.HasScope exH2 none ∧ MergeOp.sum ≠ .other := ⟨exH2_proper, rfl, exH2_scope, by decide⟩

/-- C41. The star expansion leaves the hypergraph as it was. -/
theorem C41_star_source {s : HSt K} (hs : Hyper.Built Hyper.AnyH true s) (weighted : Bool) (op : MergeOp) :
    Spec.HIndist (fun _ => True) (Graph.fromHypergraphStar weighted op s).2 s := by
  obtain ⟨_, h1, h2⟩ := Graph.reads_star weighted op s hs.inv.2
  exact Hyper.indist_of_raw h1 h2 hs.inv.2

example : Hyper.Built Hyper.AnyH true exH := exH_built

/-- C41 is false for hypergraphs without any group: the star expansion raises. -/
theorem C41_star_empty_false :
    ¬ ∀ (s : HSt ℝ) (weighted : Bool) (op : MergeOp), Hyper.Built Hyper.Proper true s → op ≠ .other →
      ∃ r, (Graph.fromHypergraphStar weighted op s).1 = .ok r := by
  intro h
  obtain ⟨g, hg⟩ := h exHe true .sum exHe_proper (by decide)
  rw [show (Graph.fromHypergraphStar true .sum exHe).1 = .error .runtime from rfl] at hg
  cases hg

/-! ## C41, bipartite graph -/

/-- C41. `BiGraph.from_hypergraph`: the pairs are exactly the incidences in the chosen orientation,
with the weight of the hyperedge (1 when not weighted).  Missing: `vertex_as_U` for hypergraphs without
hyperedges (see `C41_bigraph_empty_false`). -/
theorem C41_bigraph_partial [IsStrictOrderedRing K] {s : HSt K} (hs : Hyper.Built Hyper.Proper b s)
    {n : Nat} (hn : (Hyper.ask .numV s).1 = .ok (.num n)) (vertexAsU weighted : Bool)
    (h0 : vertexAsU = false ∨ Spec.hListing s none ≠ []) :
    ∃ g, (BiGraph.fromHypergraph vertexAsU weighted s).1 = .ok g ∧
      (BiGraph.ask .numU g).1 = .ok (.num (if vertexAsU then n else (Spec.hListing s none).length)) ∧
      (BiGraph.ask .numV g).1 = .ok (.num (if vertexAsU then (Spec.hListing s none).length else n)) ∧
      ∀ (x y : Int) (w : K), ((x, y), w) ∈ Spec.listingB g ↔
        ∃ (v : Int) (j : Nat), j < (Spec.hListing s none).length ∧ v ∈ Spec.hAt (Spec.hListing s none) j ∧
          (if vertexAsU then x = v ∧ y = j else x = j ∧ y = v) ∧
          w = if weighted then Spec.hWt (Spec.hListing s none) j else 1 := by
  have hs' := hs.mono (Q := Hyper.AnyH) fun _ _ _ => trivial
  obtain ⟨hi, hc⟩ := hs'.inv
  rw [Hy.listing_eq hs'] at h0 ⊢
  rw [← Hy.numV_eq hn]
  obtain ⟨g, hg, hB, h1, h2, h3, hl⟩ := BiGraph.fromListing_spec (K := K) (vertexAsU := vertexAsU)
    (weighted := weighted) (Hyper.lst_rng hi hs.inRange none) hi.pos h0
  refine ⟨g, ?_, ?_, ?_, ?_⟩
  · rw [(BiGraph.reads_fromH vertexAsU weighted s hc).1, BiGraph.evFromH_eq hi, hg]
  · rw [← h1]; rfl
  · rw [← h2]; rfl
  · intro x y w
    rw [hl]
    constructor
    · rintro ⟨v, j, hp, hj, hv, rfl⟩
      refine ⟨v, j, hj, hv, ?_, rfl⟩
      unfold BiGraph.orient at hp
      cases vertexAsU <;> simpa using hp
    · rintro ⟨v, j, hj, hv, hp, rfl⟩
      refine ⟨v, j, ?_, hj, hv, rfl⟩
      unfold BiGraph.orient
      cases vertexAsU <;> simpa using hp

example : Hyper.Built Hyper.Proper true exH2 ∧ (Hyper.ask .numV exH2).1 = .ok (.num 2) ∧
    (true = false ∨ Spec.hListing exH2 none ≠ []) := ⟨exH2_proper, rfl, by rw [exH2_listing]; simp⟩

/-- C41. `BiGraph.from_hypergraph` leaves the hypergraph as it was. -/
theorem C41_bigraph_source {s : HSt K} (hs : Hyper.Built Hyper.AnyH true s) (vertexAsU weighted : Bool) :
    Spec.HIndist (fun _ => True) (BiGraph.fromHypergraph vertexAsU weighted s).2 s := by
  obtain ⟨_, h1, h2⟩ := BiGraph.reads_fromH vertexAsU weighted s hs.inv.2
  exact Hyper.indist_of_raw h1 h2 hs.inv.2

example : Hyper.Built Hyper.AnyH true exH := exH_built

/-- C41 is false with `vertex_as_U` for hypergraphs without hyperedges: the constructor refuses a
bipartite graph with `num_v = 0`. -/
theorem C41_bigraph_empty_false :
    ¬ ∀ (s : HSt ℝ) (vertexAsU weighted : Bool), Hyper.Built Hyper.Proper true s →
      ∃ r, (BiGraph.fromHypergraph vertexAsU weighted s).1 = .ok r := by
  intro h
  obtain ⟨g, hg⟩ := h exHe true true exHe_proper
  rw [show (BiGraph.fromHypergraph true true exHe).1 = .error .assertion from rfl] at hg
  cases hg

/-- C41. `Hypergraph.from_bigraph`: the hyperedges are the non-empty neighbourhoods of the vertices of
the other side, merged when equal, all with weight 1 and in the group `main`; the bipartite graph is
left as it was.  `U_as_vertex`: the vertices are those of `U`, each vertex of `V` gives a hyperedge.
The condition on the flag of extra self loops is the one under which the incidence matrix exists. -/
theorem C41_from_bigraph [IsStrictOrderedRing K] {g : BSt K} (hg : BiGraph.Built Graph.NonNeg g)
    {m n : Nat} (hm : (BiGraph.ask .numU g).1 = .ok (.num m)) (hn : (BiGraph.ask .numV g).1 = .ok (.num n))
    (hx : Spec.Bipartite m n g) (uAsVertex : Bool) (hpos : 0 < if uAsVertex then m else n) :
    (∃ h, (Hyper.fromBigraph uAsVertex g).1 = .ok h ∧
      (Hyper.ask .numV h).1 = .ok (.num (if uAsVertex then m else n)) ∧
      ∀ gr e w, Spec.HListed h gr e w ↔ gr = "main" ∧ w = 1 ∧ e ≠ 0 ∧ e.Nodup ∧
        ∃ i : Nat, i < (if uAsVertex then n else m) ∧ ∀ x : Int, x ∈ e ↔
          ∃ w', ((if uAsVertex then (x, (i : Int)) else ((i : Int), x)), w') ∈ Spec.listingB g) ∧
    Spec.IndistB (Hyper.fromBigraph uAsVertex g).2 g := by
  have hn' := Bi.numV_eq hn
  have hm' := Bi.numU_eq hm
  subst hn' hm'
  obtain ⟨r1, r2, r3⟩ := Hyper.reads_fromBi uAsVertex g hg.coh
  refine ⟨?_, Bi.indist_of_raw r3 hg.coh r2⟩
  obtain ⟨es, h1, h2⟩ := Hyper.evBigraphList_spec (Bi.fits hg hx) uAsVertex
  have hnum : Hyper.sideNum (!uAsVertex) g.raw = if uAsVertex then g.raw.numU else g.raw.numV := by
    unfold Hyper.sideNum; cases uAsVertex <;> rfl
  have hnum' : Hyper.sideNum uAsVertex g.raw = if uAsVertex then g.raw.numV else g.raw.numU := by
    unfold Hyper.sideNum; cases uAsVertex <;> rfl
  rw [← hnum] at hpos
  have hok := Hyper.new_list_ok (K := K) (n := Hyper.sideNum (!uAsVertex) g.raw) (es := es) (ew := .none)
    (ws := List.replicate es.length 1) hpos rfl (by simp)
  have hpos' : ∀ (x : Int) (i : Nat) w', (Hyper.sidePair uAsVertex x i, w') ∈ Graph.lst g.raw → 0 ≤ x := by
    intro x i w' hw
    have := (Bi.fits hg hx) _ hw
    unfold Hyper.sidePair at this
    cases uAsVertex <;> simp at this <;> omega
  refine ⟨_, ?_, (Hyper.new_list_numV hok).trans (by rw [hnum]), ?_⟩
  · rw [r1]
    unfold Hyper.evFromBi
    rw [h1]
    exact hok
  · intro gr e w
    have hmain := Hyper.new_list_listed hok e w
    have hkey : (∃ l ∈ es, e = (l : Multiset Int)) ↔ e ≠ 0 ∧ e.Nodup ∧
        ∃ i : Nat, i < (if uAsVertex then g.raw.numV else g.raw.numU) ∧ ∀ x : Int, x ∈ e ↔
          ∃ w', ((if uAsVertex then (x, (i : Int)) else ((i : Int), x)), w') ∈ Spec.listingB g := by
      rw [h2, hnum', Bi.listing_lst hg]
      refine and_congr Iff.rfl (and_congr Iff.rfl (exists_congr fun i => and_congr Iff.rfl
        (forall_congr' fun x => ?_)))
      refine iff_congr Iff.rfl ⟨fun h => h.2, fun h => ⟨?_, h⟩⟩
      obtain ⟨w', h⟩ := h
      exact hpos' x i w' h
    constructor
    · intro h
      obtain rfl := Hyper.new_list_group hok h
      obtain ⟨h3, h4⟩ := hmain.1 h
      exact ⟨rfl, h3, hkey.1 h4⟩
    · rintro ⟨rfl, h3, h4⟩
      exact hmain.2 ⟨h3, hkey.2 h4⟩

example : BiGraph.Built Graph.NonNeg exB ∧ (BiGraph.ask .numU exB).1 = .ok (.num 2) ∧
    (BiGraph.ask .numV exB).1 = .ok (.num 3) ∧ Spec.Bipartite 2 3 exB ∧
    0 < (if true then 2 else 3) := ⟨exB_nonneg, rfl, rfl, exB_flag, by simp⟩

/-- C41. Round trip: `from_bigraph` of the bipartite graph of a hypergraph has the same vertices and
exactly its non-empty hyperedges (of all groups), each once, in the group `main`, with weight 1.
Missing: empty hyperedges and the weights, which `from_bigraph` does not carry, and `vertex_as_U` for
hypergraphs without hyperedges. -/
theorem C41_roundtrip_partial [IsStrictOrderedRing K] {s : HSt K} (hs : Hyper.Built Hyper.Proper b s)
    {n : Nat} (hn : (Hyper.ask .numV s).1 = .ok (.num n)) (vertexAsU weighted : Bool)
    (h0 : vertexAsU = false ∨ Spec.hListing s none ≠ []) :
    ∃ g h, (BiGraph.fromHypergraph vertexAsU weighted s).1 = .ok g ∧
      (Hyper.fromBigraph vertexAsU g).1 = .ok h ∧ (Hyper.ask .numV h).1 = .ok (.num n) ∧
      ∀ gr e w, Spec.HListed h gr e w ↔
        gr = "main" ∧ w = 1 ∧ e ≠ 0 ∧ ∃ p ∈ Spec.hListing s none, e = (p.1 : Multiset Int) := by
  have hs' := hs.mono (Q := Hyper.AnyH) fun _ _ _ => trivial
  obtain ⟨hi, hc⟩ := hs'.inv
  rw [Hy.listing_eq hs'] at h0 ⊢
  rw [← Hy.numV_eq hn]
  have hrng := Hyper.lst_rng hi hs.inRange none
  obtain ⟨g, hg, hB, h1, h2, h3, hl⟩ := BiGraph.fromListing_spec (K := K) (vertexAsU := vertexAsU)
    (weighted := weighted) hrng hi.pos h0
  obtain ⟨⟨h, k1, k2, k3⟩, _⟩ := C41_from_bigraph hB (m := g.raw.numU) (n := g.raw.numV) rfl rfl (Bi.bipartite_of_flag hB (.inl h3))
    vertexAsU (by have := hi.pos; rw [h1, h2]; cases vertexAsU <;> simpa using this)
  refine ⟨g, h, ?_, k1, ?_, ?_⟩
  · rw [(BiGraph.reads_fromH vertexAsU weighted s hc).1, BiGraph.evFromH_eq hi, hg]
  · rw [k2, h1, h2]; cases vertexAsU <;> rfl
  · intro gr e w
    rw [k3]
    refine and_congr Iff.rfl (and_congr Iff.rfl (and_congr Iff.rfl ?_))
    have hcount : (if vertexAsU then g.raw.numV else g.raw.numU) = (Hyper.lstOf none s.raw).length := by
      rw [h1, h2]; cases vertexAsU <;> rfl
    have hmem : ∀ (i : Nat) (x : Int), i < (Hyper.lstOf none s.raw).length →
        ((∃ w', ((if vertexAsU then (x, (i : Int)) else ((i : Int), x)), w') ∈ Spec.listingB g) ↔
          x ∈ Spec.hAt (Hyper.lstOf none s.raw) i) := by
      intro i x hi'
      have ho : (if vertexAsU then (x, (i : Int)) else ((i : Int), x)) = BiGraph.orient vertexAsU x i := rfl
      rw [ho]
      constructor
      · rintro ⟨w', hw⟩
        obtain ⟨v, j, e1, _, e3, _⟩ := (hl _ _).1 hw
        obtain ⟨rfl, rfl⟩ := BiGraph.orient_inj.1 e1
        exact e3
      · intro hx
        exact ⟨_, (hl _ _).2 ⟨x, i, rfl, hi', hx, rfl⟩⟩
    rw [hcount]
    constructor
    · rintro ⟨hnd, i, hi', hx⟩
      refine ⟨(Hyper.lstOf none s.raw)[i], List.getElem_mem hi', ?_⟩
      rw [Hyper.coe_eq_iff (hrng _ (List.getElem_mem hi')).1]
      refine ⟨hnd, fun x => ?_⟩
      rw [hx, hmem i x hi', Hyper.hAt_of_lt hi']
    · rintro ⟨p, hp, rfl⟩
      obtain ⟨i, hi', rfl⟩ := List.getElem_of_mem hp
      refine ⟨Multiset.coe_nodup.2 (hrng _ hp).1, i, hi', fun x => ?_⟩
      rw [hmem i x hi', Hyper.hAt_of_lt hi']
      simp

example : Hyper.Built Hyper.Proper true exH2 ∧ (Hyper.ask .numV exH2).1 = .ok (.num 2) ∧
    (true = false ∨ Spec.hListing exH2 none ≠ []) := ⟨exH2_proper, rfl, by rw [exH2_listing]; simp⟩

/-! ## C44 -/

/-- C44. HyperGCN expansion: with extreme vertices `A e`, `B e` of each hyperedge `e`, the edges are
`{A e, B e}` with weight `1/|e|` summed over hyperedges, or, with mediators, the edges from both extremes
to every other vertex of the hyperedge with weight `1/(2|e|-3)`, summed; without self loops when they
are removed.  Missing: hyperedges with fewer than two vertices (`C44_hypergcn_single_false`), and, when
self loops are removed, hypergraphs without hyperedges or, with mediators, without hyperedges of three
vertices (`C44_hypergcn_pair_false`). -/
theorem C44_hypergcn_partial [IsStrictOrderedRing K] {s : HSt K} (hs : Hyper.Built Hyper.Proper b s)
    {n : Nat} (hn : (Hyper.ask .numV s).1 = .ok (.num n)) {X : Dense K} (hX : X.rows = n)
    (h2 : ∀ e ∈ Spec.hListing s none, 2 ≤ e.1.length) (mediator removeLoop : Bool) (rv : Nat → K)
    (hne : removeLoop = true → ∃ e ∈ Spec.hListing s none, mediator = false ∨ 3 ≤ e.1.length) :
    ∃ A B g, Spec.Extremes (Spec.hListing s none) (Spec.proj X rv) A B ∧
      (Graph.fromHypergraphHypergcn X mediator removeLoop rv s).1 = .ok g ∧
      (Graph.ask .numV g).1 = .ok (.num n) ∧ Graph.Built Graph.NonNeg g ∧
      ∀ (x y : Int) (w : K), Spec.Listed g x y w ↔
        (removeLoop = true → x ≠ y) ∧
        (if mediator then ∃ e ∈ Spec.hListing s none, ∃ m ∈ Spec.mediators A B e.1,
            Spec.SamePair (A e.1) m x y ∨ Spec.SamePair (B e.1) m x y
          else ∃ e ∈ Spec.hListing s none, Spec.SamePair (A e.1) (B e.1) x y) ∧
        w = if mediator then Spec.mediatorWt (Spec.hListing s none) A B x y
          else Spec.plainWt (Spec.hListing s none) A B x y := by
  have hs' := hs.mono (Q := Hyper.AnyH) fun _ _ _ => trivial
  obtain ⟨hi, hc⟩ := hs'.inv
  rw [Hy.listing_eq hs'] at h2 hne ⊢
  rw [← Hy.numV_eq hn] at hX ⊢
  have hrng := Hyper.lst_rng hi hs.inRange none
  have hne' : ∀ e ∈ Hyper.lstOf none s.raw, e.1 ≠ [] := by
    intro e he h0
    have := h2 e he
    rw [h0] at this
    simp at this
  have hext : Spec.Extremes (Hyper.lstOf none s.raw) (Spec.proj X rv) (Graph.pickA X rv) (Graph.pickB X rv) :=
    fun e he => (Graph.pick_spec X rv (hne' e he)).2
  obtain ⟨L, hL, g, hg, hbg, hl⟩ := Graph.gcn_listed (K := K) hi.pos hrng
    (fun e he => ⟨(hext e he).1, (hext e he).2.1⟩) mediator removeLoop (by
      intro hr
      obtain ⟨e, he, hm⟩ := hne hr
      intro h0
      have h3 : Graph.contrib (K := K) mediator (Graph.pickA X rv) (Graph.pickB X rv) e.1 = [] := by
        by_contra hc'
        obtain ⟨x, hx⟩ := List.exists_mem_of_ne_nil _ hc'
        have : x ∈ ((Hyper.lstOf none s.raw).map fun e =>
            Graph.contrib (K := K) mediator (Graph.pickA X rv) (Graph.pickB X rv) e.1).flatten :=
          List.mem_flatten.2 ⟨_, List.mem_map_of_mem he, hx⟩
        rw [h0] at this
        cases this
      unfold Graph.contrib at h3
      rcases hm with hm | hm
      · rw [if_neg (by simp [hm])] at h3
        cases h3
      · cases mediator with
        | false => simp at h3
        | true =>
          rw [if_pos rfl] at h3
          have hmed : Spec.mediators (Graph.pickA X rv) (Graph.pickB X rv) e.1 = [] := by
            by_contra hc'
            obtain ⟨x, hx⟩ := List.exists_mem_of_ne_nil _ hc'
            rw [List.flatMap_eq_nil_iff] at h3
            exact absurd (h3 x hx) (by simp)
          have hsub : e.1 ⊆ [Graph.pickA X rv e.1, Graph.pickB X rv e.1] := by
            intro v hv
            by_contra hv'
            have : v ∈ Spec.mediators (Graph.pickA X rv) (Graph.pickB X rv) e.1 := by
              unfold Spec.mediators
              simp only [List.mem_cons, List.not_mem_nil, or_false, not_or] at hv'
              exact List.mem_filter.2 ⟨hv, by simpa using hv'⟩
            rw [hmed] at this
            cases this
          have := (List.Nodup.subperm (hrng e he).1 hsub).length_le
          simp at this
          omega)
  refine ⟨Graph.pickA X rv, Graph.pickB X rv, g, hext, ?_, Graph.new_numV hg, hbg, hl⟩
  rw [(Graph.reads_gcn X mediator removeLoop rv s hc).1]
  unfold Graph.evGcn
  rw [if_pos hX.symm, Hyper.evE_spec hi (.inr rfl)]
  simp only [bind, Except.bind]
  rw [collectE_ok (g := Graph.contrib (K := K) mediator (Graph.pickA X rv) (Graph.pickB X rv)) (by
    intro e he
    obtain ⟨p, hp, rfl⟩ := List.mem_map.1 he
    exact Graph.gcnHyperedge_eq hX rv mediator (h2 p hp) (hrng p hp).1 (hrng p hp).2)]
  simp only [List.map_map]
  have : ((fun e => Graph.contrib (K := K) mediator (Graph.pickA X rv) (Graph.pickB X rv) e) ∘ Prod.fst) =
    fun e : List Int × K => Graph.contrib (K := K) mediator (Graph.pickA X rv) (Graph.pickB X rv) e.1 := rfl
  rw [this, hL]
  exact hg

/-- example features: vertex `i` has the feature `i` -/
noncomputable def exX (n : Nat) : Dense ℝ := { rows := n, cols := 1, at_ := fun i _ => i }

theorem exH_ge2 : ∀ e ∈ Spec.hListing exH2 none, 2 ≤ e.1.length := by
  rw [exH2_listing]; simp

example : Hyper.Built Hyper.Proper true exH2 ∧ (Hyper.ask .numV exH2).1 = .ok (.num 2) ∧
    (exX 2).rows = 2 ∧ (∀ e ∈ Spec.hListing exH2 none, 2 ≤ e.1.length) ∧
    ∃ e ∈ Spec.hListing exH2 none, false = false ∨ 3 ≤ e.1.length :=
  ⟨exH2_proper, rfl, rfl, exH_ge2, by rw [exH2_listing]; simp⟩

/-- C44. Every hyperedge whose vertices do not all have the same projection (and, with mediators, that
has at least three vertices) contributes an edge that is not a self loop, between two of its vertices,
with positive weight.  Missing: hyperedges of one vertex, of two vertices with mediators, or with equal
projections. -/
theorem C44_hypergcn_contributes_partial [IsStrictOrderedRing K] {s : HSt K}
    (hs : Hyper.Built Hyper.Proper b s)
    {n : Nat} (hn : (Hyper.ask .numV s).1 = .ok (.num n)) {X : Dense K} (hX : X.rows = n)
    (h2 : ∀ e ∈ Spec.hListing s none, 2 ≤ e.1.length) (mediator removeLoop : Bool) (rv : Nat → K)
    {e : List Int × K} (he : e ∈ Spec.hListing s none) (hm : mediator = false ∨ 3 ≤ e.1.length)
    {u v : Int} (hu : u ∈ e.1) (hv : v ∈ e.1) (huv : Spec.proj X rv u ≠ Spec.proj X rv v) :
    ∃ g, (Graph.fromHypergraphHypergcn X mediator removeLoop rv s).1 = .ok g ∧
      ∃ x y w, x ≠ y ∧ x ∈ e.1 ∧ y ∈ e.1 ∧ 0 < w ∧ Spec.Listed g x y w := by
  obtain ⟨A, B, g, hE, hg, _, _, hl⟩ := C44_hypergcn_partial hs hn hX h2 mediator removeLoop rv
    (fun _ => ⟨e, he, hm⟩)
  refine ⟨g, hg, ?_⟩
  obtain ⟨hA, hB, hAB⟩ := hE e he
  have hne : A e.1 ≠ B e.1 := by
    intro h
    have h1 := hAB u hu
    have h3 := hAB v hv
    rw [h] at h1 h3
    exact huv ((le_antisymm h1.1 h1.2).trans (le_antisymm h3.1 h3.2).symm)
  have hs' := hs.mono (Q := Hyper.AnyH) fun _ _ _ => trivial
  cases mediator with
  | false =>
    refine ⟨A e.1, B e.1, Spec.plainWt (Spec.hListing s none) A B (A e.1) (B e.1), hne, hA, hB, ?_,
      (hl _ _ _).2 ⟨fun _ => hne, by rw [if_neg (by simp)]; exact ⟨e, he, .inl ⟨rfl, rfl⟩⟩, by simp⟩⟩
    refine lt_of_lt_of_le ?_ (List.single_le_sum ?_ _ (List.mem_map_of_mem he))
    · rw [if_pos (.inl ⟨rfl, rfl⟩)]
      have := h2 e he
      exact one_div_pos.2 (by exact_mod_cast (by omega : 0 < e.1.length))
    · intro x hx
      obtain ⟨e', _, rfl⟩ := List.mem_map.1 hx
      split
      · exact div_nonneg zero_le_one (by exact_mod_cast Nat.zero_le _)
      · exact le_refl _
  | true =>
    have h3 : 3 ≤ e.1.length := by rcases hm with hm | hm; cases hm; exact hm
    have hnd : e.1.Nodup := by
      rw [Hy.listing_eq hs'] at he
      exact (Hyper.lst_rng hs'.inv.1 hs.inRange none e he).1
    have hmed : ∃ m, m ∈ Spec.mediators A B e.1 := by
      by_contra hno
      have hsub : e.1 ⊆ [A e.1, B e.1] := by
        intro v hv
        by_contra hv'
        refine hno ⟨v, ?_⟩
        unfold Spec.mediators
        simp only [List.mem_cons, List.not_mem_nil, or_false, not_or] at hv'
        exact List.mem_filter.2 ⟨hv, by simpa using hv'⟩
      have := (List.Nodup.subperm hnd hsub).length_le
      simp at this
      omega
    obtain ⟨m, hmm⟩ := hmed
    have hm1 := List.mem_filter.1 hmm
    have hm2 : m ≠ A e.1 ∧ m ≠ B e.1 := by simpa using hm1.2
    refine ⟨A e.1, m, Spec.mediatorWt (Spec.hListing s none) A B (A e.1) m, hm2.1.symm, hA, hm1.1, ?_,
      (hl _ _ _).2 ⟨fun _ => hm2.1.symm, by rw [if_pos rfl]; exact ⟨e, he, m, hmm, .inl (.inl ⟨rfl, rfl⟩)⟩,
        by simp⟩⟩
    have hpos : ∀ e' ∈ Spec.hListing s none, (0 : K) < 1 / (2 * (e'.1.length : K) - 3) := by
      intro e' he'
      have : (2 : K) ≤ (e'.1.length : K) := by exact_mod_cast h2 e' he'
      exact one_div_pos.2 (by linarith)
    have hnn : ∀ e' ∈ Spec.hListing s none, ∀ (q : Prop) [Decidable q],
        (0 : K) ≤ if q then 1 / (2 * (e'.1.length : K) - 3) else 0 := by
      intro e' he' q _
      split
      · exact (hpos e' he').le
      · exact le_refl _
    refine lt_of_lt_of_le ?_ (List.single_le_sum ?_ _ (List.mem_map_of_mem he))
    · refine lt_of_lt_of_le ?_ (List.single_le_sum ?_ _ (List.mem_map_of_mem hmm))
      · rw [if_pos (.inl ⟨rfl, rfl⟩)]
        exact add_pos_of_pos_of_nonneg (hpos e he) (hnn e he _)
      · intro x hx
        obtain ⟨m', _, rfl⟩ := List.mem_map.1 hx
        exact add_nonneg (hnn e he _) (hnn e he _)
    · intro x hx
      obtain ⟨e', he', rfl⟩ := List.mem_map.1 hx
      refine List.sum_nonneg ?_
      intro x hx
      obtain ⟨m', _, rfl⟩ := List.mem_map.1 hx
      exact add_nonneg (hnn e' he' _) (hnn e' he' _)

example : Hyper.Built Hyper.Proper true exH2 ∧ (Hyper.ask .numV exH2).1 = .ok (.num 2) ∧
    (exX 2).rows = 2 ∧ (∀ e ∈ Spec.hListing exH2 none, 2 ≤ e.1.length) ∧
    (([0, 1], 1) : List Int × ℝ) ∈ Spec.hListing exH2 none ∧
    Spec.proj (exX 2) (fun _ => 1) 0 ≠ Spec.proj (exX 2) (fun _ => 1) 1 :=
  ⟨exH2_proper, rfl, rfl, exH_ge2, by rw [exH2_listing]; simp, by simp [Spec.proj, exX]⟩

/-- C44. The HyperGCN expansion leaves the hypergraph as it was. -/
theorem C44_hypergcn_source {s : HSt K} (hs : Hyper.Built Hyper.AnyH true s) (X : Dense K)
    (mediator removeLoop : Bool) (rv : Nat → K) :
    Spec.HIndist (fun _ => True) (Graph.fromHypergraphHypergcn X mediator removeLoop rv s).2 s := by
  obtain ⟨_, h1, h2⟩ := Graph.reads_gcn X mediator removeLoop rv s hs.inv.2
  exact Hyper.indist_of_raw h1 h2 hs.inv.2

example : Hyper.Built Hyper.AnyH true exH := exH_built

/-- C44 is false with mediators and removal of self loops when all hyperedges have two vertices: no
edge is collected and the expansion raises. -/
theorem C44_hypergcn_pair_false :
    ¬ ∀ (s : HSt ℝ) (X : Dense ℝ) (rv : Nat → ℝ), Hyper.Built Hyper.Proper true s →
      (∀ e ∈ Spec.hListing s none, 2 ≤ e.1.length) → (Hyper.ask .numV s).1 = .ok (.num X.rows) →
      ∃ g, (Graph.fromHypergraphHypergcn X true true rv s).1 = .ok g := by
  intro h
  obtain ⟨g, hg⟩ := h exH2 (exX 2) (fun _ => 1) exH2_proper exH_ge2 rfl
  rw [(Graph.reads_gcn (exX 2) true true (fun _ => 1) exH2 (exH2_proper.mono (Q := Hyper.AnyH) fun _ _ _ => trivial).inv.2).1] at hg
  have h1 : Graph.gcnHyperedge (exX 2) (fun _ => 1) true [0, 1] = .ok [] := by
    rw [Graph.gcnHyperedge_eq (n := 2) rfl _ _ (by simp) (by simp) (by simp)]
    have hA : Graph.pickA (exX 2) (fun _ => 1) [0, 1] = 1 := by
      simp [Graph.pickA, Graph.argmax, Graph.argmaxFrom, Graph.project, exX]
    have hB : Graph.pickB (exX 2) (fun _ => 1) [0, 1] = 0 := by
      have h10 : ¬ (1 : ℝ) < 0 := by norm_num
      simp [Graph.pickB, Graph.argmin, Graph.argmax, Graph.argmaxFrom, Graph.project, exX, h10]
    simp [Graph.contrib, Spec.mediators, hA, hB]
  have h2 : Graph.evGcn (exX 2) true true (fun _ => 1) exH2.raw = .error .index := by
    unfold Graph.evGcn
    rw [if_pos (show exH2.raw.numV = (exX 2).rows from rfl), show Hyper.evE none exH2.raw = .ok ([[0, 1]], [1]) from rfl]
    simp only [bind, Except.bind, collectE, h1]
    rfl
  rw [h2] at hg
  cases hg

/-- C44 is false for hyperedges whose vertices all have the same projection: both extremes are the
same vertex, so the hyperedge contributes no edge. -/
theorem C44_hypergcn_tie_false :
    ¬ ∀ (s : HSt ℝ) (X : Dense ℝ) (rv : Nat → ℝ) (g : GSt ℝ), Hyper.Built Hyper.Proper true s →
      (Graph.fromHypergraphHypergcn X false true rv s).1 = .ok g →
      ∀ e ∈ Spec.hListing s none, 2 ≤ e.1.length → ∃ x y w, x ∈ e.1 ∧ y ∈ e.1 ∧ Spec.Listed g x y w := by
  intro h
  have h1 : Graph.gcnHyperedge (exX 2) (fun _ => 0) false [0, 1] = .ok [((0, 0), 1 / 2)] := by
    rw [Graph.gcnHyperedge_eq (n := 2) rfl _ _ (by simp) (by simp) (by simp)]
    have hA : Graph.pickA (exX 2) (fun _ => 0) [0, 1] = 0 := by
      simp [Graph.pickA, Graph.argmax, Graph.argmaxFrom, Graph.project, exX]
    have hB : Graph.pickB (exX 2) (fun _ => 0) [0, 1] = 0 := by
      simp [Graph.pickB, Graph.argmin, Graph.argmax, Graph.argmaxFrom, Graph.project, exX]
    simp [Graph.contrib, hA, hB]
  have h2 : Graph.evGcn (exX 2) false true (fun _ => 0) exH2.raw =
      Graph.new 2 (some (.many [] (.list []))) false .sum := by
    unfold Graph.evGcn
    rw [if_pos (show exH2.raw.numV = (exX 2).rows from rfl), show Hyper.evE none exH2.raw = .ok ([[0, 1]], [1]) from rfl]
    simp only [bind, Except.bind, collectE, h1]
    simp [Graph.gcnFilter]
    rfl
  obtain ⟨g, hg⟩ := Graph.new_many_ok (K := ℝ) (n := 2) (es := []) (ws := .list []) (by simp) (by simp)
    (extra := false) (op := .sum) (.inr rfl) (by simp)
  have h3 : (Graph.fromHypergraphHypergcn (exX 2) false true (fun _ => 0) exH2).1 = .ok g := by
    rw [(Graph.reads_gcn (exX 2) false true (fun _ => 0) exH2 (exH2_proper.mono (Q := Hyper.AnyH) fun _ _ _ => trivial).inv.2).1, h2]
    exact hg
  obtain ⟨x, y, w, _, _, hl⟩ := h exH2 (exX 2) (fun _ => 0) g exH2_proper h3 ([0, 1], 1)
    (by rw [exH2_listing]; simp) (by simp)
  rw [Graph.new_many_listed (n := 2) (es := []) (by simp) (by simp) (by simp) hg] at hl
  simp [Graph.entsOf] at hl

/-- C44 is false for hyperedges with a single vertex: the expansion raises. -/
theorem C44_hypergcn_single_false :
    ¬ ∀ (s : HSt ℝ) (X : Dense ℝ) (rv : Nat → ℝ), Hyper.Built Hyper.Proper true s →
      (Hyper.ask .numV s).1 = .ok (.num X.rows) →
      ∃ g, (Graph.fromHypergraphHypergcn X false false rv s).1 = .ok g := by
  intro h
  obtain ⟨g, hg⟩ := h exH1 (exX 2) (fun _ => 1) exH1_proper rfl
  rw [show (Graph.fromHypergraphHypergcn (exX 2) false false (fun _ => (1 : ℝ)) exH1).1 =
    .error .assertion from rfl] at hg
  cases hg

end Props
end DHG
