import Verif.Props.ConvertGraphs

/-!
# Hypergraphs made from graphs, bipartite graphs and features

`Spec.HListed h gr e w` says that reading group `gr` of `h` shows the hyperedge `e` (as a multiset of
vertices) with weight `w`.
-/

set_option linter.unusedSectionVars false
set_option autoImplicit false

namespace DHG

namespace Spec

/-- `u` is in the `k`-hop hyperedge of `v`: it is `v` or the end of a walk from `v` of 1 to `k` edges
(of exactly `k` edges when `only`) -/
def InHop (R : Nat → Nat → Prop) (only : Bool) (k v : Nat) (u : Int) : Prop :=
  u = v ∨ ∃ (j t : Nat), u = j ∧ 1 ≤ t ∧ t ≤ k ∧ (only = true → t = k) ∧ Walk R t v j

/-- `topk d` are `k` distinct rows with the smallest values of `d` (`torch.topk(d, k, largest=False)`) -/
def IsTopk {K : Type} [LE K] (rows k : Nat) (topk : (Nat → K) → List Nat) : Prop :=
  ∀ d, (topk d).length = k ∧ (topk d).Nodup ∧ (∀ j ∈ topk d, j < rows) ∧
    ∀ j ∈ topk d, ∀ i, i < rows → i ∉ topk d → d j ≤ d i

end Spec

namespace Props

variable {K : Type} [Field K] [LinearOrder K] [PyReal K] {b : Bool}

/-! ## C43 -/

theorem edgeList_lst (r : GRaw K) : (Graph.lst r).map Prod.fst = r.edgeList := by
  unfold Graph.lst
  rw [List.map_fst_zip]
  rw [Graph.edgeList_length, Graph.edgeWts_length]

/-- C43. `from_graph`: when the listing of `g` has no repeated pair, the hypergraph lists exactly the
same edges in the same order with the same weights.  Missing: graphs with a self loop that is listed
twice, as an added loop and as an extra one (`C43_from_graph_false`). -/
theorem C43_from_graph_partial {g : GSt K} (hg : Graph.Built Graph.AnyArg g) {n : Nat}
    (hn : (Graph.ask .numV g).1 = .ok (.num n)) (hd : ((Spec.listing g).map Prod.fst).Nodup) :
    ∃ h, (Hyper.fromGraph g).1 = .ok h ∧ (Hyper.ask .numV h).1 = .ok (.num n) ∧
      Spec.hListing h (some "main") = (Spec.listing g).map (fun e => ([e.1.1, e.1.2], e.2)) ∧
      ∀ gr e w, Spec.HListed h gr e w → gr = "main" := by
  rw [listing_lst hg] at hd ⊢
  rw [← numV_eq hn]
  rw [edgeList_lst] at hd
  obtain ⟨h, h1, h2, h3⟩ := Hyper.evFromGraph_spec hg.inv.1 hd
  refine ⟨h, by rw [(Hyper.fromGraph_spec hg.inv.1 hg.inv.2).1, h1], ?_, h3, ?_⟩
  · rw [← h2]; rfl
  · intro gr e w hl
    exact Hyper.new_list_group h1 hl

example : Graph.Built Graph.AnyArg exG ∧ (Graph.ask .numV exG).1 = .ok (.num 3) ∧
    ((Spec.listing exG).map Prod.fst).Nodup :=
  ⟨exG_built, rfl, by
    have : (Spec.listing exG).map Prod.fst = [(0, 1), (1, 2), (2, 2)] := rfl
    rw [this]; decide⟩

/-- C43. For every graph the hyperedges are exactly the listed pairs. -/
theorem C43_from_graph_edges {g : GSt K} (hg : Graph.Built Graph.AnyArg g) :
    ∃ h, (Hyper.fromGraph g).1 = .ok h ∧ ∀ gr e, (∃ w, Spec.HListed h gr e w) ↔
      gr = "main" ∧ ∃ p ∈ Spec.listing g, e = {p.1.1, p.1.2} := by
  rw [listing_lst hg]
  have hi := hg.inv.1
  have hlen : g.raw.edgeList.length = g.raw.edgeWts.length := by
    rw [Graph.edgeList_length, Graph.edgeWts_length]
  have hok := Hyper.new_list_ok (K := K) (n := g.raw.numV)
    (es := g.raw.edgeList.map fun e => [e.1, e.2])
    (ew := .list g.raw.edgeWts) (ws := g.raw.edgeWts) hi.pos rfl (by simpa using hlen)
  refine ⟨_, (Hyper.fromGraph_spec hg.inv.1 hg.inv.2).1.trans hok, fun gr e => ?_⟩
  have hk := Hyper.new_list_keys (ws := g.raw.edgeWts) (by simp [Spec.hWeights, hlen]) (by simpa using hlen) hok e
  have : (∃ l ∈ g.raw.edgeList.map (fun e => [e.1, e.2]), e = (l : Multiset Int)) ↔
      ∃ p ∈ Graph.lst g.raw, e = {p.1.1, p.1.2} := by
    rw [← edgeList_lst]
    simp only [List.mem_map]
    constructor
    · rintro ⟨_, ⟨_, ⟨p, hp, rfl⟩, rfl⟩, rfl⟩
      exact ⟨p, hp, rfl⟩
    · rintro ⟨p, hp, rfl⟩
      exact ⟨_, ⟨_, ⟨p, hp, rfl⟩, rfl⟩, rfl⟩
  rw [← this]
  constructor
  · rintro ⟨w, hw⟩
    obtain rfl := Hyper.new_list_group hok hw
    exact ⟨rfl, hk.1 ⟨w, hw⟩⟩
  · rintro ⟨rfl, h⟩
    exact hk.2 h

example : Graph.Built Graph.AnyArg exG := exG_built

/-- C43. `g` answers all reads after `from_graph(g)` as before, also after further calls. -/
theorem C43_from_graph_source {g : GSt K} (hg : Graph.Built Graph.AnyArg g) :
    Spec.Indist g (Hyper.fromGraph g).2 := by
  obtain ⟨_, h1, h2⟩ := Hyper.fromGraph_spec hg.inv.1 hg.inv.2
  exact hg.indist h2 h1.symm

example : Graph.Built Graph.AnyArg exG := exG_built

/-- `exG` with extra self loops -/
noncomputable def exGx : GSt ℝ := (Graph.apply .addExtraSelfloop exG).2

theorem exGx_built : Graph.Built Graph.AnyArg exGx := Graph.Built.op .addExtraSelfloop exG_built (by simp)

/-- C43 is false for graphs with a self loop and extra self loops: vertex 2 has the listed loops of
weight 7 and 1, the hypergraph has one with weight 4. -/
theorem C43_from_graph_false :
    ¬ ∀ (g : GSt ℝ) (h : HSt ℝ), Graph.Built Graph.AnyArg g → (Hyper.fromGraph g).1 = .ok h →
      ∀ p w, (p, w) ∈ Spec.listing g → Spec.HListed h "main" {p.1, p.2} w := by
  intro h
  have h1 : (Hyper.fromGraph exGx).1 = .ok ⟨⟨3, some [1, 1, 1], [("main", [([0, 1], 2), ([1, 2], 3), ([2, 2], (7 + 1) / 2),
      ([0, 0], 1), ([1, 1], 1)])]⟩, []⟩ := rfl
  obtain ⟨l, hl, hm⟩ := h exGx _ exGx_built h1 (2, 2) 7 (by
    have : Spec.listing exGx = [((0, 1), 2), ((1, 2), 3), ((2, 2), 7), ((0, 0), 1), ((1, 1), 1), ((2, 2), 1)] := rfl
    rw [this]; simp)
  have h2 : Spec.hListing (K := ℝ) ⟨⟨3, some [1, 1, 1], [("main", [([0, 1], 2), ([1, 2], 3), ([2, 2], (7 + 1) / 2),
      ([0, 0], 1), ([1, 1], 1)])]⟩, []⟩ (some "main") =
      [([0, 1], 2), ([1, 2], 3), ([2, 2], (7 + 1) / 2), ([0, 0], 1), ([1, 1], 1)] := rfl
  rw [h2] at hm
  simp only [List.mem_cons, Prod.mk.injEq, List.not_mem_nil, or_false] at hm
  norm_num at hm

/-- C43. `add_hyperedges_from_graph` is `add_hyperedges` of the listed edges with their weights; it
needs as many vertices, leaves the other groups alone and keeps the hyperedges of its group. -/
theorem C43_add_from_graph {s : HSt K} (hs : Hyper.Built Hyper.AnyH b s) {g : GSt K}
    (hg : Graph.Built Graph.AnyArg g) {n : Nat} (hn : (Hyper.ask .numV s).1 = .ok (.num n))
    (hn' : (Graph.ask .numV g).1 = .ok (.num n)) (gr : String) :
    (Hyper.addFromGraph gr (s, g)).1 = .ok () ∧
    (Hyper.addFromGraph gr (s, g)).2.1 =
      (Hyper.addHyperedges (.many false ((Spec.listing g).map fun e => ⟨true, [e.1.1, e.1.2]⟩))
        (.list ((Spec.listing g).map Prod.snd)) .mean gr s).2 ∧
    (∀ gr' e w, gr' ≠ gr → (Spec.HListed (Hyper.addFromGraph gr (s, g)).2.1 gr' e w ↔
      Spec.HListed s gr' e w)) ∧
    (∀ e, (∃ w, Spec.HListed (Hyper.addFromGraph gr (s, g)).2.1 gr e w) ↔
      (∃ w, Spec.HListed s gr e w) ∨ ∃ p ∈ Spec.listing g, e = {p.1.1, p.1.2}) ∧
    Spec.Indist g (Hyper.addFromGraph gr (s, g)).2.2 := by
  rw [listing_lst hg]
  have e1 := Hy.numV_eq hn
  have e2 := numV_eq hn'
  obtain ⟨g2, h1, h2, h3⟩ := Hyper.addFromGraph_eq (s := s) hg.inv.1 hg.inv.2 (e1.trans e2.symm) gr
  have hlen : g.raw.edgeList.length = g.raw.edgeWts.length := by
    rw [Graph.edgeList_length, Graph.edgeWts_length]
  obtain ⟨k1, k2, k3, k4⟩ := Hyper.add_list hs (es := g.raw.edgeList.map fun e => [e.1, e.2])
    (ew := .list g.raw.edgeWts) (ws := g.raw.edgeWts) rfl (by simpa using hlen) gr
  rw [h1]
  refine ⟨k1, ?_, k3, ?_, hg.indist h3 h2.symm⟩
  · have : (Graph.lst g.raw).map Prod.snd = g.raw.edgeWts := by
      unfold Graph.lst; rw [List.map_snd_zip]; rw [hlen]
    rw [this]
    unfold Hyper.listArg
    rw [← edgeList_lst, List.map_map, List.map_map]
    rfl
  · intro e
    rw [k4, ← edgeList_lst]
    simp only [List.mem_map]
    refine or_congr Iff.rfl ?_
    constructor
    · rintro ⟨_, ⟨_, ⟨p, hp, rfl⟩, rfl⟩, rfl⟩
      exact ⟨p, hp, rfl⟩
    · rintro ⟨p, hp, rfl⟩
      exact ⟨_, ⟨_, ⟨p, hp, rfl⟩, rfl⟩, rfl⟩

example : Hyper.Built Hyper.AnyH true exHe ∧ Graph.Built Graph.AnyArg exG ∧
    (Hyper.ask .numV exHe).1 = .ok (.num 3) ∧ (Graph.ask .numV exG).1 = .ok (.num 3) :=
  ⟨exHe_proper.mono fun _ _ _ => trivial, exG_built, rfl, rfl⟩

/-! ## C42 -/

theorem inHop_iff {R : Nat → Nat → Prop} {only : Bool} {k v : Nat} (hk : 1 ≤ k) (u : Int) :
    Spec.InHop R only k v u ↔ u = v ∨ ∃ j : Nat, u = j ∧ Hyper.Reach only R k v j := by
  unfold Spec.InHop Hyper.Reach
  refine or_congr Iff.rfl ⟨?_, ?_⟩
  · rintro ⟨j, t, rfl, h1, h2, h3, hw⟩
    refine ⟨j, rfl, ?_⟩
    cases only with
    | true => rw [if_pos rfl, ← h3 rfl]; exact hw
    | false => rw [if_neg (by simp)]; exact ⟨t, h1, h2, hw⟩
  · rintro ⟨j, rfl, h⟩
    cases only with
    | true => rw [if_pos rfl] at h; exact ⟨j, k, rfl, hk, le_refl _, fun _ => rfl, h⟩
    | false =>
      rw [if_neg (by simp)] at h
      obtain ⟨t, h1, h2, hw⟩ := h
      exact ⟨j, t, rfl, h1, h2, by simp, hw⟩

theorem hop_edges {n : Nat} {R : Nat → Nat → Prop} {M : Sp K} {only : Bool} {k : Nat} (hk : 1 ≤ k)
    (h : Hyper.HasKeys n (Hyper.Reach only R k) M) (e : Multiset Int) :
    (∃ l ∈ (List.range n).map (Hyper.hopList M), e = (l : Multiset Int)) ↔
      e.Nodup ∧ ∃ v < n, ∀ u, u ∈ e ↔ Spec.InHop R only k v u := by
  constructor
  · rintro ⟨l, hl, rfl⟩
    obtain ⟨v, hv, rfl⟩ := List.mem_map.1 hl
    refine ⟨Multiset.coe_nodup.2 (Hyper.hopList_nodup M v), v, List.mem_range.1 hv, fun u => ?_⟩
    rw [Multiset.mem_coe, Hyper.mem_hopList h, inHop_iff hk]
  · rintro ⟨hd, v, hv, hu⟩
    refine ⟨_, List.mem_map_of_mem (List.mem_range.2 hv), ?_⟩
    rw [Hyper.coe_eq_iff (Hyper.hopList_nodup M v)]
    refine ⟨hd, fun u => ?_⟩
    rw [hu, Hyper.mem_hopList h, inHop_iff hk]

/-- C42. `from_graph_kHop`: the hyperedges are, for each vertex `v`, the set of `v` and the ends of all
walks from `v` of 1 to `k` edges (of exactly `k` edges with `only_kHop`), each set once, with weight 1,
in the group `main`; the graph is left as it was. -/
theorem C42_khop [IsStrictOrderedRing K] {g : GSt K} (hg : Graph.Built Graph.NonNeg g) {n : Nat}
    (hn : (Graph.ask .numV g).1 = .ok (.num n)) {k : Nat} (hk : 1 ≤ k) (only : Bool) :
    (∃ h, (Hyper.fromGraphKHop k only g).1 = .ok h ∧ (Hyper.ask .numV h).1 = .ok (.num n) ∧
      ∀ gr e w, Spec.HListed h gr e w ↔ gr = "main" ∧ w = 1 ∧ e.Nodup ∧
        ∃ v < n, ∀ u, u ∈ e ↔ Spec.InHop (Spec.Adj (Spec.listing g)) only k v u) ∧
    Spec.Indist g (Hyper.fromGraphKHop k only g).2 := by
  obtain ⟨r1, r2, r3⟩ := Hyper.reads_kHop k only g hg.inv.2
  refine ⟨?_, hg.indist r3 r2.symm⟩
  rw [listing_lst hg, ← numV_eq hn]
  obtain ⟨M, hM, he⟩ := Hyper.evKHopList_spec hg.inv.1 hg.pos hk only
  have hok := Hyper.new_list_ok (K := K) (n := g.raw.numV)
    (es := (List.range g.raw.numV).map (Hyper.hopList M)) (ew := .none)
    (ws := List.replicate ((List.range g.raw.numV).map (Hyper.hopList M)).length 1) hg.inv.1.pos rfl (by simp)
  refine ⟨_, ?_, Hyper.new_list_numV hok, ?_⟩
  · rw [r1]
    unfold Hyper.evKHop
    rw [he]
    exact hok
  · intro gr e w
    constructor
    · intro h
      obtain rfl := Hyper.new_list_group hok h
      obtain ⟨h3, h4⟩ := (Hyper.new_list_listed hok e w).1 h
      exact ⟨rfl, h3, (hop_edges hk hM e).1 h4⟩
    · rintro ⟨rfl, h3, h4⟩
      exact (Hyper.new_list_listed hok e w).2 ⟨h3, (hop_edges hk hM e).2 h4⟩

example : Graph.Built Graph.NonNeg exG ∧ (Graph.ask .numV exG).1 = .ok (.num 3) ∧ 1 ≤ 2 :=
  ⟨exG_nonneg, rfl, by decide⟩

/-- C42. `k < 1` is refused. -/
theorem C42_khop_refused {g : GSt K} {k : Int} (hk : k < 1) (only : Bool) :
    (Hyper.fromGraphKHop k only g).1 = .error .assertion := by
  have : ¬ 1 ≤ k := by omega
  unfold Hyper.fromGraphKHop Hyper.kHopList
  simp [PyM.bind_apply, PyM.assert, this]

example : (0 : Int) < 1 := by decide

/-- C42. `add_hyperedges_from_graph_kHop` adds exactly these hyperedges to the named group, keeps
what the group had and leaves other groups and the graph alone. -/
theorem C42_add_khop {s : HSt K} (hs : Hyper.Built Hyper.AnyH b s) {g : GSt K}
    (hg : Graph.Built Graph.NonNeg g) {n : Nat} (hn : (Hyper.ask .numV s).1 = .ok (.num n))
    (hn' : (Graph.ask .numV g).1 = .ok (.num n)) {k : Nat} (hk : 1 ≤ k) (only : Bool) (gr : String) :
    (Hyper.addFromGraphKHop k only gr (s, g)).1 = .ok () ∧
    (∀ gr' e w, gr' ≠ gr → (Spec.HListed (Hyper.addFromGraphKHop k only gr (s, g)).2.1 gr' e w ↔
      Spec.HListed s gr' e w)) ∧
    (∀ e, (∃ w, Spec.HListed (Hyper.addFromGraphKHop k only gr (s, g)).2.1 gr e w) ↔
      (∃ w, Spec.HListed s gr e w) ∨ (e.Nodup ∧
        ∃ v < n, ∀ u, u ∈ e ↔ Spec.InHop (Spec.Adj (Spec.listing g)) only k v u)) ∧
    Spec.Indist g (Hyper.addFromGraphKHop k only gr (s, g)).2.2 := by
  obtain ⟨r1, r2, r3⟩ := Hyper.reads_kHopList k only g hg.inv.2
  have e1 := Hy.numV_eq hn
  have e2 := numV_eq hn'
  rw [listing_lst hg, ← e2]
  obtain ⟨M, hM, he⟩ := Hyper.evKHopList_spec hg.inv.1 hg.pos hk only
  obtain ⟨k1, k2, k3, k4⟩ := Hyper.add_list hs (es := (List.range g.raw.numV).map (Hyper.hopList M))
    (ew := .none) (ws := List.replicate ((List.range g.raw.numV).map (Hyper.hopList M)).length 1) rfl
    (by simp) gr
  rw [Hyper.addFromGraphKHop_eq (s := s) (e1.trans e2.symm) (r1.trans he)]
  refine ⟨k1, k3, fun e => ?_, hg.indist r3 r2.symm⟩
  rw [← hop_edges hk hM]
  exact k4 e

example : Hyper.Built Hyper.AnyH true exHe ∧ Graph.Built Graph.NonNeg exG ∧
    (Hyper.ask .numV exHe).1 = .ok (.num 3) ∧ (Graph.ask .numV exG).1 = .ok (.num 3) ∧ 1 ≤ 2 :=
  ⟨exHe_proper.mono fun _ _ _ => trivial, exG_nonneg, rfl, rfl, by decide⟩

/-! ## C41, adding the hyperedges of a bipartite graph -/

/-- C41. `add_hyperedges_from_bigraph` adds exactly the non-empty neighbourhoods to the named group,
keeps what the group had and leaves other groups and the bipartite graph alone. -/
theorem C41_add_from_bigraph {s : HSt K} (hs : Hyper.Built Hyper.AnyH b s) {g : BSt K}
    (hg : BiGraph.Built Graph.NonNeg g) {m n : Nat} (hm : (BiGraph.ask .numU g).1 = .ok (.num m))
    (hn : (BiGraph.ask .numV g).1 = .ok (.num n)) (hx : Spec.Bipartite m n g) (uAsVertex : Bool)
    (hs' : (Hyper.ask .numV s).1 = .ok (.num (if uAsVertex then m else n))) (gr : String) :
    (Hyper.addFromBigraph uAsVertex gr (s, g)).1 = .ok () ∧
    (∀ gr' e w, gr' ≠ gr → (Spec.HListed (Hyper.addFromBigraph uAsVertex gr (s, g)).2.1 gr' e w ↔
      Spec.HListed s gr' e w)) ∧
    (∀ e, (∃ w, Spec.HListed (Hyper.addFromBigraph uAsVertex gr (s, g)).2.1 gr e w) ↔
      (∃ w, Spec.HListed s gr e w) ∨ (e ≠ 0 ∧ e.Nodup ∧
        ∃ i : Nat, i < (if uAsVertex then n else m) ∧ ∀ x : Int, x ∈ e ↔
          ∃ w', ((if uAsVertex then (x, (i : Int)) else ((i : Int), x)), w') ∈ Spec.listingB g)) ∧
    Spec.IndistB (Hyper.addFromBigraph uAsVertex gr (s, g)).2.2 g := by
  have hn' := Bi.numV_eq hn
  have hm' := Bi.numU_eq hm
  subst hn' hm'
  obtain ⟨r1, r2, r3⟩ := Hyper.reads_bigraphList uAsVertex g hg.coh
  obtain ⟨es, h1, h2⟩ := Hyper.evBigraphList_spec (Bi.fits hg hx) uAsVertex
  have hnum : Hyper.sideNum (!uAsVertex) g.raw = if uAsVertex then g.raw.numU else g.raw.numV := by
    unfold Hyper.sideNum; cases uAsVertex <;> rfl
  have hnum' : Hyper.sideNum uAsVertex g.raw = if uAsVertex then g.raw.numV else g.raw.numU := by
    unfold Hyper.sideNum; cases uAsVertex <;> rfl
  obtain ⟨k1, k2, k3, k4⟩ := Hyper.add_list hs (es := es)
    (ew := .none) (ws := List.replicate es.length 1) rfl (by simp) gr
  rw [Hyper.addFromBigraph_eq (s := s) ((Hy.numV_eq hs').trans hnum.symm) (r1.trans h1)]
  refine ⟨k1, k3, fun e => ?_, Bi.indist_of_raw r3 hg.coh r2⟩
  rw [k4, h2, hnum', Bi.listing_lst hg]
  refine or_congr Iff.rfl (and_congr Iff.rfl (and_congr Iff.rfl (exists_congr fun i => and_congr Iff.rfl
    (forall_congr' fun x => iff_congr Iff.rfl ⟨fun h => h.2, fun h => ⟨?_, h⟩⟩))))
  obtain ⟨w', h⟩ := h
  have := (Bi.fits hg hx) _ h
  cases uAsVertex <;> simp at this <;> omega

example : Hyper.Built Hyper.AnyH true exHe ∧ BiGraph.Built Graph.NonNeg exB ∧
    (BiGraph.ask .numU exB).1 = .ok (.num 2) ∧ (BiGraph.ask .numV exB).1 = .ok (.num 3) ∧
    Spec.Bipartite 2 3 exB ∧
    (Hyper.ask .numV exHe).1 = .ok (.num (if false then 2 else 3)) :=
  ⟨exHe_proper.mono fun _ _ _ => trivial, exB_nonneg, rfl, rfl, exB_flag, rfl⟩

/-! ## C49 -/

/-- the hyperedge `e` has `k` distinct vertices of `0..rows-1`, and none of the others is nearer to `v`
than one of them -/
def _root_.DHG.Spec.Nearest (rows k : Nat) (dist : Nat → Nat → K) (v : Nat) (e : Multiset Int) : Prop :=
  e.card = k ∧ e.Nodup ∧ (∀ x ∈ e, 0 ≤ x ∧ x < (rows : Int)) ∧
    ∀ x ∈ e, ∀ y : Nat, y < rows → (y : Int) ∉ e → dist v x.toNat ≤ dist v y

theorem nearest_topk {rows k : Nat} {topk : (Nat → K) → List Nat} (ht : Spec.IsTopk rows k topk)
    (dist : Nat → Nat → K) (v : Nat) :
    Spec.Nearest rows k dist v (((topk (dist v)).map fun u : Nat => (u : Int)) : List Int) := by
  obtain ⟨h1, h2, h3, h4⟩ := ht (dist v)
  refine ⟨by simpa using h1, Multiset.coe_nodup.2 (h2.map Nat.cast_injective), ?_, ?_⟩
  · intro x hx
    obtain ⟨j, hj, rfl⟩ := List.mem_map.1 (Multiset.mem_coe.1 hx)
    have := h3 j hj
    omega
  · intro x hx y hy hny
    obtain ⟨j, hj, rfl⟩ := List.mem_map.1 (Multiset.mem_coe.1 hx)
    rw [Int.toNat_natCast]
    refine h4 j hj y hy fun hc => hny ?_
    exact Multiset.mem_coe.2 (List.mem_map_of_mem hc)

/-- C49. `from_feature_kNN`: for each row `v` of the features there is a hyperedge of `k` nearest rows,
every hyperedge is of this form, all have weight 1 and are in the group `main`; `v` belongs to its
hyperedge when it is the only row at the smallest distance from itself and `k ≥ 1`.  Missing: the own
vertex when other rows have the same features (`C49_knn_own_false`). -/
theorem C49_knn_partial [IsStrictOrderedRing K] {rows k : Nat} (hr : 0 < rows) (hk : k ≤ rows)
    (dist : Nat → Nat → K) {topk : (Nat → K) → List Nat} (ht : Spec.IsTopk rows k topk) :
    ∃ h, Hyper.fromFeatureKNN rows dist topk k = .ok h ∧ (Hyper.ask .numV h).1 = .ok (.num rows) ∧
      (∀ v < rows, ∃ e, Spec.HListed h "main" e 1 ∧ Spec.Nearest rows k dist v e ∧
        (1 ≤ k → (∀ u < rows, u ≠ v → dist v v < dist v u) → (v : Int) ∈ e)) ∧
      (∀ gr e w, Spec.HListed h gr e w → gr = "main" ∧ w = 1 ∧ ∃ v < rows, Spec.Nearest rows k dist v e) := by
  have hok := Hyper.new_list_ok (K := K) (n := rows)
    (es := (List.range rows).map fun v => (topk (dist v)).map fun u : Nat => (u : Int)) (ew := .none)
    (ws := List.replicate ((List.range rows).map fun v => (topk (dist v)).map fun u : Nat => (u : Int)).length 1)
    hr rfl (by simp)
  refine ⟨_, ?_, Hyper.new_list_numV hok, ?_, ?_⟩
  · unfold Hyper.fromFeatureKNN Hyper.kNNList
    rw [if_pos (by exact_mod_cast hk)]
    exact hok
  · intro v hv
    refine ⟨(((topk (dist v)).map fun u : Nat => (u : Int)) : List Int),
      (Hyper.new_list_listed hok _ _).2 ⟨rfl, _, List.mem_map_of_mem (List.mem_range.2 hv), rfl⟩,
      nearest_topk ht dist v, ?_⟩
    intro hk1 hmin
    obtain ⟨h1, h2, h3, h4⟩ := ht (dist v)
    by_contra hc
    have hv' : v ∉ topk (dist v) := fun h => hc (Multiset.mem_coe.2 (List.mem_map_of_mem h))
    obtain ⟨j, hj⟩ := List.exists_mem_of_length_pos (by rw [h1]; omega : 0 < (topk (dist v)).length)
    have hjv : j ≠ v := by rintro rfl; exact hv' hj
    exact absurd (h4 j hj v hv hv') (not_le.2 (hmin j (h3 j hj) hjv))
  · intro gr e w h
    obtain rfl := Hyper.new_list_group hok h
    obtain ⟨h3, l, hl, rfl⟩ := (Hyper.new_list_listed hok e w).1 h
    obtain ⟨v, hv, rfl⟩ := List.mem_map.1 hl
    exact ⟨rfl, h3, v, List.mem_range.1 hv, nearest_topk ht dist v⟩

/-- the nearer of the rows 0 and 1, row 1 when equally near -/
noncomputable def exTop (d : Nat → ℝ) : List Nat := if d 1 ≤ d 0 then [1] else [0]

theorem exTop_top : Spec.IsTopk 2 1 exTop := by
  intro d
  unfold exTop
  by_cases h : d 1 ≤ d 0
  · rw [if_pos h]
    refine ⟨rfl, by simp, by simp, ?_⟩
    intro j hj i hi hn
    simp at hj hn
    have : i = 0 := by omega
    subst hj this
    exact h
  · rw [if_neg h]
    refine ⟨rfl, by simp, by simp, ?_⟩
    intro j hj i hi hn
    simp at hj hn
    have : i = 1 := by omega
    subst hj this
    exact (not_le.1 h).le

example : 0 < 2 ∧ 1 ≤ 2 ∧ Spec.IsTopk 2 1 exTop := ⟨by decide, by decide, exTop_top⟩

/-- C49. More neighbours than rows are refused. -/
theorem C49_knn_refused {rows : Nat} {k : Int} (hk : (rows : Int) < k) (dist : Nat → Nat → K)
    (topk : (Nat → K) → List Nat) : Hyper.fromFeatureKNN rows dist topk k = .error .assertion := by
  unfold Hyper.fromFeatureKNN Hyper.kNNList
  rw [if_neg (by omega)]
  rfl

example : ((2 : Nat) : Int) < 3 := by decide

/-- C49 is false about the own vertex: with equal features vertex 0 may be in no hyperedge. -/
theorem C49_knn_own_false :
    ¬ ∀ (dist : Nat → Nat → ℝ) (topk : (Nat → ℝ) → List Nat) (h : HSt ℝ), Spec.IsTopk 2 1 topk →
      Hyper.fromFeatureKNN 2 dist topk 1 = .ok h → ∃ e w, Spec.HListed h "main" e w ∧ (0 : Int) ∈ e := by
  intro hh
  have hok := Hyper.new_list_ok (K := ℝ) (n := 2) (es := [[1], [1]]) (ew := .none) (ws := [1, 1])
    (by decide) rfl rfl
  obtain ⟨e, w, hl, h0⟩ := hh (fun _ _ => 0) exTop _ exTop_top (by
    unfold Hyper.fromFeatureKNN Hyper.kNNList
    rw [if_pos (by decide)]
    have : (List.range 2).map (fun v => (exTop ((fun _ _ => (0 : ℝ)) v)).map fun u : Nat => (u : Int)) =
        [[1], [1]] := by simp [exTop, List.range_succ]
    rw [this]
    exact hok)
  obtain ⟨_, l, hm, rfl⟩ := (Hyper.new_list_listed hok e w).1 hl
  simp at hm
  subst hm
  simp at h0

/-- C49 is false about the number of hyperedges: rows with equal features give equal hyperedges, which
are merged. -/
theorem C49_knn_count_false :
    ¬ ∀ (dist : Nat → Nat → ℝ) (topk : (Nat → ℝ) → List Nat) (h : HSt ℝ), Spec.IsTopk 2 1 topk →
      Hyper.fromFeatureKNN 2 dist topk 1 = .ok h → (Hyper.ask (.numE none) h).1 = .ok (.num 2) := by
  intro hh
  have hn : (Hyper.new (K := ℝ) 2 (some (Hyper.listArg [[1], [1]])) .none none .mean) =
      .ok ⟨⟨2, some [1, 1], [("main", [([1], (1 + 1) / 2)])]⟩, []⟩ := rfl
  have := hh (fun _ _ => 0) exTop _ exTop_top (by
    unfold Hyper.fromFeatureKNN Hyper.kNNList
    rw [if_pos (by decide)]
    have : (List.range 2).map (fun v => (exTop ((fun _ _ => (0 : ℝ)) v)).map fun u : Nat => (u : Int)) =
        [[1], [1]] := by simp [exTop, List.range_succ]
    rw [this]
    exact hn)
  have h1 : (Hyper.ask (K := ℝ) (.numE none) ⟨⟨2, some [1, 1], [("main", [([1], (1 + 1) / 2)])]⟩, []⟩).1 =
      .ok (.num 1) := rfl
  rw [h1] at this
  injection this with this
  injection this with this
  omega

/-- C49. `add_hyperedges_from_feature_kNN` adds the same hyperedges to the named group, keeps what the
group had and leaves other groups alone. -/
theorem C49_add_knn {s : HSt K} (hs : Hyper.Built Hyper.AnyH b s) {rows k : Nat} (hk : k ≤ rows)
    (hn : (Hyper.ask .numV s).1 = .ok (.num rows)) (dist : Nat → Nat → K) {topk : (Nat → K) → List Nat}
    (ht : Spec.IsTopk rows k topk) (gr : String) :
    (Hyper.addFromFeatureKNN rows dist topk k gr s).1 = .ok () ∧
    (∀ gr' e w, gr' ≠ gr → (Spec.HListed (Hyper.addFromFeatureKNN rows dist topk k gr s).2 gr' e w ↔
      Spec.HListed s gr' e w)) ∧
    (∀ e w, Spec.HListed s gr e w →
      ∃ w', Spec.HListed (Hyper.addFromFeatureKNN rows dist topk k gr s).2 gr e w') ∧
    (∀ v < rows, ∃ e w, Spec.HListed (Hyper.addFromFeatureKNN rows dist topk k gr s).2 gr e w ∧
      Spec.Nearest rows k dist v e) ∧
    ∀ e w, Spec.HListed (Hyper.addFromFeatureKNN rows dist topk k gr s).2 gr e w →
      (∃ w', Spec.HListed s gr e w') ∨ ∃ v < rows, Spec.Nearest rows k dist v e := by
  obtain ⟨k1, k2, k3, k4⟩ := Hyper.add_list hs
    (es := (List.range rows).map fun v => (topk (dist v)).map fun u : Nat => (u : Int))
    (ew := .none) (ws := List.replicate
      ((List.range rows).map fun v => (topk (dist v)).map fun u : Nat => (u : Int)).length 1) rfl (by simp) gr
  have he : Hyper.addFromFeatureKNN rows dist topk k gr s = Hyper.addHyperedges (Hyper.listArg
      ((List.range rows).map fun v => (topk (dist v)).map fun u : Nat => (u : Int))) .none .mean gr s := by
    have h1 : rows = s.raw.numV := (Hy.numV_eq hn).symm
    have h2 : (k : Int) ≤ (rows : Int) := by exact_mod_cast hk
    unfold Hyper.addFromFeatureKNN
    simp only [PyM.bind_apply, readRaw, PyM.assert, decide_eq_true h1, if_true, PyM.lift, Hyper.kNNList,
      if_pos h2]
    rfl
  rw [he]
  refine ⟨k1, k3, fun e w h => (k4 e).2 (.inl ⟨w, h⟩), ?_, ?_⟩
  · intro v hv
    obtain ⟨w, hw⟩ := (k4 _).2 (.inr ⟨_, List.mem_map_of_mem (List.mem_range.2 hv), rfl⟩)
    exact ⟨_, w, hw, nearest_topk ht dist v⟩
  · intro e w h
    rcases (k4 e).1 ⟨w, h⟩ with h | ⟨l, hl, rfl⟩
    · exact .inl h
    · obtain ⟨v, hv, rfl⟩ := List.mem_map.1 hl
      exact .inr ⟨v, List.mem_range.1 hv, nearest_topk ht dist v⟩

example : Hyper.Built Hyper.AnyH true exH2 ∧ 1 ≤ 2 ∧ (Hyper.ask .numV exH2).1 = .ok (.num 2) ∧
    Spec.IsTopk 2 1 exTop := ⟨exH2_proper.mono fun _ _ _ => trivial, by decide, rfl, exTop_top⟩

end Props
end DHG
