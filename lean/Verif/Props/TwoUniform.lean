import Verif.Props.ConvertHypers
import Verif.Props.GraphMatrices
import Verif.Props.HyperMatrices

/-!
# The hypergraph of a graph: its Laplacians are half of the Laplacians of the graph

`Hypergraph.from_graph` turns every edge into a hyperedge of two vertices.  For a graph without self
loops the statements below compare the answers of the graph and of the hypergraph to the same calls.
-/

set_option linter.unusedSectionVars false
set_option autoImplicit false

namespace DHG

namespace Spec

/-- no listed edge is a self loop -/
def NoLoop {K : Type} (l : List ((Int × Int) × K)) : Prop := ∀ e ∈ l, e.1.1 ≠ e.1.2

end Spec

namespace Props

open Finset

variable {K : Type} [Field K] [LinearOrder K] [PyReal K]

namespace Two

/-- the hyperedges of the listed edges -/
def pairs (l : List ((Int × Int) × K)) : List (List Int × K) := l.map fun e => ([e.1.1, e.1.2], e.2)

theorem sum_getD {α : Type} (f : α → K) (d : α) (l : List α) :
    ∑ k ∈ range l.length, f (l.getD k d) = (l.map f).sum := by
  induction l with
  | nil => simp
  | cons a l ih =>
    rw [List.length_cons, sum_range_succ', List.map_cons, List.sum_cons, ← ih, add_comm]
    simp

theorem hDeg_pairs (l : List ((Int × Int) × K)) (v : Nat) :
    Spec.hDeg (pairs l) v = Spec.deg l (v : Int) := by
  unfold Spec.hDeg Spec.deg pairs
  rw [List.map_map]
  congr 1
  apply List.map_congr_left
  intro e _
  simp only [Function.comp_def, List.mem_cons, List.not_mem_nil, or_false, eq_comm]

theorem share_pairs {l : List ((Int × Int) × K)} (h : Spec.NoLoop l) (i j : Nat) :
    Spec.share (pairs l) i j =
      (if i = j then Spec.deg l (i : Int) else Spec.wt l (i : Int) (j : Int)) / 2 := by
  have h1 : Spec.share (pairs l) i j = ∑ k ∈ range (pairs l).length,
      (fun e : List Int × K => (if (i : Int) ∈ e.1 then (1 : K) else 0) * e.2 * (e.1.length : K)⁻¹ *
        (if (j : Int) ∈ e.1 then (1 : K) else 0)) ((pairs l).getD k ([], 0)) := rfl
  rw [h1, sum_getD (fun e : List Int × K => (if (i : Int) ∈ e.1 then (1 : K) else 0) * e.2 *
    (e.1.length : K)⁻¹ * (if (j : Int) ∈ e.1 then (1 : K) else 0)) ([], 0), pairs, List.map_map]
  have h2 : ∀ e ∈ l, ((fun e : List Int × K => (if (i : Int) ∈ e.1 then (1 : K) else 0) * e.2 *
      (e.1.length : K)⁻¹ * (if (j : Int) ∈ e.1 then (1 : K) else 0)) ∘
        fun e : (Int × Int) × K => ([e.1.1, e.1.2], e.2)) e =
      (if i = j then (if e.1.1 = (i : Int) ∨ e.1.2 = (i : Int) then e.2 else 0)
        else if e.1 = ((i : Int), (j : Int)) ∨ e.1 = ((j : Int), (i : Int)) then e.2 else 0) * 2⁻¹ := by
    rintro ⟨⟨a, c⟩, w⟩ he
    have hne : a ≠ c := h _ he
    simp only [Function.comp_def, List.mem_cons, List.not_mem_nil, or_false, List.length_cons,
      List.length_nil, Prod.mk.injEq]
    by_cases hij : i = j
    · subst hij
      by_cases hc : (i : Int) = a ∨ (i : Int) = c
      · have hc' : a = (i : Int) ∨ c = (i : Int) := hc.imp Eq.symm Eq.symm
        simp [hc, hc']
      · have hc' : ¬ (a = (i : Int) ∨ c = (i : Int)) := fun h => hc (h.imp Eq.symm Eq.symm)
        simp [hc, hc']
    · rw [if_neg hij]
      have hij' : (i : Int) ≠ (j : Int) := by exact_mod_cast hij
      by_cases hc : ((i : Int) = a ∨ (i : Int) = c) ∧ ((j : Int) = a ∨ (j : Int) = c)
      · rw [if_pos hc.1, if_pos hc.2, if_pos (by omega)]
        simp
      · rw [if_neg (by omega : ¬ (a = (i : Int) ∧ c = (j : Int) ∨ a = (j : Int) ∧ c = (i : Int)))]
        rcases not_and_or.1 hc with hc | hc <;> simp [hc]
  rw [List.map_congr_left h2, List.sum_map_mul_right, div_eq_mul_inv]
  congr 1
  by_cases hij : i = j
  · simp only [if_pos hij]; rfl
  · simp only [if_neg hij]; rfl

theorem edgeList_nodup {r : GRaw K} (hr : Graph.Inv r) (h : Spec.NoLoop (Graph.lst r)) :
    r.edgeList.Nodup := by
  have h' : ∀ p ∈ r.edgeList, p.1 ≠ p.2 := by
    intro p hp
    rw [← edgeList_lst] at hp
    obtain ⟨e, he, rfl⟩ := List.mem_map.1 hp
    exact h e he
  unfold GRaw.edgeList at h' ⊢
  have h0 : r.loops.keys = [] := by
    rw [List.eq_nil_iff_forall_not_mem]
    intro v hv
    exact h' (v, v) (by simp [hv]) rfl
  have hx : r.extra = false := by
    by_contra hx
    have hx : r.extra = true := by simpa using hx
    exact h' ((0 : Int), (0 : Int)) (by simp [hx, hr.pos]) rfl
  simp [h0, hx, hr.nodupE]

end Two
open Two

/-- everything about the hypergraph of a graph that the statements need -/
theorem from_graph_two {g : GSt K} (hg : Graph.Built Graph.NonNeg g) {n : Nat}
    (hn : (Graph.ask .numV g).1 = .ok (.num n)) (hl : Spec.NoLoop (Spec.listing g))
    (hne : Spec.listing g ≠ []) :
    ∃ h, (Hyper.fromGraph g).1 = .ok h ∧ Hyper.Built Hyper.Proper true h ∧
      (Hyper.ask .numV h).1 = .ok (.num n) ∧ Spec.HasScope h none ∧
      Spec.hListing h none = pairs (Spec.listing g) := by
  rw [listing_lst hg] at hl hne ⊢
  have hd := edgeList_nodup hg.inv.1 hl
  rw [← numV_eq hn]
  have hr := hg.inv.1
  have hpos := hg.pos
  generalize hrr : g.raw = r at *
  have hlen : r.edgeList.length = r.edgeWts.length := by
    rw [Graph.edgeList_length, Graph.edgeWts_length]
  have hok := Hyper.new_list_ok (K := K) (n := r.numV) (es := r.edgeList.map fun e => [e.1, e.2])
    (ew := .list r.edgeWts) (ws := r.edgeWts) hr.pos rfl (by simpa using hlen)
  have hs : (r.edgeList.map fun e => [e.1, e.2]).map sortV = r.edgeList.map fun e => [e.1, e.2] := by
    rw [List.map_map]
    exact List.map_congr_left fun p hp => Hyper.sortV_pair (Hyper.edgeList_le hr p hp)
  rw [hs] at hok
  have hz : ((r.edgeList.map fun e => [e.1, e.2]).zip r.edgeWts) = pairs (Graph.lst r) := by
    unfold Graph.lst pairs
    rw [List.zip_map_left]
    rfl
  rw [hz] at hok
  have hk : (Dict.keys (pairs (Graph.lst r))).Nodup := by
    show ((pairs (Graph.lst r)).map Prod.fst).Nodup
    rw [← hz, List.map_fst_zip (by simp [hlen])]
    refine hd.map ?_
    rintro ⟨a, b⟩ ⟨c, d⟩ h
    simpa using h
  have hraw : (pairs (Graph.lst r)).foldl (Hyper.addRaw .mean "main") (Hyper.base r.numV) =
      ⟨r.numV, some (List.replicate r.numV 1), [("main", pairs (Graph.lst r))]⟩ := by
    match hp : pairs (Graph.lst r), hk with
    | [], _ => exact absurd (List.map_eq_nil_iff.1 hp) hne
    | p :: l, hk =>
      unfold Hyper.base
      rw [Hyper.foldl_addRaw_new .mean r.numV _ [] "main" (by simp [Dict.keys]) p l hk]
      rfl
  rw [hraw] at hok
  have hb : Hyper.Built Hyper.Proper true
      (⟨⟨r.numV, some (List.replicate r.numV 1), [("main", pairs (Graph.lst r))]⟩, []⟩ : HSt K) := by
    refine Hyper.Built.new hok ?_
    intro a ha
    cases ha
    intro e he
    have he : e ∈ r.edgeList.map fun e => [e.1, e.2] := by
      simpa [Hyper.listArg, Hyper.argEdges] using he
    obtain ⟨p, hp, rfl⟩ := List.mem_map.1 he
    rw [← edgeList_lst] at hp
    obtain ⟨q, hq, rfl⟩ := List.mem_map.1 hp
    have hR := Graph.lst_InR hr hpos q hq
    simp [hl q hq, hR]
  refine ⟨_, by rw [(Hyper.fromGraph_spec hg.inv.1 hg.inv.2).1, hrr]; exact hok, hb, rfl, ?_, ?_⟩
  · show Dict.keys _ ≠ []
    simp [Dict.keys]
  · rw [Hy.listing_eq (hb.mono (Q := Hyper.AnyH) fun _ _ _ => trivial)]
    simp [Hyper.lstOf]

namespace Two

theorem proper_of_noLoop {l : List ((Int × Int) × K)} (h : Spec.NoLoop l) : Spec.proper l = l :=
  List.filter_eq_self.2 fun e he => by simpa using h e he

theorem wt_self {l : List ((Int × Int) × K)} (h : Spec.NoLoop l) (i : Int) : Spec.wt l i i = 0 := by
  unfold Spec.wt
  apply List.sum_eq_zero
  intro x hx
  obtain ⟨e, he, rfl⟩ := List.mem_map.1 hx
  rw [if_neg]
  rintro (h' | h') <;> exact h e he (by rw [h'])

theorem nonneg_pairs {l : List ((Int × Int) × K)} (h : Spec.NonnegWeights l) : Spec.HNonneg (pairs l) := by
  intro e he
  obtain ⟨p, hp, rfl⟩ := List.mem_map.1 he
  exact h p hp

/-- a listed pair is the only hyperedge with its two ends -/
theorem together_pairs {l : List ((Int × Int) × K)} (h : Spec.NoLoop l)
    (hd : (l.map Prod.fst).Nodup) (hle : ∀ e ∈ l, e.1.1 ≤ e.1.2) {x y : Int} (hxy : x ≠ y)
    (he : ∃ e ∈ pairs l, x ∈ e.1 ∧ y ∈ e.1) : Spec.together (pairs l) x y = 1 := by
  unfold Spec.together
  induction l with
  | nil => obtain ⟨e, he, _⟩ := he; cases he
  | cons p l ih =>
    obtain ⟨⟨a, c⟩, w⟩ := p
    have h1 : a ≠ c := h _ List.mem_cons_self
    have h2 : a ≤ c := hle _ List.mem_cons_self
    rw [List.map_cons, List.nodup_cons] at hd
    show (List.filter _ (([a, c], w) :: pairs l)).length = 1
    by_cases hc : x ∈ [a, c] ∧ y ∈ [a, c]
    · rw [List.filter_cons_of_pos (by simpa using hc)]
      rw [List.length_cons, List.filter_eq_nil_iff.2]
      · rfl
      rintro q hq
      obtain ⟨⟨⟨a', c'⟩, w'⟩, hq', rfl⟩ := List.mem_map.1 hq
      have h3 : a' ≤ c' := hle ((a', c'), w') (List.mem_cons_of_mem _ hq')
      have h4 : (a', c') ≠ (a, c) := fun h => hd.1 (h ▸ List.mem_map.2 ⟨_, hq', rfl⟩)
      simp only [List.mem_cons, List.not_mem_nil, or_false] at hc
      simp only [List.mem_cons, List.not_mem_nil, or_false, decide_eq_true_eq]
      intro h5
      apply h4
      rw [Prod.mk.injEq]
      omega
    · rw [List.filter_cons_of_neg (by simpa using hc)]
      refine ih (fun e he => h e (List.mem_cons_of_mem _ he)) hd.2
        (fun e he => hle e (List.mem_cons_of_mem _ he)) ?_
      obtain ⟨e, he, h3⟩ := he
      rcases List.mem_cons.1 he with rfl | he
      · exact absurd h3 hc
      · exact ⟨e, he, h3⟩

end Two

/-! ## C89 -/

/-- C89. For a graph with at least one edge and no self loop: `from_graph` succeeds, graph and
hypergraph report the same vertex degrees, and every hyperedge has degree 2. -/
theorem C89_degrees {g : GSt K} (hg : Graph.Built Graph.NonNeg g) {n : Nat}
    (hn : (Graph.ask .numV g).1 = .ok (.num n)) (hl : Spec.NoLoop (Spec.listing g))
    (hne : Spec.listing g ≠ []) :
    ∃ h d, (Hyper.fromGraph g).1 = .ok h ∧ (Graph.ask .degV g).1 = .ok (.vec d) ∧
      (Hyper.ask (.degV none) h).1 = .ok (.vec d) ∧
      (Hyper.ask (.degE none) h).1 = .ok (.vec (List.replicate (Spec.listing g).length 2)) := by
  obtain ⟨h, h1, h2, h3, h4, h5⟩ := from_graph_two hg hn hl hne
  obtain ⟨h6, h7, _⟩ := C34_hypergraph_degrees_partial h2 h4 h3
  refine ⟨h, _, h1, (C06_graph_degrees hg hn).1, ?_, ?_⟩
  · rw [h6, h5]
    congr 2
    exact List.map_congr_left fun i _ => hDeg_pairs _ i
  · rw [h7, h5, pairs, List.map_map]
    congr 2
    rw [List.eq_replicate_iff]
    refine ⟨by simp, ?_⟩
    intro x hx
    obtain ⟨e, _, rfl⟩ := List.mem_map.1 hx
    simp

/-- C89. For a graph with at least one edge, no self loop and no negative weight: in the rows of the
vertices of nonzero degree, `L_sym` and `L_rw` of the hypergraph are half of `L_sym` and `L_rw` of the
graph, and `L_HGNN` is the identity minus that half; in the other rows both are the identity, and
`L_HGNN` is 0. -/
theorem C89_laplacians [IsStrictOrderedRing K] {g : GSt K} (hg : Graph.Built Graph.NonNeg g) {n : Nat}
    (hn : (Graph.ask .numV g).1 = .ok (.num n)) (hl : Spec.NoLoop (Spec.listing g))
    (hne : Spec.listing g ≠ []) (hw : Spec.NonnegWeights (Spec.listing g)) :
    ∃ h L R L' R' S, (Hyper.fromGraph g).1 = .ok h ∧
      (Graph.ask .Lsym g).1 = .ok (.mat L) ∧ (Graph.ask .Lrw g).1 = .ok (.mat R) ∧
      (Hyper.ask (.Lsym none) h).1 = .ok (.mat L') ∧ (Hyper.ask (.Lrw none) h).1 = .ok (.mat R') ∧
      (Hyper.ask (.LHGNN none) h).1 = .ok (.mat S) ∧
      ∀ i j, i < n → j < n →
        (Spec.deg (Spec.listing g) (i : Int) ≠ 0 →
          L'.get i j = L.get i j / 2 ∧ R'.get i j = R.get i j / 2 ∧
          S.get i j = (if i = j then 1 else 0) - L.get i j / 2) ∧
        (Spec.deg (Spec.listing g) (i : Int) = 0 →
          L.get i j = (if i = j then 1 else 0) ∧ L'.get i j = (if i = j then 1 else 0) ∧
          R.get i j = (if i = j then 1 else 0) ∧ R'.get i j = (if i = j then 1 else 0) ∧
          S.get i j = 0) := by
  obtain ⟨h, h1, h2, h3, h4, h5⟩ := from_graph_two hg hn hl hne
  obtain ⟨L, s, k1, k2, k3, _⟩ := C09_graph_Lsym hg hn hw
  obtain ⟨R, k4, k5, _⟩ := C10_graph_Lrw hg hn
  obtain ⟨S, L', q, m1, m2, m3, m4, m5, _⟩ := C36_hypergraph_L_HGNN_partial h2 h4 h3
    (by rw [h5]; exact nonneg_pairs hw)
  obtain ⟨R', m6, m7, _⟩ := C36_hypergraph_L_rw_partial h2 h4 h3
  rw [proper_of_noLoop hl] at k2 k3 k5
  rw [h5] at m3 m4 m5 m7
  refine ⟨h, L, R, L', R', S, h1, k1, k4, m2, m6, m1, ?_⟩
  intro i j hi hj
  have e1 := k3.get i j hi hj
  have e2 := k5.get i j hi hj
  have e3 := m4.get i j hi hj
  have e4 := m5.get i j hi hj
  have e5 := m7.get i j hi hj
  rw [share_pairs hl] at e3 e4 e5
  rw [hDeg_pairs] at e5
  have hq : ∀ k, k < n → q k = s k := fun k hk =>
    Graph.InvSqrt.unique (by rw [← hDeg_pairs]; exact m3 k hk) (k2 k hk)
  rw [hq i hi, hq j hj] at e3 e4
  refine ⟨fun hd => ?_, fun hd => ?_⟩
  · obtain ⟨_, h6⟩ := (k2 i hi).2 hd
    by_cases hij : i = j
    · subst hij
      simp only [if_true] at e1 e2 e3 e4 e5 ⊢
      rw [wt_self hl] at e1 e2
      have h7 : s i * (Spec.deg (Spec.listing g) (i : Int) / 2) * s i = 1 / 2 := by
        rw [← h6]; ring
      rw [h7] at e3 e4
      have h8 : (Spec.deg (Spec.listing g) (i : Int))⁻¹ * (Spec.deg (Spec.listing g) (i : Int) / 2) = 1 / 2 := by
        rw [← mul_div_assoc, inv_mul_cancel₀ hd]
      rw [h8] at e5
      rw [e1, e2, e3, e4, e5]
      refine ⟨?_, ?_, ?_⟩ <;> norm_num
    · simp only [if_neg hij] at e1 e2 e3 e4 e5 ⊢
      rw [e1, e2, e3, e4, e5]
      refine ⟨?_, ?_, ?_⟩ <;> ring
  · have h6 := (k2 i hi).1 hd
    rw [h6] at e1 e3 e4
    rw [hd] at e2 e5
    refine ⟨?_, ?_, ?_, ?_, ?_⟩
    · rw [e1]; ring
    · rw [e4]; ring
    · rw [e2]; simp
    · rw [e5]; simp
    · rw [e3]; ring

/-- C89. The clique expansion of the hypergraph of a graph without self loops is the graph again, with
every edge of weight 1, for both settings of `weighted`. -/
theorem C89_clique_round_trip [IsStrictOrderedRing K] {g : GSt K} (hg : Graph.Built Graph.NonNeg g) {n : Nat}
    (hn : (Graph.ask .numV g).1 = .ok (.num n)) (hl : Spec.NoLoop (Spec.listing g))
    (hne : Spec.listing g ≠ []) (weighted : Bool) (miu : K) :
    ∃ h g', (Hyper.fromGraph g).1 = .ok h ∧ (Graph.fromHypergraphClique weighted miu h).1 = .ok g' ∧
      (Graph.ask .numV g').1 = .ok (.num n) ∧
      ∀ x y w, Spec.Listed g' x y w ↔ w = 1 ∧ ∃ w', Spec.Listed g x y w' := by
  obtain ⟨h, h1, h2, h3, h4, h5⟩ := from_graph_two hg hn hl hne
  obtain ⟨g', k1, k2, k3⟩ := C40_clique_partial h2 h3 h4 weighted miu
  refine ⟨h, g', h1, k1, k2, fun x y w => ?_⟩
  rw [k3, h5]
  have hd : ((Spec.listing g).map Prod.fst).Nodup := by
    rw [listing_lst hg, edgeList_lst]
    rw [listing_lst hg] at hl
    exact edgeList_nodup hg.inv.1 hl
  have hle : ∀ e ∈ Spec.listing g, e.1.1 ≤ e.1.2 := by
    intro e he
    rw [listing_lst hg] at he
    exact Hyper.edgeList_le hg.inv.1 e.1 (by rw [← edgeList_lst]; exact List.mem_map.2 ⟨e, he, rfl⟩)
  constructor
  · rintro ⟨a1, a2, a3⟩
    rw [together_pairs hl hd hle a1 a2] at a3
    refine ⟨by simpa using a3, ?_⟩
    obtain ⟨e, he, b1, b2⟩ := a2
    obtain ⟨⟨⟨a, c⟩, w'⟩, hp, rfl⟩ := List.mem_map.1 he
    simp only [List.mem_cons, List.not_mem_nil, or_false] at b1 b2
    refine ⟨w', ?_⟩
    rcases b1 with rfl | rfl <;> rcases b2 with rfl | rfl
    · exact absurd rfl a1
    · exact .inl hp
    · exact .inr hp
    · exact absurd rfl a1
  · rintro ⟨rfl, w', hw'⟩
    have a1 : x ≠ y := by
      rcases hw' with hw' | hw'
      · exact hl _ hw'
      · exact (hl _ hw').symm
    have a2 : ∃ e ∈ pairs (Spec.listing g), x ∈ e.1 ∧ y ∈ e.1 := by
      rcases hw' with hw' | hw'
      · exact ⟨_, List.mem_map.2 ⟨_, hw', rfl⟩, by simp⟩
      · exact ⟨_, List.mem_map.2 ⟨_, hw', rfl⟩, by simp⟩
    exact ⟨a1, a2, by rw [together_pairs hl hd hle a1 a2]; simp⟩

/-- a weighted path and an isolated vertex -/
noncomputable def exPath : GSt ℝ :=
  { raw := { numV := 4, eDict := [((0, 1), 2), ((1, 2), 3)], loops := [], extra := false }, cache := [] }

theorem exPath_nonneg : Graph.Built Graph.NonNeg exPath :=
  .new (n := 4) (arg := some (.many [(0, 1), (2, 1)] (.list [2, 3]))) (extra := false) (op := .mean) rfl
    (by rintro _ ⟨⟩; simp [Graph.NonNeg])

example : Graph.Built Graph.NonNeg exPath ∧ (Graph.ask .numV exPath).1 = .ok (.num 4) ∧
    Spec.NoLoop (Spec.listing exPath) ∧ Spec.listing exPath ≠ [] ∧
    Spec.NonnegWeights (Spec.listing exPath) ∧ Spec.deg (Spec.listing exPath) 1 = 5 ∧
    Spec.deg (Spec.listing exPath) 3 = 0 := by
  have : Spec.listing exPath = [((0, 1), 2), ((1, 2), 3)] := rfl
  refine ⟨exPath_nonneg, rfl, ?_, ?_, ?_, ?_, ?_⟩ <;> rw [this]
  · simp [Spec.NoLoop]
  · simp
  · simp [Spec.NonnegWeights]
  · simp [Spec.deg]; norm_num
  · simp [Spec.deg]

end Props
end DHG
