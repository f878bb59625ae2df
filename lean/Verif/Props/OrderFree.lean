import Verif.Props.GraphMessages
import Verif.Props.DiGraphMatrices
import Verif.Props.BiGraphMatrices
import Verif.Props.HyperMessages
import Verif.Props.TwoUniform

/-!
# Results do not depend on the order in which edges were added (C105)

Two structures that list the same edges with the same weights, in whatever order, were possibly built in
completely different ways.  `List.Perm` between the listings says: same entries, same multiplicities.
-/

set_option linter.unusedSectionVars false
set_option autoImplicit false

namespace DHG

namespace Spec

variable {K : Type} [Field K]

/-- the listed hyperedges, each with its row of features -/
def withRows (l : List (List Int × K)) (Y : Dense K) : List ((List Int × K) × List K) :=
  (List.range l.length).map fun j => (l.getD j ([], 0), (List.range Y.cols).map (Y.at_ j))

/-- same shape, same entries -/
structure SameMat (M M' : Sp K) : Prop where
  rows : M.rows = M'.rows
  cols : M.cols = M'.cols
  get : ∀ i j, i < M.rows → j < M.cols → M.get i j = M'.get i j

/-- same shape, same features -/
structure SameFeat (Y Y' : Dense K) : Prop where
  rows : Y.rows = Y'.rows
  cols : Y.cols = Y'.cols
  at_ : ∀ i c, i < Y.rows → c < Y.cols → Y.at_ i c = Y'.at_ i c

end Spec

namespace Props

variable {K : Type} [Field K] [LinearOrder K] [PyReal K]

/-! ## simple graphs -/

namespace OrderFree

open Graph

theorem perm_wt {l l' : List ((Int × Int) × K)} (h : l.Perm l') (i j : Int) : Spec.wt l i j = Spec.wt l' i j :=
  (h.map _).sum_eq

theorem perm_Adj {l l' : List ((Int × Int) × K)} (h : l.Perm l') (i j : Nat) : Spec.Adj l i j ↔ Spec.Adj l' i j :=
  exists_congr fun _ => and_congr_left' h.mem_iff

theorem evA_perm {r r' : GRaw K} (hr : Inv r) (hp : Pos r) (hr' : Inv r') (hp' : Pos r')
    (hn : r.numV = r'.numV) (h : (lst r).Perm (lst r')) : Graph.evA r = Graph.evA r' := by
  obtain ⟨⟨a, b, es⟩, hA, i⟩ := evA_spec hr hp
  obtain ⟨⟨a', b', es'⟩, hA', i'⟩ := evA_spec hr' hp'
  have h1 : a = a' := i.rows.trans (hn.trans i'.rows.symm)
  have h2 : b = b' := i.cols.trans (hn.trans i'.cols.symm)
  have h3 : es = es' := i.sorted.ext i'.sorted
    (fun k => (i.keys k.1 k.2).trans ((perm_Adj h _ _).trans (i'.keys k.1 k.2).symm))
    (fun x y => (i.get x y).trans ((perm_wt h _ _).trans (i'.get x y).symm))
  rw [hA, hA', h1, h2, h3]

theorem numE_lst (r : GRaw K) : r.numE = (lst r).length := by
  unfold lst; rw [List.length_zip, Graph.edgeList_length, Graph.edgeWts_length]; simp

theorem lst_extra (r : GRaw K) : lst (withExtra r) = Spec.withUnitLoops r.numV (lst { r with extra := false }) := by
  unfold lst Spec.withUnitLoops withExtra
  rw [zip_listing, zip_listing]; simp

theorem lst_flag {r r' : GRaw K} (hn : r.numV = r'.numV) (hx : r.extra = r'.extra) (h : (lst r).Perm (lst r')) :
    (lst (withExtra r)).Perm (lst (withExtra r')) := by
  have h0 : (lst { r with extra := false }).Perm (lst { r' with extra := false }) := by
    unfold lst at h ⊢
    rw [zip_listing, zip_listing] at h ⊢
    simp only [if_false, List.append_nil, Bool.false_eq_true]
    rw [hn, hx] at h
    exact (List.perm_append_right_iff _).1 h
  rw [lst_extra, lst_extra, hn]
  exact h0.append_right _

end OrderFree

open OrderFree

/-- C105 (Graph). Two graphs on the same vertices that list the same weighted edges, in any order, answer
every read in exactly the same way — matrices, degrees, neighbours of any hop, edge vectors, Laplacians,
message passing with any aggregation, weights and dropout, including what is raised; only the order of `e` and
`e_both_side` may differ. The reads based on `L_GCN` are in the next theorem. -/
theorem C105_graph {g g' : GSt K} (hg : Graph.Built Graph.NonNeg g) (hg' : Graph.Built Graph.NonNeg g')
    (hn : (Graph.ask .numV g).1 = (Graph.ask .numV g').1) (h : (Spec.listing g).Perm (Spec.listing g'))
    (q : GQuery K) (he : q ≠ .e) (hb : q ≠ .eBoth) (hl : q ≠ .LGCN) (hs : ∀ X p keep, q ≠ .smoothGCN X p keep) :
    (Graph.ask q g).1 = (Graph.ask q g').1 := by
  have hn' : g.raw.numV = g'.raw.numV := by
    rw [ask_eq hg, ask_eq hg'] at hn; simp only [Graph.evAsk] at hn; injection hn with hn; injection hn
  rw [listing_lst hg, listing_lst hg'] at h
  have hA := evA_perm hg.inv.1 hg.pos hg'.inv.1 hg'.pos hn' h
  have hA0 : Graph.evA (Graph.noLoops g.raw) = Graph.evA (Graph.noLoops g'.raw) :=
    evA_perm hg.inv.1.noLoops hg.pos.noLoops hg'.inv.1.noLoops hg'.pos.noLoops hn' (by
      rw [Graph.lst_noLoops hg.inv.1, Graph.lst_noLoops hg'.inv.1]; exact h.filter _)
  rw [ask_eq hg, ask_eq hg']
  cases q with
  | e => exact absurd rfl he
  | eBoth => exact absurd rfl hb
  | LGCN => exact absurd rfl hl
  | smoothGCN X p keep => exact absurd rfl (hs X p keep)
  | numV => simp only [Graph.evAsk, hn']
  | numE => simp only [Graph.evAsk, numE_lst, h.length_eq]
  | A => simp only [Graph.evAsk, hA]
  | Dv => simp only [Graph.evAsk, Graph.evDv, hA]
  | DvN1 => simp only [Graph.evAsk, Graph.evDvN1, Graph.evDv, hA]
  | DvN12 => simp only [Graph.evAsk, Graph.evDvN12, Graph.evDv, hA]
  | Nv v hop => simp only [Graph.evAsk, Graph.evNv, Graph.evApow, hA]
  | degV => simp only [Graph.evAsk, Graph.evDv, hA]
  | eSrc => simp only [Graph.evAsk, hA]
  | eDst => simp only [Graph.evAsk, hA]
  | eWeight => simp only [Graph.evAsk, hA]
  | L => simp only [Graph.evAsk, Graph.evL, Graph.evDv, hA0]
  | Lsym => simp only [Graph.evAsk, Graph.evLsym, Graph.evNormA, Graph.evDvN12, Graph.evDv, hA0, hn']
  | Lrw => simp only [Graph.evAsk, Graph.evLrw, Graph.evDvN1, Graph.evDv, hA0, hn']
  | v2v X aggr ew p keep => simp only [Graph.evAsk, Graph.evV2v, Graph.evDvN1, Graph.evDv, hA]

/-- C105 (Graph). With the same self loop flag the reads based on `L_GCN` agree as well. -/
theorem C105_graph_GCN {g g' : GSt K} (hg : Graph.Built Graph.NonNeg g) (hg' : Graph.Built Graph.NonNeg g')
    (hn : (Graph.ask .numV g).1 = (Graph.ask .numV g').1) (h : (Spec.listing g).Perm (Spec.listing g'))
    (hx : (Graph.stateDict g).extra = (Graph.stateDict g').extra) :
    (Graph.ask .LGCN g).1 = (Graph.ask .LGCN g').1 ∧
    ∀ X p keep, (Graph.ask (.smoothGCN X p keep) g).1 = (Graph.ask (.smoothGCN X p keep) g').1 := by
  have hn' : g.raw.numV = g'.raw.numV := by
    rw [ask_eq hg, ask_eq hg'] at hn; simp only [Graph.evAsk] at hn; injection hn with hn; injection hn
  rw [listing_lst hg, listing_lst hg'] at h
  have hA : Graph.evA (Graph.withExtra g.raw) = Graph.evA (Graph.withExtra g'.raw) :=
    evA_perm hg.inv.1.withExtra hg.pos.withExtra hg'.inv.1.withExtra hg'.pos.withExtra hn'
      (lst_flag hn' hx h)
  have hL : Graph.evLGCN g.raw = Graph.evLGCN g'.raw := by
    simp only [Graph.evLGCN, Graph.evNormA, Graph.evDvN12, Graph.evDv, hA]
  refine ⟨?_, fun X p keep => ?_⟩
  · rw [ask_eq hg, ask_eq hg']; simp only [Graph.evAsk, hL]
  · rw [ask_eq hg, ask_eq hg']; simp only [Graph.evAsk, Graph.evSmoothGCN, hL]

/-- C105 (Graph). What differs between the two is the order of the listing only: `e` and `e_both_side`. -/
theorem C105_graph_listing {g g' : GSt K} (hg : Graph.Built Graph.AnyArg g) (hg' : Graph.Built Graph.AnyArg g')
    (h : (Spec.listing g).Perm (Spec.listing g')) :
    ∃ es ws es' ws', (Graph.ask .e g).1 = .ok (.edges es ws) ∧ (Graph.ask .e g').1 = .ok (.edges es' ws') ∧
      (es.zip ws).Perm (es'.zip ws') ∧
    ∃ bs vs bs' vs', (Graph.ask .eBoth g).1 = .ok (.edges bs vs) ∧ (Graph.ask .eBoth g').1 = .ok (.edges bs' vs') ∧
      (bs.zip vs).Perm (bs'.zip vs') := by
  rw [listing_lst hg, listing_lst hg'] at h
  refine ⟨_, _, _, _, (ask_eq hg _), (ask_eq hg' _), h, _, _, _, _, (ask_eq hg _), (ask_eq hg' _), ?_⟩
  have h2 := h.filter fun e => decide (e.1.1 ≠ e.1.2)
  have key : ∀ {r : GRaw K}, Graph.Inv r → (r.edgeList ++ r.eDict.keys.map fun q => (q.2, q.1)).zip (r.edgeWts ++ r.eDict.vals) =
      Graph.lst r ++ (Spec.proper (Graph.lst r)).map fun e => ((e.1.2, e.1.1), e.2) := by
    intro r hr
    rw [← Graph.lst_noLoops hr]
    rw [List.zip_append (by rw [Graph.edgeList_length, Graph.edgeWts_length])]
    congr 1
    unfold Graph.lst
    rw [Graph.zip_listing]
    simp only [Graph.noLoops, List.map_nil, List.append_nil, Bool.false_eq_true, if_false]
    generalize r.eDict = d
    induction d with
    | nil => rfl
    | cons p d ih => simpa [Dict.keys, Dict.vals] using ih
  rw [key hg.inv.1, key hg'.inv.1]
  exact h.append (h2.map _)

/-! ## directed graphs -/

namespace OrderFree

open Graph (lst)

theorem perm_Owt {l l' : List ((Int × Int) × K)} (h : l.Perm l') (i j : Int) : Spec.O.wt l i j = Spec.O.wt l' i j :=
  (h.map _).sum_eq

theorem evM_perm {c : Cls} {r r' : GRaw K} (hf : Ord.Fits c r) (hf' : Ord.Fits c r')
    (hr : Ord.rows c r = Ord.rows c r') (hn : r.numV = r'.numV) (h : (lst r).Perm (lst r')) :
    Ord.evM c r = Ord.evM c r' := by
  obtain ⟨M, hM, i⟩ := Ord.evM_spec hf
  obtain ⟨M', hM', i'⟩ := Ord.evM_spec hf'
  rw [hr, hn] at i
  rw [hM, hM', i.unique i' (fun _ _ => perm_Owt h _ _) fun p => exists_congr fun w => h.mem_iff]

end OrderFree

/-- C105 (DiGraph). Two directed graphs on the same vertices that list the same weighted edges, in any order,
answer every read in exactly the same way; only the order of `e` may differ. -/
theorem C105_digraph {b b' : Bool} {g g' : DSt K} (hg : DiGraph.Built Graph.NonNeg b g)
    (hg' : DiGraph.Built Graph.NonNeg b' g') (hn : (DiGraph.ask .numV g).1 = (DiGraph.ask .numV g').1)
    (h : (Spec.listingD g).Perm (Spec.listingD g')) (q : DQuery K) (he : q ≠ .e) :
    (DiGraph.ask q g).1 = (DiGraph.ask q g').1 := by
  have hn' : g.raw.numV = g'.raw.numV := by
    rw [hg.ask, hg'.ask] at hn; simp only [DiGraph.evAsk] at hn; injection hn with hn; injection hn
  rw [Di.listing_lst hg, Di.listing_lst hg'] at h
  have hA := evM_perm (Di.fits hg) (Di.fits hg') (by unfold Ord.rows; exact hn') hn' h
  rw [hg.ask, hg'.ask]
  cases q with
  | e => exact absurd rfl he
  | numV => simp only [DiGraph.evAsk, hn']
  | numE => simp only [DiGraph.evAsk, numE_lst, h.length_eq]
  | A => simp only [DiGraph.evAsk, hA]
  | AT => simp only [DiGraph.evAsk, Ord.evMT, hA]
  | DvOut => simp only [DiGraph.evAsk, Ord.evDr, hA]
  | DvIn => simp only [DiGraph.evAsk, Ord.evDc, Ord.evMT, hA]
  | DvOutN1 => simp only [DiGraph.evAsk, Ord.evDrN1, Ord.evDr, hA]
  | DvInN1 => simp only [DiGraph.evAsk, Ord.evDcN1, Ord.evDc, Ord.evMT, hA]
  | Nout v => simp only [DiGraph.evAsk, Ord.evNr, hA]
  | Nin v => simp only [DiGraph.evAsk, Ord.evNc, Ord.evMT, hA]
  | degOut => simp only [DiGraph.evAsk, Ord.evDr, hA]
  | degIn => simp only [DiGraph.evAsk, Ord.evDc, Ord.evMT, hA]
  | eSrc => simp only [DiGraph.evAsk, hA]
  | eDst => simp only [DiGraph.evAsk, hA]
  | eWeight => simp only [DiGraph.evAsk, hA]
  | v2v X aggr ew dir p keep =>
    simp only [DiGraph.evAsk, DiGraph.evV2v]
    congr 1
    split
    · rfl
    · cases dir <;> cases ew <;>
        simp only [Ord.evToRows, Ord.evToCols, Ord.evPass, Ord.evPassW, Ord.evMT, Ord.evDrN1, Ord.evDr, Ord.evDcN1,
          Ord.evDc, hA]

/-! ## bipartite graphs -/

/-- C105 (BiGraph). The same for bipartite graphs, including graphs whose incidence matrix cannot be read. -/
theorem C105_bigraph {g g' : BSt K} (hg : BiGraph.Built Graph.NonNeg g) (hg' : BiGraph.Built Graph.NonNeg g')
    (hm : (BiGraph.ask .numU g).1 = (BiGraph.ask .numU g').1)
    (hn : (BiGraph.ask .numV g).1 = (BiGraph.ask .numV g').1)
    (h : (Spec.listingB g).Perm (Spec.listingB g')) (q : BQuery K) (he : q ≠ .e) :
    (BiGraph.ask q g).1 = (BiGraph.ask q g').1 := by
  have hn' : g.raw.numV = g'.raw.numV := by
    rw [hg.ask, hg'.ask] at hn; simp only [BiGraph.evAsk] at hn; injection hn with hn; injection hn
  have hm' : g.raw.numU = g'.raw.numU := by
    rw [hg.ask, hg'.ask] at hm; simp only [BiGraph.evAsk] at hm; injection hm with hm; injection hm
  have hA : Ord.evM .bi g.raw = Ord.evM .bi g'.raw := by
    by_cases hx : Spec.Bipartite g.raw.numU g.raw.numV g
    · have hx' : Spec.Bipartite g'.raw.numU g'.raw.numV g' := fun e he => by
        rw [← hn', ← hm']; exact hx e (h.mem_iff.2 he)
      rw [Bi.listing_lst hg, Bi.listing_lst hg'] at h
      exact evM_perm (Bi.fits hg hx) (Bi.fits hg' hx') (by unfold Ord.rows; exact hm') hn' h
    · have hx' : ¬ Spec.Bipartite g'.raw.numU g'.raw.numV g' := fun hx' => hx fun e he => by
        rw [hn', hm']; exact hx' e (h.mem_iff.1 he)
      have a := (C25_bigraph_readable hg (hg.ask _) (hg.ask _)).2.2 hx
      have a' := (C25_bigraph_readable hg' (hg'.ask _) (hg'.ask _)).2.2 hx'
      rw [hg.ask] at a
      rw [hg'.ask] at a'
      simp only [BiGraph.evAsk] at a a'
      cases h1 : Ord.evM .bi g.raw <;> rw [h1] at a <;> cases a
      cases h2 : Ord.evM .bi g'.raw <;> rw [h2] at a' <;> cases a'
      rfl
  rw [Bi.listing_lst hg, Bi.listing_lst hg'] at h
  have hT : Ord.evMT .bi g.raw = Ord.evMT .bi g'.raw := by simp only [Ord.evMT, hA]
  have hB : Ord.evA g.raw = Ord.evA g'.raw := by simp only [Ord.evA, hA, hT, hn', hm']
  rw [hg.ask, hg'.ask]
  cases q with
  | e => exact absurd rfl he
  | numU => simp only [BiGraph.evAsk, hm']
  | numV => simp only [BiGraph.evAsk, hn']
  | numE => simp only [BiGraph.evAsk, numE_lst, h.length_eq]
  | A => simp only [BiGraph.evAsk, hB]
  | B => simp only [BiGraph.evAsk, hA]
  | BT => simp only [BiGraph.evAsk, hT]
  | Du => simp only [BiGraph.evAsk, Ord.evDr, hA]
  | Dv => simp only [BiGraph.evAsk, Ord.evDc, hT]
  | DuN1 => simp only [BiGraph.evAsk, Ord.evDrN1, Ord.evDr, hA]
  | DvN1 => simp only [BiGraph.evAsk, Ord.evDcN1, Ord.evDc, hT]
  | Nv v => simp only [BiGraph.evAsk, Ord.evNr, hA]
  | Nu v => simp only [BiGraph.evAsk, Ord.evNc, hT]
  | degU => simp only [BiGraph.evAsk, Ord.evDr, hA]
  | degV => simp only [BiGraph.evAsk, Ord.evDc, hT]
  | eU => simp only [BiGraph.evAsk, hA]
  | eV => simp only [BiGraph.evAsk, hA]
  | eWeight => simp only [BiGraph.evAsk, hA]
  | LGCN => simp only [BiGraph.evAsk, Ord.evLGCN, hB, hm', hn']
  | smoothGCN X p keep => simp only [BiGraph.evAsk, BiGraph.evSmoothGCN, Ord.evLGCN, hB, hm', hn']
  | u2v X aggr ew p keep =>
    simp only [BiGraph.evAsk, BiGraph.evU2v]
    congr 1
    split
    · rfl
    · cases ew <;> simp only [Ord.evToCols, Ord.evPass, Ord.evPassW, Ord.evDcN1, Ord.evDc, hT, hA]
  | v2u X aggr ew p keep =>
    simp only [BiGraph.evAsk, BiGraph.evV2u]
    congr 1
    split
    · rfl
    · cases ew <;> simp only [Ord.evToRows, Ord.evPass, Ord.evPassW, Ord.evDrN1, Ord.evDr, hA]

/-! ## hypergraphs -/

section hyper

open Hyper Finset

variable {b b' : Bool} {s s' : HSt K} {sc sc' : Option String} {n : Nat}

namespace OrderFree

theorem perm_hDeg {l l' : List (List Int × K)} (h : l.Perm l') (v : Nat) : Spec.hDeg l v = Spec.hDeg l' v :=
  (h.map _).sum_eq

theorem share_sum (l : List (List Int × K)) (i j : Nat) : Spec.share l i j = (l.map fun e =>
    (if (i : Int) ∈ e.1 then 1 else 0) * e.2 * ((e.1.length : K))⁻¹ * (if (j : Int) ∈ e.1 then 1 else 0)).sum := by
  rw [← Two.sum_getD _ ([], 0)]; rfl

theorem perm_share {l l' : List (List Int × K)} (h : l.Perm l') (i j : Nat) : Spec.share l i j = Spec.share l' i j := by
  rw [share_sum, share_sum]; exact (h.map _).sum_eq

theorem perm_nonneg {l l' : List (List Int × K)} (h : l.Perm l') (hw : Spec.HNonneg l) : Spec.HNonneg l' :=
  fun e he => hw e (h.mem_iff.2 he)

theorem range_getD {α β : Type} (f : α → β) (d : α) (l : List α) :
    (List.range l.length).map (fun j => f (l.getD j d)) = l.map f := by
  apply List.ext_getElem
  · simp
  · intro i h1 h2
    simp at h1 h2
    simp [h1]

/-- features that are a function of the hyperedge -/
theorem withRows_map {l : List (List Int × K)} {Y : Dense K} {m : Nat} (hc : Y.cols = m) (f : List Int × K → Nat → K)
    (h : ∀ j c, j < l.length → Y.at_ j c = f (l.getD j ([], 0)) c) :
    Spec.withRows l Y = l.map fun e => (e, (List.range m).map (f e)) := by
  rw [← range_getD (fun e => (e, (List.range m).map (f e))) ([], 0)]
  unfold Spec.withRows
  rw [hc]
  refine List.map_congr_left fun j hj => Prod.ext rfl ?_
  exact List.map_congr_left fun c _ => h j c (List.mem_range.1 hj)

theorem incident_rows (l : List (List Int × K)) (Y : Dense K) (v : Nat) {c : Nat} (hc : c < Y.cols) :
    Spec.incidentSum l v (fun k => Y.at_ k c) =
      ((Spec.withRows l Y).map fun p => if (v : Int) ∈ p.1.1 then p.2.getD c 0 else 0).sum := by
  unfold Spec.withRows Spec.incidentSum
  rw [List.map_map, ← sum_range_map_eq]
  congr 1
  refine List.map_congr_left fun k _ => ?_
  simp only [Function.comp]
  have : ((List.range Y.cols).map (Y.at_ k)).getD c 0 = Y.at_ k c := by simp [hc]
  rw [this]
  rfl

theorem withRows_fst (l : List (List Int × K)) (Y : Dense K) : (Spec.withRows l Y).map Prod.fst = l := by
  unfold Spec.withRows
  rw [List.map_map]
  exact (range_getD (fun e => e) ([], (0 : K)) l).trans (List.map_id _)

end OrderFree

/-- C105 (Hypergraph). Two hypergraphs on the same vertices (or hyperedge groups of them) that contain the same
weighted hyperedges, in any order and distributed over groups in any way, have the same vertex degrees and the
same Laplacians. -/
theorem C105_hypergraph_matrices [IsStrictOrderedRing K] (hs : Built Proper b s) (hs' : Built Proper b' s')
    (hsc : Spec.HasScope s sc) (hsc' : Spec.HasScope s' sc') (hn : (ask .numV s).1 = .ok (.num n))
    (hn' : (ask .numV s').1 = .ok (.num n)) (h : (Spec.hListing s sc).Perm (Spec.hListing s' sc')) :
    (ask (.degV sc) s).1 = (ask (.degV sc') s').1 ∧
    (∃ R R', (ask (.Lrw sc) s).1 = .ok (.mat R) ∧ (ask (.Lrw sc') s').1 = .ok (.mat R') ∧ Spec.SameMat R R') ∧
    (Spec.HNonneg (Spec.hListing s sc) → ∃ L L' M M',
      (ask (.LHGNN sc) s).1 = .ok (.mat L) ∧ (ask (.LHGNN sc') s').1 = .ok (.mat L') ∧ Spec.SameMat L L' ∧
      (ask (.Lsym sc) s).1 = .ok (.mat M) ∧ (ask (.Lsym sc') s').1 = .ok (.mat M') ∧ Spec.SameMat M M') := by
  refine ⟨?_, ?_, fun hw => ?_⟩
  · rw [(C34_hypergraph_degrees_partial hs hsc hn).1, (C34_hypergraph_degrees_partial hs' hsc' hn').1]
    congr 3
    funext v; exact perm_hDeg h v
  · obtain ⟨R, hR, r, _⟩ := C36_hypergraph_L_rw_partial hs hsc hn
    obtain ⟨R', hR', r', _⟩ := C36_hypergraph_L_rw_partial hs' hsc' hn'
    refine ⟨R, R', hR, hR', r.rows.trans r'.rows.symm, r.cols.trans r'.cols.symm, fun i j hi hj => ?_⟩
    rw [r.rows] at hi; rw [r.cols] at hj
    rw [r.get i j hi hj, r'.get i j hi hj, perm_hDeg h, perm_share h]
  · obtain ⟨L, M, q, hL, hM, hq, l, m, _⟩ := C36_hypergraph_L_HGNN_partial hs hsc hn hw
    obtain ⟨L', M', q', hL', hM', hq', l', m', _⟩ := C36_hypergraph_L_HGNN_partial hs' hsc' hn' (perm_nonneg h hw)
    have hqq : ∀ i, i < n → q i = q' i := fun i hi =>
      Graph.InvSqrt.unique (hq i hi) (by rw [perm_hDeg h]; exact hq' i hi)
    refine ⟨L, L', M, M', hL, hL', ⟨l.rows.trans l'.rows.symm, l.cols.trans l'.cols.symm, fun i j hi hj => ?_⟩,
      hM, hM', ⟨m.rows.trans m'.rows.symm, m.cols.trans m'.cols.symm, fun i j hi hj => ?_⟩⟩
    · rw [l.rows] at hi; rw [l.cols] at hj
      rw [l.get i j hi hj, l'.get i j hi hj, hqq i hi, hqq j hj, perm_share h]
    · rw [m.rows] at hi; rw [m.cols] at hj
      rw [m.get i j hi hj, m'.get i j hi hj, hqq i hi, hqq j hj, perm_share h]

/-- C105 (Hypergraph). What belongs to the single hyperedges moves with them: the sizes in `deg_e`, the weights
in `W_e`, and the incident hyperedges of every vertex. -/
theorem C105_hypergraph_edges (hs : Built Proper b s) (hs' : Built Proper b' s')
    (hsc : Spec.HasScope s sc) (hsc' : Spec.HasScope s' sc') (hn : (ask .numV s).1 = .ok (.num n))
    (hn' : (ask .numV s').1 = .ok (.num n)) (h : (Spec.hListing s sc).Perm (Spec.hListing s' sc')) :
    (∃ d d', (ask (.degE sc) s).1 = .ok (.vec d) ∧ (ask (.degE sc') s').1 = .ok (.vec d') ∧
      ((Spec.hListing s sc).zip d).Perm ((Spec.hListing s' sc').zip d')) ∧
    (∀ v : Nat, v < n → ∃ I I', (ask (.nbrE v sc) s).1 = .ok (.idx I) ∧ (ask (.nbrE v sc') s').1 = .ok (.idx I') ∧
      (I.map fun j => (Spec.hListing s sc).getD j ([], 0)).Perm
        (I'.map fun j => (Spec.hListing s' sc').getD j ([], 0))) := by
  refine ⟨⟨_, _, (C34_hypergraph_degrees_partial hs hsc hn).2.1, (C34_hypergraph_degrees_partial hs' hsc' hn').2.1, ?_⟩,
    fun v hv => ?_⟩
  · have hz : ∀ l : List (List Int × K), l.zip (l.map fun e => (e.1.length : K)) =
        l.map fun e => (e, (e.1.length : K)) := fun l => by
      induction l with
      | nil => rfl
      | cons e l ih => simp [ih]
    rw [hz, hz]
    exact h.map _
  · obtain ⟨I, hI, hd, hi⟩ := C35_hypergraph_nbr_e_partial hs hsc hn v hv
    obtain ⟨I', hI', hd', hi'⟩ := C35_hypergraph_nbr_e_partial hs' hsc' hn' v hv
    refine ⟨I, I', hI, hI', ?_⟩
    have key : ∀ (l : List (List Int × K)) (J : List Nat), J.Nodup →
        (∀ j, j ∈ J ↔ j < l.length ∧ (v : Int) ∈ Spec.hAt l j) →
        (J.map fun j => l.getD j ([], 0)).Perm (l.filter fun e => decide ((v : Int) ∈ e.1)) := by
      intro l J hJ hm
      have hp : J.Perm ((List.range l.length).filter fun j => decide ((v : Int) ∈ Spec.hAt l j)) := by
        refine (List.perm_ext_iff_of_nodup hJ (List.nodup_range.filter _)).2 fun j => ?_
        rw [hm j, List.mem_filter, List.mem_range, decide_eq_true_iff]
      refine (hp.map _).trans ?_
      have h2 : l.filter (fun e => decide ((v : Int) ∈ e.1)) = (((List.range l.length).map fun j =>
          l.getD j ([], 0)).filter fun e => decide ((v : Int) ∈ e.1)) := by
        congr 1
        have := range_getD (fun e => e) ([], (0 : K)) l
        simpa using this.symm
      rw [h2, List.filter_map]
      exact List.Perm.refl _
    exact (key _ I hd hi).trans ((h.filter _).trans (key _ I' hd' hi').symm)

/-- C105 (Hypergraph). Messages to hyperedges: the features obtained for the hyperedges are the same, each with
its hyperedge. -/
theorem C105_hypergraph_v2e (hs : Built Proper b s) (hs' : Built Proper b' s')
    (hsc : Spec.HasScope s sc) (hsc' : Spec.HasScope s' sc') (hn : (ask .numV s).1 = .ok (.num n))
    (hn' : (ask .numV s').1 = .ok (.num n)) (h : (Spec.hListing s sc).Perm (Spec.hListing s' sc'))
    (X : Dense K) (hX : X.rows = n) {a : Aggr} (ha : a = .sum ∨ a = .mean) (keep keep' : Nat → Bool) :
    ∃ Y Y', (ask (.v2e sc X a none none 0 keep) s).1 = .ok (.feat Y) ∧
      (ask (.v2e sc' X a none none 0 keep') s').1 = .ok (.feat Y') ∧
      (Spec.withRows (Spec.hListing s sc) Y).Perm (Spec.withRows (Spec.hListing s' sc') Y') := by
  have hE := C37_hypergraph_v2e_partial hs hsc hn X hX keep
  have hE' := C37_hypergraph_v2e_partial hs' hsc' hn' X hX keep'
  rcases ha with rfl | rfl
  · obtain ⟨⟨Y, hY, _, y2, y3⟩, _⟩ := hE
    obtain ⟨⟨Y', hY', _, y2', y3'⟩, _⟩ := hE'
    refine ⟨Y, Y', hY, hY', ?_⟩
    rw [withRows_map y2 (fun e c => e.2 * (e.1.map fun v => X.at_ v.toNat c).sum) fun j c hj => y3 j c hj,
      withRows_map y2' (fun e c => e.2 * (e.1.map fun v => X.at_ v.toNat c).sum) fun j c hj => y3' j c hj]
    exact h.map _
  · obtain ⟨_, Y, hY, _, y2, y3⟩ := hE
    obtain ⟨_, Y', hY', _, y2', y3'⟩ := hE'
    refine ⟨Y, Y', hY, hY', ?_⟩
    rw [withRows_map y2 (fun e c => e.2 * ((e.1.map fun v => X.at_ v.toNat c).sum / (e.1.length : K)))
        fun j c hj => y3 j c hj,
      withRows_map y2' (fun e c => e.2 * ((e.1.map fun v => X.at_ v.toNat c).sum / (e.1.length : K)))
        fun j c hj => y3' j c hj]
    exact h.map _

/-- C105 (Hypergraph). Messages from hyperedges: if the hyperedges carry the same features in both, the vertices
receive the same. -/
theorem C105_hypergraph_e2v (hs : Built Proper b s) (hs' : Built Proper b' s')
    (hsc : Spec.HasScope s sc) (hsc' : Spec.HasScope s' sc') (hn : (ask .numV s).1 = .ok (.num n))
    (hn' : (ask .numV s').1 = .ok (.num n)) {Y Y' : Dense K} (hY : Y.rows = (Spec.hListing s sc).length)
    (hY' : Y'.rows = (Spec.hListing s' sc').length) (hc : Y.cols = Y'.cols)
    (h : (Spec.withRows (Spec.hListing s sc) Y).Perm (Spec.withRows (Spec.hListing s' sc') Y'))
    {a : Aggr} (ha : a = .sum ∨ a = .mean) (keep keep' : Nat → Bool) :
    ∃ Z Z', (ask (.e2v sc Y a none 0 keep) s).1 = .ok (.feat Z) ∧
      (ask (.e2v sc' Y' a none 0 keep') s').1 = .ok (.feat Z') ∧ Spec.SameFeat Z Z' := by
  have hl : (Spec.hListing s sc).Perm (Spec.hListing s' sc') := by
    have := h.map Prod.fst
    rwa [withRows_fst, withRows_fst] at this
  have hV := C37_hypergraph_e2v_partial hs hsc hn Y hY keep
  have hV' := C37_hypergraph_e2v_partial hs' hsc' hn' Y' hY' keep'
  have hi : ∀ v c, c < Y.cols → Spec.incidentSum (Spec.hListing s sc) v (fun k => Y.at_ k c) =
      Spec.incidentSum (Spec.hListing s' sc') v fun k => Y'.at_ k c := by
    intro v c hcc
    rw [incident_rows _ _ _ hcc, incident_rows _ _ _ (hc ▸ hcc)]
    exact (h.map _).sum_eq
  rcases ha with rfl | rfl
  · obtain ⟨⟨Z, hZ, z1, z2, z3⟩, _⟩ := hV
    obtain ⟨⟨Z', hZ', z1', z2', z3'⟩, _⟩ := hV'
    refine ⟨Z, Z', hZ, hZ', z1.trans z1'.symm, z2.trans (hc.trans z2'.symm), fun i c hi' hc' => ?_⟩
    rw [z1] at hi'; rw [z2] at hc'
    rw [z3 i c hi', z3' i c hi', hi i c hc']
  · obtain ⟨_, Z, hZ, z1, z2, z3⟩ := hV
    obtain ⟨_, Z', hZ', z1', z2', z3'⟩ := hV'
    refine ⟨Z, Z', hZ, hZ', z1.trans z1'.symm, z2.trans (hc.trans z2'.symm), fun i c hi' hc' => ?_⟩
    rw [z1] at hi'; rw [z2] at hc'
    rw [(z3 i c hi').1, (z3' i c hi').1, hi i c hc', perm_hDeg hl]

/-- C105 (Hypergraph). Message passing from vertices to vertices. -/
theorem C105_hypergraph_v2v (hs : Built Proper b s) (hs' : Built Proper b' s')
    (hsc : Spec.HasScope s sc) (hsc' : Spec.HasScope s' sc') (hn : (ask .numV s).1 = .ok (.num n))
    (hn' : (ask .numV s').1 = .ok (.num n)) (h : (Spec.hListing s sc).Perm (Spec.hListing s' sc'))
    (X : Dense K) (hX : X.rows = n) {a : Aggr} (ha : a = .sum ∨ a = .mean) (k1 k2 k1' k2' : Nat → Bool) :
    ∃ Z Z', (ask (.v2v sc X { aggr := a, rate := 0, keep1 := k1, keep2 := k2 }) s).1 = .ok (.feat Z) ∧
      (ask (.v2v sc' X { aggr := a, rate := 0, keep1 := k1', keep2 := k2' }) s').1 = .ok (.feat Z') ∧
      Spec.SameFeat Z Z' := by
  obtain ⟨Y, Y', hY, hY', hp⟩ := C105_hypergraph_v2e hs hs' hsc hsc' hn hn' h X hX ha k1 k1'
  have sh : ∀ {c : Bool} {t : HSt K} {u : Option String}, Built Proper c t → Spec.HasScope t u →
      (ask .numV t).1 = .ok (.num n) → ∀ {W : Dense K} {k : Nat → Bool},
      (ask (.v2e u X a none none 0 k) t).1 = .ok (.feat W) → W.rows = (Spec.hListing t u).length ∧ W.cols = X.cols := by
    intro c t u ht hu hnt W k hW
    have hE := C37_hypergraph_v2e_partial ht hu hnt X hX k
    rcases ha with rfl | rfl
    · obtain ⟨⟨V, hV, v1, v2, _⟩, _⟩ := hE
      rw [hW] at hV; cases hV; exact ⟨v1, v2⟩
    · obtain ⟨_, V, hV, v1, v2, _⟩ := hE
      rw [hW] at hV; cases hV; exact ⟨v1, v2⟩
  obtain ⟨y1, y2⟩ := sh hs hsc hn hY
  obtain ⟨y1', y2'⟩ := sh hs' hsc' hn' hY'
  obtain ⟨Z, Z', hZ, hZ', hz⟩ := C105_hypergraph_e2v hs hs' hsc hsc' hn hn' y1 y1' (y2.trans y2'.symm) hp ha k2 k2'
  have c1 := (C37_hypergraph_v2v_is_composition (hs.mono (Q := AnyH) fun _ _ _ => trivial) hsc X
      { aggr := a, rate := 0, keep1 := k1, keep2 := k2 }).1 Y
  have c2 := (C37_hypergraph_v2v_is_composition (hs'.mono (Q := AnyH) fun _ _ _ => trivial) hsc' X
      { aggr := a, rate := 0, keep1 := k1', keep2 := k2' }).1 Y'
  simp only [Option.getD_none] at c1 c2
  exact ⟨Z, Z', (c1 hY).trans hZ, (c2 hY').trans hZ', hz⟩

end hyper

/-! ## going on in the same way -/

section histories

namespace OrderFree

open Graph (lst)

theorem dict_perm {κ ν : Type} [DecidableEq κ] {d d' : Dict κ ν} (h : d.keys.Nodup) (h' : d'.keys.Nodup)
    (he : ∀ k, d.get? k = d'.get? k) : d.Perm d' := by
  refine (List.perm_ext_iff_of_nodup (List.Nodup.of_map _ h) (List.Nodup.of_map _ h')).2 fun p => ?_
  obtain ⟨k, v⟩ := p
  rw [← Dict.get?_eq_some_iff d h, ← Dict.get?_eq_some_iff d' h', he]

theorem dict_get {κ ν : Type} [DecidableEq κ] {d d' : Dict κ ν} (h : d.keys.Nodup) (h' : d'.keys.Nodup)
    (he : d.Perm d') (k : κ) : d.get? k = d'.get? k := by
  apply Option.ext
  intro v
  rw [Dict.get?_eq_some_iff d h, Dict.get?_eq_some_iff d' h']
  exact he.mem_iff

theorem lst_eq (r : GRaw K) : lst r = r.eDict ++ r.loops.map (fun p => ((p.1, p.1), p.2)) ++
    (if r.extra then (List.range r.numV).map fun v : Nat => (((v : Int), (v : Int)), (1 : K)) else []) :=
  Graph.zip_listing r

theorem lst_of_parts {r r' : GRaw K} (hn : r.numV = r'.numV) (hx : r.extra = r'.extra) (hE : r.eDict.Perm r'.eDict)
    (hL : r.loops.Perm r'.loops) : (lst r).Perm (lst r') := by
  rw [lst_eq, lst_eq, hn, hx]
  exact (hE.append (hL.map _)).append_right _

theorem parts_of_lst {r r' : GRaw K} (hn : r.numV = r'.numV) (hx : r.extra = r'.extra)
    (hE : ∀ p ∈ r.eDict.keys, p.1 ≠ p.2) (hE' : ∀ p ∈ r'.eDict.keys, p.1 ≠ p.2)
    (h : (lst r).Perm (lst r')) : r.eDict.Perm r'.eDict ∧ r.loops.Perm r'.loops := by
  rw [lst_eq, lst_eq, hn, hx] at h
  have h0 := (List.perm_append_right_iff _).1 h
  have k1 : ∀ d : Dict (Int × Int) K, (∀ p ∈ d.keys, p.1 ≠ p.2) →
      d.filter (fun e => decide (e.1.1 ≠ e.1.2)) = d ∧ d.filter (fun e => decide (e.1.1 = e.1.2)) = [] := by
    intro d hd
    refine ⟨List.filter_eq_self.2 fun e he => ?_, List.filter_eq_nil_iff.2 fun e he => ?_⟩
    · simpa using hd e.1 (List.mem_map.2 ⟨e, he, rfl⟩)
    · simpa using hd e.1 (List.mem_map.2 ⟨e, he, rfl⟩)
  have k2 : ∀ d : Dict Int K,
      (d.map fun p => ((p.1, p.1), p.2)).filter (fun e => decide (e.1.1 ≠ e.1.2)) = [] ∧
      (d.map fun p => ((p.1, p.1), p.2)).filter (fun e => decide (e.1.1 = e.1.2)) = d.map fun p => ((p.1, p.1), p.2) := by
    intro d
    refine ⟨List.filter_eq_nil_iff.2 fun e he => ?_, List.filter_eq_self.2 fun e he => ?_⟩ <;>
    · obtain ⟨p, _, rfl⟩ := List.mem_map.1 he
      simp
  have a := h0.filter fun e => decide (e.1.1 ≠ e.1.2)
  have b := h0.filter fun e => decide (e.1.1 = e.1.2)
  rw [List.filter_append, List.filter_append, (k1 _ hE).1, (k1 _ hE').1, (k2 _).1, (k2 _).1, List.append_nil,
    List.append_nil] at a
  rw [List.filter_append, List.filter_append, (k1 _ hE).2, (k1 _ hE').2, (k2 _).2, (k2 _).2, List.nil_append,
    List.nil_append] at b
  have b' := b.map fun e => (e.1.1, e.2)
  rw [List.map_map, List.map_map] at b'
  exact ⟨a, by simpa [Function.comp_def] using b'⟩

theorem absR_iff {r r' : GRaw K} (hr : Graph.Inv r) (hr' : Graph.Inv r') :
    Graph.absR r = Graph.absR r' ↔ r.eDict.Perm r'.eDict ∧ r.loops.Perm r'.loops := by
  constructor
  · intro h
    refine ⟨dict_perm hr.nodupE hr'.nodupE fun k => ?_, dict_perm hr.nodupL hr'.nodupL fun k => ?_⟩
    · obtain ⟨a, b⟩ := k
      by_cases hab : a < b
      · have := congrFun (congrFun h a) b
        unfold Graph.absR at this
        rw [if_neg (by omega), if_neg (by omega)] at this
        have hs : Graph.sortPair (a, b) = (a, b) := (Graph.sortPair_eq_iff hab (by omega)).2 (.inl ⟨rfl, rfl⟩)
        rwa [hs] at this
      · rw [(Dict.get?_eq_none_iff _ _).2 fun hm => hab (hr.lt _ hm), (Dict.get?_eq_none_iff _ _).2 fun hm => hab (hr'.lt _ hm)]
    · have := congrFun (congrFun h k) k
      unfold Graph.absR at this
      rwa [if_pos rfl, if_pos rfl] at this
  · rintro ⟨h1, h2⟩
    funext a b
    unfold Graph.absR
    rw [dict_get hr.nodupE hr'.nodupE h1, dict_get hr.nodupL hr'.nodupL h2]

theorem absO_iff {r r' : GRaw K} (hr : Ord.Inv .di r) (hr' : Ord.Inv .di r') :
    Ord.absO r = Ord.absO r' ↔ r.eDict.Perm r'.eDict ∧ r.loops.Perm r'.loops := by
  constructor
  · intro h
    refine ⟨dict_perm hr.nodupE hr'.nodupE fun k => ?_, dict_perm hr.nodupL hr'.nodupL fun k => ?_⟩
    · obtain ⟨a, b⟩ := k
      by_cases hab : a = b
      · subst hab; rw [hr.get_diag, hr'.get_diag]
      · have := congrFun (congrFun h a) b
        unfold Ord.absO at this
        rw [if_neg hab, if_neg hab] at this
        revert this
        cases Dict.get? r.eDict (a, b) <;> cases Dict.get? r'.eDict (a, b) <;> simp
    · have := congrFun (congrFun h k) k
      unfold Ord.absO at this
      rwa [hr.get_diag, hr'.get_diag, if_pos rfl, if_pos rfl] at this
  · rintro ⟨h1, h2⟩
    funext a b
    unfold Ord.absO
    rw [dict_get hr.nodupE hr'.nodupE h1, dict_get hr.nodupL hr'.nodupL h2]

theorem absG_iff {d d' : HGroup K} (hd : d.keys.Nodup) (hd' : d'.keys.Nodup)
    (hs : ∀ e ∈ d.keys, sortV e = e) (hs' : ∀ e ∈ d'.keys, sortV e = e) :
    Hyper.absG d = Hyper.absG d' ↔ d.Perm d' := by
  constructor
  · intro h
    refine dict_perm hd hd' fun k => ?_
    by_cases hk : sortV k = k
    · have := congrFun h (k : Multiset Int)
      rwa [Hyper.absG_coe, Hyper.absG_coe, hk] at this
    · rw [(Dict.get?_eq_none_iff _ _).2 fun hm => hk (hs _ hm), (Dict.get?_eq_none_iff _ _).2 fun hm => hk (hs' _ hm)]
  · intro h
    funext e
    unfold Hyper.absG
    rw [dict_get hd hd' h]

theorem absM_iff {r r' : HRaw K} (hr : Hyper.Inv r) (hr' : Hyper.Inv r') : Hyper.absM r = Hyper.absM r' ↔
    (∀ g, g ∈ r.groups.keys ↔ g ∈ r'.groups.keys) ∧
      ∀ g, ((r.groups.get? g).getD []).Perm ((r'.groups.get? g).getD []) := by
  have hm : ∀ {r : HRaw K}, Hyper.Inv r → ∀ {g d}, r.groups.get? g = some d → (g, d) ∈ r.groups :=
    fun hr => fun h => (Dict.get?_eq_some_iff _ hr.names _ _).1 h
  have hk : ∀ (r : HRaw K) (g : String), g ∈ r.groups.keys ↔ r.groups.get? g ≠ none :=
    fun r g => by rw [Ne, Dict.get?_eq_none_iff, not_not]
  constructor
  · intro h
    have h1 : ∀ g, (r.groups.get? g).map Hyper.absG = (r'.groups.get? g).map Hyper.absG := fun g => congrFun h g
    refine ⟨fun g => ?_, fun g => ?_⟩
    · rw [hk, hk]
      have := h1 g
      cases hd : r.groups.get? g <;> cases hd' : r'.groups.get? g <;> simp [hd, hd'] at this ⊢
    · have := h1 g
      cases hd : r.groups.get? g <;> cases hd' : r'.groups.get? g <;> simp [hd, hd'] at this ⊢
      exact (absG_iff (hr.nodup _ (hm hr hd)) (hr'.nodup _ (hm hr' hd')) (hr.sorted _ (hm hr hd))
        (hr'.sorted _ (hm hr' hd'))).1 this
  · rintro ⟨h1, h2⟩
    funext g
    unfold Hyper.absM
    have a := h1 g
    have b := h2 g
    rw [hk, hk] at a
    cases hd : r.groups.get? g <;> cases hd' : r'.groups.get? g <;> simp [hd, hd'] at a b ⊢
    exact (absG_iff (hr.nodup _ (hm hr hd)) (hr'.nodup _ (hm hr' hd')) (hr.sorted _ (hm hr hd))
        (hr'.sorted _ (hm hr' hd'))).2 b

theorem absB_iff {r r' : GRaw K} (hr : Ord.Inv .bi r) (hr' : Ord.Inv .bi r') :
    Ord.absO r = Ord.absO r' ↔ r.eDict.Perm r'.eDict := by
  have e : ∀ {r : GRaw K}, Ord.Inv .bi r → ∀ a b, Ord.absO r a b = r.eDict.get? (a, b) := by
    intro r hr a b
    unfold Ord.absO
    rw [hr.noL rfl]
    cases Dict.get? r.eDict (a, b) <;> simp
  constructor
  · intro h
    refine dict_perm hr.nodupE hr'.nodupE fun k => ?_
    rw [← e hr, ← e hr', h]
  · intro h1
    funext a b
    rw [e hr, e hr', dict_get hr.nodupE hr'.nodupE h1]

end OrderFree

/-- C105 (Graph). If two graphs list the same weighted edges, up to order, and have the same self loop flag, this
remains so whatever is done to both of them. -/
theorem C105_graph_histories {g g' : GSt K} (hg : Graph.Built Graph.AnyArg g) (hg' : Graph.Built Graph.AnyArg g')
    (hn : (Graph.ask .numV g).1 = (Graph.ask .numV g').1) (hx : (Graph.stateDict g).extra = (Graph.stateDict g').extra)
    (h : (Spec.listing g).Perm (Spec.listing g')) (l : List (Graph.Step K)) :
    (Graph.ask .numV (Graph.run g l)).1 = (Graph.ask .numV (Graph.run g' l)).1 ∧
    (Graph.stateDict (Graph.run g l)).extra = (Graph.stateDict (Graph.run g' l)).extra ∧
    (Spec.listing (Graph.run g l)).Perm (Spec.listing (Graph.run g' l)) := by
  have hn' : g.raw.numV = g'.raw.numV := by
    rw [ask_eq hg, ask_eq hg'] at hn; simp only [Graph.evAsk] at hn; injection hn with hn; injection hn
  rw [listing_lst hg, listing_lst hg'] at h
  have hE : ∀ {g : GSt K}, Graph.Built Graph.AnyArg g → ∀ p ∈ g.raw.eDict.keys, p.1 ≠ p.2 :=
    fun hg p hp => (hg.inv.1.lt p hp).ne
  have hp := (absR_iff hg.inv.1 hg'.inv.1).2 (parts_of_lst hn' hx (hE hg) (hE hg') h)
  have hs : Graph.absS g = Graph.absS g' := by
    unfold Graph.absS
    rw [hp]
    congr 1
  obtain ⟨a, b⟩ := Graph.absS_run hg.inv.1 hg.inv.2 l
  obtain ⟨a', b'⟩ := Graph.absS_run hg'.inv.1 hg'.inv.2 l
  have hr := hg.run l
  have hr' := hg'.run l
  have hN : (Graph.run g l).raw.numV = (Graph.run g' l).raw.numV := b.trans (hn'.trans b'.symm)
  have hS : Graph.absS (Graph.run g l) = Graph.absS (Graph.run g' l) := by rw [a, a', hs, hn']
  have hX : (Graph.run g l).raw.extra = (Graph.run g' l).raw.extra := congrArg Spec.GState.extra hS
  have hM : Graph.absR (Graph.run g l).raw = Graph.absR (Graph.run g' l).raw := congrArg Spec.GState.map hS
  obtain ⟨p1, p2⟩ := (absR_iff hr.inv.1 hr'.inv.1).1 hM
  refine ⟨?_, hX, ?_⟩
  · rw [ask_eq hr, ask_eq hr']; simp only [Graph.evAsk, hN]
  · rw [listing_lst hr, listing_lst hr']
    exact lst_of_parts hN hX p1 p2

/-- C105 (DiGraph), partial. The same for directed graphs. Missing: histories with `reverse_direction`, which leaves
stale results (`C105_digraph_histories_false`). -/
theorem C105_digraph_histories_partial {b b' : Bool} {g g' : DSt K} (hg : DiGraph.Built Graph.AnyArg b g)
    (hg' : DiGraph.Built Graph.AnyArg b' g') (hn : (DiGraph.ask .numV g).1 = (DiGraph.ask .numV g').1)
    (hx : (DiGraph.stateDict g).extra = (DiGraph.stateDict g').extra)
    (h : (Spec.listingD g).Perm (Spec.listingD g')) (l : List (DiGraph.Step K)) (hl : Spec.NoReverse l) :
    (DiGraph.ask .numV (DiGraph.run g l)).1 = (DiGraph.ask .numV (DiGraph.run g' l)).1 ∧
    (DiGraph.stateDict (DiGraph.run g l)).extra = (DiGraph.stateDict (DiGraph.run g' l)).extra ∧
    (Spec.listingD (DiGraph.run g l)).Perm (Spec.listingD (DiGraph.run g' l)) := by
  have hn' : g.raw.numV = g'.raw.numV := by
    rw [hg.ask, hg'.ask] at hn; simp only [DiGraph.evAsk] at hn; injection hn with hn; injection hn
  rw [Di.listing_lst hg, Di.listing_lst hg'] at h
  have hp := (absO_iff hg.inv hg'.inv).2 (parts_of_lst hn' hx (hg.inv.ne rfl) (hg'.inv.ne rfl) h)
  have hs : Ord.absS g = Ord.absS g' := by
    unfold Ord.absS
    rw [hp]
    congr 1
  obtain ⟨a, c⟩ := DiGraph.absS_run hg.inv l
  obtain ⟨a', c'⟩ := DiGraph.absS_run hg'.inv l
  have hr : Ord.Inv .di (DiGraph.run g l).raw := DiGraph.run_inv hg.inv l
  have hr' : Ord.Inv .di (DiGraph.run g' l).raw := DiGraph.run_inv hg'.inv l
  have hc := (Di.run_same hg.coh.1 hg.coh.1 rfl l hl).1
  have hc' := (Di.run_same hg'.coh.1 hg'.coh.1 rfl l hl).1
  have hN : (DiGraph.run g l).raw.numV = (DiGraph.run g' l).raw.numV := c.trans (hn'.trans c'.symm)
  have hS : Ord.absS (DiGraph.run g l) = Ord.absS (DiGraph.run g' l) := by rw [a, a', hs, hn']
  have hX : (DiGraph.run g l).raw.extra = (DiGraph.run g' l).raw.extra := congrArg Spec.GState.extra hS
  have hM : Ord.absO (DiGraph.run g l).raw = Ord.absO (DiGraph.run g' l).raw := congrArg Spec.GState.map hS
  obtain ⟨p1, p2⟩ := (absO_iff hr hr').1 hM
  refine ⟨?_, hX, ?_⟩
  · rw [(DiGraph.reads_ask _ _ hc).1, (DiGraph.reads_ask _ _ hc').1]; simp only [DiGraph.evAsk, hN]
  · rw [DiGraph.listing_eq hc, DiGraph.listing_eq hc']
    exact lst_of_parts hN hX p1 p2

/-- C105 (BiGraph). The same for bipartite graphs. -/
theorem C105_bigraph_histories {g g' : BSt K} (hg : BiGraph.Built Graph.AnyArg g)
    (hg' : BiGraph.Built Graph.AnyArg g') (hm : (BiGraph.ask .numU g).1 = (BiGraph.ask .numU g').1)
    (hn : (BiGraph.ask .numV g).1 = (BiGraph.ask .numV g').1)
    (hx : g.raw.extra = g'.raw.extra)
    (h : (Spec.listingB g).Perm (Spec.listingB g')) (l : List (BiGraph.Step K)) :
    (BiGraph.ask .numU (BiGraph.run g l)).1 = (BiGraph.ask .numU (BiGraph.run g' l)).1 ∧
    (BiGraph.ask .numV (BiGraph.run g l)).1 = (BiGraph.ask .numV (BiGraph.run g' l)).1 ∧
    (BiGraph.run g l).raw.extra = (BiGraph.run g' l).raw.extra ∧
    (Spec.listingB (BiGraph.run g l)).Perm (Spec.listingB (BiGraph.run g' l)) := by
  have hn' : g.raw.numV = g'.raw.numV := by
    rw [hg.ask, hg'.ask] at hn; simp only [BiGraph.evAsk] at hn; injection hn with hn; injection hn
  have hm' : g.raw.numU = g'.raw.numU := by
    rw [hg.ask, hg'.ask] at hm; simp only [BiGraph.evAsk] at hm; injection hm with hm; injection hm
  rw [Bi.listing_lst hg, Bi.listing_lst hg', lst_eq, lst_eq, hn', hx, hg.inv.noL rfl, hg'.inv.noL rfl] at h
  have h0 := (List.perm_append_right_iff _).1 h
  rw [List.map_nil, List.append_nil, List.append_nil] at h0
  have hp := (absB_iff hg.inv hg'.inv).2 h0
  have hs : Ord.absS g = Ord.absS g' := by
    unfold Ord.absS
    rw [hp]
    congr 1
  obtain ⟨a, c, d⟩ := BiGraph.absS_run hg.inv l
  obtain ⟨a', c', d'⟩ := BiGraph.absS_run hg'.inv l
  have hr : Ord.Inv .bi (BiGraph.run g l).raw := BiGraph.run_inv hg.inv l
  have hr' : Ord.Inv .bi (BiGraph.run g' l).raw := BiGraph.run_inv hg'.inv l
  have hc := (Bi.run_same hg.coh hg.coh rfl l).1
  have hc' := (Bi.run_same hg'.coh hg'.coh rfl l).1
  have hN : (BiGraph.run g l).raw.numV = (BiGraph.run g' l).raw.numV := c.trans (hn'.trans c'.symm)
  have hU : (BiGraph.run g l).raw.numU = (BiGraph.run g' l).raw.numU := d.trans (hm'.trans d'.symm)
  have hS : Ord.absS (BiGraph.run g l) = Ord.absS (BiGraph.run g' l) := by rw [a, a', hs, hn', hm']
  have hX : (BiGraph.run g l).raw.extra = (BiGraph.run g' l).raw.extra := congrArg Spec.GState.extra hS
  have hM : Ord.absO (BiGraph.run g l).raw = Ord.absO (BiGraph.run g' l).raw := congrArg Spec.GState.map hS
  refine ⟨?_, ?_, hX, ?_⟩
  · rw [(BiGraph.reads_ask _ _ hc).1, (BiGraph.reads_ask _ _ hc').1]; simp only [BiGraph.evAsk, hU]
  · rw [(BiGraph.reads_ask _ _ hc).1, (BiGraph.reads_ask _ _ hc').1]; simp only [BiGraph.evAsk, hN]
  · rw [BiGraph.listing_eq hc, BiGraph.listing_eq hc']
    exact lst_of_parts hN hX ((absB_iff hr hr').1 hM) (by rw [hr.noL rfl, hr'.noL rfl])

/-- C105 (Hypergraph), partial. If two hypergraphs have the same hyperedge groups and every group of both contains
the same weighted hyperedges, up to order, this remains so whatever is done to both of them. Missing: histories in
which a call with an unknown `merge_op` fails halfway (`C105_hypergraph_histories_false`). -/
theorem C105_hypergraph_histories_partial {b b' : Bool} {s s' : HSt K} (hs : Hyper.Built Hyper.AnyH b s)
    (hs' : Hyper.Built Hyper.AnyH b' s')
    (hg : ∀ g, Spec.HasScope s (some g) ↔ Spec.HasScope s' (some g))
    (h : ∀ g, (Spec.hListing s (some g)).Perm (Spec.hListing s' (some g)))
    (l : List (Hyper.Step K)) (hl : Hyper.GoodRun s l) (hl' : Hyper.GoodRun s' l) :
    (∀ g, Spec.HasScope (Hyper.run s l) (some g) ↔ Spec.HasScope (Hyper.run s' l) (some g)) ∧
    (∀ g, (Spec.hListing (Hyper.run s l) (some g)).Perm (Spec.hListing (Hyper.run s' l) (some g))) ∧
    (Spec.hListing (Hyper.run s l) none).Perm (Spec.hListing (Hyper.run s' l) none) := by
  have e : ∀ {c : Bool} {t : HSt K}, Hyper.Built Hyper.AnyH c t → ∀ g, Spec.hListing t (some g) =
      (t.raw.groups.get? g).getD [] := fun ht g => Hyper.hListing_eq ht.inv.2 g
  have hr := hs.run l hl
  have hr' := hs'.run l hl'
  have hM := (absM_iff hs.inv.1 hs'.inv.1).2 ⟨hg, fun g => by rw [← e hs, ← e hs']; exact h g⟩
  have hM' : Hyper.absM (Hyper.run s l).raw = Hyper.absM (Hyper.run s' l).raw := by
    rw [Hyper.absM_run hs.inv.1 hs.inv.2 l hl, Hyper.absM_run hs'.inv.1 hs'.inv.2 l hl', hM]
  obtain ⟨h1, h2⟩ := (absM_iff hr.inv.1 hr'.inv.1).1 hM'
  have h3 : ∀ g, (Spec.hListing (Hyper.run s l) (some g)).Perm (Spec.hListing (Hyper.run s' l) (some g)) :=
    fun g => by rw [e hr, e hr']; exact h2 g
  refine ⟨h1, h3, ?_⟩
  rw [C33_hypergraph_group_order hr, C33_hypergraph_group_order hr']
  exact List.Perm.flatMap ((List.perm_ext_iff_of_nodup hr.inv.1.names hr'.inv.1.names).2 h1) fun g _ => h3 g

end histories

/-! ## examples -/

/-- a graph with the edges of `exG`, given in another order -/
noncomputable def exGr : GSt ℝ :=
  { raw := { numV := 3, eDict := [((1, 2), 3), ((0, 1), 2)], loops := [(2, 7)], extra := false }
    cache := [] }

theorem exGr_new : Graph.new (K := ℝ) 3
    (some (.many [(2, 2), (2, 1), (0, 1)] (.list [7, 3, 2]))) false .mean = .ok exGr := rfl

theorem exGr_nonneg : Graph.Built Graph.NonNeg exGr :=
  .new exGr_new fun _ h => by cases h; simp [Graph.NonNeg]

theorem exGr_perm : (Spec.listing exG).Perm (Spec.listing exGr) := by
  show List.Perm [((0, 1), (2 : ℝ)), ((1, 2), 3), ((2, 2), 7)] [((1, 2), 3), ((0, 1), 2), ((2, 2), 7)]
  exact List.Perm.swap _ _ _

example : Graph.Built Graph.NonNeg exG ∧ Graph.Built Graph.NonNeg exGr ∧ exG ≠ exGr ∧
    (Graph.ask .numV exG).1 = (Graph.ask .numV exGr).1 ∧ (Spec.listing exG).Perm (Spec.listing exGr) ∧
    (Graph.stateDict exG).extra = (Graph.stateDict exGr).extra ∧
    (Graph.ask (.Nv 1 2) exG).1 = (Graph.ask (.Nv 1 2) exGr).1 :=
  ⟨exG_nonneg, exGr_nonneg, fun h => by
    have := congrArg (fun g => g.raw.eDict.keys) h; revert this; simp [exG, exGr, Dict.keys],
    rfl, exGr_perm, rfl,
    C105_graph exG_nonneg exGr_nonneg rfl exGr_perm _ (by simp) (by simp) (by simp) (by simp)⟩

/-- a directed graph with the edges of `exD`, given in another order -/
noncomputable def exDr : DSt ℝ :=
  { raw := { numV := 3, eDict := [((1, 2), 3), ((1, 0), 2)], loops := [(2, 7)], extra := false }
    cache := [] }

theorem exDr_new : DiGraph.new (K := ℝ) 3
    (some (.many [(2, 2), (1, 2), (1, 0)] (.list [7, 3, 2]))) false .mean = .ok exDr := rfl

theorem exDr_nonneg : DiGraph.Built Graph.NonNeg false exDr :=
  .new exDr_new fun _ h => by cases h; simp [Graph.NonNeg]

theorem exDr_perm : (Spec.listingD exD).Perm (Spec.listingD exDr) := by
  show List.Perm [((1, 0), (2 : ℝ)), ((1, 2), 3), ((2, 2), 7)] [((1, 2), 3), ((1, 0), 2), ((2, 2), 7)]
  exact List.Perm.swap _ _ _

example : DiGraph.Built Graph.NonNeg false exD ∧ DiGraph.Built Graph.NonNeg false exDr ∧
    (DiGraph.ask .numV exD).1 = (DiGraph.ask .numV exDr).1 ∧ (Spec.listingD exD).Perm (Spec.listingD exDr) ∧
    (DiGraph.stateDict exD).extra = (DiGraph.stateDict exDr).extra ∧
    (DiGraph.ask .eWeight exD).1 = (DiGraph.ask .eWeight exDr).1 :=
  ⟨exD_nonneg, exDr_nonneg, rfl, exDr_perm, rfl, C105_digraph exD_nonneg exDr_nonneg rfl exDr_perm _ (by simp)⟩

/-- a bipartite graph with the edges of `exB`, given in another order -/
noncomputable def exBr : BSt ℝ :=
  { raw := { numU := 2, numV := 3, eDict := [((0, 2), 3), ((1, 0), 2), ((1, 1), 5)], loops := [], extra := false }
    cache := [] }

theorem exBr_new : BiGraph.new (K := ℝ) 2 3
    (some (.many [(0, 2), (1, 0), (1, 1)] (.list [3, 2, 5]))) .mean = .ok exBr := rfl

theorem exBr_nonneg : BiGraph.Built Graph.NonNeg exBr :=
  .new exBr_new fun _ h => by cases h; simp [Graph.NonNeg]

theorem exBr_perm : (Spec.listingB exB).Perm (Spec.listingB exBr) := by
  show List.Perm [((1, 0), (2 : ℝ)), ((0, 2), 3), ((1, 1), 5)] [((0, 2), 3), ((1, 0), 2), ((1, 1), 5)]
  exact List.Perm.swap _ _ _

example : BiGraph.Built Graph.NonNeg exB ∧ BiGraph.Built Graph.NonNeg exBr ∧
    (BiGraph.ask .numU exB).1 = (BiGraph.ask .numU exBr).1 ∧ (BiGraph.ask .numV exB).1 = (BiGraph.ask .numV exBr).1 ∧
    (Spec.listingB exB).Perm (Spec.listingB exBr) ∧ exB.raw.extra = exBr.raw.extra ∧
    (BiGraph.ask .LGCN exB).1 = (BiGraph.ask .LGCN exBr).1 :=
  ⟨exB_nonneg, exBr_nonneg, rfl, rfl, exBr_perm, rfl,
    C105_bigraph exB_nonneg exBr_nonneg rfl rfl exBr_perm _ (by simp)⟩

/-- a hypergraph with the hyperedges of `exH`, in another order and in a single group -/
noncomputable def exHr : HSt ℝ :=
  { raw := { numV := 4, vWeight := some [1, 1, 1, 1]
             groups := [("main", [([1, 3], 3), ([0, 1, 2], 2), ([3], 5)])] }
    cache := [] }

theorem exHr_new : Hyper.new (K := ℝ) 4 (some (.many false [⟨false, [3, 1]⟩, ⟨false, [2, 0, 1]⟩, ⟨true, [3]⟩])) (.list [3, 2, 5]) none .mean =
    .ok exHr := rfl

theorem exHr_proper : Hyper.Built Hyper.Proper true exHr :=
  .new exHr_new fun a h => by
    cases h
    intro e he
    simp only [Hyper.argEdges, List.map_cons, List.map_nil, List.mem_cons, List.not_mem_nil, or_false] at he
    rcases he with rfl | rfl | rfl <;> decide

theorem exHr_perm : (Spec.hListing exH none).Perm (Spec.hListing exHr none) := by
  show List.Perm [([0, 1, 2], (2 : ℝ)), ([1, 3], 3), ([3], 5)] [([1, 3], 3), ([0, 1, 2], 2), ([3], 5)]
  exact List.Perm.swap _ _ _

example : Hyper.Built Hyper.Proper true exH ∧ Hyper.Built Hyper.Proper true exHr ∧ Spec.HasScope exH none ∧
    Spec.HasScope exHr none ∧ (Hyper.ask .numV exH).1 = .ok (.num 4) ∧ (Hyper.ask .numV exHr).1 = .ok (.num 4) ∧
    (Spec.hListing exH none).Perm (Spec.hListing exHr none) ∧ Spec.HNonneg (Spec.hListing exH none) :=
  ⟨exH_proper, exHr_proper, List.cons_ne_nil _ _, List.cons_ne_nil _ _, rfl, rfl, exHr_perm, by
    intro e he
    rw [show Spec.hListing exH none = [([0, 1, 2], 2), ([1, 3], 3), ([3], 5)] from rfl] at he
    simp at he
    rcases he with rfl | rfl | rfl <;> norm_num⟩

/-- a hypergraph with the groups and hyperedges of `exH`, in another order -/
noncomputable def exHo : HSt ℝ :=
  { raw := { numV := 4, vWeight := some [1, 1, 1, 1]
             groups := [("b", [([3], 5)]), ("main", [([1, 3], 3), ([0, 1, 2], 2)])] }
    cache := [] }

theorem exHo_built : Hyper.Built Hyper.AnyH true exHo := by
  have h : (Hyper.apply (.addHyperedges (.many false [⟨false, [3, 1]⟩, ⟨false, [2, 0, 1]⟩]) (.list [3, 2]) .mean "main")
      (Hyper.apply (.addHyperedges (.one false [3]) (.scalar 5) .mean "b")
        (⟨⟨4, some [1, 1, 1, 1], []⟩, []⟩ : HSt ℝ)).2).2 = exHo := rfl
  rw [← h]
  exact .op _ (.op _ (.new (n := 4) (arg := none) (ew := .none) (vw := none) (op := .mean) rfl fun _ _ => trivial) (.inl (by simp [Hyper.GoodOp]))
    fun _ _ _ _ _ => trivial) (.inl (by simp [Hyper.GoodOp])) fun _ _ _ _ _ => trivial

example : Hyper.Built Hyper.AnyH true exH ∧ Hyper.Built Hyper.AnyH true exHo ∧
    (∀ g, Spec.HasScope exH (some g) ↔ Spec.HasScope exHo (some g)) ∧
    (∀ g, (Spec.hListing exH (some g)).Perm (Spec.hListing exHo (some g))) ∧
    Hyper.GoodRun exH [.op .clear, .read .v] ∧ Hyper.GoodRun exHo [.op .clear, .read .v] := by
  refine ⟨exH_built, exHo_built, fun g => ?_, fun g => ?_, ?_, ?_⟩
  · show g ∈ ["main", "b"] ↔ g ∈ ["b", "main"]
    simp only [List.mem_cons, List.not_mem_nil, or_false]
    exact or_comm
  · rw [Hyper.hListing_eq exH_built.inv.2, Hyper.hListing_eq exHo_built.inv.2]
    by_cases h1 : g = "main"
    · subst h1
      exact List.Perm.swap _ _ _
    · by_cases h2 : g = "b"
      · subst h2
        exact List.Perm.refl _
      · have e1 : Dict.get? exH.raw.groups g = none := by
          rw [Dict.get?_eq_none_iff]; show g ∉ ["main", "b"]; simp [h1, h2]
        have e2 : Dict.get? exHo.raw.groups g = none := by
          rw [Dict.get?_eq_none_iff]; show g ∉ ["b", "main"]; simp [h1, h2]
        rw [e1, e2]
  · exact ⟨.inl (by simp [Hyper.GoodOp]), trivial⟩
  · exact ⟨.inl (by simp [Hyper.GoodOp]), trivial⟩

/-- the path on two vertices with extra self loops -/
noncomputable def exFlag : GSt ℝ :=
  { raw := { numV := 2, eDict := [((0, 1), 1)], loops := [], extra := true }, cache := [] }

/-- the path on two vertices with a loop of weight 1 at both vertices -/
noncomputable def exLoops : GSt ℝ :=
  { raw := { numV := 2, eDict := [((0, 1), 1)], loops := [(0, 1), (1, 1)], extra := false }, cache := [] }

/-- C105 (Graph): the flag cannot be dropped from `C105_graph_GCN`. Two graphs with literally the same listing
have different `L_GCN` if in one of them the loops are there because extra self loops were asked for. -/
theorem C105_graph_flag_matters : ∃ g g' : GSt ℝ, Graph.Built Graph.NonNeg g ∧ Graph.Built Graph.NonNeg g' ∧
    (Graph.ask .numV g).1 = (Graph.ask .numV g').1 ∧ Spec.listing g = Spec.listing g' ∧
    (Graph.ask .LGCN g).1 ≠ (Graph.ask .LGCN g').1 := by
  have h1 : Graph.new (K := ℝ) 2 (some (.many [(0, 1)] .none)) true .mean = .ok exFlag := rfl
  have h2 : Graph.new (K := ℝ) 2 (some (.many [(0, 1), (0, 0), (1, 1)] .none)) false .mean = .ok exLoops := rfl
  have b1 : Graph.Built Graph.NonNeg exFlag := .new h1 fun _ h => by cases h; simp [Graph.NonNeg]
  have b2 : Graph.Built Graph.NonNeg exLoops := .new h2 fun _ h => by cases h; simp [Graph.NonNeg]
  have l1 : Spec.listing exFlag = [((0, 1), 1), ((0, 0), 1), ((1, 1), 1)] := by
    rw [listing_lst b1, lst_eq]; simp [exFlag, List.range_succ]
  have l2 : Spec.listing exLoops = [((0, 1), 1), ((0, 0), 1), ((1, 1), 1)] := rfl
  refine ⟨exFlag, exLoops, b1, b2, rfl, l1.trans l2.symm, fun h => ?_⟩
  have hw : Spec.NonnegWeights [((0, 1), (1 : ℝ)), ((0, 0), 1), ((1, 1), 1)] := by
    intro e he
    simp only [List.mem_cons, List.not_mem_nil, or_false] at he
    rcases he with rfl | rfl | rfl <;> norm_num
  obtain ⟨L, q, hL, hq, i, _⟩ := C11_graph_LGCN b1 (n := 2) rfl (by rw [l1]; exact hw)
  obtain ⟨L', q', hL', hq', i', _⟩ := C11_graph_LGCN b2 (n := 2) rfl (by rw [l2]; exact hw)
  have m1 : Spec.listing (Graph.apply .removeExtraSelfloop exFlag).2 = [((0, 1), 1)] := rfl
  have m2 : Spec.listing (Graph.apply .removeExtraSelfloop exLoops).2 = [((0, 1), 1), ((0, 0), 1), ((1, 1), 1)] := rfl
  have e : L = L' := by rw [hL, hL'] at h; injection h with h; injection h
  have g1 := i.get 0 0 (by omega) (by omega)
  have g2 := i'.get 0 0 (by omega) (by omega)
  have d1 := (hq 0 (by omega)).2
  have d2 := (hq' 0 (by omega)).2
  rw [m1] at g1 d1
  rw [m2] at g2 d2
  have w1 : Spec.wt (Spec.withUnitLoops 2 [((0, 1), (1 : ℝ))]) 0 0 = 1 := by
    norm_num [Spec.wt, Spec.withUnitLoops, List.range_succ]
  have w2 : Spec.wt (Spec.withUnitLoops 2 [((0, 1), (1 : ℝ)), ((0, 0), 1), ((1, 1), 1)]) 0 0 = 2 := by
    norm_num [Spec.wt, Spec.withUnitLoops, List.range_succ]
  have v1 : Spec.deg (Spec.withUnitLoops 2 [((0, 1), (1 : ℝ))]) 0 = 2 := by
    norm_num [Spec.deg, Spec.withUnitLoops, List.range_succ]
  have v2 : Spec.deg (Spec.withUnitLoops 2 [((0, 1), (1 : ℝ)), ((0, 0), 1), ((1, 1), 1)]) 0 = 3 := by
    norm_num [Spec.deg, Spec.withUnitLoops, List.range_succ]
  simp only [Nat.cast_zero, w1, w2, v1, v2] at g1 g2 d1 d2
  have d1' := (d1 (by norm_num)).2
  have d2' := (d2 (by norm_num)).2
  rw [e] at g1
  rw [g1] at g2
  nlinarith

/-- C105 (DiGraph) fails for histories with `reverse_direction`: two directed graphs with the same edges, one of
which has been read, give different adjacency matrices after `reverse_direction()`. -/
theorem C105_digraph_histories_false : ¬ ∀ (g g' : DSt ℝ) (b b' : Bool), DiGraph.Built Graph.NonNeg b g →
    DiGraph.Built Graph.NonNeg b' g' → (DiGraph.ask .numV g).1 = (DiGraph.ask .numV g').1 →
    (DiGraph.stateDict g).extra = (DiGraph.stateDict g').extra → (Spec.listingD g).Perm (Spec.listingD g') →
    ∀ l, (DiGraph.ask .A (DiGraph.run g l)).1 = (DiGraph.ask .A (DiGraph.run g' l)).1 := by
  intro h
  have hr : DiGraph.Built Graph.NonNeg true (DiGraph.ask .A exD).2 := .read .A exD_nonneg
  have h1 := h (DiGraph.ask .A exD).2 exD true false hr exD_nonneg (by rw [hr.ask, exD_nonneg.ask, DiGraph.keeps_ask])
    (by unfold DiGraph.stateDict; rw [DiGraph.keeps_ask])
    (by rw [Di.listing_lst hr, Di.listing_lst exD_nonneg, DiGraph.keeps_ask]) [.op .reverseDirection]
  have e1 : (DiGraph.ask .A (DiGraph.run (DiGraph.ask .A exD).2 [.op .reverseDirection])).1 =
    (DiGraph.ask .A exD).1 := rfl
  have e2 : (DiGraph.ask .A (DiGraph.run exD [.op .reverseDirection])).1 = (DiGraph.ask .AT exD).1 :=
    (C22_digraph_reverse_reads_partial exD_nonneg).1
  rw [e1, e2] at h1
  obtain ⟨A, AT, hA, hAT, _, h4, h5, h6⟩ := C23_digraph_adjacency exD_nonneg exD_numV
  rw [hA, hAT] at h1
  injection h1 with h1
  injection h1 with h1
  have a1 : A.get 1 0 = 2 := h5 1 0 2 (.inl (by omega)) (by rw [exD_listing]; simp)
  have a2 : A.get 0 1 = 0 := h6 0 1 (by rw [exD_listing]; simp)
  have a3 := h4.get 1 0 (by omega) (by omega)
  rw [← h1, a1] at a3
  rw [a2] at a3
  norm_num at a3

/-- C105 (Hypergraph) fails when a call with an unknown `merge_op` raises halfway: of two hypergraphs with the same
hyperedges the one that has been read before lists three hyperedges afterwards, the other one four. -/
theorem C105_hypergraph_histories_false : ¬ ∀ (s s' : HSt ℝ), Hyper.Built Hyper.AnyH true s →
    Hyper.Built Hyper.AnyH true s' → (∀ g, Spec.HasScope s (some g) ↔ Spec.HasScope s' (some g)) →
    (∀ g, (Spec.hListing s (some g)).Perm (Spec.hListing s' (some g))) →
    ∀ l, (Spec.hListing (Hyper.run s l) none).Perm (Spec.hListing (Hyper.run s' l) none) := by
  intro h
  have hr : Hyper.Built Hyper.AnyH true (Hyper.ask (.e none) exH).2 := .read _ exH_built
  have h1 := h exH _ exH_built hr (fun g => Iff.rfl)
    (fun g => by rw [Hyper.hListing_eq exH_built.inv.2, Hyper.hListing_eq hr.inv.2]; exact List.Perm.refl _)
    [.op (.addHyperedges (.many false [⟨true, [0]⟩, ⟨true, [1, 3]⟩]) .none .other "main")]
  have h2 := h1.length_eq
  have e1 : (Spec.hListing (Hyper.run exH [.op (.addHyperedges (.many false [⟨true, [0]⟩, ⟨true, [1, 3]⟩])
    .none .other "main")]) none).length = 4 := rfl
  have e2 : (Spec.hListing (Hyper.run (Hyper.ask (.e none) exH).2 [.op (.addHyperedges (.many false
    [⟨true, [0]⟩, ⟨true, [1, 3]⟩]) .none .other "main")]) none).length = 3 := rfl
  omega

end Props
end DHG
