import Verif.Props.ConvertHypers

/-!
# Weights after adding hyperedges made from graphs, bipartite graphs and features

The hyperedges made from a graph (`kHop`), a bipartite graph or features come with weight 1 and are
merged with the mean.  A hyperedge that was in the group already and is produced `k` times has its
weight moved half the way to 1, `k` times.
-/

set_option linter.unusedSectionVars false
set_option autoImplicit false

namespace DHG

namespace Spec

variable {K : Type} [Field K] [LinearOrder K] [PyReal K]

/-- `s'` is `s` after the hyperedge `e` has been added `copies` times with weight 1 to the group `gr`,
merged with the mean: an old weight `x` becomes `(x + 1) / 2` each time, a new hyperedge has weight 1 -/
def MergedOnes (s s' : HSt K) (gr : String) (e : Multiset Int) (copies : Nat) : Prop :=
  (∀ x, HListed s gr e x → ∀ w, HListed s' gr e w ↔ w = 1 + (x - 1) / 2 ^ copies) ∧
  ((¬ ∃ x, HListed s gr e x) → ∀ w, HListed s' gr e w ↔ 0 < copies ∧ w = 1)

end Spec

namespace Hyper

variable {K : Type} [Field K] [LinearOrder K] [PyReal K]

theorem hput_fold_ones [IsStrictOrderedRing K] (g : String) (l : List (Multiset Int × K))
    (hl : ∀ p ∈ l, p.2 = 1) (m : Spec.HMap K) (e : Multiset Int) :
    Spec.hGet (l.foldl (fun m p => Spec.hPut m .mean g p.1 p.2) m) g e =
      match Spec.hGet m g e with
      | some x => some (1 + (x - 1) / 2 ^ (l.map Prod.fst).count e)
      | none => if (l.map Prod.fst).count e = 0 then none else some 1 := by
  induction l generalizing m with
  | nil => cases h : Spec.hGet m g e <;> simp [h]
  | cons p l ih =>
    have hp := hl p List.mem_cons_self
    rw [List.foldl_cons, ih fun q hq => hl q (List.mem_cons_of_mem _ hq), hput_get]
    by_cases he : e = p.1
    · subst he
      rw [hp]
      cases h : Spec.hGet m g p.1 with
      | none => simp [h]
      | some x =>
        simp only [if_true, h, Spec.merge, List.map_cons, List.count_cons_self, Option.some.injEq]
        have : (2 : K) ≠ 0 := two_ne_zero
        rw [pow_succ]
        field_simp
        ring
    · have : (p.1 == e) = false := by simpa using fun h => he h.symm
      simp only [he, if_false, List.map_cons, List.count_cons, this, Bool.false_eq_true, Nat.add_zero]

/-- weights after `add_hyperedges` with a list of hyperedges and no weights -/
theorem add_list_ones [IsStrictOrderedRing K] {b : Bool} {s : HSt K} (hs : Built AnyH b s)
    (es : List (List Int)) (g : String) (e : Multiset Int) :
    Spec.MergedOnes s (addHyperedges (listArg es) .none .mean g s).2 g e
      ((es.map fun l : List Int => (l : Multiset Int)).count e) := by
  have hgood : GoodOp (.addHyperedges (listArg es) .none .mean g : HOp K) := by simp [GoodOp]
  have hB : Built AnyH b (addHyperedges (listArg es) .none .mean g s).2 :=
    Built.op (.addHyperedges (listArg es) .none .mean g) hs (.inl hgood) fun _ _ _ _ _ => trivial
  have hab := absM_apply (o := .addHyperedges (listArg es) .none .mean g) hs.inv.1 (.inl hgood)
  simp only [Spec.hApply, hEdges_listArg, List.length_map, Spec.hWeights] at hab
  have hab' : absM (addHyperedges (listArg es) .none .mean g s).2.raw = _ := hab
  have hone : ∀ p ∈ (es.map fun l : List Int => (l : Multiset Int)).zip (List.replicate es.length (1 : K)),
      p.2 = 1 := fun p hp => List.eq_of_mem_replicate (List.of_mem_zip hp).2
  have hz : ((es.map fun l : List Int => (l : Multiset Int)).zip (List.replicate es.length (1 : K))).map
      Prod.fst = es.map fun l : List Int => (l : Multiset Int) := by
    rw [List.map_fst_zip (by simp)]
  have key := hput_fold_ones g _ hone (absM s.raw) e
  rw [hz] at key
  unfold Spec.MergedOnes
  simp only [listed_iff hB.inv.1 hB.inv.2, listed_iff hs.inv.1 hs.inv.2, hab', key]
  constructor
  · intro x hx w
    rw [hx]
    simp [eq_comm]
  · intro hx w
    cases h : Spec.hGet (absM s.raw) g e with
    | some x => exact absurd ⟨x, h⟩ hx
    | none =>
      by_cases hc : (es.map fun l : List Int => (l : Multiset Int)).count e = 0
      · simp [hc]
      · simp [hc, Nat.pos_of_ne_zero hc, eq_comm]

theorem count_range {α : Type} [DecidableEq α] (F : Nat → α) (n : Nat) (e : α) :
    ((List.range n).map F).count e = {v | v < n ∧ e = F v}.ncard := by
  have h : {v | v < n ∧ e = F v} = ((Finset.range n).filter fun v => e = F v : Finset Nat) := by
    ext v; simp
  rw [h, Set.ncard_coe_finset]
  clear h
  induction n with
  | zero => simp
  | succ n ih =>
    rw [List.range_succ, List.map_append, List.count_append, ih, Finset.range_add_one, Finset.filter_insert]
    by_cases he : e = F n
    · rw [if_pos he, Finset.card_insert_of_notMem (by simp), he]
      simp
    · rw [if_neg he]
      simp [Ne.symm he]

theorem evBigraphList_list {r : GRaw K} (hf : Ord.Fits .bi r) (uAsVertex : Bool) :
    ∃ f : Nat → List Int, evBigraphList uAsVertex r =
      .ok (((List.range (sideNum uAsVertex r)).map f).filter fun l => decide (0 < l.length)) ∧
      ∀ i < sideNum uAsVertex r, (f i).Nodup ∧
        ∀ x : Int, x ∈ f i ↔ 0 ≤ x ∧ ∃ w, (sidePair uAsVertex x i, w) ∈ Graph.lst r := by
  have h : ∀ i : Nat, ∃ l, i < sideNum uAsVertex r → evSideNbr uAsVertex i r = .ok l ∧ l.Nodup ∧
      ∀ x : Int, x ∈ l ↔ 0 ≤ x ∧ ∃ w, (sidePair uAsVertex x i, w) ∈ Graph.lst r := by
    intro i
    by_cases hi : i < sideNum uAsVertex r
    · obtain ⟨l, hl⟩ := evSideNbr_spec hf hi
      exact ⟨l, fun _ => hl⟩
    · exact ⟨[], fun h => absurd h hi⟩
  choose f hf' using h
  refine ⟨f, ?_, fun i hi => (hf' i hi).2⟩
  unfold evBigraphList
  rw [collectE_ok (g := f) fun i hi => (hf' i (List.mem_range.1 hi)).1]
  rfl

end Hyper

namespace Props

variable {K : Type} [Field K] [LinearOrder K] [PyReal K] {b : Bool}

/-- C42. The weights after `add_hyperedges_from_graph_kHop`: each vertex whose `k`-hop set is `e` adds
`e` once with weight 1. -/
theorem C42_add_khop_weights [IsStrictOrderedRing K] {s : HSt K} (hs : Hyper.Built Hyper.AnyH b s)
    {g : GSt K} (hg : Graph.Built Graph.NonNeg g) {n : Nat} (hn : (Hyper.ask .numV s).1 = .ok (.num n))
    (hn' : (Graph.ask .numV g).1 = .ok (.num n)) {k : Nat} (hk : 1 ≤ k) (only : Bool) (gr : String)
    (e : Multiset Int) :
    Spec.MergedOnes s (Hyper.addFromGraphKHop k only gr (s, g)).2.1 gr e
      {v | v < n ∧ e.Nodup ∧ ∀ u, u ∈ e ↔ Spec.InHop (Spec.Adj (Spec.listing g)) only k v u}.ncard := by
  obtain ⟨r1, r2, r3⟩ := Hyper.reads_kHopList k only g hg.inv.2
  have e1 := Hy.numV_eq hn
  have e2 := numV_eq hn'
  rw [listing_lst hg, ← e2]
  obtain ⟨M, hM, he⟩ := Hyper.evKHopList_spec hg.inv.1 hg.pos hk only
  rw [Hyper.addFromGraphKHop_eq (s := s) (e1.trans e2.symm) (r1.trans he)]
  have key := Hyper.add_list_ones hs ((List.range g.raw.numV).map (Hyper.hopList M)) gr e
  rw [List.map_map, Hyper.count_range] at key
  have : {v | v < g.raw.numV ∧ e.Nodup ∧
      ∀ u, u ∈ e ↔ Spec.InHop (Spec.Adj (Graph.lst g.raw)) only k v u} =
      {v | v < g.raw.numV ∧ e = ((fun l : List Int => (l : Multiset Int)) ∘ Hyper.hopList M) v} := by
    ext v
    refine and_congr Iff.rfl ?_
    rw [Function.comp_apply, Hyper.coe_eq_iff (Hyper.hopList_nodup M v)]
    refine and_congr Iff.rfl (forall_congr' fun u => ?_)
    rw [Hyper.mem_hopList hM, inHop_iff hk]
  rw [this]
  exact key

example : Hyper.Built Hyper.AnyH true exHe ∧ Graph.Built Graph.NonNeg exG ∧
    (Hyper.ask .numV exHe).1 = .ok (.num 3) ∧ (Graph.ask .numV exG).1 = .ok (.num 3) ∧ 1 ≤ 2 :=
  ⟨exHe_proper.mono fun _ _ _ => trivial, exG_nonneg, rfl, rfl, by decide⟩

/-- C41. The weights after `add_hyperedges_from_bigraph`: each vertex of the other side whose
neighbourhood is `e` (not empty) adds `e` once with weight 1. -/
theorem C41_add_from_bigraph_weights [IsStrictOrderedRing K] {s : HSt K}
    (hs : Hyper.Built Hyper.AnyH b s) {g : BSt K}
    (hg : BiGraph.Built Graph.NonNeg g) {m n : Nat} (hm : (BiGraph.ask .numU g).1 = .ok (.num m))
    (hn : (BiGraph.ask .numV g).1 = .ok (.num n)) (hx : Spec.Bipartite m n g) (uAsVertex : Bool)
    (hs' : (Hyper.ask .numV s).1 = .ok (.num (if uAsVertex then m else n))) (gr : String)
    {e : Multiset Int} (he : e ≠ 0) :
    Spec.MergedOnes s (Hyper.addFromBigraph uAsVertex gr (s, g)).2.1 gr e
      {i : Nat | i < (if uAsVertex then n else m) ∧ e.Nodup ∧ ∀ x : Int, x ∈ e ↔
        ∃ w', ((if uAsVertex then (x, (i : Int)) else ((i : Int), x)), w') ∈ Spec.listingB g}.ncard := by
  have hn' := Bi.numV_eq hn
  have hm' := Bi.numU_eq hm
  subst hn' hm'
  obtain ⟨r1, r2, r3⟩ := Hyper.reads_bigraphList uAsVertex g hg.coh
  obtain ⟨f, h1, h2⟩ := Hyper.evBigraphList_list (Bi.fits hg hx) uAsVertex
  have hnum : Hyper.sideNum (!uAsVertex) g.raw = if uAsVertex then g.raw.numU else g.raw.numV := by
    unfold Hyper.sideNum; cases uAsVertex <;> rfl
  have hnum' : Hyper.sideNum uAsVertex g.raw = if uAsVertex then g.raw.numV else g.raw.numU := by
    unfold Hyper.sideNum; cases uAsVertex <;> rfl
  rw [Hyper.addFromBigraph_eq (s := s) ((Hy.numV_eq hs').trans hnum.symm) (r1.trans h1)]
  have key := Hyper.add_list_ones hs (((List.range (Hyper.sideNum uAsVertex g.raw)).map f).filter
    fun l => decide (0 < l.length)) gr e
  have hc : ((((List.range (Hyper.sideNum uAsVertex g.raw)).map f).filter
      fun l => decide (0 < l.length)).map fun l : List Int => (l : Multiset Int)).count e =
      (((List.range (Hyper.sideNum uAsVertex g.raw)).map fun i => (f i : Multiset Int))).count e := by
    rw [List.count_eq_countP, List.count_eq_countP, List.countP_map, List.countP_filter, List.countP_map,
      List.countP_map]
    refine List.countP_congr fun i _ => ?_
    simp only [Function.comp_apply, Bool.and_eq_true, beq_iff_eq, decide_eq_true_eq]
    refine ⟨fun h => h.1, fun h => ⟨h, ?_⟩⟩
    rw [List.length_pos_iff]
    intro h0
    rw [h0] at h
    exact he h.symm
  rw [hc, Hyper.count_range, hnum'] at key
  rw [hnum'] at h2
  rw [Bi.listing_lst hg]
  have : {i : Nat | i < (if uAsVertex then g.raw.numV else g.raw.numU) ∧ e.Nodup ∧ ∀ x : Int, x ∈ e ↔
        ∃ w', ((if uAsVertex then (x, (i : Int)) else ((i : Int), x)), w') ∈ Graph.lst g.raw} =
      {v | v < (if uAsVertex then g.raw.numV else g.raw.numU) ∧ e = (f v : Multiset Int)} := by
    ext i
    refine and_congr_right fun hi => ?_
    rw [Hyper.coe_eq_iff (h2 i hi).1]
    refine and_congr Iff.rfl (forall_congr' fun x => iff_congr Iff.rfl ?_)
    rw [(h2 i hi).2]
    refine ⟨fun h => ⟨?_, h⟩, fun h => h.2⟩
    obtain ⟨w', h⟩ := h
    have := (Bi.fits hg hx) _ h
    cases uAsVertex <;> simp at this <;> omega
  rw [this]
  exact key

example : Hyper.Built Hyper.AnyH true exHe ∧ BiGraph.Built Graph.NonNeg exB ∧
    (BiGraph.ask .numU exB).1 = .ok (.num 2) ∧ (BiGraph.ask .numV exB).1 = .ok (.num 3) ∧
    Spec.Bipartite 2 3 exB ∧
    (Hyper.ask .numV exHe).1 = .ok (.num (if false then 2 else 3)) ∧ ({0, 1} : Multiset Int) ≠ 0 :=
  ⟨exHe_proper.mono fun _ _ _ => trivial, exB_nonneg, rfl, rfl, exB_flag, rfl, by decide⟩

/-- C49. The weights after `add_hyperedges_from_feature_kNN`: each row whose nearest rows are `e` adds
`e` once with weight 1. -/
theorem C49_add_knn_weights [IsStrictOrderedRing K] {s : HSt K} (hs : Hyper.Built Hyper.AnyH b s)
    {rows k : Nat} (hk : k ≤ rows)
    (hn : (Hyper.ask .numV s).1 = .ok (.num rows)) (dist : Nat → Nat → K) (topk : (Nat → K) → List Nat)
    (gr : String) (e : Multiset Int) :
    Spec.MergedOnes s (Hyper.addFromFeatureKNN rows dist topk k gr s).2 gr e
      {v | v < rows ∧ e = Multiset.map (fun u : Nat => (u : Int)) (topk (dist v) : Multiset Nat)}.ncard := by
  have he : Hyper.addFromFeatureKNN rows dist topk k gr s = Hyper.addHyperedges (Hyper.listArg
      ((List.range rows).map fun v => (topk (dist v)).map fun u : Nat => (u : Int))) .none .mean gr s := by
    have h1 : rows = s.raw.numV := (Hy.numV_eq hn).symm
    have h2 : (k : Int) ≤ (rows : Int) := by exact_mod_cast hk
    unfold Hyper.addFromFeatureKNN
    simp only [PyM.bind_apply, readRaw, PyM.assert, decide_eq_true h1, if_true, PyM.lift, Hyper.kNNList,
      if_pos h2]
    rfl
  rw [he]
  have key := Hyper.add_list_ones hs
    ((List.range rows).map fun v => (topk (dist v)).map fun u : Nat => (u : Int)) gr e
  rw [List.map_map, Hyper.count_range] at key
  exact key

example : Hyper.Built Hyper.AnyH true exH2 ∧ 1 ≤ 2 ∧ (Hyper.ask .numV exH2).1 = .ok (.num 2) :=
  ⟨exH2_proper.mono fun _ _ _ => trivial, by decide, rfl⟩

end Props
end DHG
