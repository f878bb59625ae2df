import Verif.BiGraphLemmas
import Verif.OrderedFold

/-!
# Properties of `BiGraph`: edge set, listing, freshness, copies, dropping, removal, failures

`Any AnyArg g`: `g` was obtained through the public interface in any way.  `Built AnyArg g`: in
addition `clone` was not applied to an object carrying the extra self loop flag, or the cache has
been cleared since (`BiGraph.lean`).
-/

set_option linter.unusedSectionVars false
set_option autoImplicit false

namespace DHG
namespace Props

open BiGraph
open Graph (AnyArg NonNeg)

variable {K : Type} [Field K] [LinearOrder K] [PyReal K]

/-- example: two left and three right vertices, edges (1,0) weight 2, (0,2) weight 3, (1,1) weight 5 -/
noncomputable def exB : BSt ℝ :=
  { raw := { numU := 2, numV := 3, eDict := [((1, 0), 2), ((0, 2), 3), ((1, 1), 5)], loops := [], extra := false }
    cache := [] }

theorem exB_new : BiGraph.new (K := ℝ) 2 3
    (some (.many [(1, 0), (0, 2), (1, 1)] (.list [2, 3, 5]))) .sum = .ok exB := rfl

theorem exB_built : Built AnyArg exB := .new exB_new fun _ _ => trivial

theorem exB_nonneg : Built NonNeg exB :=
  .new exB_new (by intro a ha; cases ha; simp [NonNeg])

namespace Bi

theorem apply_raw_eq {s s' : BSt K} (hr : s.raw = s'.raw) (o : BOp K) :
    (apply o s).2.raw = (apply o s').2.raw := by
  cases o with
  | addEdges arg op => exact Ord.addEdges_raw_eq hr arg op
  | removeEdges arg => exact Ord.removeEdges_raw_eq hr arg
  | _ => simp [apply, DHG.addExtraSelfloop, DHG.removeExtraSelfloop, DHG.removeSelfloop, clearAll,
      setRaw, clearCache, hr]

theorem run_same {g g' : BSt K} (hc : Coherent (Ord.evKey .bi) g)
    (hc' : Coherent (Ord.evKey .bi) g') (hr : g.raw = g'.raw) (h : List (Step K)) :
    Coherent (Ord.evKey .bi) (run g h) ∧ Coherent (Ord.evKey .bi) (run g' h) ∧
      (run g h).raw = (run g' h).raw := by
  induction h generalizing g g' with
  | nil => exact ⟨hc, hc', hr⟩
  | cons st h ih =>
    cases st with
    | op o =>
      exact ih (g := (apply o g).2) (g' := (apply o g').2) (apply_coh o hc)
        (apply_coh o hc') (apply_raw_eq hr o)
    | read q =>
      obtain ⟨_, h2, h3⟩ := reads_ask q g hc
      obtain ⟨_, h2', h3'⟩ := reads_ask q g' hc'
      exact ih (g := (ask q g).2) (g' := (ask q g').2) h3 h3' (by rw [h2, h2', hr])

theorem indist_of_raw {g g' : BSt K} (hc : Coherent (Ord.evKey .bi) g)
    (hc' : Coherent (Ord.evKey .bi) g') (hr : g.raw = g'.raw) : Spec.IndistB g g' := by
  intro h q
  obtain ⟨h1, h2, h3⟩ := run_same hc hc' hr h
  rw [(reads_ask q _ h1).1, (reads_ask q _ h2).1, h3]

theorem numV_eq {g : BSt K} {n : Nat}
    (hn : (ask .numV g).1 = .ok (.num n)) : g.raw.numV = n := by
  have : (Except.ok (GAns.num g.raw.numV) : Except Err (GAns K)) = .ok (.num n) := hn
  injection this with h; injection h

theorem numU_eq {g : BSt K} {n : Nat}
    (hn : (ask .numU g).1 = .ok (.num n)) : g.raw.numU = n := by
  have : (Except.ok (GAns.num g.raw.numU) : Except Err (GAns K)) = .ok (.num n) := hn
  injection this with h; injection h

end Bi
open Bi

/-! ## C04 -/

/-- C04 (BiGraph). `e` answers with two lists of equal length `num_e`; without the self loop flag
every pair is listed at most once and the listing is the stored edges. -/
theorem C04_bigraph_listing {g : BSt K} (hg : Built AnyArg g) :
    ∃ es ws, (ask .e g).1 = .ok (.edges es ws) ∧ es.length = ws.length ∧
      (ask .numE g).1 = .ok (.num es.length) ∧
      (g.raw.extra = false → es.Nodup ∧ es.zip ws = (stateDict g).eDict) ∧
      (g.raw.extra = true → es.zip ws = (stateDict g).eDict ++
          (List.range (stateDict g).numV).map fun v : Nat => (((v : Int), (v : Int)), (1 : K))) := by
  have hl := hg.inv.noL rfl
  have hz := Graph.zip_listing g.raw
  rw [hl] at hz
  simp only [List.map_nil, List.append_nil] at hz
  refine ⟨g.raw.edgeList, g.raw.edgeWts, hg.ask .e, ?_, ?_, ?_, ?_⟩
  · rw [Graph.edgeList_length, Graph.edgeWts_length]
  · rw [hg.ask .numE, Graph.edgeList_length]; rfl
  · intro hx
    rw [hx] at hz
    simp only [Bool.false_eq_true, if_false, List.append_nil] at hz
    refine ⟨?_, hz⟩
    have : g.raw.edgeList = g.raw.eDict.keys := by
      unfold GRaw.edgeList
      rw [hl, hx]
      simp
    rw [this]
    exact hg.inv.nodupE
  · intro hx
    rw [hx] at hz
    exact hz

example : Built AnyArg exB ∧ exB.raw.extra = false := ⟨exB_built, rfl⟩

/-! ## C64 -/

/-- C64 (BiGraph). After any history, reading `e` shows exactly the abstract edge map obtained by
replaying the calls, plus the unit pairs `(v,v)` of the flag. -/
theorem C64_bigraph_edge_set {m : Nat} {n : Int} {arg : Option (EArg K)} {op : MergeOp}
    {g : BSt K} (hg : BiGraph.new m n arg op = .ok g) (h : List (Step K)) (a b : Int) (w : K) :
    let s := Spec.O.runB m n.toNat (Spec.O.new m n.toNat arg false op) h
    ((a, b), w) ∈ Spec.listingB (run g h) ↔
      (s.map a b = some w ∨ (s.extra = true ∧ a = b ∧ 0 ≤ a ∧ a < n ∧ w = 1)) := by
  have hb : Built AnyArg g := .new hg fun _ _ => trivial
  obtain ⟨h1, h2, h2', h3⟩ := absS_new hg
  obtain ⟨h4, h5, _⟩ := absS_run hb.inv h
  rw [h1, h2, h2'] at h4
  simp only
  rw [← h4, listing_eq (run_same hb.coh hb.coh rfl h).1,
    Ord.mem_listing (run_inv hb.inv h), h5, h2]
  simp only [Ord.absS]
  have : (a < (n.toNat : Int)) ↔ a < n := by omega
  rw [this]

example : BiGraph.new (K := ℝ) 2 3
    (some (.many [(1, 0), (0, 2), (1, 1)] (.list [2, 3, 5]))) .sum = .ok exB := exB_new

/-! ## C29 -/

/-- C29 (BiGraph), partial. Any read of a `Built` object without the self loop flag equals the same
read on a graph newly constructed from the stored fields. Missing: the flag, which state
dictionaries do not carry (`C16_bigraph_round_trip_false`), and clones of flagged objects
(`C29_bigraph_clone_fresh_false`). -/
theorem C29_bigraph_reads_fresh_partial {g : BSt K} (hg : Built AnyArg g) (hx : g.raw.extra = false)
    (hv : 0 < g.raw.numV) (q : BQuery K) :
    ∃ g' : BSt K, fromStateDict (stateDict g) = .ok g' ∧ (ask q g).1 = (ask q g').1 := by
  refine ⟨_, fromStateDict_of_pos hv, ?_⟩
  rw [(reads_ask q _ hg.coh).1, (reads_ask q _ (coherent_of_nil rfl)).1]
  exact congrArg (evAsk q) (strip_eq hg.inv hx).symm

/-- C29 (BiGraph). Reads never influence later answers. -/
theorem C29_bigraph_reads_do_not_interfere {g : BSt K} (hg : Built AnyArg g)
    (qs : List (BQuery K)) : Spec.IndistB (run g (qs.map .read)) g := by
  have key : ∀ (qs : List (BQuery K)) (g : BSt K), Coherent (Ord.evKey .bi) g →
      (run g (qs.map .read)).raw = g.raw ∧ Coherent (Ord.evKey .bi) (run g (qs.map .read)) := by
    intro qs
    induction qs with
    | nil => intro g hg; exact ⟨rfl, hg⟩
    | cons q' qs ih =>
      intro g hg
      obtain ⟨_, h1, h2⟩ := reads_ask q' g hg
      obtain ⟨h3, h4⟩ := ih _ h2
      exact ⟨h3.trans h1, h4⟩
  obtain ⟨h1, h2⟩ := key qs g hg.coh
  exact indist_of_raw h2 hg.coh h1

example : Built AnyArg (ask .A exB).2 := .read .A exB_built

/-- C29 (BiGraph) is false for clones of flagged objects: whether `e` was read before cloning
changes what the clone answers. -/
theorem C29_bigraph_clone_fresh_false :
    ¬ ∀ (g : BSt ℝ), Any AnyArg g → ∀ (q q' : BQuery ℝ) (g1 g2 : BSt ℝ), clone g = .ok g1 →
      clone (ask q' g).2 = .ok g2 → (ask q g1).1 = (ask q g2).1 := by
  intro h
  have hb : Any AnyArg (apply .addExtraSelfloop exB).2 :=
    .op .addExtraSelfloop exB_built.any (by intro _ _ h; cases h)
  have h1 := h _ hb .e .e _ _ rfl rfl
  have h2 : (Except.ok (GAns.edges [(1, 0), (0, 2), (1, 1)] [2, 3, 5]) : Except Err (GAns ℝ)) =
    .ok (.edges [(1, 0), (0, 2), (1, 1), (0, 0), (1, 1), (2, 2)] [2, 3, 5, 1, 1, 1]) := h1
  injection h2 with h2
  injection h2 with h2 _
  exact absurd h2 (by decide)

/-! ## C15, C16 -/

/-- C15 (BiGraph) is false: the clone of a graph with the extra self loop flag has lost the flag. -/
theorem C15_bigraph_clone_faithful_false :
    ¬ ∀ (g g' : BSt ℝ), Any AnyArg g → clone g = .ok g' → Spec.IndistB g' g := by
  intro h
  have hb : Any AnyArg (apply .addExtraSelfloop exB).2 :=
    .op .addExtraSelfloop exB_built.any (by intro _ _ h; cases h)
  have h1 := h _ _ hb rfl [] .e
  have h2 : (Except.ok (GAns.edges [(1, 0), (0, 2), (1, 1)] [2, 3, 5]) : Except Err (GAns ℝ)) =
    .ok (.edges [(1, 0), (0, 2), (1, 1), (0, 0), (1, 1), (2, 2)] [2, 3, 5, 1, 1, 1]) := h1
  injection h2 with h2
  injection h2 with h2 _
  exact absurd h2 (by decide)

/-- C15 (BiGraph), partial. Without the flag and with at least one right vertex, `clone` succeeds
and the clone answers every later history of calls as the original does. Missing: flagged graphs,
and graphs switched from `num_u = 0`, for which `clone` raises. -/
theorem C15_bigraph_clone_faithful_partial {g : BSt K} (hg : Any AnyArg g) (hx : g.raw.extra = false)
    (hv : 0 < g.raw.numV) : ∃ g', clone g = .ok g' ∧ Spec.IndistB g' g := by
  refine ⟨_, clone_of_pos hv, ?_⟩
  rw [strip_eq hg.inv hx]
  exact fun _ _ => rfl

/-- C16 (BiGraph) is false: the state dictionary does not carry the extra self loop flag. -/
theorem C16_bigraph_round_trip_false :
    ¬ ∀ (g g' : BSt ℝ), Any AnyArg g → fromStateDict (stateDict g) = .ok g' →
      ∀ q, (ask q g').1 = (ask q g).1 := by
  intro h
  have hb : Any AnyArg (apply .addExtraSelfloop exB).2 :=
    .op .addExtraSelfloop exB_built.any (by intro _ _ h; cases h)
  have h1 := h _ _ hb rfl .e
  have h2 : (Except.ok (GAns.edges [(1, 0), (0, 2), (1, 1)] [2, 3, 5]) : Except Err (GAns ℝ)) =
    .ok (.edges [(1, 0), (0, 2), (1, 1), (0, 0), (1, 1), (2, 2)] [2, 3, 5, 1, 1, 1]) := h1
  injection h2 with h2
  injection h2 with h2 _
  exact absurd h2 (by decide)

/-- C16 (BiGraph), partial. Without the flag and with at least one right vertex, rebuilding from
the state dictionary succeeds and every read, now and after any later calls, answers as on the
original. Missing: as for clones. -/
theorem C16_bigraph_round_trip_partial {g : BSt K} (hg : Built AnyArg g) (hx : g.raw.extra = false)
    (hv : 0 < g.raw.numV) : ∃ g', fromStateDict (stateDict g) = .ok g' ∧ Spec.IndistB g' g :=
  ⟨_, fromStateDict_of_pos hv, indist_of_raw (coherent_of_nil rfl) hg.coh (strip_eq hg.inv hx)⟩

example : Built AnyArg exB ∧ exB.raw.extra = false ∧ 0 < exB.raw.numV := ⟨exB_built, rfl, by simp [exB]⟩

/-! ## C17 -/

/-- C17 (BiGraph). `drop_edges(rate)` keeps the vertices, order and weights and exactly the stored
edges whose draw exceeds `rate` (the self loop flag is lost); other values of `ord` raise. -/
theorem C17_bigraph_drop_edges {g : BSt K} (hg : Any AnyArg g) (hv : 0 < g.raw.numV) (rate : K)
    (rnd : Nat → K) :
    (∃ g', dropEdges rate true rnd g = .ok g' ∧
      (ask .numV g').1 = (ask .numV g).1 ∧ (ask .numU g').1 = (ask .numU g).1 ∧
      Spec.listingB g' = ((stateDict g).eDict.zipIdx.filter fun p =>
        decide (rate < rnd p.2)).map Prod.fst) ∧
    dropEdges rate false rnd g = .error .value := by
  refine ⟨?_, rfl⟩
  unfold dropEdges
  simp only [if_true]
  refine ⟨_, fromStateDict_of_pos hv, ?_, ?_, ?_⟩
  · rw [(reads_ask .numV _ (coherent_of_nil rfl)).1]; rfl
  · rw [(reads_ask .numU _ (coherent_of_nil rfl)).1]; rfl
  · rw [listing_eq (coherent_of_nil rfl), Graph.zip_listing]
    simp only [Bool.false_eq_true, if_false, List.append_nil, List.map_nil]
    exact dropFilter_eq rate rnd 0 g.raw.eDict

example : ∃ g', dropEdges (1 / 2) true (fun i => if i = 0 then 0 else 3 / 4) exB = .ok g' :=
  ⟨_, rfl⟩

/-! ## C18 -/

/-- C18 (BiGraph). Removing named edges deletes exactly those. -/
theorem C18_bigraph_remove_exactly {g : BSt K} (hg : Built AnyArg g) (arg : EArg K)
    {m n : Nat} (hm : (ask .numU g).1 = .ok (.num m)) (hn : (ask .numV g).1 = .ok (.num n))
    (hr : ∀ e ∈ Spec.named arg, e.1 < (m : Int) ∧ e.2 < (n : Int))
    (a b : Int) (x : K) (hx : a ≠ b ∨ g.raw.extra = false) :
    ((a, b), x) ∈ Spec.listingB (apply (.removeEdges arg) g).2 ↔
      ((a, b), x) ∈ Spec.listingB g ∧ (a, b) ∉ Spec.named arg := by
  have hb' : Built AnyArg (apply (.removeEdges arg) g).2 := .op _ hg (by simp)
  have hn' := numV_eq hn
  have hm' := numU_eq hm
  rw [listing_eq hb'.coh, listing_eq hg.coh]
  exact Ord.remove_mem hg.inv (by subst hn' hm'; exact hr) a b x hx

/-- C18 (BiGraph). Removing edges that are not stored changes nothing. -/
theorem C18_bigraph_remove_absent {g : BSt K} (hg : Built AnyArg g) (arg : EArg K)
    (habs : ∀ e ∈ Spec.named arg, ∀ x, ((e.1, e.2), x) ∉ Spec.listingB (apply .removeExtraSelfloop g).2) :
    Spec.IndistB (apply (.removeEdges arg) g).2 g := by
  have hb' : Built AnyArg (apply (.removeEdges arg) g).2 := .op _ hg (by simp)
  have hb0 : Built AnyArg (apply .removeExtraSelfloop g).2 := .op _ hg (by simp)
  apply indist_of_raw hb'.coh hg.coh
  apply Ord.remove_absent
  intro e he
  by_contra hc
  obtain ⟨x, hx⟩ := Option.ne_none_iff_exists'.1 hc
  apply habs e he x
  rw [listing_eq hb0.coh, Ord.mem_listing hb0.inv]
  exact .inl hx

/-- C18 (BiGraph). Removing twice is the same as removing once. -/
theorem C18_bigraph_remove_idempotent {g : BSt K} (hg : Built AnyArg g) (arg : EArg K) :
    Spec.IndistB (apply (.removeEdges arg) (apply (.removeEdges arg) g).2).2
      (apply (.removeEdges arg) g).2 := by
  have hb' : Built AnyArg (apply (.removeEdges arg) g).2 := .op _ hg (by simp)
  have hb'' : Built AnyArg (apply (.removeEdges arg) (apply (.removeEdges arg) g).2).2 :=
    .op _ hb' (by simp)
  exact indist_of_raw hb''.coh hb'.coh (Ord.remove_twice hg.inv arg)

/-- C18 (BiGraph). Adding an absent edge and removing it again restores all reads. -/
theorem C18_bigraph_add_then_remove {g : BSt K} (hg : Built AnyArg g) {m n : Nat}
    (hm : (ask .numU g).1 = .ok (.num m)) (hn : (ask .numV g).1 = .ok (.num n))
    {a b : Int} {x : Option K} {op : MergeOp}
    (hop : op ≠ .other) (ha : a < m) (hb : b < n)
    (habs : ∀ y, ((a, b), y) ∉ Spec.listingB (apply .removeExtraSelfloop g).2) :
    (apply (.addEdges (.single a b x) op) g).1 = .ok () ∧
    Spec.IndistB (apply (.removeEdges (.single a b none)) (apply (.addEdges (.single a b x) op) g).2).2 g := by
  have hb0 : Built AnyArg (apply .removeExtraSelfloop g).2 := .op _ hg (by simp)
  have hb1 : Built AnyArg (apply (.addEdges (.single a b x) op) g).2 :=
    .op _ hg (fun _ _ _ => trivial)
  have hb2 : Built AnyArg
      (apply (.removeEdges (.single a b none)) (apply (.addEdges (.single a b x) op) g).2).2 :=
    .op _ hb1 (by simp)
  have hn' := numV_eq hn
  have hm' := numU_eq hm
  constructor
  · show (Ord.addEdges .bi (.single a b x) op g).1 = _
    rcases Ord.addEdges_cases (c := .bi) (.single a b x) op g with ⟨h0, h1⟩ | ⟨e, _, h1⟩ | ⟨es, ws, _, hf, h1⟩
    · rw [h1]
    · exfalso
      obtain ⟨f, hf⟩ := (Graph.mergeFn_ok_iff (K := K) op).2 hop
      unfold Ord.addEdges at h1
      rw [if_neg (by simp [EArg.isEmpty])] at h1
      simp only [PyM.bind_apply, readRaw, PyM.lift_apply, Ord.format_bi, formatEdgesBi, id] at h1
      rw [if_pos (by subst hn' hm'; exact ⟨ha, hb⟩)] at h1
      simp only at h1
      rw [Ord.forM_addEdge_ok hf] at h1
      cases congrArg Prod.fst h1
    · rcases h1 with ⟨_, h1⟩ | ⟨f, _, h1⟩ <;> rw [h1]
  · apply indist_of_raw hb2.coh hg.coh
    apply Ord.add_remove_raw hop hg.inv (by subst hm'; exact ha) (by subst hn'; exact hb)
    by_contra hc
    obtain ⟨y, hy⟩ := Option.ne_none_iff_exists'.1 hc
    apply habs y
    rw [listing_eq hb0.coh, Ord.mem_listing hb0.inv]
    exact .inl hy

example : ((0, 1), (1 : ℝ)) ∉ Spec.listingB (apply .removeExtraSelfloop exB).2 := by
  have : Spec.listingB (apply .removeExtraSelfloop exB).2 = [((1, 0), 2), ((0, 2), 3), ((1, 1), 5)] := rfl
  rw [this]; simp

/-! ## C19 -/

/-- C19 (BiGraph). A call that raises leaves the object as it was. -/
theorem C19_bigraph_failed_calls_atomic {g : BSt K} (o : BOp K) {e : Err}
    (he : (apply o g).1 = .error e) : Spec.IndistB (apply o g).2 g := by
  have : (apply o g).2 = g := by
    cases o with
    | addEdges arg op => exact Ord.addEdges_err he
    | removeEdges arg => exact Ord.removeEdges_err he
    | _ => cases he
  rw [this]
  exact fun _ _ => rfl

/-- C19 (BiGraph). Too large vertices and unknown merge operations do raise. -/
theorem C19_bigraph_bad_arguments_raise {g : BSt K} {m n : Nat}
    (hm : (ask .numU g).1 = .ok (.num m)) (hn : (ask .numV g).1 = .ok (.num n))
    (arg : EArg K) (op : MergeOp) (hne : arg.isEmpty = false)
    (h : ¬ (∀ e ∈ Spec.named arg, e.1 < (m : Int) ∧ e.2 < (n : Int)) ∨
      (op = .other ∧ Spec.weighted arg ≠ some [])) :
    ∃ e, (apply (.addEdges arg op) g).1 = .error e := by
  have hn' := numV_eq hn
  have hm' := numU_eq hm
  subst hn' hm'
  exact Ord.addEdges_bad hne h

example : (apply (.addEdges (.single 2 0 none) .mean) exB).1 = .error .assertion := rfl
example : (apply (.addEdges (.single 0 1 none) .other) exB).1 = .error .value := rfl

/-! ## C21 -/

/-- C21 (BiGraph) is false: surplus edges are silently ignored. -/
theorem C21_bigraph_weights_paired_false :
    ∃ g : BSt ℝ, BiGraph.new 3 3 (some (.many [(0, 1), (1, 2)] (.list [5]))) .mean = .ok g ∧
      ∀ w, ((1, 2), w) ∉ Spec.listingB g := by
  refine ⟨_, rfl, ?_⟩
  intro w h
  have : ((1, 2), w) ∈ [(((0 : Int), (1 : Int)), (5 : ℝ))] := h
  simp at this

/-- C21 (BiGraph), partial: with lists of equal length and pairs that are pairwise different and
absent before, every listed edge is added with the weight at its position. Missing: rejection of
unequal lengths. -/
theorem C21_bigraph_weights_paired_partial {g : BSt K} (hg : Built AnyArg g)
    {es : List (Int × Int)} {ws : List K} (hlen : es.length = ws.length)
    {op : MergeOp} (hok : (apply (.addEdges (.many es (.list ws)) op) g).1 = .ok ())
    (hdis : es.Pairwise fun e e' => e ≠ e')
    (habs : ∀ e ∈ es, ∀ x, (e, x) ∉ Spec.listingB (apply .removeExtraSelfloop g).2)
    (i : Nat) (hi : i < es.length) :
    (es[i], ws[i]'(hlen ▸ hi)) ∈ Spec.listingB (apply (.addEdges (.many es (.list ws)) op) g).2 := by
  have hb0 : Built AnyArg (apply .removeExtraSelfloop g).2 := .op _ hg (by simp)
  have hb1 : Built AnyArg (apply (.addEdges (.many es (.list ws)) op) g).2 :=
    .op _ hg (fun _ _ _ => trivial)
  rw [listing_eq hb1.coh, show es[i] = (es[i].1, es[i].2) from rfl, Ord.mem_listing hb1.inv]
  left
  refine Ord.weights_paired hg.inv hlen hok hdis ?_ i hi
  intro e he
  by_contra hc
  obtain ⟨y, hy⟩ := Option.ne_none_iff_exists'.1 hc
  apply habs e he y
  rw [listing_eq hb0.coh, show e = (e.1, e.2) from rfl, Ord.mem_listing hb0.inv]
  exact .inl hy

example : (apply (.addEdges (.many [(0, 1), (1, 2)] (.list [5, 6])) .sum) exB).1 = .ok () := rfl

/-! ## C28 -/

/-- C28 (BiGraph). `from_adj_list` has (weight 1) an edge from the head of each line to each later
element, and nothing else. -/
theorem C28_bigraph_from_adj_list [IsStrictOrderedRing K] {m : Nat} {n : Int} {adj : List (List Int)}
    {g : BSt K} (hg : fromAdjList m n adj = .ok g) (a b : Int) (w : K) :
    ((a, b), w) ∈ Spec.listingB g ↔ w = 1 ∧
      (∃ line ∈ adj, ∃ tl, line = a :: tl ∧ b ∈ tl) := by
  have hb : Built AnyArg g := .adj hg trivial
  have hn : 0 < n := (new_eq (K := K) hg).1
  have hok : (Ord.addEdges .bi (.many (Graph.adjListEdges adj) .none) .mean
      ({ raw := base m n.toNat, cache := [] } : BSt K)).1 = .ok () := by
    unfold fromAdjList BiGraph.new at hg
    rw [init_of_pos hn] at hg
    simp only [bind, Except.bind] at hg
    split at hg
    · rename_i h; rw [h]
    · cases hg
  have hr := (new_eq (K := K) hg).2.2
  simp only at hr
  have hsz := Ord.addEdges_sizes (c := .bi) (.many (Graph.adjListEdges adj) .none) .mean
    ({ raw := base m n.toNat, cache := [] } : BSt K)
  rw [listing_eq hb.coh, Ord.mem_listing hb.inv, hr, Ord.adj_abs (c := .bi) (base_inv _ _) rfl rfl hok, hsz.1, hsz.2.2]
  simp

example : ∃ g : BSt ℝ, fromAdjList 4 3 [[0, 1, 2], [3], [2, 0]] = .ok g := ⟨_, rfl⟩

end Props
end DHG
