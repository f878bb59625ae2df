import Verif.DiGraphLemmas
import Verif.OrderedFold

/-!
# Properties of `DiGraph`: edge set, listing, freshness, copies, dropping, removal, failures

`Any AnyArg g`: `g` was obtained through the public interface in any way.  `Built AnyArg w g`: in
addition `reverse_direction` was not called while values were cached, or the cache has been cleared
since (`DiGraph.lean`).  `Spec.O.*` is the abstract edge map (`OrderedSpec.lean`).
-/

set_option linter.unusedSectionVars false
set_option autoImplicit false

namespace DHG
namespace Props

open DiGraph
open Graph (AnyArg NonNeg)

variable {K : Type} [Field K] [LinearOrder K] [PyReal K]

/-- example: three vertices, edges 1→0 (weight 2), 1→2 (weight 3), a loop at 2 -/
noncomputable def exD : DSt ℝ :=
  { raw := { numV := 3, eDict := [((1, 0), 2), ((1, 2), 3)], loops := [(2, 7)], extra := false }
    cache := [] }

theorem exD_new : DiGraph.new (K := ℝ) 3
    (some (.many [(1, 0), (1, 2), (2, 2)] (.list [2, 3, 7]))) false .sum = .ok exD := rfl

theorem exD_built : Built AnyArg false exD := .new exD_new fun _ _ => trivial

theorem exD_nonneg : Built NonNeg false exD :=
  .new exD_new (by intro a ha; cases ha; simp [NonNeg])

namespace Di

theorem apply_raw_eq {s s' : DSt K} (hr : s.raw = s'.raw) (o : DOp K) :
    (apply o s).2.raw = (apply o s').2.raw := by
  cases o with
  | addEdges arg op => exact Ord.addEdges_raw_eq hr arg op
  | removeEdges arg => exact Ord.removeEdges_raw_eq hr arg
  | _ => simp [apply, DHG.addExtraSelfloop, DHG.removeExtraSelfloop, DHG.removeSelfloop, clearAll,
      reverseDirection, setRaw, clearCache, hr]

theorem apply_coh {s : DSt K} (o : DOp K) (ho : o ≠ .reverseDirection)
    (h : Coherent (Ord.evKey .di) s) : Coherent (Ord.evKey .di) (apply o s).2 := by
  rcases apply_cache o s ho with h1 | h1
  · rw [h1]; exact h
  · exact coherent_of_nil h1

theorem run_same {g g' : DSt K} (hc : Coherent (Ord.evKey .di) g)
    (hc' : Coherent (Ord.evKey .di) g') (hr : g.raw = g'.raw) (h : List (Step K))
    (hh : Spec.NoReverse h) :
    Coherent (Ord.evKey .di) (run g h) ∧ Coherent (Ord.evKey .di) (run g' h) ∧
      (run g h).raw = (run g' h).raw := by
  induction h generalizing g g' with
  | nil => exact ⟨hc, hc', hr⟩
  | cons st h ih =>
    have hh' : Spec.NoReverse h := fun st hst => hh st (List.mem_cons_of_mem _ hst)
    cases st with
    | op o =>
      have ho : o ≠ .reverseDirection := by
        rintro rfl; exact hh _ List.mem_cons_self rfl
      exact ih (g := (apply o g).2) (g' := (apply o g').2) (apply_coh o ho hc)
        (apply_coh o ho hc') (apply_raw_eq hr o) hh'
    | read q =>
      obtain ⟨_, h2, h3⟩ := reads_ask q g hc
      obtain ⟨_, h2', h3'⟩ := reads_ask q g' hc'
      exact ih (g := (ask q g).2) (g' := (ask q g').2) h3 h3' (by rw [h2, h2', hr]) hh'

theorem indist_of_raw {g g' : DSt K} (hc : Coherent (Ord.evKey .di) g)
    (hc' : Coherent (Ord.evKey .di) g') (hr : g.raw = g'.raw) : Spec.IndistNR g g' := by
  intro h hh q
  obtain ⟨h1, h2, h3⟩ := run_same hc hc' hr h hh
  rw [(reads_ask q _ h1).1, (reads_ask q _ h2).1, h3]

theorem numV_eq {P : EArg K → Prop} {g : DSt K} (hg : Any P g) {n : Nat}
    (hn : (ask .numV g).1 = .ok (.num n)) : g.raw.numV = n := by
  have : (Except.ok (GAns.num g.raw.numV) : Except Err (GAns K)) = .ok (.num n) := hn
  injection this with h; injection h

end Di
open Di

/-! ## C04 -/

/-- C04 (DiGraph). `e` answers with two lists of equal length `num_e`; every ordered proper pair
is listed at most once; the listing is the stored edges, then the stored loops, then (with the
flag) one unit loop per vertex. -/
theorem C04_digraph_listing {w : Bool} {g : DSt K} (hg : Built AnyArg w g) :
    ∃ es ws, (ask .e g).1 = .ok (.edges es ws) ∧ es.length = ws.length ∧
      (ask .numE g).1 = .ok (.num es.length) ∧
      (es.filter fun e => e.1 ≠ e.2).Nodup ∧
      es.zip ws = (stateDict g).eDict ++ (stateDict g).loops.map (fun p => ((p.1, p.1), p.2)) ++
        (if (stateDict g).extra then
          (List.range (stateDict g).numV).map fun v : Nat => (((v : Int), (v : Int)), (1 : K)) else []) := by
  refine ⟨g.raw.edgeList, g.raw.edgeWts, hg.ask .e, ?_, ?_, Ord.nodup_listing hg.inv,
    Graph.zip_listing g.raw⟩
  · rw [Graph.edgeList_length, Graph.edgeWts_length]
  · rw [hg.ask .numE, Graph.edgeList_length]; rfl

example : Built AnyArg false exD := exD_built

/-! ## C64 -/

/-- C64 (DiGraph), partial. After any history without `reverse_direction`, reading `e` shows
exactly the abstract edge map obtained by replaying the calls, plus the unit loops of the flag.
Missing: histories that reverse a graph whose listing is cached (see `C29_digraph_fresh_false`). -/
theorem C64_digraph_edge_set_partial {n : Int} {arg : Option (EArg K)} {extra : Bool} {op : MergeOp}
    {g : DSt K} (hg : DiGraph.new n arg extra op = .ok g) (h : List (Step K))
    (hh : Spec.NoReverse h) (a b : Int) (w : K) :
    let s := Spec.O.runD n.toNat (Spec.O.new n.toNat n.toNat arg extra op) h
    ((a, b), w) ∈ Spec.listingD (run g h) ↔
      (s.map a b = some w ∨ (s.extra = true ∧ a = b ∧ 0 ≤ a ∧ a < n ∧ w = 1)) := by
  have hb : Built AnyArg false g := .new hg fun _ _ => trivial
  obtain ⟨h1, h2, h3⟩ := absS_new hg
  obtain ⟨h4, h5⟩ := absS_run hb.inv h
  rw [h1, h2] at h4
  simp only
  rw [← h4, listing_eq (run_same hb.coh.1 hb.coh.1 rfl h hh).1,
    Ord.mem_listing (run_inv hb.inv h), h5, h2]
  simp only [Ord.absS]
  have : (a < (n.toNat : Int)) ↔ a < n := by omega
  rw [this]

/-- C64 (DiGraph), stored edges. After any history, `reverse_direction` included, the object
rebuilt from the state dictionary lists exactly the replayed abstract edge map. -/
theorem C64_digraph_stored_edge_set {n : Int} {arg : Option (EArg K)} {extra : Bool} {op : MergeOp}
    {g : DSt K} (hg : DiGraph.new n arg extra op = .ok g) (h : List (Step K)) :
    let s := Spec.O.runD n.toNat (Spec.O.new n.toNat n.toNat arg extra op) h
    ∃ g', fromStateDict (stateDict (run g h)) = .ok g' ∧ ∀ (a b : Int) (w : K),
      ((a, b), w) ∈ Spec.listingD g' ↔
        (s.map a b = some w ∨ (s.extra = true ∧ a = b ∧ 0 ≤ a ∧ a < n ∧ w = 1)) := by
  have hb : Built AnyArg false g := .new hg fun _ _ => trivial
  have hi := run_inv hb.inv h
  obtain ⟨h1, h2, h3⟩ := absS_new hg
  obtain ⟨h4, h5⟩ := absS_run hb.inv h
  rw [h1, h2] at h4
  refine ⟨_, fromStateDict_stateDict hi, ?_⟩
  intro a b w
  rw [← h4, listing_eq (coherent_of_nil rfl), Ord.mem_listing hi, h5, h2]
  simp only [Ord.absS]
  have : (a < (n.toNat : Int)) ↔ a < n := by omega
  rw [this]

example : Spec.NoReverse [Step.op (DOp.removeEdges (.single 0 1 none)), .read (DQuery.A (K := ℝ))] := by
  intro st hst
  rcases List.mem_cons.1 hst with rfl | hst
  · simp
  · rw [List.mem_singleton.1 hst]; simp

/-! ## C29 -/

/-- C29 (DiGraph) is false: after reading `e`, `reverse_direction()` does not change the answer
of `e`, although without the first read it does. -/
theorem C29_digraph_fresh_false :
    ¬ ∀ (g : DSt ℝ), Any AnyArg g → ∀ (h : List (Step ℝ)) (q q' : DQuery ℝ),
      (ask q (run (ask q' g).2 h)).1 = (ask q (run g h)).1 := by
  intro h
  have h1 := h exD exD_built.any [.op .reverseDirection] .e .e
  have h2 : (Except.ok (GAns.edges [(1, 0), (1, 2), (2, 2)] [2, 3, 7]) : Except Err (GAns ℝ)) =
    .ok (.edges [(0, 1), (2, 1), (2, 2)] [2, 3, 7]) := h1
  injection h2 with h2
  injection h2 with h2 _
  exact absurd h2 (by decide)

/-- C29 (DiGraph), partial. Any read of a `Built` object equals the same read on a graph newly
constructed from the stored fields. Missing: objects reversed while values were cached. -/
theorem C29_digraph_reads_fresh_partial {w : Bool} {g : DSt K} (hg : Built AnyArg w g)
    (q : DQuery K) :
    ∃ g' : DSt K, fromStateDict (stateDict g) = .ok g' ∧ (ask q g).1 = (ask q g').1 := by
  refine ⟨_, fromStateDict_stateDict hg.inv, ?_⟩
  rw [(reads_ask q _ hg.coh.1).1, (reads_ask q _ (coherent_of_nil rfl)).1]

/-- C29 (DiGraph), partial. Reads never influence later answers in histories without
`reverse_direction`.  Missing: histories with it, where they do (`C22_digraph_reverse_false`). -/
theorem C29_digraph_reads_do_not_interfere_partial {w : Bool} {g : DSt K} (hg : Built AnyArg w g)
    (qs : List (DQuery K)) : Spec.IndistNR (run g (qs.map .read)) g := by
  have key : ∀ (qs : List (DQuery K)) (g : DSt K), Coherent (Ord.evKey .di) g →
      (run g (qs.map .read)).raw = g.raw ∧ Coherent (Ord.evKey .di) (run g (qs.map .read)) := by
    intro qs
    induction qs with
    | nil => intro g hg; exact ⟨rfl, hg⟩
    | cons q' qs ih =>
      intro g hg
      obtain ⟨_, h1, h2⟩ := reads_ask q' g hg
      obtain ⟨h3, h4⟩ := ih _ h2
      exact ⟨h3.trans h1, h4⟩
  obtain ⟨h1, h2⟩ := key qs g hg.coh.1
  exact indist_of_raw h2 hg.coh.1 h1

example : Built AnyArg true (ask .A exD).2 := .read .A exD_built

/-! ## C15, C16 -/

/-- C15 (DiGraph). A clone answers every later history of calls as the original does. -/
theorem C15_digraph_clone_faithful {g : DSt K} : Spec.IndistD (clone g) g := fun _ _ => rfl

/-- C16 (DiGraph). Rebuilding from the state dictionary always succeeds, and every read, now and
after any later calls other than `reverse_direction`, answers as on the original. -/
theorem C16_digraph_state_dict_round_trip {w : Bool} {g : DSt K} (hg : Built AnyArg w g) :
    ∃ g', fromStateDict (stateDict g) = .ok g' ∧ Spec.IndistNR g' g :=
  ⟨_, fromStateDict_stateDict hg.inv, indist_of_raw (coherent_of_nil rfl) hg.coh.1 rfl⟩

/-! ## C17 -/

/-- C17 (DiGraph). `drop_edges(rate)` keeps vertices, order, weights and exactly the stored edges
and loops whose draw exceeds `rate`; other values of `ord` raise. -/
theorem C17_digraph_drop_edges {w : Bool} {g : DSt K} (hg : Built AnyArg w g) (rate : K)
    (rnd : Nat → K) :
    (∃ g', dropEdges rate true rnd g = .ok g' ∧
      (ask .numV g').1 = (ask .numV g).1 ∧
      let m := (stateDict g).eDict.length + (stateDict g).loops.length
      Spec.listingD g' = ((Spec.listingD g).zipIdx.filter fun p =>
        decide (p.2 < m → rate < rnd p.2)).map Prod.fst) ∧
    dropEdges rate false rnd g = .error .value := by
  refine ⟨?_, rfl⟩
  unfold dropEdges
  simp only [if_true]
  have hpos := hg.inv.pos rfl
  refine ⟨{ raw := { numV := g.raw.numV
                     eDict := Graph.dropFilter rate rnd 0 g.raw.eDict
                     loops := Graph.dropFilter rate rnd g.raw.eDict.length g.raw.loops
                     extra := g.raw.extra }
            cache := [] }, ?_, ?_, ?_⟩
  · unfold fromStateDict GRaw.init
    rw [if_pos (by simpa using hpos)]
    rfl
  · rw [hg.ask .numV]; rfl
  · rw [listing_eq (coherent_of_nil rfl), listing_eq hg.coh.1]
    exact Ord.drop_listing g.raw rate rnd

/-- C17 (DiGraph). A drop rate of at least 1 drops every stored edge and loop. -/
theorem C17_digraph_drop_all {g g' : DSt K} (rate : K) (rnd : Nat → K)
    (hr : 1 ≤ rate) (hrnd : ∀ i, rnd i < 1) (h : dropEdges rate true rnd g = .ok g') :
    (stateDict g').eDict = [] ∧ (stateDict g').loops = [] := by
  have hd : ∀ {α : Type} (i : Nat) (l : List α), Graph.dropFilter rate rnd i l = [] := by
    intro α i l
    induction l generalizing i with
    | nil => rfl
    | cons x l ih =>
      unfold Graph.dropFilter
      rw [if_neg (not_lt.2 ((hrnd i).le.trans hr))]
      exact ih _
  obtain ⟨rfl, _⟩ := drop_raw h
  exact ⟨hd _ _, hd _ _⟩

example : ∃ g', dropEdges (1 / 2) true (fun i => if i = 0 then 0 else 3 / 4) exD = .ok g' :=
  ⟨_, rfl⟩

/-! ## C18 -/

/-- C18 (DiGraph). Removing named edges deletes exactly those, in the given direction. -/
theorem C18_digraph_remove_exactly {w : Bool} {g : DSt K} (hg : Built AnyArg w g) (arg : EArg K)
    {n : Nat} (hn : (ask .numV g).1 = .ok (.num n))
    (hr : ∀ e ∈ Spec.named arg, e.1 < (n : Int) ∧ e.2 < (n : Int))
    (a b : Int) (x : K) (hx : a ≠ b ∨ (stateDict g).extra = false) :
    ((a, b), x) ∈ Spec.listingD (apply (.removeEdges arg) g).2 ↔
      ((a, b), x) ∈ Spec.listingD g ∧ (a, b) ∉ Spec.named arg := by
  have hb' : Built AnyArg w (apply (.removeEdges arg) g).2 := .op _ hg (by simp) (by simp)
  have hn' := numV_eq hg.any hn
  rw [listing_eq hb'.coh.1, listing_eq hg.coh.1]
  exact Ord.remove_mem hg.inv (by subst hn'; exact hr) a b x hx

/-- C18 (DiGraph). Removing edges that are not stored changes nothing. -/
theorem C18_digraph_remove_absent {w : Bool} {g : DSt K} (hg : Built AnyArg w g) (arg : EArg K)
    (habs : ∀ e ∈ Spec.named arg, ∀ x, ((e.1, e.2), x) ∉ Spec.listingD (apply .removeExtraSelfloop g).2) :
    Spec.IndistNR (apply (.removeEdges arg) g).2 g := by
  have hb' : Built AnyArg w (apply (.removeEdges arg) g).2 := .op _ hg (by simp) (by simp)
  have hb0 : Built AnyArg w (apply .removeExtraSelfloop g).2 := .op _ hg (by simp) (by simp)
  apply indist_of_raw hb'.coh.1 hg.coh.1
  apply Ord.remove_absent
  intro e he
  by_contra hc
  obtain ⟨x, hx⟩ := Option.ne_none_iff_exists'.1 hc
  apply habs e he x
  rw [listing_eq hb0.coh.1, Ord.mem_listing hb0.inv]
  exact .inl hx

/-- C18 (DiGraph). Removing twice is the same as removing once. -/
theorem C18_digraph_remove_idempotent {w : Bool} {g : DSt K} (hg : Built AnyArg w g) (arg : EArg K) :
    Spec.IndistNR (apply (.removeEdges arg) (apply (.removeEdges arg) g).2).2
      (apply (.removeEdges arg) g).2 := by
  have hb' : Built AnyArg w (apply (.removeEdges arg) g).2 := .op _ hg (by simp) (by simp)
  have hb'' : Built AnyArg w (apply (.removeEdges arg) (apply (.removeEdges arg) g).2).2 :=
    .op _ hb' (by simp) (by simp)
  exact indist_of_raw hb''.coh.1 hb'.coh.1 (Ord.remove_twice hg.inv arg)

/-- C18 (DiGraph). Adding an absent edge and removing it again restores all reads. -/
theorem C18_digraph_add_then_remove {w : Bool} {g : DSt K} (hg : Built AnyArg w g) {n : Nat}
    (hn : (ask .numV g).1 = .ok (.num n)) {a b : Int} {x : Option K} {op : MergeOp}
    (hop : op ≠ .other) (ha : a < n) (hb : b < n)
    (habs : ∀ y, ((a, b), y) ∉ Spec.listingD (apply .removeExtraSelfloop g).2) :
    (apply (.addEdges (.single a b x) op) g).1 = .ok () ∧
    Spec.IndistNR (apply (.removeEdges (.single a b none)) (apply (.addEdges (.single a b x) op) g).2).2 g := by
  have hb0 : Built AnyArg w (apply .removeExtraSelfloop g).2 := .op _ hg (by simp) (by simp)
  have hb1 : Built AnyArg w (apply (.addEdges (.single a b x) op) g).2 :=
    .op _ hg (by simp) (fun _ _ _ => trivial)
  have hb2 : Built AnyArg w
      (apply (.removeEdges (.single a b none)) (apply (.addEdges (.single a b x) op) g).2).2 :=
    .op _ hb1 (by simp) (by simp)
  have hn' := numV_eq hg.any hn
  constructor
  · show (Ord.addEdges .di (.single a b x) op g).1 = _
    rcases Ord.addEdges_cases (c := .di) (.single a b x) op g with ⟨h0, h1⟩ | ⟨e, _, h1⟩ | ⟨es, ws, _, hf, h1⟩
    · rw [h1]
    · exfalso
      obtain ⟨f, hf⟩ := (Graph.mergeFn_ok_iff (K := K) op).2 hop
      unfold Ord.addEdges at h1
      rw [if_neg (by simp [EArg.isEmpty])] at h1
      simp only [PyM.bind_apply, readRaw, PyM.lift_apply, Ord.format_bi, formatEdgesBi, id] at h1
      rw [if_pos (by subst hn'; exact ⟨ha, hb⟩)] at h1
      simp only at h1
      rw [Ord.forM_addEdge_ok hf] at h1
      cases congrArg Prod.fst h1
    · rcases h1 with ⟨_, h1⟩ | ⟨f, _, h1⟩ <;> rw [h1]
  · apply indist_of_raw hb2.coh.1 hg.coh.1
    apply Ord.add_remove_raw hop hg.inv (by subst hn'; exact ha) (by subst hn'; exact hb)
    by_contra hc
    obtain ⟨y, hy⟩ := Option.ne_none_iff_exists'.1 hc
    apply habs y
    rw [listing_eq hb0.coh.1, Ord.mem_listing hb0.inv]
    exact .inl hy

example : ((0, 1), (1 : ℝ)) ∉ Spec.listingD (apply .removeExtraSelfloop exD).2 := by
  have : Spec.listingD (apply .removeExtraSelfloop exD).2 = [((1, 0), 2), ((1, 2), 3), ((2, 2), 7)] := rfl
  rw [this]; simp

/-! ## C19 -/

/-- C19 (DiGraph). A call that raises leaves the object as it was. -/
theorem C19_digraph_failed_calls_atomic {g : DSt K} (o : DOp K) {e : Err}
    (he : (apply o g).1 = .error e) : Spec.IndistD (apply o g).2 g := by
  have : (apply o g).2 = g := by
    cases o with
    | addEdges arg op => exact Ord.addEdges_err he
    | removeEdges arg => exact Ord.removeEdges_err he
    | _ => cases he
  rw [this]
  exact fun _ _ => rfl

/-- C19 (DiGraph). Too large vertices and unknown merge operations do raise. -/
theorem C19_digraph_bad_arguments_raise {g : DSt K} (hg : Any AnyArg g) {n : Nat}
    (hn : (ask .numV g).1 = .ok (.num n)) (arg : EArg K) (op : MergeOp)
    (hne : arg.isEmpty = false)
    (h : ¬ (∀ e ∈ Spec.named arg, e.1 < (n : Int) ∧ e.2 < (n : Int)) ∨
      (op = .other ∧ Spec.weighted arg ≠ some [])) :
    ∃ e, (apply (.addEdges arg op) g).1 = .error e := by
  have hn' := numV_eq hg hn
  subst hn'
  exact Ord.addEdges_bad hne h

example : (apply (.addEdges (.single 0 3 none) .mean) exD).1 = .error .assertion := rfl
example : (apply (.addEdges (.single 0 2 none) .other) exD).1 = .error .value := rfl

/-! ## C21 -/

/-- C21 (DiGraph) is false: surplus edges are silently ignored. -/
theorem C21_digraph_weights_paired_false :
    ∃ g : DSt ℝ, DiGraph.new 3 (some (.many [(0, 1), (1, 2)] (.list [5]))) false .mean = .ok g ∧
      ∀ w, ((1, 2), w) ∉ Spec.listingD g := by
  refine ⟨_, rfl, ?_⟩
  intro w h
  have : ((1, 2), w) ∈ [(((0 : Int), (1 : Int)), (5 : ℝ))] := h
  simp at this

/-- C21 (DiGraph), partial: with lists of equal length and pairs that are pairwise different and
absent before, every listed edge is added with the weight at its position. Missing: rejection of
unequal lengths. -/
theorem C21_digraph_weights_paired_partial {w : Bool} {g : DSt K} (hg : Built AnyArg w g)
    {es : List (Int × Int)} {ws : List K} (hlen : es.length = ws.length)
    {op : MergeOp} (hok : (apply (.addEdges (.many es (.list ws)) op) g).1 = .ok ())
    (hdis : es.Pairwise fun e e' => e ≠ e')
    (habs : ∀ e ∈ es, ∀ x, (e, x) ∉ Spec.listingD (apply .removeExtraSelfloop g).2)
    (i : Nat) (hi : i < es.length) :
    (es[i], ws[i]'(hlen ▸ hi)) ∈ Spec.listingD (apply (.addEdges (.many es (.list ws)) op) g).2 := by
  have hb0 : Built AnyArg w (apply .removeExtraSelfloop g).2 := .op _ hg (by simp) (by simp)
  have hb1 : Built AnyArg w (apply (.addEdges (.many es (.list ws)) op) g).2 :=
    .op _ hg (by simp) (fun _ _ _ => trivial)
  rw [listing_eq hb1.coh.1, show es[i] = (es[i].1, es[i].2) from rfl, Ord.mem_listing hb1.inv]
  left
  refine Ord.weights_paired hg.inv hlen hok hdis ?_ i hi
  intro e he
  by_contra hc
  obtain ⟨y, hy⟩ := Option.ne_none_iff_exists'.1 hc
  apply habs e he y
  rw [listing_eq hb0.coh.1, show e = (e.1, e.2) from rfl, Ord.mem_listing hb0.inv]
  exact .inl hy

example : (apply (.addEdges (.many [(0, 2), (1, 1)] (.list [5, 6])) .sum) exD).1 = .ok () := rfl

/-! ## C28 -/

/-- C28 (DiGraph). `from_adj_list` has (weight 1) an edge from the head of each line to each later
element, the unit loops of the flag, and nothing else. -/
theorem C28_digraph_from_adj_list [IsStrictOrderedRing K] {n : Int} {adj : List (List Int)}
    {extra : Bool} {g : DSt K} (hg : fromAdjList n adj extra = .ok g) (a b : Int) (w : K) :
    ((a, b), w) ∈ Spec.listingD g ↔ w = 1 ∧
      ((∃ line ∈ adj, ∃ tl, line = a :: tl ∧ b ∈ tl) ∨
        (extra = true ∧ a = b ∧ 0 ≤ a ∧ a < n)) := by
  have hb : Built AnyArg false g := .adj hg trivial
  have hn : 0 < n := (new_eq (K := K) hg).1
  have hok : (Ord.addEdges .di (.many (Graph.adjListEdges adj) .none) .mean
      ({ raw := { numV := n.toNat, eDict := [], loops := [], extra }, cache := [] } : DSt K)).1 = .ok () := by
    unfold fromAdjList DiGraph.new GRaw.init at hg
    rw [if_pos hn] at hg
    simp only [bind, Except.bind] at hg
    split at hg
    · rename_i h; rw [h]
    · cases hg
  have hr := (new_eq (K := K) hg).2.2
  simp only at hr
  have hs0 : Ord.Inv .di ({ numV := n.toNat, eDict := [], loops := [], extra } : GRaw K) :=
    (init_inv (n := n) (extra := extra) (by unfold GRaw.init; rw [if_pos hn])).1
  have hsz := Ord.addEdges_sizes (c := .di) (.many (Graph.adjListEdges adj) .none) .mean
    ({ raw := { numV := n.toNat, eDict := [], loops := [], extra }, cache := [] } : DSt K)
  rw [listing_eq hb.coh.1, Ord.mem_listing hb.inv, hr, Ord.adj_abs (c := .di) hs0 rfl rfl hok, hsz.1, hsz.2.2]
  have : (a < (n.toNat : Int)) ↔ a < n := by omega
  simp only [this]
  generalize (∃ line ∈ adj, ∃ tl, line = a :: tl ∧ b ∈ tl) = P
  tauto

example : ∃ g : DSt ℝ, fromAdjList 4 [[0, 1, 2], [3], [2, 0]] true = .ok g := ⟨_, rfl⟩

end Props
end DHG
