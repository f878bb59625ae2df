import Verif.Props.GraphEdges

/-!
# Properties of `Graph`: merging, listing, copies, dropping, removal, failures, adjacency lists
-/

set_option linter.unusedSectionVars false
set_option autoImplicit false

namespace DHG
namespace Props

open Graph

variable {K : Type} [Field K] [LinearOrder K] [PyReal K]

/-! ## C03 -/

theorem add_single_abs (g : GSt K) {a b : Int} {w : K} {op : MergeOp}
    (ha : a < g.raw.numV) (hb : b < g.raw.numV) (hop : op ≠ .other) :
    absR (apply (.addEdges (.single a b (some w)) op) g).2.raw =
      Spec.put (absR g.raw) op a b w ∧
    (apply (.addEdges (.single a b (some w)) op) g).1 = .ok () := by
  constructor
  · have := (absR_addEdges (.single a b (some w)) op g).1
    refine this.trans ?_
    unfold Spec.add
    rw [if_pos ⟨by simpa [Spec.named] using ⟨ha, hb⟩, hop⟩]
    rfl
  · obtain ⟨f, hf⟩ := (mergeFn_ok_iff (K := K) op).2 hop
    show (addEdges _ op g).1 = _
    unfold addEdges
    rw [if_neg (by simp [EArg.isEmpty])]
    simp only [PyM.bind_apply, readRaw, PyM.lift_apply, formatEdges]
    rw [if_pos (by omega)]
    simp only
    rw [forM_addEdge_ok hf]
    rfl

/-- C03. Adding an edge that exists with weight `old` gives it the merged weight (sum, maximum or
mean of the two), and no other proper edge changes. -/
theorem C03_merge_rule {g : GSt K} (hg : Built AnyArg g) {a b : Int} {old w : K} {op : MergeOp}
    (hab : a ≠ b) (hold : Spec.Listed g a b old) (hop : op ≠ .other) :
    let g' := (apply (.addEdges (.single a b (some w)) op) g).2
    (∀ x, Spec.Listed g' a b x ↔ x = match op with
      | .sum => old + w
      | .max => max old w
      | .mean => (old + w) / 2
      | .other => x) ∧
    (∀ c d x, ¬ ((c = a ∧ d = b) ∨ (c = b ∧ d = a)) → (Spec.Listed g' c d x ↔ Spec.Listed g c d x)) := by
  have hb' : Built AnyArg (apply (.addEdges (.single a b (some w)) op) g).2 :=
    .op _ hg fun _ _ _ => trivial
  rw [hg.listed] at hold
  simp only [hab, false_and, and_false, or_false] at hold
  have hrange : a < (g.raw.numV : Int) ∧ b < (g.raw.numV : Int) := by
    unfold absR at hold
    rw [if_neg hab] at hold
    have hm := (Dict.get?_isSome_iff g.raw.eDict (sortPair (a, b))).1 (by rw [hold]; rfl)
    have h1 := hg.inv.1.ltE _ hm
    have h2 := sortPair_le (a, b)
    unfold sortPair at h1 h2
    split at h1 <;> simp_all <;> omega
  obtain ⟨h1, _⟩ := add_single_abs g (w := w) hrange.1 hrange.2 hop
  obtain ⟨_, hn, hx⟩ := absR_addEdges (.single a b (some w)) op g
  have hx' : (apply (.addEdges (.single a b (some w)) op) g).2.raw.extra = g.raw.extra := hx
  have hn' : (apply (.addEdges (.single a b (some w)) op) g).2.raw.numV = g.raw.numV := hn
  constructor
  · intro x
    rw [hb'.listed, h1]
    simp only [hab, false_and, and_false, or_false, Spec.put, hold, true_and, true_or, if_true,
      Option.some.injEq]
    cases op with
    | mean => exact eq_comm
    | max => rw [show Spec.merge MergeOp.max old w = max old w from (max_def old w).symm]; exact eq_comm
    | sum => exact eq_comm
    | other => exact absurd rfl hop
  · intro c d x hcd
    rw [hb'.listed, hg.listed, h1, hx', hn']
    simp only [Spec.put, if_neg hcd]

/-- C03. With `sum` or `max` the result of one call does not depend on the order in which its
weighted edges are listed. -/
theorem C03_order_independent {g : GSt K} [IsStrictOrderedRing K] (hg : Built AnyArg g)
    {es es' : List (Int × Int)} {ws ws' : List K} (hp : (es.zip ws).Perm (es'.zip ws'))
    (hn : es.Perm es')
    {op : MergeOp} (hop : op = .sum ∨ op = .max) (a b : Int) (w : K) :
    Spec.Listed (apply (.addEdges (.many es (.list ws)) op) g).2 a b w ↔
      Spec.Listed (apply (.addEdges (.many es' (.list ws')) op) g).2 a b w := by
  have hb1 : Built AnyArg (apply (.addEdges (.many es (.list ws)) op) g).2 :=
    .op _ hg fun _ _ _ => trivial
  have hb2 : Built AnyArg (apply (.addEdges (.many es' (.list ws')) op) g).2 :=
    .op _ hg fun _ _ _ => trivial
  obtain ⟨h1, h2, h3⟩ := absR_addEdges (.many es (.list ws)) op g
  obtain ⟨h1', h2', h3'⟩ := absR_addEdges (.many es' (.list ws')) op g
  have key : Spec.add g.raw.numV (absR g.raw) (.many es (.list ws)) op =
      Spec.add g.raw.numV (absR g.raw) (.many es' (.list ws')) op := by
    unfold Spec.add
    have hc : (∀ e ∈ Spec.named (.many es (.list ws) : EArg K), e.1 < (g.raw.numV : Int) ∧
        e.2 < (g.raw.numV : Int)) ↔
        (∀ e ∈ Spec.named (.many es' (.list ws') : EArg K), e.1 < (g.raw.numV : Int) ∧
        e.2 < (g.raw.numV : Int)) := by
      simp only [Spec.named]
      constructor
      · intro h e he; exact h e (hn.mem_iff.2 he)
      · intro h e he; exact h e (hn.mem_iff.1 he)
    simp only [hc]
    split
    · simp only [Spec.weighted]
      refine foldl_put_perm ?_ ?_ (hp.map _) _ (absR_symm g.raw)
      · intro x y z
        rcases hop with rfl | rfl
        · simp only [Spec.merge]; ring
        · have hm : ∀ x y : K, Spec.merge MergeOp.max x y = max x y := fun x y => (max_def x y).symm
          simp only [hm]
          rw [max_assoc, max_comm y z, ← max_assoc]
      · intro x y
        rcases hop with rfl | rfl
        · simp only [Spec.merge]; ring
        · have hm : ∀ x y : K, Spec.merge MergeOp.max x y = max x y := fun x y => (max_def x y).symm
          simp only [hm]; exact max_comm x y
    · rfl
  rw [hb1.listed, hb2.listed]
  change (absR (addEdges _ op g).2.raw a b = _ ∨ _) ↔ (absR (addEdges _ op g).2.raw a b = _ ∨ _)
  rw [h1, h1', key]
  simp only [apply]
  rw [h2, h3, h2', h3']

/-- C03. With `mean` the order matters: the three weights 1, 3, 5 of one edge give 7/2 in this
order and 5/2 in the opposite order, and neither is the arithmetic mean 3. -/
theorem C03_mean_is_order_dependent :
    ∃ g g' : GSt ℝ,
      Graph.new 2 (some (.many [(0, 1), (0, 1), (0, 1)] (.list [1, 3, 5]))) false .mean = .ok g ∧
      Graph.new 2 (some (.many [(0, 1), (0, 1), (0, 1)] (.list [5, 3, 1]))) false .mean = .ok g' ∧
      Spec.Listed g 0 1 (7 / 2) ∧ Spec.Listed g' 0 1 (5 / 2) ∧ ¬ Spec.Listed g 0 1 3 := by
  refine ⟨_, _, rfl, rfl, ?_⟩
  have e1 : Built AnyArg ({ raw := { numV := 2, eDict := [((0, 1), ((((1:ℝ) + 3) / 2) + 5) / 2)], loops := [], extra := false }, cache := [] } : GSt ℝ) :=
    .new (n := 2) (arg := some (.many [(0, 1), (0, 1), (0, 1)] (.list [1, 3, 5]))) (extra := false)
      (op := .mean) rfl fun _ _ => trivial
  have e2 : Built AnyArg ({ raw := { numV := 2, eDict := [((0, 1), ((((5:ℝ) + 3) / 2) + 1) / 2)], loops := [], extra := false }, cache := [] } : GSt ℝ) :=
    .new (n := 2) (arg := some (.many [(0, 1), (0, 1), (0, 1)] (.list [5, 3, 1]))) (extra := false)
      (op := .mean) rfl fun _ _ => trivial
  refine ⟨(e1.listed _ _ _).2 (Or.inl ?_), (e2.listed _ _ _).2 (Or.inl ?_), fun h => ?_⟩
  · show some _ = some _; congr 1; norm_num
  · show some _ = some _; congr 1; norm_num
  · rcases (e1.listed _ _ _).1 h with h | h
    · have h : some _ = some (3:ℝ) := h
      have := Option.some.inj h
      norm_num at this
    · exact absurd h.1 (by simp)

example : Spec.Listed exG 0 1 2 ∧ (0 : Int) ≠ 1 := ⟨(exG_built.listed _ _ _).2 (Or.inl rfl), by decide⟩

/-! ## C04 -/

/-- C04 (Graph). `e` always answers, with two lists of equal length `num_e`; every proper edge is
listed once; the listing is the stored edges, then the stored loops, then (with the flag) one unit
loop per vertex. -/
theorem C04_graph_listing {g : GSt K} (hg : Built AnyArg g) :
    ∃ es ws, (ask .e g).1 = .ok (.edges es ws) ∧ es.length = ws.length ∧
      (ask .numE g).1 = .ok (.num es.length) ∧
      (((es.filter fun e => e.1 ≠ e.2).map fun e => (min e.1 e.2, max e.1 e.2))).Nodup ∧
      es.zip ws = (stateDict g).eDict ++ (stateDict g).loops.map (fun p => ((p.1, p.1), p.2)) ++
        (if (stateDict g).extra then
          (List.range (stateDict g).numV).map fun v : Nat => (((v : Int), (v : Int)), (1 : K)) else []) := by
  refine ⟨g.raw.edgeList, g.raw.edgeWts, (reads_ask .e g hg.inv.2).1, ?_, ?_, ?_, zip_listing g.raw⟩
  · rw [edgeList_length, edgeWts_length]
  · rw [(reads_ask .numE g hg.inv.2).1, edgeList_length]; rfl
  · have hf : g.raw.edgeList.filter (fun e => e.1 ≠ e.2) = g.raw.eDict.keys := by
      unfold GRaw.edgeList
      rw [List.filter_append, List.filter_append]
      have h1 : g.raw.eDict.keys.filter (fun e => e.1 ≠ e.2) = g.raw.eDict.keys := by
        rw [List.filter_eq_self]
        intro p hp
        have := hg.inv.1.lt p hp
        simpa using ne_of_lt this
      have h2 : (g.raw.loops.keys.map fun v => (v, v)).filter (fun e : Int × Int => e.1 ≠ e.2) = [] := by
        rw [List.filter_eq_nil_iff]; intro p hp
        obtain ⟨v, _, rfl⟩ := List.mem_map.1 hp; simp
      have h3 : (if g.raw.extra = true then (List.range g.raw.numV).map fun v : Nat => ((v : Int), (v : Int))
          else []).filter (fun e : Int × Int => e.1 ≠ e.2) = [] := by
        rw [List.filter_eq_nil_iff]; intro p hp
        split at hp
        · obtain ⟨v, _, rfl⟩ := List.mem_map.1 hp; simp
        · cases hp
      rw [h1, h2, h3]; simp
    rw [hf]
    have hmm : g.raw.eDict.keys.map (fun e => (min e.1 e.2, max e.1 e.2)) = g.raw.eDict.keys := by
      conv_rhs => rw [← List.map_id g.raw.eDict.keys]
      apply List.map_congr_left
      intro p hp
      have := hg.inv.1.lt p hp
      rw [min_eq_left this.le, max_eq_right this.le]; rfl
    rw [hmm]
    exact hg.inv.1.nodupE

example : Built AnyArg exG := exG_built

/-! ## C16 (Graph) -/

/-- C16 (Graph). Rebuilding from the state dictionary always succeeds and gives an object that no
later history of calls can tell apart from the original. -/
theorem C16_graph_state_dict_round_trip {g : GSt K} (hg : Built AnyArg g) :
    ∃ g', fromStateDict (stateDict g) = .ok g' ∧ Spec.Indist g' g :=
  ⟨_, fromStateDict_stateDict hg.inv.1,
    indist_of_raw hg.inv.1 (coherent_nil _) hg.inv.2 rfl⟩

/-! ## C15 (Graph) -/

/-- C15 (Graph). A clone answers every later history of calls as the original does (independence
of the two objects: `Heap.lean`). -/
theorem C15_graph_clone_faithful {g : GSt K} : Spec.Indist (clone g) g := fun _ _ => rfl

/-! ## C17 -/

omit [PyReal K] in
theorem dropFilter_eq {α : Type} (rate : K) (rnd : Nat → K) (i : Nat) (l : List α) :
    dropFilter rate rnd i l = ((l.zipIdx i).filter fun p => decide (rate < rnd p.2)).map Prod.fst := by
  induction l generalizing i with
  | nil => rfl
  | cons x l ih =>
    unfold dropFilter
    rw [List.zipIdx_cons, List.filter_cons]
    by_cases h : rate < rnd i
    · simp [h, ih]
    · simp [h, ih]

/-- C17 (Graph). `drop_edges(rate)` returns a graph over the same vertices whose listing is the
original listing without the stored edges and loops whose random draw does not exceed `rate` (the
unit loops of the flag stay); the original is not touched (the call only reads it); other values
of `ord` raise. -/
theorem C17_graph_drop_edges {g : GSt K} (hg : Built AnyArg g) (rate : K) (rnd : Nat → K) :
    (∃ g', dropEdges rate true rnd g = .ok g' ∧
      (ask .numV g').1 = (ask .numV g).1 ∧
      let m := (stateDict g).eDict.length + (stateDict g).loops.length
      Spec.listing g' = ((Spec.listing g).zipIdx.filter fun p =>
        decide (p.2 < m → rate < rnd p.2)).map Prod.fst) ∧
    dropEdges rate false rnd g = .error .value := by
  refine ⟨?_, rfl⟩
  unfold dropEdges
  simp only [if_true]
  have hpos := hg.inv.1.pos
  refine ⟨{ raw := { numV := g.raw.numV
                     eDict := dropFilter rate rnd 0 g.raw.eDict
                     loops := dropFilter rate rnd g.raw.eDict.length g.raw.loops
                     extra := g.raw.extra }
            cache := [] }, ?_, ?_, ?_⟩
  · unfold fromStateDict GRaw.init
    rw [if_pos (by simpa using hpos)]
    rfl
  · rw [(reads_ask .numV g hg.inv.2).1]; rfl
  · rw [listing_eq (coherent_nil _), listing_eq hg.inv.2, zip_listing, zip_listing]
    change _ = ((_ : List (((Int × Int) × K) × Nat)).filter fun p =>
      decide (p.2 < List.length g.raw.eDict + List.length g.raw.loops → rate < rnd p.2)).map Prod.fst
    rw [List.zipIdx_append, List.zipIdx_append, List.filter_append, List.filter_append,
      List.map_append, List.map_append]
    congr 1
    · congr 1
      · show dropFilter rate rnd 0 g.raw.eDict = _
        rw [dropFilter_eq]
        congr 1
        apply List.filter_congr
        intro p hp
        have := List.snd_lt_of_mem_zipIdx hp
        have h' : p.2 < List.length g.raw.eDict + List.length g.raw.loops := by omega
        rw [decide_eq_decide]
        exact ⟨fun h _ => h, fun h => h h'⟩
      · show (dropFilter rate rnd (List.length g.raw.eDict) g.raw.loops).map _ = _
        rw [dropFilter_eq, List.zipIdx_map, List.filter_map, List.map_map, List.map_map]
        have hcongr : (g.raw.loops.zipIdx (0 + List.length g.raw.eDict)).filter
            ((fun p : ((Int × Int) × K) × Nat => decide (p.2 < List.length g.raw.eDict + List.length g.raw.loops → rate < rnd p.2)) ∘
              Prod.map (fun p : Int × K => ((p.1, p.1), p.2)) id) =
            (g.raw.loops.zipIdx (List.length g.raw.eDict)).filter fun p => decide (rate < rnd p.2) := by
          rw [Nat.zero_add]
          apply List.filter_congr
          intro p hp
          have := List.snd_lt_of_mem_zipIdx hp
          have h' : p.2 < List.length g.raw.eDict + List.length g.raw.loops := by omega
          simp only [Function.comp, Prod.map, id, decide_eq_decide]
          exact ⟨fun h => h h', fun h _ => h⟩
        rw [hcongr]
        rfl
    · symm
      have : ∀ (l : List ((Int × Int) × K)) (k : Nat),
          k = List.length g.raw.eDict + List.length g.raw.loops →
          ((l.zipIdx k).filter fun p => decide (p.2 < List.length g.raw.eDict + List.length g.raw.loops → rate < rnd p.2)).map Prod.fst = l := by
        intro l k hk
        rw [List.filter_eq_self.2]
        · exact List.zipIdx_map_fst _ _
        · intro p hp
          have := List.le_snd_of_mem_zipIdx hp
          simp only [decide_eq_true_eq]
          intro h; omega
      exact this _ _ (by simp)

/-- C17 (Graph). A drop rate of at least 1 drops every stored edge and loop (draws are below 1). -/
theorem C17_graph_drop_all {g g' : GSt K} (rate : K) (rnd : Nat → K)
    (hr : 1 ≤ rate) (hrnd : ∀ i, rnd i < 1) (h : dropEdges rate true rnd g = .ok g') :
    (stateDict g').eDict = [] ∧ (stateDict g').loops = [] := by
  have hd : ∀ {α : Type} (i : Nat) (l : List α), dropFilter rate rnd i l = [] := by
    intro α i l
    induction l generalizing i with
    | nil => rfl
    | cons x l ih =>
      unfold dropFilter
      rw [if_neg (not_lt.2 ((hrnd i).le.trans hr))]
      exact ih _
  unfold dropEdges at h
  rw [if_pos rfl] at h
  obtain ⟨rfl, _⟩ := fromStateDict_ok h
  exact ⟨hd _ _, hd _ _⟩

example : ∃ g', dropEdges (1 / 2) true (fun i => if i = 0 then 0 else 3 / 4) exG = .ok g' ∧
    Built AnyArg exG :=
  ⟨_, rfl, exG_built⟩

/-! ## C19 (Graph) -/

/-- C19 (Graph). A call that raises leaves the object as it was. -/
theorem C19_graph_failed_calls_atomic {g : GSt K} (o : GOp K) {e : Err}
    (he : (apply o g).1 = .error e) : Spec.Indist (apply o g).2 g := by
  have : (apply o g).2 = g := by
    cases o with
    | addEdges arg op =>
      change (addEdges arg op g).1 = _ at he
      show (addEdges arg op g).2 = g
      rcases addEdges_cases arg op g with ⟨_, h1⟩ | ⟨e, h1⟩ | ⟨es, ws, _, hf, h1⟩
      · rw [h1]
      · rw [h1]
      · rcases h1 with ⟨_, h1⟩ | ⟨f, _, h1⟩ <;> rw [h1] at he <;> cases he
    | removeEdges arg =>
      change (removeEdges arg g).1 = _ at he
      show (removeEdges arg g).2 = g
      rcases removeEdges_cases arg g with ⟨e, h1⟩ | ⟨es, ws, hf, h1⟩
      · rw [h1]
      · rw [h1] at he; cases he
    | _ => cases he
  rw [this]
  exact fun _ _ => rfl

/-- C19 (Graph). Too large vertices and unknown merge operations do raise. -/
theorem C19_graph_bad_arguments_raise (g : GSt K) (arg : EArg K) (op : MergeOp)
    (hne : arg.isEmpty = false) :
    (¬ (∀ e ∈ Spec.named arg, e.1 < (g.raw.numV : Int) ∧ e.2 < (g.raw.numV : Int)) →
      ∃ e, (apply (.addEdges arg op) g).1 = .error e) ∧
    (op = .other → Spec.weighted arg ≠ some [] → ∃ e, (apply (.addEdges arg op) g).1 = .error e) := by
  constructor
  · intro h
    rcases addEdges_cases arg op g with ⟨h0, _⟩ | ⟨e, h1⟩ | ⟨es, ws, _, hf, _⟩
    · rw [h0] at hne; cases hne
    · exact ⟨e, congrArg Prod.fst h1⟩
    · exact absurd ((formatEdges_spec _ arg).1 es ws hf).1 h
  · rintro rfl hw
    rcases addEdges_cases arg .other g with ⟨h0, _⟩ | ⟨e, h1⟩ | ⟨es, ws, _, hf, h1⟩
    · rw [h0] at hne; cases hne
    · exact ⟨e, congrArg Prod.fst h1⟩
    · have h2 := ((formatEdges_spec _ arg).1 es ws hf).2.2
      rcases h1 with ⟨h1, _⟩ | ⟨f, hf', _⟩
      · rw [h1] at h2; exact absurd h2 hw
      · cases hf'

example : (apply (.addEdges (.single 0 3 none) .mean) exG).1 = .error .assertion := rfl
example : (apply (.addEdges (.single 0 2 none) .other) exG).1 = .error .value := rfl

/-! ## C18 (Graph) -/

/-- C18 (Graph). Removing named edges deletes exactly those (in either orientation). -/
theorem C18_graph_remove_exactly {g : GSt K} (hg : Built AnyArg g) (arg : EArg K)
    (hr : ∀ e ∈ Spec.named arg, e.1 < (g.raw.numV : Int) ∧ e.2 < (g.raw.numV : Int))
    (a b : Int) (w : K) (hx : a ≠ b ∨ (stateDict g).extra = false) :
    Spec.Listed (apply (.removeEdges arg) g).2 a b w ↔
      Spec.Listed g a b w ∧ (a, b) ∉ Spec.named arg ∧ (b, a) ∉ Spec.named arg := by
  have hb' : Built AnyArg (apply (.removeEdges arg) g).2 := .op _ hg fun _ _ _ => trivial
  obtain ⟨h1, h2, h3⟩ := absR_removeEdges arg g hg.inv.1
  have h1' : absR (apply (.removeEdges arg) g).2.raw = _ := h1
  have h3' : (apply (.removeEdges arg) g).2.raw.extra = g.raw.extra := h3
  have hno : ¬ (g.raw.extra = true ∧ a = b ∧ 0 ≤ a ∧ a < (g.raw.numV : Int) ∧ w = 1) := by
    rintro ⟨h, h', _⟩
    rcases hx with hx | hx
    · exact hx h'
    · simp only [stateDict] at hx; rw [hx] at h; cases h
  have hno' : ¬ (g.raw.extra = true ∧ a = b ∧ 0 ≤ a ∧
      a < ((apply (.removeEdges arg) g).2.raw.numV : Int) ∧ w = 1) := by
    rintro ⟨h, h', _⟩
    rcases hx with hx | hx
    · exact hx h'
    · simp only [stateDict] at hx; rw [hx] at h; cases h
  rw [hb'.listed, hg.listed, h1', h3']
  simp only [hno, hno', or_false]
  unfold Spec.remove
  rw [if_pos hr]
  have key : ∀ (l : List (Int × Int)) (m : Spec.WMap K),
      l.foldl (fun m e => Spec.erase m e.1 e.2) m a b = some w ↔
        m a b = some w ∧ (a, b) ∉ l ∧ (b, a) ∉ l := by
    intro l
    induction l with
    | nil => intro m; simp
    | cons e l ih =>
      intro m
      rw [List.foldl_cons, ih]
      unfold Spec.erase
      by_cases hc : (a = e.1 ∧ b = e.2) ∨ (a = e.2 ∧ b = e.1)
      · rw [if_pos hc]
        simp only [reduceCtorEq, false_and, List.mem_cons, false_iff, not_and, not_not]
        rintro _ h
        rw [not_or] at h
        rcases hc with ⟨rfl, rfl⟩ | ⟨rfl, rfl⟩
        · exact absurd rfl h.1
        · left; rfl
      · rw [if_neg hc]
        have e1 : (a, b) ≠ e := by rintro rfl; exact hc (Or.inl ⟨rfl, rfl⟩)
        have e2 : (b, a) ≠ e := by rintro rfl; exact hc (Or.inr ⟨rfl, rfl⟩)
        simp [e1, e2]
  exact key _ _

/-- C18 (Graph). Removing edges that are not stored changes nothing. -/
theorem C18_graph_remove_absent {g : GSt K} (hg : Built AnyArg g) (arg : EArg K)
    (habs : ∀ e ∈ Spec.named arg, ∀ w, ¬ Spec.Listed (apply .removeExtraSelfloop g).2 e.1 e.2 w) :
    Spec.Indist (apply (.removeEdges arg) g).2 g := by
  have hb' : Built AnyArg (apply (.removeEdges arg) g).2 := .op _ hg fun _ _ _ => trivial
  have hb0 : Built AnyArg (apply .removeExtraSelfloop g).2 := .op _ hg fun _ _ h => by cases h
  apply hb'.indist hg.inv.2
  show (removeEdges arg g).2.raw = g.raw
  rcases removeEdges_cases arg g with ⟨e, h1⟩ | ⟨es, ws, hf, h1⟩
  · rw [h1]
  · rw [h1]
    have hes : es = Spec.named arg := by
      rw [((formatEdges_spec _ arg.noWeight).1 es ws hf).2.1]
      cases arg <;> rfl
    subst hes
    have hnone : ∀ e ∈ Spec.named arg, absR g.raw e.1 e.2 = none := by
      intro e he
      by_contra hc
      obtain ⟨w, hw⟩ := Option.ne_none_iff_exists'.1 hc
      exact habs e he w ((hb0.listed _ _ _).2 (Or.inl hw))
    have hstep : ∀ e ∈ Spec.named arg, g.raw.removeEdge (sortPair e).1 (sortPair e).2 = g.raw := by
      intro e he
      have hn := hnone e he
      unfold absR at hn
      unfold GRaw.removeEdge
      by_cases hee : e.1 = e.2
      · rw [if_pos hee] at hn
        have hs : sortPair e = e := by unfold sortPair; rw [if_pos (by omega)]
        rw [hs]
        have h1 : g.raw.loops.has e.1 = false := by unfold Dict.has; rw [hn]; rfl
        have h2 : g.raw.eDict.has (e.1, e.2) = false := by
          rw [Bool.eq_false_iff]
          intro hh
          have := hg.inv.1.lt _ ((Dict.has_iff _ _).1 hh)
          simp only at this; omega
        simp [h1, h2]
      · rw [if_neg hee] at hn
        have h1 : (sortPair e).1 ≠ (sortPair e).2 := by
          unfold sortPair; split
          · exact hee
          · exact Ne.symm hee
        have h2 : g.raw.eDict.has ((sortPair e).1, (sortPair e).2) = false := by
          unfold Dict.has
          rw [show ((sortPair e).1, (sortPair e).2) = sortPair (e.1, e.2) from rfl, hn]; rfl
        simp [h1, h2]
    have : ∀ l : List (Int × Int), (∀ e ∈ l, e ∈ Spec.named arg) → removeList g.raw l = g.raw := by
      intro l hl
      induction l with
      | nil => rfl
      | cons e l ih =>
        show removeList (g.raw.removeEdge (sortPair e).1 (sortPair e).2) l = _
        rw [hstep e (hl e List.mem_cons_self)]
        exact ih fun e' he' => hl e' (List.mem_cons_of_mem _ he')
    exact this _ fun _ h => h

/-- C18 (Graph). Removing twice is the same as removing once. -/
theorem C18_graph_remove_idempotent {g : GSt K} (hg : Built AnyArg g) (arg : EArg K) :
    Spec.Indist (apply (.removeEdges arg) (apply (.removeEdges arg) g).2).2
      (apply (.removeEdges arg) g).2 := by
  have hb' : Built AnyArg (apply (.removeEdges arg) g).2 := .op _ hg fun _ _ _ => trivial
  by_cases hr : ∀ e ∈ Spec.named arg, e.1 < (g.raw.numV : Int) ∧ e.2 < (g.raw.numV : Int)
  · apply C18_graph_remove_absent hb'
    intro e he w hl
    have hb0 : Built AnyArg (apply .removeExtraSelfloop (apply (.removeEdges arg) g).2).2 :=
      .op _ hb' fun _ _ h => by cases h
    have h0 : Built AnyArg (apply .removeExtraSelfloop g).2 := .op _ hg fun _ _ h => by cases h
    rw [hb0.listed] at hl
    have hl : absR (apply (.removeEdges arg) g).2.raw e.1 e.2 = some w := by
      rcases hl with hl | hl
      · exact hl
      · exact absurd hl.1 (by simp [apply, DHG.removeExtraSelfloop, setRaw, clearCache])
    obtain ⟨h1, _, _⟩ := absR_removeEdges arg g hg.inv.1
    have h1' : absR (apply (.removeEdges arg) g).2.raw = _ := h1
    rw [h1'] at hl
    unfold Spec.remove at hl
    rw [if_pos hr] at hl
    have key : ∀ (l : List (Int × Int)) (m : Spec.WMap K), (m e.1 e.2 = none ∨ e ∈ l) →
        l.foldl (fun m e => Spec.erase m e.1 e.2) m e.1 e.2 = none := by
      intro l
      induction l with
      | nil => intro m hm; simpa using hm
      | cons x l ih =>
        intro m hm
        rw [List.foldl_cons]
        apply ih
        unfold Spec.erase
        by_cases hc : (e.1 = x.1 ∧ e.2 = x.2) ∨ (e.1 = x.2 ∧ e.2 = x.1)
        · left; rw [if_pos hc]
        · rw [if_neg hc]
          rcases hm with hm | hm
          · left; exact hm
          · rcases List.mem_cons.1 hm with rfl | hm
            · exact absurd (Or.inl ⟨rfl, rfl⟩) hc
            · right; exact hm
    rw [key _ _ (Or.inr he)] at hl
    cases hl
  · -- the first call already raised
    have hfail : ∀ s : GSt K, s.raw.numV = g.raw.numV → (removeEdges arg s).2 = s := by
      intro s hs
      rcases removeEdges_cases arg s with ⟨e, h1⟩ | ⟨es, ws, hf, h1⟩
      · rw [h1]
      · have := ((formatEdges_spec _ arg.noWeight).1 es ws hf).1
        have hn : Spec.named arg.noWeight = Spec.named arg := by cases arg <;> rfl
        rw [hn, hs] at this
        exact absurd this hr
    show Spec.Indist (removeEdges arg (removeEdges arg g).2).2 (removeEdges arg g).2
    rw [hfail g rfl, hfail g rfl]
    exact fun _ _ => rfl

/-- C18 (Graph). Adding an absent edge and removing it again restores every later answer. -/
theorem C18_graph_add_then_remove {g : GSt K} (hg : Built AnyArg g) {a b : Int} {w : Option K}
    {op : MergeOp} (ha : a < (g.raw.numV : Int)) (hb : b < (g.raw.numV : Int)) (hop : op ≠ .other)
    (habs : ∀ x, ¬ Spec.Listed (apply .removeExtraSelfloop g).2 a b x) :
    Spec.Indist (apply (.removeEdges (.single a b none))
      (apply (.addEdges (.single a b w) op) g).2).2 g := by
  have hb1 : Built AnyArg (apply (.addEdges (.single a b w) op) g).2 := .op _ hg fun _ _ _ => trivial
  have hb2 : Built AnyArg (apply (.removeEdges (.single a b none))
      (apply (.addEdges (.single a b w) op) g).2).2 := .op _ hb1 fun _ _ _ => trivial
  have hb0 : Built AnyArg (apply .removeExtraSelfloop g).2 := .op _ hg fun _ _ h => by cases h
  apply hb2.indist hg.inv.2
  obtain ⟨f, hf⟩ := (mergeFn_ok_iff (K := K) op).2 hop
  have e1 : (addEdges (.single a b w) op g).2.raw =
      g.raw.addEdge f (sortPair (a, b)).1 (sortPair (a, b)).2 (w.getD 1) := by
    unfold addEdges
    rw [if_neg (by simp [EArg.isEmpty])]
    simp only [PyM.bind_apply, readRaw, PyM.lift_apply, formatEdges]
    rw [if_pos (by omega)]
    simp only
    rw [forM_addEdge_ok hf]
    rfl
  have e2 : ∀ s : GSt K, s.raw.numV = g.raw.numV → (removeEdges (.single a b none) s).2.raw =
      s.raw.removeEdge (sortPair (a, b)).1 (sortPair (a, b)).2 := by
    intro s hs
    unfold removeEdges
    simp only [EArg.noWeight, PyM.bind_apply, readRaw, PyM.lift_apply, formatEdges, hs]
    rw [if_pos (by omega)]
    simp only
    rw [forM_removeEdge]
    rfl
  show (removeEdges (.single a b none) (addEdges (.single a b w) op g).2).2.raw = g.raw
  rw [e2 _ (by rw [e1]; simp), e1]
  have hn : absR g.raw a b = none := by
    by_contra hc
    obtain ⟨x, hx⟩ := Option.ne_none_iff_exists'.1 hc
    exact habs x ((hb0.listed _ _ _).2 (Or.inl hx))
  unfold absR at hn
  by_cases hab : a = b
  · subst hab
    rw [if_pos rfl] at hn
    have hs : sortPair (a, a) = (a, a) := by unfold sortPair; simp
    have hk := (Dict.get?_eq_none_iff _ _).1 hn
    rw [hs]
    unfold GRaw.addEdge GRaw.removeEdge upsert
    simp only [if_true, hn]
    have hh : (Dict.set g.raw.loops a (w.getD 1)).has a = true := by
      rw [Dict.has_iff, Dict.mem_keys_set]; left; rfl
    simp only [hh, and_self, if_true]
    rw [Dict.set_of_notMem _ _ _ hk, Dict.del_append_single _ _ _ hk]
  · rw [if_neg hab] at hn
    have hne : (sortPair (a, b)).1 ≠ (sortPair (a, b)).2 := by
      unfold sortPair; split
      · exact hab
      · exact Ne.symm hab
    have hk := (Dict.get?_eq_none_iff _ _).1 hn
    have hn' : g.raw.eDict.get? ((sortPair (a, b)).1, (sortPair (a, b)).2) = none := hn
    unfold GRaw.addEdge GRaw.removeEdge upsert
    simp only [if_neg hne, hn', hne, false_and, if_false]
    have hh : (Dict.set g.raw.eDict ((sortPair (a, b)).1, (sortPair (a, b)).2) (w.getD 1)).has
        ((sortPair (a, b)).1, (sortPair (a, b)).2) = true := by
      rw [Dict.has_iff, Dict.mem_keys_set]; left; rfl
    simp only [hh, if_true]
    rw [Dict.set_of_notMem _ _ _ hk, Dict.del_append_single _ _ _ hk]

example : ∀ x, ¬ Spec.Listed (apply .removeExtraSelfloop exG).2 0 2 x := by
  intro x hx
  have hb0 : Built AnyArg (apply .removeExtraSelfloop exG).2 := .op _ exG_built fun _ _ h => by cases h
  rcases (hb0.listed _ _ _).1 hx with h | h
  · have : (none : Option ℝ) = some x := h
    cases this
  · exact absurd h.2.1 (by decide)
example : Spec.Listed exG 0 1 2 ∧ ¬ Spec.Listed (apply (.removeEdges (.single 1 0 none)) exG).2 0 1 2 := by
  refine ⟨(exG_built.listed _ _ _).2 (Or.inl rfl), fun h => ?_⟩
  have := (C18_graph_remove_exactly exG_built (.single 1 0 none)
    (by intro e he; simp [Spec.named] at he; subst he; decide) 0 1 2 (Or.inl (by decide))).1 h
  exact this.2.2 (by simp [Spec.named])

/-! ## C21 (Graph) -/

/-- C21 (Graph), the claim is false of the code: with fewer weights than edges the call succeeds
and the remaining edges are silently ignored. -/
theorem C21_graph_weights_paired_false :
    ∃ g : GSt ℝ, Graph.new 3 (some (.many [(0, 1), (1, 2)] (.list [5]))) false .mean = .ok g ∧
      Spec.Listed g 0 1 5 ∧ ∀ w, ¬ Spec.Listed g 1 2 w := by
  refine ⟨_, rfl, ?_⟩
  have hb : Built AnyArg ({ raw := { numV := 3, eDict := [((0, 1), (5:ℝ))], loops := [], extra := false }, cache := [] } : GSt ℝ) :=
    .new (n := 3) (arg := some (.many [(0, 1), (1, 2)] (.list [5]))) (extra := false)
      (op := .mean) rfl fun _ _ => trivial
  refine ⟨(hb.listed _ _ _).2 (Or.inl rfl), fun w h => ?_⟩
  rcases (hb.listed _ _ _).1 h with h | h
  · have : (none : Option ℝ) = some w := h
    cases this
  · exact absurd h.2.1 (by decide)

/-- C21 (Graph), partial: when the lists have equal length and the named pairs are pairwise
different and absent before, every listed edge is added with the weight at its position.  Missing:
rejection of unequal lengths. -/
theorem C21_graph_weights_paired_partial {g : GSt K} (hg : Built AnyArg g)
    {es : List (Int × Int)} {ws : List K} (hlen : es.length = ws.length)
    {op : MergeOp} (hok : (apply (.addEdges (.many es (.list ws)) op) g).1 = .ok ())
    (hdis : es.Pairwise fun e e' => ¬ ((e'.1 = e.1 ∧ e'.2 = e.2) ∨ (e'.1 = e.2 ∧ e'.2 = e.1)))
    (habs : ∀ e ∈ es, ∀ x, ¬ Spec.Listed (apply .removeExtraSelfloop g).2 e.1 e.2 x)
    (i : Nat) (hi : i < es.length) :
    Spec.Listed (apply (.addEdges (.many es (.list ws)) op) g).2 es[i].1 es[i].2 (ws[i]'(hlen ▸ hi)) := by
  have hb1 : Built AnyArg (apply (.addEdges (.many es (.list ws)) op) g).2 :=
    .op _ hg fun _ _ _ => trivial
  have hb0 : Built AnyArg (apply .removeExtraSelfloop g).2 := .op _ hg fun _ _ h => by cases h
  rw [hb1.listed]
  left
  have h1 : absR (apply (.addEdges (.many es (.list ws)) op) g).2.raw = _ :=
    (absR_addEdges (.many es (.list ws)) op g).1
  rw [h1]
  have hnone : ∀ e ∈ es, absR g.raw e.1 e.2 = none := by
    intro e he
    by_contra hc
    obtain ⟨x, hx⟩ := Option.ne_none_iff_exists'.1 hc
    exact habs e he x ((hb0.listed _ _ _).2 (Or.inl hx))
  have hcond : (∀ e ∈ Spec.named (.many es (.list ws) : EArg K), e.1 < (g.raw.numV : Int) ∧
      e.2 < (g.raw.numV : Int)) ∧ op ≠ .other := by
    change (addEdges _ op g).1 = _ at hok
    rcases addEdges_cases (.many es (.list ws)) op g with ⟨h0, _⟩ | ⟨e, h2⟩ | ⟨es', ws', _, hf, h2⟩
    · have : es = [] := by simpa [EArg.isEmpty] using h0
      subst this; simp at hi
    · rw [h2] at hok; cases hok
    · obtain ⟨h3, h4, h5⟩ := (formatEdges_spec _ _).1 es' ws' hf
      refine ⟨h3, ?_⟩
      rcases h2 with ⟨hz, _⟩ | ⟨f, hf', _⟩
      · rw [hz] at h5
        simp only [Spec.weighted, Option.some.injEq, List.map_eq_nil_iff, List.map_nil] at h5
        have : (es.zip ws).length = 0 := by rw [h5]; rfl
        rw [List.length_zip] at this; omega
      · exact (mergeFn_ok_iff (K := K) op).1 ⟨f, hf'⟩
  unfold Spec.add
  rw [if_pos hcond]
  simp only [Spec.weighted]
  rw [foldl_put_map]
  -- later edges do not touch the pair
  have keep : ∀ (l : List ((Int × Int) × K)) (m : Spec.WMap K) (a b : Int),
      (∀ e ∈ l, ¬ ((a = e.1.1 ∧ b = e.1.2) ∨ (a = e.1.2 ∧ b = e.1.1))) →
      l.foldl (fun m e => Spec.put m op e.1.1 e.1.2 e.2) m a b = m a b := by
    intro l
    induction l with
    | nil => intro m a b _; rfl
    | cons e l ih =>
      intro m a b h
      rw [List.foldl_cons, ih _ _ _ fun e' he' => h e' (List.mem_cons_of_mem _ he')]
      unfold Spec.put
      rw [if_neg (h e List.mem_cons_self)]
  clear hcond h1 hok hb1 habs
  generalize absR g.raw = m at hnone ⊢
  induction es generalizing ws i m with
  | nil => simp at hi
  | cons e es ih =>
    cases ws with
    | nil => simp at hlen
    | cons w ws =>
      simp only [List.zip_cons_cons, List.foldl_cons]
      rw [List.pairwise_cons] at hdis
      cases i with
      | zero =>
        simp only [List.getElem_cons_zero]
        rw [keep]
        · unfold Spec.put
          rw [if_pos (Or.inl ⟨rfl, rfl⟩), hnone e List.mem_cons_self]
        · intro x hx hc
          have := hdis.1 x.1 (List.of_mem_zip hx).1
          omega
      | succ i =>
        simp only [List.getElem_cons_succ]
        refine ih (by simpa using hlen) hdis.2 i (by simpa using hi) _ ?_
        intro e' he'
        unfold Spec.put
        rw [if_neg (hdis.1 e' he')]
        exact hnone e' (List.mem_cons_of_mem _ he')

example : (apply (.addEdges (.many [(0, 2), (1, 1)] (.list [5, 6])) .sum) exG).1 = .ok () := rfl

/-! ## C28 (Graph) -/

/-- C28 (Graph). `from_adj_list` has (weight 1) an edge between the head of each line and each
later element, the unit loops of the flag, and nothing else. -/
theorem C28_graph_from_adj_list [IsStrictOrderedRing K] {n : Int} {adj : List (List Int)}
    {extra : Bool} {g : GSt K} (hg : fromAdjList n adj extra = .ok g) (a b : Int) (w : K) :
    Spec.Listed g a b w ↔ w = 1 ∧
      ((∃ line ∈ adj, ∃ tl, line = a :: tl ∧ b ∈ tl) ∨ (∃ line ∈ adj, ∃ tl, line = b :: tl ∧ a ∈ tl) ∨
        (extra = true ∧ a = b ∧ 0 ≤ a ∧ a < n)) := by
  have hb : Built AnyArg g := .adj hg trivial
  have hbound : ∀ e ∈ adjListEdges adj, e.1 < (n.toNat : Int) ∧ e.2 < (n.toNat : Int) := by
    intro e he
    unfold fromAdjList Graph.new GRaw.init at hg
    split at hg
    · simp only [bind, Except.bind] at hg
      rcases addEdges_cases (K := K) (.many (adjListEdges adj) .none) .mean
        { raw := { numV := n.toNat, eDict := [], loops := [], extra }, cache := [] } with
        ⟨h0, _⟩ | ⟨e', h2⟩ | ⟨es', ws', _, hf, h2⟩
      · have : adjListEdges adj = [] := by simpa [EArg.isEmpty] using h0
        rw [this] at he; cases he
      · rw [h2] at hg; cases hg
      · exact ((formatEdges_spec _ _).1 es' ws' hf).1 e he
    · cases hg
  obtain ⟨h1, h2, h3⟩ := absS_new (K := K) hg
  have hmap : absR g.raw = (Spec.new n.toNat (some (.many (adjListEdges adj) .none)) extra .mean : Spec.GState K).map :=
    congrArg Spec.GState.map h1
  have hex : g.raw.extra = extra := congrArg Spec.GState.extra h1
  rw [hb.listed, hmap, hex, h2]
  have hspec : (Spec.new n.toNat (some (.many (adjListEdges adj) .none)) extra .mean : Spec.GState K).map =
      ((adjListEdges adj).map fun e => (e.1, e.2, (1 : K))).foldl
        (fun m e => Spec.put m .mean e.1 e.2.1 e.2.2) (fun _ _ => none) := by
    simp only [Spec.new, Spec.add]
    rw [if_pos ⟨hbound, by decide⟩]
    rfl
  have key : ∀ (l : List (Int × Int)) (m : Spec.WMap K), (∀ x y v, m x y = some v → v = 1) →
      (∀ x y, m x y = m y x) →
      ((l.map fun e => (e.1, e.2, (1 : K))).foldl
        (fun m e => Spec.put m .mean e.1 e.2.1 e.2.2) m a b = some w ↔
        w = 1 ∧ (m a b = some 1 ∨ (a, b) ∈ l ∨ (b, a) ∈ l)) := by
    intro l
    induction l with
    | nil =>
      intro m hm _
      simp only [List.map_nil, List.foldl_nil, List.not_mem_nil, or_false]
      constructor
      · intro h; have := hm _ _ _ h; subst this; exact ⟨rfl, h⟩
      · rintro ⟨rfl, h⟩; exact h
    | cons e l ih =>
      intro m hm hsym
      rw [List.map_cons, List.foldl_cons, ih]
      · constructor
        · rintro ⟨rfl, h⟩
          refine ⟨rfl, ?_⟩
          rcases h with h | h | h
          · unfold Spec.put at h
            split at h
            · rename_i hc
              right
              rcases hc with ⟨rfl, rfl⟩ | ⟨rfl, rfl⟩
              · left; exact List.mem_cons_self
              · right; exact List.mem_cons_self
            · left; exact h
          · right; left; exact List.mem_cons_of_mem _ h
          · right; right; exact List.mem_cons_of_mem _ h
        · rintro ⟨rfl, h⟩
          refine ⟨rfl, ?_⟩
          by_cases hc : (a = e.1 ∧ b = e.2) ∨ (a = e.2 ∧ b = e.1)
          · left
            unfold Spec.put
            rw [if_pos hc]
            cases hmm : m e.1 e.2 with
            | none => rfl
            | some o => have := hm _ _ _ hmm; subst this; simp [Spec.merge]
          · rcases h with h | h | h
            · left; unfold Spec.put; rw [if_neg hc]; exact h
            · rcases List.mem_cons.1 h with rfl | h
              · exact absurd (Or.inl ⟨rfl, rfl⟩) hc
              · right; left; exact h
            · rcases List.mem_cons.1 h with rfl | h
              · exact absurd (Or.inr ⟨rfl, rfl⟩) hc
              · right; right; exact h
      · intro x y v h
        unfold Spec.put at h
        split at h
        · cases hmm : m e.1 e.2 with
          | none => rw [hmm] at h; simpa using h.symm
          | some o =>
            rw [hmm] at h
            have := hm _ _ _ hmm; subst this
            simpa [Spec.merge] using h.symm
        · exact hm _ _ _ h
      · exact put_symm_map hsym _ _ _ _
  have hmem : ∀ x y : Int, (x, y) ∈ adjListEdges adj ↔ ∃ line ∈ adj, ∃ tl, line = x :: tl ∧ y ∈ tl := by
    intro x y
    unfold adjListEdges
    rw [List.mem_flatMap]
    constructor
    · rintro ⟨line, hl, h⟩
      refine ⟨line, hl, ?_⟩
      rcases line with _ | ⟨s, _ | ⟨d, ds⟩⟩
      · simp at h
      · simp at h
      · obtain ⟨y', hy', heq⟩ := List.mem_map.1 h
        cases heq
        exact ⟨_, rfl, hy'⟩
    · rintro ⟨line, hl, tl, rfl, hy⟩
      refine ⟨_, hl, ?_⟩
      cases tl with
      | nil => cases hy
      | cons d ds => exact List.mem_map.2 ⟨y, hy, rfl⟩
  rw [hspec, key _ _ (by intro _ _ _ h; cases h) (fun _ _ => rfl), hmem, hmem]
  have : (a < (n.toNat : Int)) ↔ a < n := by omega
  rw [this]
  simp only [reduceCtorEq, false_or]
  generalize (∃ line ∈ adj, ∃ tl, line = a :: tl ∧ b ∈ tl) = P
  generalize (∃ line ∈ adj, ∃ tl, line = b :: tl ∧ a ∈ tl) = Q
  constructor
  · rintro (⟨h, h' | h'⟩ | ⟨h1, h2, h3, h4, h5⟩)
    · exact ⟨h, Or.inl h'⟩
    · exact ⟨h, Or.inr (Or.inl h')⟩
    · exact ⟨h5, Or.inr (Or.inr ⟨h1, h2, h3, h4⟩)⟩
  · rintro ⟨h, h' | h' | ⟨h1, h2, h3, h4⟩⟩
    · exact Or.inl ⟨h, Or.inl h'⟩
    · exact Or.inl ⟨h, Or.inr h'⟩
    · exact Or.inr ⟨h1, h2, h3, h4, h⟩

example : ∃ g : GSt ℝ, fromAdjList 4 [[0, 1, 2], [3], [2, 0]] true = .ok g := ⟨_, rfl⟩

end Props
end DHG
