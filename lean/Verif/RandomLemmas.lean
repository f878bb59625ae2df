import Mathlib.Data.List.Sublists
import Mathlib.Data.List.Perm.Subperm
import Mathlib.Data.Nat.Choose.Sum
import Verif.Random
import Verif.RandomSpec
import Verif.ConvertLemmas
import Verif.ConvertHyper
import Verif.ConvertBi
import Verif.DiGraphLemmas

set_option linter.unusedSectionVars false
set_option autoImplicit false

namespace DHG
namespace RandGen

/-! ### The constructors applied to new pairs -/

section Build
variable {K : Type} [Field K] [LinearOrder K] [PyReal K]

theorem mem_zip_ones (es : List (Int × Int)) (p : Int × Int) (w : K) :
    (p, w) ∈ es.zip (List.replicate es.length 1) ↔ p ∈ es ∧ w = 1 := by
  induction es with
  | nil => simp
  | cons e es ih =>
    simp only [List.length_cons, List.replicate_succ, List.zip_cons_cons, List.mem_cons, ih,
      Prod.mk.injEq]
    tauto

/-- folding new keys into a dictionary appends them -/
theorem foldl_upsert_new (f : K → K → K) (es : List (Int × Int)) (d : Dict (Int × Int) K)
    (h : (d.keys ++ es).Nodup) :
    (es.foldl (fun d e => upsert d e f 1) d) = d ++ es.map fun e => (e, 1) := by
  induction es generalizing d with
  | nil => simp
  | cons e es ih =>
    have hn : e ∉ d.keys := by
      intro he
      rw [List.nodup_append] at h
      exact h.2.2 _ he _ List.mem_cons_self rfl
    have hu : upsert d e f 1 = d ++ [(e, 1)] := by
      unfold upsert
      rw [(Dict.get?_eq_none_iff _ _).2 hn]
      exact Dict.set_of_notMem _ _ _ hn
    rw [List.foldl_cons, hu, ih]
    · simp
    · simpa [Dict.keys] using h

theorem addPairs_new (f : K → K → K) (es : List (Int × Int)) (r : GRaw K)
    (hl : ∀ e ∈ es, e.1 ≠ e.2) :
    Graph.addPairs r f (es.zip (List.replicate es.length 1)) =
      { r with eDict := (es.map Graph.sortPair).foldl (fun d e => upsert d e f 1) r.eDict } := by
  unfold Graph.addPairs
  induction es generalizing r with
  | nil => rfl
  | cons e es ih =>
    simp only [List.length_cons, List.replicate_succ, List.zip_cons_cons, List.foldl_cons, List.map_cons]
    have : (Graph.sortPair e).1 ≠ (Graph.sortPair e).2 := by
      have := hl e List.mem_cons_self
      unfold Graph.sortPair
      split
      · exact this
      · exact this.symm
    rw [ih _ fun e' he' => hl e' (List.mem_cons_of_mem _ he')]
    unfold GRaw.addEdge
    rw [if_neg this]

theorem mem_sortPair {es : List (Int × Int)} (p : Int × Int) :
    p ∈ es.map Graph.sortPair ↔ p.1 ≤ p.2 ∧ (p ∈ es ∨ (p.2, p.1) ∈ es) := by
  rw [List.mem_map]
  constructor
  · rintro ⟨e, he, rfl⟩
    unfold Graph.sortPair
    by_cases h : e.1 ≤ e.2
    · rw [if_pos h]; exact ⟨h, .inl he⟩
    · rw [if_neg h]; exact ⟨by simp only; omega, .inr he⟩
  · rintro ⟨h, h' | h'⟩
    · exact ⟨p, h', by unfold Graph.sortPair; rw [if_pos h]⟩
    · by_cases hp : p.1 = p.2
      · refine ⟨_, h', ?_⟩
        unfold Graph.sortPair
        rw [if_pos (by simp only; omega)]
        ext <;> simp [hp]
      · refine ⟨_, h', ?_⟩
        unfold Graph.sortPair
        rw [if_neg (by simp only; omega)]

/-- `Graph(n, es)` for pairs without loops that are different as unordered pairs -/
theorem graph_new {n : Int} (hn : 0 < n) {es : List (Int × Int)} (hl : ∀ e ∈ es, e.1 ≠ e.2)
    (hb : ∀ e ∈ es, e.1 < n ∧ e.2 < n) (hd : (es.map Graph.sortPair).Nodup) :
    ∃ g : GSt K, Graph.new n (some (.many es .none)) false .mean = .ok g ∧
      Spec.GraphIs g n (fun p => p ∈ es.map Graph.sortPair) ∧
      Spec.listing g = (es.map Graph.sortPair).map fun e => (e, 1) := by
  obtain ⟨k, rfl⟩ : ∃ k : Nat, n = k := ⟨n.toNat, by omega⟩
  obtain ⟨g, hg⟩ := Graph.new_many_ok (K := K) (n := k) (by omega) (es := es) (ws := .none) hb
    (extra := false) (op := .mean) (.inl (by decide)) (by intro w; simp)
  have hraw : g.raw =
      { numV := k, eDict := (es.map Graph.sortPair).map (fun e => (e, 1)), loops := [], extra := false } ∧ g.cache = [] := by
    have h := hg
    unfold Graph.new GRaw.init at h
    rw [if_pos hn] at h
    simp only [bind, Except.bind] at h
    cases es with
    | nil =>
      cases h
      exact ⟨rfl, rfl⟩
    | cons e es =>
      have hem : (EArg.many (K := K) (e :: es) .none).isEmpty = false := rfl
      have hfmt : formatEdges (K := K) k (.many (e :: es) .none) =
          .ok (e :: es, List.replicate (e :: es).length 1) := by
        unfold formatEdges
        exact if_pos hb
      unfold Graph.addEdges at h
      rw [hem] at h
      simp only [Bool.false_eq_true, if_false, PyM.bind_apply, readRaw, PyM.lift_apply,
        Int.toNat_natCast, hfmt] at h
      rw [Graph.forM_addEdge_ok (f := fun x y => (x + y) / 2) rfl] at h
      simp only [clearCache, PyM.modify] at h
      cases h
      refine ⟨?_, rfl⟩
      simp only
      rw [addPairs_new _ _ _ hl]
      simp only
      rw [foldl_upsert_new _ _ _ (by simpa [Dict.keys] using hd)]
      rfl
  have hB : Graph.Built Graph.AnyArg g := .new hg fun _ _ => trivial
  have hlist : Spec.listing g = (es.map Graph.sortPair).map fun e => (e, 1) := by
    rw [Graph.listing_eq hB.inv.2, hraw.1]
    simp only [GRaw.edgeList, GRaw.edgeWts, Dict.keys, Dict.vals, List.map_nil, List.append_nil,
      Bool.false_eq_true, if_false]
    generalize es.map Graph.sortPair = l
    clear hg hB hraw hl hb hd
    induction l with
    | nil => rfl
    | cons a l ih => simpa using ih
  refine ⟨g, hg, ⟨?_, ?_, ?_, ?_⟩, hlist⟩
  · rw [Graph.new_numV hg, Int.toNat_natCast]
  · rw [(Graph.reads_ask .numE g hB.inv.2).1, hlist]
    show Except.ok (GAns.num g.raw.numE) = _
    rw [hraw.1]
    simp [GRaw.numE]
  · rw [hlist, List.map_map]
    simpa [Function.comp_def] using hd
  · intro p w
    rw [hlist]
    simp only [List.mem_map (f := fun e : Int × Int => (e, (1 : K))), Prod.mk.injEq]
    constructor
    · rintro ⟨e, he, rfl, rfl⟩; exact ⟨he, rfl⟩
    · rintro ⟨he, rfl⟩; exact ⟨p, he, rfl, rfl⟩

theorem addPairsO_new (c : Cls) (f : K → K → K) (es : List (Int × Int)) (r : GRaw K)
    (hl : c = .di → ∀ e ∈ es, e.1 ≠ e.2) :
    Ord.addPairs c r f (es.zip (List.replicate es.length 1)) =
      { r with eDict := es.foldl (fun d e => upsert d e f 1) r.eDict } := by
  unfold Ord.addPairs
  induction es generalizing r with
  | nil => rfl
  | cons e es ih =>
    simp only [List.length_cons, List.replicate_succ, List.zip_cons_cons, List.foldl_cons]
    rw [ih _ fun h e' he' => hl h e' (List.mem_cons_of_mem _ he')]
    cases c with
    | di =>
      have := hl rfl e List.mem_cons_self
      simp only [Ord.addE, GRaw.addEdge]
      rw [if_neg this]
    | bi => rfl

theorem zip_ones_map (l : List (Int × Int)) :
    (l.map fun e => (e, (1 : K))).map Prod.fst = l := by simp [Function.comp_def]

theorem zip_keys_vals (d : Dict (Int × Int) K) : d.keys.zip d.vals = d := by
  unfold Dict.keys Dict.vals
  induction d with
  | nil => rfl
  | cons a l ih => simpa using ih

theorem showsEdges_of {numV numE : Except Err (GAns K)} {l : List ((Int × Int) × K)} {n : Int}
    {es : List (Int × Int)} (h1 : numV = .ok (.num n.toNat)) (hd : es.Nodup)
    (hl : l = es.map fun e => (e, 1)) (h2 : numE = .ok (.num es.length)) :
    Spec.ShowsEdges numV numE l n (fun p => p ∈ es) := by
  refine ⟨h1, by rw [h2, hl]; simp, by rw [hl, zip_ones_map]; exact hd, ?_⟩
  intro p w
  rw [hl]
  simp only [List.mem_map, Prod.mk.injEq]
  constructor
  · rintro ⟨e, he, rfl, rfl⟩; exact ⟨he, rfl⟩
  · rintro ⟨he, rfl⟩; exact ⟨p, he, rfl, rfl⟩

/-- `add_edges` of new pairs on an empty object -/
theorem addEdgesO_new (c : Cls) (r : GRaw K) (hr : r.eDict = []) {es : List (Int × Int)}
    (hl : c = .di → ∀ e ∈ es, e.1 ≠ e.2) (hd : es.Nodup)
    (hb : ∀ e ∈ es, e.1 < (Ord.rows c r : Int) ∧ e.2 < (r.numV : Int)) :
    ∃ ca, Ord.addEdges c (.many es .none) .mean { raw := r, cache := [] } =
      (.ok (), { raw := { r with eDict := es.map fun e => (e, 1) }, cache := ca }) ∧ ca = [] := by
  cases es with
  | nil =>
    refine ⟨[], ?_, rfl⟩
    unfold Ord.addEdges
    simp only [EArg.isEmpty, List.isEmpty_nil, if_true]
    obtain ⟨nu, nv, e, lo, ex⟩ := r
    cases hr
    rfl
  | cons e es =>
    have hem : (EArg.many (K := K) (e :: es) .none).isEmpty = false := rfl
    have hfmt : Ord.format (K := K) c r (.many (e :: es) .none) =
        .ok (e :: es, List.replicate (e :: es).length 1) := by
      cases c with
      | di => simp only [Ord.format, formatEdges]; exact if_pos hb
      | bi => simp only [Ord.format, formatEdgesBi]; exact if_pos hb
    refine ⟨[], ?_, rfl⟩
    unfold Ord.addEdges
    rw [hem]
    simp only [Bool.false_eq_true, if_false, PyM.bind_apply, readRaw, PyM.lift_apply, id, hfmt]
    rw [Ord.forM_addEdge_ok (f := fun x y => (x + y) / 2) rfl]
    simp only [clearCache, PyM.modify]
    rw [addPairsO_new c _ _ _ hl]
    simp only [hr]
    rw [foldl_upsert_new _ _ _ (by simpa [Dict.keys] using hd)]
    rfl

/-- `DiGraph(n, es)` for different pairs without loops -/
theorem digraph_new {n : Int} (hn : 0 < n) {es : List (Int × Int)} (hl : ∀ e ∈ es, e.1 ≠ e.2)
    (hb : ∀ e ∈ es, e.1 < n ∧ e.2 < n) (hd : es.Nodup) :
    ∃ g : DSt K, DiGraph.new n (some (.many es .none)) false .mean = .ok g ∧
      Spec.DigraphIs g n (fun p => p ∈ es) ∧ Spec.listingD g = es.map fun e => (e, 1) := by
  obtain ⟨ca, ha, rfl⟩ := addEdgesO_new (K := K) .di
    { numV := n.toNat, eDict := [], loops := [], extra := false } rfl (es := es) (fun _ => hl) hd
    (by
      intro e he
      have := hb e he
      simp only [Ord.rows]
      omega)
  have hg : DiGraph.new (K := K) n (some (.many es .none)) false .mean = .ok
      { raw := { numV := n.toNat, eDict := es.map (fun e => (e, 1)), loops := [], extra := false },
        cache := [] } := by
    unfold DiGraph.new GRaw.init
    rw [if_pos hn]
    simp only [bind, Except.bind]
    rw [ha]
  have hB : DiGraph.Built Graph.AnyArg false _ := .new hg fun _ _ => trivial
  have hlist : Spec.listingD _ = _ := DiGraph.listing_eq hB.coh.1
  have hlist' : Spec.listingD (K := K) { raw := { numV := n.toNat, eDict := es.map (fun e => (e, 1)), loops := [], extra := false }, cache := [] } =
      es.map fun e => (e, 1) := by
    rw [hlist]
    simp only [GRaw.edgeList, GRaw.edgeWts, List.map_nil, List.append_nil,
      Bool.false_eq_true, if_false, Dict.keys, Dict.vals]
    exact zip_keys_vals _
  refine ⟨_, hg, showsEdges_of rfl hd hlist' ?_, hlist'⟩
  rw [hB.ask .numE]
  show Except.ok (GAns.num (GRaw.numE _)) = _
  simp [GRaw.numE]

/-- `BiGraph(m, n, es)` for different pairs -/
theorem bigraph_new {m n : Int} (hm : 0 ≤ m) (hn : 0 < n) {es : List (Int × Int)}
    (hb : ∀ e ∈ es, e.1 < m ∧ e.2 < n) (hd : es.Nodup) :
    ∃ g : BSt K, BiGraph.new m.toNat n (some (.many es .none)) .mean = .ok g ∧
      Spec.BigraphIs g m n (fun p => p ∈ es) ∧ Spec.listingB g = es.map fun e => (e, 1) := by
  obtain ⟨ca, ha, rfl⟩ := addEdgesO_new (K := K) .bi (BiGraph.base m.toNat n.toNat) rfl (es := es)
    (by intro h; cases h) hd
    (by
      intro e he
      have := hb e he
      simp only [Ord.rows, BiGraph.base]
      omega)
  have hg : BiGraph.new (K := K) m.toNat n (some (.many es .none)) .mean = .ok
      { raw := { BiGraph.base m.toNat n.toNat with eDict := es.map fun e => (e, 1) },
        cache := [] } := by
    unfold BiGraph.new
    rw [BiGraph.init_of_pos hn]
    simp only [bind, Except.bind]
    rw [ha]
  have hB : BiGraph.Built Graph.AnyArg _ := .new hg fun _ _ => trivial
  have hlist : Spec.listingB _ = _ := BiGraph.listing_eq hB.coh
  have hlist' : Spec.listingB (K := K)
      ⟨{ BiGraph.base m.toNat n.toNat with eDict := es.map fun e => (e, 1) }, []⟩ =
      es.map fun e => (e, 1) := by
    rw [hlist]
    simp only [GRaw.edgeList, GRaw.edgeWts, BiGraph.base, List.map_nil, List.append_nil,
      Bool.false_eq_true, if_false, Dict.keys, Dict.vals]
    exact zip_keys_vals _
  refine ⟨_, hg, ⟨rfl, showsEdges_of rfl hd hlist' ?_⟩, hlist'⟩
  rw [hB.ask .numE]
  show Except.ok (GAns.num (GRaw.numE _)) = _
  simp [GRaw.numE, BiGraph.base]

/-- `Hypergraph(n, es)` for sorted hyperedges that are different -/
theorem hyper_new {n : Int} (hn : 0 < n) {es : List (List Int)} (hs : ∀ e ∈ es, sortV e = e)
    (hd : es.Nodup) :
    ∃ s : HSt K, Hyper.new n (some (Hyper.listArg es)) .none none .mean = .ok s ∧
      Spec.HypergraphIs s n (fun e => ∃ l ∈ es, (l : Multiset Int) = e) ∧
      Spec.hListing s none = es.map fun e => (e, 1) := by
  obtain ⟨k, rfl⟩ : ∃ k : Nat, n = k := ⟨n.toNat, by omega⟩
  have hnew := Hyper.new_list_ok (K := K) (n := k) (es := es) (ew := .none)
    (ws := List.replicate es.length 1) (by omega) rfl (by simp)
  have hms : es.map sortV = es := by
    conv_rhs => rw [← List.map_id es]
    exact List.map_congr_left hs
  have hz : es.zip (List.replicate es.length (1 : K)) = es.map fun e => (e, 1) := by
    clear hnew hms hs hd
    induction es with
    | nil => rfl
    | cons a l ih => simpa [List.replicate_succ] using ih
  rw [hms, hz] at hnew
  have hB := Hyper.new_list_built hnew
  have hc := hB.inv.2
  obtain ⟨r, hr, hg⟩ : ∃ r : HRaw K, (es.map fun e => (e, (1 : K))).foldl (Hyper.addRaw .mean "main")
      (Hyper.base k) = r ∧ r.groups = (if es = [] then [] else [("main", es.map fun e => (e, 1))]) := by
    refine ⟨_, rfl, ?_⟩
    cases es with
    | nil => rfl
    | cons e es =>
      rw [List.map_cons]
      unfold Hyper.base
      rw [Hyper.foldl_addRaw_new .mean k _ [] "main" (by simp [Dict.keys]) (e, 1)
        (es.map fun e => (e, (1 : K))) (by simpa [Dict.keys, Function.comp_def] using hd)]
      simp
  rw [hr] at hnew hB hc
  have hE : (Hyper.ask (.e none) (⟨r, []⟩ : HSt K)).1 = .ok (.edges es (List.replicate es.length 1)) := by
    rw [Hyper.ask_e hc]
    simp only [Hyper.evE]
    by_cases he : es = []
    · subst he
      rw [if_pos rfl] at hg
      rw [hg]
      rfl
    · rw [if_neg he] at hg
      have hev : Hyper.evEOf r "main" = .ok (es, List.replicate es.length 1) := by
        unfold Hyper.evEOf Hyper.evGroup
        rw [hg]
        simp [Dict.get?, Dict.keys, Dict.vals, bind, Except.bind, Function.comp_def, List.map_const']
      rw [hg]
      simp only [Dict.keys, List.map_cons, List.map_nil, collectE, hev, bind, Except.bind]
      simp [Except.map]
  have hL : Spec.hListing (⟨r, []⟩ : HSt K) none = es.map fun e => (e, 1) := by
    unfold Spec.hListing
    rw [hE]
    exact hz
  refine ⟨_, hnew, ⟨?_, ?_, ?_, ?_⟩, hL⟩
  · rw [Hyper.new_list_numV hnew, Int.toNat_natCast]
  · rw [Hyper.ask_eq _ hc (.inr (by simp)), hL]
    simp only [Hyper.evAsk, Hyper.evNumE]
    rw [hg]
    by_cases he : es = []
    · subst he; rfl
    · rw [if_neg he]
      simp [bind, Except.bind]
  · rw [hL, List.map_map]
    rw [show ((fun p : List Int × K => (p.1 : Multiset Int)) ∘ fun e => (e, 1)) =
      fun e : List Int => (e : Multiset Int) from rfl]
    refine hd.map_on fun x hx y hy h => ?_
    rw [← hs x hx, ← hs y hy]
    exact sortV_eq_iff.2 (Multiset.coe_eq_coe.1 h)
  · intro e w
    rw [hL]
    simp only [List.mem_map, Prod.mk.injEq]
    constructor
    · rintro ⟨l, rfl, l', h, rfl, rfl⟩; exact ⟨⟨l', h, rfl⟩, rfl⟩
    · rintro ⟨⟨l, hl, rfl⟩, rfl⟩; exact ⟨l, rfl, l, hl, rfl, rfl⟩

end Build

/-! ### Enumerations -/

theorem mem_rangeI {n : Nat} {a : Int} : a ∈ rangeI n ↔ 0 ≤ a ∧ a < n := by
  unfold rangeI
  simp only [List.mem_map, List.mem_range]
  constructor
  · rintro ⟨k, hk, rfl⟩; simp only [Int.ofNat_eq_natCast]; omega
  · rintro ⟨h1, h2⟩; exact ⟨a.toNat, by omega, by simp only [Int.ofNat_eq_natCast]; omega⟩

theorem rangeI_nodup (n : Nat) : (rangeI n).Nodup :=
  List.nodup_range.map fun _ _ h => Int.ofNat.inj h

theorem rangeI_length (n : Nat) : (rangeI n).length = n := by simp [rangeI]

theorem rangeI_sorted (n : Nat) : (rangeI n).Pairwise (· < ·) := by
  unfold rangeI
  rw [List.pairwise_map]
  refine List.pairwise_lt_range.imp ?_
  intro a b h
  simp only [Int.ofNat_eq_natCast]; omega

theorem mem_perms2 {n : Nat} {p : Int × Int} :
    p ∈ perms2 n ↔ 0 ≤ p.1 ∧ p.1 < n ∧ 0 ≤ p.2 ∧ p.2 < n ∧ p.1 ≠ p.2 := by
  obtain ⟨a, b⟩ := p
  unfold perms2
  simp only [List.mem_flatMap, List.mem_map, List.mem_filter, mem_rangeI, decide_eq_true_eq,
    Prod.mk.injEq]
  constructor
  · rintro ⟨a', ⟨h1, h2⟩, b', ⟨⟨h3, h4⟩, h5⟩, rfl, rfl⟩; exact ⟨h1, h2, h3, h4, h5⟩
  · rintro ⟨h1, h2, h3, h4, h5⟩; exact ⟨a, ⟨h1, h2⟩, b, ⟨⟨h3, h4⟩, h5⟩, rfl, rfl⟩

theorem flat_nodup {l : List Int} (hl : l.Nodup) (f : Int → List Int) (hf : ∀ a, (f a).Nodup) :
    (l.flatMap fun a => (f a).map fun b => (a, b)).Nodup := by
  rw [List.nodup_flatMap]
  refine ⟨fun a _ => (hf a).map fun _ _ h => (Prod.mk.inj h).2, ?_⟩
  refine hl.imp ?_
  intro a b hab x hx hy
  obtain ⟨_, _, rfl⟩ := List.mem_map.1 hx
  obtain ⟨_, _, h⟩ := List.mem_map.1 hy
  exact hab (Prod.mk.inj h).1.symm

theorem perms2_nodup (n : Nat) : (perms2 n).Nodup :=
  flat_nodup (rangeI_nodup n) _ fun _ => (rangeI_nodup n).filter _

theorem mem_product {m n : Nat} {p : Int × Int} :
    p ∈ product m n ↔ 0 ≤ p.1 ∧ p.1 < m ∧ 0 ≤ p.2 ∧ p.2 < n := by
  obtain ⟨a, b⟩ := p
  unfold product
  simp only [List.mem_flatMap, List.mem_map, mem_rangeI, Prod.mk.injEq]
  constructor
  · rintro ⟨a', ⟨h1, h2⟩, b', ⟨h3, h4⟩, rfl, rfl⟩; exact ⟨h1, h2, h3, h4⟩
  · rintro ⟨h1, h2, h3, h4⟩; exact ⟨a, ⟨h1, h2⟩, b, ⟨h3, h4⟩, rfl, rfl⟩

theorem product_nodup (m n : Nat) : (product m n).Nodup :=
  flat_nodup (rangeI_nodup m) _ fun _ => rangeI_nodup n

theorem mem_combinations (k : Nat) (l : List Int) (e : List Int) :
    e ∈ combinations k l ↔ e.Sublist l ∧ e.length = k := by
  induction l generalizing k e with
  | nil =>
    cases k with
    | zero => simp [combinations]; 
    | succ k =>
      simp only [combinations, List.not_mem_nil, List.sublist_nil, false_iff, not_and]
      rintro rfl; simp
  | cons x xs ih =>
    cases k with
    | zero =>
      simp only [combinations, List.mem_singleton, List.length_eq_zero_iff]
      constructor
      · rintro rfl; exact ⟨List.nil_sublist _, rfl⟩
      · exact fun h => h.2
    | succ k =>
      simp only [combinations, List.mem_append, List.mem_map, ih]
      constructor
      · rintro (⟨e', ⟨h1, h2⟩, rfl⟩ | ⟨h1, h2⟩)
        · exact ⟨h1.cons_cons x, by simp [h2]⟩
        · exact ⟨h1.cons x, h2⟩
      · rintro ⟨h1, h2⟩
        cases h1 with
        | cons _ h => exact .inr ⟨h, h2⟩
        | cons_cons _ h => exact .inl ⟨_, ⟨h, by simpa using h2⟩, rfl⟩

theorem combinations_nodup (k : Nat) (l : List Int) (hl : l.Nodup) : (combinations k l).Nodup := by
  induction l generalizing k with
  | nil => cases k <;> simp [combinations]
  | cons x xs ih =>
    rw [List.nodup_cons] at hl
    cases k with
    | zero => simp [combinations]
    | succ k =>
      simp only [combinations]
      rw [List.nodup_append]
      refine ⟨(ih k hl.2).map fun _ _ h => (List.cons.inj h).2, ih (k + 1) hl.2, ?_⟩
      intro a ha b hb hab
      subst hab
      obtain ⟨e, _, rfl⟩ := List.mem_map.1 ha
      exact hl.1 (((mem_combinations _ _ _).1 hb).1.subset List.mem_cons_self)

theorem combinations_length (k : Nat) (l : List Int) : (combinations k l).length = l.length.choose k := by
  induction l generalizing k with
  | nil => cases k <;> simp [combinations]
  | cons x xs ih =>
    cases k with
    | zero => simp [combinations]
    | succ k => simp [combinations, ih, Nat.choose_succ_succ]

theorem combinations_sorted {k n : Nat} {e : List Int} (h : e ∈ combinations k (rangeI n)) :
    e.Pairwise (· < ·) := (rangeI_sorted n).sublist ((mem_combinations _ _ _).1 h).1

/-- a strictly increasing list of `k` numbers below `n` is one of the combinations -/
theorem combinations_of_sorted {k n : Nat} {e : List Int} (h : e.Pairwise (· < ·))
    (hr : ∀ v ∈ e, 0 ≤ v ∧ v < (n : Int)) (hk : e.length = k) : e ∈ combinations k (rangeI n) := by
  rw [mem_combinations]
  refine ⟨?_, hk⟩
  exact List.sublist_of_subperm_of_pairwise (List.subperm_of_subset (h.imp fun h => ne_of_lt h)
    fun v hv => mem_rangeI.2 (hr v hv)) h (rangeI_sorted n)

/-- hyperedges given by combinations are the `k`-subsets -/
theorem combinations_subset {k n : Nat} (e : Multiset Int) :
    (∃ l ∈ combinations k (rangeI n), (l : Multiset Int) = e) ↔ Spec.IsSubset n k e := by
  constructor
  · rintro ⟨l, hl, rfl⟩
    obtain ⟨h1, h2⟩ := (mem_combinations _ _ _).1 hl
    exact ⟨(rangeI_nodup n).sublist h1, by simpa using h2, fun v hv => mem_rangeI.1 (h1.subset hv)⟩
  · rintro ⟨h1, h2, h3⟩
    induction e using Quotient.inductionOn with
    | _ l =>
      refine ⟨sortV l, combinations_of_sorted ?_ ?_ ?_, ?_⟩
      · have hnd : (sortV l).Nodup := (sortV_perm l).nodup_iff.2 (by simpa using h1)
        exact ((sortV_sorted l).and hnd).imp fun h => lt_of_le_of_ne h.1 h.2
      · intro v hv
        exact h3 v ((List.perm_insertionSort _ _).mem_iff.1 hv)
      · simpa [sortV] using h2
      · exact Multiset.coe_eq_coe.2 (List.perm_insertionSort _ _)

/-! ### One draw per candidate -/

section Keep
variable {K : Type} [Field K] [LinearOrder K] {α : Type}

theorem keepDraws_sublist (prob : K) (p : α → Bool) (ρ : Nat → K) (i : Nat) (l : List α) :
    (keepDraws prob p ρ i l).Sublist l := by
  induction l generalizing i with
  | nil => exact List.Sublist.refl _
  | cons x xs ih =>
    unfold keepDraws
    split
    · exact (ih _).cons_cons x
    · exact (ih _).cons x

theorem mem_keepDraws {α : Type} [BEq α] [LawfulBEq α] (prob : K) (p : α → Bool) (ρ : Nat → K) (i : Nat) (l : List α) (hl : l.Nodup)
    (x : α) : x ∈ keepDraws prob p ρ i l ↔ x ∈ l ∧ p x = true ∧ ρ (i + l.idxOf x) < prob := by
  induction l generalizing i with
  | nil => simp [keepDraws]
  | cons y ys ih =>
    rw [List.nodup_cons] at hl
    have hne : x ∈ ys → y ≠ x := by rintro h rfl; exact hl.1 h
    unfold keepDraws
    by_cases hxy : x = y
    · subst hxy
      have hx : x ∉ keepDraws prob p ρ (i + 1) ys := fun h => hl.1 ((keepDraws_sublist _ _ _ _ _).subset h)
      by_cases hc : ρ i < prob ∧ p x = true
      · rw [if_pos hc]; simp [hc]
      · rw [if_neg hc]
        simp only [hx, List.mem_cons_self, List.idxOf_cons_self, Nat.add_zero, true_and, false_iff]
        exact fun h => hc ⟨h.2, h.1⟩
    · have key : x ∈ keepDraws prob p ρ (i + 1) ys ↔
          x ∈ y :: ys ∧ p x = true ∧ ρ (i + (y :: ys).idxOf x) < prob := by
        rw [ih _ hl.2, List.idxOf_cons_ne _ (Ne.symm hxy)]
        simp only [List.mem_cons, hxy, false_or, Nat.succ_eq_add_one]
        rw [show i + 1 + ys.idxOf x = i + (ys.idxOf x + 1) by omega]
      by_cases hc : ρ i < prob ∧ p y = true
      · rw [if_pos hc, List.mem_cons]
        simp only [hxy, false_or]
        exact key
      · rw [if_neg hc]; exact key

end Keep

end RandGen
end DHG
