import Verif.ConvertHyper
import Verif.OrderedRaw
import Verif.OrderedFold
import Verif.BiGraphLemmas

/-!
# Lemmas about the conversions between hypergraphs and bipartite graphs
-/

set_option linter.unusedSectionVars false
set_option autoImplicit false

namespace DHG

variable {K : Type} [Field K] [LinearOrder K] [PyReal K]

namespace Ord

/-- all weights written to one pair are equal -/
theorem put_fold_const [IsStrictOrderedRing K] (l : List (Int × Int × K)) (m : Spec.WMap K) (a b : Int)
    (c : K) (hl : ∀ e ∈ l, e.1 = a → e.2.1 = b → e.2.2 = c) (h0 : ∀ v, m a b = some v → v = c) (w : K) :
    (l.foldl (fun m e => Spec.O.put m .mean e.1 e.2.1 e.2.2) m) a b = some w ↔
      w = c ∧ (m a b = some c ∨ ∃ e ∈ l, e.1 = a ∧ e.2.1 = b) := by
  have hc : Spec.merge .mean c c = c := by simp [Spec.merge]
  induction l generalizing m with
  | nil =>
    simp only [List.foldl_nil, List.not_mem_nil, false_and, exists_false, or_false]
    constructor
    · intro h; have := h0 _ h; subst this; exact ⟨rfl, h⟩
    · rintro ⟨rfl, h⟩; exact h
  | cons e l ih =>
    have hp : Spec.O.put m .mean e.1 e.2.1 e.2.2 a b = if e.1 = a ∧ e.2.1 = b then some c else m a b := by
      unfold Spec.O.put
      by_cases h : e.1 = a ∧ e.2.1 = b
      · obtain ⟨h1, h2⟩ := h
        rw [if_pos ⟨h1.symm, h2.symm⟩, if_pos ⟨h1, h2⟩, hl e List.mem_cons_self h1 h2, h1, h2]
        cases hv : m a b with
        | none => rfl
        | some v => simp only; rw [h0 v hv, hc]
      · rw [if_neg h, if_neg]
        rintro ⟨h1, h2⟩; exact h ⟨h1.symm, h2.symm⟩
    rw [List.foldl_cons]
    refine (ih _ (fun e' he' => hl e' (List.mem_cons_of_mem _ he')) ?_).trans ?_
    rotate_left
    · rw [hp]
      by_cases h : e.1 = a ∧ e.2.1 = b
      · simp [h]
      · simp [h]
    · intro v hv
      rw [hp] at hv
      by_cases h : e.1 = a ∧ e.2.1 = b
      · rw [if_pos h] at hv; cases hv; rfl
      · rw [if_neg h] at hv; exact h0 v hv

end Ord

namespace BiGraph

theorem new_many_ok {m n : Nat} (hn : 0 < n) {es : List (Int × Int)} {ws : WArg K}
    (hb : ∀ e ∈ es, e.1 < (m : Int) ∧ e.2 < (n : Int)) {op : MergeOp}
    (hop : op ≠ .other) (hw : ∀ w, ws ≠ .scalar w) :
    ∃ g, BiGraph.new m n (some (.many es ws)) op = .ok g := by
  unfold BiGraph.new
  rw [init_of_pos (by omega)]
  simp only [bind, Except.bind]
  cases hh : (Ord.addEdges .bi (.many es ws) op { raw := base (K := K) m (n : Int).toNat, cache := [] }) with
  | mk x s =>
    cases x with
    | ok u => exact ⟨_, rfl⟩
    | error e =>
      exfalso
      rcases Ord.addEdges_cases (c := .bi) (.many es ws) op
        ({ raw := base (K := K) m (n : Int).toNat, cache := [] }) with ⟨_, h1⟩ | ⟨e', he, h1⟩ | ⟨es', ws', _, hf, h1⟩
      · rw [h1] at hh; cases hh
      · have hfo : ∃ p, Ord.format .bi (base (K := K) m (n : Int).toNat) (.many es ws) = .ok p := by
          rw [Ord.format_bi]
          cases hf : formatEdgesBi (Ord.rows .bi (base (K := K) m (n : Int).toNat))
              (base (K := K) m (n : Int).toNat).numV (.many es ws) with
          | ok p => exact ⟨p, rfl⟩
          | error e'' =>
            exfalso
            rcases (Ord.formatBi_spec _ _ _).2 _ hf with h | h | h
            · rw [he] at h; cases h
            · exact h hb
            · cases ws with
              | scalar w => exact hw w rfl
              | none => cases h
              | list l => cases h
        obtain ⟨p, hp⟩ := hfo
        obtain ⟨f, hf⟩ : ∃ f, mergeFn (K := K) op = .ok f := by
          cases op
          · exact ⟨_, rfl⟩
          · exact ⟨_, rfl⟩
          · exact ⟨_, rfl⟩
          · exact absurd rfl hop
        have : (Ord.addEdges .bi (.many es ws) op { raw := base (K := K) m (n : Int).toNat, cache := [] }).1 = .ok () := by
          unfold Ord.addEdges
          rw [he]
          simp only [Bool.false_eq_true, if_false, PyM.bind_apply, readRaw, PyM.lift_apply, id, hp]
          rw [Ord.forM_addEdge_ok hf]
          rfl
        rw [h1] at this; cases this
      · rcases h1 with ⟨_, h1⟩ | ⟨f, _, h1⟩
        · rw [h1] at hh; cases hh
        · rw [h1] at hh; cases hh

theorem new_many_listed {m n : Nat} {es : List (Int × Int)} {ws : WArg K}
    (hb : ∀ e ∈ es, e.1 < (m : Int) ∧ e.2 < (n : Int)) (hw : ∀ w, ws ≠ .scalar w) {g : BSt K}
    (h : BiGraph.new m n (some (.many es ws)) .mean = .ok g) (a b : Int) (w : K) :
    ((a, b), w) ∈ Spec.listingB g ↔
      ((Graph.entsOf es ws).foldl (fun m e => Spec.O.put m .mean e.1 e.2.1 e.2.2) fun _ _ => none) a b
        = some w := by
  have hB : Built Graph.AnyArg g := .new h fun _ _ => trivial
  obtain ⟨h1, h2, h3⟩ := absS_new (K := K) h
  have hmap : Ord.absO g.raw = _ := congrArg Spec.GState.map h1
  have hex : g.raw.extra = false := congrArg Spec.GState.extra h1
  rw [listing_eq hB.coh, Ord.mem_listing hB.inv, hmap, hex]
  simp only [Bool.false_eq_true, false_and, or_false, Spec.O.new, Spec.O.add, Int.toNat_natCast]
  rw [if_pos ⟨hb, by decide⟩]
  cases ws with
  | none => rfl
  | list ws => rfl
  | scalar w' => exact absurd rfl (hw w')

/-! ### `from_hypergraph` -/

theorem zip_flatten {α β : Type} : ∀ (xs : List (List α)) (ys : List (List β)),
    List.Forall₂ (fun x y => x.length = y.length) xs ys →
    xs.flatten.zip ys.flatten = (List.zipWith List.zip xs ys).flatten := by
  intro xs ys h
  induction h with
  | nil => rfl
  | cons h _ ih => simp only [List.flatten_cons, List.zipWith_cons_cons]; rw [List.zip_append h, ih]

/-- the incidences of a listing, with the weight of the hyperedge or 1 -/
def incEnts (weighted : Bool) (l : List (List Int × K)) : List (Int × Nat × K) :=
  l.zipIdx.flatMap fun p => p.1.1.map fun v => (v, p.2, if weighted then p.1.2 else 1)

theorem mem_incEnts {weighted : Bool} {l : List (List Int × K)} {v : Int} {j : Nat} {w : K} :
    (v, j, w) ∈ incEnts weighted l ↔
      j < l.length ∧ v ∈ Spec.hAt l j ∧ w = if weighted then Spec.hWt l j else 1 := by
  unfold incEnts
  simp only [List.mem_flatMap, List.mem_map, Prod.mk.injEq, Prod.exists]
  constructor
  · rintro ⟨e, x, i, hm, v', hv, rfl, rfl, rfl⟩
    rw [List.mem_zipIdx_iff_getElem?] at hm
    simp only at hm
    obtain ⟨hlt, he⟩ := List.getElem?_eq_some_iff.1 hm
    rw [Hyper.hAt_of_lt hlt, Hyper.hWt_of_lt hlt, he]
    exact ⟨hlt, hv, rfl⟩
  · rintro ⟨hlt, hv, rfl⟩
    rw [Hyper.hAt_of_lt hlt] at hv
    rw [Hyper.hWt_of_lt hlt]
    refine ⟨l[j].1, l[j].2, j, ?_, v, hv, rfl, rfl, rfl⟩
    rw [List.mem_zipIdx_iff_getElem?]
    simp [hlt]

theorem incPairs_eq (weighted : Bool) (l : List (List Int × K)) :
    incPairs (l.map Prod.fst) = (incEnts weighted l).map fun e => (e.1, e.2.1) := by
  unfold incPairs incEnts
  rw [List.zipIdx_map, List.flatMap_map, List.map_flatMap]
  congr 1
  funext p
  simp [List.map_map, Function.comp_def]

theorem incWts_eq (l : List (List Int × K)) :
    incWts (l.map Prod.fst) (l.map Prod.snd) = (incEnts true l).map fun e => e.2.2 := by
  have h1 : ∀ p ∈ (l.map Prod.snd).zipIdx, True := fun _ _ => trivial
  unfold incWts incEnts
  rw [List.zipIdx_map, List.flatMap_map, List.map_flatMap]
  simp only [List.flatMap_def]
  congr 1
  refine List.map_congr_left ?_
  rintro ⟨⟨e, w⟩, i⟩ hm
  rw [List.mem_zipIdx_iff_getElem?] at hm
  simp only at hm
  simp [List.getD_eq_getElem?_getD, hm, Function.comp_def, List.map_const']

/-- the incidence `(v, j)` in the chosen orientation -/
def orient (vertexAsU : Bool) (v : Int) (j : Nat) : Int × Int :=
  if vertexAsU then (v, (j : Int)) else ((j : Int), v)

/-- `from_hypergraph` from the listing -/
def fromListing (vertexAsU weighted : Bool) (n : Nat) (l : List (List Int × K)) : Except Err (BSt K) :=
  BiGraph.new (if vertexAsU then n else l.length) ((if vertexAsU then l.length else n : Nat) : Int)
    (some (.many ((incEnts weighted l).map fun e => orient vertexAsU e.1 e.2.1)
      (if weighted then .list ((incEnts weighted l).map fun e => e.2.2) else .none))) .mean

theorem entsOf_inc (vertexAsU weighted : Bool) (l : List (List Int × K)) :
    Graph.entsOf ((incEnts weighted l).map fun e => orient vertexAsU e.1 e.2.1)
      (if weighted then .list ((incEnts weighted l).map fun e => e.2.2) else .none) =
    (incEnts weighted l).map fun e => ((orient vertexAsU e.1 e.2.1).1, (orient vertexAsU e.1 e.2.1).2, e.2.2) := by
  cases weighted with
  | true =>
    simp only [if_true, Graph.entsOf]
    rw [List.zip_map', List.map_map]
    rfl
  | false =>
    simp only [Bool.false_eq_true, if_false, Graph.entsOf, List.map_map]
    refine List.map_congr_left ?_
    rintro ⟨v, j, w⟩ he
    have := (mem_incEnts.1 he).2.2
    simp only [Bool.false_eq_true, if_false] at this
    subst this
    rfl

theorem orient_inj {vertexAsU : Bool} {v v' : Int} {j j' : Nat} :
    orient vertexAsU v j = orient vertexAsU v' j' ↔ v = v' ∧ j = j' := by
  unfold orient
  cases vertexAsU <;> simp [and_comm]

theorem inc_bounds {vertexAsU weighted : Bool} {n : Nat} {l : List (List Int × K)} (hl : Hyper.Rng n l) :
    ∀ e ∈ (incEnts weighted l).map fun e => orient vertexAsU e.1 e.2.1,
      0 ≤ e.1 ∧ 0 ≤ e.2 ∧
      e.1 < ((if vertexAsU then n else l.length : Nat) : Int) ∧
      e.2 < ((if vertexAsU then l.length else n : Nat) : Int) := by
  intro e he
  obtain ⟨⟨v, j, w⟩, hm, rfl⟩ := List.mem_map.1 he
  obtain ⟨h1, h2, _⟩ := mem_incEnts.1 hm
  rw [Hyper.hAt_of_lt h1] at h2
  have := (hl _ (List.getElem_mem h1)).2 v h2
  unfold orient
  cases vertexAsU
  · simp; omega
  · simp; omega

theorem fromListing_spec [IsStrictOrderedRing K] {vertexAsU weighted : Bool} {n : Nat}
    {l : List (List Int × K)} (hl : Hyper.Rng n l) (hn : 0 < n) (h0 : vertexAsU = false ∨ l ≠ []) :
    ∃ g, fromListing vertexAsU weighted n l = .ok g ∧ Built Graph.NonNeg g ∧
      g.raw.numU = (if vertexAsU then n else l.length) ∧
      g.raw.numV = (if vertexAsU then l.length else n) ∧ g.raw.extra = false ∧
      ∀ p w, (p, w) ∈ Spec.listingB g ↔ ∃ v j, p = orient vertexAsU v j ∧ j < l.length ∧
        v ∈ Spec.hAt l j ∧ w = if weighted then Spec.hWt l j else 1 := by
  have hb : ∀ e ∈ (incEnts weighted l).map fun e => orient vertexAsU e.1 e.2.1,
      e.1 < ((if vertexAsU then n else l.length : Nat) : Int) ∧
      e.2 < ((if vertexAsU then l.length else n : Nat) : Int) := fun e he =>
    (inc_bounds hl e he).2.2
  have hw : ∀ w : K, (if weighted then WArg.list ((incEnts weighted l).map fun e => e.2.2) else .none) ≠
      .scalar w := by
    intro w; cases weighted <;> simp
  have hpos : 0 < (if vertexAsU then l.length else n) := by
    cases vertexAsU with
    | false => simpa using hn
    | true => simpa [List.length_pos_iff] using h0
  obtain ⟨g, hg⟩ := new_many_ok hpos hb (op := .mean) (by decide) hw
  have hB : Built Graph.NonNeg g := .new hg (by
    intro a ha
    cases ha
    intro e he
    exact ⟨(inc_bounds hl e he).1, (inc_bounds hl e he).2.1⟩)
  obtain ⟨h1, h2, h3, _⟩ := absS_new (K := K) hg
  refine ⟨g, hg, hB, h3, h2.trans (Int.toNat_natCast _), congrArg Spec.GState.extra h1, ?_⟩
  rintro ⟨a, b⟩ w
  rw [new_many_listed hb hw hg, entsOf_inc]
  by_cases hex : ∃ v j, (a, b) = orient vertexAsU v j
  · obtain ⟨v, j, hvj⟩ := hex
    obtain ⟨rfl, rfl⟩ : a = (orient vertexAsU v j).1 ∧ b = (orient vertexAsU v j).2 := by
      rw [← hvj]; exact ⟨rfl, rfl⟩
    rw [Ord.put_fold_const _ _ _ _ (if weighted then Spec.hWt l j else 1)]
    · constructor
      · rintro ⟨rfl, h | ⟨e, he, e1, e2⟩⟩
        · cases h
        · obtain ⟨⟨v', j', w'⟩, hm, rfl⟩ := List.mem_map.1 he
          obtain ⟨k1, k2, k3⟩ := mem_incEnts.1 hm
          obtain ⟨rfl, rfl⟩ := orient_inj.1 (Prod.ext e1 e2)
          exact ⟨v', j', rfl, k1, k2, rfl⟩
      · rintro ⟨v', j', hp, k1, k2, rfl⟩
        obtain ⟨rfl, rfl⟩ := orient_inj.1 hp
        exact ⟨rfl, .inr ⟨_, List.mem_map.2 ⟨_, mem_incEnts.2 ⟨k1, k2, rfl⟩, rfl⟩, rfl, rfl⟩⟩
    · intro e he e1 e2
      obtain ⟨⟨v', j', w'⟩, hm, rfl⟩ := List.mem_map.1 he
      obtain ⟨rfl, rfl⟩ := orient_inj.1 (Prod.ext e1 e2)
      exact (mem_incEnts.1 hm).2.2
    · intro v h; cases h
  · constructor
    · intro h
      exfalso
      rw [Ord.put_fold_other] at h
      · cases h
      · intro e he
        obtain ⟨⟨v', j', w'⟩, hm, rfl⟩ := List.mem_map.1 he
        rintro ⟨e1, e2⟩
        exact hex ⟨v', j', Prod.ext e1.symm e2.symm⟩
    · rintro ⟨v, j, hp, _⟩
      exact absurd ⟨v, j, hp⟩ hex

/-- `from_hypergraph` from raw fields -/
def evFromH (vertexAsU weighted : Bool) (r : HRaw K) : Except Err (BSt K) := do
  let p ← Hyper.evE none r
  let ne ← Hyper.evNumE none r
  let ws : WArg K := if weighted then .list (incWts p.1 p.2) else .none
  if vertexAsU then
    BiGraph.new r.numV ne (some (.many ((incPairs p.1).map fun q => (q.1, (q.2 : Int))) ws)) .mean
  else
    BiGraph.new ne r.numV (some (.many ((incPairs p.1).map fun q => ((q.2 : Int), q.1)) ws)) .mean

theorem reads_fromH {b : Bool} (vertexAsU weighted : Bool) :
    Hyper.HReads (K := K) b (fromHypergraph vertexAsU weighted) (evFromH vertexAsU weighted) := by
  unfold fromHypergraph
  cases vertexAsU with
  | true =>
    exact (ReadsOn.bind (Hyper.reads_getE none) fun _ => ReadsOn.bind (ReadsOn.readRaw _) fun _ =>
      ReadsOn.bind (Hyper.reads_getNumE none) fun _ => ReadsOn.lift _).congr fun _ => rfl
  | false =>
    exact (ReadsOn.bind (Hyper.reads_getE none) fun _ => ReadsOn.bind (ReadsOn.readRaw _) fun _ =>
      ReadsOn.bind (Hyper.reads_getNumE none) fun _ => ReadsOn.lift _).congr fun _ => rfl

theorem evFromH_eq {r : HRaw K} (hr : Hyper.Inv r) (vertexAsU weighted : Bool) :
    evFromH vertexAsU weighted r = fromListing vertexAsU weighted r.numV (Hyper.lstOf none r) := by
  unfold evFromH fromListing
  rw [Hyper.evE_spec hr (.inr rfl), Hyper.evNumE_spec (.inr rfl)]
  simp only [bind, Except.bind]
  rw [incPairs_eq weighted]
  have hw : (if weighted then WArg.list (incWts ((Hyper.lstOf none r).map Prod.fst)
      ((Hyper.lstOf none r).map Prod.snd)) else (.none : WArg K)) =
      if weighted then .list ((incEnts weighted (Hyper.lstOf none r)).map fun e => e.2.2) else .none := by
    cases weighted with
    | true => rw [incWts_eq]
    | false => rfl
  rw [hw]
  cases vertexAsU <;> simp [orient, List.map_map, Function.comp_def]

end BiGraph

/-! ### `from_bigraph` -/

namespace Hyper

/-- neighbours from raw fields -/
def evSideNbr (uAsVertex : Bool) (i : Nat) (r : GRaw K) : Except Err (List Int) := do
  let l ← if uAsVertex then Ord.evNc .bi i r else Ord.evNr .bi i r
  .ok (l.map fun u : Nat => (u : Int))

theorem reads_sideNbr (uAsVertex : Bool) (i : Nat) :
    Ord.OReads (K := K) .bi (sideNbr uAsVertex i) (evSideNbr uAsVertex i) := by
  unfold sideNbr
  cases uAsVertex with
  | true => exact (Reads.bind (Ord.reads_getNc i) fun _ => Reads.pure _).congr fun _ => rfl
  | false => exact (Reads.bind (Ord.reads_getNr i) fun _ => Reads.pure _).congr fun _ => rfl

/-- `_e_list_from_bigraph` from raw fields -/
def evBigraphList (uAsVertex : Bool) (r : GRaw K) : Except Err (List (List Int)) := do
  let ls ← collectE (List.range (sideNum uAsVertex r)) fun i => evSideNbr uAsVertex i r
  .ok (ls.filter fun l => decide (0 < l.length))

theorem reads_bigraphList (uAsVertex : Bool) :
    Ord.OReads (K := K) .bi (bigraphList uAsVertex) (evBigraphList uAsVertex) := by
  unfold bigraphList
  exact (Reads.bind (Reads.readRaw _) fun _ => Reads.bind
    (Reads.collect fun i => reads_sideNbr uAsVertex i) fun _ => Reads.pure _).congr fun _ => rfl

/-- `from_bigraph` from raw fields -/
def evFromBi (uAsVertex : Bool) (r : GRaw K) : Except Err (HSt K) := do
  let es ← evBigraphList uAsVertex r
  Hyper.new (sideNum (!uAsVertex) r) (some (listArg es)) .none none .mean

theorem reads_fromBi (uAsVertex : Bool) :
    Ord.OReads (K := K) .bi (fromBigraph uAsVertex) (evFromBi uAsVertex) := by
  unfold fromBigraph
  exact (Reads.bind (reads_bigraphList uAsVertex) fun _ => Reads.bind (Reads.readRaw _) fun _ =>
    Reads.lift _).congr fun _ => rfl

/-- the pair for partner `x` of the `i`-th hyperedge -/
def sidePair (uAsVertex : Bool) (x i : Int) : Int × Int := if uAsVertex then (x, i) else (i, x)

theorem evSideNbr_spec {r : GRaw K} (hf : Ord.Fits .bi r) {uAsVertex : Bool} {i : Nat}
    (hi : i < sideNum uAsVertex r) :
    ∃ l, evSideNbr uAsVertex i r = .ok l ∧ l.Nodup ∧
      ∀ x : Int, x ∈ l ↔ 0 ≤ x ∧ ∃ w, (sidePair uAsVertex x i, w) ∈ Graph.lst r := by
  have key : ∀ l : List Nat, l.Pairwise (· < ·) → (l.map fun u : Nat => (u : Int)).Nodup := by
    intro l hl
    refine List.Nodup.map Nat.cast_injective ?_
    exact hl.imp fun h => Nat.ne_of_lt h
  cases uAsVertex with
  | true =>
    obtain ⟨l, h1, h2, h3⟩ := Ord.nbr_col hf (v := i) hi
    refine ⟨l.map fun u : Nat => (u : Int), ?_, key l h2, ?_⟩
    · unfold evSideNbr; simp only [if_true]; rw [h1]; rfl
    · intro x
      rw [List.mem_map]
      constructor
      · rintro ⟨u, hu, rfl⟩; exact ⟨by omega, (h3 u).1 hu⟩
      · rintro ⟨hx, w, hw⟩
        obtain ⟨u, rfl⟩ := Int.eq_ofNat_of_zero_le hx
        exact ⟨u, (h3 u).2 ⟨w, hw⟩, rfl⟩
  | false =>
    obtain ⟨l, h1, h2, h3⟩ := Ord.nbr_row hf (v := i) hi
    refine ⟨l.map fun u : Nat => (u : Int), ?_, key l h2, ?_⟩
    · unfold evSideNbr; simp only [Bool.false_eq_true, if_false]; rw [h1]; rfl
    · intro x
      rw [List.mem_map]
      constructor
      · rintro ⟨u, hu, rfl⟩; exact ⟨by omega, (h3 u).1 hu⟩
      · rintro ⟨hx, w, hw⟩
        obtain ⟨u, rfl⟩ := Int.eq_ofNat_of_zero_le hx
        exact ⟨u, (h3 u).2 ⟨w, hw⟩, rfl⟩

theorem coe_eq_iff {l : List Int} (hl : l.Nodup) (e : Multiset Int) :
    e = (l : Multiset Int) ↔ e.Nodup ∧ ∀ x, x ∈ e ↔ x ∈ l := by
  constructor
  · rintro rfl
    exact ⟨Multiset.coe_nodup.2 hl, fun x => by simp⟩
  · rintro ⟨h1, h2⟩
    exact (Multiset.Nodup.ext h1 (Multiset.coe_nodup.2 hl)).2 fun x => by simpa using h2 x

theorem evBigraphList_spec {r : GRaw K} (hf : Ord.Fits .bi r) (uAsVertex : Bool) :
    ∃ es, evBigraphList uAsVertex r = .ok es ∧
      ∀ e : Multiset Int, (∃ l ∈ es, e = ↑l) ↔ e ≠ 0 ∧ e.Nodup ∧ ∃ i : Nat, i < sideNum uAsVertex r ∧
        ∀ x : Int, x ∈ e ↔ 0 ≤ x ∧ ∃ w, (sidePair uAsVertex x i, w) ∈ Graph.lst r := by
  have h : ∀ i : Nat, ∃ l, i < sideNum uAsVertex r → evSideNbr uAsVertex i r = .ok l ∧ l.Nodup ∧
      ∀ x : Int, x ∈ l ↔ 0 ≤ x ∧ ∃ w, (sidePair uAsVertex x i, w) ∈ Graph.lst r := by
    intro i
    by_cases hi : i < sideNum uAsVertex r
    · obtain ⟨l, hl⟩ := evSideNbr_spec hf hi
      exact ⟨l, fun _ => hl⟩
    · exact ⟨[], fun h => absurd h hi⟩
  choose f hf' using h
  refine ⟨((List.range (sideNum uAsVertex r)).map f).filter fun l => decide (0 < l.length), ?_, ?_⟩
  · unfold evBigraphList
    rw [collectE_ok (g := f) fun i hi => (hf' i (List.mem_range.1 hi)).1]
    rfl
  · intro e
    simp only [List.mem_filter, List.mem_map, List.mem_range, decide_eq_true_eq]
    constructor
    · rintro ⟨l, ⟨⟨i, hi, rfl⟩, hl⟩, rfl⟩
      refine ⟨?_, ?_, i, hi, ?_⟩
      · intro h0
        rw [Multiset.coe_eq_zero] at h0
        rw [h0] at hl; cases hl
      · exact Multiset.coe_nodup.2 (hf' i hi).2.1
      · intro x; rw [Multiset.mem_coe]; exact (hf' i hi).2.2 x
    · rintro ⟨h0, hn, i, hi, hx⟩
      have he : e = ↑(f i) := (coe_eq_iff (hf' i hi).2.1 e).2 ⟨hn, fun x => by rw [hx, (hf' i hi).2.2]⟩
      refine ⟨f i, ⟨⟨i, hi, rfl⟩, ?_⟩, he⟩
      rw [List.length_pos_iff]
      intro hc
      rw [hc] at he
      exact h0 he

/-! ### adding to a hypergraph -/

theorem addFromGraph_eq {s : HSt K} {g : GSt K} (hg : Graph.Inv g.raw) (hc : Coherent Graph.evKey g)
    (hn : s.raw.numV = g.raw.numV) (gr : String) :
    ∃ g2, addFromGraph gr (s, g) =
        ((addHyperedges (listArg (g.raw.edgeList.map fun e => [e.1, e.2])) (.list g.raw.edgeWts) .mean gr s).1,
          ((addHyperedges (listArg (g.raw.edgeList.map fun e => [e.1, e.2])) (.list g.raw.edgeWts)
            .mean gr s).2, g2)) ∧
      g2.raw = g.raw ∧ Coherent Graph.evKey g2 := by
  obtain ⟨h1, h2, h3⟩ := Graph.reads_getE g hc
  rcases he : Graph.getE g with ⟨x, g1⟩
  rw [he] at h1 h2 h3
  simp only at h1 h2 h3
  obtain ⟨k1, k2, k3⟩ := formatCachedE_keeps (g := g1) (by rw [h2]; exact hg) h3
  rcases hf : formatCachedE g1 with ⟨y, g2⟩
  rw [hf] at k1 k2 k3
  simp only at k1 k2 k3
  refine ⟨g2, ?_, k2.trans h2, k3⟩
  unfold addFromGraph
  simp only [PyM.bind_apply, PyM.fst, PyM.snd, readRaw, PyM.assert, PyM.pure, decide_eq_true hn, if_true, he, h1, hf, k1]

theorem addFromGraphKHop_eq {s : HSt K} {g : GSt K} {k : Int} {only : Bool} {es : List (List Int)}
    (hn : s.raw.numV = g.raw.numV) (hes : (kHopList k only g).1 = .ok es) (gr : String) :
    addFromGraphKHop k only gr (s, g) =
      ((addHyperedges (listArg es) .none .mean gr s).1,
        ((addHyperedges (listArg es) .none .mean gr s).2, (kHopList k only g).2)) := by
  rcases he : kHopList k only g with ⟨x, g1⟩
  rw [he] at hes
  simp only at hes
  unfold addFromGraphKHop
  simp only [PyM.bind_apply, PyM.fst, PyM.snd, readRaw, PyM.assert, PyM.pure, decide_eq_true hn, if_true, he, hes]

theorem addFromBigraph_eq {s : HSt K} {g : BSt K} {uAsVertex : Bool} {es : List (List Int)}
    (hn : s.raw.numV = sideNum (!uAsVertex) g.raw) (hes : (bigraphList uAsVertex g).1 = .ok es) (gr : String) :
    addFromBigraph uAsVertex gr (s, g) =
      ((addHyperedges (listArg es) .none .mean gr s).1,
        ((addHyperedges (listArg es) .none .mean gr s).2, (bigraphList uAsVertex g).2)) := by
  rcases he : bigraphList uAsVertex g with ⟨x, g1⟩
  rw [he] at hes
  simp only at hes
  unfold addFromBigraph
  simp only [PyM.bind_apply, PyM.fst, PyM.snd, readRaw, PyM.assert, PyM.pure, decide_eq_true hn, if_true, he, hes]

end Hyper
end DHG
