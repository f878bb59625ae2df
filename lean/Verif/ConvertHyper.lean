import Verif.ConvertLemmas

/-!
# Lemmas about the conversions to hypergraphs and to bipartite graphs
-/

set_option linter.unusedSectionVars false
set_option autoImplicit false

namespace DHG
namespace Hyper

variable {K : Type} [Field K] [LinearOrder K] [PyReal K]

/-! ### The constructor applied to a list of hyperedges -/

theorem format_listArg (es : List (List Int)) : (listArg es).format = .ok (es.map sortV) := by
  simp [listArg, HArg.format]

theorem hEdges_listArg (es : List (List Int)) :
    Spec.hEdges (listArg es) = some (es.map fun e : List Int => (e : Multiset Int)) := by
  simp [listArg, Spec.hEdges]

/-- raw fields of a hypergraph without hyperedges -/
def base (n : Nat) : HRaw K := ⟨n, some (List.replicate n 1), []⟩

theorem new_list_ok {n : Nat} {es : List (List Int)} {ew : HW K} {ws : List K} (hn : 0 < n)
    (hw : ew.expand es.length = .ok ws) (hl : es.length = ws.length) :
    Hyper.new n (some (listArg es)) ew none .mean =
      .ok { raw := ((es.map sortV).zip ws).foldl (addRaw .mean "main") (base n), cache := [] } := by
  have hr : initRaw (K := K) (n : Int) none = .ok (base n) := by
    unfold initRaw
    simp [hn, base]
  unfold Hyper.new
  rw [hr]
  simp only [bind, Except.bind]
  rcases addHyperedges_cases (listArg es) ew .mean "main" (⟨base n, []⟩ : HSt K) with
    ⟨e, _, h⟩ | ⟨es', ws', h1, h2, _, ⟨h3, h4⟩ | ⟨h3, _⟩⟩
  · exact absurd (by simpa using hl) (h _ ws (format_listArg es) (by simpa using hw))
  · rw [format_listArg] at h1
    cases h1
    rw [List.length_map, hw] at h2
    cases h2
    rcases ha : addHyperedges (listArg es) ew .mean "main" (⟨base n, []⟩ : HSt K) with ⟨x, s'⟩
    rw [ha] at h3 h4
    simp only at h3 h4
    subst h3 h4
    rfl
  · cases h3

/-- folding over distinct hyperedges: the listing is the argument -/
theorem fold_new {n : Nat} {l : HGroup K} (hl : (Dict.keys l).Nodup) :
    (((l.foldl (addRaw .mean "main") (base n)).groups.get? "main").getD [] : HGroup K) = l := by
  cases l with
  | nil => rfl
  | cons p l =>
    unfold base
    rw [foldl_addRaw_new .mean n _ [] "main" (by simp [Dict.keys]) p l hl]
    rfl

theorem hput_get (m : Spec.HMap K) (op : MergeOp) (g : String) (e e' : Multiset Int) (w : K) :
    Spec.hGet (Spec.hPut m op g e w) g e' =
      if e' = e then
        match Spec.hGet m g e with
        | some old => some (Spec.merge op old w)
        | none => some w
      else Spec.hGet m g e' := by
  unfold Spec.hPut
  simp only [Spec.hGet, if_true]
  by_cases h : e' = e
  · rw [if_pos h, if_pos h]; rfl
  · rw [if_neg h, if_neg h]

theorem hput_get_ne (m : Spec.HMap K) (op : MergeOp) {g g' : String} (h : g' ≠ g) (e e' : Multiset Int) (w : K) :
    Spec.hGet (Spec.hPut m op g e w) g' e' = Spec.hGet m g' e' := by
  simp [Spec.hGet, Spec.hPut, h]

/-- adding hyperedges that all have the weight `c` -/
theorem hput_fold_const [IsStrictOrderedRing K] (g : String) (l : List (Multiset Int × K)) (c : K)
    (hl : ∀ p ∈ l, p.2 = c) (m : Spec.HMap K) (e : Multiset Int)
    (h0 : ∀ v, Spec.hGet m g e = some v → v = c) (w : K) :
    Spec.hGet (l.foldl (fun m p => Spec.hPut m .mean g p.1 p.2) m) g e = some w ↔
      w = c ∧ (Spec.hGet m g e = some c ∨ e ∈ l.map Prod.fst) := by
  induction l generalizing m with
  | nil =>
    simp only [List.foldl_nil, List.map_nil, List.not_mem_nil, or_false]
    constructor
    · intro h; have := h0 _ h; subst this; exact ⟨rfl, h⟩
    · rintro ⟨rfl, h⟩; exact h
  | cons p l ih =>
    have hp := hl p List.mem_cons_self
    have hm : Spec.merge .mean c c = c := by simp [Spec.merge]
    have hg : Spec.hGet (Spec.hPut m .mean g p.1 p.2) g e =
        if e = p.1 then some c else Spec.hGet m g e := by
      rw [hput_get]
      by_cases he : e = p.1
      · rw [if_pos he, if_pos he, ← he]
        cases hv : Spec.hGet m g e with
        | none => simp [hp]
        | some v => simp [h0 v hv, hp, hm]
      · rw [if_neg he, if_neg he]
    rw [List.foldl_cons, ih (fun q hq => hl q (List.mem_cons_of_mem _ hq)) _ ?_, hg]
    · by_cases he : e = p.1
      · simp [he]
      · simp [he]
    · intro v hv
      rw [hg] at hv
      by_cases he : e = p.1
      · rw [if_pos he] at hv; cases hv; rfl
      · rw [if_neg he] at hv; exact h0 v hv

theorem hput_fold_keys (op : MergeOp) (g : String) (l : List (Multiset Int × K)) (m : Spec.HMap K)
    (e : Multiset Int) :
    (∃ w, Spec.hGet (l.foldl (fun m p => Spec.hPut m op g p.1 p.2) m) g e = some w) ↔
      (∃ w, Spec.hGet m g e = some w) ∨ e ∈ l.map Prod.fst := by
  induction l generalizing m with
  | nil => simp
  | cons p l ih =>
    rw [List.foldl_cons, ih, hput_get]
    by_cases he : e = p.1
    · simp only [he, if_true, List.map_cons, List.mem_cons, true_or, or_true, iff_true]
      left
      cases Spec.hGet m g p.1 <;> exact ⟨_, rfl⟩
    · simp [he]

/-- a constructed hypergraph is reachable -/
theorem new_list_built {n : Nat} {es : List (List Int)} {ew : HW K} {s : HSt K}
    (h : Hyper.new n (some (listArg es)) ew none .mean = .ok s) : Built AnyH true s :=
  Built.new h (fun _ _ => trivial)

theorem new_list_listed {n : Nat} {es : List (List Int)} {s : HSt K} [IsStrictOrderedRing K]
    (h : Hyper.new n (some (listArg es)) .none none .mean = .ok s) (e : Multiset Int) (w : K) :
    Spec.HListed s "main" e w ↔ w = 1 ∧ ∃ l ∈ es, e = ↑l := by
  have hb := (new_list_built h).inv
  rw [listed_iff hb.1 hb.2, absM_new h]
  unfold Spec.hNew
  simp only [Spec.hApply, hEdges_listArg, Spec.hWeights]
  rw [hput_fold_const "main" _ 1 ?_ _ _ ?_]
  · simp [Spec.hGet, List.map_fst_zip, eq_comm]
  · intro p hp
    exact List.eq_of_mem_replicate (List.of_mem_zip hp).2
  · intro v hv; simp [Spec.hGet] at hv


/-! ### `from_graph` -/

/-- the pairs listed by `e` are increasing -/
theorem edgeList_le {r : GRaw K} (hr : Graph.Inv r) : ∀ p ∈ r.edgeList, p.1 ≤ p.2 := by
  intro p hp
  unfold GRaw.edgeList at hp
  have hE : ∀ p ∈ r.eDict.keys, p.1 ≤ p.2 := fun p hp => le_of_lt (hr.lt p hp)
  aesop

theorem sortPair_le {p : Int × Int} (h : p.1 ≤ p.2) : Graph.sortPair p = p := by
  unfold Graph.sortPair
  simp [h]

/-- `from_graph` from raw fields -/
def evFromGraph (r : GRaw K) : Except Err (HSt K) :=
  Hyper.new r.numV (some (listArg (r.edgeList.map fun e => [e.1, e.2]))) (.list r.edgeWts) none .mean

theorem formatCachedE_keeps {g : GSt K} (hg : Graph.Inv g.raw) (hc : Coherent Graph.evKey g) :
    (formatCachedE g).1 = .ok () ∧ (formatCachedE g).2.raw = g.raw ∧
      Coherent Graph.evKey (formatCachedE g).2 := by
  unfold formatCachedE
  simp only [PyM.modify]
  cases h : g.cache.get? .e with
  | none => exact ⟨trivial, rfl, hc⟩
  | some v =>
    cases v with
    | edges es ws =>
      have h1 := hc _ _ h
      have h2 : es = g.raw.edgeList := by
        simp only [Graph.evKey, Except.ok.injEq, GVal.edges.injEq] at h1
        exact h1.1.symm
      have h3 : es.map Graph.sortPair = es := by
        rw [h2]
        conv_rhs => rw [← List.map_id g.raw.edgeList]
        exact List.map_congr_left fun p hp => sortPair_le (edgeList_le hg p hp)
      refine ⟨trivial, rfl, ?_⟩
      intro k v hv
      simp only [h3, Dict.get?_set] at hv
      by_cases hk : k = .e
      · subst hk
        simp only [if_true, Option.some.injEq] at hv
        rw [← hv]; exact h1
      · rw [if_neg (by first | exact hk | exact Ne.symm hk)] at hv
        exact hc k v hv
    | _ => exact ⟨trivial, rfl, hc⟩

theorem fromGraph_spec {g : GSt K} (hg : Graph.Inv g.raw) (hc : Coherent Graph.evKey g) :
    (fromGraph g).1 = evFromGraph g.raw ∧ (fromGraph g).2.raw = g.raw ∧
      Coherent Graph.evKey (fromGraph g).2 := by
  obtain ⟨h1, h2, h3⟩ := Graph.reads_getE g hc
  rcases he : Graph.getE g with ⟨x, g1⟩
  rw [he] at h1 h2 h3
  simp only at h1 h2 h3
  obtain ⟨k1, k2, k3⟩ := formatCachedE_keeps (g := g1) (by rw [h2]; exact hg) h3
  rcases hf : formatCachedE g1 with ⟨y, g2⟩
  rw [hf] at k1 k2 k3
  simp only at k1 k2 k3
  have : fromGraph g = (evFromGraph g.raw, g2) := by
    unfold fromGraph
    simp only [PyM.bind_apply, he, h1, readRaw, hf, k1, PyM.lift, h2]
    rfl
  rw [this]
  exact ⟨rfl, k2.trans h2, k3⟩

theorem sortV_pair {a b : Int} (h : a ≤ b) : sortV [a, b] = [a, b] :=
  sortV_of_sorted (by simp [h])

theorem evFromGraph_spec {r : GRaw K} (hr : Graph.Inv r) (hn : r.edgeList.Nodup) :
    ∃ h, evFromGraph r = .ok h ∧ h.raw.numV = r.numV ∧
      Spec.hListing h (some "main") = (Graph.lst r).map fun e => ([e.1.1, e.1.2], e.2) := by
  have hlen : r.edgeList.length = r.edgeWts.length := by
    rw [Graph.edgeList_length, Graph.edgeWts_length]
  have hok := new_list_ok (K := K) (n := r.numV) (es := r.edgeList.map fun e => [e.1, e.2])
    (ew := .list r.edgeWts) (ws := r.edgeWts) hr.pos rfl (by simpa using hlen)
  refine ⟨_, hok, ?_, ?_⟩
  · simp only [addRaw_numV]; rfl
  · rw [hListing_eq (new_list_built hok).inv.2]
    have hs : (r.edgeList.map fun e => [e.1, e.2]).map sortV = r.edgeList.map fun e => [e.1, e.2] := by
      rw [List.map_map]
      exact List.map_congr_left fun p hp => sortV_pair (edgeList_le hr p hp)
    simp only [hs]
    rw [fold_new]
    · unfold Graph.lst
      rw [List.zip_map_left]
      rfl
    · show ((List.zip _ _).map Prod.fst).Nodup
      rw [List.map_fst_zip (by simp [hlen])]
      refine hn.map ?_
      rintro ⟨a, b⟩ ⟨c, d⟩ h
      simpa using h

/-! ### `from_graph_kHop` -/

/-- an `n × n` matrix with entries at the pairs related by `R` -/
structure HasKeys (n : Nat) (R : Nat → Nat → Prop) (M : Sp K) : Prop where
  rows : M.rows = n
  cols : M.cols = n
  wf : M.WF
  keys : ∀ i j, (i, j) ∈ M.ents.map Prod.fst ↔ R i j

theorem HasKeys.mm {n k : Nat} {R : Nat → Nat → Prop} {Ak A : Sp K} (hk : 1 ≤ k)
    (h : HasKeys n (Spec.Walk R k) Ak) (hA : HasKeys n R A) :
    ∃ M, Ak.mm A = .ok M ∧ HasKeys n (Spec.Walk R (k + 1)) M := by
  obtain ⟨M, hm⟩ := Sp.mm_ok (P := Ak) (Q := A) (by rw [h.cols, hA.rows])
  have hs := Sp.mm_shape hm
  refine ⟨M, hm, by rw [hs.1, h.rows], by rw [hs.2, hA.cols], h.wf.mm hA.wf hm, ?_⟩
  intro i j
  rw [Sp.mm_keys hm]
  constructor
  · rintro ⟨t, ht1, ht2⟩
    exact .step ((h.keys i t).1 ht1) ((hA.keys t j).1 ht2)
  · intro w
    cases w with
    | one h => omega
    | step w h' => exact ⟨_, (h.keys _ _).2 w, (hA.keys _ _).2 h'⟩

theorem hopLoop_spec {n : Nat} {R : Nat → Nat → Prop} {A : Sp K} (hA : HasKeys n R A) (only : Bool) :
    ∀ (m k : Nat) (Ak : Sp K) (hist : List (Sp K)), 1 ≤ k → HasKeys n (Spec.Walk R k) Ak →
      ∃ M hs, hopLoop only m Ak A hist = .ok (M, hist ++ hs) ∧ HasKeys n (Spec.Walk R (k + m)) M ∧
        (only = false → List.Forall₂ (fun B t => HasKeys n (Spec.Walk R t) B) hs (List.range' (k + 1) m)) := by
  intro m
  induction m with
  | zero => intro k Ak hist _ h; exact ⟨Ak, [], by simp [hopLoop], h, fun _ => .nil⟩
  | succ m ih =>
    intro k Ak hist hk h
    obtain ⟨A', h1, h2⟩ := h.mm hk hA
    obtain ⟨M, hs, h3, h4, h5⟩ := ih (k + 1) A' (if only then hist else hist ++ [A']) (by omega) h2
    cases only with
    | true =>
      refine ⟨M, hs, ?_, by rwa [show k + (m + 1) = k + 1 + m by omega], fun h => by cases h⟩
      unfold hopLoop
      rw [h1]
      exact h3
    | false =>
      refine ⟨M, A' :: hs, ?_, by rwa [show k + (m + 1) = k + 1 + m by omega], fun _ => ?_⟩
      · unfold hopLoop
        rw [h1]
        refine h3.trans ?_
        simp
      · rw [List.range'_succ]
        exact .cons h2 (h5 rfl)

theorem addAll_spec {n : Nat} {R : Nat → Nat → Prop} : ∀ (hs : List (Sp K)) (ts : List Nat)
    (A : Sp K) (Q : Nat → Nat → Prop), HasKeys n Q A →
      List.Forall₂ (fun B t => HasKeys n (Spec.Walk R t) B) hs ts →
      ∃ M, addAll A hs = .ok M ∧ HasKeys n (fun i j => Q i j ∨ ∃ t ∈ ts, Spec.Walk R t i j) M := by
  intro hs
  induction hs with
  | nil =>
    intro ts A Q h hf
    cases hf
    exact ⟨A, rfl, h.rows, h.cols, h.wf, fun i j => by simp [h.keys]⟩
  | cons B hs ih =>
    intro ts A Q h hf
    cases hf with
    | @cons _ t _ ts hB hf =>
    have hsh : A.rows = B.rows ∧ A.cols = B.cols := ⟨by rw [h.rows, hB.rows], by rw [h.cols, hB.cols]⟩
    obtain ⟨C, hC⟩ : ∃ C, A.add B = .ok C := by
      unfold Sp.add; rw [if_pos hsh]; exact ⟨_, rfl⟩
    have hs := Sp.add_shape hC
    obtain ⟨M, h1, h2⟩ := ih ts C (fun i j => Q i j ∨ Spec.Walk R t i j)
      ⟨by rw [hs.1, h.rows], by rw [hs.2, h.cols], h.wf.add hB.wf hC, fun i j => by
        rw [Sp.add_keys hC, h.keys, hB.keys]⟩ hf
    refine ⟨M, ?_, h2.rows, h2.cols, h2.wf, fun i j => ?_⟩
    · unfold addAll; rw [hC]; exact h1
    · rw [h2.keys]
      simp only [List.mem_cons, exists_eq_or_imp, or_assoc]

/-- which pairs the hyperedges of `from_graph_kHop` join -/
def Reach (only : Bool) (R : Nat → Nat → Prop) (k i j : Nat) : Prop :=
  if only then Spec.Walk R k i j else ∃ t, 1 ≤ t ∧ t ≤ k ∧ Spec.Walk R t i j

theorem walk_one {R : Nat → Nat → Prop} {i j : Nat} : Spec.Walk R 1 i j ↔ R i j := by
  constructor
  · intro w
    cases w with
    | one h => exact h
    | step w h => cases w
  · exact .one

theorem hopMat_spec {n : Nat} {R : Nat → Nat → Prop} {A : Sp K} (hA : HasKeys n R A) (only : Bool)
    {k : Nat} (hk : 1 ≤ k) :
    ∃ M, hopMat only k A = .ok M ∧ HasKeys n (Reach only R k) M := by
  have h1 : HasKeys n (Spec.Walk R 1) A :=
    ⟨hA.rows, hA.cols, hA.wf, fun i j => by rw [hA.keys, walk_one]⟩
  obtain ⟨M, hs, h2, h3, h4⟩ := hopLoop_spec hA only (k - 1) 1 A [] (le_refl _) h1
  unfold hopMat
  rw [h2]
  cases only with
  | true =>
    refine ⟨M, rfl, ?_⟩
    rw [show 1 + (k - 1) = k by omega] at h3
    exact h3
  | false =>
    obtain ⟨M', h5, h6⟩ := addAll_spec (R := R) hs _ A R hA (h4 rfl)
    refine ⟨M', h5, h6.rows, h6.cols, h6.wf, fun i j => ?_⟩
    rw [h6.keys]
    unfold Reach
    simp only [Bool.false_eq_true, if_false, List.mem_range'_1]
    constructor
    · rintro (h | ⟨t, ht, w⟩)
      · exact ⟨1, le_refl _, hk, walk_one.2 h⟩
      · exact ⟨t, by omega, by omega, w⟩
    · rintro ⟨t, h1, h2, w⟩
      by_cases ht : t = 1
      · subst ht; exact .inl (walk_one.1 w)
      · exact .inr ⟨t, by omega, w⟩

/-- the hyperedge of one vertex -/
def hopList (M : Sp K) (v : Nat) : List Int :=
  ((v : Int) :: ((M.ents.filter fun e => e.1.1 = v).map fun e => e.1.2).map fun u : Nat => (u : Int)).dedup

theorem hopList_nodup (M : Sp K) (v : Nat) : (hopList M v).Nodup := List.nodup_dedup _

theorem mem_hopList {n : Nat} {R : Nat → Nat → Prop} {M : Sp K} (h : HasKeys n R M) (v : Nat) (u : Int) :
    u ∈ hopList M v ↔ u = v ∨ ∃ j : Nat, u = j ∧ R v j := by
  unfold hopList
  rw [List.mem_dedup, List.mem_cons, List.mem_map]
  refine or_congr Iff.rfl ?_
  constructor
  · rintro ⟨j, hj, rfl⟩
    exact ⟨j, rfl, (h.keys _ _).1 ((Sp.rowIdx_mem j).1 hj)⟩
  · rintro ⟨j, rfl, hj⟩
    exact ⟨j, (Sp.rowIdx_mem j).2 ((h.keys _ _).2 hj), rfl⟩

theorem hopEdge_ok {M : Sp K} {v : Nat} (hv : v < M.rows) : hopEdge M v = .ok (hopList M v) := by
  unfold hopEdge
  rw [Sp.rowIdx_ok hv]
  rfl

/-- `_e_list_from_graph_kHop` from raw fields -/
def evKHopList (k : Int) (only : Bool) (r : GRaw K) : Except Err (List (List Int)) := do
  if 1 ≤ k then
    let A ← Graph.evA r
    let M ← hopMat only k.toNat A
    collectE (List.range r.numV) (hopEdge M)
  else .error .assertion

theorem reads_kHopList (k : Int) (only : Bool) :
    Graph.GReads (K := K) (kHopList k only) (evKHopList k only) := by
  unfold kHopList
  refine (Reads.bind (Graph.reads_assert _) fun _ => Reads.bind Graph.reads_getA fun _ =>
    Reads.bind (Reads.lift _) fun _ => Reads.bind (Reads.readRaw _) fun _ => Reads.lift _).congr ?_
  intro r
  unfold evKHopList
  by_cases h : 1 ≤ k
  · simp only [h, decide_true, if_true]
    rfl
  · simp only [h, decide_false, if_false]
    rfl

theorem evKHopList_spec {r : GRaw K} (hr : Graph.Inv r) (hp : Graph.Pos r) {k : Nat} (hk : 1 ≤ k)
    (only : Bool) : ∃ M : Sp K, HasKeys r.numV (Reach only (Spec.Adj (Graph.lst r)) k) M ∧
      evKHopList (k : Int) only r = .ok ((List.range r.numV).map (hopList M)) := by
  obtain ⟨A, hA, h⟩ := Graph.evA_spec hr hp
  obtain ⟨M, hM, h'⟩ := hopMat_spec ⟨h.rows, h.cols, h.wf, h.keys⟩ only hk
  refine ⟨M, h', ?_⟩
  unfold evKHopList
  rw [if_pos (by omega), hA]
  show (hopMat only ((k : Int)).toNat A).bind _ = _
  rw [Int.toNat_natCast, hM]
  exact collectE_ok fun v hv => hopEdge_ok (by rw [h'.rows]; exact List.mem_range.1 hv)

/-- `from_graph_kHop` from raw fields -/
def evKHop (k : Int) (only : Bool) (r : GRaw K) : Except Err (HSt K) := do
  let es ← evKHopList k only r
  Hyper.new r.numV (some (listArg es)) .none none .mean

theorem reads_kHop (k : Int) (only : Bool) :
    Graph.GReads (K := K) (fromGraphKHop k only) (evKHop k only) := by
  unfold fromGraphKHop
  exact (Reads.bind (reads_kHopList k only) fun _ => Reads.bind (Reads.readRaw _) fun _ =>
    Reads.lift _).congr fun _ => rfl

end Hyper
end DHG

namespace DHG
namespace Hyper

variable {K : Type} [Field K] [LinearOrder K] [PyReal K]

theorem hput_fold_ne (op : MergeOp) {g g' : String} (h : g' ≠ g) (l : List (Multiset Int × K))
    (m : Spec.HMap K) (e : Multiset Int) :
    Spec.hGet (l.foldl (fun m p => Spec.hPut m op g p.1 p.2) m) g' e = Spec.hGet m g' e := by
  induction l generalizing m with
  | nil => rfl
  | cons p l ih => rw [List.foldl_cons, ih, hput_get_ne _ _ h]

/-- everything lands in the group `main` -/
theorem new_list_group {n : Nat} {es : List (List Int)} {ew : HW K} {s : HSt K}
    (h : Hyper.new n (some (listArg es)) ew none .mean = .ok s) {g : String} {e : Multiset Int} {w : K}
    (hl : Spec.HListed s g e w) : g = "main" := by
  by_contra hne
  have hb := (new_list_built h).inv
  rw [listed_iff hb.1 hb.2, absM_new h] at hl
  unfold Spec.hNew at hl
  simp only [Spec.hApply, hEdges_listArg] at hl
  cases hw : Spec.hWeights ((es.map fun e : List Int => (e : Multiset Int))).length ew with
  | none => rw [hw] at hl; cases hl
  | some ws =>
    rw [hw] at hl
    simp only at hl
    rw [hput_fold_ne _ hne] at hl
    cases hl

/-- the hyperedges, whatever their weights -/
theorem new_list_keys {n : Nat} {es : List (List Int)} {ew : HW K} {ws : List K} {s : HSt K}
    (hw : Spec.hWeights es.length ew = some ws) (hl : es.length = ws.length)
    (h : Hyper.new n (some (listArg es)) ew none .mean = .ok s) (e : Multiset Int) :
    (∃ w, Spec.HListed s "main" e w) ↔ ∃ l ∈ es, e = ↑l := by
  have hb := (new_list_built h).inv
  simp only [listed_iff hb.1 hb.2, absM_new h]
  unfold Spec.hNew
  simp only [Spec.hApply, hEdges_listArg, List.length_map, hw]
  rw [hput_fold_keys, List.map_fst_zip (by simp [hl])]
  simp [Spec.hGet, eq_comm]

theorem new_list_numV {n : Nat} {es : List (List Int)} {ew : HW K} {s : HSt K}
    (h : Hyper.new n (some (listArg es)) ew none .mean = .ok s) :
    (ask .numV s).1 = .ok (.num n) := by
  have : s.raw.numV = n := by
    obtain ⟨r, hr, ⟨h1, _⟩ | ⟨a, _, h1, rfl⟩⟩ := new_ok h
    · cases h1
    · rw [(apply_inv (.inr h1) (initRaw_inv hr)).2]
      have := (initRaw_ok hr).2.1
      simpa using this
  show Except.ok (HAns.num s.raw.numV) = _
  rw [this]

/-- `add_hyperedges` with a list of hyperedges -/
theorem add_list {b : Bool} {s : HSt K} (hs : Built AnyH b s) {es : List (List Int)} {ew : HW K}
    {ws : List K} (hw : ew.expand es.length = .ok ws) (hl : es.length = ws.length) (g : String) :
    (addHyperedges (listArg es) ew .mean g s).1 = .ok () ∧
    Built AnyH b (addHyperedges (listArg es) ew .mean g s).2 ∧
    (∀ g' e w, g' ≠ g → (Spec.HListed (addHyperedges (listArg es) ew .mean g s).2 g' e w ↔
      Spec.HListed s g' e w)) ∧
    ∀ e, (∃ w, Spec.HListed (addHyperedges (listArg es) ew .mean g s).2 g e w) ↔
      (∃ w, Spec.HListed s g e w) ∨ ∃ l ∈ es, e = ↑l := by
  have hgood : GoodOp (.addHyperedges (listArg es) ew .mean g : HOp K) := by simp [GoodOp]
  have hok : (addHyperedges (listArg es) ew .mean g s).1 = .ok () := by
    rcases addHyperedges_cases (listArg es) ew .mean g s with
      ⟨e, _, h⟩ | ⟨es', ws', h1, h2, _, ⟨h3, h4⟩ | ⟨h3, _⟩⟩
    · exact absurd (by simpa using hl) (h _ ws (format_listArg es) (by simpa using hw))
    · exact h3
    · cases h3
  have hB : Built AnyH b (addHyperedges (listArg es) ew .mean g s).2 :=
    Built.op (.addHyperedges (listArg es) ew .mean g) hs (.inl hgood) fun _ _ _ _ _ => trivial
  have hab := absM_apply (o := .addHyperedges (listArg es) ew .mean g) hs.inv.1 (.inl hgood)
  have hw' : Spec.hWeights es.length ew = some ws := by
    rcases expand_weights es.length ew with ⟨_, h⟩ | ⟨ws', h1, _, h2⟩
    · exact absurd hl (h ws hw)
    · rw [hw] at h1; cases h1; exact h2
  simp only [Spec.hApply, hEdges_listArg, List.length_map, hw'] at hab
  have hab' : absM (addHyperedges (listArg es) ew .mean g s).2.raw = _ := hab
  refine ⟨hok, hB, ?_, ?_⟩
  · intro g' e w hne
    rw [listed_iff hB.inv.1 hB.inv.2, listed_iff hs.inv.1 hs.inv.2, hab', hput_fold_ne _ hne]
  · intro e
    simp only [listed_iff hB.inv.1 hB.inv.2, listed_iff hs.inv.1 hs.inv.2, hab']
    rw [hput_fold_keys, List.map_fst_zip (by simp [hl])]
    simp [eq_comm]

end Hyper
end DHG
