import Mathlib.Tactic.LinearCombination
import Verif.GraphMat2
import Verif.Props.GraphEdges2

/-!
# Properties of `Graph`: matrices and degrees

`l = Spec.listing g` is what reading `e` shows.  `Spec.wt l i j` is the weight listed for `{i,j}`,
`Spec.deg l i` the weight listed at `i`, `Spec.proper l` the listing without self loops
(`ListSpec.lean`).  `Built NonNeg g`: any graph built through the public interface whose edge
arguments only contain non-negative vertex ids (negative ids: see C20).
-/

set_option linter.unusedSectionVars false
set_option autoImplicit false

namespace DHG
namespace Props

open Graph Finset

variable {K : Type} [Field K] [LinearOrder K] [PyReal K]

theorem sum_range_map_eq (n : Nat) (f : Nat → K) :
    ((List.range n).map f).sum = ∑ i ∈ range n, f i := by
  induction n with
  | zero => simp
  | succ n ih => rw [List.range_succ, List.map_append, List.sum_append, ih, sum_range_succ]; simp

theorem numV_eq {g : GSt K} {n : Nat} (hn : (ask .numV g).1 = .ok (.num n)) : g.raw.numV = n := by
  have : (Except.ok (GAns.num g.raw.numV) : Except Err (GAns K)) = .ok (.num n) := hn
  injection this with this
  injection this

theorem listing_lst {P : EArg K → Prop} {g : GSt K} (hg : Built P g) : Spec.listing g = lst g.raw :=
  listing_eq hg.inv.2

theorem ask_eq {P : EArg K → Prop} {g : GSt K} (hg : Built P g) (q : GQuery K) :
    (ask q g).1 = evAsk q g.raw := (reads_ask q g hg.inv.2).1

theorem exG_listing : Spec.listing exG = [((0, 1), 2), ((1, 2), 3), ((2, 2), 7)] := rfl
theorem exG_numV : (ask .numV exG).1 = .ok (.num 3) := rfl
theorem exG_nonnegWeights : Spec.NonnegWeights (Spec.listing exG) := by
  rw [exG_listing]; intro e he
  simp only [List.mem_cons, List.not_mem_nil, or_false] at he
  rcases he with rfl | rfl | rfl <;> norm_num

/-! ## C05 -/

theorem wt_absR {r : GRaw K} (hr : Inv r) (i j : Nat) :
    Spec.wt (lst r) i j = ((absR r i j).getD 0) +
      (if i = j ∧ i < r.numV ∧ r.extra = true then 1 else 0) := by
  have hd : ∀ (d : Dict (Int × Int) K), d.keys.Nodup → ∀ a b : Int,
      (d.map fun e => if e.1 = (a, b) then e.2 else 0).sum = (d.get? (a, b)).getD 0 := by
    intro d
    induction d with
    | nil => intro _ a b; rfl
    | cons e d ih =>
      intro hn a b
      rw [Dict.keys_cons, List.nodup_cons] at hn
      rw [List.map_cons, List.sum_cons, ih hn.2, Dict.get?]
      by_cases h : e.1 = (a, b)
      · rw [if_pos h, if_pos h]
        have : Dict.get? d (a, b) = none := by
          rw [Dict.get?_eq_none_iff]; rw [← h]; exact hn.1
        rw [this]; simp
      · rw [if_neg h, if_neg h, zero_add]
  have hl : ∀ (d : Dict Int K), d.keys.Nodup → ∀ a : Int,
      (d.map fun e => if e.1 = a then e.2 else 0).sum = (d.get? a).getD 0 := by
    intro d
    induction d with
    | nil => intro _ a; rfl
    | cons e d ih =>
      intro hn a
      rw [Dict.keys_cons, List.nodup_cons] at hn
      rw [List.map_cons, List.sum_cons, ih hn.2, Dict.get?]
      by_cases h : e.1 = a
      · rw [if_pos h, if_pos h]
        have : Dict.get? d a = none := by
          rw [Dict.get?_eq_none_iff]; rw [← h]; exact hn.1
        rw [this]; simp
      · rw [if_neg h, if_neg h, zero_add]
  unfold lst
  rw [zip_listing, wt_append, wt_append]
  have h1 : Spec.wt r.eDict (i : Int) (j : Int) =
      if i = j then 0 else (r.eDict.get? (sortPair ((i : Int), (j : Int)))).getD 0 := by
    by_cases hij : i = j
    · rw [if_pos hij]
      apply List.sum_eq_zero
      intro x hx
      obtain ⟨e, he, rfl⟩ := List.mem_map.1 hx
      have := hr.lt _ (List.mem_map_of_mem (f := Prod.fst) he)
      rw [if_neg]
      subst hij
      rintro (h' | h') <;> rw [h'] at this <;> exact lt_irrefl _ this
    · rw [if_neg hij, ← hd _ hr.nodupE]
      unfold Spec.wt
      congr 1
      apply List.map_congr_left
      intro e he
      have := hr.lt _ (List.mem_map_of_mem (f := Prod.fst) he)
      obtain ⟨⟨a, b⟩, w⟩ := e
      simp only at this ⊢
      have hs := sortPair_eq_iff (a := a) (b := b) (x := (i : Int)) (y := (j : Int)) this (by omega)
      by_cases hc : (a, b) = sortPair ((i : Int), (j : Int))
      · rw [if_pos hc, if_pos]
        have := hs.1 hc.symm
        simp only [Prod.mk.injEq]; omega
      · rw [if_neg hc, if_neg]
        intro h'
        apply hc
        refine (hs.2 ?_).symm
        simp only [Prod.mk.injEq] at h'; omega
  have h2 : Spec.wt (r.loops.map fun p => ((p.1, p.1), p.2)) (i : Int) (j : Int) =
      if i = j then (r.loops.get? (i : Int)).getD 0 else 0 := by
    by_cases hij : i = j
    · subst hij
      rw [if_pos rfl, ← hl _ hr.nodupL]
      unfold Spec.wt
      rw [List.map_map]
      congr 1
      apply List.map_congr_left
      intro e _
      simp only [Function.comp, Prod.mk.injEq, and_self, or_self]
    · rw [if_neg hij]
      apply List.sum_eq_zero
      intro x hx
      obtain ⟨e, he, rfl⟩ := List.mem_map.1 hx
      obtain ⟨p, _, rfl⟩ := List.mem_map.1 he
      rw [if_neg]
      simp only [Prod.mk.injEq]; omega
  have h3 : Spec.wt (if r.extra = true then (List.range r.numV).map
      fun v : Nat => (((v : Int), (v : Int)), (1 : K)) else []) (i : Int) (j : Int) =
      if i = j ∧ i < r.numV ∧ r.extra = true then 1 else 0 := by
    by_cases hx : r.extra = true
    · simp only [hx, if_true, and_true]
      unfold Spec.wt
      rw [List.map_map]
      have : ∀ m : Nat, ((List.range m).map ((fun e : (Int × Int) × K => if e.1 = ((i : Int), (j : Int)) ∨
          e.1 = ((j : Int), (i : Int)) then e.2 else 0) ∘ fun v : Nat => (((v : Int), (v : Int)), (1 : K)))).sum =
          if i = j ∧ i < m then 1 else 0 := by
        intro m
        induction m with
        | zero => simp
        | succ m ih =>
          rw [List.range_succ, List.map_append, List.sum_append, ih]
          simp only [List.map_cons, List.map_nil, Function.comp, List.sum_cons, List.sum_nil, add_zero,
            Prod.mk.injEq]
          by_cases h1 : i = j ∧ i < m
          · rw [if_pos h1, if_neg (by omega), if_pos (by omega), add_zero]
          · rw [if_neg h1, zero_add]
            by_cases h2 : i = j ∧ i < m + 1
            · rw [if_pos h2, if_pos (by omega)]
            · rw [if_neg h2, if_neg (by omega)]
      exact this _
    · simp only [hx]; simp
  rw [h1, h2, h3]
  unfold absR
  by_cases hij : i = j
  · simp [hij]
  · have : ¬ ((i : Int) = (j : Int)) := by omega
    simp [hij]

/-- C05. Reading `A` succeeds; it is an `n × n` symmetric matrix; the entry of a listed pair
`{i,j}`, `i ≠ j`, is its weight, entries of unlisted pairs are 0, and a diagonal entry is the stored
loop weight plus 1 when the extra-self-loop flag is set.  In all cases the entry is the total
weight listed for `{i,j}`. -/
theorem C05_graph_adjacency {g : GSt K} (hg : Built NonNeg g) {n : Nat}
    (hn : (ask .numV g).1 = .ok (.num n)) :
    ∃ A, (ask .A g).1 = .ok (.mat A) ∧ A.rows = n ∧ A.cols = n ∧ A.WF ∧
      (∀ i j, A.get i j = A.get j i) ∧
      (∀ i j : Nat, i ≠ j → ∀ w, Spec.Listed g i j w → A.get i j = w) ∧
      (∀ i j : Nat, (∀ w, ¬ Spec.Listed g i j w) → A.get i j = 0) ∧
      (∀ i, i < n → A.get i i = ((stateDict g).loops.get? (i : Int)).getD 0 +
        (if (stateDict g).extra = true then 1 else 0)) ∧
      (∀ i j, A.get i j = Spec.wt (Spec.listing g) i j) := by
  obtain ⟨A, hA, h⟩ := evA_spec hg.inv.1 hg.pos
  have hn' := numV_eq hn
  refine ⟨A, ?_, h.rows.trans hn', h.cols.trans hn', h.wf, ?_, ?_, ?_, ?_, ?_⟩
  · rw [ask_eq hg]; simp only [evAsk, hA]; rfl
  · intro i j; rw [h.get, h.get, wt_symm]
  · intro i j hij w hw
    rw [hg.listed] at hw
    rw [h.get, wt_absR hg.inv.1, if_neg (by omega), add_zero]
    rcases hw with hw | hw
    · rw [hw]; rfl
    · omega
  · intro i j hw
    rw [h.get, wt_absR hg.inv.1]
    have h1 : absR g.raw i j = none := by
      cases hc : absR g.raw i j with
      | none => rfl
      | some w => exact absurd ((hg.listed _ _ _).2 (Or.inl hc)) (hw w)
    rw [h1, if_neg]
    · simp
    · rintro ⟨h2, h3, h4⟩
      refine hw 1 ((hg.listed _ _ _).2 (Or.inr ⟨h4, ?_, ?_, ?_, rfl⟩)) <;> omega
  · intro i hi
    rw [h.get, wt_absR hg.inv.1]
    unfold absR
    rw [if_pos rfl]
    congr 1
    simp only [true_and, hn', hi]
    rfl
  · intro i j; rw [h.get, listing_lst hg]

/-- C05. The aligned vectors `e_src`, `e_dst`, `e_weight` list every ordered adjacent pair once with
the adjacency weight. -/
theorem C05_graph_edge_vectors {g : GSt K} (hg : Built NonNeg g) :
    ∃ src dst ws, (ask .eSrc g).1 = .ok (.idx src) ∧ (ask .eDst g).1 = .ok (.idx dst) ∧
      (ask .eWeight g).1 = .ok (.vec ws) ∧ src.length = dst.length ∧ ws.length = dst.length ∧
      (dst.zip src).Nodup ∧
      (∀ i j : Nat, (i, j) ∈ dst.zip src ↔ Spec.Adj (Spec.listing g) i j) ∧
      (∀ (i j : Nat) w, ((i, j), w) ∈ (dst.zip src).zip ws → w = Spec.wt (Spec.listing g) i j) := by
  obtain ⟨A, hA, h⟩ := evA_spec hg.inv.1 hg.pos
  have hz : (A.ents.map fun e => e.1.1).zip (A.ents.map fun e => e.1.2) = A.ents.map Prod.fst := by
    rw [List.zip_map']
  refine ⟨A.ents.map fun e => e.1.2, A.ents.map fun e => e.1.1, A.ents.map Prod.snd, ?_, ?_, ?_,
    by simp, by simp, ?_, ?_, ?_⟩
  · rw [ask_eq hg]; simp only [evAsk, hA]; rfl
  · rw [ask_eq hg]; simp only [evAsk, hA]; rfl
  · rw [ask_eq hg]; simp only [evAsk, hA]; rfl
  · rw [hz]; exact h.sorted.nodup
  · intro i j; rw [hz, h.keys, listing_lst hg]
  · intro i j w hw
    rw [hz, List.zip_map'] at hw
    simp only [Prod.mk.eta, List.map_id'] at hw
    rw [listing_lst hg, ← h.get]
    exact (Ents.get_of_mem h.sorted.nodup hw).symm

example : Built NonNeg exG ∧ (ask .numV exG).1 = .ok (.num 3) ∧ Spec.Listed exG 1 0 2 :=
  ⟨exG_nonneg, exG_numV, Or.inr (by rw [exG_listing]; simp)⟩

/-! ## C06 -/

/-- C06. `deg_v` and `D_v`: total listed weight at each vertex (a loop counts once). -/
theorem C06_graph_degrees {g : GSt K} (hg : Built NonNeg g) {n : Nat}
    (hn : (ask .numV g).1 = .ok (.num n)) :
    (ask .degV g).1 = .ok (.vec ((List.range n).map fun i : Nat => Spec.deg (Spec.listing g) (i : Int))) ∧
    (∃ D, (ask .Dv g).1 = .ok (.mat D) ∧ Spec.IsMat n n
      (fun i j => if i = j then Spec.deg (Spec.listing g) (i : Int) else 0) D) ∧
    (∃ D, (ask .DvN1 g).1 = .ok (.mat D) ∧ D.rows = n ∧ D.cols = n ∧
      (∀ i j, i ≠ j → D.get i j = 0) ∧
      ∀ i, i < n → (Spec.deg (Spec.listing g) (i : Int) = 0 → D.get i i = 0) ∧
        (Spec.deg (Spec.listing g) (i : Int) ≠ 0 →
          D.get i i * Spec.deg (Spec.listing g) (i : Int) = 1)) := by
  have hn' := numV_eq hn
  refine ⟨?_, ?_, ?_⟩
  · rw [ask_eq hg]
    simp only [evAsk]
    rw [evDv_spec hg.inv.1 hg.pos, hn', listing_lst hg]
    simp only [Except.map, Sp.diag]
    congr 2
    rw [List.length_map, List.length_range]
    apply List.ext_getElem
    · simp
    · intro i h1 h2; simp [degs]
  · refine ⟨_, by rw [ask_eq hg]; simp only [evAsk]; rw [evDv_spec hg.inv.1 hg.pos]; rfl, ?_⟩
    refine ⟨by simp [Sp.diag, hn'], by simp [Sp.diag, hn'], Sp.diag_WF _, ?_⟩
    intro i j hi hj
    rw [Sp.diag_range_get, listing_lst hg, hn']
    by_cases hij : i = j <;> simp [hij, hj, degs]
  · refine ⟨_, by rw [ask_eq hg]; simp only [evAsk]; rw [evDvN1_spec hg.inv.1 hg.pos]; rfl,
      by simp [Sp.diag, hn'], by simp [Sp.diag, hn'], ?_, ?_⟩
    · intro i j hij
      rw [Sp.diag_range_get, if_neg (by omega)]
    · intro i hi
      rw [Sp.diag_range_get, listing_lst hg, hn', if_pos ⟨rfl, hi⟩]
      refine ⟨fun h => ?_, fun h => ?_⟩
      · unfold degs; rw [h, inv_zero]
      · exact inv_mul_cancel₀ h

/-- C06. The degrees add up to twice the weight of the proper edges plus the weight of the
loops. -/
theorem C06_graph_degree_total {g : GSt K} (hg : Built NonNeg g) {n : Nat}
    (hn : (ask .numV g).1 = .ok (.num n)) :
    ∃ d, (ask .degV g).1 = .ok (.vec d) ∧ d.sum =
      2 * (((Spec.listing g).filter fun e => e.1.1 ≠ e.1.2).map Prod.snd).sum +
      (((Spec.listing g).filter fun e => e.1.1 = e.1.2).map Prod.snd).sum := by
  refine ⟨_, (C06_graph_degrees hg hn).1, ?_⟩
  have h1 : ((List.range n).map fun i : Nat => Spec.deg (Spec.listing g) (i : Int)).sum =
      ∑ i ∈ range n, Spec.deg (Spec.listing g) (i : Int) := by
    rw [← sum_range_map_eq]
  rw [h1, sum_deg (by rw [listing_lst hg, ← numV_eq hn]; exact lst_InR hg.inv.1 hg.pos)]
  induction Spec.listing g with
  | nil => simp
  | cons e l ih =>
    rw [List.map_cons, List.sum_cons, ih, List.filter_cons, List.filter_cons]
    by_cases h : e.1.1 = e.1.2
    · simp [h]; ring
    · simp [h]; ring

example : Built NonNeg exG ∧ Spec.deg (Spec.listing exG) 2 = 10 ∧ Spec.deg (Spec.listing exG) 1 = 5 :=
  ⟨exG_nonneg, by rw [exG_listing]; norm_num [Spec.deg], by rw [exG_listing]; norm_num [Spec.deg]⟩

/-! ## C07 -/

/-- C07. `N_v(v, hop=k)` lists, in increasing order and without repetition, exactly the vertices
reachable from `v` by a walk of exactly `k` listed edges. -/
theorem C07_graph_neighbours {g : GSt K} (hg : Built NonNeg g) {n : Nat}
    (hn : (ask .numV g).1 = .ok (.num n)) (k : Nat) (hk : 1 ≤ k) (v : Nat) (hv : v < n) :
    ∃ l, (ask (.Nv v k) g).1 = .ok (.idx l) ∧ l.Pairwise (· < ·) ∧
      ∀ u, u ∈ l ↔ Spec.Walk (Spec.Adj (Spec.listing g)) k v u := by
  obtain ⟨M, hM, h1, h2, h3, h4, h5⟩ := evApow_spec hg.inv.1 hg.pos k hk
  have hn' := numV_eq hn
  refine ⟨_, ?_, Sp.rowIdx_sorted h4 v, ?_⟩
  · rw [ask_eq hg]
    simp only [evAsk, evNv]
    rw [if_pos (by omega), Int.toNat_natCast, hM]
    simp only [bind, Except.bind]
    rw [Sp.rowIdx_ok (by omega)]
    rfl
  · intro u
    rw [Sp.rowIdx_mem, h5, listing_lst hg]

/-- C07. With the default hop the neighbours are the endpoints of listed edges. -/
theorem C07_graph_neighbours_one {g : GSt K} (hg : Built NonNeg g) {n : Nat}
    (hn : (ask .numV g).1 = .ok (.num n)) (v : Nat) (hv : v < n) :
    ∃ l, (ask (.Nv v 1) g).1 = .ok (.idx l) ∧ l.Nodup ∧
      ∀ u : Nat, u ∈ l ↔ ∃ w, Spec.Listed g v u w := by
  obtain ⟨l, h1, h2, h3⟩ := C07_graph_neighbours hg hn 1 (le_refl _) v hv
  refine ⟨l, h1, h2.imp fun h => ne_of_lt h, ?_⟩
  intro u
  rw [h3]
  constructor
  · intro w
    cases w with
    | one h =>
      obtain ⟨e, he, h | h⟩ := h
      · exact ⟨e.2, Or.inl (by rw [← h]; exact he)⟩
      · exact ⟨e.2, Or.inr (by rw [← h]; exact he)⟩
    | step w _ => cases w
  · rintro ⟨w, h | h⟩
    · exact .one ⟨_, h, Or.inl rfl⟩
    · exact .one ⟨_, h, Or.inr rfl⟩

/-- C07. Being a neighbour (at any hop count) is symmetric. -/
theorem C07_graph_neighbours_symmetric {g : GSt K} (hg : Built NonNeg g) {n : Nat}
    (hn : (ask .numV g).1 = .ok (.num n)) (k : Nat) (hk : 1 ≤ k) (u v : Nat) (hu : u < n) (hv : v < n)
    {lu lv : List Nat} (h1 : (ask (.Nv u k) g).1 = .ok (.idx lu))
    (h2 : (ask (.Nv v k) g).1 = .ok (.idx lv)) : v ∈ lu ↔ u ∈ lv := by
  obtain ⟨l, h3, _, h4⟩ := C07_graph_neighbours hg hn k hk u hu
  obtain ⟨l', h3', _, h4'⟩ := C07_graph_neighbours hg hn k hk v hv
  rw [h1] at h3; rw [h2] at h3'
  cases h3; cases h3'
  rw [h4, h4']
  exact ⟨Walk.symm fun _ _ => Adj.symm, Walk.symm fun _ _ => Adj.symm⟩

/-- C07. A hop count below one is refused. -/
theorem C07_graph_neighbours_bad_hop {g : GSt K} (hg : Built AnyArg g) (v hop : Int) (h : hop < 1) :
    (ask (.Nv v hop) g).1 = .error .assertion := by
  rw [ask_eq hg]; simp only [evAsk, evNv]; rw [if_neg (by omega)]; rfl

example : Built NonNeg exG ∧ 1 < 3 ∧ Spec.Walk (Spec.Adj (Spec.listing exG)) 2 0 2 :=
  ⟨exG_nonneg, by omega,
    .step (j := 1) (.one ⟨((0, 1), 2), by rw [exG_listing]; simp, Or.inl rfl⟩)
      ⟨((1, 2), 3), by rw [exG_listing]; simp, Or.inl rfl⟩⟩

/-! ## C08 -/

/-- C08. `L` is degree minus adjacency of the graph without its self loops; it is symmetric, its
rows sum to 0 and its quadratic form is `Σ w_ij (x_i - x_j)²` over the listed proper edges. -/
theorem C08_graph_laplacian {g : GSt K} (hg : Built NonNeg g) {n : Nat}
    (hn : (ask .numV g).1 = .ok (.num n)) :
    ∃ L, (ask .L g).1 = .ok (.mat L) ∧
      Spec.IsMat n n (fun i j => if i = j then Spec.deg (Spec.proper (Spec.listing g)) (i : Int)
        else - Spec.wt (Spec.listing g) (i : Int) (j : Int)) L ∧
      (∀ i j, i < n → j < n → L.get i j = L.get j i) ∧
      (∀ i, i < n → ∑ j ∈ range n, L.get i j = 0) ∧
      (∀ x : Nat → K, ∑ i ∈ range n, ∑ j ∈ range n, x i * L.get i j * x j =
        ((Spec.proper (Spec.listing g)).map fun e =>
          e.2 * ((x e.1.1.toNat - x e.1.2.toNat) * (x e.1.1.toNat - x e.1.2.toNat))).sum) := by
  obtain ⟨L, hL, h⟩ := evL_spec hg.inv.1 hg.pos
  rw [numV_eq hn, ← listing_lst hg] at h
  have hR : InR n (Spec.proper (Spec.listing g)) := by
    intro e he
    have := lst_InR hg.inv.1 hg.pos e (by rw [← listing_lst hg]; exact (List.mem_filter.1 he).1)
    rw [numV_eq hn] at this; exact this
  have hrow : ∀ i j, i < n → j < n → L.get i j = _ := h.get
  refine ⟨L, by rw [ask_eq hg]; simp only [evAsk, hL]; rfl, ⟨h.rows, h.cols, h.wf, ?_⟩, ?_, ?_, ?_⟩
  · intro i j hi hj
    rw [h.get i j hi hj]
    by_cases hij : i = j
    · subst hij; rw [if_pos rfl, if_pos rfl, wt_proper_self, sub_zero]
    · rw [if_neg hij, if_neg hij, wt_proper_of_ne _ (by omega), zero_sub]
  · intro i j hi hj
    rw [h.get i j hi hj, h.get j i hj hi, wt_symm]
    by_cases hij : i = j
    · subst hij; rfl
    · rw [if_neg hij, if_neg (Ne.symm hij)]
  · intro i hi
    rw [sum_congr rfl fun j hj => h.get i j hi (mem_range.1 hj), sum_sub_distrib, sum_wt_deg hR,
      sum_ite_eq (range n) i, if_pos (mem_range.2 hi), sub_self]
  · intro x
    have hpp : Spec.proper (Spec.proper (Spec.listing g)) = Spec.proper (Spec.listing g) := by
      unfold Spec.proper; rw [List.filter_filter]; simp
    have := quad_form hR x
    rw [hpp] at this
    rw [← this, ← sum_sub_distrib]
    apply sum_congr rfl; intro i hi
    have hi' := mem_range.1 hi
    rw [sum_congr rfl fun j hj => by rw [h.get i j hi' (mem_range.1 hj)]]
    have : ∀ j ∈ range n, x i * ((if i = j then Spec.deg (Spec.proper (Spec.listing g)) (i : Int) else 0) -
        Spec.wt (Spec.proper (Spec.listing g)) (i : Int) (j : Int)) * x j =
        (if i = j then x i * (Spec.deg (Spec.proper (Spec.listing g)) (i : Int) * x j) else 0) -
          x i * Spec.wt (Spec.proper (Spec.listing g)) (i : Int) (j : Int) * x j := by
      intro j _
      split <;> ring
    rw [sum_congr rfl this, sum_sub_distrib, sum_ite_eq (range n) i, if_pos hi]

/-- C08. With non-negative weights `L` is positive semidefinite. -/
theorem C08_graph_laplacian_psd [IsStrictOrderedRing K] {g : GSt K} (hg : Built NonNeg g) {n : Nat}
    (hn : (ask .numV g).1 = .ok (.num n)) (hw : Spec.NonnegWeights (Spec.listing g)) {L : Sp K}
    (hL : (ask .L g).1 = .ok (.mat L)) (x : Nat → K) :
    0 ≤ ∑ i ∈ range n, ∑ j ∈ range n, x i * L.get i j * x j := by
  obtain ⟨L', hL', _, _, _, h⟩ := C08_graph_laplacian hg hn
  rw [hL] at hL'; cases hL'
  rw [h x]
  apply List.sum_nonneg
  intro y hy
  obtain ⟨e, he, rfl⟩ := List.mem_map.1 hy
  exact mul_nonneg (hw e (List.mem_filter.1 he).1) (mul_self_nonneg _)

/-- C08. Computing any of the Laplacians leaves the graph as it was, for every later history of
calls. -/
theorem C08_graph_laplacian_no_effect {g : GSt K} (hg : Built AnyArg g) :
    Spec.Indist (ask .L g).2 g ∧ Spec.Indist (ask .Lsym g).2 g ∧ Spec.Indist (ask .Lrw g).2 g ∧
      Spec.Indist (ask .LGCN g).2 g := by
  have h : ∀ q : GQuery K, Spec.Indist (ask q g).2 g := fun q =>
    Built.indist (.read q hg) hg.inv.2 (reads_ask q g hg.inv.2).2.1
  exact ⟨h _, h _, h _, h _⟩

example : Built NonNeg exG ∧ Built AnyArg exG ∧ Spec.NonnegWeights (Spec.listing exG) :=
  ⟨exG_nonneg, exG_built, exG_nonnegWeights⟩

/-! ## C09, C10, C11 -/

section Ordered
variable [IsStrictOrderedRing K]

theorem nonneg_noLoops {g : GSt K} (hg : Built NonNeg g) (hw : Spec.NonnegWeights (Spec.listing g))
    (i : Nat) : ¬ degs (noLoops g.raw) i < 0 := by
  unfold degs
  rw [lst_noLoops hg.inv.1, ← listing_lst hg]
  exact not_lt.2 (deg_nonneg (NonnegWeights.proper hw) _)

/-- C09. `D_v_neg_1_2` holds the inverse square roots of the degrees (0 at isolated vertices). -/
theorem C09_graph_Dv_neg_half {g : GSt K} (hg : Built NonNeg g) {n : Nat}
    (hn : (ask .numV g).1 = .ok (.num n)) (hw : Spec.NonnegWeights (Spec.listing g)) :
    ∃ D, (ask .DvN12 g).1 = .ok (.mat D) ∧ D.rows = n ∧ D.cols = n ∧ (∀ i j, i ≠ j → D.get i j = 0) ∧
      ∀ i, i < n → Spec.InvSqrt (Spec.deg (Spec.listing g) (i : Int)) (D.get i i) := by
  have hn' := numV_eq hn
  have h0 : ∀ i, i < g.raw.numV → ¬ degs g.raw i < 0 := by
    intro i _; unfold degs; rw [← listing_lst hg]; exact not_lt.2 (deg_nonneg hw _)
  refine ⟨_, by rw [ask_eq hg]; simp only [evAsk]; rw [evDvN12_spec hg.inv.1 hg.pos h0]; rfl,
    by simp [Sp.diag, hn'], by simp [Sp.diag, hn'], ?_, ?_⟩
  · intro i j hij; rw [Sp.diag_range_get, if_neg (by omega)]
  · intro i hi
    rw [Sp.diag_range_get, if_pos ⟨rfl, by omega⟩]
    unfold degs
    rw [← listing_lst hg]
    exact negHalf_invSqrt (deg_nonneg hw _)

/-- C09. `L_sym = I - D^{-1/2} A D^{-1/2}` for the graph without self loops, with `D^{-1/2}` read as
0 at isolated vertices; it is symmetric, positive semidefinite and maps `D^{1/2} 1` to 0. -/
theorem C09_graph_Lsym {g : GSt K} (hg : Built NonNeg g) {n : Nat}
    (hn : (ask .numV g).1 = .ok (.num n)) (hw : Spec.NonnegWeights (Spec.listing g)) :
    ∃ (L : Sp K) (s : Nat → K), (ask .Lsym g).1 = .ok (.mat L) ∧
      (∀ i, i < n → Spec.InvSqrt (Spec.deg (Spec.proper (Spec.listing g)) (i : Int)) (s i)) ∧
      Spec.IsMat n n (fun i j => (if i = j then 1 else 0) -
        s i * Spec.wt (Spec.proper (Spec.listing g)) (i : Int) (j : Int) * s j) L ∧
      (∀ i j, i < n → j < n → L.get i j = L.get j i) ∧
      (∀ x : Nat → K, 0 ≤ ∑ i ∈ range n, ∑ j ∈ range n, x i * L.get i j * x j) ∧
      (∀ y : Nat → K, (∀ i, i < n → y i = s i * Spec.deg (Spec.proper (Spec.listing g)) (i : Int)) →
        ∀ i, i < n → ∑ j ∈ range n, L.get i j * y j = 0) := by
  have hn' := numV_eq hn
  obtain ⟨M, hM, _, h⟩ := evNormA_spec hg.inv.1.noLoops hg.pos.noLoops fun i _ => nonneg_noLoops hg hw i
  have hlst : lst (noLoops g.raw) = Spec.proper (Spec.listing g) := by
    rw [lst_noLoops hg.inv.1, listing_lst hg]
  unfold degs at h
  rw [hlst, show (noLoops g.raw).numV = n from hn'] at h
  have hpw := NonnegWeights.proper hw
  have hR : InR n (Spec.proper (Spec.listing g)) := by
    rw [← hlst, ← hn']; exact lst_InR hg.inv.1.noLoops hg.pos.noLoops
  generalize hl : Spec.proper (Spec.listing g) = l at *
  let s : Nat → K := fun i => negHalf (Spec.deg l (i : Int))
  have hs : ∀ i : Nat, Spec.InvSqrt (Spec.deg l (i : Int)) (s i) := fun i => negHalf_invSqrt (deg_nonneg hpw _)
  have hget : ∀ i j, i < n → j < n → (Sp.eyeMinus n M).get i j = (if i = j then 1 else 0) -
      s i * Spec.wt l (i : Int) (j : Int) * s j := by
    intro i j hi hj
    rw [Sp.eyeMinus_get, h.get i j hi hj]
    by_cases hij : i = j <;> simp [hij, hj, s]
  refine ⟨Sp.eyeMinus n M, s, ?_, fun i _ => hs i, ⟨rfl, rfl, Sp.WF.eyeMinus h.wf h.rows h.cols, hget⟩,
    ?_, ?_, ?_⟩
  · rw [ask_eq hg]; simp only [evAsk, evLsym, hM, hn']; rfl
  · intro i j hi hj
    rw [hget i j hi hj, hget j i hj hi, wt_symm l (i : Int)]
    by_cases hij : i = j
    · subst hij; rfl
    · rw [if_neg hij, if_neg (Ne.symm hij)]; ring
  · intro x
    have hb := (norm_bound n (fun i j => Spec.wt l (i : Int) (j : Int)) (fun i j => wt_symm l _ _)
      (fun i j => wt_nonneg hpw _ _) s x (by
        intro i _
        rw [sum_wt_deg hR]
        exact InvSqrt.sq_mul_le (hs i))).1
    have he : ∑ i ∈ range n, ∑ j ∈ range n, x i * (Sp.eyeMinus n M).get i j * x j =
        ∑ i ∈ range n, x i * x i - ∑ i ∈ range n, ∑ j ∈ range n,
          x i * (s i * Spec.wt l (i : Int) (j : Int) * s j) * x j := by
      rw [← sum_sub_distrib]
      apply sum_congr rfl; intro i hi
      have : ∀ j ∈ range n, x i * (Sp.eyeMinus n M).get i j * x j = (if i = j then x i * x j else 0) -
          x i * (s i * Spec.wt l (i : Int) (j : Int) * s j) * x j := by
        intro j hj
        rw [hget i j (mem_range.1 hi) (mem_range.1 hj)]
        split <;> ring
      rw [sum_congr rfl this, sum_sub_distrib, sum_ite_eq (range n) i, if_pos hi]
    rw [he]; linarith
  · intro y hy i hi
    have hsy : ∀ j, j < n → Spec.wt l (i : Int) (j : Int) * s j * y j = Spec.wt l (i : Int) (j : Int) := by
      intro j hj
      rw [hy j hj]
      by_cases hd : Spec.deg l (j : Int) = 0
      · have : Spec.wt l (i : Int) (j : Int) = 0 := by
          rw [wt_symm]
          rw [← sum_wt_deg hR, sum_eq_zero_iff_of_nonneg fun k _ => wt_nonneg hpw _ _] at hd
          exact hd i (mem_range.2 hi)
        rw [this]; ring
      · have := ((hs j).2 hd).2
        calc _ = Spec.wt l (i : Int) (j : Int) * (s j * s j * Spec.deg l (j : Int)) := by ring
          _ = _ := by rw [this, mul_one]
    have : ∀ j ∈ range n, (Sp.eyeMinus n M).get i j * y j = (if i = j then y j else 0) -
        s i * Spec.wt l (i : Int) (j : Int) := by
      intro j hj
      rw [hget i j hi (mem_range.1 hj)]
      have := hsy j (mem_range.1 hj)
      split <;> linear_combination (- s i) * this
    rw [sum_congr rfl this, sum_sub_distrib, sum_ite_eq (range n) i, if_pos (mem_range.2 hi), ← mul_sum,
      sum_wt_deg hR, hy i hi, sub_self]

/-- C10. `L_rw = I - D⁻¹A` on the graph without self loops; rows of vertices with non-zero degree
sum to 0, rows of isolated vertices are identity rows. -/
theorem C10_graph_Lrw {g : GSt K} (hg : Built NonNeg g) {n : Nat}
    (hn : (ask .numV g).1 = .ok (.num n)) :
    ∃ L : Sp K, (ask .Lrw g).1 = .ok (.mat L) ∧
      Spec.IsMat n n (fun i j => (if i = j then 1 else 0) -
        Spec.wt (Spec.proper (Spec.listing g)) (i : Int) (j : Int) /
          Spec.deg (Spec.proper (Spec.listing g)) (i : Int)) L ∧
      (∀ i, i < n → Spec.deg (Spec.proper (Spec.listing g)) (i : Int) ≠ 0 →
        ∑ j ∈ range n, L.get i j = 0) ∧
      (∀ i j, i < n → j < n → Spec.deg (Spec.proper (Spec.listing g)) (i : Int) = 0 →
        L.get i j = if i = j then 1 else 0) := by
  obtain ⟨L, hL, h⟩ := evLrw_spec hg.inv.1 hg.pos
  rw [numV_eq hn, ← listing_lst hg] at h
  have hR : InR n (Spec.proper (Spec.listing g)) := by
    intro e he
    have := lst_InR hg.inv.1 hg.pos e (by rw [← listing_lst hg]; exact (List.mem_filter.1 he).1)
    rw [numV_eq hn] at this; exact this
  refine ⟨L, by rw [ask_eq hg]; simp only [evAsk, hL]; rfl, ⟨h.rows, h.cols, h.wf, ?_⟩, ?_, ?_⟩
  · intro i j hi hj
    rw [h.get i j hi hj, div_eq_mul_inv, mul_comm]
  · intro i hi hd
    rw [sum_congr rfl fun j hj => h.get i j hi (mem_range.1 hj), sum_sub_distrib,
      sum_ite_eq (range n) i, if_pos (mem_range.2 hi), ← mul_sum, sum_wt_deg hR, inv_mul_cancel₀ hd, sub_self]
  · intro i j hi hj hd
    rw [h.get i j hi hj, hd, inv_zero, zero_mul, sub_zero]

theorem lst_withExtra {r : GRaw K} : lst (withExtra r) =
    Spec.withUnitLoops r.numV (lst { r with extra := false }) := by
  unfold lst Spec.withUnitLoops
  rw [zip_listing, zip_listing]
  simp [withExtra]

/-- C11. `L_GCN = D'^{-1/2} A' D'^{-1/2}` where `A'`, `D'` belong to the graph without its
extra self loops (`remove_extra_selfloop`) plus one unit loop at every vertex, so the loops are
there exactly once even if the caller had added them; the matrix is symmetric and its quadratic form
lies between `-|x|²` and `|x|²`. -/
theorem C11_graph_LGCN {g : GSt K} (hg : Built NonNeg g) {n : Nat}
    (hn : (ask .numV g).1 = .ok (.num n)) (hw : Spec.NonnegWeights (Spec.listing g)) :
    let l := Spec.withUnitLoops n (Spec.listing (apply .removeExtraSelfloop g).2)
    ∃ (L : Sp K) (s : Nat → K), (ask .LGCN g).1 = .ok (.mat L) ∧
      (∀ i, i < n → Spec.InvSqrt (Spec.deg l (i : Int)) (s i)) ∧
      Spec.IsMat n n (fun i j => s i * Spec.wt l (i : Int) (j : Int) * s j) L ∧
      (∀ i j, i < n → j < n → L.get i j = L.get j i) ∧
      (∀ x : Nat → K,
        ∑ i ∈ range n, ∑ j ∈ range n, x i * L.get i j * x j ≤ ∑ i ∈ range n, x i * x i ∧
        -∑ i ∈ range n, x i * x i ≤ ∑ i ∈ range n, ∑ j ∈ range n, x i * L.get i j * x j) := by
  have hn' := numV_eq hn
  have hg' : Built NonNeg (apply .removeExtraSelfloop g).2 := .op _ hg (by intro a op h; cases h)
  have hl : lst (withExtra g.raw) = Spec.withUnitLoops n (Spec.listing (apply .removeExtraSelfloop g).2) := by
    rw [listing_lst hg', lst_withExtra, hn']; rfl
  simp only
  have hpw : Spec.NonnegWeights (Spec.withUnitLoops n (Spec.listing (apply .removeExtraSelfloop g).2)) := by
    intro e he
    rcases List.mem_append.1 he with he | he
    · apply hw
      rw [listing_lst hg'] at he
      rw [listing_lst hg]
      unfold lst at he ⊢
      rw [zip_listing] at he ⊢
      have he' : e ∈ (g.raw.eDict ++ g.raw.loops.map fun p => ((p.1, p.1), p.2)) ++
          (if false = true then (List.range g.raw.numV).map fun v : Nat => (((v : Int), (v : Int)), (1 : K)) else []) := he
      simp only [Bool.false_eq_true, if_false, List.append_nil] at he'
      exact List.mem_append_left _ he'
    · obtain ⟨v, _, rfl⟩ := List.mem_map.1 he
      exact zero_le_one
  obtain ⟨M, hM, hMs, h⟩ := evNormA_spec hg.inv.1.withExtra hg.pos.withExtra (by
    intro i _; unfold degs; rw [hl]; exact not_lt.2 (deg_nonneg hpw _))
  unfold degs at h
  rw [hl, show (withExtra g.raw).numV = n from hn'] at h
  have hR : InR n (Spec.withUnitLoops n (Spec.listing (apply .removeExtraSelfloop g).2)) := by
    rw [← hl, ← hn']; exact lst_InR hg.inv.1.withExtra hg.pos.withExtra
  generalize hl' : Spec.withUnitLoops n (Spec.listing (apply .removeExtraSelfloop g).2) = l at *
  let s : Nat → K := fun i => negHalf (Spec.deg l (i : Int))
  have hs : ∀ i : Nat, Spec.InvSqrt (Spec.deg l (i : Int)) (s i) := fun i => negHalf_invSqrt (deg_nonneg hpw _)
  have hget : ∀ i j, i < n → j < n → M.coalesce.get i j = s i * Spec.wt l (i : Int) (j : Int) * s j := by
    intro i j hi hj
    rw [Sp.get_coalesce]; exact h.get i j hi hj
  refine ⟨M.coalesce, s, ?_, fun i _ => hs i, ⟨h.rows, h.cols, h.wf.coalesce, hget⟩, ?_, ?_⟩
  · rw [ask_eq hg]; simp only [evAsk, evLGCN, hM]; rfl
  · intro i j hi hj
    rw [hget i j hi hj, hget j i hj hi, wt_symm l (i : Int)]; ring
  · intro x
    have he : ∑ i ∈ range n, ∑ j ∈ range n, x i * M.coalesce.get i j * x j =
        ∑ i ∈ range n, ∑ j ∈ range n, x i * (s i * Spec.wt l (i : Int) (j : Int) * s j) * x j := by
      apply sum_congr rfl; intro i hi
      apply sum_congr rfl; intro j hj
      rw [hget i j (mem_range.1 hi) (mem_range.1 hj)]
    rw [he]
    exact norm_bound n (fun i j => Spec.wt l (i : Int) (j : Int)) (fun i j => wt_symm l _ _)
      (fun i j => wt_nonneg hpw _ _) s x (by
        intro i _
        rw [sum_wt_deg hR]
        exact InvSqrt.sq_mul_le (hs i))

/-- C11. `smoothing_with_GCN(X)` without dropout is `L_GCN X`. -/
theorem C11_graph_smoothing {g : GSt K} (hg : Built NonNeg g) {n : Nat}
    (hn : (ask .numV g).1 = .ok (.num n)) (hw : Spec.NonnegWeights (Spec.listing g)) {L : Sp K}
    (hL : (ask .LGCN g).1 = .ok (.mat L)) (X : Dense K) (hX : X.rows = n) (keep : Nat → Bool) :
    ∃ Y, (ask (.smoothGCN X 0 keep) g).1 = .ok (.feat Y) ∧ Y.rows = n ∧ Y.cols = X.cols ∧
      ∀ i c, Y.at_ i c = ∑ j ∈ range n, L.get i j * X.at_ j c := by
  obtain ⟨L', _, hL', _, hm, _, _⟩ := C11_graph_LGCN hg hn hw
  rw [hL] at hL'; cases hL'
  obtain ⟨Y, hY⟩ := Sp.mmD_ok (P := L) (X := X) (by rw [hm.cols, hX])
  have hs := Sp.mmD_shape hY
  refine ⟨Y, ?_, hs.2.1.trans hm.rows, hs.2.2, ?_⟩
  · rw [ask_eq hg] at hL ⊢
    simp only [evAsk] at hL ⊢
    cases he : evLGCN g.raw with
    | error e => rw [he] at hL; cases hL
    | ok M =>
      rw [he] at hL
      cases hL
      unfold evSmoothGCN evDrop
      rw [he]
      simp only [bind, Except.bind]
      rw [if_neg (lt_irrefl _)]
      show Except.map GAns.feat (L.mmD X) = _
      rw [hY]; rfl
  · intro i c
    rw [Sp.mmD_at hY hm.wf, hm.cols]

end Ordered

example : Built NonNeg exG ∧ (ask .numV exG).1 = .ok (.num 3) ∧ Spec.NonnegWeights (Spec.listing exG) ∧
    Spec.deg (Spec.proper (Spec.listing exG)) 1 ≠ 0 :=
  ⟨exG_nonneg, exG_numV, exG_nonnegWeights, by rw [exG_listing]; norm_num [Spec.deg, Spec.proper]⟩

end Props
end DHG
