import Verif.OrderedRaw
import Verif.Props.DiGraphEdges

/-!
# Properties of `DiGraph`: matrices, degrees, neighbours, reversal, message passing
-/

set_option linter.unusedSectionVars false
set_option autoImplicit false

namespace DHG
namespace Props

open DiGraph Finset
open Graph (AnyArg NonNeg lst)

variable {K : Type} [Field K] [LinearOrder K] [PyReal K]

namespace Di

theorem listing_lst {P : EArg K → Prop} {w : Bool} {g : DSt K} (hg : Built P w g) :
    Spec.listingD g = lst g.raw := listing_eq hg.coh.1

theorem fits {w : Bool} {g : DSt K} (hg : Built NonNeg w g) : Ord.Fits .di g.raw :=
  Ord.fits_di hg.inv hg.pos

theorem In {w : Bool} {g : DSt K} (hg : Built NonNeg w g) {n : Nat}
    (hn : (ask .numV g).1 = .ok (.num n)) : Ord.In n n (Spec.listingD g) := by
  have hn' := numV_eq hg.any hn
  subst hn'
  rw [listing_lst hg]
  exact fits hg

end Di
open Di

theorem exD_listing : Spec.listingD exD = [((1, 0), 2), ((1, 2), 3), ((2, 2), 7)] := rfl
theorem exD_numV : (ask .numV exD).1 = .ok (.num 3) := rfl
theorem exD_nonnegWeights : Spec.NonnegWeights (Spec.listingD exD) := by
  rw [exD_listing]; intro e he; simp at he; rcases he with rfl | rfl | rfl <;> norm_num

/-! ## C23 -/

/-- C23. `A` has at `(i,j)` the total weight listed for `i → j`, `A_T` is its transpose; when the
flag is off or `i ≠ j` this is the weight of the edge, and 0 when there is none. -/
theorem C23_digraph_adjacency {w : Bool} {g : DSt K} (hg : Built NonNeg w g) {n : Nat}
    (hn : (ask .numV g).1 = .ok (.num n)) :
    ∃ A AT, (ask .A g).1 = .ok (.mat A) ∧ (ask .AT g).1 = .ok (.mat AT) ∧
      Spec.IsMat n n (fun i j => Spec.O.wt (Spec.listingD g) i j) A ∧
      Spec.IsMat n n (fun i j => A.get j i) AT ∧
      (∀ (i j : Nat) x, (i ≠ j ∨ (stateDict g).extra = false) →
        (((i : Int), (j : Int)), x) ∈ Spec.listingD g → A.get i j = x) ∧
      (∀ i j : Nat, (∀ x, (((i : Int), (j : Int)), x) ∉ Spec.listingD g) → A.get i j = 0) := by
  obtain ⟨A, hA, h⟩ := Ord.evM_spec (fits hg)
  obtain ⟨AT, hAT, h'⟩ := Ord.evMT_spec (fits hg)
  have hn' := numV_eq hg.any hn
  subst hn'
  rw [listing_lst hg]
  refine ⟨A, AT, ?_, ?_, ⟨h.rows, h.cols, h.wf, fun i j _ _ => h.get i j⟩,
    ⟨h'.rows, h'.cols, h'.wf, fun i j _ _ => ?_⟩, ?_, ?_⟩
  · rw [hg.ask]; simp only [evAsk, hA]; rfl
  · rw [hg.ask]; simp only [evAsk, hAT]; rfl
  · rw [h'.get, h.get, Ord.wt_sw]
  · intro i j x hx hm
    rw [h.get]
    refine Ord.wt_absO hg.inv ?_ x hm
    rcases hx with hx | hx
    · left; omega
    · right; left; exact hx
  · intro i j hx
    rw [h.get]
    exact Ord.wt_eq_zero hx

/-- C23. `deg_v_out`, `deg_v_in` are the row and column sums of `A`, and have equal totals (the
total listed weight); `D_v_out`, `D_v_in` are the corresponding diagonal matrices. -/
theorem C23_digraph_degrees {w : Bool} {g : DSt K} (hg : Built NonNeg w g) {n : Nat}
    (hn : (ask .numV g).1 = .ok (.num n)) :
    ∃ A dout din Dout Din, (ask .A g).1 = .ok (.mat A) ∧
      (ask .degOut g).1 = .ok (.vec ((List.range n).map dout)) ∧
      (ask .degIn g).1 = .ok (.vec ((List.range n).map din)) ∧
      (∀ i : Nat, dout i = Spec.O.degOut (Spec.listingD g) i) ∧
      (∀ i : Nat, din i = Spec.O.degIn (Spec.listingD g) i) ∧
      (∀ i : Nat, dout i = ∑ j ∈ range n, A.get i j) ∧ (∀ j : Nat, din j = ∑ i ∈ range n, A.get i j) ∧
      (∑ i ∈ range n, dout i = ∑ i ∈ range n, din i) ∧
      (∑ i ∈ range n, dout i = ((Spec.listingD g).map Prod.snd).sum) ∧
      (ask .DvOut g).1 = .ok (.mat Dout) ∧ (ask .DvIn g).1 = .ok (.mat Din) ∧
      Spec.IsMat n n (fun i j => if i = j then dout i else 0) Dout ∧
      Spec.IsMat n n (fun i j => if i = j then din i else 0) Din := by
  obtain ⟨A, hA, h⟩ := Ord.evM_spec (fits hg)
  have hI := Di.In hg hn
  have hn' := numV_eq hg.any hn
  subst hn'
  have hl := listing_lst hg
  rw [hl] at hI ⊢
  refine ⟨A, fun i => Spec.O.degOut (lst g.raw) i, fun i => Spec.O.degIn (lst g.raw) i,
    Sp.diag ((List.range g.raw.numV).map fun i : Nat => Spec.O.degOut (lst g.raw) i), Sp.diag ((List.range g.raw.numV).map fun i : Nat => Spec.O.degIn (lst g.raw) i), ?_, ?_, ?_, fun _ => rfl, fun _ => rfl, ?_, ?_, ?_, Ord.sum_degOut hI, ?_, ?_, ?_, ?_⟩
  rotate_right 4
  · rw [hg.ask]; simp only [evAsk, Ord.evDr_spec (fits hg)]; rfl
  · rw [hg.ask]; simp only [evAsk, Ord.evDc_spec (fits hg)]; rfl
  · refine ⟨by simp [Sp.diag_rows, Ord.rows], by simp [Sp.diag_cols, Ord.rows], Sp.diag_WF _, ?_⟩
    intro i j hi hj
    rw [Sp.diag_range_get]
    by_cases hij : i = j
    · simp [hij, Ord.rows, hj]
    · simp [hij]
  · refine ⟨by simp [Sp.diag_rows], by simp [Sp.diag_cols], Sp.diag_WF _, ?_⟩
    intro i j hi hj
    rw [Sp.diag_range_get]
    by_cases hij : i = j
    · simp [hij, hj]
    · simp [hij]
  · rw [hg.ask]; simp only [evAsk, hA]; rfl
  · rw [hg.ask]; simp only [evAsk, Ord.evDr_spec (fits hg), Except.map, Ord.diag_vals]; rfl
  · rw [hg.ask]; simp only [evAsk, Ord.evDc_spec (fits hg), Except.map, Ord.diag_vals]
  · intro i; simp only [h.get]; exact (Ord.sum_wt hI i).symm
  · intro i; simp only [h.get]; exact (Ord.sum_wt' hI i).symm
  · rw [Ord.sum_degOut hI, Ord.sum_degIn hI]

/-- C23. `nbr_v_out(v)` lists in increasing order exactly the targets of edges leaving `v`,
`nbr_v_in(u)` the sources of edges entering `u`; so `u ∈ nbr_v_out(v)` iff `v ∈ nbr_v_in(u)`. -/
theorem C23_digraph_neighbours {w : Bool} {g : DSt K} (hg : Built NonNeg w g) {n : Nat}
    (hn : (ask .numV g).1 = .ok (.num n)) {u v : Nat} (hu : u < n) (hv : v < n) :
    ∃ lo li, (ask (.Nout v) g).1 = .ok (.idx lo) ∧ (ask (.Nin u) g).1 = .ok (.idx li) ∧
      lo.Pairwise (· < ·) ∧ li.Pairwise (· < ·) ∧
      (u ∈ lo ↔ ∃ x, (((v : Int), (u : Int)), x) ∈ Spec.listingD g) ∧
      (v ∈ li ↔ u ∈ lo) := by
  have hn' := numV_eq hg.any hn
  subst hn'
  rw [listing_lst hg]
  obtain ⟨lo, h1, h2, h3⟩ := Ord.nbr_row (c := .di) (fits hg) (v := v) hv
  obtain ⟨li, h4, h5, h6⟩ := Ord.nbr_col (c := .di) (fits hg) (v := u) hu
  refine ⟨lo, li, ?_, ?_, h2, h5, h3 u, ?_⟩
  · rw [hg.ask]; simp only [evAsk, h1]; rfl
  · rw [hg.ask]; simp only [evAsk, h4]; rfl
  · rw [h3, h6]

/-- C23. `e_src`, `e_dst`, `e_weight` list every ordered adjacent pair once with its entry of `A`. -/
theorem C23_digraph_edge_vectors {w : Bool} {g : DSt K} (hg : Built NonNeg w g) :
    ∃ src dst ws, (ask .eSrc g).1 = .ok (.idx src) ∧ (ask .eDst g).1 = .ok (.idx dst) ∧
      (ask .eWeight g).1 = .ok (.vec ws) ∧ src.length = dst.length ∧ ws.length = dst.length ∧
      (src.zip dst).Nodup ∧
      (∀ i j : Nat, (i, j) ∈ src.zip dst ↔ ∃ x, (((i : Int), (j : Int)), x) ∈ Spec.listingD g) ∧
      (∀ (i j : Nat) x, ((i, j), x) ∈ (src.zip dst).zip ws → x = Spec.O.wt (Spec.listingD g) i j) := by
  obtain ⟨A, hA, h⟩ := Ord.evM_spec (fits hg)
  rw [listing_lst hg]
  obtain ⟨h1, h2, h3⟩ := Ord.edge_vectors (fits hg) hA
  refine ⟨_, _, _, ?_, ?_, ?_, by simp, by simp, h1, h2, h3⟩
  · rw [hg.ask]; simp only [evAsk, hA]; rfl
  · rw [hg.ask]; simp only [evAsk, hA]; rfl
  · rw [hg.ask]; simp only [evAsk, hA]; rfl

example : Built NonNeg false exD ∧ (ask .numV exD).1 = .ok (.num 3) ∧
    (((1 : Nat) : Int), ((0 : Nat) : Int), (2 : ℝ)) ∈ (Spec.listingD exD).map fun e => (e.1.1, e.1.2, e.2) :=
  ⟨exD_nonneg, exD_numV, by rw [exD_listing]; simp⟩

/-! ## C22 -/

theorem Di.lst_reverse {r : GRaw K} :
    lst ({ r with eDict := Ord.swapE r.eDict } : GRaw K) = Ord.sw (lst r) := by
  unfold Graph.lst Ord.sw
  rw [Graph.zip_listing, Graph.zip_listing, List.map_append, List.map_append, List.map_map]
  congr 1
  split
  · rw [List.map_map]; rfl
  · rfl

theorem Di.reverse_raw {w : Bool} {g : DSt K} (hg : Built NonNeg w g) :
    (apply .reverseDirection g).2 = { g with raw := { g.raw with eDict := Ord.swapE g.raw.eDict } } :=
  congrArg Prod.snd (reverse_ok g hg.inv.nodupE)

/-- C22 is false: reading `A` first, the reversed graph still reports the old `A`, not the
transpose. -/
theorem C22_digraph_reverse_false :
    ¬ ∀ (g : DSt ℝ), Any NonNeg g → ∀ q : DQuery ℝ,
      let g1 := (ask q g).2
      (ask .A (apply .reverseDirection g1).2).1 = (ask .AT g1).1 := by
  intro h
  have h1 := h exD exD_nonneg.any .A
  have e1 : (ask .A (apply .reverseDirection (ask .A exD).2).2).1 = (ask .A exD).1 := rfl
  have e2 : (ask .AT (ask .A exD).2).1 = (ask .AT exD).1 := by
    rw [(Built.read .A exD_nonneg).ask, exD_nonneg.ask, keeps_ask]
  simp only at h1
  rw [e1, e2] at h1
  obtain ⟨A, AT, hA, hAT, _, h4, h5, h6⟩ := C23_digraph_adjacency exD_nonneg exD_numV
  rw [hA, hAT] at h1
  injection h1 with h1
  injection h1 with h1
  have a1 : A.get 1 0 = 2 := h5 1 0 2 (.inl (by omega)) (by rw [exD_listing]; simp)
  have a2 : A.get 0 1 = 0 := h6 0 1 (by rw [exD_listing]; simp)
  have a3 := h4.get 1 0 (by omega) (by omega)
  rw [← h1, a1] at a3
  rw [a2] at a3
  norm_num at a3

/-- C22, partial. On a graph of which nothing is cached, `reverse_direction()` exchanges `(a,b)`
with `(b,a)`. Missing: graphs that have been read since the last change
(`C22_digraph_reverse_false`). -/
theorem C22_digraph_reverse_edges_partial {g : DSt K} (hg : Built NonNeg false g) (a b : Int) (x : K) :
    ((b, a), x) ∈ Spec.listingD (apply .reverseDirection g).2 ↔ ((a, b), x) ∈ Spec.listingD g := by
  rw [listing_lst (Built.reverse hg), listing_lst hg, reverse_raw hg, lst_reverse]
  unfold Ord.sw
  constructor
  · intro h
    obtain ⟨e, he, h1⟩ := List.mem_map.1 h
    obtain ⟨⟨p, q⟩, y⟩ := e
    simp only [Prod.mk.injEq] at h1
    obtain ⟨⟨rfl, rfl⟩, rfl⟩ := h1
    exact he
  · intro h; exact List.mem_map.2 ⟨_, h, rfl⟩

/-- C22, partial. On a graph of which nothing is cached, after `reverse_direction()`: `A` is the
old `A_T` and conversely; in- and out-degrees, degree matrices and neighbour queries are
exchanged. Missing: as above. -/
theorem C22_digraph_reverse_reads_partial {g : DSt K} (hg : Built NonNeg false g) :
    let g' := (apply .reverseDirection g).2
    (ask .A g').1 = (ask .AT g).1 ∧ (ask .AT g').1 = (ask .A g).1 ∧
    (ask .degOut g').1 = (ask .degIn g).1 ∧ (ask .degIn g').1 = (ask .degOut g).1 ∧
    (ask .DvOut g').1 = (ask .DvIn g).1 ∧ (ask .DvIn g').1 = (ask .DvOut g).1 ∧
    (ask .DvOutN1 g').1 = (ask .DvInN1 g).1 ∧ (ask .DvInN1 g').1 = (ask .DvOutN1 g).1 ∧
    (∀ v, (ask (.Nout v) g').1 = (ask (.Nin v) g).1) ∧ (∀ v, (ask (.Nin v) g').1 = (ask (.Nout v) g).1) := by
  intro g'
  have hg' : Built NonNeg false g' := Built.reverse hg
  have hr : g'.raw = { g.raw with eDict := Ord.swapE g.raw.eDict } := by
    show (apply .reverseDirection g).2.raw = _
    rw [reverse_raw hg]
  obtain ⟨e1, e2, e3, e4, e5, e6, e7, e8⟩ := Ord.swap_reads (c := .di) (c' := .di) (r := g.raw) (r' := g'.raw)
    (by rw [hr]; exact lst_reverse) (by rw [hr]; rfl) (by rw [hr]; rfl) (fits hg)
  refine ⟨?_, ?_, ?_, ?_, ?_, ?_, ?_, ?_, ?_, ?_⟩
  all_goals first | (rw [hg.ask, hg'.ask]; simp only [evAsk, e1, e2, e3, e4, e5, e6]) | skip
  · intro v; rw [hg.ask, hg'.ask]; simp only [evAsk, e7]
  · intro v; rw [hg.ask, hg'.ask]; simp only [evAsk, e8]

/-- C22. Reversing twice in a row restores every read, whatever was cached. -/
theorem C22_digraph_reverse_twice {g : DSt K} (hg : Any AnyArg g) :
    Spec.IndistD (apply .reverseDirection (apply .reverseDirection g).2).2 g := by
  have h1 : (apply .reverseDirection g).2 =
      { g with raw := { g.raw with eDict := Ord.swapE g.raw.eDict } } :=
    congrArg Prod.snd (reverse_ok g hg.inv.nodupE)
  have h2 : (apply .reverseDirection (apply .reverseDirection g).2).2 = g := by
    rw [h1]
    have := congrArg Prod.snd (reverse_ok ({ g with raw := { g.raw with eDict := Ord.swapE g.raw.eDict } } : DSt K)
      (Inv.swap hg.inv).nodupE)
    refine this.trans ?_
    simp only
    have : Ord.swapE (Ord.swapE g.raw.eDict) = g.raw.eDict := by
      unfold Ord.swapE
      rw [List.map_map]
      conv_rhs => rw [← List.map_id g.raw.eDict]
      rfl
    rw [this]
  rw [h2]
  exact fun _ _ => rfl

example : Built NonNeg false exD ∧ Any AnyArg exD := ⟨exD_nonneg, exD_built.any⟩

/-! ## C24 -/

/-- C24. `v2v(aggr="sum")`: `dst2src` collects at `i` from the out-neighbours of `i`, `src2dst` from
the in-neighbours. -/
theorem C24_digraph_v2v_sum {w : Bool} {g : DSt K} (hg : Built NonNeg w g) {n : Nat}
    (hn : (ask .numV g).1 = .ok (.num n)) (X : Dense K) (hX : X.rows = n) (keep : Nat → Bool) :
    (∃ Y, (ask (.v2v X .sum none .dst2src 0 keep) g).1 = .ok (.feat Y) ∧ Y.rows = n ∧ Y.cols = X.cols ∧
      ∀ i c, Y.at_ i c = ∑ j ∈ range n, Spec.O.wt (Spec.listingD g) (i : Int) (j : Int) * X.at_ j c) ∧
    (∃ Y, (ask (.v2v X .sum none .src2dst 0 keep) g).1 = .ok (.feat Y) ∧ Y.rows = n ∧ Y.cols = X.cols ∧
      ∀ i c, Y.at_ i c = ∑ j ∈ range n, Spec.O.wt (Spec.listingD g) (j : Int) (i : Int) * X.at_ j c) := by
  obtain ⟨A, hA, h⟩ := Ord.evM_spec (fits hg)
  obtain ⟨AT, hAT, h'⟩ := Ord.evMT_spec (fits hg)
  have hn' := numV_eq hg.any hn
  subst hn'
  rw [listing_lst hg]
  constructor
  · obtain ⟨Y, hY, h1, h2, h3⟩ := Ord.pass_sum (evD := Ord.evDrN1 .di) hA h X hX keep
    refine ⟨Y, ?_, h1, h2, h3⟩
    rw [hg.ask]
    simp only [evAsk, evV2v, reduceCtorEq, if_false, Ord.evToRows, hY]
    rfl
  · obtain ⟨Y, hY, h1, h2, h3⟩ := Ord.pass_sum (evD := Ord.evDcN1 .di) hAT h' X hX keep
    refine ⟨Y, ?_, h1, h2, ?_⟩
    · rw [hg.ask]
      simp only [evAsk, evV2v, reduceCtorEq, if_false, Ord.evToCols, hY]
      rfl
    · intro i c; rw [h3]; exact sum_congr rfl fun j _ => by rw [Ord.wt_sw]

/-- C24. `v2v(aggr="mean")` divides the sum by the out-degree (`dst2src`) or in-degree (`src2dst`)
of the receiver; receivers of degree 0 get 0. -/
theorem C24_digraph_v2v_mean {w : Bool} {g : DSt K} (hg : Built NonNeg w g) {n : Nat}
    (hn : (ask .numV g).1 = .ok (.num n)) (X : Dense K) (hX : X.rows = n) (keep : Nat → Bool) :
    (∃ Y, (ask (.v2v X .mean none .dst2src 0 keep) g).1 = .ok (.feat Y) ∧ Y.rows = n ∧ Y.cols = X.cols ∧
      ∀ i c, i < n → (Spec.O.degOut (Spec.listingD g) (i : Int) = 0 → Y.at_ i c = 0) ∧
        (Spec.O.degOut (Spec.listingD g) (i : Int) ≠ 0 → Y.at_ i c =
          (∑ j ∈ range n, Spec.O.wt (Spec.listingD g) (i : Int) (j : Int) * X.at_ j c) /
            Spec.O.degOut (Spec.listingD g) (i : Int))) ∧
    (∃ Y, (ask (.v2v X .mean none .src2dst 0 keep) g).1 = .ok (.feat Y) ∧ Y.rows = n ∧ Y.cols = X.cols ∧
      ∀ i c, i < n → (Spec.O.degIn (Spec.listingD g) (i : Int) = 0 → Y.at_ i c = 0) ∧
        (Spec.O.degIn (Spec.listingD g) (i : Int) ≠ 0 → Y.at_ i c =
          (∑ j ∈ range n, Spec.O.wt (Spec.listingD g) (j : Int) (i : Int) * X.at_ j c) /
            Spec.O.degIn (Spec.listingD g) (i : Int))) := by
  obtain ⟨A, hA, h⟩ := Ord.evM_spec (fits hg)
  obtain ⟨AT, hAT, h'⟩ := Ord.evMT_spec (fits hg)
  have hn' := numV_eq hg.any hn
  subst hn'
  rw [listing_lst hg]
  constructor
  · obtain ⟨Y, hY, h1, h2, h3⟩ := Ord.pass_mean hA h (Ord.evDrN1_spec (fits hg)) X hX keep
    refine ⟨Y, ?_, h1, h2, h3⟩
    rw [hg.ask]
    simp only [evAsk, evV2v, reduceCtorEq, if_false, Ord.evToRows, hY]
    rfl
  · obtain ⟨Y, hY, h1, h2, h3⟩ := Ord.pass_mean hAT h' (Ord.evDcN1_spec (fits hg)) X hX keep
    refine ⟨Y, ?_, h1, h2, ?_⟩
    · rw [hg.ask]
      simp only [evAsk, evV2v, reduceCtorEq, if_false, Ord.evToCols, hY]
      rfl
    · intro i c hi
      have e : ∑ j ∈ range g.raw.numV, Spec.O.wt (lst g.raw) (j : Int) (i : Int) * X.at_ j c =
          ∑ j ∈ range g.raw.numV, Spec.O.wt (Ord.sw (lst g.raw)) (i : Int) (j : Int) * X.at_ j c :=
        sum_congr rfl fun j _ => by rw [Ord.wt_sw]
      rw [e]
      exact h3 i c hi

/-- C24. With the stored weights (any aggregation, any dropout), `v2v` in one direction equals
`v2v` in the other direction on the reversed graph. -/
theorem C24_digraph_v2v_reversed {g : DSt K} (hg : Built NonNeg false g) (X : Dense K) (aggr : Aggr)
    (p : K) (keep : Nat → Bool) :
    (ask (.v2v X aggr none .src2dst p keep) g).1 =
      (ask (.v2v X aggr none .dst2src p keep) (apply .reverseDirection g).2).1 ∧
    (ask (.v2v X aggr none .dst2src p keep) g).1 =
      (ask (.v2v X aggr none .src2dst p keep) (apply .reverseDirection g).2).1 := by
  have hg' : Built NonNeg false (apply .reverseDirection g).2 := Built.reverse hg
  have hr : (apply .reverseDirection g).2.raw = { g.raw with eDict := Ord.swapE g.raw.eDict } := by
    rw [reverse_raw hg]
  obtain ⟨e1, e2, e3, e4, e5, e6, _, _⟩ := Ord.swap_reads (c := .di) (c' := .di) (r := g.raw)
    (r' := (apply .reverseDirection g).2.raw)
    (by rw [hr]; exact lst_reverse) (by rw [hr]; rfl) (by rw [hr]; rfl) (fits hg)
  constructor
  · rw [hg.ask, hg'.ask]
    simp only [evAsk, evV2v, Ord.evToCols, Ord.evToRows, Ord.evPass, e1, e5]
  · rw [hg.ask, hg'.ask]
    simp only [evAsk, evV2v, Ord.evToCols, Ord.evToRows, Ord.evPass, e2, e6]

/-- C24. Other directions and other aggregations raise. -/
theorem C24_digraph_v2v_bad_arguments {w : Bool} {g : DSt K} (hg : Built AnyArg w g) (X : Dense K)
    (aggr : Aggr) (ew : Option (List K)) (dir : Dir) (p : K) (keep : Nat → Bool)
    (h : aggr = .other ∨ dir = .other) :
    (ask (.v2v X aggr ew dir p keep) g).1 = .error .assertion := by
  rw [hg.ask]
  rcases h with rfl | rfl
  · rfl
  · simp only [evAsk, evV2v]
    split <;> rfl

example : Built NonNeg false exD ∧ (ask .numV exD).1 = .ok (.num 3) ∧
    Spec.O.degOut (Spec.listingD exD) 1 ≠ 0 :=
  ⟨exD_nonneg, exD_numV, by rw [exD_listing]; norm_num [Spec.O.degOut]⟩

/-! ## C13, C14 -/

/-- the sender of the `k`-th edge for a direction, and its receiver -/
def Di.Ends (g : DSt K) (dir : Dir) (send recv : List Nat) : Prop :=
  match dir with
  | .dst2src => (ask .eDst g).1 = .ok (.idx send) ∧ (ask .eSrc g).1 = .ok (.idx recv)
  | .src2dst => (ask .eSrc g).1 = .ok (.idx send) ∧ (ask .eDst g).1 = .ok (.idx recv)
  | .other => False

theorem Di.Ends.spec {w : Bool} {g : DSt K} (hg : Built NonNeg w g) {dir : Dir} {send recv : List Nat}
    (h : Ends g dir send recv) : ∃ (A : Sp K) (tr : Bool), Ord.evM .di g.raw = .ok A ∧
      Ord.IsM g.raw.numV g.raw.numV (lst g.raw) A ∧ dir = (if tr then .src2dst else .dst2src) ∧
      recv = (if tr then A.ents.map (fun e => e.1.2) else A.ents.map (fun e => e.1.1)) ∧
      send = (if tr then A.ents.map (fun e => e.1.1) else A.ents.map (fun e => e.1.2)) := by
  obtain ⟨A, hA, hM⟩ := Ord.evM_spec (fits hg)
  cases dir with
  | dst2src =>
    obtain ⟨h1, h2⟩ := h
    rw [hg.ask] at h1 h2
    simp only [evAsk, hA] at h1 h2
    cases h1; cases h2
    exact ⟨A, false, hA, hM, rfl, rfl, rfl⟩
  | src2dst =>
    obtain ⟨h1, h2⟩ := h
    rw [hg.ask] at h1 h2
    simp only [evAsk, hA] at h1 h2
    cases h1; cases h2
    exact ⟨A, true, hA, hM, rfl, rfl, rfl⟩
  | other => exact h.elim

/-- C24/C13. With explicit weights, `sum` is the weighted sum of the incoming messages and `mean`
is that sum MULTIPLIED by the total incoming weight, in either direction. -/
theorem C13_digraph_explicit_weights {b : Bool} {g : DSt K} (hg : Built NonNeg b g) {n : Nat}
    (hn : (ask .numV g).1 = .ok (.num n)) {dir : Dir} {send recv : List Nat}
    (he : Ends g dir send recv) (w : List K)
    (hw : w.length = recv.length) (X : Dense K) (hX : X.rows = n) (keep : Nat → Bool) :
    (∃ Y, (ask (.v2v X .sum (some w) dir 0 keep) g).1 = .ok (.feat Y) ∧
      ∀ i c, i < n → Y.at_ i c = Spec.incoming send recv w (fun j => X.at_ j c) i) ∧
    (∃ Y, (ask (.v2v X .mean (some w) dir 0 keep) g).1 = .ok (.feat Y) ∧
      ∀ i c, i < n → Y.at_ i c = Spec.incoming send recv w (fun _ => 1) i *
        Spec.incoming send recv w (fun j => X.at_ j c) i) := by
  obtain ⟨A, tr, hA, hM, rfl, rfl, rfl⟩ := he.spec hg
  have hn' := numV_eq hg.any hn
  subst hn'
  have hw' : w.length = A.ents.length := by rw [hw]; cases tr <;> simp
  obtain ⟨⟨Y, hY, h1⟩, ⟨Z, hZ, h2⟩⟩ := Ord.passW_spec (c := .di) hA hM tr w hw' X (by cases tr <;> exact hX) keep
  constructor
  · refine ⟨Y, ?_, ?_⟩
    · rw [hg.ask]
      cases tr <;> simp only [evAsk, evV2v, reduceCtorEq, if_false, Ord.evToRows, Ord.evToCols, hY, if_true, Bool.false_eq_true] <;> rfl
    · intro i c _; rw [h1]; cases tr <;> rfl
  · refine ⟨Z, ?_, ?_⟩
    · rw [hg.ask]
      cases tr <;> simp only [evAsk, evV2v, reduceCtorEq, if_false, Ord.evToRows, Ord.evToCols, hZ, if_true, Bool.false_eq_true] <;> rfl
    · intro i c hi; rw [h2 i c (by cases tr <;> exact hi)]; cases tr <;> rfl

/-- C13 (DiGraph), partial: the weighted mean is the weighted average at receivers whose incoming
weights add up to 1. Missing: other totals, see `C13_digraph_weighted_mean_false`. -/
theorem C13_digraph_weighted_mean_partial {b : Bool} {g : DSt K} (hg : Built NonNeg b g) {n : Nat}
    (hn : (ask .numV g).1 = .ok (.num n)) {dir : Dir} {send recv : List Nat}
    (he : Ends g dir send recv) (w : List K)
    (hw : w.length = recv.length) (X : Dense K) (hX : X.rows = n) (keep : Nat → Bool) {Y : Dense K}
    (hY : (ask (.v2v X .mean (some w) dir 0 keep) g).1 = .ok (.feat Y)) (i c : Nat) (hi : i < n)
    (h1 : Spec.incoming send recv w (fun _ => 1) i = 1) :
    Y.at_ i c = Spec.incoming send recv w (fun j => X.at_ j c) i /
      Spec.incoming send recv w (fun _ => 1) i := by
  obtain ⟨Z, hZ, h⟩ := (C13_digraph_explicit_weights hg hn he w hw X hX keep).2
  rw [hY] at hZ; cases hZ
  rw [h i c hi, h1, div_one, one_mul]

/-- one edge 0 → 1 -/
noncomputable def exD1 : DSt ℝ :=
  { raw := { numV := 2, eDict := [((0, 1), 1)], loops := [], extra := false }, cache := [] }

theorem exD1_nonneg : Built NonNeg false exD1 :=
  .new (n := 2) (arg := some (.many [(0, 1)] .none)) (extra := false) (op := .mean) rfl
    (by intro a ha; cases ha; simp [NonNeg])

theorem exD1_ends : Ends exD1 .dst2src [1] [0] := by
  constructor
  · rw [exD1_nonneg.ask]; rfl
  · rw [exD1_nonneg.ask]; rfl

/-- C13 (DiGraph) is false: on one edge with weight 2, the weighted mean of constant features 1 is
4. -/
theorem C13_digraph_weighted_mean_false :
    ¬ ∀ (g : DSt ℝ) (b : Bool), Built NonNeg b g → ∀ n, (ask .numV g).1 = .ok (.num n) → ∀ dir send recv,
      Ends g dir send recv → ∀ (w : List ℝ), w.length = recv.length → (∀ x ∈ w, 0 < x) →
      ∀ (X Y : Dense ℝ), X.rows = n → ∀ keep,
      (ask (.v2v X .mean (some w) dir 0 keep) g).1 = .ok (.feat Y) → ∀ i c, i < n →
      Y.at_ i c * Spec.incoming send recv w (fun _ => 1) i =
        Spec.incoming send recv w (fun j => X.at_ j c) i := by
  intro h
  have hX : ({ rows := 2, cols := 1, at_ := fun _ _ => 1 } : Dense ℝ).rows = 2 := rfl
  obtain ⟨Y, hY, hv⟩ := (C13_digraph_explicit_weights exD1_nonneg (n := 2) rfl exD1_ends [2] rfl
    { rows := 2, cols := 1, at_ := fun _ _ => 1 } hX fun _ => true).2
  have := h exD1 false exD1_nonneg 2 rfl _ _ _ exD1_ends [2] rfl (by simp)
    { rows := 2, cols := 1, at_ := fun _ _ => 1 } Y hX (fun _ => true) hY 0 0 (by omega)
  rw [hv 0 0 (by omega)] at this
  norm_num [Spec.incoming] at this

/-- C14 (DiGraph). `softmax_then_sum` with explicit weights: coefficients are positive,
proportional to `exp w[k]` among the messages of the same receiver, and add up to 1 there. -/
theorem C14_digraph_softmax [IsStrictOrderedRing K] {b : Bool} {g : DSt K} (hg : Built NonNeg b g)
    {n : Nat} (hn : (ask .numV g).1 = .ok (.num n)) {dir : Dir} {send recv : List Nat}
    (he : Ends g dir send recv) (w : List K)
    (hw : w.length = recv.length) (X : Dense K) (hX : X.rows = n) (keep : Nat → Bool) :
    ∃ (Y : Dense K) (coef : List K) (z : Nat → K),
      (ask (.v2v X .softmax (some w) dir 0 keep) g).1 = .ok (.feat Y) ∧
      coef.length = recv.length ∧
      (∀ i c, Y.at_ i c = Spec.incoming send recv coef (fun j => X.at_ j c) i) ∧
      (∀ i, i ∈ recv → 0 < z i) ∧
      (∀ k (h1 : k < coef.length) (h2 : k < w.length) (h3 : k < recv.length),
        coef[k] * z recv[k] = PyReal.exp w[k] ∧ 0 < coef[k]) ∧
      (∀ i, i ∈ recv → Spec.incoming send recv coef (fun _ => 1) i = 1) := by
  obtain ⟨A, tr, hA, hM, rfl, rfl, rfl⟩ := he.spec hg
  have hn' := numV_eq hg.any hn
  subst hn'
  have hw' : w.length = A.ents.length := by rw [hw]; cases tr <;> simp
  obtain ⟨Y, coef, z, hY, h⟩ := Ord.passW_softmax_coef (c := .di) hA hM tr w hw' X (by cases tr <;> exact hX) keep
  refine ⟨Y, coef, z, ?_, h⟩
  rw [hg.ask]
  cases tr <;> simp only [evAsk, evV2v, reduceCtorEq, if_false, Ord.evToRows, Ord.evToCols, hY, if_true, Bool.false_eq_true] <;> rfl

/-- C14 (DiGraph). Without explicit weights the stored weights are used: the receiver `i` combines
its senders with positive coefficients `exp A[i,j] / z i` (`dst2src`) adding up to 1. -/
theorem C14_digraph_softmax_default [IsStrictOrderedRing K] {b : Bool} {g : DSt K}
    (hg : Built NonNeg b g) {n : Nat} (hn : (ask .numV g).1 = .ok (.num n)) {dir : Dir}
    {send recv : List Nat} {ws : List K}
    (he : Ends g dir send recv) (hws : (ask .eWeight g).1 = .ok (.vec ws)) (X : Dense K) (hX : X.rows = n)
    (keep : Nat → Bool) :
    ∃ (Y : Dense K) (z : Nat → K),
      (ask (.v2v X .softmax none dir 0 keep) g).1 = .ok (.feat Y) ∧
      (∀ i, i ∈ recv → 0 < z i) ∧
      (∀ i c, i ∈ recv → Y.at_ i c * z i = Spec.incoming send recv (ws.map PyReal.exp) (fun j => X.at_ j c) i) ∧
      (∀ i, i ∈ recv → z i = Spec.incoming send recv (ws.map PyReal.exp) (fun _ => 1) i) := by
  obtain ⟨A, tr, hA, hM, rfl, rfl, rfl⟩ := he.spec hg
  have hn' := numV_eq hg.any hn
  subst hn'
  rw [hg.ask] at hws
  simp only [evAsk, hA, Except.map] at hws
  have hws' : ws = A.ents.map Prod.snd := by
    injection hws with h; injection h with h; exact h.symm
  subst hws'
  obtain ⟨Y, z, hY, h⟩ := Ord.softmax_default (c := .di) hA hM tr X (by cases tr <;> exact hX) keep
  refine ⟨Y, z, ?_, h⟩
  rw [hg.ask]
  cases tr <;> simp only [evAsk, evV2v, reduceCtorEq, if_false, Ord.evToRows, Ord.evToCols, hY, if_true, Bool.false_eq_true] <;>
    first | (simp only [if_true, Bool.false_eq_true, if_false] at hY; rw [hY]; rfl) | rfl

example : Built NonNeg false exD1 ∧ Ends exD1 .dst2src [1] [0] ∧
    Spec.incoming [1] [0] [(1 : ℝ)] (fun _ => 1) 0 = 1 :=
  ⟨exD1_nonneg, exD1_ends, by norm_num [Spec.incoming]⟩

/-! ## C20 -/

/-- C20 (DiGraph) is false: `add_edges` accepts a negative vertex id, after which reading `A`
raises. -/
theorem C20_digraph_in_range_false :
    ∃ g : DSt ℝ, DiGraph.new 3 (some (.many [(-1, 0)] .none)) false .mean = .ok g ∧
      (∃ e ∈ Spec.listingD g, e.1.1 < 0) ∧ (ask .A g).1 = .error .runtime := by
  refine ⟨_, rfl, ?_, ?_⟩
  · exact ⟨((-1, 0), 1), List.mem_singleton.2 rfl, by norm_num⟩
  · rfl

/-- C20 (DiGraph), partial: if no negative id was ever passed, every listed endpoint is a vertex and
every matrix read succeeds. Missing: negative ids. -/
theorem C20_digraph_in_range_partial {w : Bool} {g : DSt K} (hg : Built NonNeg w g) {n : Nat}
    (hn : (ask .numV g).1 = .ok (.num n)) :
    (∀ e ∈ Spec.listingD g, 0 ≤ e.1.1 ∧ e.1.1 < (n : Int) ∧ 0 ≤ e.1.2 ∧ e.1.2 < (n : Int)) ∧
    (∀ q ∈ [DQuery.A, .AT, .DvOut, .DvIn, .DvOutN1, .DvInN1, .degOut, .degIn, .eSrc, .eDst, .eWeight],
      ∃ a, (ask q g).1 = .ok a) := by
  refine ⟨Di.In hg hn, ?_⟩
  obtain ⟨A, hA, _⟩ := Ord.evM_spec (fits hg)
  obtain ⟨AT, hAT, _⟩ := Ord.evMT_spec (fits hg)
  intro q hq
  rw [hg.ask]
  simp only [List.mem_cons, List.not_mem_nil, or_false] at hq
  rcases hq with rfl | rfl | rfl | rfl | rfl | rfl | rfl | rfl | rfl | rfl | rfl <;>
    simp only [evAsk, hA, hAT, Ord.evDr_spec (fits hg), Ord.evDc_spec (fits hg),
      Ord.evDrN1_spec (fits hg), Ord.evDcN1_spec (fits hg)] <;> exact ⟨_, rfl⟩

end Props
end DHG
