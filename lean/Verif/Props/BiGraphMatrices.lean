import Verif.BiMat
import Verif.Props.BiGraphEdges

/-!
# Properties of `BiGraph`: matrices, degrees, neighbours, switching sides, message passing

Hypothesis `hx`: every pair listed by `e` is a left and a right vertex.  This is exactly when `B` can be
read, and only fails when the extra self loop flag is set and `num_u < num_v` (`C25_bigraph_readable`): then
the flag lists pairs `(v,v)` that are not in the shape of `B`, see `C25_bigraph_flag_false`.
-/

set_option linter.unusedSectionVars false
set_option autoImplicit false

namespace DHG

namespace Spec
variable {K : Type} [Field K] [LinearOrder K] [PyReal K]

/-- every pair listed by `e` consists of one of `m` left and one of `n` right vertices -/
def Bipartite (m n : Nat) (g : BSt K) : Prop := ∀ e ∈ listingB g, e.1.1 < (m : Int) ∧ e.1.2 < (n : Int)

end Spec

namespace Props

open BiGraph Finset
open Graph (AnyArg NonNeg lst)

variable {K : Type} [Field K] [LinearOrder K] [PyReal K]

namespace Bi

theorem listing_lst {P : EArg K → Prop} {g : BSt K} (hg : Built P g) :
    Spec.listingB g = lst g.raw := listing_eq hg.coh

theorem bipartite_of_flag {g : BSt K} (hg : Built NonNeg g) (hx : g.raw.extra = false ∨ g.raw.numV ≤ g.raw.numU) :
    Spec.Bipartite g.raw.numU g.raw.numV g := by
  intro e he
  rw [listing_lst hg] at he
  have := Ord.fits_bi hg.inv hg.pos hx e he
  exact ⟨this.2.1, this.2.2.2⟩

theorem flag_of_bipartite {g : BSt K} (hg : Built NonNeg g) (hx : Spec.Bipartite g.raw.numU g.raw.numV g) :
    g.raw.extra = false ∨ g.raw.numV ≤ g.raw.numU := by
  by_contra hc
  rw [not_or, Bool.not_eq_false, not_le] at hc
  have hm : (((g.raw.numU : Int), (g.raw.numU : Int)), (1 : K)) ∈ Spec.listingB g := by
    rw [listing_lst hg]
    unfold lst
    rw [Graph.zip_listing, if_pos hc.1]
    exact List.mem_append_right _ (List.mem_map.2 ⟨_, List.mem_range.2 hc.2, rfl⟩)
  exact absurd (hx _ hm).1 (lt_irrefl _)

theorem fits {g : BSt K} (hg : Built NonNeg g) (hx : Spec.Bipartite g.raw.numU g.raw.numV g) :
    Ord.Fits .bi g.raw := Ord.fits_bi hg.inv hg.pos (flag_of_bipartite hg hx)

theorem bipartite_of_evM {g : BSt K} (hg : Built NonNeg g) {B : Sp K} (hB : Ord.evM .bi g.raw = .ok B) :
    Spec.Bipartite g.raw.numU g.raw.numV g := by
  intro e he
  rw [listing_lst hg] at he
  unfold Ord.evM at hB
  by_cases h0 : g.raw.numE = 0
  · have hl : lst g.raw = [] := by
      have : (lst g.raw).length = 0 := by
        unfold lst; rw [List.length_zip, Graph.edgeList_length, Graph.edgeWts_length, h0]; rfl
      exact List.length_eq_zero_iff.1 this
    rw [hl] at he; cases he
  · rw [if_neg h0, Sp.build_eq] at hB
    split at hB
    · next hb =>
      have hfst : e.1 ∈ g.raw.edgeList := by
        unfold lst at he
        exact (List.of_mem_zip (a := e.1) (b := e.2) he).1
      have := hb.2 _ hfst
      exact ⟨this.2.1, this.2.2.2⟩
    · cases hB

theorem bipartite_of_B {g : BSt K} (hg : Built NonNeg g) {B : Sp K} (hB : (ask .B g).1 = .ok (.mat B)) :
    Spec.Bipartite g.raw.numU g.raw.numV g := by
  rw [hg.ask] at hB
  simp only [evAsk] at hB
  cases he : Ord.evM .bi g.raw with
  | error e => rw [he] at hB; cases hB
  | ok C => exact bipartite_of_evM hg he

theorem bipartite_of_evA {g : BSt K} (hg : Built NonNeg g) {A : Sp K} (hA : Ord.evA g.raw = .ok A) :
    Spec.Bipartite g.raw.numU g.raw.numV g := by
  unfold Ord.evA at hA
  cases he : Ord.evM .bi g.raw with
  | error e => rw [he] at hA; cases hA
  | ok C => exact bipartite_of_evM hg he

theorem bipartite_of_A {g : BSt K} (hg : Built NonNeg g) {A : Sp K} (hA : (ask .A g).1 = .ok (.mat A)) :
    Spec.Bipartite g.raw.numU g.raw.numV g := by
  rw [hg.ask] at hA
  simp only [evAsk] at hA
  cases he : Ord.evA g.raw with
  | error e => rw [he] at hA; cases hA
  | ok C => exact bipartite_of_evA hg he

theorem bipartite_of_LGCN {g : BSt K} (hg : Built NonNeg g) {L : Sp K} (hL : (ask .LGCN g).1 = .ok (.mat L)) :
    Spec.Bipartite g.raw.numU g.raw.numV g := by
  rw [hg.ask] at hL
  simp only [evAsk, Ord.evLGCN] at hL
  cases he : Ord.evA g.raw with
  | error e => rw [he] at hL; cases hL
  | ok C => exact bipartite_of_evA hg he

end Bi
open Bi

theorem exB_listing : Spec.listingB exB = [((1, 0), 2), ((0, 2), 3), ((1, 1), 5)] := rfl
theorem exB_numV : (ask .numV exB).1 = .ok (.num 3) := rfl
theorem exB_numU : (ask .numU exB).1 = .ok (.num 2) := rfl
theorem exB_flag : Spec.Bipartite 2 3 exB := by
  intro e he
  rw [exB_listing] at he
  simp only [List.mem_cons, List.not_mem_nil, or_false] at he
  rcases he with rfl | rfl | rfl <;> decide
theorem exB_nonnegWeights : Spec.NonnegWeights (Spec.listingB exB) := by
  rw [exB_listing]; intro e he; simp at he; rcases he with rfl | rfl | rfl <;> norm_num

section
variable {g : BSt K} {m n : Nat}

/-! ## C25 -/

/-- C25. `B` can be read exactly when every pair listed by `e` consists of a left and a right vertex, and this
is so unless the extra self loop flag is set and there are more right than left vertices; otherwise reading
raises. -/
theorem C25_bigraph_readable (hg : Built NonNeg g) (hm : (ask .numU g).1 = .ok (.num m))
    (hn : (ask .numV g).1 = .ok (.num n)) :
    ((∃ B, (ask .B g).1 = .ok (.mat B)) ↔ Spec.Bipartite m n g) ∧
    (Spec.Bipartite m n g ↔ g.raw.extra = false ∨ n ≤ m) ∧
    (¬ Spec.Bipartite m n g → (ask .B g).1 = .error .runtime) := by
  have hn' := numV_eq hn
  have hm' := numU_eq hm
  subst hn' hm'
  have h1 : (∃ B, (ask .B g).1 = .ok (.mat B)) ↔ Spec.Bipartite g.raw.numU g.raw.numV g := by
    refine ⟨fun ⟨B, hB⟩ => bipartite_of_B hg hB, fun hx => ?_⟩
    obtain ⟨B, hB, _⟩ := Ord.evM_spec (fits hg hx)
    exact ⟨B, by rw [hg.ask]; simp only [evAsk, hB]; rfl⟩
  refine ⟨h1, ⟨flag_of_bipartite hg, bipartite_of_flag hg⟩, fun hx => ?_⟩
  rw [hg.ask]
  simp only [evAsk]
  cases he : Ord.evM .bi g.raw with
  | ok C => exact absurd (bipartite_of_evM hg he) hx
  | error e =>
    unfold Ord.evM at he
    split at he
    · cases he
    · rw [Sp.build_eq] at he
      split at he
      · cases he
      · cases he; rfl

/-- C25. `B` is `num_u × num_v` with the listed weight of `(u,v)` at `[u,v]`, `B_T` its transpose;
without the flag the entry is the weight of the edge, and 0 when there is none. -/
theorem C25_bigraph_incidence (hg : Built NonNeg g) (hm : (ask .numU g).1 = .ok (.num m))
    (hn : (ask .numV g).1 = .ok (.num n)) (hx : Spec.Bipartite m n g) :
    ∃ B BT, (ask .B g).1 = .ok (.mat B) ∧ (ask .BT g).1 = .ok (.mat BT) ∧
      Spec.IsMat m n (fun i j => Spec.O.wt (Spec.listingB g) i j) B ∧
      Spec.IsMat n m (fun i j => B.get j i) BT ∧
      (∀ (i j : Nat) x, (i ≠ j ∨ g.raw.extra = false) →
        (((i : Int), (j : Int)), x) ∈ Spec.listingB g → B.get i j = x) ∧
      (∀ i j : Nat, (∀ x, (((i : Int), (j : Int)), x) ∉ Spec.listingB g) → B.get i j = 0) := by
  have hn' := numV_eq hn
  have hm' := numU_eq hm
  subst hn' hm'
  obtain ⟨A, hA, h⟩ := Ord.evM_spec (fits hg hx)
  obtain ⟨AT, hAT, h'⟩ := Ord.evMT_spec (fits hg hx)
  rw [listing_lst hg]
  refine ⟨A, AT, ?_, ?_, ⟨h.rows, h.cols, h.wf, fun i j _ _ => h.get i j⟩,
    ⟨h'.rows, h'.cols, h'.wf, fun i j _ _ => ?_⟩, ?_, ?_⟩
  · rw [hg.ask]; simp only [evAsk, hA]; rfl
  · rw [hg.ask]; simp only [evAsk, hAT]; rfl
  · rw [h'.get, h.get, Ord.wt_sw]
  · intro i j x hx hm
    rw [h.get]
    refine Ord.wt_absO hg.inv ?_ x hm
    rcases hx with hx | hx
    · left; omega
    · right; left; exact hx
  · intro i j hx
    rw [h.get]
    exact Ord.wt_eq_zero hx

/-- C25. `A` is the symmetric square matrix of size `num_u + num_v` with `B` and `B_T` as
off-diagonal blocks and zero diagonal blocks. -/
theorem C25_bigraph_A_blocks (hg : Built NonNeg g) (hm : (ask .numU g).1 = .ok (.num m))
    (hn : (ask .numV g).1 = .ok (.num n)) (hx : Spec.Bipartite m n g) {B : Sp K}
    (hB : (ask .B g).1 = .ok (.mat B)) :
    ∃ A, (ask .A g).1 = .ok (.mat A) ∧ A.rows = m + n ∧ A.cols = m + n ∧
      (∀ u v, u < m → v < n → A.get u (m + v) = B.get u v ∧ A.get (m + v) u = B.get u v) ∧
      (∀ u u', u < m → u' < m → A.get u u' = 0) ∧
      (∀ v v', v < n → v' < n → A.get (m + v) (m + v') = 0) ∧
      (∀ i j, i < m + n → j < m + n → A.get i j = A.get j i) := by
  have hn' := numV_eq hn
  have hm' := numU_eq hm
  subst hn' hm'
  obtain ⟨B', hB', h⟩ := Ord.evM_spec (fits hg hx)
  obtain ⟨A, hA, h'⟩ := Ord.evA_spec (fits hg hx)
  rw [hg.ask] at hB
  simp only [evAsk, hB'] at hB
  cases hB
  refine ⟨A, ?_, h'.rows, h'.cols, ?_, ?_, ?_, ?_⟩
  · rw [hg.ask]; simp only [evAsk, hA]; rfl
  · intro u v hu hv
    rw [h'.get _ _ (by omega) (by omega), h'.get _ _ (by omega) (by omega), h.get]
    unfold Ord.block
    rw [if_pos (by omega), if_neg (by omega), if_pos (by omega)]
    simp
  · intro u u' hu hu'
    rw [h'.get _ _ (by omega) (by omega)]
    unfold Ord.block
    rw [if_neg (by omega), if_neg (by omega)]
  · intro u u' hu hu'
    rw [h'.get _ _ (by omega) (by omega)]
    unfold Ord.block
    rw [if_neg (by omega), if_neg (by omega)]
  · intro i j hi hj
    rw [h'.get _ _ hi hj, h'.get _ _ hj hi]
    unfold Ord.block
    by_cases h1 : i < g.raw.numU ∧ g.raw.numU ≤ j
    · rw [if_pos h1, if_neg (by omega), if_pos (by omega)]
    · rw [if_neg h1]
      by_cases h2 : g.raw.numU ≤ i ∧ j < g.raw.numU
      · rw [if_pos h2, if_pos (by omega)]
      · rw [if_neg h2, if_neg (by omega), if_neg (by omega)]

/-- C25. `deg_u`, `deg_v` are the row and column sums of `B` and have equal totals; `D_u`, `D_v` are
the corresponding diagonal matrices. -/
theorem C25_bigraph_degrees (hg : Built NonNeg g) (hm : (ask .numU g).1 = .ok (.num m))
    (hn : (ask .numV g).1 = .ok (.num n)) (hx : Spec.Bipartite m n g) :
    ∃ B du dv Du Dv, (ask .B g).1 = .ok (.mat B) ∧
      (ask .degU g).1 = .ok (.vec ((List.range m).map du)) ∧
      (ask .degV g).1 = .ok (.vec ((List.range n).map dv)) ∧
      (∀ i : Nat, du i = ∑ j ∈ range n, B.get i j) ∧ (∀ j : Nat, dv j = ∑ i ∈ range m, B.get i j) ∧
      (∑ i ∈ range m, du i = ∑ j ∈ range n, dv j) ∧
      (∑ i ∈ range m, du i = ((Spec.listingB g).map Prod.snd).sum) ∧
      (ask .Du g).1 = .ok (.mat Du) ∧ (ask .Dv g).1 = .ok (.mat Dv) ∧
      Spec.IsMat m m (fun i j => if i = j then du i else 0) Du ∧
      Spec.IsMat n n (fun i j => if i = j then dv i else 0) Dv := by
  have hn' := numV_eq hn
  have hm' := numU_eq hm
  subst hn' hm'
  have hf := fits hg hx
  obtain ⟨A, hA, h⟩ := Ord.evM_spec hf
  have hI : Ord.In g.raw.numU g.raw.numV (lst g.raw) := hf
  rw [listing_lst hg]
  refine ⟨A, fun i => Spec.O.degOut (lst g.raw) i, fun i => Spec.O.degIn (lst g.raw) i,
    Sp.diag ((List.range g.raw.numU).map fun i : Nat => Spec.O.degOut (lst g.raw) i),
    Sp.diag ((List.range g.raw.numV).map fun i : Nat => Spec.O.degIn (lst g.raw) i), ?_, ?_, ?_,
    ?_, ?_, ?_, Ord.sum_degOut hI, ?_, ?_, ?_, ?_⟩
  · rw [hg.ask]; simp only [evAsk, hA]; rfl
  · rw [hg.ask]; simp only [evAsk, Ord.evDr_spec hf, Except.map, Ord.diag_vals]; rfl
  · rw [hg.ask]; simp only [evAsk, Ord.evDc_spec hf, Except.map, Ord.diag_vals]
  · intro i; simp only [h.get]; exact (Ord.sum_wt hI i).symm
  · intro i; simp only [h.get]; exact (Ord.sum_wt' hI i).symm
  · rw [Ord.sum_degOut hI, Ord.sum_degIn hI]
  · rw [hg.ask]; simp only [evAsk, Ord.evDr_spec hf]; rfl
  · rw [hg.ask]; simp only [evAsk, Ord.evDc_spec hf]; rfl
  · refine ⟨by simp [Sp.diag_rows], by simp [Sp.diag_cols], Sp.diag_WF _, ?_⟩
    intro i j hi hj
    rw [Sp.diag_range_get]
    by_cases hij : i = j
    · simp [hij, hj]
    · simp [hij]
  · refine ⟨by simp [Sp.diag_rows], by simp [Sp.diag_cols], Sp.diag_WF _, ?_⟩
    intro i j hi hj
    rw [Sp.diag_range_get]
    by_cases hij : i = j
    · simp [hij, hj]
    · simp [hij]

/-- C25. `nbr_v(u)` lists in increasing order exactly the right ends of edges at `u`, and
`nbr_u(v)` the left ends of edges at `v`; so `v ∈ nbr_v(u)` iff `u ∈ nbr_u(v)`. -/
theorem C25_bigraph_neighbours (hg : Built NonNeg g) (hm : (ask .numU g).1 = .ok (.num m))
    (hn : (ask .numV g).1 = .ok (.num n)) (hx : Spec.Bipartite m n g)
    {u v : Nat} (hu : u < m) (hv : v < n) :
    ∃ lv lu, (ask (.Nv u) g).1 = .ok (.idx lv) ∧ (ask (.Nu v) g).1 = .ok (.idx lu) ∧
      lv.Pairwise (· < ·) ∧ lu.Pairwise (· < ·) ∧
      (v ∈ lv ↔ ∃ x, (((u : Int), (v : Int)), x) ∈ Spec.listingB g) ∧
      (u ∈ lu ↔ v ∈ lv) := by
  have hn' := numV_eq hn
  have hm' := numU_eq hm
  subst hn' hm'
  rw [listing_lst hg]
  obtain ⟨lo, h1, h2, h3⟩ := Ord.nbr_row (c := .bi) (fits hg hx) (v := u) hu
  obtain ⟨li, h4, h5, h6⟩ := Ord.nbr_col (c := .bi) (fits hg hx) (v := v) hv
  refine ⟨lo, li, ?_, ?_, h2, h5, h3 v, ?_⟩
  · rw [hg.ask]; simp only [evAsk, h1]; rfl
  · rw [hg.ask]; simp only [evAsk, h4]; rfl
  · rw [h3, h6]

/-- C25. `e_u`, `e_v`, `e_weight` list every adjacent pair once with its entry of `B`. -/
theorem C25_bigraph_edge_vectors (hg : Built NonNeg g) (hm : (ask .numU g).1 = .ok (.num m))
    (hn : (ask .numV g).1 = .ok (.num n)) (hx : Spec.Bipartite m n g) :
    ∃ us vs ws, (ask .eU g).1 = .ok (.idx us) ∧ (ask .eV g).1 = .ok (.idx vs) ∧
      (ask .eWeight g).1 = .ok (.vec ws) ∧ us.length = vs.length ∧ ws.length = vs.length ∧
      (us.zip vs).Nodup ∧
      (∀ i j : Nat, (i, j) ∈ us.zip vs ↔ ∃ x, (((i : Int), (j : Int)), x) ∈ Spec.listingB g) ∧
      (∀ (i j : Nat) x, ((i, j), x) ∈ (us.zip vs).zip ws → x = Spec.O.wt (Spec.listingB g) i j) := by
  have hn' := numV_eq hn
  have hm' := numU_eq hm
  subst hn' hm'
  obtain ⟨A, hA, h⟩ := Ord.evM_spec (fits hg hx)
  rw [listing_lst hg]
  obtain ⟨h1, h2, h3⟩ := Ord.edge_vectors (fits hg hx) hA
  refine ⟨_, _, _, ?_, ?_, ?_, by simp, by simp, h1, h2, h3⟩
  · rw [hg.ask]; simp only [evAsk, hA]; rfl
  · rw [hg.ask]; simp only [evAsk, hA]; rfl
  · rw [hg.ask]; simp only [evAsk, hA]; rfl

end

/-- C25 is false with the extra self loop flag and more right than left vertices: `B` cannot be
built. -/
theorem C25_bigraph_flag_false :
    Any NonNeg (apply .addExtraSelfloop exB).2 ∧
      (ask .B (apply .addExtraSelfloop exB).2).1 = .error .runtime :=
  ⟨.op _ exB_nonneg.any (by intro _ _ h; cases h), rfl⟩

example : Built NonNeg exB ∧ (ask .numU exB).1 = .ok (.num 2) ∧ (ask .numV exB).1 = .ok (.num 3) ∧
    Spec.Bipartite 2 3 exB := ⟨exB_nonneg, exB_numU, exB_numV, exB_flag⟩

/-! ## C26 -/

theorem Bi.lst_switch {r : GRaw K} (h : Ord.Inv .bi r) (hx : r.extra = false) (u v : Nat) :
    lst ({ numU := u, numV := v, eDict := Ord.swapE r.eDict, loops := [], extra := false } : GRaw K) =
      Ord.sw (lst r) := by
  unfold Graph.lst Ord.sw
  rw [Graph.zip_listing, Graph.zip_listing, h.noL rfl, hx]
  simp
  rfl

/-- C26, partial. Without the self loop flag, `switch_uv()` exchanges `(a,b)` with `(b,a)`, and the
two sizes. Missing: flagged graphs (the flag is dropped) and a left side of size 0 for the second
switch. -/
theorem C26_bigraph_switch_edges_partial {g g' : BSt K} (hg : Built AnyArg g)
    (hx : g.raw.extra = false) (hs : switchUv g = .ok g') :
    (∀ (a b : Int) (x : K), ((b, a), x) ∈ Spec.listingB g' ↔ ((a, b), x) ∈ Spec.listingB g) ∧
    (ask .numU g').1 = (ask .numV g).1 ∧ (ask .numV g').1 = (ask .numU g).1 := by
  have hg' : Built AnyArg g' := .switch hg.any hs
  obtain ⟨e, hv⟩ := switch_ok hg.inv.nodupE hs
  refine ⟨?_, ?_, ?_⟩
  · intro a b x
    rw [listing_lst hg', listing_lst hg, e, lst_switch hg.inv hx]
    unfold Ord.sw
    constructor
    · intro h
      obtain ⟨e, he, h1⟩ := List.mem_map.1 h
      obtain ⟨⟨p, q⟩, y⟩ := e
      simp only [Prod.mk.injEq] at h1
      obtain ⟨⟨rfl, rfl⟩, rfl⟩ := h1
      exact he
    · intro h; exact List.mem_map.2 ⟨_, h, rfl⟩
  · rw [hg'.ask, hg.ask, e]; rfl
  · rw [hg'.ask, hg.ask, e]; rfl

/-- C26, partial. Without the self loop flag, `B` of the switched graph is `B_T` of the original and
conversely, and degrees, degree matrices, their inverses and neighbour queries are exchanged.
Missing: graphs with the flag set, which `switch_uv` does not carry over (`C26_bigraph_switch_false`). -/
theorem C26_bigraph_switch_reads_partial {g g' : BSt K} (hg : Built NonNeg g)
    (hx : g.raw.extra = false) (hs : switchUv g = .ok g') :
    (ask .B g').1 = (ask .BT g).1 ∧ (ask .BT g').1 = (ask .B g).1 ∧
    (ask .degU g').1 = (ask .degV g).1 ∧ (ask .degV g').1 = (ask .degU g).1 ∧
    (ask .Du g').1 = (ask .Dv g).1 ∧ (ask .Dv g').1 = (ask .Du g).1 ∧
    (ask .DuN1 g').1 = (ask .DvN1 g).1 ∧ (ask .DvN1 g').1 = (ask .DuN1 g).1 ∧
    (∀ v, (ask (.Nv v) g').1 = (ask (.Nu v) g).1) ∧ (∀ v, (ask (.Nu v) g').1 = (ask (.Nv v) g).1) := by
  have hg' : Built NonNeg g' := .switch hg.any hs
  obtain ⟨e, hv⟩ := switch_ok hg.inv.nodupE hs
  obtain ⟨e1, e2, e3, e4, e5, e6, e7, e8⟩ := Ord.swap_reads (c := .bi) (c' := .bi) (r := g.raw) (r' := g'.raw)
    (by rw [e]; exact lst_switch hg.inv hx _ _) (by rw [e]; rfl) (by rw [e]; rfl) (fits hg (bipartite_of_flag hg (.inl hx)))
  refine ⟨?_, ?_, ?_, ?_, ?_, ?_, ?_, ?_, ?_, ?_⟩
  all_goals first | (rw [hg.ask, hg'.ask]; simp only [evAsk, e1, e2, e3, e4, e5, e6]) | skip
  · intro v; rw [hg.ask, hg'.ask]; simp only [evAsk, e7]
  · intro v; rw [hg.ask, hg'.ask]; simp only [evAsk, e8]

/-- C26, partial. Without the self loop flag and with both sides nonempty, switching twice succeeds
and gives back all reads of the original, now and after any later calls.  Missing: graphs with the flag
set and graphs with an empty left side (`C26_bigraph_switch_twice_false`). -/
theorem C26_bigraph_switch_twice_partial {g : BSt K} (hg : Built AnyArg g)
    (hx : g.raw.extra = false) (hu : 0 < g.raw.numU) (hv : 0 < g.raw.numV) :
    ∃ g' g'', switchUv g = .ok g' ∧ switchUv g' = .ok g'' ∧ Spec.IndistB g'' g := by
  have h1 := switch_of_pos hg.inv.nodupE hv
  have h2 := switch_of_pos (switch_inv hg.inv h1).1.nodupE hu
  refine ⟨_, _, h1, h2, ?_⟩
  refine indist_of_raw (coherent_of_nil rfl) hg.coh ?_
  simp only [Ord.swapE_swapE]
  exact strip_eq hg.inv hx

/-- C26 is false with the self loop flag: the switched graph has lost it, and shows fewer edges. -/
theorem C26_bigraph_switch_false :
    ∃ g', switchUv (apply .addExtraSelfloop exB).2 = .ok g' ∧
      (ask .numE (apply .addExtraSelfloop exB).2).1 = .ok (.num 6) ∧ (ask .numE g').1 = .ok (.num 3) :=
  ⟨_, rfl, rfl, rfl⟩

/-- C26 is false for an empty left side: the switched graph cannot be switched back. -/
theorem C26_bigraph_switch_twice_false :
    ∃ g g' : BSt ℝ, BiGraph.new 0 2 none .mean = .ok g ∧ switchUv g = .ok g' ∧
      switchUv g' = .error .assertion := ⟨_, _, rfl, rfl, rfl⟩

example : ∃ g' g'', switchUv exB = .ok g' ∧ switchUv g' = .ok g'' := ⟨_, _, rfl, rfl⟩

/-! ## C27 -/

section
variable {g : BSt K} {m n : Nat}

/-- C27. `u2v(X, "sum")` is `B^T X` and `v2u(Y, "sum")` is `B Y`. -/
theorem C27_bigraph_sum (hg : Built NonNeg g) (hm : (ask .numU g).1 = .ok (.num m))
    (hn : (ask .numV g).1 = .ok (.num n)) (hx : Spec.Bipartite m n g)
    (X Y : Dense K) (hX : X.rows = m) (hY : Y.rows = n) (keep : Nat → Bool) :
    ∃ B P Q, (ask .B g).1 = .ok (.mat B) ∧
      (ask (.u2v X .sum none 0 keep) g).1 = .ok (.feat P) ∧ P.rows = n ∧ P.cols = X.cols ∧
      (∀ v c, P.at_ v c = ∑ u ∈ range m, B.get u v * X.at_ u c) ∧
      (ask (.v2u Y .sum none 0 keep) g).1 = .ok (.feat Q) ∧ Q.rows = m ∧ Q.cols = Y.cols ∧
      (∀ u c, Q.at_ u c = ∑ v ∈ range n, B.get u v * Y.at_ v c) := by
  have hn' := numV_eq hn
  have hm' := numU_eq hm
  subst hn' hm'
  obtain ⟨B, hB, h⟩ := Ord.evM_spec (fits hg hx)
  obtain ⟨BT, hBT, h'⟩ := Ord.evMT_spec (fits hg hx)
  obtain ⟨P, hP, p1, p2, p3⟩ := Ord.pass_sum (evD := Ord.evDcN1 .bi) hBT h' X hX keep
  obtain ⟨Q, hQ, q1, q2, q3⟩ := Ord.pass_sum (evD := Ord.evDrN1 .bi) hB h Y hY keep
  refine ⟨B, P, Q, ?_, ?_, p1, p2, ?_, ?_, q1, q2, ?_⟩
  · rw [hg.ask]; simp only [evAsk, hB]; rfl
  · rw [hg.ask]
    simp only [evAsk, evU2v, reduceCtorEq, if_false, Ord.evToCols, hP]
    rfl
  · intro i c; rw [p3]; exact sum_congr rfl fun j _ => by rw [Ord.wt_sw, h.get]
  · rw [hg.ask]
    simp only [evAsk, evV2u, reduceCtorEq, if_false, Ord.evToRows, hQ]
    rfl
  · intro i c; rw [q3]; exact sum_congr rfl fun j _ => by rw [h.get]

/-- C27. The two directions are adjoint: `<v2u(Y), X> = <Y, u2v(X)>`. -/
theorem C27_bigraph_adjoint (hg : Built NonNeg g) (hm : (ask .numU g).1 = .ok (.num m))
    (hn : (ask .numV g).1 = .ok (.num n)) (hx : Spec.Bipartite m n g)
    (X Y P Q : Dense K) (hX : X.rows = m) (hY : Y.rows = n) (keep : Nat → Bool)
    (hP : (ask (.u2v X .sum none 0 keep) g).1 = .ok (.feat P))
    (hQ : (ask (.v2u Y .sum none 0 keep) g).1 = .ok (.feat Q)) (C : Nat) :
    ∑ c ∈ range C, ∑ u ∈ range m, Q.at_ u c * X.at_ u c =
      ∑ c ∈ range C, ∑ v ∈ range n, Y.at_ v c * P.at_ v c := by
  obtain ⟨B, P', Q', _, hP', _, _, p, hQ', _, _, q⟩ := C27_bigraph_sum hg hm hn hx X Y hX hY keep
  rw [hP] at hP'; cases hP'
  rw [hQ] at hQ'; cases hQ'
  refine sum_congr rfl fun c _ => ?_
  simp only [p, q, sum_mul, mul_sum]
  rw [sum_comm]
  exact sum_congr rfl fun v _ => sum_congr rfl fun u _ => by ring

/-- C27. `mean` divides the sum by the degree of the receiver; receivers of degree 0 get 0; with
non-negative weights the result lies in the range of the neighbours' features. -/
theorem C27_bigraph_mean [IsStrictOrderedRing K] (hg : Built NonNeg g) (hm : (ask .numU g).1 = .ok (.num m))
    (hn : (ask .numV g).1 = .ok (.num n)) (hx : Spec.Bipartite m n g)
    (hw : Spec.NonnegWeights (Spec.listingB g))
    (X Y : Dense K) (hX : X.rows = m) (hY : Y.rows = n) (keep : Nat → Bool) :
    ∃ B P Q, (ask .B g).1 = .ok (.mat B) ∧
      (ask (.u2v X .mean none 0 keep) g).1 = .ok (.feat P) ∧
      (ask (.v2u Y .mean none 0 keep) g).1 = .ok (.feat Q) ∧
      P.rows = n ∧ P.cols = X.cols ∧ Q.rows = m ∧ Q.cols = Y.cols ∧
      (∀ v c, v < n → ((∑ u ∈ range m, B.get u v) = 0 → P.at_ v c = 0) ∧
        ((∑ u ∈ range m, B.get u v) ≠ 0 →
          P.at_ v c = (∑ u ∈ range m, B.get u v * X.at_ u c) / (∑ u ∈ range m, B.get u v) ∧
          ∀ lo hi, (∀ u : Nat, u < m → (∃ x, (((u : Int), (v : Int)), x) ∈ Spec.listingB g) →
            lo ≤ X.at_ u c ∧ X.at_ u c ≤ hi) → lo ≤ P.at_ v c ∧ P.at_ v c ≤ hi)) ∧
      (∀ u c, u < m → ((∑ v ∈ range n, B.get u v) = 0 → Q.at_ u c = 0) ∧
        ((∑ v ∈ range n, B.get u v) ≠ 0 →
          Q.at_ u c = (∑ v ∈ range n, B.get u v * Y.at_ v c) / (∑ v ∈ range n, B.get u v) ∧
          ∀ lo hi, (∀ v : Nat, v < n → (∃ x, (((u : Int), (v : Int)), x) ∈ Spec.listingB g) →
            lo ≤ Y.at_ v c ∧ Y.at_ v c ≤ hi) → lo ≤ Q.at_ u c ∧ Q.at_ u c ≤ hi)) := by
  have hn' := numV_eq hn
  have hm' := numU_eq hm
  subst hn' hm'
  have hf := fits hg hx
  have hI : Ord.In g.raw.numU g.raw.numV (lst g.raw) := hf
  rw [listing_lst hg] at hw ⊢
  obtain ⟨B, hB, h⟩ := Ord.evM_spec hf
  obtain ⟨BT, hBT, h'⟩ := Ord.evMT_spec hf
  obtain ⟨P, hP, p1, p2, p3⟩ := Ord.pass_mean hBT h' (Ord.evDcN1_spec hf) X hX keep
  obtain ⟨Q, hQ, q1, q2, q3⟩ := Ord.pass_mean hB h (Ord.evDrN1_spec hf) Y hY keep
  have r1 : ∀ v : Nat, ∑ u ∈ range g.raw.numU, B.get u v = Spec.O.degIn (lst g.raw) v := by
    intro v; simp only [h.get]; exact Ord.sum_wt' hI v
  have r2 : ∀ u : Nat, ∑ v ∈ range g.raw.numV, B.get u v = Spec.O.degOut (lst g.raw) u := by
    intro u; simp only [h.get]; exact Ord.sum_wt hI u
  refine ⟨B, P, Q, ?_, ?_, ?_, p1, p2, q1, q2, ?_, ?_⟩
  · rw [hg.ask]; simp only [evAsk, hB]; rfl
  · rw [hg.ask]
    simp only [evAsk, evU2v, reduceCtorEq, if_false, Ord.evToCols, hP]
    rfl
  · rw [hg.ask]
    simp only [evAsk, evV2u, reduceCtorEq, if_false, Ord.evToRows, hQ]
    rfl
  · intro v c hv
    rw [r1]
    refine ⟨(p3 v c hv).1, fun hd => ?_⟩
    have e : P.at_ v c = (∑ u ∈ range g.raw.numU, Spec.O.wt (Ord.sw (lst g.raw)) (v : Int) (u : Int) * X.at_ u c) /
        Spec.O.degIn (lst g.raw) (v : Int) := (p3 v c hv).2 hd
    refine ⟨?_, ?_⟩
    · rw [e]; congr 1; exact sum_congr rfl fun u _ => by rw [Ord.wt_sw, h.get]
    · intro lo hi hlh
      rw [e, ← Ord.degOut_sw]
      have hex : ∀ u : Nat, (∃ x, (((v : Int), (u : Int)), x) ∈ Ord.sw (lst g.raw)) →
          ∃ x, (((u : Int), (v : Int)), x) ∈ lst g.raw := by
        rintro u ⟨x, hx⟩
        obtain ⟨⟨⟨a, b⟩, y⟩, he, h1⟩ := List.mem_map.1 hx
        simp only [Prod.mk.injEq] at h1
        obtain ⟨⟨rfl, rfl⟩, rfl⟩ := h1
        exact ⟨_, he⟩
      exact Ord.mean_bounds hI.sw (Ord.NonnegWeights.sw hw) (fun u => X.at_ u c) v
        (by rw [Ord.degOut_sw]; exact hd) lo hi
        (fun u hu hx => (hlh u hu (hex u hx)).1) (fun u hu hx => (hlh u hu (hex u hx)).2)
  · intro u c hu
    rw [r2]
    refine ⟨(q3 u c hu).1, fun hd => ?_⟩
    have e := (q3 u c hu).2 hd
    refine ⟨?_, ?_⟩
    · rw [e]; congr 1; exact sum_congr rfl fun v _ => by rw [h.get]
    · intro lo hi hlh
      rw [e]
      exact Ord.mean_bounds hI hw (fun v => Y.at_ v c) u hd lo hi
        (fun v hv hx => (hlh v hv hx).1) (fun v hv hx => (hlh v hv hx).2)

/-- C27. Any other aggregation raises, in both directions. -/
theorem C27_bigraph_bad_aggregation (hg : Built AnyArg g) (X : Dense K) (ew : Option (List K)) (p : K)
    (keep : Nat → Bool) : (ask (.u2v X .other ew p keep) g).1 = .error .assertion ∧
      (ask (.v2u X .other ew p keep) g).1 = .error .assertion := by
  constructor <;> (rw [hg.ask]; rfl)

end

example : Built NonNeg exB ∧ Spec.NonnegWeights (Spec.listingB exB) := ⟨exB_nonneg, exB_nonnegWeights⟩

/-! ## C13, C14 -/

/-- the question asked when passing messages to the right side (`tr`) or to the left side -/
def Bi.pass (tr : Bool) (X : Dense K) (aggr : Aggr) (ew : Option (List K)) (p : K) (keep : Nat → Bool) :
    BQuery K := if tr then .u2v X aggr ew p keep else .v2u X aggr ew p keep

/-- sender and receiver of each edge, as listed by `e_u` and `e_v` -/
def Bi.Ends (g : BSt K) (tr : Bool) (send recv : List Nat) : Prop :=
  (ask .eU g).1 = .ok (.idx (if tr then send else recv)) ∧
  (ask .eV g).1 = .ok (.idx (if tr then recv else send))

theorem Bi.Ends.spec {g : BSt K} (hg : Built NonNeg g) {tr : Bool} {send recv : List Nat}
    (h : Ends g tr send recv) : ∃ A : Sp K, Ord.evM .bi g.raw = .ok A ∧
      Ord.IsM g.raw.numU g.raw.numV (lst g.raw) A ∧
      recv = (if tr then A.ents.map (fun e => e.1.2) else A.ents.map (fun e => e.1.1)) ∧
      send = (if tr then A.ents.map (fun e => e.1.1) else A.ents.map (fun e => e.1.2)) := by
  obtain ⟨h1, h2⟩ := h
  rw [hg.ask] at h1 h2
  have hx : Spec.Bipartite g.raw.numU g.raw.numV g := by
    simp only [evAsk] at h1
    cases he : Ord.evM .bi g.raw with
    | error e => rw [he] at h1; cases h1
    | ok C => exact bipartite_of_evM hg he
  obtain ⟨A, hA, hM⟩ := Ord.evM_spec (fits hg hx)
  simp only [evAsk, hA] at h1 h2
  refine ⟨A, hA, hM, ?_, ?_⟩ <;> cases tr <;> (cases h1; cases h2; rfl)

section
variable {g : BSt K} {m n : Nat}

/-- C27/C13. With explicit weights, `sum` is the weighted sum of the incoming messages and `mean`
is that sum MULTIPLIED by the total incoming weight, in either direction. -/
theorem C13_bigraph_explicit_weights (hg : Built NonNeg g) (hm : (ask .numU g).1 = .ok (.num m))
    (hn : (ask .numV g).1 = .ok (.num n)) {tr : Bool} {send recv : List Nat} (he : Ends g tr send recv) (w : List K)
    (hw : w.length = recv.length) (X : Dense K) (hX : X.rows = if tr then m else n) (keep : Nat → Bool) :
    (∃ Y, (ask (Bi.pass tr X .sum (some w) 0 keep) g).1 = .ok (.feat Y) ∧
      ∀ i c, Y.at_ i c = Spec.incoming send recv w (fun j => X.at_ j c) i) ∧
    (∃ Y, (ask (Bi.pass tr X .mean (some w) 0 keep) g).1 = .ok (.feat Y) ∧
      ∀ i c, i < (if tr then n else m) → Y.at_ i c = Spec.incoming send recv w (fun _ => 1) i *
        Spec.incoming send recv w (fun j => X.at_ j c) i) := by
  have hn' := numV_eq hn
  have hm' := numU_eq hm
  subst hn' hm'
  obtain ⟨A, hA, hM, rfl, rfl⟩ := he.spec hg
  have hw' : w.length = A.ents.length := by rw [hw]; cases tr <;> simp
  obtain ⟨⟨Y, hY, h1⟩, ⟨Z, hZ, h2⟩⟩ := Ord.passW_spec (c := .bi) hA hM tr w hw' X hX keep
  constructor
  · refine ⟨Y, ?_, ?_⟩
    · rw [hg.ask]
      cases tr <;> simp only [Bi.pass, evAsk, evU2v, evV2u, reduceCtorEq, if_false, Ord.evToRows, Ord.evToCols, hY, if_true, Bool.false_eq_true] <;> rfl
    · intro i c; rw [h1]; cases tr <;> rfl
  · refine ⟨Z, ?_, ?_⟩
    · rw [hg.ask]
      cases tr <;> simp only [Bi.pass, evAsk, evU2v, evV2u, reduceCtorEq, if_false, Ord.evToRows, Ord.evToCols, hZ, if_true, Bool.false_eq_true] <;> rfl
    · intro i c hi; rw [h2 i c hi]; cases tr <;> rfl

/-- C13 (BiGraph), partial: the weighted mean is the weighted average at receivers whose incoming
weights add up to 1. Missing: other totals, see `C13_bigraph_weighted_mean_false`. -/
theorem C13_bigraph_weighted_mean_partial (hg : Built NonNeg g) (hm : (ask .numU g).1 = .ok (.num m))
    (hn : (ask .numV g).1 = .ok (.num n)) {tr : Bool} {send recv : List Nat} (he : Ends g tr send recv) (w : List K)
    (hw : w.length = recv.length) (X : Dense K) (hX : X.rows = if tr then m else n) (keep : Nat → Bool)
    {Y : Dense K} (hY : (ask (Bi.pass tr X .mean (some w) 0 keep) g).1 = .ok (.feat Y))
    (i c : Nat) (hi : i < if tr then n else m)
    (h1 : Spec.incoming send recv w (fun _ => 1) i = 1) :
    Y.at_ i c = Spec.incoming send recv w (fun j => X.at_ j c) i /
      Spec.incoming send recv w (fun _ => 1) i := by
  obtain ⟨Z, hZ, h⟩ := (C13_bigraph_explicit_weights hg hm hn he w hw X hX keep).2
  rw [hY] at hZ; cases hZ
  rw [h i c hi, h1, div_one, one_mul]

/-- C14 (BiGraph). `softmax_then_sum` with explicit weights: coefficients are positive,
proportional to `exp w[k]` among the messages of the same receiver, and add up to 1 there. -/
theorem C14_bigraph_softmax [IsStrictOrderedRing K] (hg : Built NonNeg g) (hm : (ask .numU g).1 = .ok (.num m))
    (hn : (ask .numV g).1 = .ok (.num n)) {tr : Bool} {send recv : List Nat} (he : Ends g tr send recv) (w : List K)
    (hw : w.length = recv.length) (X : Dense K) (hX : X.rows = if tr then m else n) (keep : Nat → Bool) :
    ∃ (Y : Dense K) (coef : List K) (z : Nat → K),
      (ask (Bi.pass tr X .softmax (some w) 0 keep) g).1 = .ok (.feat Y) ∧
      coef.length = recv.length ∧
      (∀ i c, Y.at_ i c = Spec.incoming send recv coef (fun j => X.at_ j c) i) ∧
      (∀ i, i ∈ recv → 0 < z i) ∧
      (∀ k (h1 : k < coef.length) (h2 : k < w.length) (h3 : k < recv.length),
        coef[k] * z recv[k] = PyReal.exp w[k] ∧ 0 < coef[k]) ∧
      (∀ i, i ∈ recv → Spec.incoming send recv coef (fun _ => 1) i = 1) := by
  have hn' := numV_eq hn
  have hm' := numU_eq hm
  subst hn' hm'
  obtain ⟨A, hA, hM, rfl, rfl⟩ := he.spec hg
  have hw' : w.length = A.ents.length := by rw [hw]; cases tr <;> simp
  obtain ⟨Y, coef, z, hY, h⟩ := Ord.passW_softmax_coef (c := .bi) hA hM tr w hw' X hX keep
  refine ⟨Y, coef, z, ?_, h⟩
  rw [hg.ask]
  cases tr <;> simp only [Bi.pass, evAsk, evU2v, evV2u, reduceCtorEq, if_false, Ord.evToRows, Ord.evToCols, hY, if_true, Bool.false_eq_true] <;> rfl

/-- C14 (BiGraph). Without explicit weights the stored weights are used: every receiver combines
its senders with positive coefficients `exp w / z` adding up to 1. -/
theorem C14_bigraph_softmax_default [IsStrictOrderedRing K] (hg : Built NonNeg g)
    (hm : (ask .numU g).1 = .ok (.num m))
    (hn : (ask .numV g).1 = .ok (.num n)) {tr : Bool} {send recv : List Nat} {ws : List K}
    (he : Ends g tr send recv) (hws : (ask .eWeight g).1 = .ok (.vec ws)) (X : Dense K)
    (hX : X.rows = if tr then m else n) (keep : Nat → Bool) :
    ∃ (Y : Dense K) (z : Nat → K),
      (ask (Bi.pass tr X .softmax none 0 keep) g).1 = .ok (.feat Y) ∧
      (∀ i, i ∈ recv → 0 < z i) ∧
      (∀ i c, i ∈ recv → Y.at_ i c * z i = Spec.incoming send recv (ws.map PyReal.exp) (fun j => X.at_ j c) i) ∧
      (∀ i, i ∈ recv → z i = Spec.incoming send recv (ws.map PyReal.exp) (fun _ => 1) i) := by
  have hn' := numV_eq hn
  have hm' := numU_eq hm
  subst hn' hm'
  obtain ⟨A, hA, hM, rfl, rfl⟩ := he.spec hg
  rw [hg.ask] at hws
  simp only [evAsk, hA, Except.map] at hws
  have hws' : ws = A.ents.map Prod.snd := by
    injection hws with h; injection h with h; exact h.symm
  subst hws'
  obtain ⟨Y, z, hY, h⟩ := Ord.softmax_default (c := .bi) hA hM tr X hX keep
  refine ⟨Y, z, ?_, h⟩
  rw [hg.ask]
  cases tr <;> simp only [Bi.pass, evAsk, evU2v, evV2u, reduceCtorEq, if_false, Ord.evToRows, Ord.evToCols, if_true, Bool.false_eq_true] <;>
    (simp only [if_true, Bool.false_eq_true, if_false] at hY; rw [hY]; rfl)

end

/-- one edge (0,0) -/
noncomputable def exB1 : BSt ℝ :=
  { raw := { numU := 1, numV := 1, eDict := [((0, 0), 1)], loops := [], extra := false }, cache := [] }

theorem exB1_nonneg : Built NonNeg exB1 :=
  .new (m := 1) (n := 1) (arg := some (.many [(0, 0)] .none)) (op := .mean) rfl
    (by intro a ha; cases ha; simp [NonNeg])

theorem exB1_ends (tr : Bool) : Ends exB1 tr [0] [0] := by
  constructor <;> (rw [exB1_nonneg.ask]; cases tr <;> rfl)

/-- C13 (BiGraph) is false in both directions: on one edge with weight 2, the weighted mean of
constant features 1 is 4. -/
theorem C13_bigraph_weighted_mean_false (tr : Bool) :
    ¬ ∀ (g : BSt ℝ), Built NonNeg g → ∀ send recv, Ends g tr send recv →
      ∀ (w : List ℝ), w.length = recv.length → (∀ x ∈ w, 0 < x) → ∀ (X Y : Dense ℝ) (m n : Nat),
      (ask .numU g).1 = .ok (.num m) → (ask .numV g).1 = .ok (.num n) →
      X.rows = (if tr then m else n) → ∀ keep,
      (ask (Bi.pass tr X .mean (some w) 0 keep) g).1 = .ok (.feat Y) → ∀ i c, i < (if tr then n else m) →
      Y.at_ i c * Spec.incoming send recv w (fun _ => 1) i =
        Spec.incoming send recv w (fun j => X.at_ j c) i := by
  intro h
  have hX : ({ rows := 1, cols := 1, at_ := fun _ _ => 1 } : Dense ℝ).rows = if tr then 1 else 1 := by
    cases tr <;> rfl
  obtain ⟨Y, hY, hv⟩ := (C13_bigraph_explicit_weights exB1_nonneg (m := 1) (n := 1) rfl rfl (exB1_ends tr) [2] rfl
    { rows := 1, cols := 1, at_ := fun _ _ => 1 } hX fun _ => true).2
  have hi : 0 < if tr then 1 else 1 := by cases tr <;> decide
  have := h exB1 exB1_nonneg _ _ (exB1_ends tr) [2] rfl (by simp)
    { rows := 1, cols := 1, at_ := fun _ _ => 1 } Y 1 1 rfl rfl hX (fun _ => true) hY 0 0 hi
  rw [hv 0 0 hi] at this
  norm_num [Spec.incoming] at this

example : Built NonNeg exB1 ∧ Ends exB1 true [0] [0] ∧
    Spec.incoming [0] [0] [(1 : ℝ)] (fun _ => 1) 0 = 1 :=
  ⟨exB1_nonneg, exB1_ends true, by norm_num [Spec.incoming]⟩

/-! ## C65 -/

/-- C65. `L_GCN[i,j] = s_i (A[i,j] + [i=j]) s_j` with `s_i` the inverse square root of the degree of
`i` in `A` plus 1; the matrix is symmetric, and `smoothing_with_GCN(X)` without dropout is its
product with `X`. -/
theorem C65_bigraph_LGCN [IsStrictOrderedRing K] {g : BSt K} {m n : Nat} (hg : Built NonNeg g)
    (hm : (ask .numU g).1 = .ok (.num m))
    (hn : (ask .numV g).1 = .ok (.num n))
    (hw : Spec.NonnegWeights (Spec.listingB g)) {A : Sp K} (hA : (ask .A g).1 = .ok (.mat A)) :
    ∃ (L : Sp K) (s : Nat → K), (ask .LGCN g).1 = .ok (.mat L) ∧
      (∀ i, i < m + n → 0 < s i ∧ s i * s i * ((∑ j ∈ range (m + n), A.get i j) + 1) = 1) ∧
      Spec.IsMat (m + n) (m + n) (fun i j => s i * (A.get i j + if i = j then 1 else 0) * s j) L ∧
      (∀ i j, i < m + n → j < m + n → L.get i j = L.get j i) ∧
      (∀ (X : Dense K) keep, X.rows = m + n → ∃ Y, (ask (.smoothGCN X 0 keep) g).1 = .ok (.feat Y) ∧
        Y.rows = m + n ∧ Y.cols = X.cols ∧
        ∀ i c, Y.at_ i c = ∑ j ∈ range (m + n), L.get i j * X.at_ j c) := by
  have hx : Spec.Bipartite m n g := by
    rw [← numV_eq hn, ← numU_eq hm]; exact bipartite_of_A hg hA
  have hsym : ∀ i j, i < m + n → j < m + n → A.get i j = A.get j i := by
    obtain ⟨B, _, hB, _⟩ := C25_bigraph_incidence hg hm hn hx
    obtain ⟨A', hA', _, _, _, _, _, h⟩ := C25_bigraph_A_blocks hg hm hn hx hB
    rw [hA] at hA'; cases hA'
    exact h
  have hn' := numV_eq hn
  have hm' := numU_eq hm
  subst hn' hm'
  rw [listing_lst hg] at hw
  obtain ⟨A', hA', h'⟩ := Ord.evA_spec (fits hg hx)
  rw [hg.ask] at hA
  simp only [evAsk, hA'] at hA
  cases hA
  have hself : Spec.IsMat (g.raw.numU + g.raw.numV) (g.raw.numU + g.raw.numV) (fun i j => A.get i j) A :=
    ⟨h'.rows, h'.cols, h'.wf, fun _ _ _ _ => rfl⟩
  have hpos : ∀ i, i < g.raw.numU + g.raw.numV →
      0 < (∑ j ∈ range (g.raw.numU + g.raw.numV), A.get i j) + 1 := by
    intro i hi
    have : 0 ≤ ∑ j ∈ range (g.raw.numU + g.raw.numV), A.get i j := by
      refine sum_nonneg fun j hj => ?_
      rw [h'.get i j hi (mem_range.1 hj)]
      unfold Ord.block
      split
      · exact Ord.wt_nonneg hw _ _
      · split
        · exact Ord.wt_nonneg hw _ _
        · exact le_refl _
    linarith
  obtain ⟨L, hL, hm⟩ := Ord.gcnOf_spec hself fun i hi => not_lt.2 (hpos i hi).le
  have hev : Ord.evLGCN g.raw = .ok L := by
    unfold Ord.evLGCN; rw [hA']; exact hL
  refine ⟨L, fun i => negHalf ((∑ k ∈ range (g.raw.numU + g.raw.numV), A.get i k) + 1), ?_, ?_, hm, ?_, ?_⟩
  · rw [hg.ask]; simp only [evAsk, hev]; rfl
  · intro i hi
    exact (Graph.negHalf_invSqrt (hpos i hi).le).2 (hpos i hi).ne'
  · intro i j hi hj
    rw [hm.get i j hi hj, hm.get j i hj hi]
    simp only [hsym i j hi hj, eq_comm (a := i) (b := j)]
    ring
  · intro X keep hX
    obtain ⟨Y, hY⟩ := Sp.mmD_ok (P := L) (X := X) (by rw [hm.cols, hX])
    have hs := Sp.mmD_shape hY
    refine ⟨Y, ?_, hs.2.1.trans hm.rows, hs.2.2, ?_⟩
    · rw [hg.ask]
      simp only [evAsk, evSmoothGCN, hev, Graph.evDrop, bind, Except.bind]
      rw [if_neg (lt_irrefl _)]
      simp only [hY]; rfl
    · intro i c
      rw [Sp.mmD_at hY hm.wf, hm.cols]

example : Built NonNeg exB ∧ Spec.NonnegWeights (Spec.listingB exB) ∧ ∃ A, (ask .A exB).1 = .ok (.mat A) :=
  ⟨exB_nonneg, exB_nonnegWeights, by
    obtain ⟨B, _, hB, _⟩ := C25_bigraph_incidence exB_nonneg exB_numU exB_numV exB_flag
    obtain ⟨A, hA, _⟩ := C25_bigraph_A_blocks exB_nonneg exB_numU exB_numV exB_flag hB
    exact ⟨A, hA⟩⟩

end Props
end DHG
