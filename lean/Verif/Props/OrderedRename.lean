import Verif.Props.GraphRename
import Verif.Props.HyperRename
import Verif.Props.DiGraphMatrices
import Verif.Props.Recommend

/-!
# Renaming the vertices of directed and bipartite graphs (C128)
-/

set_option linter.unusedSectionVars false
set_option autoImplicit false

namespace DHG

namespace Spec
variable {K : Type} [Field K] [LinearOrder K]

/-- `l'` lists the edges of `l`, in any order, with sources renamed by `σ` and targets by `π` -/
def RenamedEdges (σ π : Equiv.Perm Int) (l l' : List ((Int × Int) × K)) : Prop :=
  l'.Perm (l.map fun e => ((σ e.1.1, π e.1.2), e.2))

/-- new row of a vertex in the matrices of all vertices, in which the `m` left vertices come first -/
def stack (m : Nat) (σ π : Equiv.Perm Int) (i : Nat) : Nat :=
  if i < m then (σ i).toNat else m + (π ((i - m : Nat) : Int)).toNat

/-- the rows of `X'` are the rows of `X`, moved as `stack` says -/
structure StackFeat (m n : Nat) (σ π : Equiv.Perm Int) (X X' : Dense K) : Prop where
  rows : X.rows = m + n
  rows' : X'.rows = m + n
  cols : X'.cols = X.cols
  at_ : ∀ i c : Nat, i < m + n → c < X.cols → X'.at_ (stack m σ π i) c = X.at_ i c

/-- the embeddings of `M'` are those of `M` with users renamed by `σ` and items by `π`; all have `d` columns -/
structure RenamedRec (σ π : Equiv.Perm Int) (d : Nat) (M M' : Nn.Rec K) : Prop where
  numUsers : M'.numUsers = M.numUsers
  numItems : M'.numItems = M.numItems
  users : PermFeat M.numUsers σ M.users M'.users
  items : PermFeat M.numItems π M.items M'.items
  width : M.users.cols = d ∧ M.items.cols = d

end Spec

namespace Props

open Finset Nn
open Graph (NonNeg lst)

variable {K : Type} [Field K] [LinearOrder K] [PyReal K]

/-! ### listings -/

namespace OrdRen

variable {σ π : Equiv.Perm Int} {l l' : List ((Int × Int) × K)}

theorem wt (h : Spec.RenamedEdges σ π l l') (i j : Int) : Spec.O.wt l' (σ i) (π j) = Spec.O.wt l i j := by
  unfold Spec.O.wt
  rw [(h.map _).sum_eq, List.map_map]
  congr 1
  refine List.map_congr_left fun e _ => ?_
  obtain ⟨⟨a, b⟩, x⟩ := e
  simp only [Function.comp_def, Prod.mk.injEq, EmbeddingLike.apply_eq_iff_eq]

theorem degOut (h : Spec.RenamedEdges σ π l l') (i : Int) : Spec.O.degOut l' (σ i) = Spec.O.degOut l i := by
  unfold Spec.O.degOut
  rw [(h.map _).sum_eq, List.map_map]
  congr 1
  refine List.map_congr_left fun e _ => ?_
  simp only [Function.comp_def, EmbeddingLike.apply_eq_iff_eq]

theorem degIn (h : Spec.RenamedEdges σ π l l') (j : Int) : Spec.O.degIn l' (π j) = Spec.O.degIn l j := by
  unfold Spec.O.degIn
  rw [(h.map _).sum_eq, List.map_map]
  congr 1
  refine List.map_congr_left fun e _ => ?_
  simp only [Function.comp_def, EmbeddingLike.apply_eq_iff_eq]

theorem mem (h : Spec.RenamedEdges σ π l l') (i j : Int) (x : K) :
    ((σ i, π j), x) ∈ l' ↔ ((i, j), x) ∈ l := by
  rw [h.mem_iff, List.mem_map]
  constructor
  · rintro ⟨⟨⟨a, b⟩, y⟩, he, h1⟩
    simp only [Prod.mk.injEq, EmbeddingLike.apply_eq_iff_eq] at h1
    obtain ⟨⟨rfl, rfl⟩, rfl⟩ := h1
    exact he
  · intro he
    exact ⟨_, he, rfl⟩

theorem nonneg (h : Spec.RenamedEdges σ π l l') (hw : Spec.NonnegWeights l) : Spec.NonnegWeights l' := by
  intro e he
  obtain ⟨e0, h0, rfl⟩ := List.mem_map.1 (h.mem_iff.1 he)
  exact hw e0 h0

variable {m n : Nat}

theorem wtN (hσ : Spec.Renaming m σ) (hπ : Spec.Renaming n π) (h : Spec.RenamedEdges σ π l l') (i j : Nat) :
    Spec.O.wt l' ((ren σ i : Nat) : Int) ((ren π j : Nat) : Int) = Spec.O.wt l i j := by
  rw [ren_cast hσ, ren_cast hπ, wt h]

theorem outN (hσ : Spec.Renaming m σ) (h : Spec.RenamedEdges σ π l l') (i : Nat) :
    Spec.O.degOut l' ((ren σ i : Nat) : Int) = Spec.O.degOut l i := by rw [ren_cast hσ, degOut h]

theorem inN (hπ : Spec.Renaming n π) (h : Spec.RenamedEdges σ π l l') (j : Nat) :
    Spec.O.degIn l' ((ren π j : Nat) : Int) = Spec.O.degIn l j := by rw [ren_cast hπ, degIn h]

/-- products with renamed features -/
theorem sum_mul_ren (hπ : Spec.Renaming n π) {a a' : Nat → K} {x x' : Nat → K} (ha : ∀ j, j < n → a' (ren π j) = a j)
    (hx : ∀ j, j < n → x' (ren π j) = x j) : ∑ j ∈ range n, a' j * x' j = ∑ j ∈ range n, a j * x j := by
  rw [← sum_ren hπ fun j => a' j * x' j]
  exact sum_congr rfl fun j hj => by rw [ha j (mem_range.1 hj), hx j (mem_range.1 hj)]

/-! ### the matrix of all vertices of a bipartite graph -/

theorem stack_left {i : Nat} (hi : i < m) : Spec.stack m σ π i = ren σ i := if_pos hi

theorem stack_right (j : Nat) : Spec.stack m σ π (m + j) = m + ren π j := by
  unfold Spec.stack ren
  rw [if_neg (by omega), Nat.add_sub_cancel_left]

theorem stack_cases {P : Nat → Prop} (hl : ∀ i, i < m → P i) (hr : ∀ j, j < n → P (m + j)) :
    ∀ i, i < m + n → P i := by
  intro i hi
  by_cases h : i < m
  · exact hl i h
  · have := hr (i - m) (by omega)
    rwa [Nat.add_sub_cancel' (by omega)] at this

theorem stack_lt (hσ : Spec.Renaming m σ) (hπ : Spec.Renaming n π) :
    ∀ i, i < m + n → Spec.stack m σ π i < m + n := by
  refine stack_cases (fun i hi => ?_) fun j hj => ?_
  · have := (ren_lt hσ i).2 hi
    rw [stack_left hi]; omega
  · have := (ren_lt hπ j).2 hj
    rw [stack_right]; omega

theorem stack_inj (hσ : Spec.Renaming m σ) (hπ : Spec.Renaming n π) :
    ∀ i, i < m + n → ∀ j, j < m + n → (Spec.stack m σ π i = Spec.stack m σ π j ↔ i = j) := by
  refine stack_cases (fun i hi => stack_cases (fun j hj => ?_) fun j hj => ?_)
    fun i hi => stack_cases (fun j hj => ?_) fun j hj => ?_
  · rw [stack_left hi, stack_left hj, ren_inj hσ]
  · have := (ren_lt hσ i).2 hi
    rw [stack_left hi, stack_right]; omega
  · have := (ren_lt hσ j).2 hj
    rw [stack_left hj, stack_right]; omega
  · have := ren_inj hπ (i := i) (j := j)
    rw [stack_right, stack_right]; omega

theorem sum_stack (hσ : Spec.Renaming m σ) (hπ : Spec.Renaming n π) (f : Nat → K) :
    ∑ j ∈ range (m + n), f (Spec.stack m σ π j) = ∑ j ∈ range (m + n), f j := by
  rw [sum_range_add, sum_range_add]
  congr 1
  · rw [← sum_ren hσ f]
    exact sum_congr rfl fun j hj => by rw [stack_left (mem_range.1 hj)]
  · rw [← sum_ren hπ fun j => f (m + j)]
    exact sum_congr rfl fun j _ => by rw [stack_right]

/-- rows moved by `stack` -/
theorem of_stack {d : Nat} {E E' : Nat → Nat → K}
    (h : ∀ i c, i < m + n → c < d → E' (Spec.stack m σ π i) c = E i c) :
    (∀ i c, i < m → c < d → E' (ren σ i) c = E i c) ∧ ∀ j c, j < n → c < d → E' (m + ren π j) c = E (m + j) c := by
  refine ⟨fun i c hi hc => ?_, fun j c hj hc => ?_⟩
  · rw [← h i c (by omega) hc, stack_left hi]
  · rw [← h (m + j) c (by omega) hc, stack_right]

end OrdRen
open OrdRen

/-! ### directed graphs -/

section Di
variable {w w' : Bool} {g g' : DSt K} {n : Nat} {π : Equiv.Perm Int}

/-- C128 (DiGraph). Entries of the adjacency matrix and both degrees follow the vertices to their new names. -/
theorem C128_digraph_reads (hg : DiGraph.Built NonNeg w g) (hg' : DiGraph.Built NonNeg w' g')
    (hn : (DiGraph.ask .numV g).1 = .ok (.num n)) (hn' : (DiGraph.ask .numV g').1 = .ok (.num n))
    (hπ : Spec.Renaming n π) (h : Spec.RenamedEdges π π (Spec.listingD g) (Spec.listingD g')) :
    ∃ (A A' : Sp K) (o o' i i' : List K),
      (DiGraph.ask .A g).1 = .ok (.mat A) ∧ (DiGraph.ask .A g').1 = .ok (.mat A') ∧
      (DiGraph.ask .degOut g).1 = .ok (.vec o) ∧ (DiGraph.ask .degOut g').1 = .ok (.vec o') ∧
      (DiGraph.ask .degIn g).1 = .ok (.vec i) ∧ (DiGraph.ask .degIn g').1 = .ok (.vec i') ∧
      A'.rows = A.rows ∧ A'.cols = A.cols ∧ o'.length = o.length ∧ i'.length = i.length ∧
      ∀ a : Nat, a < n → o'[(π a).toNat]? = o[a]? ∧ i'[(π a).toNat]? = i[a]? ∧
        ∀ b : Nat, b < n → A'.get (π a).toNat (π b).toNat = A.get a b := by
  obtain ⟨A, _, hA, _, a1, _⟩ := C23_digraph_adjacency hg hn
  obtain ⟨A', _, hA', _, a1', _⟩ := C23_digraph_adjacency hg' hn'
  obtain ⟨_, o, i, _, _, _, d1, d2, d3, d4, _⟩ := C23_digraph_degrees hg hn
  obtain ⟨_, o', i', _, _, _, d1', d2', d3', d4', _⟩ := C23_digraph_degrees hg' hn'
  refine ⟨A, A', _, _, _, _, hA, hA', d1, d1', d2, d2', a1'.rows.trans a1.rows.symm, a1'.cols.trans a1.cols.symm,
    by simp, by simp, fun a ha => ?_⟩
  have ha' := (ren_lt hπ a).2 ha
  refine ⟨?_, ?_, fun b hb => ?_⟩
  · change ((List.range n).map o')[ren π a]? = _
    simp only [List.getElem?_map, List.getElem?_range ha, List.getElem?_range ha', Option.map_some, d3, d3', outN hπ h]
  · change ((List.range n).map i')[ren π a]? = _
    simp only [List.getElem?_map, List.getElem?_range ha, List.getElem?_range ha', Option.map_some, d4, d4', inN hπ h]
  · change A'.get (ren π a) (ren π b) = _
    rw [a1'.get _ _ ha' ((ren_lt hπ b).2 hb), a1.get _ _ ha hb, wtN hπ hπ h]

/-- C128 (DiGraph). The neighbours of a renamed vertex are the renamed neighbours, in either direction. -/
theorem C128_digraph_neighbours (hg : DiGraph.Built NonNeg w g) (hg' : DiGraph.Built NonNeg w' g')
    (hn : (DiGraph.ask .numV g).1 = .ok (.num n)) (hn' : (DiGraph.ask .numV g').1 = .ok (.num n))
    (hπ : Spec.Renaming n π) (h : Spec.RenamedEdges π π (Spec.listingD g) (Spec.listingD g')) {u v : Nat}
    (hu : u < n) (hv : v < n) :
    ∃ o o' i i' : List Nat, (DiGraph.ask (.Nout v) g).1 = .ok (.idx o) ∧
      (DiGraph.ask (.Nout (π v).toNat) g').1 = .ok (.idx o') ∧
      (DiGraph.ask (.Nin u) g).1 = .ok (.idx i) ∧ (DiGraph.ask (.Nin (π u).toNat) g').1 = .ok (.idx i') ∧
      ((π u).toNat ∈ o' ↔ u ∈ o) ∧ ((π v).toNat ∈ i' ↔ v ∈ i) := by
  obtain ⟨o, i, h1, h2, _, _, h3, h4⟩ := C23_digraph_neighbours hg hn hu hv
  obtain ⟨o', i', h1', h2', _, _, h3', h4'⟩ :=
    C23_digraph_neighbours hg' hn' ((ren_lt hπ u).2 hu) ((ren_lt hπ v).2 hv)
  have : ren π u ∈ o' ↔ u ∈ o := by
    rw [h3', h3, ren_cast hπ, ren_cast hπ]
    exact exists_congr fun x => mem h _ _ _
  exact ⟨o, o', i, i', h1, h1', h2, h2', this, h4'.trans (this.trans h4.symm)⟩

/-- C128 (DiGraph). Message passing commutes with renaming: passing the moved features over the renamed graph
gives the moved result, for `sum` and `mean` in both directions. -/
theorem C128_digraph_v2v (hg : DiGraph.Built NonNeg w g) (hg' : DiGraph.Built NonNeg w' g')
    (hn : (DiGraph.ask .numV g).1 = .ok (.num n)) (hn' : (DiGraph.ask .numV g').1 = .ok (.num n))
    (hπ : Spec.Renaming n π) (h : Spec.RenamedEdges π π (Spec.listingD g) (Spec.listingD g'))
    {X X' : Dense K} (hX : Spec.PermFeat n π X X') {aggr : Aggr} (ha : aggr = .sum ∨ aggr = .mean) {dir : Dir}
    (hd : dir ≠ .other) (keep keep' : Nat → Bool) :
    ∃ Y Y' : Dense K, (DiGraph.ask (.v2v X aggr none dir 0 keep) g).1 = .ok (.feat Y) ∧
      (DiGraph.ask (.v2v X' aggr none dir 0 keep') g').1 = .ok (.feat Y') ∧ Spec.PermFeat n π Y Y' := by
  have fw : ∀ i c, c < X.cols → ∑ j ∈ range n, Spec.O.wt (Spec.listingD g') ((ren π i : Nat) : Int) (j : Int) * X'.at_ j c =
      ∑ j ∈ range n, Spec.O.wt (Spec.listingD g) (i : Int) (j : Int) * X.at_ j c := fun i c hc =>
    sum_mul_ren hπ (a' := fun j => Spec.O.wt (Spec.listingD g') ((ren π i : Nat) : Int) (j : Int))
      (x' := fun j => X'.at_ j c) (fun j _ => wtN hπ hπ h i j) fun j hj => hX.at_ j c hj hc
  have bw : ∀ i c, c < X.cols → ∑ j ∈ range n, Spec.O.wt (Spec.listingD g') (j : Int) ((ren π i : Nat) : Int) * X'.at_ j c =
      ∑ j ∈ range n, Spec.O.wt (Spec.listingD g) (j : Int) (i : Int) * X.at_ j c := fun i c hc =>
    sum_mul_ren hπ (a' := fun j => Spec.O.wt (Spec.listingD g') (j : Int) ((ren π i : Nat) : Int))
      (x' := fun j => X'.at_ j c) (fun j _ => wtN hπ hπ h j i) fun j hj => hX.at_ j c hj hc
  rcases ha with rfl | rfl
  · obtain ⟨⟨Y, y1, y2, y3, y4⟩, Z, z1, z2, z3, z4⟩ := C24_digraph_v2v_sum hg hn X hX.rows keep
    obtain ⟨⟨Y', y1', y2', y3', y4'⟩, Z', z1', z2', z3', z4'⟩ := C24_digraph_v2v_sum hg' hn' X' hX.rows' keep'
    cases dir with
    | dst2src =>
      refine ⟨Y, Y', y1, y1', y2, y2', by rw [y3', y3, hX.cols], fun i c hi hc => ?_⟩
      change Y'.at_ (ren π i) c = _
      rw [y4', y4, fw i c (y3 ▸ hc)]
    | src2dst =>
      refine ⟨Z, Z', z1, z1', z2, z2', by rw [z3', z3, hX.cols], fun i c hi hc => ?_⟩
      change Z'.at_ (ren π i) c = _
      rw [z4', z4, bw i c (z3 ▸ hc)]
    | other => exact absurd rfl hd
  · obtain ⟨⟨Y, y1, y2, y3, y4⟩, Z, z1, z2, z3, z4⟩ := C24_digraph_v2v_mean hg hn X hX.rows keep
    obtain ⟨⟨Y', y1', y2', y3', y4'⟩, Z', z1', z2', z3', z4'⟩ := C24_digraph_v2v_mean hg' hn' X' hX.rows' keep'
    cases dir with
    | dst2src =>
      refine ⟨Y, Y', y1, y1', y2, y2', by rw [y3', y3, hX.cols], fun i c hi hc => ?_⟩
      change Y'.at_ (ren π i) c = _
      have q' := y4' (ren π i) c ((ren_lt hπ i).2 hi)
      have q := y4 i c hi
      rw [outN hπ h, fw i c (y3 ▸ hc)] at q'
      by_cases h0 : Spec.O.degOut (Spec.listingD g) (i : Int) = 0
      · rw [q'.1 h0, q.1 h0]
      · rw [q'.2 h0, q.2 h0]
    | src2dst =>
      refine ⟨Z, Z', z1, z1', z2, z2', by rw [z3', z3, hX.cols], fun i c hi hc => ?_⟩
      change Z'.at_ (ren π i) c = _
      have q' := z4' (ren π i) c ((ren_lt hπ i).2 hi)
      have q := z4 i c hi
      rw [inN hπ h, bw i c (z3 ▸ hc)] at q'
      by_cases h0 : Spec.O.degIn (Spec.listingD g) (i : Int) = 0
      · rw [q'.1 h0, q.1 h0]
      · rw [q'.2 h0, q.2 h0]
    | other => exact absurd rfl hd

end Di

/-! ### bipartite graphs -/

/-- `u2v` and `v2u` with `mean`, in terms of the listing -/
theorem OrdRen.bi_mean {g : BSt K} {m n : Nat} (hg : BiGraph.Built NonNeg g)
    (hm : (BiGraph.ask .numU g).1 = .ok (.num m)) (hn : (BiGraph.ask .numV g).1 = .ok (.num n))
    (hx : Spec.Bipartite m n g) :
    (∀ (X : Dense K) keep, X.rows = m → ∃ P, (BiGraph.ask (.u2v X .mean none 0 keep) g).1 = .ok (.feat P) ∧ P.rows = n ∧
      P.cols = X.cols ∧ ∀ v c, v < n → P.at_ v c = if Spec.O.degIn (Spec.listingB g) (v : Int) = 0 then 0 else
        (∑ u ∈ range m, Spec.O.wt (Spec.listingB g) (u : Int) (v : Int) * X.at_ u c) /
          Spec.O.degIn (Spec.listingB g) (v : Int)) ∧
    (∀ (Y : Dense K) keep, Y.rows = n → ∃ Q, (BiGraph.ask (.v2u Y .mean none 0 keep) g).1 = .ok (.feat Q) ∧ Q.rows = m ∧
      Q.cols = Y.cols ∧ ∀ u c, u < m → Q.at_ u c = if Spec.O.degOut (Spec.listingB g) (u : Int) = 0 then 0 else
        (∑ v ∈ range n, Spec.O.wt (Spec.listingB g) (u : Int) (v : Int) * Y.at_ v c) /
          Spec.O.degOut (Spec.listingB g) (u : Int)) := by
  have hn' := Bi.numV_eq hn
  have hm' := Bi.numU_eq hm
  subst hn' hm'
  have hf := Bi.fits hg hx
  rw [Bi.listing_lst hg]
  obtain ⟨B, hB, h⟩ := Ord.evM_spec hf
  obtain ⟨BT, hBT, h'⟩ := Ord.evMT_spec hf
  constructor
  · intro X keep hX
    obtain ⟨P, hP, p1, p2, p3⟩ := Ord.pass_mean hBT h' (Ord.evDcN1_spec hf) X hX keep
    refine ⟨P, ?_, p1, p2, fun v c hv => ?_⟩
    · rw [hg.ask]
      simp only [BiGraph.evAsk, BiGraph.evU2v, reduceCtorEq, if_false, Ord.evToCols, hP]
      rfl
    · split
      · rename_i h0; exact (p3 v c hv).1 h0
      · rename_i h0
        rw [(p3 v c hv).2 h0]
        simp only [Ord.wt_sw]
        rfl
  · intro Y keep hY
    obtain ⟨Q, hQ, q1, q2, q3⟩ := Ord.pass_mean hB h (Ord.evDrN1_spec hf) Y hY keep
    refine ⟨Q, ?_, q1, q2, fun u c hu => ?_⟩
    · rw [hg.ask]
      simp only [BiGraph.evAsk, BiGraph.evV2u, reduceCtorEq, if_false, Ord.evToRows, hQ]
      rfl
    · split
      · rename_i h0; exact (q3 u c hu).1 h0
      · rename_i h0; exact (q3 u c hu).2 h0

section Bi
variable {g g' : BSt K} {m n : Nat} {σ π : Equiv.Perm Int}

theorem OrdRen.bipartite (hσ : Spec.Renaming m σ) (hπ : Spec.Renaming n π)
    (h : Spec.RenamedEdges σ π (Spec.listingB g) (Spec.listingB g')) (hx : Spec.Bipartite m n g) :
    Spec.Bipartite m n g' := by
  intro e he
  obtain ⟨e0, h0, rfl⟩ := List.mem_map.1 (h.mem_iff.1 he)
  exact ⟨(hσ.lt _).2 (hx e0 h0).1, (hπ.lt _).2 (hx e0 h0).2⟩

/-- C128 (BiGraph). Entries of `B`, the degrees of both sides and the entries of `A` follow the vertices to their
new names. -/
theorem C128_bigraph_reads (hg : BiGraph.Built NonNeg g) (hg' : BiGraph.Built NonNeg g')
    (hm : (BiGraph.ask .numU g).1 = .ok (.num m)) (hn : (BiGraph.ask .numV g).1 = .ok (.num n))
    (hm' : (BiGraph.ask .numU g').1 = .ok (.num m)) (hn' : (BiGraph.ask .numV g').1 = .ok (.num n))
    (hx : Spec.Bipartite m n g) (hσ : Spec.Renaming m σ) (hπ : Spec.Renaming n π)
    (h : Spec.RenamedEdges σ π (Spec.listingB g) (Spec.listingB g')) :
    ∃ (B B' A A' : Sp K) (du du' dv dv' : List K),
      (BiGraph.ask .B g).1 = .ok (.mat B) ∧ (BiGraph.ask .B g').1 = .ok (.mat B') ∧
      (BiGraph.ask .A g).1 = .ok (.mat A) ∧ (BiGraph.ask .A g').1 = .ok (.mat A') ∧
      (BiGraph.ask .degU g).1 = .ok (.vec du) ∧ (BiGraph.ask .degU g').1 = .ok (.vec du') ∧
      (BiGraph.ask .degV g).1 = .ok (.vec dv) ∧ (BiGraph.ask .degV g').1 = .ok (.vec dv') ∧
      (∀ u v : Nat, u < m → v < n → B'.get (σ u).toNat (π v).toNat = B.get u v) ∧
      (∀ u : Nat, u < m → du'[(σ u).toNat]? = du[u]?) ∧ (∀ v : Nat, v < n → dv'[(π v).toNat]? = dv[v]?) ∧
      ∀ i j, i < m + n → j < m + n → A'.get (Spec.stack m σ π i) (Spec.stack m σ π j) = A.get i j := by
  have hx' := OrdRen.bipartite hσ hπ h hx
  obtain ⟨B, _, hB, _, b1, _⟩ := C25_bigraph_incidence hg hm hn hx
  obtain ⟨B', _, hB', _, b1', _⟩ := C25_bigraph_incidence hg' hm' hn' hx'
  obtain ⟨A, hA, _, _, a1, a2, a3, _⟩ := C25_bigraph_A_blocks hg hm hn hx hB
  obtain ⟨A', hA', _, _, a1', a2', a3', _⟩ := C25_bigraph_A_blocks hg' hm' hn' hx' hB'
  obtain ⟨B0, du, dv, _, _, hB0, d1, d2, d3, d4, _⟩ := C25_bigraph_degrees hg hm hn hx
  obtain ⟨B0', du', dv', _, _, hB0', d1', d2', d3', d4', _⟩ := C25_bigraph_degrees hg' hm' hn' hx'
  rw [hB] at hB0; cases hB0
  rw [hB'] at hB0'; cases hB0'
  have hb : ∀ u v : Nat, u < m → v < n → B'.get (ren σ u) (ren π v) = B.get u v := fun u v hu hv => by
    rw [b1'.get _ _ ((ren_lt hσ u).2 hu) ((ren_lt hπ v).2 hv), b1.get _ _ hu hv, wtN hσ hπ h]
  refine ⟨B, B', A, A', _, _, _, _, hB, hB', hA, hA', d1, d1', d2, d2', hb, fun u hu => ?_, fun v hv => ?_, ?_⟩
  · change ((List.range m).map du')[ren σ u]? = _
    simp only [List.getElem?_map, List.getElem?_range hu, List.getElem?_range ((ren_lt hσ u).2 hu), Option.map_some,
      d3, d3']
    rw [← sum_ren hπ]
    congr 1
    exact sum_congr rfl fun v hv => hb u v hu (mem_range.1 hv)
  · change ((List.range n).map dv')[ren π v]? = _
    simp only [List.getElem?_map, List.getElem?_range hv, List.getElem?_range ((ren_lt hπ v).2 hv), Option.map_some,
      d4, d4']
    rw [← sum_ren hσ]
    congr 1
    exact sum_congr rfl fun u hu => hb u v (mem_range.1 hu) hv
  · suffices ∀ i, i < m + n → ∀ j, j < m + n → A'.get (Spec.stack m σ π i) (Spec.stack m σ π j) = A.get i j from
      fun i j hi hj => this i hi j hj
    refine stack_cases (fun i hi => stack_cases (fun j hj => ?_) fun j hj => ?_)
      fun i hi => stack_cases (fun j hj => ?_) fun j hj => ?_
    · rw [stack_left hi, stack_left hj, a2 _ _ hi hj, a2' _ _ ((ren_lt hσ i).2 hi) ((ren_lt hσ j).2 hj)]
    · rw [stack_left hi, stack_right, (a1 _ _ hi hj).1, (a1' _ _ ((ren_lt hσ i).2 hi) ((ren_lt hπ j).2 hj)).1, hb _ _ hi hj]
    · rw [stack_left hj, stack_right, (a1 _ _ hj hi).2, (a1' _ _ ((ren_lt hσ j).2 hj) ((ren_lt hπ i).2 hi)).2, hb _ _ hj hi]
    · rw [stack_right, stack_right, a3 _ _ hi hj, a3' _ _ ((ren_lt hπ i).2 hi) ((ren_lt hπ j).2 hj)]

/-- C128 (BiGraph). The neighbours of a renamed vertex are the renamed neighbours, on either side. -/
theorem C128_bigraph_neighbours (hg : BiGraph.Built NonNeg g) (hg' : BiGraph.Built NonNeg g')
    (hm : (BiGraph.ask .numU g).1 = .ok (.num m)) (hn : (BiGraph.ask .numV g).1 = .ok (.num n))
    (hm' : (BiGraph.ask .numU g').1 = .ok (.num m)) (hn' : (BiGraph.ask .numV g').1 = .ok (.num n))
    (hx : Spec.Bipartite m n g) (hσ : Spec.Renaming m σ) (hπ : Spec.Renaming n π)
    (h : Spec.RenamedEdges σ π (Spec.listingB g) (Spec.listingB g')) {u v : Nat} (hu : u < m) (hv : v < n) :
    ∃ lv lv' lu lu' : List Nat, (BiGraph.ask (.Nv u) g).1 = .ok (.idx lv) ∧
      (BiGraph.ask (.Nv (σ u).toNat) g').1 = .ok (.idx lv') ∧
      (BiGraph.ask (.Nu v) g).1 = .ok (.idx lu) ∧ (BiGraph.ask (.Nu (π v).toNat) g').1 = .ok (.idx lu') ∧
      ((π v).toNat ∈ lv' ↔ v ∈ lv) ∧ ((σ u).toNat ∈ lu' ↔ u ∈ lu) := by
  obtain ⟨lv, lu, h1, h2, _, _, h3, h4⟩ := C25_bigraph_neighbours hg hm hn hx hu hv
  obtain ⟨lv', lu', h1', h2', _, _, h3', h4'⟩ := C25_bigraph_neighbours hg' hm' hn' (OrdRen.bipartite hσ hπ h hx)
    ((ren_lt hσ u).2 hu) ((ren_lt hπ v).2 hv)
  have : ren π v ∈ lv' ↔ v ∈ lv := by
    rw [h3', h3, ren_cast hσ, ren_cast hπ]
    exact exists_congr fun x => mem h _ _ _
  exact ⟨lv, lv', lu, lu', h1, h1', h2, h2', this, h4'.trans (this.trans h4.symm)⟩

/-- C128 (BiGraph). Passing moved features of one side over the renamed graph gives the moved result on the other
side, for `sum` and `mean`. -/
theorem C128_bigraph_messages (hg : BiGraph.Built NonNeg g) (hg' : BiGraph.Built NonNeg g')
    (hm : (BiGraph.ask .numU g).1 = .ok (.num m)) (hn : (BiGraph.ask .numV g).1 = .ok (.num n))
    (hm' : (BiGraph.ask .numU g').1 = .ok (.num m)) (hn' : (BiGraph.ask .numV g').1 = .ok (.num n))
    (hx : Spec.Bipartite m n g) (hσ : Spec.Renaming m σ) (hπ : Spec.Renaming n π)
    (h : Spec.RenamedEdges σ π (Spec.listingB g) (Spec.listingB g')) {X X' Y Y' : Dense K}
    (hX : Spec.PermFeat m σ X X') (hY : Spec.PermFeat n π Y Y') {aggr : Aggr} (ha : aggr = .sum ∨ aggr = .mean)
    (keep keep' : Nat → Bool) :
    ∃ P P' Q Q' : Dense K, (BiGraph.ask (.u2v X aggr none 0 keep) g).1 = .ok (.feat P) ∧
      (BiGraph.ask (.u2v X' aggr none 0 keep') g').1 = .ok (.feat P') ∧ Spec.PermFeat n π P P' ∧
      (BiGraph.ask (.v2u Y aggr none 0 keep) g).1 = .ok (.feat Q) ∧
      (BiGraph.ask (.v2u Y' aggr none 0 keep') g').1 = .ok (.feat Q') ∧ Spec.PermFeat m σ Q Q' := by
  have hx' := OrdRen.bipartite hσ hπ h hx
  have fw : ∀ u c, c < Y.cols → ∑ v ∈ range n, Spec.O.wt (Spec.listingB g') ((ren σ u : Nat) : Int) (v : Int) * Y'.at_ v c =
      ∑ v ∈ range n, Spec.O.wt (Spec.listingB g) (u : Int) (v : Int) * Y.at_ v c := fun u c hc =>
    sum_mul_ren hπ (a' := fun v => Spec.O.wt (Spec.listingB g') ((ren σ u : Nat) : Int) (v : Int))
      (x' := fun v => Y'.at_ v c) (fun v _ => wtN hσ hπ h u v) fun v hv => hY.at_ v c hv hc
  have bw : ∀ v c, c < X.cols → ∑ u ∈ range m, Spec.O.wt (Spec.listingB g') (u : Int) ((ren π v : Nat) : Int) * X'.at_ u c =
      ∑ u ∈ range m, Spec.O.wt (Spec.listingB g) (u : Int) (v : Int) * X.at_ u c := fun v c hc =>
    sum_mul_ren hσ (a' := fun u => Spec.O.wt (Spec.listingB g') (u : Int) ((ren π v : Nat) : Int))
      (x' := fun u => X'.at_ u c) (fun u _ => wtN hσ hπ h u v) fun u hu => hX.at_ u c hu hc
  rcases ha with rfl | rfl
  · obtain ⟨B, P, Q, hB, p1, p2, p3, p4, q1, q2, q3, q4⟩ := C27_bigraph_sum hg hm hn hx X Y hX.rows hY.rows keep
    obtain ⟨B', P', Q', hB', p1', p2', p3', p4', q1', q2', q3', q4'⟩ :=
      C27_bigraph_sum hg' hm' hn' hx' X' Y' hX.rows' hY.rows' keep'
    obtain ⟨B0, _, hB0, _, b1, _⟩ := C25_bigraph_incidence hg hm hn hx
    obtain ⟨B0', _, hB0', _, b1', _⟩ := C25_bigraph_incidence hg' hm' hn' hx'
    rw [hB] at hB0; cases hB0
    rw [hB'] at hB0'; cases hB0'
    refine ⟨P, P', Q, Q', p1, p1', ⟨p2, p2', by rw [p3', p3, hX.cols], fun v c hv hc => ?_⟩, q1, q1',
      ⟨q2, q2', by rw [q3', q3, hY.cols], fun u c hu hc => ?_⟩⟩
    · change P'.at_ (ren π v) c = _
      rw [p4', p4]
      rw [p3] at hc
      rw [sum_congr rfl fun u hu => by rw [b1'.get u (ren π v) (mem_range.1 hu) ((ren_lt hπ v).2 hv)], bw v c hc]
      exact sum_congr rfl fun u hu => by rw [b1.get u v (mem_range.1 hu) hv]
    · change Q'.at_ (ren σ u) c = _
      rw [q4', q4]
      rw [q3] at hc
      rw [sum_congr rfl fun v hv => by rw [b1'.get (ren σ u) v ((ren_lt hσ u).2 hu) (mem_range.1 hv)], fw u c hc]
      exact sum_congr rfl fun v hv => by rw [b1.get u v hu (mem_range.1 hv)]
  · obtain ⟨P, p1, p2, p3, p4⟩ := (OrdRen.bi_mean hg hm hn hx).1 X keep hX.rows
    obtain ⟨Q, q1, q2, q3, q4⟩ := (OrdRen.bi_mean hg hm hn hx).2 Y keep hY.rows
    obtain ⟨P', p1', p2', p3', p4'⟩ := (OrdRen.bi_mean hg' hm' hn' hx').1 X' keep' hX.rows'
    obtain ⟨Q', q1', q2', q3', q4'⟩ := (OrdRen.bi_mean hg' hm' hn' hx').2 Y' keep' hY.rows'
    refine ⟨P, P', Q, Q', p1, p1', ⟨p2, p2', by rw [p3', p3, hX.cols], fun v c hv hc => ?_⟩, q1, q1',
      ⟨q2, q2', by rw [q3', q3, hY.cols], fun u c hu hc => ?_⟩⟩
    · change P'.at_ (ren π v) c = _
      rw [p4' _ _ ((ren_lt hπ v).2 hv), p4 _ _ hv, inN hπ h, bw v c (p3 ▸ hc)]
    · change Q'.at_ (ren σ u) c = _
      rw [q4' _ _ ((ren_lt hσ u).2 hu), q4 _ _ hu, outN hσ h, fw u c (q3 ▸ hc)]

/-- C128 (BiGraph). The entries of the GCN matrix of the renamed graph are those of the original at the moved rows,
and smoothing moved features gives the moved result. -/
theorem C128_bigraph_GCN [IsStrictOrderedRing K] (hg : BiGraph.Built NonNeg g) (hg' : BiGraph.Built NonNeg g')
    (hm : (BiGraph.ask .numU g).1 = .ok (.num m)) (hn : (BiGraph.ask .numV g).1 = .ok (.num n))
    (hm' : (BiGraph.ask .numU g').1 = .ok (.num m)) (hn' : (BiGraph.ask .numV g').1 = .ok (.num n))
    (hx : Spec.Bipartite m n g) (hw : Spec.NonnegWeights (Spec.listingB g))
    (hσ : Spec.Renaming m σ) (hπ : Spec.Renaming n π)
    (h : Spec.RenamedEdges σ π (Spec.listingB g) (Spec.listingB g')) :
    ∃ L L' : Sp K, (BiGraph.ask .LGCN g).1 = .ok (.mat L) ∧ (BiGraph.ask .LGCN g').1 = .ok (.mat L') ∧
      (∀ i j, i < m + n → j < m + n → L'.get (Spec.stack m σ π i) (Spec.stack m σ π j) = L.get i j) ∧
      ∀ (X X' : Dense K) (keep keep' : Nat → Bool), Spec.StackFeat m n σ π X X' → ∃ Y Y' : Dense K,
        (BiGraph.ask (.smoothGCN X 0 keep) g).1 = .ok (.feat Y) ∧
        (BiGraph.ask (.smoothGCN X' 0 keep') g').1 = .ok (.feat Y') ∧ Spec.StackFeat m n σ π Y Y' := by
  obtain ⟨_, _, A, A', _, _, _, _, _, _, hA, hA', _, _, _, _, _, _, _, ha⟩ :=
    C128_bigraph_reads hg hg' hm hn hm' hn' hx hσ hπ h
  obtain ⟨L, s, hL, s1, l1, _, y⟩ := C65_bigraph_LGCN hg hm hn hw hA
  obtain ⟨L', s', hL', s1', l1', _, y'⟩ := C65_bigraph_LGCN hg' hm' hn' (nonneg h hw) hA'
  have hlt := stack_lt hσ hπ
  have hs : ∀ i, i < m + n → s' (Spec.stack m σ π i) = s i := by
    intro i hi
    obtain ⟨p, q⟩ := s1 i hi
    obtain ⟨p', q'⟩ := s1' _ (hlt i hi)
    rw [← sum_stack hσ hπ, sum_congr rfl fun j hj => ha i j hi (mem_range.1 hj)] at q'
    have hne : (∑ j ∈ range (m + n), A.get i j) + 1 ≠ 0 := by
      intro h0; rw [h0, mul_zero] at q; exact zero_ne_one q
    exact (mul_self_inj p'.le p.le).1 (mul_right_cancel₀ hne (q'.trans q.symm))
  have hl : ∀ i j, i < m + n → j < m + n → L'.get (Spec.stack m σ π i) (Spec.stack m σ π j) = L.get i j := by
    intro i j hi hj
    rw [l1'.get _ _ (hlt i hi) (hlt j hj), l1.get _ _ hi hj, hs i hi, hs j hj, ha i j hi hj]
    simp only [stack_inj hσ hπ i hi j hj]
  refine ⟨L, L', hL, hL', hl, fun X X' keep keep' hX => ?_⟩
  obtain ⟨Y, y1, y2, y3, y4⟩ := y X keep hX.rows
  obtain ⟨Y', y1', y2', y3', y4'⟩ := y' X' keep' hX.rows'
  refine ⟨Y, Y', y1, y1', y2, y2', by rw [y3', y3, hX.cols], fun i c hi hc => ?_⟩
  rw [y4', y4, ← sum_stack hσ hπ]
  exact sum_congr rfl fun j hj => by
    rw [hl i j hi (mem_range.1 hj), hX.at_ j c (mem_range.1 hj) (y3 ▸ hc)]

end Bi

/-! ### recommenders -/

namespace OrdRen
variable {m n d : Nat} {σ π : Equiv.Perm Int}

theorem mat_stack (hσ : Spec.Renaming m σ) (hπ : Spec.Renaming n π) {L L' : Nat → Nat → K}
    (hL : ∀ i j, i < m + n → j < m + n → L' (Spec.stack m σ π i) (Spec.stack m σ π j) = L i j) {E E' : Nat → Nat → K}
    (hE : ∀ i c, i < m + n → c < d → E' (Spec.stack m σ π i) c = E i c) (i c : Nat) (hi : i < m + n) (hc : c < d) :
    ∑ j ∈ range (m + n), L' (Spec.stack m σ π i) j * E' j c = ∑ j ∈ range (m + n), L i j * E j c := by
  rw [← sum_stack hσ hπ]
  exact sum_congr rfl fun j hj => by rw [hL i j hi (mem_range.1 hj), hE j c (mem_range.1 hj) hc]

theorem spread_stack (hσ : Spec.Renaming m σ) (hπ : Spec.Renaming n π) {L L' : Nat → Nat → K}
    (hL : ∀ i j, i < m + n → j < m + n → L' (Spec.stack m σ π i) (Spec.stack m σ π j) = L i j) (t : Nat) :
    ∀ {E E' : Nat → Nat → K}, (∀ i c, i < m + n → c < d → E' (Spec.stack m σ π i) c = E i c) →
      ∀ i c, i < m + n → c < d → Spec.spread L' (m + n) t E' (Spec.stack m σ π i) c = Spec.spread L (m + n) t E i c := by
  induction t with
  | zero => intro E E' hE; exact hE
  | succ t ih =>
    intro E E' hE
    exact ih fun i c hi hc => mat_stack hσ hπ hL hE i c hi hc

theorem lin_congr (l : Linear K) {x x' : Nat → K} (h : ∀ c, c < d → x' c = x c) (o : Nat) :
    Spec.lin l d x' o = Spec.lin l d x o := by
  unfold Spec.lin
  rw [sum_congr rfl fun c hc => by rw [h c (mem_range.1 hc)]]

theorem unitRow_congr {S S' : Nat → Nat → K} {i i' : Nat} (h : ∀ c, c < d → S' i' c = S i c) (c : Nat) (hc : c < d) :
    Spec.unitRow d S' i' c = Spec.unitRow d S i c := by
  unfold Spec.unitRow
  rw [h c hc, sum_congr rfl fun c hc => by rw [h c (mem_range.1 hc)]]

theorem ngcfStep_stack (hσ : Spec.Renaming m σ) (hπ : Spec.Renaming n π) {L L' : Nat → Nat → K}
    (hL : ∀ i j, i < m + n → j < m + n → L' (Spec.stack m σ π i) (Spec.stack m σ π j) = L i j) (l : RecLayer K)
    {E E' : Nat → Nat → K} (hE : ∀ i c, i < m + n → c < d → E' (Spec.stack m σ π i) c = E i c) (i c : Nat)
    (hi : i < m + n) (hc : c < d) :
    Spec.ngcfStep L' (m + n) d l E' (Spec.stack m σ π i) c = Spec.ngcfStep L (m + n) d l E i c := by
  unfold Spec.ngcfStep
  refine unitRow_congr (fun o _ => ?_) c hc
  have hG := fun c hc => mat_stack hσ hπ hL hE i c hi hc
  rw [lin_congr l.gc (x := fun c => ∑ j ∈ range (m + n), L i j * E j c) hG,
    lin_congr l.bi (x := fun c => E i c * ∑ j ∈ range (m + n), L i j * E j c)
      fun c hc => by
        change E' (Spec.stack m σ π i) c * (∑ j ∈ range (m + n), L' (Spec.stack m σ π i) j * E' j c) = _
        rw [hG c hc, hE i c hi hc]]

theorem tables_stack {Fs Fs' : List ((Nat → Nat → K) → Nat → Nat → K)}
    (hF : List.Forall₂ (fun F F' => ∀ E E' : Nat → Nat → K,
      (∀ i c, i < m + n → c < d → E' (Spec.stack m σ π i) c = E i c) →
        ∀ i c, i < m + n → c < d → F' E' (Spec.stack m σ π i) c = F E i c) Fs Fs') :
    ∀ {E E' : Nat → Nat → K}, (∀ i c, i < m + n → c < d → E' (Spec.stack m σ π i) c = E i c) →
      ∀ i c, i < m + n → c < d →
        Spec.meanEmb (Spec.tables Fs' E') (Spec.stack m σ π i) c = Spec.meanEmb (Spec.tables Fs E) i c := by
  have key : ∀ {E E' : Nat → Nat → K}, (∀ i c, i < m + n → c < d → E' (Spec.stack m σ π i) c = E i c) →
      (Spec.tables Fs' E').length = (Spec.tables Fs E).length ∧ ∀ i c, i < m + n → c < d →
        ((Spec.tables Fs' E').map fun T => T (Spec.stack m σ π i) c) = (Spec.tables Fs E).map fun T => T i c := by
    induction hF with
    | nil =>
      intro E E' hE
      exact ⟨rfl, fun i c hi hc => by simp [Spec.tables, hE i c hi hc]⟩
    | cons hF _ ih =>
      intro E E' hE
      obtain ⟨h1, h2⟩ := ih (hF _ _ hE)
      exact ⟨by simp [Spec.tables, h1], fun i c hi hc => by simp [Spec.tables, h2 i c hi hc, hE i c hi hc]⟩
  intro E E' hE i c hi hc
  unfold Spec.meanEmb
  rw [(key hE).1, (key hE).2 i c hi hc]

theorem splits_stack (hσ : Spec.Renaming m σ) (hπ : Spec.Renaming n π) {E E' : Nat → Nat → K}
    {r r' : Except Err (Dense K × Dense K)} (h : Spec.Splits m n d E r) (h' : Spec.Splits m n d E' r')
    (hE : ∀ i c, i < m + n → c < d → E' (Spec.stack m σ π i) c = E i c) :
    ∃ U V U' V' : Dense K, r = .ok (U, V) ∧ r' = .ok (U', V') ∧ Spec.PermFeat m σ U U' ∧ Spec.PermFeat n π V V' := by
  obtain ⟨U, V, h1, h2, h3, h4, h5, h6, h7⟩ := h
  obtain ⟨U', V', h1', h2', h3', h4', h5', h6', h7'⟩ := h'
  obtain ⟨e1, e2⟩ := of_stack hE
  refine ⟨U, V, U', V', h1, h1', ⟨h2, h2', h3'.trans h3.symm, fun i c hi hc => ?_⟩,
    ⟨h4, h4', h5'.trans h5.symm, fun i c hi hc => ?_⟩⟩
  · change U'.at_ (ren σ i) c = _
    rw [h3] at hc
    rw [h6' _ _ ((ren_lt hσ i).2 hi) hc, h6 _ _ hi hc, e1 i c hi hc]
  · change V'.at_ (ren π i) c = _
    rw [h5] at hc
    rw [h7' _ _ ((ren_lt hπ i).2 hi) hc, h7 _ _ hi hc, e2 i c hi hc]

theorem allEmb_stack {M M' : Rec K} (hσ : Spec.Renaming M.numUsers σ) (hM : Spec.RenamedRec σ π d M M') :
    ∀ i, i < M.numUsers + M.numItems → ∀ c, c < d →
      Spec.allEmb M' (Spec.stack M.numUsers σ π i) c = Spec.allEmb M i c := by
  refine stack_cases (fun i hi c hc => ?_) fun j hj c hc => ?_
  · have := (ren_lt hσ i).2 hi
    rw [stack_left hi]
    unfold Spec.allEmb
    rw [hM.numUsers, if_pos this, if_pos hi]
    exact hM.users.at_ i c hi (by rw [hM.width.1]; exact hc)
  · rw [stack_right]
    unfold Spec.allEmb
    rw [hM.numUsers, if_neg (by omega), if_neg (by omega), Nat.add_sub_cancel_left, Nat.add_sub_cancel_left]
    exact hM.items.at_ j c hj (by rw [hM.width.2]; exact hc)

theorem fits_of_renamed {M M' : Rec K} (hM : Spec.RenamedRec σ π d M M') : Spec.RecFits M d ∧ Spec.RecFits M' d :=
  ⟨⟨⟨hM.users.rows, hM.width.1⟩, ⟨hM.items.rows, hM.width.2⟩⟩,
    ⟨⟨hM.users.rows'.trans hM.numUsers.symm, hM.users.cols.trans hM.width.1⟩,
      ⟨hM.items.rows'.trans hM.numItems.symm, hM.items.cols.trans hM.width.2⟩⟩⟩

end OrdRen

section Rec
variable {g g' : BSt K} {d : Nat} {σ π : Equiv.Perm Int} {M M' : Rec K}

/-- C128 (LightGCN). With renamed users and items — in the interaction graph and in the embedding tables — every user
and item gets the embedding it had. -/
theorem C128_lightgcn [IsStrictOrderedRing K] (hg : BiGraph.Built NonNeg g) (hg' : BiGraph.Built NonNeg g')
    (hm : (BiGraph.ask .numU g).1 = .ok (.num M.numUsers)) (hn : (BiGraph.ask .numV g).1 = .ok (.num M.numItems))
    (hm' : (BiGraph.ask .numU g').1 = .ok (.num M.numUsers)) (hn' : (BiGraph.ask .numV g').1 = .ok (.num M.numItems))
    (hx : Spec.Bipartite M.numUsers M.numItems g) (hw : Spec.NonnegWeights (Spec.listingB g))
    (hσ : Spec.Renaming M.numUsers σ) (hπ : Spec.Renaming M.numItems π)
    (h : Spec.RenamedEdges σ π (Spec.listingB g) (Spec.listingB g')) (hM : Spec.RenamedRec σ π d M M')
    (rate : K) (training : Bool) (ht : training = false ∨ rate = 0) (keeps keeps' : List (Nat → Bool))
    (hk : keeps'.length = keeps.length) :
    ∃ U V U' V' : Dense K, (lightGcn M rate training keeps g).1 = .ok (U, V) ∧
      (lightGcn M' rate training keeps' g').1 = .ok (U', V') ∧
      Spec.PermFeat M.numUsers σ U U' ∧ Spec.PermFeat M.numItems π V V' := by
  obtain ⟨L, L', hL, hL', hl, _⟩ := C128_bigraph_GCN hg hg' hm hn hm' hn' hx hw hσ hπ h
  obtain ⟨f, f'⟩ := fits_of_renamed hM
  have r := C96_lightgcn hg hm hn hw hL f rate training ht keeps
  have r' := C96_lightgcn hg' (M := M') (by rw [hM.numUsers]; exact hm') (by rw [hM.numItems]; exact hn')
    (nonneg h hw) hL' f' rate training ht keeps'
  rw [hM.numUsers, hM.numItems, hk] at r'
  refine splits_stack hσ hπ r r' fun i c hi hc => ?_
  congr 1
  exact sum_congr rfl fun t _ => spread_stack hσ hπ hl t (fun i c hi hc => allEmb_stack hσ hM i hi c hc) i c hi hc

/-- C128 (NGCF). The same holds for `NGCF` in evaluation mode. -/
theorem C128_ngcf [IsStrictOrderedRing K] (hg : BiGraph.Built NonNeg g) (hg' : BiGraph.Built NonNeg g')
    (hm : (BiGraph.ask .numU g).1 = .ok (.num M.numUsers)) (hn : (BiGraph.ask .numV g).1 = .ok (.num M.numItems))
    (hm' : (BiGraph.ask .numU g').1 = .ok (.num M.numUsers)) (hn' : (BiGraph.ask .numV g').1 = .ok (.num M.numItems))
    (hx : Spec.Bipartite M.numUsers M.numItems g) (hw : Spec.NonnegWeights (Spec.listingB g))
    (hσ : Spec.Renaming M.numUsers σ) (hπ : Spec.Renaming M.numItems π)
    (h : Spec.RenamedEdges σ π (Spec.listingB g) (Spec.listingB g')) (hM : Spec.RenamedRec σ π d M M')
    (ls : List (RecLayer K)) (hls : ∀ l ∈ ls, Spec.LayerFits l d) :
    ∃ U V U' V' : Dense K, (ngcf M ls g).1 = .ok (U, V) ∧ (ngcf M' ls g').1 = .ok (U', V') ∧
      Spec.PermFeat M.numUsers σ U U' ∧ Spec.PermFeat M.numItems π V V' := by
  obtain ⟨L, L', hL, hL', hl, _⟩ := C128_bigraph_GCN hg hg' hm hn hm' hn' hx hw hσ hπ h
  obtain ⟨f, f'⟩ := fits_of_renamed hM
  have r := C96_ngcf hg hm hn hw hL f ls hls
  have r' := C96_ngcf hg' (M := M') (by rw [hM.numUsers]; exact hm') (by rw [hM.numItems]; exact hn')
    (nonneg h hw) hL' f' ls hls
  rw [hM.numUsers, hM.numItems] at r'
  refine splits_stack hσ hπ r r' (tables_stack ?_ fun i c hi hc => allEmb_stack hσ hM i hi c hc)
  rw [List.forall₂_map_left_iff, List.forall₂_map_right_iff]
  exact List.forall₂_same.2 fun l _ E E' hE i c hi hc => ngcfStep_stack hσ hπ hl l hE i c hi hc

end Rec

/-- C128 (DHCF). The same holds for `DHCF` in evaluation mode, with the hypergraphs of users and items renamed
together with the tables; both hypergraphs must have a hyperedge group. -/
theorem C128_dhcf [IsStrictOrderedRing K] {s s' t t' : HSt K} {d : Nat} {σ π : Equiv.Perm Int} {M M' : Rec K}
    (hs : RenamedHypers M.numUsers σ s s') (ht : RenamedHypers M.numItems π t t')
    (hsc : Spec.HasScope s none) (htc : Spec.HasScope t none)
    (hsw : Spec.HNonneg (Spec.hListing s none)) (htw : Spec.HNonneg (Spec.hListing t none))
    (hM : Spec.RenamedRec σ π d M M') (ls : List (RecLayer K)) (hls : ∀ l ∈ ls, Spec.LayerFits l d) :
    ∃ U V U' V' : Dense K, (dhcf M ls (s, t)).1 = .ok (U, V) ∧ (dhcf M' ls (s', t')).1 = .ok (U', V') ∧
      Spec.PermFeat M.numUsers σ U U' ∧ Spec.PermFeat M.numItems π V V' := by
  obtain ⟨Lu, Lu', _, _, _, _, hLu, hLu', _, _, _, _, lu⟩ := C88_hypergraph_laplacians hs hsc hsw
  obtain ⟨Li, Li', _, _, _, _, hLi, hLi', _, _, _, _, li⟩ := C88_hypergraph_laplacians ht htc htw
  obtain ⟨rs, bs, bs', _⟩ := hs.all
  obtain ⟨rt, bt, bt', _⟩ := ht.all
  obtain ⟨f, f'⟩ := fits_of_renamed hM
  have hσ := hs.ren
  have hπ := ht.ren
  have wu : Spec.HNonneg (Spec.hListing s' none) := by rw [(hs.listing none).1]; exact Hy.nonneg_renL _ hsw
  have wi : Spec.HNonneg (Spec.hListing t' none) := by rw [(ht.listing none).1]; exact Hy.nonneg_renL _ htw
  have r := C96_dhcf_partial bs bt hsc htc hs.numV.1 ht.numV.1 hsw htw hLu hLi f ls hls
  have r' := C96_dhcf_partial (M := M') bs' bt' ((Hy.renR_scope rs none).2 hsc) ((Hy.renR_scope rt none).2 htc)
    (by rw [hM.numUsers]; exact hs.numV.2) (by rw [hM.numItems]; exact ht.numV.2) wu wi hLu' hLi' f' ls hls
  rw [hM.numUsers, hM.numItems] at r'
  refine splits_stack hσ hπ r r' (tables_stack ?_ fun i c hi hc => allEmb_stack hσ hM i hi c hc)
  rw [List.forall₂_map_left_iff, List.forall₂_map_right_iff]
  refine List.forall₂_same.2 fun l _ E E' hE i c hi hc => ?_
  obtain ⟨e1, e2⟩ := of_stack hE
  unfold Spec.dhcfStep
  refine OrdRen.unitRow_congr (d := d) (fun o ho => ?_) c hc
  have hGs : ∀ i, i < M.numUsers + M.numItems → ∀ c, c < d → (if Spec.stack M.numUsers σ π i < M.numUsers then
      ∑ j ∈ range M.numUsers, Lu'.get (Spec.stack M.numUsers σ π i) j * E' j c
      else ∑ j ∈ range M.numItems, Li'.get (Spec.stack M.numUsers σ π i - M.numUsers) j * E' (M.numUsers + j) c) =
      if i < M.numUsers then ∑ j ∈ range M.numUsers, Lu.get i j * E j c
      else ∑ j ∈ range M.numItems, Li.get (i - M.numUsers) j * E (M.numUsers + j) c := by
    refine stack_cases (fun i hi c hc => ?_) (fun j hj c hc => ?_)
    · rw [stack_left hi, if_pos ((ren_lt hσ i).2 hi), if_pos hi]
      exact sum_mul_ren hσ (a' := fun j => Lu'.get (ren σ i) j) (x' := fun j => E' j c)
        (fun j hj => (lu i j hi hj).1) fun j hj => e1 j c hj hc
    · rw [stack_right, if_neg (by omega), if_neg (by omega), Nat.add_sub_cancel_left, Nat.add_sub_cancel_left]
      exact sum_mul_ren hπ (a' := fun k => Li'.get (ren π j) k) (x' := fun k => E' (M.numUsers + k) c)
        (fun k hk => (li j k hj hk).1) fun k hk => e2 k c hk hc
  have hG := hGs i hi
  simp only
  rw [hE i o hi ho, OrdRen.lin_congr l.gc (x := fun c => if i < M.numUsers then ∑ j ∈ range M.numUsers, Lu.get i j * E j c
      else ∑ j ∈ range M.numItems, Li.get (i - M.numUsers) j * E (M.numUsers + j) c) hG,
    OrdRen.lin_congr l.bi (x := fun c => E i c * if i < M.numUsers then ∑ j ∈ range M.numUsers, Lu.get i j * E j c
      else ∑ j ∈ range M.numItems, Li.get (i - M.numUsers) j * E (M.numUsers + j) c)
      fun c hc => by rw [hG c hc, hE i c hi hc]]

/-! ### examples -/

/-- swap 0 and 1 -/
def exSw01 : Equiv.Perm Int := Equiv.swap 0 1

theorem exSw01_ren {n : Nat} (h : 2 ≤ n) : Spec.Renaming n exSw01 := by
  constructor <;> intro x <;> unfold exSw01 <;> rw [Equiv.swap_apply_def] <;> split <;> rename_i h1 <;>
    first | (subst h1; omega) | (split <;> rename_i h2 <;> first | (subst h2; omega) | rfl)

/-- `exD` with vertices 0 and 1 swapped -/
noncomputable def exDsw : DSt ℝ :=
  { raw := { numV := 3, eDict := [((0, 2), 3), ((0, 1), 2)], loops := [(2, 7)], extra := false }, cache := [] }

example : DiGraph.Built NonNeg false exD ∧ DiGraph.Built NonNeg false exDsw ∧
    (DiGraph.ask .numV exD).1 = .ok (.num 3) ∧ (DiGraph.ask .numV exDsw).1 = .ok (.num 3) ∧ Spec.Renaming 3 exSw01 ∧
    Spec.RenamedEdges exSw01 exSw01 (Spec.listingD exD) (Spec.listingD exDsw) ∧
    Spec.PermFeat 3 exSw01 (⟨3, 1, fun i _ => if i = 0 then 5 else 0⟩ : Dense ℝ)
      ⟨3, 1, fun i _ => if i = 1 then 5 else 0⟩ := by
  refine ⟨exD_nonneg, .new (n := 3) (arg := some (.many [(0, 2), (0, 1), (2, 2)] (.list [3, 2, 7]))) (extra := false)
    (op := .sum) rfl (by intro a ha; cases ha; simp [NonNeg]), rfl, rfl, exSw01_ren (by omega), ?_, rfl, rfl, rfl, ?_⟩
  · have : Spec.listingD exDsw = [((0, 2), 3), ((0, 1), 2), ((2, 2), 7)] := rfl
    rw [this, exD_listing]
    unfold Spec.RenamedEdges exSw01
    simp only [List.map_cons, List.map_nil, Equiv.swap_apply_left, Equiv.swap_apply_right,
      Equiv.swap_apply_of_ne_of_ne (show (2 : Int) ≠ 0 by decide) (show (2 : Int) ≠ 1 by decide)]
    exact List.Perm.swap _ _ _
  · intro i c hi _
    have : i = 0 ∨ i = 1 ∨ i = 2 := by omega
    unfold exSw01
    rcases this with rfl | rfl | rfl <;> simp [Equiv.swap_apply_def]

/-- `exB` with users 0 and 1 swapped and items 0 and 1 swapped -/
noncomputable def exBsw : BSt ℝ :=
  { raw := { numU := 2, numV := 3, eDict := [((1, 2), 3), ((0, 1), 2), ((0, 0), 5)], loops := [], extra := false }
    cache := [] }

/-- the tables of `exRec` moved in the same way -/
noncomputable def exRecSw : Rec ℝ :=
  { numUsers := 2, numItems := 3, users := ⟨2, 2, fun i c => (if i = 0 then 1 else 0) + c⟩
    items := ⟨3, 2, fun i c => (if i = 0 then 1 else if i = 1 then 0 else 2) - c⟩ }

example : BiGraph.Built NonNeg exB ∧ BiGraph.Built NonNeg exBsw ∧
    (BiGraph.ask .numU exBsw).1 = .ok (.num 2) ∧ (BiGraph.ask .numV exBsw).1 = .ok (.num 3) ∧
    Spec.Bipartite 2 3 exB ∧ Spec.Renaming 2 exSw01 ∧ Spec.Renaming 3 exSw01 ∧
    Spec.RenamedEdges exSw01 exSw01 (Spec.listingB exB) (Spec.listingB exBsw) ∧
    Spec.RenamedRec exSw01 exSw01 2 exRec exRecSw := by
  refine ⟨exB_nonneg, .new (m := 2) (n := 3) (arg := some (.many [(1, 2), (0, 1), (0, 0)] (.list [3, 2, 5])))
    (op := .sum) rfl (by intro a ha; cases ha; simp [NonNeg]), rfl, rfl, exB_flag, exSw01_ren (by omega),
    exSw01_ren (by omega), ?_, rfl, rfl, ⟨rfl, rfl, rfl, ?_⟩, ⟨rfl, rfl, rfl, ?_⟩, rfl, rfl⟩
  · have : Spec.listingB exBsw = [((1, 2), 3), ((0, 1), 2), ((0, 0), 5)] := rfl
    rw [this, exB_listing]
    unfold Spec.RenamedEdges exSw01
    simp only [List.map_cons, List.map_nil, Equiv.swap_apply_left, Equiv.swap_apply_right,
      Equiv.swap_apply_of_ne_of_ne (show (2 : Int) ≠ 0 by decide) (show (2 : Int) ≠ 1 by decide)]
    exact List.Perm.swap _ _ _
  · intro i c hi _
    change i < 2 at hi
    have : i = 0 ∨ i = 1 := by omega
    unfold exSw01
    rcases this with rfl | rfl <;> simp [exRec, exRecSw]
  · intro i c hi _
    change i < 3 at hi
    have : i = 0 ∨ i = 1 ∨ i = 2 := by omega
    unfold exSw01
    rcases this with rfl | rfl | rfl <;> simp [Equiv.swap_apply_def, exRec, exRecSw]

example : RenamedHypers 4 exSwap exH exHs := exHs_renamed

end Props
end DHG
