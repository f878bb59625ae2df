import Verif.MsgLemmas
import Verif.Props.GraphMatrices

/-!
# Properties of `Graph`: message passing, ranges, renaming
-/

set_option linter.unusedSectionVars false
set_option autoImplicit false

namespace DHG
namespace Props

open Graph Finset

variable {K : Type} [Field K] [LinearOrder K] [PyReal K]

/-! ## C12 -/

/-- C12. `v2v` with `aggr="sum"`: row `i` is `Σ_j A[i,j] X[j]`. -/
theorem C12_graph_v2v_sum {g : GSt K} (hg : Built NonNeg g) {n : Nat}
    (hn : (ask .numV g).1 = .ok (.num n)) (X : Dense K) (hX : X.rows = n) (keep : Nat → Bool) :
    ∃ Y, (ask (.v2v X .sum none 0 keep) g).1 = .ok (.feat Y) ∧ Y.rows = n ∧ Y.cols = X.cols ∧
      ∀ i c, Y.at_ i c = ∑ j ∈ range n, Spec.wt (Spec.listing g) (i : Int) (j : Int) * X.at_ j c := by
  obtain ⟨A, hA, h⟩ := evA_spec hg.inv.1 hg.pos
  have hn' := numV_eq hn
  obtain ⟨Y, hY⟩ := Sp.mmD_ok (P := A) (X := X) (by rw [h.cols, hX, hn'])
  have hs := Sp.mmD_shape hY
  refine ⟨Y, ?_, hs.2.1.trans (h.rows.trans hn'), hs.2.2, ?_⟩
  · rw [ask_eq hg]
    simp only [evAsk, evV2v, hA, evDrop]
    rw [if_neg (by decide)]
    simp only [bind, Except.bind, lt_self_iff_false, if_false]
    rw [hY]; rfl
  · intro i c
    rw [Sp.mmD_at hY h.wf, h.cols, hn']
    exact sum_congr rfl fun j _ => by rw [h.get, listing_lst hg]

/-- C12. `v2v` with `aggr="mean"`: row `i` is the weighted sum over the neighbours divided by the
degree of `i`, and 0 when the degree is 0. -/
theorem C12_graph_v2v_mean {g : GSt K} (hg : Built NonNeg g) {n : Nat}
    (hn : (ask .numV g).1 = .ok (.num n)) (X : Dense K) (hX : X.rows = n) (keep : Nat → Bool) :
    ∃ Y, (ask (.v2v X .mean none 0 keep) g).1 = .ok (.feat Y) ∧ Y.rows = n ∧ Y.cols = X.cols ∧
      ∀ i c, i < n →
        (Spec.deg (Spec.listing g) (i : Int) = 0 → Y.at_ i c = 0) ∧
        (Spec.deg (Spec.listing g) (i : Int) ≠ 0 → Y.at_ i c =
          (∑ j ∈ range n, Spec.wt (Spec.listing g) (i : Int) (j : Int) * X.at_ j c) /
            Spec.deg (Spec.listing g) (i : Int)) := by
  obtain ⟨A, hA, h⟩ := evA_spec hg.inv.1 hg.pos
  have hn' := numV_eq hn
  obtain ⟨Z, hZ⟩ := Sp.mmD_ok (P := A) (X := X) (by rw [h.cols, hX, hn'])
  have hs := Sp.mmD_shape hZ
  obtain ⟨Y, hY⟩ := Sp.mmD_ok (P := Sp.diag ((List.range g.raw.numV).map fun i => (degs g.raw i)⁻¹))
    (X := Z) (by simp [Sp.diag_cols, hs.2.1, h.rows])
  have hs' := Sp.mmD_shape hY
  refine ⟨Y, ?_, hs'.2.1.trans (by simp [Sp.diag_rows, hn']), hs'.2.2.trans hs.2.2, ?_⟩
  · rw [ask_eq hg]
    simp only [evAsk, evV2v, hA, evDrop]
    rw [if_neg (by decide)]
    simp only [bind, Except.bind, lt_self_iff_false, if_false]
    rw [hZ, evDvN1_spec hg.inv.1 hg.pos]
    simp only
    rw [hY]; rfl
  · intro i c hi
    rw [Sp.diag_mmD_at hY (by omega), Sp.mmD_at hZ h.wf, h.cols, hn']
    have : ∑ j ∈ range n, A.get i j * X.at_ j c =
        ∑ j ∈ range n, Spec.wt (Spec.listing g) (i : Int) (j : Int) * X.at_ j c :=
      sum_congr rfl fun j _ => by rw [h.get, listing_lst hg]
    rw [this]
    unfold degs
    rw [← listing_lst hg]
    refine ⟨fun h0 => by rw [h0, inv_zero, zero_mul], fun h0 => by rw [div_eq_mul_inv, mul_comm]⟩

/-- C12. With non-negative weights the mean lies between any bounds of the features of the
neighbours. -/
theorem C12_graph_v2v_mean_bounds [IsStrictOrderedRing K] {g : GSt K} (hg : Built NonNeg g) {n : Nat}
    (hn : (ask .numV g).1 = .ok (.num n)) (hw : Spec.NonnegWeights (Spec.listing g)) (X Y : Dense K)
    (hX : X.rows = n) (keep : Nat → Bool)
    (hY : (ask (.v2v X .mean none 0 keep) g).1 = .ok (.feat Y)) (i c : Nat) (hi : i < n)
    (hd : Spec.deg (Spec.listing g) (i : Int) ≠ 0) (lo hi' : K)
    (hlo : ∀ j, j < n → Spec.Adj (Spec.listing g) i j → lo ≤ X.at_ j c)
    (hhi : ∀ j, j < n → Spec.Adj (Spec.listing g) i j → X.at_ j c ≤ hi') :
    lo ≤ Y.at_ i c ∧ Y.at_ i c ≤ hi' := by
  obtain ⟨Y', h1, _, _, h2⟩ := C12_graph_v2v_mean hg hn X hX keep
  rw [hY] at h1; cases h1
  rw [(h2 i c hi).2 hd, sum_div]
  have hR : InR n (Spec.listing g) := by
    rw [listing_lst hg, ← numV_eq hn]; exact lst_InR hg.inv.1 hg.pos
  have hd0 : 0 ≤ Spec.deg (Spec.listing g) (i : Int) := deg_nonneg hw _
  have e : ∀ j ∈ range n, Spec.wt (Spec.listing g) (i : Int) (j : Int) * X.at_ j c /
      Spec.deg (Spec.listing g) (i : Int) = (Spec.wt (Spec.listing g) (i : Int) (j : Int) /
      Spec.deg (Spec.listing g) (i : Int)) * X.at_ j c := fun j _ => by ring
  rw [sum_congr rfl e]
  have hadj : ∀ j : Nat, Spec.wt (Spec.listing g) (i : Int) (j : Int) /
      Spec.deg (Spec.listing g) (i : Int) ≠ 0 → Spec.Adj (Spec.listing g) i j := by
    intro j hj
    by_contra hc
    exact hj (by rw [wt_eq_zero_of_not_adj hc, zero_div])
  exact weighted_avg_bounds n (fun j => Spec.wt (Spec.listing g) (i : Int) (j : Int) /
      Spec.deg (Spec.listing g) (i : Int)) (fun j => X.at_ j c) lo hi'
    (fun j _ => div_nonneg (wt_nonneg hw _ _) hd0)
    (by rw [← sum_div, sum_wt_deg hR, div_self hd])
    (fun j hj h => hlo j hj (hadj j h)) (fun j hj h => hhi j hj (hadj j h))

/-- C12. Locality: the outputs at `i` only depend on the features of the neighbours of `i`. -/
theorem C12_graph_v2v_local {g : GSt K} (hg : Built NonNeg g) {n : Nat}
    (hn : (ask .numV g).1 = .ok (.num n)) (X X' : Dense K) (hX : X.rows = n) (hX' : X'.rows = n)
    (keep : Nat → Bool) (i c : Nat) (hi : i < n)
    (hl : ∀ j, j < n → Spec.Adj (Spec.listing g) i j → X.at_ j c = X'.at_ j c) (aggr : Aggr)
    (ha : aggr = .sum ∨ aggr = .mean) {Y Y' : Dense K}
    (hY : (ask (.v2v X aggr none 0 keep) g).1 = .ok (.feat Y))
    (hY' : (ask (.v2v X' aggr none 0 keep) g).1 = .ok (.feat Y')) : Y.at_ i c = Y'.at_ i c := by
  have e : ∑ j ∈ range n, Spec.wt (Spec.listing g) (i : Int) (j : Int) * X.at_ j c =
      ∑ j ∈ range n, Spec.wt (Spec.listing g) (i : Int) (j : Int) * X'.at_ j c := by
    apply sum_congr rfl
    intro j hj
    by_cases h : Spec.Adj (Spec.listing g) i j
    · rw [hl j (mem_range.1 hj) h]
    · rw [wt_eq_zero_of_not_adj h, zero_mul, zero_mul]
  rcases ha with rfl | rfl
  · obtain ⟨Z, h1, _, _, h2⟩ := C12_graph_v2v_sum hg hn X hX keep
    obtain ⟨Z', h1', _, _, h2'⟩ := C12_graph_v2v_sum hg hn X' hX' keep
    rw [hY] at h1; cases h1
    rw [hY'] at h1'; cases h1'
    rw [h2, h2', e]
  · obtain ⟨Z, h1, _, _, h2⟩ := C12_graph_v2v_mean hg hn X hX keep
    obtain ⟨Z', h1', _, _, h2'⟩ := C12_graph_v2v_mean hg hn X' hX' keep
    rw [hY] at h1; cases h1
    rw [hY'] at h1'; cases h1'
    by_cases hd : Spec.deg (Spec.listing g) (i : Int) = 0
    · rw [(h2 i c hi).1 hd, (h2' i c hi).1 hd]
    · rw [(h2 i c hi).2 hd, (h2' i c hi).2 hd, e]

example : Built NonNeg exG ∧ (ask .numV exG).1 = .ok (.num 3) ∧
    Spec.NonnegWeights (Spec.listing exG) ∧ Spec.deg (Spec.listing exG) 1 ≠ 0 ∧
    Spec.Adj (Spec.listing exG) 1 2 ∧ ¬ Spec.Adj (Spec.listing exG) 0 2 :=
  ⟨exG_nonneg, exG_numV, exG_nonnegWeights, by rw [exG_listing]; norm_num [Spec.deg],
    by rw [exG_listing]; simp [Spec.Adj], by rw [exG_listing]; simp [Spec.Adj]⟩

/-! ## C13, C14: explicit edge weights -/

/-- reading the three aligned edge vectors -/
structure EdgeVecs (g : GSt K) (src dst : List Nat) : Prop where
  src : (ask .eSrc g).1 = .ok (.idx src)
  dst : (ask .eDst g).1 = .ok (.idx dst)

theorem EdgeVecs.ents {g : GSt K} (hg : Built NonNeg g) {src dst : List Nat} (h : EdgeVecs g src dst) :
    ∃ A, evA g.raw = .ok A ∧ IsA g.raw A ∧ src = A.ents.map (fun e => e.1.2) ∧
      dst = A.ents.map (fun e => e.1.1) := by
  obtain ⟨A, hA, hh⟩ := evA_spec hg.inv.1 hg.pos
  have h1 := h.src
  have h2 := h.dst
  rw [ask_eq hg] at h1 h2
  simp only [evAsk, hA] at h1 h2
  cases h1; cases h2
  exact ⟨A, hA, hh, rfl, rfl⟩

theorem withVals_sorted {A : Sp K} (hs : Ents.Sorted A.ents) {w : List K} (hl : w.length = A.ents.length) :
    ∃ P, A.withVals w = .ok P ∧ P.coalesce =
      { rows := A.rows, cols := A.cols, ents := (A.ents.map Prod.fst).zip w } :=
  ⟨_, if_pos hl.symm, coalesce_zip hs (by rw [List.length_map]; exact hl.symm) _ _⟩

theorem map_dst (es : Ents K) : es.map (fun e => e.1.1) = (es.map Prod.fst).map Prod.fst := by
  rw [List.map_map]; rfl
theorem map_src (es : Ents K) : es.map (fun e => e.1.2) = (es.map Prod.fst).map Prod.snd := by
  rw [List.map_map]; rfl

/-- C12/C13. With explicit weights `w` (one per entry of `e_src`/`e_dst`), `aggr="sum"` gives the
weighted sum of the incoming messages and `aggr="mean"` gives that sum MULTIPLIED by the total
incoming weight. -/
theorem C13_graph_explicit_weights {g : GSt K} (hg : Built NonNeg g) {n : Nat}
    (hn : (ask .numV g).1 = .ok (.num n)) {src dst : List Nat} (he : EdgeVecs g src dst) (w : List K)
    (hw : w.length = dst.length) (X : Dense K) (hX : X.rows = n) (keep : Nat → Bool) :
    (∃ Y, (ask (.v2v X .sum (some w) 0 keep) g).1 = .ok (.feat Y) ∧
      ∀ i c, i < n → Y.at_ i c = Spec.incoming src dst w (fun j => X.at_ j c) i) ∧
    (∃ Y, (ask (.v2v X .mean (some w) 0 keep) g).1 = .ok (.feat Y) ∧
      ∀ i c, i < n → Y.at_ i c = Spec.incoming src dst w (fun _ => 1) i *
        Spec.incoming src dst w (fun j => X.at_ j c) i) := by
  obtain ⟨A, hA, h, rfl, rfl⟩ := he.ents hg
  have hn' := numV_eq hn
  rw [List.length_map] at hw
  obtain ⟨P, hP, hPc⟩ := withVals_sorted h.sorted hw
  obtain ⟨Y, hY⟩ := Sp.mmD_ok (P := P.coalesce) (X := X) (by rw [hPc]; show A.cols = _; rw [h.cols, hX, hn'])
  have hlen : (A.ents.map Prod.fst).length = w.length := by rw [List.length_map]; exact hw.symm
  have hYat : ∀ i c, Y.at_ i c = Spec.incoming (A.ents.map fun e => e.1.2) (A.ents.map fun e => e.1.1) w
      (fun j => X.at_ j c) i := by
    intro i c
    rw [map_dst, map_src]
    exact mmD_zip hlen (hPc ▸ hY) i c
  constructor
  · refine ⟨Y, ?_, fun i c _ => hYat i c⟩
    rw [ask_eq hg]
    simp only [evAsk, evV2v, hA, evDrop]
    rw [if_neg (by decide)]
    simp only [bind, Except.bind, lt_self_iff_false, if_false, hw, if_true]
    rw [hP]
    simp only
    rw [hY]; rfl
  · refine ⟨Y.scaleRows P.coalesce.rowSum, ?_, ?_⟩
    · rw [ask_eq hg]
      simp only [evAsk, evV2v, hA, evDrop]
      rw [if_neg (by decide)]
      simp only [bind, Except.bind, lt_self_iff_false, if_false, hw, if_true]
      rw [hP]
      simp only
      rw [hY]; rfl
    · intro i c hi
      unfold Dense.scaleRows
      simp only
      rw [hYat]
      congr 1
      rw [hPc]
      rw [map_dst, map_src]
      exact rowSum_zip _ _ hlen A.rows _ i (by rw [h.rows, hn']; exact hi)

/-- C13 (part that holds). The weighted mean is the weighted average at every receiver whose
incoming weights add up to 1.  Missing: other totals, where it is not
(`C13_graph_weighted_mean_false`). -/
theorem C13_graph_weighted_mean_partial {g : GSt K} (hg : Built NonNeg g) {n : Nat}
    (hn : (ask .numV g).1 = .ok (.num n)) {src dst : List Nat} (he : EdgeVecs g src dst) (w : List K)
    (hw : w.length = dst.length) (X : Dense K) (hX : X.rows = n) (keep : Nat → Bool) {Y : Dense K}
    (hY : (ask (.v2v X .mean (some w) 0 keep) g).1 = .ok (.feat Y)) (i c : Nat) (hi : i < n)
    (h1 : Spec.incoming src dst w (fun _ => 1) i = 1) :
    Y.at_ i c = Spec.incoming src dst w (fun j => X.at_ j c) i /
      Spec.incoming src dst w (fun _ => 1) i := by
  obtain ⟨Z, hZ, h⟩ := (C13_graph_explicit_weights hg hn he w hw X hX keep).2
  rw [hY] at hZ; cases hZ
  rw [h i c hi, h1, div_one, one_mul]

/-- two vertices joined by one edge -/
noncomputable def exE : GSt ℝ :=
  { raw := { numV := 2, eDict := [((0, 1), 1)], loops := [], extra := false }, cache := [] }

theorem exE_nonneg : Built NonNeg exE :=
  .new (n := 2) (arg := some (.many [(0, 1)] .none)) (extra := false) (op := .mean) rfl
    (by intro a ha; cases ha; simp [NonNeg])

theorem exE_vecs : EdgeVecs exE [1, 0] [0, 1] := by
  constructor
  · rw [ask_eq exE_nonneg]; rfl
  · rw [ask_eq exE_nonneg]; rfl

/-- C13 is false: on two vertices joined by an edge, with edge weights 2, the weighted mean of
constant features 1 is 4. -/
theorem C13_graph_weighted_mean_false :
    ¬ ∀ (g : GSt ℝ), Built NonNeg g → ∀ n, (ask .numV g).1 = .ok (.num n) → ∀ src dst,
      EdgeVecs g src dst → ∀ (w : List ℝ), w.length = dst.length → (∀ x ∈ w, 0 < x) →
      ∀ (X Y : Dense ℝ), X.rows = n → ∀ keep,
      (ask (.v2v X .mean (some w) 0 keep) g).1 = .ok (.feat Y) → ∀ i c, i < n →
      Y.at_ i c * Spec.incoming src dst w (fun _ => 1) i =
        Spec.incoming src dst w (fun j => X.at_ j c) i := by
  intro h
  have hX : ({ rows := 2, cols := 1, at_ := fun _ _ => 1 } : Dense ℝ).rows = 2 := rfl
  obtain ⟨Y, hY, hv⟩ := (C13_graph_explicit_weights exE_nonneg (n := 2) rfl exE_vecs [2, 2] rfl
    { rows := 2, cols := 1, at_ := fun _ _ => 1 } hX fun _ => true).2
  have := h exE exE_nonneg 2 rfl _ _ exE_vecs [2, 2] rfl (by simp)
    { rows := 2, cols := 1, at_ := fun _ _ => 1 } Y hX (fun _ => true) hY 0 0 (by omega)
  rw [hv 0 0 (by omega)] at this
  norm_num [Spec.incoming] at this

example : Built NonNeg exE ∧ EdgeVecs exE [1, 0] [0, 1] ∧
    Spec.incoming [1, 0] [0, 1] [(1 : ℝ), 1] (fun _ => 1) 0 = 1 :=
  ⟨exE_nonneg, exE_vecs, by norm_num [Spec.incoming]⟩

/-- C14. `softmax_then_sum` with explicit weights `w`: the output at `i` combines the incoming
messages with positive coefficients, proportional to `exp w[k]` among the messages of the same
receiver, adding up to 1 for every receiver with at least one sender. -/
theorem C14_graph_softmax [IsStrictOrderedRing K] {g : GSt K} (hg : Built NonNeg g) {n : Nat}
    (hn : (ask .numV g).1 = .ok (.num n)) {src dst : List Nat} (he : EdgeVecs g src dst) (w : List K)
    (hw : w.length = dst.length) (X : Dense K) (hX : X.rows = n) (keep : Nat → Bool) :
    ∃ (Y : Dense K) (coef : List K) (z : Nat → K),
      (ask (.v2v X .softmax (some w) 0 keep) g).1 = .ok (.feat Y) ∧
      coef.length = dst.length ∧
      (∀ i c, Y.at_ i c = Spec.incoming src dst coef (fun j => X.at_ j c) i) ∧
      (∀ i, i ∈ dst → 0 < z i) ∧
      (∀ k (h1 : k < coef.length) (h2 : k < w.length) (h3 : k < dst.length),
        coef[k] * z dst[k] = PyReal.exp w[k] ∧ 0 < coef[k]) ∧
      (∀ i, i ∈ dst → Spec.incoming src dst coef (fun _ => 1) i = 1) := by
  obtain ⟨A, hA, h, rfl, rfl⟩ := he.ents hg
  have hn' := numV_eq hn
  rw [List.length_map] at hw
  obtain ⟨P, hP, hPc⟩ := withVals_sorted h.sorted hw
  have hlen : (A.ents.map Prod.fst).length = w.length := by rw [List.length_map]; exact hw.symm
  obtain ⟨coef, z, h1, h2, h3, h4, h5⟩ := softmax_spec h.sorted hlen A.rows A.cols
  rw [← hPc] at h2
  obtain ⟨Y, hY⟩ := Sp.mmD_ok (P := P.coalesce.softmax) (X := X)
    (by rw [h2]; show A.cols = _; rw [h.cols, hX, hn'])
  rw [map_dst, map_src]
  refine ⟨Y, coef, z, ?_, by rw [h1]; simp, ?_, h3, h4, h5⟩
  · rw [ask_eq hg]
    simp only [evAsk, evV2v, hA, evDrop]
    rw [if_neg (by decide)]
    simp only [bind, Except.bind, lt_self_iff_false, if_false, hw, if_true]
    rw [hP]
    simp only
    rw [hY]; rfl
  · intro i c
    exact mmD_zip h1.symm (h2 ▸ hY) i c

/-- C14 is false when no weights are passed: the call raises `TypeError` on every graph. -/
theorem C14_graph_softmax_default_weights_false {g : GSt K} (hg : Built NonNeg g) (X : Dense K)
    (keep : Nat → Bool) : (ask (.v2v X .softmax none 0 keep) g).1 = .error .type := by
  obtain ⟨A, hA, h⟩ := evA_spec hg.inv.1 hg.pos
  rw [ask_eq hg]
  simp only [evAsk, evV2v, hA, evDrop]
  rw [if_neg (by decide)]
  simp only [bind, Except.bind, lt_self_iff_false, if_false]
  rfl

example : Built NonNeg exE ∧ EdgeVecs exE [1, 0] [0, 1] ∧ [(5 : ℝ), 6].length = [0, 1].length :=
  ⟨exE_nonneg, exE_vecs, rfl⟩

/-! ## C20 -/

/-- C20 is false: `add_edges` accepts a negative vertex id, after which reading `A` raises. -/
theorem C20_graph_in_range_false :
    ∃ g : GSt ℝ, Graph.new 3 (some (.many [(-1, 0)] .none)) false .mean = .ok g ∧
      (∃ e ∈ Spec.listing g, e.1.1 < 0) ∧ (ask .A g).1 = .error .runtime := by
  refine ⟨_, rfl, ?_, ?_⟩
  · exact ⟨((-1, 0), 1), List.mem_singleton.2 rfl, by norm_num⟩
  · rfl

/-- C20 (part that holds). If no negative id was ever passed, then after any history every listed
endpoint is a vertex, and the matrix reads succeed (those taking square roots of degrees: for
non-negative weights).  Missing: histories with negative ids, see `C20_graph_in_range_false`. -/
theorem C20_graph_in_range_partial [IsStrictOrderedRing K] {g : GSt K} (hg : Built NonNeg g) {n : Nat}
    (hn : (ask .numV g).1 = .ok (.num n)) :
    (∀ e ∈ Spec.listing g, 0 ≤ e.1.1 ∧ e.1.1 < (n : Int) ∧ 0 ≤ e.1.2 ∧ e.1.2 < (n : Int)) ∧
    (∀ q ∈ [GQuery.A, .Dv, .DvN1, .degV, .eSrc, .eDst, .eWeight, .L, .Lrw], ∃ a, (ask q g).1 = .ok a) ∧
    (Spec.NonnegWeights (Spec.listing g) →
      ∀ q ∈ [GQuery.DvN12, .Lsym, .LGCN], ∃ a, (ask q g).1 = .ok a) := by
  refine ⟨?_, ?_, ?_⟩
  · rw [listing_lst hg, ← numV_eq hn]; exact lst_InR hg.inv.1 hg.pos
  · obtain ⟨A, hA, _⟩ := evA_spec hg.inv.1 hg.pos
    obtain ⟨L, hL, _⟩ := evL_spec hg.inv.1 hg.pos
    obtain ⟨R, hR, _⟩ := evLrw_spec hg.inv.1 hg.pos
    intro q hq
    rw [ask_eq hg]
    simp only [List.mem_cons, List.not_mem_nil, or_false] at hq
    rcases hq with rfl | rfl | rfl | rfl | rfl | rfl | rfl | rfl | rfl
    · exact ⟨_, by simp only [evAsk, hA]; rfl⟩
    · exact ⟨_, by simp only [evAsk]; rw [evDv_spec hg.inv.1 hg.pos]; rfl⟩
    · exact ⟨_, by simp only [evAsk]; rw [evDvN1_spec hg.inv.1 hg.pos]; rfl⟩
    · exact ⟨_, by simp only [evAsk]; rw [evDv_spec hg.inv.1 hg.pos]; rfl⟩
    · exact ⟨_, by simp only [evAsk, hA]; rfl⟩
    · exact ⟨_, by simp only [evAsk, hA]; rfl⟩
    · exact ⟨_, by simp only [evAsk, hA]; rfl⟩
    · exact ⟨_, by simp only [evAsk, hL]; rfl⟩
    · exact ⟨_, by simp only [evAsk, hR]; rfl⟩
  · intro hw q hq
    simp only [List.mem_cons, List.not_mem_nil, or_false] at hq
    rcases hq with rfl | rfl | rfl
    · obtain ⟨D, h, _⟩ := C09_graph_Dv_neg_half hg hn hw; exact ⟨_, h⟩
    · obtain ⟨D, s, h, _⟩ := C09_graph_Lsym hg hn hw; exact ⟨_, h⟩
    · obtain ⟨D, s, h, _⟩ := C11_graph_LGCN hg hn hw; exact ⟨_, h⟩

example : Built NonNeg exG ∧ Spec.NonnegWeights (Spec.listing exG) := ⟨exG_nonneg, exG_nonnegWeights⟩

end Props
end DHG
