import Verif.HyperMsg
import Verif.Props.HyperMatrices

/-!
# Properties of `Hypergraph`: message passing and agreement of group-wise and global reads

Same conventions as in `HyperMatrices.lean`.  All message passing statements are for
`drop_rate = 0`.
-/

set_option linter.unusedSectionVars false
set_option autoImplicit false

namespace DHG

namespace Spec
variable {K : Type} [Field K]

/-- sum of the features `x` of the vertices of the `j`-th listed hyperedge -/
def memberSum (l : List (List Int × K)) (j : Nat) (x : Nat → K) : K :=
  ((hAt l j).map fun v => x v.toNat).sum

/-- sum of the features `y` of the listed hyperedges containing the vertex `v` -/
def incidentSum (l : List (List Int × K)) (v : Nat) (y : Nat → K) : K :=
  ∑ k ∈ Finset.range l.length, if (v : Int) ∈ hAt l k then y k else 0

/-- number of listed hyperedges containing the vertex `v` -/
def incidentNum (l : List (List Int × K)) (v : Nat) : K := incidentSum l v fun _ => 1

end Spec

namespace Props

open Hyper Finset

variable {K : Type} [Field K] [LinearOrder K] [PyReal K] {b : Bool}

namespace Hy

theorem memberSum_eq {n : Nat} {l : List (List Int × K)} (h : Rng n l) {j : Nat} (hj : j < l.length)
    (x : Nat → K) : ∑ v ∈ range n, Spec.inc l v j * x v = Spec.memberSum l j x := by
  unfold Spec.inc Spec.memberSum
  have hr := h _ (List.getElem_mem hj)
  rw [hAt_of_lt hj]
  generalize (l[j]).1 = e at *
  obtain ⟨hn, hr⟩ := hr
  induction e with
  | nil => simp
  | cons v e ih =>
    have hv := hr v List.mem_cons_self
    rw [List.nodup_cons] at hn
    have h1 : ∀ i ∈ range n, (if (i : Int) ∈ v :: e then (1 : K) else 0) * x i =
        (if i = v.toNat then x i else 0) + (if (i : Int) ∈ e then 1 else 0) * x i := by
      intro i _
      by_cases hi : i = v.toNat
      · have : (i : Int) = v := by omega
        rw [this, if_pos List.mem_cons_self, if_neg hn.1, if_pos hi]; ring
      · have hne : (i : Int) ≠ v := by omega
        rw [if_neg hi, zero_add]
        simp only [List.mem_cons, hne, false_or]
    rw [sum_congr rfl h1, sum_add_distrib, ih hn.2 fun w hw => hr w (List.mem_cons_of_mem _ hw)]
    rw [Finset.sum_ite_eq' (range n), if_pos (mem_range.2 (by omega)), List.map_cons, List.sum_cons]

theorem incidentSum_eq (l : List (List Int × K)) (v : Nat) (y : Nat → K) :
    ∑ k ∈ range l.length, Spec.inc l v k * y k = Spec.incidentSum l v y := by
  unfold Spec.incidentSum Spec.inc
  exact sum_congr rfl fun k _ => by split <;> simp

theorem chk_ok {r : HRaw K} {sc : Option String} (h : Has sc r) : chk sc r = .ok () := by
  cases sc with
  | none => rfl
  | some g =>
    obtain ⟨d, hd⟩ := Option.isSome_iff_exists.1 h
    simp [chk, Dict.has, hd]

theorem incM_isMat {n : Nat} {l : List (List Int × K)} {M : Sp K} (h : IncM n l M) :
    Spec.IsMat n l.length (Spec.inc l) M ∧ Spec.IsMat l.length n (fun j v => Spec.inc l v j) M.t :=
  ⟨⟨h.rows, h.cols, h.wf, fun i j h1 _ => h.get h1 j⟩,
    ⟨h.cols, h.rows, h.wf.t, fun j i _ h1 => by rw [Sp.get_t]; exact h.get h1 j⟩⟩

theorem evV2eAggr_spec {r : HRaw K} (hi : Hyper.Inv r) (hr : InRange r) {sc : Option String} (h : Has sc r)
    (X : Dense K) (hX : X.rows = r.numV) (keep : Nat → Bool) :
    (∃ Y, evV2eAggr sc X .sum none 0 keep r = .ok Y ∧ Y.rows = (lstOf sc r).length ∧ Y.cols = X.cols ∧
      ∀ j c, j < (lstOf sc r).length → Y.at_ j c = Spec.memberSum (lstOf sc r) j fun v => X.at_ v c) ∧
    (∃ Y, evV2eAggr sc X .mean none 0 keep r = .ok Y ∧ Y.rows = (lstOf sc r).length ∧ Y.cols = X.cols ∧
      ∀ j c, j < (lstOf sc r).length →
        Y.at_ j c = Spec.memberSum (lstOf sc r) j (fun v => X.at_ v c) / Spec.hSize (lstOf sc r) j) := by
  obtain ⟨M, hM, hT, hI⟩ := evHT_spec hi hr h
  have hm := (incM_isMat hI).2
  have hR := lst_rng hi hr sc
  constructor
  · obtain ⟨Y, hY, h1, h2, h3⟩ := agg_sum (evD := evDeN1 sc) hT hm X hX keep
    refine ⟨Y, ?_, h1, h2, fun j c hj => ?_⟩
    · simp only [evV2eAggr, chk_ok h]; exact hY
    · rw [h3 j c hj, ← memberSum_eq hR hj]
  · obtain ⟨Y, hY, h1, h2, h3⟩ := agg_mean hT hm (evDeN1_spec hi hr h) X hX keep
    refine ⟨Y, ?_, h1, h2, fun j c hj => ?_⟩
    · simp only [evV2eAggr, chk_ok h]; exact hY
    · rw [h3 j c hj, ← memberSum_eq hR hj, div_eq_inv_mul]

theorem evV2e_spec {r : HRaw K} (hi : Hyper.Inv r) {sc : Option String} (h : Has sc r) {X Y : Dense K}
    {aggr : Aggr} {w : Option (List K)} {rate : K} {keep : Nat → Bool}
    (hY : evV2eAggr sc X aggr w rate keep r = .ok Y) (hr : Y.rows = (lstOf sc r).length) :
    ∃ Z, evV2e sc X aggr w none rate keep r = .ok Z ∧ Z.rows = (lstOf sc r).length ∧ Z.cols = Y.cols ∧
      ∀ j c, j < (lstOf sc r).length → Z.at_ j c = Spec.hWt (lstOf sc r) j * Y.at_ j c := by
  obtain ⟨Z, hZ⟩ := Sp.mmD_ok (P := Sp.diag ((List.range (lstOf sc r).length).map (Spec.hWt (lstOf sc r))))
    (X := Y) (by rw [hr]; simp [Sp.diag_cols])
  have hs := Sp.mmD_shape hZ
  refine ⟨Z, ?_, hs.2.1.trans (by simp [Sp.diag_rows]), hs.2.2, fun j c hj => Sp.diag_mmD_at hZ hj c⟩
  simp only [evV2e, evV2eUpd, chk_ok h, hY, evWe_spec hi h, bind, Except.bind]
  exact hZ

theorem evE2v_spec {r : HRaw K} (hi : Hyper.Inv r) (hr : InRange r) {sc : Option String} (h : Has sc r)
    (Y : Dense K) (hY : Y.rows = (lstOf sc r).length) (keep : Nat → Bool) :
    (∃ Z, evE2v sc Y .sum none 0 keep r = .ok Z ∧ Z.rows = r.numV ∧ Z.cols = Y.cols ∧
      ∀ v c, v < r.numV → Z.at_ v c = Spec.incidentSum (lstOf sc r) v fun k => Y.at_ k c) ∧
    (∃ Z, evE2v sc Y .mean none 0 keep r = .ok Z ∧ Z.rows = r.numV ∧ Z.cols = Y.cols ∧
      ∀ v c, v < r.numV →
        Z.at_ v c = Spec.incidentSum (lstOf sc r) v (fun k => Y.at_ k c) / Spec.hDeg (lstOf sc r) v) := by
  obtain ⟨M, hM, hT, hI⟩ := evHT_spec hi hr h
  have hm := (incM_isMat hI).1
  constructor
  · obtain ⟨Z, hZ, h1, h2, h3⟩ := agg_sum (evD := evDvN1 sc) hM hm Y hY keep
    refine ⟨Z, ?_, h1, h2, fun v c hv => ?_⟩
    · simp only [evE2v, evE2vAggr, evE2vUpd, chk_ok h, bind, Except.bind]; rw [hZ]
    · rw [h3 v c hv, incidentSum_eq]
  · obtain ⟨Z, hZ, h1, h2, h3⟩ := agg_mean hM hm (evDvN1_spec hi hr h) Y hY keep
    refine ⟨Z, ?_, h1, h2, fun v c hv => ?_⟩
    · simp only [evE2v, evE2vAggr, evE2vUpd, chk_ok h, bind, Except.bind]; rw [hZ]
    · rw [h3 v c hv, incidentSum_eq, div_eq_inv_mul]

end Hy
open Hy

/-! ## C37 -/

/-- C37, partial. `v2e` with `aggr='sum'` (resp. `'mean'`) gives each listed hyperedge its weight times
the sum (resp. average) of the features of its vertices. Missing: a hypergraph without groups. -/
theorem C37_hypergraph_v2e_partial {s : HSt K} (hs : Built Proper b s) {sc : Option String}
    (hsc : Spec.HasScope s sc) {n : Nat} (hn : (ask .numV s).1 = .ok (.num n)) (X : Dense K)
    (hX : X.rows = n) (keep : Nat → Bool) :
    let l := Spec.hListing s sc
    (∃ Y, (ask (.v2e sc X .sum none none 0 keep) s).1 = .ok (.feat Y) ∧ Y.rows = l.length ∧
      Y.cols = X.cols ∧ ∀ j c, j < l.length →
        Y.at_ j c = Spec.hWt l j * Spec.memberSum l j fun v => X.at_ v c) ∧
    (∃ Y, (ask (.v2e sc X .mean none none 0 keep) s).1 = .ok (.feat Y) ∧ Y.rows = l.length ∧
      Y.cols = X.cols ∧ ∀ j c, j < l.length →
        Y.at_ j c = Spec.hWt l j * (Spec.memberSum l j (fun v => X.at_ v c) / Spec.hSize l j)) := by
  have hs' := hs.mono (Q := AnyH) fun _ _ _ => trivial
  obtain ⟨hi, hc⟩ := hs'.inv
  have hh := has_of_scope hsc
  rw [listing_eq hs']
  obtain ⟨⟨A, hA, a1, a2, a3⟩, ⟨B, hB, b1, b2, b3⟩⟩ :=
    evV2eAggr_spec hi hs.inRange hh X (hX.trans (numV_eq hn).symm) keep
  constructor
  · obtain ⟨Y, hY, h1, h2, h3⟩ := evV2e_spec hi hh hA a1
    refine ⟨Y, ?_, h1, h2.trans a2, fun j c hj => ?_⟩
    · rw [ask_eq _ hc (.inr (by simp))]; simp only [evAsk, hY]; rfl
    · rw [h3 j c hj, a3 j c hj]
  · obtain ⟨Y, hY, h1, h2, h3⟩ := evV2e_spec hi hh hB b1
    refine ⟨Y, ?_, h1, h2.trans b2, fun j c hj => ?_⟩
    · rw [ask_eq _ hc (.inr (by simp))]; simp only [evAsk, hY]; rfl
    · rw [h3 j c hj, b3 j c hj]

/-- C37, partial. `e2v` with `aggr='sum'` adds the features of the incident hyperedges; with
`aggr='mean'` it divides that sum by the vertex degree, i.e. by the total weight of the incident
hyperedges.  This is the average when those weights are all 1. Missing: other weights
(`C37_hypergraph_e2v_mean_false`), a hypergraph without groups. -/
theorem C37_hypergraph_e2v_partial {s : HSt K} (hs : Built Proper b s) {sc : Option String}
    (hsc : Spec.HasScope s sc) {n : Nat} (hn : (ask .numV s).1 = .ok (.num n)) (Y : Dense K)
    (hY : Y.rows = (Spec.hListing s sc).length) (keep : Nat → Bool) :
    let l := Spec.hListing s sc
    (∃ Z, (ask (.e2v sc Y .sum none 0 keep) s).1 = .ok (.feat Z) ∧ Z.rows = n ∧ Z.cols = Y.cols ∧
      ∀ v c, v < n → Z.at_ v c = Spec.incidentSum l v fun k => Y.at_ k c) ∧
    (∃ Z, (ask (.e2v sc Y .mean none 0 keep) s).1 = .ok (.feat Z) ∧ Z.rows = n ∧ Z.cols = Y.cols ∧
      ∀ v c, v < n →
        Z.at_ v c = Spec.incidentSum l v (fun k => Y.at_ k c) / Spec.hDeg l v ∧
        ((∀ e ∈ l, (v : Int) ∈ e.1 → e.2 = 1) →
          Z.at_ v c = Spec.incidentSum l v (fun k => Y.at_ k c) / Spec.incidentNum l v)) := by
  have hs' := hs.mono (Q := AnyH) fun _ _ _ => trivial
  obtain ⟨hi, hc⟩ := hs'.inv
  have hh := has_of_scope hsc
  rw [listing_eq hs'] at hY ⊢
  rw [← numV_eq hn]
  obtain ⟨⟨A, hA, a1, a2, a3⟩, ⟨B, hB, b1, b2, b3⟩⟩ := evE2v_spec hi hs.inRange hh Y hY keep
  refine ⟨⟨A, ?_, a1, a2, a3⟩, ⟨B, ?_, b1, b2, fun v c hv => ⟨b3 v c hv, fun h1 => ?_⟩⟩⟩
  · rw [ask_eq _ hc (.inr (by simp))]; simp only [evAsk, hA]; rfl
  · rw [ask_eq _ hc (.inr (by simp))]; simp only [evAsk, hB]; rfl
  · rw [b3 v c hv]
    congr 1
    unfold Spec.incidentNum
    rw [← incidentSum_eq, ← sum_inc_wt]
    apply sum_congr rfl
    intro k hk
    rw [mem_range] at hk
    unfold Spec.inc
    by_cases hm : (v : Int) ∈ Spec.hAt (lstOf sc s.raw) k
    · rw [hAt_of_lt hk] at hm
      rw [hWt_of_lt hk, h1 _ (List.getElem_mem hk) hm]
    · rw [if_neg hm, zero_mul, zero_mul]

/-- C37 is false for `e2v` with `aggr='mean'` as an average: on a hyperedge of weight 2, the vertex
receives half of the feature of its only hyperedge. -/
theorem C37_hypergraph_e2v_mean_false :
    ¬ ∀ (s : HSt ℝ), Built Proper true s → ∀ n, (ask .numV s).1 = .ok (.num n) →
      ∀ sc, Spec.HasScope s sc → ∀ (Y Z : Dense ℝ) keep, Y.rows = (Spec.hListing s sc).length →
      (ask (.e2v sc Y .mean none 0 keep) s).1 = .ok (.feat Z) → ∀ v c, v < n →
      Z.at_ v c * Spec.incidentNum (Spec.hListing s sc) v =
        Spec.incidentSum (Spec.hListing s sc) v fun k => Y.at_ k c := by
  intro h
  have hl : Spec.hListing exH none = [([0, 1, 2], 2), ([1, 3], 3), ([3], 5)] := rfl
  obtain ⟨Z, hZ, _, _, hv⟩ := (C37_hypergraph_e2v_partial exH_proper (sc := none) (List.cons_ne_nil _ _)
    (n := 4) rfl { rows := 3, cols := 1, at_ := fun _ _ => 1 } rfl fun _ => true).2
  have := h exH exH_proper 4 rfl none (List.cons_ne_nil _ _) _ Z _ rfl hZ 0 0 (by norm_num)
  rw [(hv 0 0 (by norm_num)).1, hl] at this
  simp only [Spec.incidentNum, Spec.incidentSum, Spec.hDeg, Spec.hAt, List.length_cons, List.length_nil,
    sum_range_succ, sum_range_zero] at this
  norm_num at this

/-- C37. `v2v` is `e2v` after `v2e`, with the aggregation, weights and drop rates given for each half
(the common argument where none is given); errors included. -/
theorem C37_hypergraph_v2v_is_composition {s : HSt K} (hs : Built AnyH b s) {sc : Option String}
    (hsc : Spec.HasScope s sc) (X : Dense K) (a : V2VArgs K) :
    (∀ Y, (ask (.v2e sc X (a.v2eAggr.getD a.aggr) a.v2eWeight a.eWeight (a.v2eRate.getD a.rate) a.keep1) s).1 =
        .ok (.feat Y) →
      (ask (.v2v sc X a) s).1 =
        (ask (.e2v sc Y (a.e2vAggr.getD a.aggr) a.e2vWeight (a.e2vRate.getD a.rate) a.keep2) s).1) ∧
    (∀ e, (ask (.v2e sc X (a.v2eAggr.getD a.aggr) a.v2eWeight a.eWeight (a.v2eRate.getD a.rate) a.keep1) s).1 =
        .error e → (ask (.v2v sc X a) s).1 = .error e) := by
  obtain ⟨hi, hc⟩ := hs.inv
  have hh := has_of_scope hsc
  constructor
  · intro Y hY
    rw [ask_eq _ hc (.inr (by simp))] at hY
    rw [ask_eq _ hc (.inr (by simp)), ask_eq _ hc (.inr (by simp))]
    simp only [evAsk, evV2v, chk_ok hh, bind, Except.bind] at hY ⊢
    split at hY
    · cases hY
    · rename_i Z hZ
      cases hY
      rfl
  · intro e hY
    rw [ask_eq _ hc (.inr (by simp))] at hY
    rw [ask_eq _ hc (.inr (by simp))]
    simp only [evAsk, evV2v, chk_ok hh, bind, Except.bind] at hY ⊢
    split at hY
    · rename_i e' he
      cases hY
      rfl
    · cases hY

/-- C37. `v2v` with `aggr='mean'` keeps features that are the same at every vertex, at every vertex of
nonzero degree. -/
theorem C37_hypergraph_v2v_mean_constant [IsStrictOrderedRing K] {s : HSt K} (hs : Built Proper b s)
    {sc : Option String} (hsc : Spec.HasScope s sc) {n : Nat} (hn : (ask .numV s).1 = .ok (.num n))
    (X : Dense K) (hX : X.rows = n) (k : Nat → K) (hk : ∀ v c, v < n → X.at_ v c = k c)
    (keep1 keep2 : Nat → Bool) :
    ∃ Z, (ask (.v2v sc X { aggr := .mean, rate := 0, keep1 := keep1, keep2 := keep2 }) s).1 = .ok (.feat Z) ∧ Z.rows = n ∧ Z.cols = X.cols ∧
      ∀ v c, v < n → Spec.hDeg (Spec.hListing s sc) v ≠ 0 → Z.at_ v c = k c := by
  have hs' := hs.mono (Q := AnyH) fun _ _ _ => trivial
  obtain ⟨Y, hY, y1, y2, y3⟩ := (C37_hypergraph_v2e_partial hs hsc hn X hX keep1).2
  obtain ⟨Z, hZ, z1, z2, z3⟩ := (C37_hypergraph_e2v_partial hs hsc hn Y y1 keep2).2
  refine ⟨Z, ?_, z1, z2.trans y2, ?_⟩
  · have := (C37_hypergraph_v2v_is_composition hs' hsc X
      { aggr := .mean, rate := 0, keep1 := keep1, keep2 := keep2 }).1 Y
    simp only [Option.getD_none] at this
    rw [this hY]
    exact hZ
  · intro v c hv hd
    rw [(z3 v c hv).1]
    have hR : Rng n (Spec.hListing s sc) := by
      rw [listing_eq hs', ← numV_eq hn]; exact lst_rng hs'.inv.1 hs.inRange sc
    generalize Spec.hListing s sc = l at *
    have : Spec.incidentSum l v (fun j => Y.at_ j c) = Spec.hDeg l v * k c := by
      rw [← incidentSum_eq, ← sum_inc_wt, sum_mul]
      apply sum_congr rfl
      intro j hj
      rw [mem_range] at hj
      by_cases hm : (v : Int) ∈ Spec.hAt l j
      · have hz := size_ne_zero hm
        rw [y3 j c hj, ← memberSum_eq hR hj,
          sum_congr rfl fun u hu => by rw [hk u c (mem_range.1 hu)], ← sum_mul, sum_inc hR hj]
        field_simp
      · unfold Spec.inc; rw [if_neg hm]; simp
    rw [this, mul_div_cancel_left₀ _ hd]

example : Built Proper true exH ∧ Spec.HasScope exH (some "main") ∧ (ask .numV exH).1 = .ok (.num 4) ∧
    Spec.hDeg (Spec.hListing exH (some "main")) 1 ≠ 0 ∧
    Spec.memberSum (Spec.hListing exH none) 1 (fun v => (v : ℝ)) = 4 ∧
    ∀ v c : Nat, v < 4 → ({ rows := 4, cols := 2, at_ := fun _ c => (c : ℝ) } : Dense ℝ).at_ v c = c := by
  refine ⟨exH_proper, List.mem_cons_self, rfl, ?_, ?_, fun _ _ _ => rfl⟩
  · rw [show Spec.hListing exH (some "main") = [([0, 1, 2], 2), ([1, 3], 3)] from rfl]
    norm_num [Spec.hDeg]
  · rw [show Spec.hListing exH none = [([0, 1, 2], 2), ([1, 3], 3), ([3], 5)] from rfl]
    norm_num [Spec.memberSum, Spec.hAt, show Int.toNat 3 = 3 from rfl]

/-- C37 fails for a hypergraph without groups: message passing raises. -/
theorem C37_hypergraph_no_groups_false :
    ¬ ∀ (s : HSt ℝ), Built Proper true s → ∀ (X : Dense ℝ), (ask .numV s).1 = .ok (.num X.rows) →
      ∃ Y, (ask (.v2e none X .mean none none 0 fun _ => true) s).1 = .ok (.feat Y) := by
  intro h
  obtain ⟨H, hH⟩ := h exHe exHe_proper { rows := 3, cols := 1, at_ := fun _ _ => 0 } rfl
  have h0 : (ask (K := ℝ) (.v2e none { rows := 3, cols := 1, at_ := fun _ _ => 0 } .mean none none 0 fun _ => true)
    exHe).1 = .error .runtime := rfl
  rw [h0] at hH
  cases hH

/-! ## C13, C14 -/

/-- the two halves of message passing -/
inductive Half | v2e | e2v

/-- `v2e_aggregation` or `e2v_aggregation` -/
def aggQ (h : Half) (sc : Option String) (X : Dense K) (aggr : Aggr) (w : Option (List K)) (rate : K)
    (keep : Nat → Bool) : HQuery K :=
  match h with
  | .v2e => .v2eAggr sc X aggr w rate keep
  | .e2v => .e2vAggr sc X aggr w rate keep

/-- senders and receivers of the messages as reported by `v2e_src, v2e_dst` or `e2v_src, e2v_dst` -/
def HEnds (h : Half) (s : HSt K) (sc : Option String) (send recv : List Nat) : Prop :=
  match h with
  | .v2e => (ask (.v2eSrc sc) s).1 = .ok (.idx send) ∧ (ask (.v2eDst sc) s).1 = .ok (.idx recv)
  | .e2v => (ask (.e2vSrc sc) s).1 = .ok (.idx send) ∧ (ask (.e2vDst sc) s).1 = .ok (.idx recv)

/-- number of senders: vertices for `v2e`, hyperedges for `e2v` -/
def Senders (h : Half) (s : HSt K) (sc : Option String) (m : Nat) : Prop :=
  match h with
  | .v2e => (ask .numV s).1 = .ok (.num m)
  | .e2v => (ask (.numE sc) s).1 = .ok (.num m)

/-- number of receivers -/
def Receivers (h : Half) (s : HSt K) (sc : Option String) (m : Nat) : Prop :=
  match h with
  | .v2e => (ask (.numE sc) s).1 = .ok (.num m)
  | .e2v => (ask .numV s).1 = .ok (.num m)

namespace Hy

/-- the matrix used by a half -/
theorem half_spec {s : HSt K} (hs : Built Proper b s) {sc : Option String} (hsc : Spec.HasScope s sc)
    (h : Half) : ∃ (P : Sp K) (evP evD : HRaw K → Except Err (Sp K)), evP s.raw = .ok P ∧
      (P.ents.map Prod.fst).Nodup ∧
      (∀ send recv, HEnds h s sc send recv → send = P.ents.map (fun e => e.1.2) ∧
        recv = P.ents.map (fun e => e.1.1)) ∧
      (∀ m, Senders h s sc m → P.cols = m) ∧ (∀ m, Receivers h s sc m → P.rows = m) ∧
      (∀ (X : Dense K) aggr w rate keep, (ask (aggQ h sc X aggr w rate keep) s).1 =
        (evAgg evP evD X aggr w rate keep s.raw).map .feat) := by
  have hs' := hs.mono (Q := AnyH) fun _ _ _ => trivial
  obtain ⟨hi, hc⟩ := hs'.inv
  have hh := has_of_scope hsc
  obtain ⟨M, hM, hT, hI⟩ := evHT_spec hi hs.inRange hh
  have hnumE : (ask (.numE sc) s).1 = .ok (.num (lstOf sc s.raw).length) := by
    rw [ask_eq _ hc (.inr (by simp))]; simp only [evAsk, evNumE_spec (.inl hh)]; rfl
  cases h with
  | v2e =>
    refine ⟨M.t, evHT sc, evDeN1 sc, hT, ?_, ?_, ?_, ?_, ?_⟩
    · have : M.t.ents.map Prod.fst = (M.ents.map Prod.fst).map Prod.swap := by
        simp only [Sp.t, List.map_map]; rfl
      rw [this]; exact hI.nodup.map Prod.swap_injective
    · intro send recv he
      obtain ⟨h1, h2⟩ := he
      rw [ask_eq _ hc (.inr (by simp))] at h1 h2
      simp only [evAsk, hT, bind, Except.bind] at h1 h2
      cases h1; cases h2; exact ⟨rfl, rfl⟩
    · intro m hm; exact hI.rows.trans (numV_eq hm)
    · intro m hm
      simp only [Receivers] at hm
      rw [hnumE] at hm; cases hm
      exact hI.cols
    · intro X aggr w rate keep
      simp only [aggQ]
      rw [ask_eq _ hc (.inr (by simp))]
      simp only [evAsk, evV2eAggr, chk_ok hh, bind, Except.bind]
      cases evAgg (evHT sc) (evDeN1 sc) X aggr w rate keep s.raw <;> rfl
  | e2v =>
    refine ⟨M, evH sc, evDvN1 sc, hM, hI.nodup, ?_, ?_, ?_, ?_⟩
    · intro send recv he
      obtain ⟨h1, h2⟩ := he
      rw [ask_eq _ hc (.inr (by simp))] at h1 h2
      simp only [evAsk, hM, bind, Except.bind] at h1 h2
      cases h1; cases h2; exact ⟨rfl, rfl⟩
    · intro m hm
      simp only [Senders] at hm
      rw [hnumE] at hm; cases hm
      exact hI.cols
    · intro m hm; exact hI.rows.trans (numV_eq hm)
    · intro X aggr w rate keep
      simp only [aggQ]
      rw [ask_eq _ hc (.inr (by simp))]
      simp only [evAsk, evE2vAggr, chk_ok hh, bind, Except.bind]
      cases evAgg (evH sc) (evDvN1 sc) X aggr w rate keep s.raw <;> rfl

end Hy
open Hy

/-- C13 (Hypergraph). With explicit weights, `sum` is the weighted sum of the incoming messages and
`mean` is that sum MULTIPLIED by the total incoming weight, for both halves. -/
theorem C13_hypergraph_explicit_weights {s : HSt K} (hs : Built Proper b s) {sc : Option String}
    (hsc : Spec.HasScope s sc) {h : Half} {send recv : List Nat} (he : HEnds h s sc send recv) {m n : Nat}
    (hm : Senders h s sc m) (hn : Receivers h s sc n) (w : List K)
    (hw : w.length = recv.length) (X : Dense K) (hX : X.rows = m) (keep : Nat → Bool) :
    (∃ Y, (ask (aggQ h sc X .sum (some w) 0 keep) s).1 = .ok (.feat Y) ∧
      ∀ i c, Y.at_ i c = Spec.incoming send recv w (fun j => X.at_ j c) i) ∧
    (∃ Y, (ask (aggQ h sc X .mean (some w) 0 keep) s).1 = .ok (.feat Y) ∧
      ∀ i c, i < n → Y.at_ i c = Spec.incoming send recv w (fun _ => 1) i *
        Spec.incoming send recv w (fun j => X.at_ j c) i) := by
  obtain ⟨P, evP, evD, hP, _, h1, h2, h3, h4⟩ := half_spec hs hsc h
  obtain ⟨rfl, rfl⟩ := h1 _ _ he
  have hc := h2 m hm
  have hr := h3 n hn
  obtain ⟨⟨Y, hY, y⟩, ⟨Z, hZ, z⟩⟩ := aggW_spec (evD := evD) hP w (by simpa using hw) X (hX.trans hc.symm) keep
  exact ⟨⟨Y, by rw [h4, hY]; rfl, y⟩, ⟨Z, by rw [h4, hZ]; rfl, fun i c hi => z i c (by omega)⟩⟩

/-- C13 (Hypergraph), partial: the weighted mean is the weighted average at receivers whose incoming
weights add up to 1. Missing: other totals, see `C13_hypergraph_weighted_mean_false`. -/
theorem C13_hypergraph_weighted_mean_partial {s : HSt K} (hs : Built Proper b s) {sc : Option String}
    (hsc : Spec.HasScope s sc) {h : Half} {send recv : List Nat} (he : HEnds h s sc send recv) {m n : Nat}
    (hm : Senders h s sc m) (hn : Receivers h s sc n) (w : List K)
    (hw : w.length = recv.length) (X : Dense K) (hX : X.rows = m) (keep : Nat → Bool) {Y : Dense K}
    (hY : (ask (aggQ h sc X .mean (some w) 0 keep) s).1 = .ok (.feat Y)) (i c : Nat) (hi : i < n)
    (h1 : Spec.incoming send recv w (fun _ => 1) i = 1) :
    Y.at_ i c = Spec.incoming send recv w (fun j => X.at_ j c) i /
      Spec.incoming send recv w (fun _ => 1) i := by
  obtain ⟨Z, hZ, hz⟩ := (C13_hypergraph_explicit_weights hs hsc he hm hn w hw X hX keep).2
  rw [hY] at hZ; cases hZ
  rw [hz i c hi, h1, div_one, one_mul]

/-- example: one hyperedge `{1}` on two vertices -/
noncomputable def exH1 : HSt ℝ :=
  { raw := { numV := 2, vWeight := some [1, 1], groups := [("main", [([1], 1)])] }, cache := [] }

theorem exH1_proper : Built Proper true exH1 := by
  refine .new (n := 2) (arg := some (.many true [⟨true, [1]⟩])) (ew := .none) (vw := none) (op := .mean) rfl ?_
  intro a ha; cases ha
  intro e he
  simp only [argEdges, List.map_cons, List.map_nil, List.mem_cons, List.not_mem_nil, or_false] at he
  subst he; decide

theorem exH1_ends : HEnds .v2e exH1 none [1] [0] := by
  constructor
  · rw [ask_eq _ exH1_proper.inv.2 (.inl rfl)]; rfl
  · rw [ask_eq _ exH1_proper.inv.2 (.inl rfl)]; rfl

/-- C13 (Hypergraph) is false: on one hyperedge with one vertex and weight 2, the weighted mean of the
constant feature 1 is 4. -/
theorem C13_hypergraph_weighted_mean_false :
    ¬ ∀ (s : HSt ℝ) (b : Bool), Built Proper b s → ∀ sc, Spec.HasScope s sc → ∀ h send recv,
      HEnds h s sc send recv → ∀ m n, Senders h s sc m → Receivers h s sc n →
      ∀ (w : List ℝ), w.length = recv.length → (∀ x ∈ w, 0 < x) →
      ∀ (X Y : Dense ℝ), X.rows = m → ∀ keep,
      (ask (aggQ h sc X .mean (some w) 0 keep) s).1 = .ok (.feat Y) → ∀ i c, i < n →
      Y.at_ i c * Spec.incoming send recv w (fun _ => 1) i =
        Spec.incoming send recv w (fun j => X.at_ j c) i := by
  intro h
  have hsc : Spec.HasScope exH1 none := List.cons_ne_nil _ _
  obtain ⟨Y, hY, hv⟩ := (C13_hypergraph_explicit_weights exH1_proper hsc exH1_ends (m := 2) (n := 1) rfl rfl
    [2] rfl { rows := 2, cols := 1, at_ := fun _ _ => 1 } rfl fun _ => true).2
  have := h exH1 true exH1_proper none hsc _ _ _ exH1_ends 2 1 rfl rfl [2] rfl (by simp)
    _ Y rfl _ hY 0 0 (by omega)
  rw [hv 0 0 (by omega)] at this
  norm_num [Spec.incoming] at this

/-- C14 (Hypergraph). `softmax_then_sum` with explicit weights: coefficients are positive, proportional
to `exp w[k]` among the messages of the same receiver, and add up to 1 there. -/
theorem C14_hypergraph_softmax [IsStrictOrderedRing K] {s : HSt K} (hs : Built Proper b s)
    {sc : Option String} (hsc : Spec.HasScope s sc) {h : Half} {send recv : List Nat}
    (he : HEnds h s sc send recv) {m : Nat} (hm : Senders h s sc m) (w : List K)
    (hw : w.length = recv.length) (X : Dense K) (hX : X.rows = m) (keep : Nat → Bool) :
    ∃ (Y : Dense K) (coef : List K) (z : Nat → K),
      (ask (aggQ h sc X .softmax (some w) 0 keep) s).1 = .ok (.feat Y) ∧
      coef.length = recv.length ∧
      (∀ i c, Y.at_ i c = Spec.incoming send recv coef (fun j => X.at_ j c) i) ∧
      (∀ i, i ∈ recv → 0 < z i) ∧
      (∀ k (h1 : k < coef.length) (h2 : k < w.length) (h3 : k < recv.length),
        coef[k] * z recv[k] = PyReal.exp w[k] ∧ 0 < coef[k]) ∧
      (∀ i, i ∈ recv → Spec.incoming send recv coef (fun _ => 1) i = 1) := by
  obtain ⟨P, evP, evD, hP, hnd, h1, h2, h3, h4⟩ := half_spec hs hsc h
  obtain ⟨rfl, rfl⟩ := h1 _ _ he
  obtain ⟨Y, coef, z, hY, hrest⟩ := aggW_softmax (evD := evD) hP hnd w (by simpa using hw) X
    (hX.trans (h2 m hm).symm) keep
  exact ⟨Y, coef, z, by rw [h4, hY]; rfl, hrest⟩

/-- C14 (Hypergraph). Without explicit weights, `softmax_then_sum` acts as with the weights reported by
`v2e_weight` (`e2v_weight`). -/
theorem C14_hypergraph_softmax_default {s : HSt K} (hs : Built Proper b s)
    {sc : Option String} (hsc : Spec.HasScope s sc) {ws : List K} (X : Dense K) (rate : K) (keep : Nat → Bool) :
    ((ask (.v2eWeight sc) s).1 = .ok (.vec ws) →
      (ask (.v2eAggr sc X .softmax none rate keep) s).1 = (ask (.v2eAggr sc X .softmax (some ws) rate keep) s).1) ∧
    ((ask (.e2vWeight sc) s).1 = .ok (.vec ws) →
      (ask (.e2vAggr sc X .softmax none rate keep) s).1 = (ask (.e2vAggr sc X .softmax (some ws) rate keep) s).1) := by
  have hs' := hs.mono (Q := AnyH) fun _ _ _ => trivial
  obtain ⟨hi, hc⟩ := hs'.inv
  have hh := has_of_scope hsc
  obtain ⟨M, hM, hT, hI⟩ := evHT_spec hi hs.inRange hh
  constructor
  · intro h
    rw [ask_eq _ hc (.inr (by simp))] at h ⊢
    rw [ask_eq _ hc (.inr (by simp))]
    simp only [evAsk, hT, bind, Except.bind] at h
    cases h
    simp only [evAsk, evV2eAggr, agg_softmax_default hT]
  · intro h
    rw [ask_eq _ hc (.inr (by simp))] at h ⊢
    rw [ask_eq _ hc (.inr (by simp))]
    simp only [evAsk, hM, bind, Except.bind] at h
    cases h
    simp only [evAsk, evE2vAggr, agg_softmax_default hM]

example : Built Proper true exH1 ∧ Spec.HasScope exH1 none ∧ HEnds .v2e exH1 none [1] [0] ∧
    Senders .v2e exH1 none 2 ∧ Receivers .v2e exH1 none 1 ∧
    Spec.incoming [1] [0] [(1 : ℝ)] (fun _ => 1) 0 = 1 :=
  ⟨exH1_proper, List.cons_ne_nil _ _, exH1_ends, rfl, rfl, by norm_num [Spec.incoming]⟩

/-! ## C38 -/

/-- C38. In a hypergraph with exactly one group, every read about that group equals the read of the
whole hypergraph. -/
theorem C38_hypergraph_single_group {s : HSt K} (hs : Built AnyH b s) {g : String}
    (hg : Spec.hNames s = [g]) (q : HQuery K) (hq : QOf g q) :
    (ask q s).1 = (ask (Spec.globally q) s).1 := by
  obtain ⟨hi, hc⟩ := hs.inv
  have hg' : s.raw.groups.map Prod.fst = [g] := hg
  obtain ⟨d, hd⟩ : ∃ d, s.raw.groups = [(g, d)] := by
    match h : s.raw.groups, hg' with
    | [p], hg' =>
      obtain ⟨a, d⟩ := p
      simp only [List.map_cons, List.map_nil, List.cons.injEq, and_true] at hg'
      subst hg'
      exact ⟨d, rfl⟩
  rw [ask_eq _ hc (fine_of hq), ask_eq _ hc, one_ask hd q hq]
  refine .inr ?_
  cases q <;> simp only [Spec.globally, ne_eq, reduceCtorEq, not_false_eq_true]
  exact hq.elim

/-- C38. Every read about one group is the same as on any hypergraph with as many vertices whose
group of that name has the same listing — in particular, one consisting of that group alone. -/
theorem C38_hypergraph_group_alone {b' : Bool} {s s' : HSt K} (hs : Built AnyH b s) (hs' : Built AnyH b' s')
    (hn : (ask .numV s).1 = (ask .numV s').1) {g : String} (hg : g ∈ Spec.hNames s)
    (hg' : Spec.hNames s' = [g]) (hl : Spec.hListing s (some g) = Spec.hListing s' (some g))
    (q : HQuery K) (hq : QOf g q) :
    (ask q s).1 = (ask q s').1 ∧ (ask q s).1 = (ask (Spec.globally q) s').1 := by
  have h1 : (ask q s).1 = (ask q s').1 := by
    rw [ask_eq _ hs.inv.2 (fine_of hq), ask_eq _ hs'.inv.2 (fine_of hq)]
    refine Agree.ask ⟨?_, ?_⟩ q hq
    · have a1 : (ask .numV s).1 = .ok (.num s.raw.numV) := rfl
      rw [a1] at hn
      exact (numV_eq hn.symm).symm
    · rw [listing_eq hs, listing_eq hs'] at hl
      obtain ⟨d, hd⟩ := (names_iff g).1 hg
      obtain ⟨d', hd'⟩ := (names_iff (s := s') g).1 (by rw [hg']; exact List.mem_cons_self)
      simp only [lstOf, hd, hd', Option.getD_some] at hl
      rw [hd, hd', hl]
  exact ⟨h1, h1.trans (C38_hypergraph_single_group hs' hg' q hq)⟩

example : Built AnyH true exH ∧ "main" ∈ Spec.hNames exH ∧ Spec.hNames exH0 = ["main"] ∧
    Built AnyH true exH0 ∧ (ask .numV exH).1 = (ask .numV exH0).1 ∧
    Spec.hListing exH (some "main") = Spec.hListing exH0 (some "main") ∧
    QOf (K := ℝ) "main" (.LHGNN (some "main")) :=
  ⟨exH_built, List.mem_cons_self, rfl, .new exH0_new fun _ _ => trivial, rfl, rfl, rfl⟩

end Props
end DHG
