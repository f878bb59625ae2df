import Verif.Props.NnGraph
import Verif.Props.HyperMessages
import Verif.Props.ConvertGraphs

/-!
# Properties of the neural layers on hypergraphs (C91)
-/

set_option linter.unusedSectionVars false
set_option autoImplicit false

namespace DHG

namespace Spec
variable {K : Type} [Field K]

/-- weight of the `k`-th listed hyperedge times the average of `x` over its vertices -/
def edgeMean (l : List (List Int × K)) (x : Nat → K) (k : Nat) : K :=
  hWt l k * (memberSum l k x / hSize l k)

end Spec

namespace Nn
open Hyper
variable {K : Type} [Field K] [LinearOrder K] [PyReal K] {b : Bool}

/-! ### the layers as functions of the raw attributes -/

def evHgnn (l : Conv K) (X : Dense K) (r : HRaw K) : Except Err (Dense K) := do
  let X ← l.theta.fwd X
  let X ← evSmooth none X 0 (fun _ => true) r
  l.run X

theorem reads_hgnn (l : Conv K) (X : Dense K) : HReads b (hgnnConv l X) (evHgnn l X) :=
  ReadsOn.bind (ReadsOn.lift _) fun _ => ReadsOn.bind (reads_smooth _ _ _ _) fun _ => ReadsOn.lift _

def evJh (l : Conv K) (X : Dense K) (r : HRaw K) : Except Err (Dense K) := do
  let X' ← l.theta.fwd X
  let Y ← evSmooth none X' 0 (fun _ => true) r
  let X ← zipD (· + ·) Y X
  l.run X

theorem reads_jh (l : Conv K) (X : Dense K) : HReads b (jhConv l X) (evJh l X) :=
  ReadsOn.bind (ReadsOn.lift _) fun _ => ReadsOn.bind (reads_smooth _ _ _ _) fun _ =>
    ReadsOn.bind (ReadsOn.lift _) fun _ => ReadsOn.lift _

def evHgnnp (l : Conv K) (X : Dense K) (r : HRaw K) : Except Err (Dense K) := do
  let X ← l.theta.fwd X
  let X ← evV2v none X { aggr := .mean, rate := 0 } r
  l.run X

theorem reads_hgnnp (l : Conv K) (X : Dense K) : HReads b (hgnnpConv l X) (evHgnnp l X) :=
  ReadsOn.bind (ReadsOn.lift _) fun _ => ReadsOn.bind (reads_v2v _ _ _) fun _ => ReadsOn.lift _

def evHnhn (l : Conv K) (t : Linear K) (X : Dense K) (r : HRaw K) : Except Err (Dense K) := do
  let X ← l.theta.fwd X
  let Y ← evV2e none X .mean none none 0 (fun _ => true) r
  let Y ← t.fwd (mapD relu Y)
  let X ← evE2v none Y .mean none 0 (fun _ => true) r
  l.run X

theorem reads_hnhn (l : Conv K) (t : Linear K) (X : Dense K) : HReads b (hnhnConv l t X) (evHnhn l t X) :=
  ReadsOn.bind (ReadsOn.lift _) fun _ => ReadsOn.bind (reads_v2e _ _ _ _ _ _ _) fun _ =>
    ReadsOn.bind (ReadsOn.lift _) fun _ => ReadsOn.bind (reads_e2v _ _ _ _ _ _) fun _ => ReadsOn.lift _

def evUniGcn (l : Conv K) (X : Dense K) (r : HRaw K) : Except Err (Dense K) := do
  let X ← l.theta.fwd X
  let Y ← evV2e none X .mean none none 0 (fun _ => true) r
  let m ← evNumE none r
  let D ← evDv none r
  let T ← evHT none r
  let d := uniDe m (D.ents.map Prod.snd) (T.ents.map fun e => e.1.2) (T.ents.map fun e => e.1.1)
  let Y ← scaleNan d Y
  let X ← evE2v none Y .sum none 0 (fun _ => true) r
  let D ← evDvN12 none r
  let X ← D.mmD X
  l.run X

theorem reads_uniGcn (l : Conv K) (X : Dense K) : HReads b (uniGcnConv l X) (evUniGcn l X) :=
  ReadsOn.bind (ReadsOn.lift _) fun _ => ReadsOn.bind (reads_v2e _ _ _ _ _ _ _) fun _ =>
    ReadsOn.bind (reads_getNumE _) fun _ => ReadsOn.bind (reads_getDv _) fun _ =>
    ReadsOn.bind (reads_getHT _) fun _ => ReadsOn.bind (ReadsOn.lift _) fun _ =>
    ReadsOn.bind (reads_e2v _ _ _ _ _ _) fun _ => ReadsOn.bind (reads_getDvN12 _) fun _ =>
    ReadsOn.bind (ReadsOn.lift _) fun _ => ReadsOn.lift _

def evUniSage (l : Conv K) (X : Dense K) (r : HRaw K) : Except Err (Dense K) := do
  let X ← l.theta.fwd X
  let Y ← evV2e none X .mean none none 0 (fun _ => true) r
  let Z ← evE2v none Y .sum none 0 (fun _ => true) r
  let X ← zipD (· + ·) Z X
  l.run X

theorem reads_uniSage (l : Conv K) (X : Dense K) : HReads b (uniSageConv l X) (evUniSage l X) :=
  ReadsOn.bind (ReadsOn.lift _) fun _ => ReadsOn.bind (reads_v2e _ _ _ _ _ _ _) fun _ =>
    ReadsOn.bind (reads_e2v _ _ _ _ _ _) fun _ => ReadsOn.bind (ReadsOn.lift _) fun _ => ReadsOn.lift _

def evUniGin (l : Conv K) (eps : K) (X : Dense K) (r : HRaw K) : Except Err (Dense K) := do
  let X ← l.theta.fwd X
  let Y ← evV2e none X .mean none none 0 (fun _ => true) r
  let Z ← evE2v none Y .sum none 0 (fun _ => true) r
  let X ← zipD (· + ·) (mapD (fun x => (1 + eps) * x) Z) X
  l.run X

theorem reads_uniGin (l : Conv K) (eps : K) (X : Dense K) :
    HReads b (uniGinConv l eps X) (evUniGin l eps X) :=
  ReadsOn.bind (ReadsOn.lift _) fun _ => ReadsOn.bind (reads_v2e _ _ _ _ _ _ _) fun _ =>
    ReadsOn.bind (reads_e2v _ _ _ _ _ _) fun _ => ReadsOn.bind (ReadsOn.lift _) fun _ => ReadsOn.lift _

def evSqueezed (w : List K) (p : HRaw K → Except Err (Dense K)) (r : HRaw K) : Except Err (Dense K) :=
  if w.length = 1 then .error .index else p r

theorem reads_squeezed {w : List K} {m : PyM (HSt K) (Dense K)} {p : HRaw K → Except Err (Dense K)}
    (h : HReads b m p) : HReads b (squeezed w m) (evSqueezed w p) := by
  unfold squeezed evSqueezed
  exact ReadsOn.ite (ReadsOn.raise _) h

def evUniGat (l : UniGat K) (X : Dense K) (r : HRaw K) : Except Err (Dense K) := do
  let X ← l.theta.fwd X
  let Y ← evV2e none X .mean none none 0 (fun _ => true) r
  let A ← l.attE.fwd Y
  let H ← evH none r
  let A ← gather A (H.ents.map fun e => e.1.2)
  let w := attWeights l.slope l.attDrop A
  let X ← evSqueezed w (evE2v none Y .softmax (some w) 0 (fun _ => true)) r
  eluTail l.isLast l.bn X

theorem reads_uniGat (l : UniGat K) (X : Dense K) : HReads b (uniGatConv l X) (evUniGat l X) :=
  ReadsOn.bind (ReadsOn.lift _) fun _ => ReadsOn.bind (reads_v2e _ _ _ _ _ _ _) fun _ =>
    ReadsOn.bind (ReadsOn.lift _) fun _ => ReadsOn.bind (reads_getH _) fun _ =>
    ReadsOn.bind (ReadsOn.lift _) fun _ =>
    ReadsOn.bind (reads_squeezed (reads_e2v _ _ _ _ _ _)) fun _ => ReadsOn.lift _

end Nn

namespace Props

open Hyper Finset Nn

variable {K : Type} [Field K] [LinearOrder K] [PyReal K] {b : Bool}

namespace Hy

theorem evSmooth_spec {r : HRaw K} {L : Sp K} {n : Nat} (hL : evLHGNN none r = .ok L) (hr : L.rows = n)
    (hc : L.cols = n) (hwf : L.WF) {X : Dense K} (hX : X.rows = n) :
    ∃ Y, evSmooth none X 0 (fun _ => true) r = .ok Y ∧ Y.rows = n ∧ Y.cols = X.cols ∧
      ∀ i c, Y.at_ i c = ∑ j ∈ range n, L.get i j * X.at_ j c := by
  obtain ⟨Y, hY⟩ := Sp.mmD_ok (P := L) (X := X) (by rw [hc, hX])
  have hs := Sp.mmD_shape hY
  refine ⟨Y, ?_, hs.2.1.trans hr, hs.2.2, fun i c => ?_⟩
  · simp only [evSmooth, hL, Graph.evDrop, bind, Except.bind]
    simp [hY]
  · rw [Sp.mmD_at hY hwf, hc]

/-- the two stages of message passing shared by the layers -/
theorem v2eMean_spec {r : HRaw K} (hi : Hyper.Inv r) (hr : InRange r) (h : Has none r) {X : Dense K}
    (hX : X.rows = r.numV) :
    ∃ Y, evV2e none X .mean none none 0 (fun _ => true) r = .ok Y ∧ Y.rows = (lstOf none r).length ∧
      Y.cols = X.cols ∧
      ∀ k c, k < (lstOf none r).length → Y.at_ k c = Spec.edgeMean (lstOf none r) (fun v => X.at_ v c) k := by
  obtain ⟨_, ⟨B, hB, b1, b2, b3⟩⟩ := evV2eAggr_spec hi hr h X hX fun _ => true
  obtain ⟨Y, hY, h1, h2, h3⟩ := evV2e_spec hi h hB b1
  exact ⟨Y, hY, h1, h2.trans b2, fun k c hk => by rw [h3 k c hk, b3 k c hk]; rfl⟩

theorem incidentSum_congr {l : List (List Int × K)} {v : Nat} {y y' : Nat → K}
    (h : ∀ k, k < l.length → y k = y' k) : Spec.incidentSum l v y = Spec.incidentSum l v y' := by
  unfold Spec.incidentSum
  exact sum_congr rfl fun k hk => by rw [h k (mem_range.1 hk)]

theorem col_perm {n : Nat} {l : List (List Int × K)} {M : Sp K} (h : IncM n l M) (hR : Rng n l) {e : Nat}
    (he : e < l.length) :
    ((M.ents.filter fun x => decide (x.1.2 = e)).map fun x => x.1.1).Perm ((Spec.hAt l e).map Int.toNat) := by
  have hr := hR _ (List.getElem_mem he)
  rw [← hAt_of_lt he] at hr
  rw [List.perm_ext_iff_of_nodup]
  · intro v
    simp only [List.mem_map, List.mem_filter, decide_eq_true_eq]
    constructor
    · rintro ⟨x, ⟨hx, rfl⟩, rfl⟩
      have := (h.keys x.1.1 x.1.2).1 (List.mem_map.2 ⟨x, hx, rfl⟩)
      exact ⟨_, this.2.2, by simp⟩
    · rintro ⟨u, hu, rfl⟩
      have hb := hr.2 u hu
      obtain ⟨x, hx, hk⟩ := List.mem_map.1 ((h.keys u.toNat e).2 ⟨by omega, he, by
        rw [Int.toNat_of_nonneg hb.1]; exact hu⟩)
      exact ⟨x, ⟨hx, by rw [hk]⟩, by rw [hk]⟩
  · have h1 : ((M.ents.filter fun x => decide (x.1.2 = e)).map Prod.fst).Nodup :=
      h.nodup.sublist (List.filter_sublist.map _)
    have h2 : ((M.ents.filter fun x => decide (x.1.2 = e)).map fun x => x.1.1) =
        ((M.ents.filter fun x => decide (x.1.2 = e)).map Prod.fst).map Prod.fst := by
      rw [List.map_map]; rfl
    rw [h2]
    apply h1.map_on
    intro x hx y hy hxy
    obtain ⟨x', hx', rfl⟩ := List.mem_map.1 hx
    obtain ⟨y', hy', rfl⟩ := List.mem_map.1 hy
    have a1 := (List.mem_filter.1 hx').2
    have a2 := (List.mem_filter.1 hy').2
    simp only [decide_eq_true_eq] at a1 a2
    exact Prod.ext hxy (a1.trans a2.symm)
  · apply hr.1.map_on
    intro x hx y hy hxy
    have a1 := hr.2 x hx
    have a2 := hr.2 y hy
    omega

theorem hDeg_pos [IsStrictOrderedRing K] {l : List (List Int × K)} (hw : ∀ e ∈ l, 0 < e.2) {v : Nat} {e : Nat} (he : e < l.length)
    (hv : (v : Int) ∈ Spec.hAt l e) : 0 < Spec.hDeg l v := by
  rw [hAt_of_lt he] at hv
  unfold Spec.hDeg
  have hp := List.getElem_mem he
  generalize l[e] = x at hv hp
  clear he
  induction l with
  | nil => cases hp
  | cons y l ih =>
    have h0 : 0 ≤ (l.map fun e => if (v : Int) ∈ e.1 then e.2 else 0).sum := by
      apply List.sum_nonneg
      intro z hz
      obtain ⟨u, hu, rfl⟩ := List.mem_map.1 hz
      split
      · exact (hw u (List.mem_cons_of_mem _ hu)).le
      · exact le_rfl
    rw [List.map_cons, List.sum_cons]
    rcases List.mem_cons.1 hp with rfl | hp
    · rw [if_pos hv]; exact add_pos_of_pos_of_nonneg (hw _ List.mem_cons_self) h0
    · refine add_pos_of_nonneg_of_pos ?_ (ih (fun e he => hw e (List.mem_cons_of_mem _ he)) hp)
      split
      · exact (hw y List.mem_cons_self).le
      · exact le_rfl

theorem uniDe_spec [IsStrictOrderedRing K] {n : Nat} {l : List (List Int × K)} {M : Sp K} (h : IncM n l M)
    (hR : Rng n l) (hw : ∀ e ∈ l, 0 < e.2) (hne : ∀ e ∈ l, e.1 ≠ []) {d : List K}
    (hd : d = (List.range n).map (Spec.hDeg l)) :
    (uniDe l.length d (M.t.ents.map fun e => e.1.2) (M.t.ents.map fun e => e.1.1)).length = l.length ∧
    ∀ e, e < l.length → ∃ p,
      (uniDe l.length d (M.t.ents.map fun e => e.1.2) (M.t.ents.map fun e => e.1.1)).getD e none = some p ∧
      Spec.InvSqrt (Spec.memberSum l e (Spec.hDeg l) / Spec.hSize l e) p := by
  refine ⟨by simp [uniDe], fun e he => ?_⟩
  have h1 : (((List.zip (M.t.ents.map fun e => e.1.2) (M.t.ents.map fun e => e.1.1)).filter
      fun p => decide (p.2 = e)).map fun p => d.getD p.1 0) =
      ((M.ents.filter fun x => decide (x.1.2 = e)).map fun x => x.1.1).map fun v => d.getD v 0 := by
    rw [List.zip_map', List.filter_map]
    simp only [Sp.t, List.map_map, List.filter_map, Function.comp_def]
  have hp := (col_perm h hR he).map fun v => d.getD v 0
  rw [← h1] at hp
  have hr := hR _ (List.getElem_mem he)
  rw [← hAt_of_lt he] at hr
  have h2 : (((Spec.hAt l e).map Int.toNat).map fun v => d.getD v 0) =
      (Spec.hAt l e).map fun v => Spec.hDeg l v.toNat := by
    rw [List.map_map]
    apply List.map_congr_left
    intro v hv
    have := hr.2 v hv
    have hlt : v.toNat < n := by omega
    simp [hd, List.getD_eq_getElem?_getD, hlt]
  rw [h2] at hp
  have hpos : ∀ x ∈ (Spec.hAt l e).map fun v => Spec.hDeg l v.toNat, 0 < x := by
    intro x hx
    obtain ⟨v, hv, rfl⟩ := List.mem_map.1 hx
    exact hDeg_pos hw he (by rw [Int.toNat_of_nonneg (hr.2 v hv).1]; exact hv)
  have hlen : 0 < (Spec.hAt l e).length := by
    rw [List.length_pos_iff, hAt_of_lt he]
    exact hne _ (List.getElem_mem he)
  have hfil : (((List.zip (M.t.ents.map fun e => e.1.2) (M.t.ents.map fun e => e.1.1)).filter
      fun p => decide (p.2 = e)).map fun p => d.getD p.1 0).filter (fun x => decide (x ≠ 0)) =
      (((List.zip (M.t.ents.map fun e => e.1.2) (M.t.ents.map fun e => e.1.1)).filter
      fun p => decide (p.2 = e)).map fun p => d.getD p.1 0) := by
    rw [List.filter_eq_self]
    intro x hx
    exact decide_eq_true (hpos x (hp.mem_iff.1 hx)).ne'
  have hsz : 0 < Spec.hSize l e := by unfold Spec.hSize; exact_mod_cast hlen
  have htot : 0 < Spec.memberSum l e (Spec.hDeg l) := by
    unfold Spec.memberSum
    apply List.sum_pos _ hpos
    intro h0
    rw [List.map_eq_nil_iff] at h0
    rw [h0] at hlen
    simp at hlen
  have hq : 0 < Spec.memberSum l e (Spec.hDeg l) / Spec.hSize l e := div_pos htot hsz
  refine ⟨PyReal.rsqrt (Spec.memberSum l e (Spec.hDeg l) / Spec.hSize l e), ?_,
    fun h0 => absurd h0 hq.ne', fun _ => ⟨PyReal.rsqrt_pos _ hq,
      by rw [PyReal.rsqrt_sq _ hq, inv_mul_cancel₀ hq.ne']⟩⟩
  unfold uniDe
  rw [List.getD_eq_getElem?_getD, List.getElem?_map, List.getElem?_range he]
  simp only [Option.map_some, Option.getD_some]
  rw [hfil, hp.length_eq, hp.sum_eq, List.length_map]
  rw [if_neg (by exact_mod_cast hlen.ne')]
  exact (if_neg hq.ne').trans (if_neg (not_lt.2 hq.le))

end Hy
open Hy

/-! ## C91 -/

/-- C91, partial. `HGNNConv` computes `L_HGNN (X Wᵀ + b)` before its activation; the hypergraph is as
before. Missing: a hypergraph without groups. -/
theorem C91_hgnn_conv_partial [IsStrictOrderedRing K] {s : HSt K} (hs : Built Proper b s)
    (hsc : Spec.HasScope s none) {n : Nat} (hn : (ask .numV s).1 = .ok (.num n))
    (hw : Spec.HNonneg (Spec.hListing s none)) {L : Sp K} (hL : (ask (.LHGNN none) s).1 = .ok (.mat L))
    (l : Conv K) (X : Dense K) (hX : X.rows = n) (hc : X.cols = l.theta.weight.cols) :
    ∃ Z, Z.rows = n ∧ Z.cols = l.theta.weight.rows ∧
      (∀ i o, Z.at_ i o = ∑ j ∈ range n, L.get i j * Spec.affine l.theta X j o) ∧
      Spec.Finished l.toTail Z (hgnnConv l X s).1 := by
  obtain ⟨hi, hcoh⟩ := (hs.mono (Q := AnyH) fun _ _ _ => trivial).inv
  obtain ⟨L', _, _, hL', _, _, hm, _⟩ := C36_hypergraph_L_HGNN_partial hs hsc hn hw
  rw [hL] at hL'; cases hL'
  have hev : evLHGNN none s.raw = .ok L := by
    rw [Hyper.ask_eq _ hcoh (.inr (by simp))] at hL
    simp only [evAsk] at hL
    cases h : evLHGNN none s.raw <;> rw [h] at hL <;> cases hL
    rfl
  obtain ⟨H, hH, h1, h2, h3⟩ := linear_ok l.theta hc
  obtain ⟨Z, hZ, z1, z2, z3⟩ := evSmooth_spec hev hm.rows hm.cols hm.wf (h1.trans hX)
  refine ⟨Z, z1, z2.trans h2, fun i o => ?_, ?_⟩
  · rw [z3]; exact sum_congr rfl fun j _ => by rw [h3]
  · have hr : (hgnnConv l X s).1 = l.run Z := by
      rw [(reads_hgnn l X s hcoh).1]
      simp only [evHgnn, hH, hZ, bind, Except.bind]
    rw [hr]; exact tail_finished _ _

/-- C91, partial. `JHConv` computes `L_HGNN (X Wᵀ + b) + X` before its activation. Missing: a hypergraph
without groups; layers changing the number of channels, where the sum raises or broadcasts. -/
theorem C91_jh_conv_partial [IsStrictOrderedRing K] {s : HSt K} (hs : Built Proper b s)
    (hsc : Spec.HasScope s none) {n : Nat} (hn : (ask .numV s).1 = .ok (.num n))
    (hw : Spec.HNonneg (Spec.hListing s none)) {L : Sp K} (hL : (ask (.LHGNN none) s).1 = .ok (.mat L))
    (l : Conv K) (X : Dense K) (hX : X.rows = n) (hc : X.cols = l.theta.weight.cols)
    (hc' : X.cols = l.theta.weight.rows) :
    ∃ Z, Z.rows = n ∧ Z.cols = X.cols ∧
      (∀ i o, i < n → o < X.cols →
        Z.at_ i o = (∑ j ∈ range n, L.get i j * Spec.affine l.theta X j o) + X.at_ i o) ∧
      Spec.Finished l.toTail Z (jhConv l X s).1 := by
  obtain ⟨hi, hcoh⟩ := (hs.mono (Q := AnyH) fun _ _ _ => trivial).inv
  obtain ⟨L', _, _, hL', _, _, hm, _⟩ := C36_hypergraph_L_HGNN_partial hs hsc hn hw
  rw [hL] at hL'; cases hL'
  have hev : evLHGNN none s.raw = .ok L := by
    rw [Hyper.ask_eq _ hcoh (.inr (by simp))] at hL
    simp only [evAsk] at hL
    cases h : evLHGNN none s.raw <;> rw [h] at hL <;> cases hL
    rfl
  obtain ⟨H, hH, h1, h2, h3⟩ := linear_ok l.theta hc
  obtain ⟨Y, hY, y1, y2, y3⟩ := evSmooth_spec hev hm.rows hm.cols hm.wf (h1.trans hX)
  obtain ⟨Z, hZ, z1, z2, z3⟩ := zipD_same (· + ·) y1 hX ((y2.trans h2).trans hc'.symm) rfl
  refine ⟨Z, z1, z2, fun i o h4 h5 => ?_, ?_⟩
  · rw [z3 i o h4 h5, y3]
    congr 1
    exact sum_congr rfl fun j _ => by rw [h3]
  · have hr : (jhConv l X s).1 = l.run Z := by
      rw [(reads_jh l X s hcoh).1]
      simp only [evJh, hH, hY, hZ, bind, Except.bind]
    rw [hr]; exact tail_finished _ _

/-- C91, partial. `HGNNPConv`: every hyperedge takes its weight times the average of `X Wᵀ + b` over its
vertices, every vertex the sum over its hyperedges divided by its degree: for weights 1, the average of
the averages. Missing: a hypergraph without groups. -/
theorem C91_hgnnp_conv_partial {s : HSt K} (hs : Built Proper b s)
    (hsc : Spec.HasScope s none) {n : Nat} (hn : (ask .numV s).1 = .ok (.num n))
    (l : Conv K) (X : Dense K) (hX : X.rows = n) (hc : X.cols = l.theta.weight.cols) :
    let ls := Spec.hListing s none
    ∃ Z, Z.rows = n ∧ Z.cols = l.theta.weight.rows ∧
      (∀ i o, i < n → Z.at_ i o = Spec.incidentSum ls i
        (Spec.edgeMean ls fun v => Spec.affine l.theta X v o) / Spec.hDeg ls i) ∧
      ((∀ e ∈ ls, e.2 = 1) → ∀ i o, i < n → Z.at_ i o = Spec.incidentSum ls i
        (fun k => Spec.memberSum ls k (fun v => Spec.affine l.theta X v o) / Spec.hSize ls k) /
          Spec.incidentNum ls i) ∧
      Spec.Finished l.toTail Z (hgnnpConv l X s).1 := by
  have hs' := hs.mono (Q := AnyH) fun _ _ _ => trivial
  obtain ⟨hi, hcoh⟩ := hs'.inv
  have hh := has_of_scope hsc
  rw [listing_eq hs']
  have hn' := Hy.numV_eq hn
  obtain ⟨H, hH, h1, h2, h3⟩ := linear_ok l.theta hc
  obtain ⟨Y, hY, y1, y2, y3⟩ := v2eMean_spec hi hs.inRange hh ((h1.trans hX).trans hn'.symm)
  obtain ⟨_, ⟨Z, hZ, z1, z2, z3⟩⟩ := evE2v_spec hi hs.inRange hh Y y1 fun _ => true
  have hZ' : ∀ i o, i < n → Z.at_ i o = Spec.incidentSum (lstOf none s.raw) i
      (Spec.edgeMean (lstOf none s.raw) fun v => Spec.affine l.theta X v o) /
        Spec.hDeg (lstOf none s.raw) i := by
    intro i o hio
    rw [z3 i o (by omega)]
    congr 1
    refine incidentSum_congr fun k hk => ?_
    rw [y3 k o hk]
    simp only [h3]
  refine ⟨Z, z1.trans hn', (z2.trans y2).trans h2, hZ', fun h1w i o hio => ?_, ?_⟩
  · rw [hZ' i o hio]
    have e1 : ∀ k, k < (lstOf none s.raw).length → Spec.hWt (lstOf none s.raw) k = 1 := fun k hk => by
      rw [hWt_of_lt hk]; exact h1w _ (List.getElem_mem hk)
    congr 1
    · refine incidentSum_congr fun k hk => ?_
      unfold Spec.edgeMean
      rw [e1 k hk, one_mul]
    · unfold Spec.incidentNum
      rw [← incidentSum_eq, ← sum_inc_wt]
      exact sum_congr rfl fun k hk => by rw [e1 k (mem_range.1 hk)]
  · have hr : (hgnnpConv l X s).1 = l.run Z := by
      rw [(reads_hgnnp l X s hcoh).1]
      simp only [evHgnnp, evV2v, chk_ok hh, hH, bind, Except.bind, Option.getD_none, hY, hZ]
    rw [hr]; exact tail_finished _ _

/-- C91, partial. `HNHNConv`: hyperedges take the positive part of their (weighted) average of
`X W₁ᵀ + b₁`, then the second linear map, then vertices the sum over their hyperedges divided by their
degree. Missing: a hypergraph without groups. -/
theorem C91_hnhn_conv_partial {s : HSt K} (hs : Built Proper b s)
    (hsc : Spec.HasScope s none) {n : Nat} (hn : (ask .numV s).1 = .ok (.num n))
    (l : Conv K) (t : Linear K) (X : Dense K) (hX : X.rows = n) (hc : X.cols = l.theta.weight.cols)
    (ht : l.theta.weight.rows = t.weight.cols) :
    let ls := Spec.hListing s none
    ∃ Z, Z.rows = n ∧ Z.cols = t.weight.rows ∧
      (∀ i o, i < n → Z.at_ i o = Spec.incidentSum ls i (fun k =>
        (∑ c ∈ range t.weight.cols,
          max (Spec.edgeMean ls (fun v => Spec.affine l.theta X v c) k) 0 * t.weight.at_ o c) +
            (t.bias.getD fun _ => 0) o) / Spec.hDeg ls i) ∧
      Spec.Finished l.toTail Z (hnhnConv l t X s).1 := by
  have hs' := hs.mono (Q := AnyH) fun _ _ _ => trivial
  obtain ⟨hi, hcoh⟩ := hs'.inv
  have hh := has_of_scope hsc
  rw [listing_eq hs']
  have hn' := Hy.numV_eq hn
  obtain ⟨H, hH, h1, h2, h3⟩ := linear_ok l.theta hc
  obtain ⟨Y, hY, y1, y2, y3⟩ := v2eMean_spec hi hs.inRange hh ((h1.trans hX).trans hn'.symm)
  have hcY : (mapD relu Y).cols = t.weight.cols := (y2.trans h2).trans ht
  obtain ⟨U, hU, u1, u2, u3⟩ := linear_ok t hcY
  obtain ⟨_, ⟨Z, hZ, z1, z2, z3⟩⟩ := evE2v_spec hi hs.inRange hh U (u1.trans y1) fun _ => true
  refine ⟨Z, z1.trans hn', z2.trans u2, fun i o hio => ?_, ?_⟩
  · rw [z3 i o (by omega)]
    congr 1
    refine incidentSum_congr fun k hk => ?_
    rw [u3]
    unfold Spec.affine
    rw [hcY]
    congr 1
    refine sum_congr rfl fun c _ => ?_
    rw [mapD_relu]
    simp only [Spec.posPart]
    rw [y3 k c hk]
    simp only [h3]
    rfl
  · have hr : (hnhnConv l t X s).1 = l.run Z := by
      rw [(reads_hnhn l t X s hcoh).1]
      simp only [evHnhn, hH, hY, hU, hZ, bind, Except.bind]
    rw [hr]; exact tail_finished _ _

/-- C91, partial. `UniSAGEConv` adds, to `X Wᵀ + b` at a vertex, the (weighted) averages of its
hyperedges. Missing: a hypergraph without groups. -/
theorem C91_unisage_conv_partial {s : HSt K} (hs : Built Proper b s)
    (hsc : Spec.HasScope s none) {n : Nat} (hn : (ask .numV s).1 = .ok (.num n))
    (l : Conv K) (X : Dense K) (hX : X.rows = n) (hc : X.cols = l.theta.weight.cols) :
    let ls := Spec.hListing s none
    ∃ Z, Z.rows = n ∧ Z.cols = l.theta.weight.rows ∧
      (∀ i o, i < n → o < l.theta.weight.rows → Z.at_ i o = Spec.affine l.theta X i o +
        Spec.incidentSum ls i (Spec.edgeMean ls fun v => Spec.affine l.theta X v o)) ∧
      Spec.Finished l.toTail Z (uniSageConv l X s).1 := by
  have hs' := hs.mono (Q := AnyH) fun _ _ _ => trivial
  obtain ⟨hi, hcoh⟩ := hs'.inv
  have hh := has_of_scope hsc
  rw [listing_eq hs']
  have hn' := Hy.numV_eq hn
  obtain ⟨H, hH, h1, h2, h3⟩ := linear_ok l.theta hc
  obtain ⟨Y, hY, y1, y2, y3⟩ := v2eMean_spec hi hs.inRange hh ((h1.trans hX).trans hn'.symm)
  obtain ⟨⟨Z, hZ, z1, z2, z3⟩, _⟩ := evE2v_spec hi hs.inRange hh Y y1 fun _ => true
  obtain ⟨U, hU, u1, u2, u3⟩ := zipD_same (· + ·) (z1.trans hn') (h1.trans hX) ((z2.trans y2).trans h2) h2
  refine ⟨U, u1, u2, fun i o hio ho => ?_, ?_⟩
  · rw [u3 i o hio ho, z3 i o (by omega), h3, add_comm]
    congr 1
    refine incidentSum_congr fun k hk => ?_
    rw [y3 k o hk]
    simp only [h3]
  · have hr : (uniSageConv l X s).1 = l.run U := by
      rw [(reads_uniSage l X s hcoh).1]
      simp only [evUniSage, hH, hY, hZ, hU, bind, Except.bind]
    rw [hr]; exact tail_finished _ _

/-- C91, partial. What `UniGINConv` computes: `1 + eps` multiplies the sum over the hyperedges, not the
vertex' own features.  For `eps = 0` this is the published update. Missing: `eps ≠ 0`
(`C91_unigin_conv_false`), a hypergraph without groups. -/
theorem C91_unigin_conv_partial {s : HSt K} (hs : Built Proper b s)
    (hsc : Spec.HasScope s none) {n : Nat} (hn : (ask .numV s).1 = .ok (.num n))
    (l : Conv K) (eps : K) (X : Dense K) (hX : X.rows = n) (hc : X.cols = l.theta.weight.cols) :
    let ls := Spec.hListing s none
    ∃ Z, Z.rows = n ∧ Z.cols = l.theta.weight.rows ∧
      (∀ i o, i < n → o < l.theta.weight.rows → Z.at_ i o = Spec.affine l.theta X i o +
        (1 + eps) * Spec.incidentSum ls i (Spec.edgeMean ls fun v => Spec.affine l.theta X v o)) ∧
      (eps = 0 → ∀ i o, i < n → o < l.theta.weight.rows →
        Z.at_ i o = (1 + eps) * Spec.affine l.theta X i o +
          Spec.incidentSum ls i (Spec.edgeMean ls fun v => Spec.affine l.theta X v o)) ∧
      Spec.Finished l.toTail Z (uniGinConv l eps X s).1 := by
  have hs' := hs.mono (Q := AnyH) fun _ _ _ => trivial
  obtain ⟨hi, hcoh⟩ := hs'.inv
  have hh := has_of_scope hsc
  rw [listing_eq hs']
  have hn' := Hy.numV_eq hn
  obtain ⟨H, hH, h1, h2, h3⟩ := linear_ok l.theta hc
  obtain ⟨Y, hY, y1, y2, y3⟩ := v2eMean_spec hi hs.inRange hh ((h1.trans hX).trans hn'.symm)
  obtain ⟨⟨Z, hZ, z1, z2, z3⟩, _⟩ := evE2v_spec hi hs.inRange hh Y y1 fun _ => true
  obtain ⟨U, hU, u1, u2, u3⟩ := zipD_same (· + ·) (X := mapD (fun x => (1 + eps) * x) Z) (Y := H)
    (z1.trans hn') (h1.trans hX) ((z2.trans y2).trans h2) h2
  have hval : ∀ i o, i < n → o < l.theta.weight.rows → U.at_ i o = Spec.affine l.theta X i o +
      (1 + eps) * Spec.incidentSum (lstOf none s.raw) i
        (Spec.edgeMean (lstOf none s.raw) fun v => Spec.affine l.theta X v o) := by
    intro i o hio ho
    rw [u3 i o hio ho]
    simp only [mapD]
    rw [z3 i o (by omega), h3, add_comm]
    congr 2
    refine incidentSum_congr fun k hk => ?_
    rw [y3 k o hk]
    simp only [h3]
  refine ⟨U, u1, u2, hval, fun h0 i o hio ho => ?_, ?_⟩
  · rw [hval i o hio ho, h0]; ring
  · have hr : (uniGinConv l eps X s).1 = l.run U := by
      rw [(reads_uniGin l eps X s hcoh).1]
      simp only [evUniGin, hH, hY, hZ, hU, bind, Except.bind]
    rw [hr]; exact tail_finished _ _

/-- C91 is false for `UniGINConv` with `eps ≠ 0`: with two vertices, the hyperedge `{1}` and `eps = 1`,
vertex 0 keeps its features unscaled. -/
theorem C91_unigin_conv_false :
    ¬ ∀ (s : HSt ℝ), Built Proper true s → Spec.HasScope s none → ∀ n, (ask .numV s).1 = .ok (.num n) →
      ∀ (l : Conv ℝ) (eps : ℝ) (X Z : Dense ℝ), X.rows = n → X.cols = l.theta.weight.cols →
      l.isLast = true → (uniGinConv l eps X s).1 = .ok Z → ∀ i o, i < n → o < l.theta.weight.rows →
        Z.at_ i o = (1 + eps) * Spec.affine l.theta X i o + Spec.incidentSum (Spec.hListing s none) i
          (Spec.edgeMean (Spec.hListing s none) fun v => Spec.affine l.theta X v o) := by
  intro h
  have hsc : Spec.HasScope exH1 none := List.cons_ne_nil _ _
  let l : Conv ℝ := ⟨⟨true, none, id⟩, ⟨⟨1, 1, fun _ _ => 1⟩, none⟩⟩
  obtain ⟨Z, _, _, hv, _, hf⟩ := C91_unigin_conv_partial exH1_proper hsc (n := 2) rfl l 1
    ⟨2, 1, fun _ _ => 1⟩ rfl rfl
  have := h exH1 exH1_proper hsc 2 rfl l 1 ⟨2, 1, fun _ _ => 1⟩ Z rfl rfl rfl (hf.last rfl) 0 0
    (by norm_num) (by norm_num [l])
  rw [hv 0 0 (by norm_num) (by norm_num [l])] at this
  have hl : Spec.hListing exH1 none = [([1], 1)] := rfl
  rw [hl] at this
  simp only [Spec.incidentSum, Spec.affine, Spec.hAt, l] at this
  norm_num at this

/-- C91, partial. `UniGCNConv` for positive weights and non-empty hyperedges: with `q i` the inverse
square root of the degree of `i` (0 at 0) and `p e` the inverse square root of the average degree of the
vertices of `e`, vertex `i` gets `q i * Σ p e * (weighted average over e)`, summed over its hyperedges.
Missing: hyperedges of weight 0 (`C91_unigcn_conv_false`), a hypergraph without groups. -/
theorem C91_unigcn_conv_partial [IsStrictOrderedRing K] {s : HSt K} (hs : Built Proper b s)
    (hsc : Spec.HasScope s none) {n : Nat} (hn : (ask .numV s).1 = .ok (.num n))
    (hw : ∀ e ∈ Spec.hListing s none, 0 < e.2 ∧ e.1 ≠ [])
    (l : Conv K) (X : Dense K) (hX : X.rows = n) (hc : X.cols = l.theta.weight.cols) :
    let ls := Spec.hListing s none
    ∃ (Z : Dense K) (p q : Nat → K), Z.rows = n ∧ Z.cols = l.theta.weight.rows ∧
      (∀ e, e < ls.length → Spec.InvSqrt (Spec.memberSum ls e (Spec.hDeg ls) / Spec.hSize ls e) (p e)) ∧
      (∀ i, i < n → Spec.InvSqrt (Spec.hDeg ls i) (q i)) ∧
      (∀ i o, i < n → Z.at_ i o = q i * Spec.incidentSum ls i fun e =>
        p e * Spec.edgeMean ls (fun v => Spec.affine l.theta X v o) e) ∧
      Spec.Finished l.toTail Z (uniGcnConv l X s).1 := by
  have hs' := hs.mono (Q := AnyH) fun _ _ _ => trivial
  obtain ⟨hi, hcoh⟩ := hs'.inv
  have hh := has_of_scope hsc
  rw [listing_eq hs'] at hw ⊢
  have hn' := Hy.numV_eq hn
  have hnn : Spec.HNonneg (lstOf none s.raw) := fun e he => (hw e he).1.le
  obtain ⟨H, hH, h1, h2, h3⟩ := linear_ok l.theta hc
  obtain ⟨Y, hY, y1, y2, y3⟩ := v2eMean_spec hi hs.inRange hh ((h1.trans hX).trans hn'.symm)
  obtain ⟨M, hM, hT, hI⟩ := evHT_spec hi hs.inRange hh
  obtain ⟨dl, hd⟩ := uniDe_spec hI (lst_rng hi hs.inRange none) (fun e he => (hw e he).1)
    (fun e he => (hw e he).2) rfl
  generalize hde : uniDe (lstOf none s.raw).length ((List.range s.raw.numV).map (Spec.hDeg (lstOf none s.raw)))
    (M.t.ents.map fun e => e.1.2) (M.t.ents.map fun e => e.1.1) = d at dl hd
  have hall : d.all Option.isSome = true := by
    rw [List.all_eq_true]
    intro x hx
    obtain ⟨k, hk, rfl⟩ := List.getElem_of_mem hx
    obtain ⟨p, hp, _⟩ := hd k (by omega)
    rw [List.getD_eq_getElem?_getD, List.getElem?_eq_getElem hk, Option.getD_some] at hp
    rw [hp]; rfl
  have hsca : scaleNan d Y = .ok { Y with at_ := fun i c => (d.getD i none).getD 0 * Y.at_ i c } := by
    unfold scaleNan
    rw [if_pos (dl.trans y1.symm), if_pos hall]
  obtain ⟨⟨U, hU, u1, u2, u3⟩, _⟩ := evE2v_spec hi hs.inRange hh
    { Y with at_ := fun i c => (d.getD i none).getD 0 * Y.at_ i c } y1 fun _ => true
  obtain ⟨Z, hZ⟩ := Sp.mmD_ok (P := Sp.diag ((List.range s.raw.numV).map fun i =>
    negHalf (Spec.hDeg (lstOf none s.raw) i))) (X := U) (by rw [u1]; simp [Sp.diag_cols])
  have hsh := Sp.mmD_shape hZ
  refine ⟨Z, fun e => (d.getD e none).getD 0, fun i => negHalf (Spec.hDeg (lstOf none s.raw) i),
    ?_, ?_, fun e he => ?_, fun i _ => Graph.negHalf_invSqrt (hDeg_nonneg hnn i), fun i o hio => ?_, ?_⟩
  · rw [hsh.2.1]; simpa [Sp.diag_rows] using hn'
  · exact hsh.2.2.trans (u2.trans (y2.trans h2))
  · obtain ⟨p, hp, hq⟩ := hd e he
    simp only [hp, Option.getD_some]; exact hq
  · rw [Sp.diag_mmD_at hZ (by omega), u3 i o (by omega)]
    congr 1
    refine incidentSum_congr fun k hk => ?_
    simp only [y3 k o hk, h3]
  · have hr : (uniGcnConv l X s).1 = l.run Z := by
      rw [(reads_uniGcn l X s hcoh).1]
      simp only [evUniGcn, hH, hY, evNumE_spec (.inl hh), evDv_spec hi hs.inRange hh, hT, bind, Except.bind,
        Ord.diag_vals, hde, hsca, hU, evDvN12_spec hi hs.inRange hh hnn, hZ]
    rw [hr]; exact tail_finished _ _

/-- two vertices, one hyperedge `{1}` of weight 0 -/
noncomputable def exHz : HSt ℝ :=
  { raw := { numV := 2, vWeight := some [1, 1], groups := [("main", [([1], 0)])] }, cache := [] }

theorem exHz_proper : Built Proper true exHz := by
  refine .new (n := 2) (arg := some (.many true [⟨true, [1]⟩])) (ew := .list [0]) (vw := none) (op := .mean) rfl ?_
  intro a ha; cases ha
  intro e he
  simp only [argEdges, List.map_cons, List.map_nil, List.mem_cons, List.not_mem_nil, or_false] at he
  subst he; decide

/-- C91 is false for `UniGCNConv` with a hyperedge of weight 0: its average degree is `0 / 0` and the
result contains NaN. -/
theorem C91_unigcn_conv_false :
    ¬ ∀ (s : HSt ℝ), Built Proper true s → Spec.HasScope s none → ∀ n, (ask .numV s).1 = .ok (.num n) →
      Spec.HNonneg (Spec.hListing s none) → (∀ e ∈ Spec.hListing s none, e.1 ≠ []) →
      ∀ (l : Conv ℝ) (X : Dense ℝ), X.rows = n → X.cols = l.theta.weight.cols →
      l.isLast = true → ∃ Z, (uniGcnConv l X s).1 = .ok Z := by
  intro h
  have hsc : Spec.HasScope exHz none := List.cons_ne_nil _ _
  have hl : Spec.hListing exHz none = [([1], 0)] := rfl
  let l : Conv ℝ := ⟨⟨true, none, id⟩, ⟨⟨1, 1, fun _ _ => 1⟩, none⟩⟩
  obtain ⟨Z, hZ⟩ := h exHz exHz_proper hsc 2 rfl (by rw [hl]; simp [Spec.HNonneg]) (by rw [hl]; simp) l
    ⟨2, 1, fun _ _ => 1⟩ rfl rfl rfl
  obtain ⟨hi, hcoh⟩ := (exHz_proper.mono (Q := AnyH) fun _ _ _ => trivial).inv
  have hh := has_of_scope hsc
  obtain ⟨H, hH, h1, h2, h3⟩ := linear_ok l.theta (X := ⟨2, 1, fun _ _ => 1⟩) rfl
  obtain ⟨Y, hY, y1, y2, y3⟩ := v2eMean_spec hi exHz_proper.inRange hh h1
  have hT : evHT none exHz.raw = .ok ⟨1, 2, [((0, 1), 1)]⟩ := rfl
  have hls : lstOf none exHz.raw = [([1], 0)] := rfl
  rw [hls] at y1
  rw [(reads_uniGcn l _ exHz hcoh).1] at hZ
  have hd : uniDe 1 ((List.range 2).map (Spec.hDeg [([1], (0 : ℝ))])) [1] [0] = [none] := by
    simp [uniDe, Spec.hDeg]
  simp only [evUniGcn, hH, hY, evNumE_spec (.inl hh), evDv_spec hi exHz_proper.inRange hh, hT, bind, Except.bind,
    Ord.diag_vals, hls, List.length_cons, List.length_nil, List.map_cons, List.map_nil] at hZ
  have hd' : uniDe (0 + 1) ((List.range exHz.raw.numV).map (Spec.hDeg [([1], (0 : ℝ))])) [1] [0] = [none] := hd
  rw [hd'] at hZ
  have : scaleNan [none] Y = .error .nan := by
    unfold scaleNan
    rw [if_pos (by rw [y1]; rfl)]
    rfl
  rw [this] at hZ
  cases hZ

/-- the score of the messages of hyperedge `e` in `UniGATConv`, before dropout -/
noncomputable def Spec.uniGatScore (l : UniGat K) (Y : Dense K) (e : Nat) : K :=
  let x := Spec.affine l.attE Y e 0
  if 0 < x then x else l.slope * x

theorem aggW_softmax_shape {evP evD : HRaw K → Except Err (Sp K)} {r : HRaw K} {P : Sp K} (hP : evP r = .ok P)
    {w : List K} (hl : w.length = P.ents.length) {X Z : Dense K} {keep : Nat → Bool}
    (h : evAgg evP evD X .softmax (some w) 0 keep r = .ok Z) : Z.rows = P.rows ∧ Z.cols = X.cols := by
  simp only [evAgg, hP, withVals_ok hl, hl, if_true, evDrop_zero, bind, Except.bind, reduceCtorEq, if_false] at h
  exact (Sp.mmD_shape h).2

/-- C91, partial. `UniGATConv`: with `Y` the (weighted) averages of `X Wᵀ + b` over the hyperedges, the
output at vertex `i` before the activation is a combination of the rows of `Y` at the hyperedges of `i`,
with positive coefficients adding up to 1 and proportional to `exp` of the score clamped to `[0.001, 5]`.
The score depends on the hyperedge only, not on the vertex as documented. Missing: exactly one
incidence (`C91_unigat_single_false`), a hypergraph without groups. -/
theorem C91_unigat_conv_partial [IsStrictOrderedRing K] {s : HSt K} (hs : Built Proper b s)
    (hsc : Spec.HasScope s none) {n : Nat} (hn : (ask .numV s).1 = .ok (.num n)) {send recv : List Nat}
    (he : HEnds .e2v s none send recv) (h1' : recv.length ≠ 1) (l : UniGat K) (X : Dense K) (hX : X.rows = n)
    (hc : X.cols = l.theta.weight.cols) (hd : l.attE.weight.cols = l.theta.weight.rows) :
    let ls := Spec.hListing s none
    ∃ (Y Z : Dense K) (coef : List K) (z : Nat → K),
      Y.rows = ls.length ∧ Y.cols = l.theta.weight.rows ∧
      (∀ e o, e < ls.length → Y.at_ e o = Spec.edgeMean ls (fun v => Spec.affine l.theta X v o) e) ∧
      coef.length = recv.length ∧ send.length = recv.length ∧ Z.rows = n ∧ Z.cols = l.theta.weight.rows ∧
      (∀ i c, Z.at_ i c = Spec.incoming send recv coef (fun e => Y.at_ e c) i) ∧
      (∀ i, i ∈ recv → 0 < z i) ∧
      (∀ k (_ : k < coef.length) (_ : k < send.length) (_ : k < recv.length), 0 < coef[k] ∧
        coef[k] * z recv[k] =
          PyReal.exp (min (max (l.attDrop k (Spec.uniGatScore l Y send[k])) (1 / 1000)) 5)) ∧
      (∀ i, i ∈ recv → Spec.incoming send recv coef (fun _ => 1) i = 1) ∧
      (l.isLast = true → (uniGatConv l X s).1 = .ok Z) ∧
      (l.isLast = false → l.bn = none → (uniGatConv l X s).1 = .ok (Spec.eluOf Z)) ∧
      (∀ f, l.isLast = false → l.bn = some f → (uniGatConv l X s).1 = f (Spec.eluOf Z)) := by
  have hs' := hs.mono (Q := AnyH) fun _ _ _ => trivial
  obtain ⟨hi, hcoh⟩ := hs'.inv
  have hh := has_of_scope hsc
  rw [listing_eq hs']
  have hn' := Hy.numV_eq hn
  obtain ⟨H, hH, h1, h2, h3⟩ := linear_ok l.theta hc
  obtain ⟨Y, hY, y1, y2, y3⟩ := v2eMean_spec hi hs.inRange hh ((h1.trans hX).trans hn'.symm)
  obtain ⟨A, hA, a1, a2, a3⟩ := linear_ok l.attE (X := Y) ((y2.trans h2).trans hd.symm)
  obtain ⟨M, hM, hT, hI⟩ := evHT_spec hi hs.inRange hh
  have hsr : send = M.ents.map (fun e => e.1.2) ∧ recv = M.ents.map (fun e => e.1.1) := by
    obtain ⟨q1, q2⟩ := he
    rw [Hyper.ask_eq _ hcoh (.inr (by simp))] at q1 q2
    simp only [evAsk, hM, bind, Except.bind] at q1 q2
    cases q1; cases q2; exact ⟨rfl, rfl⟩
  obtain ⟨rfl, rfl⟩ := hsr
  have hg : gather A (M.ents.map fun e => e.1.2) = .ok ((M.ents.map fun e => e.1.2).map fun i => A.at_ i 0) := by
    apply gather_ok
    intro i hi'
    obtain ⟨e, he', rfl⟩ := List.mem_map.1 hi'
    have := ((hI.keys e.1.1 e.1.2).1 (List.mem_map.2 ⟨e, he', rfl⟩)).2.1
    rw [a1, y1]; exact this
  generalize hwd : attWeights l.slope l.attDrop ((M.ents.map fun e => e.1.2).map fun i => A.at_ i 0) = w
  have hwl : w.length = M.ents.length := by
    rw [← hwd]; unfold attWeights
    rw [List.length_mapIdx, List.length_map, List.length_map]
  obtain ⟨Z, coef, z, hZ, f1, f2, f3, f4, f5⟩ := aggW_softmax (evD := evDvN1 none) hM hI.nodup w hwl Y
    (y1.trans hI.cols.symm) fun _ => true
  have hZs := aggW_softmax_shape hM hwl hZ
  have hE : evE2v none Y .softmax (some w) 0 (fun _ => true) s.raw = .ok Z := by
    simp only [evE2v, evE2vAggr, evE2vUpd, chk_ok hh, bind, Except.bind]; rw [hZ]
  have hr : (uniGatConv l X s).1 = eluTail l.isLast l.bn Z := by
    rw [(reads_uniGat l X s hcoh).1]
    simp only [evUniGat, hH, hY, hA, hM, hg, hwd, bind, Except.bind, evSqueezed]
    rw [if_neg (by rw [hwl]; simpa using h1'), hE]
  refine ⟨Y, Z, coef, z, y1, y2.trans h2, fun e o heo => by rw [y3 e o heo]; simp only [h3], f1, by simp,
    hZs.1.trans (hI.rows.trans hn'), hZs.2.trans (y2.trans h2), f2, f3, ?_, f5, ?_, ?_, ?_⟩
  · intro k k1 k2 k3
    have := f4 k k1 (by rw [hwl]; simpa using k3) k3
    refine ⟨this.2, ?_⟩
    rw [this.1]
    congr 1
    have hk : k < w.length := by rw [hwl]; simpa using k3
    have : w[k] = clamp (1 / 1000) 5 (l.attDrop k (leakyRelu l.slope
        (A.at_ (M.ents.map fun e => e.1.2)[k] 0))) := by
      have h0 : w[k] = (attWeights l.slope l.attDrop
        ((M.ents.map fun e => e.1.2).map fun i => A.at_ i 0))[k]'(by rw [hwd]; exact hk) := by
        simp only [hwd]
      rw [h0]
      unfold attWeights
      rw [List.getElem_mapIdx, List.getElem_map]
    rw [this, a3]
    rfl
  · intro h; rw [hr]; simp only [eluTail, h, if_true]
  · intro h h'; rw [hr]; simp only [eluTail, h, h']; rfl
  · intro f h h'; rw [hr]; simp only [eluTail, h, h']; rfl

/-- C91 is false for `UniGATConv` on a hypergraph with a single incidence: `.squeeze()` removes the only
dimension of the scores and the call raises `IndexError`. -/
theorem C91_unigat_single_false :
    ¬ ∀ (s : HSt ℝ), Built Proper true s → Spec.HasScope s none → ∀ n, (ask .numV s).1 = .ok (.num n) →
      ∀ (l : UniGat ℝ) (X : Dense ℝ), X.rows = n → X.cols = l.theta.weight.cols →
      l.attE.weight.cols = l.theta.weight.rows → l.isLast = true → ∃ Z, (uniGatConv l X s).1 = .ok Z := by
  intro h
  have hsc : Spec.HasScope exH1 none := List.cons_ne_nil _ _
  let l : UniGat ℝ := ⟨⟨⟨1, 1, fun _ _ => 1⟩, none⟩, ⟨⟨1, 1, fun _ _ => 1⟩, none⟩, 1 / 5, fun _ x => x, true, none⟩
  obtain ⟨Z, hZ⟩ := h exH1 exH1_proper hsc 2 rfl l ⟨2, 1, fun _ _ => 1⟩ rfl rfl rfl rfl
  obtain ⟨hi, hcoh⟩ := (exH1_proper.mono (Q := AnyH) fun _ _ _ => trivial).inv
  have hh := has_of_scope hsc
  obtain ⟨H, hH, h1, h2, h3⟩ := linear_ok l.theta (X := ⟨2, 1, fun _ _ => 1⟩) rfl
  obtain ⟨Y, hY, y1, y2, y3⟩ := v2eMean_spec hi exH1_proper.inRange hh h1
  obtain ⟨A, hA, a1, a2, a3⟩ := linear_ok l.attE (X := Y) (y2.trans h2)
  have hM : evH none exH1.raw = .ok ⟨2, 1, [((1, 0), 1)]⟩ := rfl
  have hls : lstOf none exH1.raw = [([1], 1)] := rfl
  rw [hls] at y1
  have hg : gather A [0] = .ok [A.at_ 0 0] := by
    rw [gather_ok (by rw [a1, y1]; simp)]; rfl
  rw [(reads_uniGat l _ exH1 hcoh).1] at hZ
  simp only [evUniGat, hH, hY, hA, hM, bind, Except.bind, List.map_cons, List.map_nil, hg, evSqueezed] at hZ
  rw [if_pos (show (attWeights l.slope l.attDrop [A.at_ 0 0]).length = 1 from rfl)] at hZ
  cases hZ

example : Built Proper true exH ∧ Spec.HasScope exH none ∧ (ask .numV exH).1 = .ok (.num 4) ∧
    Spec.HNonneg (Spec.hListing exH none) ∧ (∃ L, (ask (.LHGNN none) exH).1 = .ok (.mat L)) ∧
    (∀ e ∈ Spec.hListing exH none, 0 < e.2 ∧ e.1 ≠ []) ∧
    (∃ send recv, HEnds .e2v exH none send recv ∧ recv.length ≠ 1) ∧
    ∃ (X : Dense ℝ) (l : Conv ℝ), X.rows = 4 ∧ X.cols = l.theta.weight.cols ∧ l.isLast = false ∧
      X.cols = l.theta.weight.rows := by
  have hsc : Spec.HasScope exH none := List.cons_ne_nil _ _
  have hl : Spec.hListing exH none = [([0, 1, 2], 2), ([1, 3], 3), ([3], 5)] := rfl
  have hw : Spec.HNonneg (Spec.hListing exH none) := by
    rw [hl]; intro e he; simp at he; rcases he with rfl | rfl | rfl <;> norm_num
  obtain ⟨L, _, _, hL, _⟩ := C36_hypergraph_L_HGNN_partial exH_proper hsc (n := 4) rfl hw
  obtain ⟨hi, hcoh⟩ := (exH_proper.mono (Q := AnyH) fun _ _ _ => trivial).inv
  obtain ⟨M, hM, hT, hI⟩ := evHT_spec hi exH_proper.inRange (has_of_scope hsc)
  refine ⟨exH_proper, hsc, rfl, hw, ⟨L, hL⟩, ?_, ⟨M.ents.map (fun e => e.1.2), M.ents.map (fun e => e.1.1), ⟨?_, ?_⟩, ?_⟩,
    ⟨4, 2, fun i c => i + c⟩, ⟨⟨false, none, id⟩, ⟨⟨2, 2, fun i c => i - c⟩, some fun _ => 1⟩⟩, rfl, rfl, rfl, rfl⟩
  · rw [hl]; intro e he; simp at he; rcases he with rfl | rfl | rfl <;> constructor <;> simp
  · rw [Hyper.ask_eq _ hcoh (.inr (by simp))]; simp only [evAsk, hM]; rfl
  · rw [Hyper.ask_eq _ hcoh (.inr (by simp))]; simp only [evAsk, hM]; rfl
  · have h0 := (hI.keys 0 0).2 ⟨by decide, by decide, by decide⟩
    have h1 := (hI.keys 1 0).2 ⟨by decide, by decide, by decide⟩
    intro hlen
    rw [List.length_map] at hlen
    obtain ⟨x, hx⟩ := List.length_eq_one_iff.1 hlen
    rw [hx] at h0 h1
    simp only [List.map_cons, List.map_nil, List.mem_singleton] at h0 h1
    rw [← h0] at h1
    simp at h1

/-- C91. `HyperGCNConv` with a given graph computes `L_GCN (X Wᵀ + b)` of that graph before its
activation; without one, it uses the HyperGCN expansion for the transformed features, without self
loops, described by `C44_hypergcn_partial`. -/
theorem C91_hypergcn_conv_cached [IsStrictOrderedRing K] (s : HSt K) {g : GSt K} (hg : Graph.Built Graph.NonNeg g) {n : Nat}
    (hn : (Graph.ask .numV g).1 = .ok (.num n)) (hw : Spec.NonnegWeights (Spec.listing g)) {L : Sp K}
    (hL : (Graph.ask .LGCN g).1 = .ok (.mat L)) (l : Conv K) (mediator : Bool) (rv : Nat → K) (X : Dense K)
    (hX : X.rows = n) (hc : X.cols = l.theta.weight.cols) :
    ∃ H Z, Spec.affine l.theta X = H.at_ ∧ H.rows = n ∧ Z.rows = n ∧ Z.cols = l.theta.weight.rows ∧
      (∀ i o, Z.at_ i o = ∑ j ∈ range n, L.get i j * Spec.affine l.theta X j o) ∧
      Spec.Finished l.toTail Z (hyperGcnConv l mediator (some g) rv X s).1 ∧
      ((Graph.fromHypergraphHypergcn H mediator true rv s).1 = .ok g →
        Spec.Finished l.toTail Z (hyperGcnConv l mediator none rv X s).1) := by
  obtain ⟨Y, hY, y1, y2, y3⟩ := linear_ok l.theta hc
  obtain ⟨Z, hZ, z1, z2, z3⟩ := C11_graph_smoothing hg hn hw hL Y (y1.trans hX) fun _ => true
  refine ⟨Y, Z, funext fun i => funext fun o => (y3 i o).symm, y1.trans hX, z1, z2.trans y2, fun i o => ?_, ?_, fun hE => ?_⟩
  · rw [z3]; exact sum_congr rfl fun j _ => by rw [y3]
  · have hr : (hyperGcnConv l mediator (some g) rv X s).1 = l.run Z := by
      simp only [hyperGcnConv, PyM.bind_apply, PyM.lift_apply, hY, onOther, smooth_run hZ]
    rw [hr]; exact tail_finished _ _
  · have hr : (hyperGcnConv l mediator none rv X s).1 = l.run Z := by
      simp only [hyperGcnConv, PyM.bind_apply, PyM.lift_apply, hY]
      rcases hm : Graph.fromHypergraphHypergcn Y mediator true rv s with ⟨r, s'⟩
      rw [hm] at hE
      simp only at hE
      subst hE
      simp only [onOther, PyM.lift_apply, smooth_run hZ]
    rw [hr]; exact tail_finished _ _

/-- C91, partial. `HyperGCNConv` without a given graph: each hyperedge is replaced by the edge between
the two vertices with extreme projections of the transformed features (and, with mediators, edges to the
others), as in `C44_hypergcn_partial`; the layer computes `L_GCN (X Wᵀ + b)` of that graph. Missing: the
hypergraphs excluded there. -/
theorem C91_hypergcn_conv_partial [IsStrictOrderedRing K] {s : HSt K} (hs : Built Proper b s)
    {n : Nat} (hn : (ask .numV s).1 = .ok (.num n)) (l : Conv K) (mediator : Bool) (rv : Nat → K)
    (X : Dense K) (hX : X.rows = n) (hc : X.cols = l.theta.weight.cols)
    (h2 : ∀ e ∈ Spec.hListing s none, 2 ≤ e.1.length)
    (hne : ∃ e ∈ Spec.hListing s none, mediator = false ∨ 3 ≤ e.1.length) :
    ∃ (H Z : Dense K) (A B : List Int → Int) (g : GSt K) (L : Sp K),
      (∀ i o, H.at_ i o = Spec.affine l.theta X i o) ∧
      Spec.Extremes (Spec.hListing s none) (Spec.proj H rv) A B ∧
      (∀ (x y : Int) (w : K), Spec.Listed g x y w ↔ x ≠ y ∧
        (if mediator then ∃ e ∈ Spec.hListing s none, ∃ m ∈ Spec.mediators A B e.1,
            Spec.SamePair (A e.1) m x y ∨ Spec.SamePair (B e.1) m x y
          else ∃ e ∈ Spec.hListing s none, Spec.SamePair (A e.1) (B e.1) x y) ∧
        w = if mediator then Spec.mediatorWt (Spec.hListing s none) A B x y
          else Spec.plainWt (Spec.hListing s none) A B x y) ∧
      (Graph.ask .LGCN g).1 = .ok (.mat L) ∧ Z.rows = n ∧ Z.cols = l.theta.weight.rows ∧
      (∀ i o, Z.at_ i o = ∑ j ∈ range n, L.get i j * H.at_ j o) ∧
      Spec.Finished l.toTail Z (hyperGcnConv l mediator none rv X s).1 := by
  obtain ⟨Y, hY, y1, y2, y3⟩ := linear_ok l.theta hc
  obtain ⟨A, B, g, hE, hg, hgn, hb, hl⟩ := C44_hypergcn_partial hs hn (X := Y) (y1.trans hX) h2 mediator true rv
    fun _ => hne
  have hw : Spec.NonnegWeights (Spec.listing g) := by
    intro e he
    have := (hl e.1.1 e.1.2 e.2).1 (.inl he)
    rw [this.2.2]
    cases mediator with
    | false =>
      simp only [Bool.false_eq_true, if_false]
      unfold Spec.plainWt
      apply List.sum_nonneg
      intro x hx
      obtain ⟨f, hf, rfl⟩ := List.mem_map.1 hx
      split
      · positivity
      · exact le_rfl
    | true =>
      simp only [if_true]
      unfold Spec.mediatorWt
      apply List.sum_nonneg
      intro x hx
      obtain ⟨f, hf, rfl⟩ := List.mem_map.1 hx
      apply List.sum_nonneg
      intro y hy
      obtain ⟨m, hm, rfl⟩ := List.mem_map.1 hy
      have h3 : (0 : K) ≤ 1 / (2 * (f.1.length : K) - 3) := by
        apply div_nonneg zero_le_one
        have : (2 : K) ≤ (f.1.length : K) := by exact_mod_cast h2 f hf
        linarith
      apply add_nonneg <;> split <;> first | exact h3 | exact le_rfl
  obtain ⟨L, _, hL, _⟩ := C11_graph_LGCN hb hgn hw
  obtain ⟨Z, hZ, z1, z2, z3⟩ := C11_graph_smoothing hb hgn hw hL Y (y1.trans hX) fun _ => true
  refine ⟨Y, Z, A, B, g, L, y3, hE, fun x y w => ?_, hL, z1, z2.trans y2, z3, ?_⟩
  · rw [hl]; simp
  · have hr : (hyperGcnConv l mediator none rv X s).1 = l.run Z := by
      simp only [hyperGcnConv, PyM.bind_apply, PyM.lift_apply, hY]
      rcases hm : Graph.fromHypergraphHypergcn Y mediator true rv s with ⟨r, s'⟩
      rw [hm] at hg
      simp only at hg
      subst hg
      simp only [onOther, PyM.lift_apply, smooth_run hZ]
    rw [hr]; exact tail_finished _ _

example : Built Proper true exH2 ∧ (ask .numV exH2).1 = .ok (.num 2) ∧ (exX 2).rows = 2 ∧
    (exX 2).cols = 1 ∧ (∀ e ∈ Spec.hListing exH2 none, 2 ≤ e.1.length) ∧
    ∃ e ∈ Spec.hListing exH2 none, false = false ∨ 3 ≤ e.1.length :=
  ⟨exH2_proper, rfl, rfl, rfl, exH_ge2, by rw [exH2_listing]; simp⟩

/-- C91. None of the hypergraph layers changes what later reads of the hypergraph return. -/
theorem C91_hypergraph_unchanged {s : HSt K} (hs : Built AnyH true s) (l : Conv K) (t : Linear K) (eps : K)
    (a : UniGat K) (X : Dense K) :
    Spec.HIndist (fun _ => True) (hgnnConv l X s).2 s ∧ Spec.HIndist (fun _ => True) (jhConv l X s).2 s ∧
    Spec.HIndist (fun _ => True) (hgnnpConv l X s).2 s ∧ Spec.HIndist (fun _ => True) (hnhnConv l t X s).2 s ∧
    Spec.HIndist (fun _ => True) (uniGcnConv l X s).2 s ∧ Spec.HIndist (fun _ => True) (uniSageConv l X s).2 s ∧
    Spec.HIndist (fun _ => True) (uniGinConv l eps X s).2 s ∧
    Spec.HIndist (fun _ => True) (uniGatConv a X s).2 s := by
  have hc := hs.inv.2
  exact ⟨indist_of_raw (reads_hgnn l X s hc).2.1 (reads_hgnn l X s hc).2.2 hc,
    indist_of_raw (reads_jh l X s hc).2.1 (reads_jh l X s hc).2.2 hc,
    indist_of_raw (reads_hgnnp l X s hc).2.1 (reads_hgnnp l X s hc).2.2 hc,
    indist_of_raw (reads_hnhn l t X s hc).2.1 (reads_hnhn l t X s hc).2.2 hc,
    indist_of_raw (reads_uniGcn l X s hc).2.1 (reads_uniGcn l X s hc).2.2 hc,
    indist_of_raw (reads_uniSage l X s hc).2.1 (reads_uniSage l X s hc).2.2 hc,
    indist_of_raw (reads_uniGin l eps X s hc).2.1 (reads_uniGin l eps X s hc).2.2 hc,
    indist_of_raw (reads_uniGat a X s hc).2.1 (reads_uniGat a X s hc).2.2 hc⟩

end Props
end DHG
