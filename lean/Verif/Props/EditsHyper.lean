import Verif.Props.Edits

/-!
# Hypergraphs that look the same around a vertex give the same results there (C121)
-/

set_option linter.unusedSectionVars false
set_option autoImplicit false

namespace DHG

variable {K : Type} [Field K] [LinearOrder K]

namespace Spec

/-- calls on all groups with the weights of the hypergraph, aggregating by sum or mean, without dropout -/
def PlainHCall : HCall K → Prop
  | .v2v sc a => sc = none ∧ (a.v2eAggr.getD a.aggr = .sum ∨ a.v2eAggr.getD a.aggr = .mean) ∧
      (a.e2vAggr.getD a.aggr = .sum ∨ a.e2vAggr.getD a.aggr = .mean) ∧ a.v2eWeight = none ∧ a.eWeight = none ∧
      a.e2vWeight = none ∧ a.v2eRate.getD a.rate = 0 ∧ a.e2vRate.getD a.rate = 0
  | .hgnn sc p _ => sc = none ∧ p = 0

/-- the listed hyperedges containing `v` -/
def hyperedgesAt (l : List (List Int × K)) (v : Nat) : List (List Int × K) := l.filter fun e => decide ((v : Int) ∈ e.1)

/-- the call sets vertex weights, or it adds or removes hyperedges without vertices in `T` -/
def AwayFromH (n : Nat) (T : Nat → Prop) : HOp K → Prop
  | .addHyperedges arg _ op _ => op ≠ .other ∧ Hyper.Proper n arg ∧
      ∀ e ∈ Hyper.argEdges arg, ∀ m : Nat, T m → (m : Int) ∉ e
  | .removeHyperedges arg _ => ∀ e ∈ Hyper.argEdges arg, ∀ m : Nat, T m → (m : Int) ∉ e
  | .setVWeight _ => True
  | _ => False

end Spec

namespace Props
open Finset Hyper Hy Loca

variable [PyReal K]

namespace EditH

/-- the sum over the hyperedges at `i` of weight times a function of the vertices -/
def hsum (l : List (List Int × K)) (i : Nat) (φ : List Int → K) : K :=
  ((Spec.hyperedgesAt l i).map fun e => e.2 * φ e.1).sum

theorem sum_list {α : Type} (l : List α) (f : α → K) (d : α) : ∑ k ∈ range l.length, f (l.getD k d) = (l.map f).sum := by
  induction l with
  | nil => rfl
  | cons a l ih =>
    rw [List.length_cons, sum_range_succ', List.map_cons, List.sum_cons, ← ih, add_comm]
    congr 1

theorem filter_sum {α : Type} (l : List α) (p : α → Bool) (f : α → K) :
    (l.map fun a => if p a then f a else 0).sum = ((l.filter p).map f).sum := by
  induction l with
  | nil => rfl
  | cons a l ih =>
    rw [List.map_cons, List.sum_cons, ih, List.filter_cons]
    split <;> simp

theorem incident_hsum (l : List (List Int × K)) (i : Nat) (φ : List Int → K) :
    Spec.incidentSum l i (fun k => Spec.hWt l k * φ (Spec.hAt l k)) = hsum l i φ := by
  unfold Spec.incidentSum hsum Spec.hWt Spec.hAt Spec.hyperedgesAt
  rw [← filter_sum, ← sum_list l _ ([], 0)]
  exact sum_congr rfl fun k _ => by simp

theorem deg_hsum (l : List (List Int × K)) (i : Nat) : Spec.hDeg l i = hsum l i fun _ => 1 := by
  unfold Spec.hDeg hsum Spec.hyperedgesAt
  rw [← filter_sum]
  congr 1
  exact List.map_congr_left fun e _ => by simp

theorem hsum_congr {l l' : List (List Int × K)} {i : Nat} (h : (Spec.hyperedgesAt l i).Perm (Spec.hyperedgesAt l' i))
    {φ φ' : List Int → K} (hφ : ∀ e ∈ l, (i : Int) ∈ e.1 → φ e.1 = φ' e.1) : hsum l i φ = hsum l' i φ' := by
  unfold hsum
  rw [← (h.map fun e => e.2 * φ' e.1).sum_eq]
  congr 1
  refine List.map_congr_left fun e he => ?_
  rw [Spec.hyperedgesAt, List.mem_filter, decide_eq_true_eq] at he
  rw [hφ e he.1 he.2]

variable {r r' : HRaw K}

/-- the hyperedges around -/
def Good (r r' : HRaw K) (k m : Nat) : Prop := ∀ m', Spec.Ball (Spec.HAdj (lstOf none r)) k m m' →
  (Spec.hyperedgesAt (lstOf none r) m').Perm (Spec.hyperedgesAt (lstOf none r') m')

theorem Good.same {k m : Nat} (h : Good r r' k m) :
    (Spec.hyperedgesAt (lstOf none r) m).Perm (Spec.hyperedgesAt (lstOf none r') m) := h m (Edit.near_self k m)

theorem Good.next {k m j : Nat} (h : Good r r' (k + 1) m) (ha : Spec.HAdj (lstOf none r) m j) : Good r r' k j :=
  fun m' hm => h m' (Edit.near_head ha hm)

/-- what `v2v` computes -/
def val (m1 m2 : Bool) (l : List (List Int × K)) (X : Dense K) (i c : Nat) : K :=
  let s := hsum l i fun e => if m1 then (e.map fun v => X.at_ v.toNat c).sum / e.length else (e.map fun v => X.at_ v.toNat c).sum
  if m2 then s / Spec.hDeg l i else s

theorem v2v_val (hi : Hyper.Inv r) (hr : InRange r) (h : Has none r) {a : V2VArgs K} (hq : Spec.PlainHCall (.v2v none a))
    {X Y : Dense K} (hX : X.rows = r.numV) (hY : Hyper.evV2v none X a r = .ok Y) :
    Y.rows = r.numV ∧ Y.cols = X.cols ∧ ∀ i c, i < r.numV →
      Y.at_ i c = val (decide (a.v2eAggr.getD a.aggr = .mean)) (decide (a.e2vAggr.getD a.aggr = .mean)) (lstOf none r) X i c := by
  obtain ⟨-, h1, h2, h3, h4, h5, h6, h7⟩ := hq
  have key : ∀ (E : Dense K) (aggr : Aggr), aggr = .sum ∨ aggr = .mean →
      E.rows = (lstOf none r).length → E.cols = X.cols → ∀ (φ : Nat → List Int → K),
      (∀ j c, j < (lstOf none r).length → E.at_ j c = Spec.hWt (lstOf none r) j * φ c (Spec.hAt (lstOf none r) j)) →
      evE2v none E aggr none 0 a.keep2 r = .ok Y →
      Y.rows = r.numV ∧ Y.cols = X.cols ∧ ∀ i c, i < r.numV → Y.at_ i c =
        if decide (aggr = .mean) then hsum (lstOf none r) i (φ c) / Spec.hDeg (lstOf none r) i else hsum (lstOf none r) i (φ c) := by
    intro E aggr ha hE hEc φ hφ hZ
    have hs : ∀ i c, Spec.incidentSum (lstOf none r) i (fun k => E.at_ k c) = hsum (lstOf none r) i (φ c) := fun i c => by
      rw [← incident_hsum]
      unfold Spec.incidentSum
      refine sum_congr rfl fun k hk => ?_
      simp only [hφ k c (mem_range.1 hk)]
    obtain ⟨⟨A, hA, a1, a2, a3⟩, ⟨B, hB, b1, b2, b3⟩⟩ := evE2v_spec hi hr h E hE a.keep2
    rcases ha with rfl | rfl
    · rw [hZ] at hA; cases hA
      exact ⟨a1, a2.trans hEc, fun i c hi => by rw [a3 i c hi, hs]; rfl⟩
    · rw [hZ] at hB; cases hB
      exact ⟨b1, b2.trans hEc, fun i c hi => by rw [b3 i c hi, hs]; rfl⟩
  simp only [Hyper.evV2v, chk_ok h, bind, Except.bind, h3, h4, h5, h6, h7] at hY
  obtain ⟨⟨A, hA, a1, a2, a3⟩, ⟨B, hB, b1, b2, b3⟩⟩ := evV2eAggr_spec hi hr h X hX a.keep1
  rcases h1 with h1 | h1
  · obtain ⟨E, hE, e1, e2, e3⟩ := evV2e_spec hi h hA a1
    rw [h1, hE] at hY
    obtain ⟨z1, z2, z3⟩ := key E _ h2 e1 (e2.trans a2) (fun c e => (e.map fun v => X.at_ v.toNat c).sum)
      (fun j c hj => by rw [e3 j c hj, a3 j c hj]; rfl) hY
    refine ⟨z1, z2, fun i c hi => ?_⟩
    rw [z3 i c hi, h1]
    rfl
  · obtain ⟨E, hE, e1, e2, e3⟩ := evV2e_spec hi h hB b1
    rw [h1, hE] at hY
    obtain ⟨z1, z2, z3⟩ := key E _ h2 e1 (e2.trans b2)
      (fun c e => (e.map fun v => X.at_ v.toNat c).sum / e.length)
      (fun j c hj => by rw [e3 j c hj, b3 j c hj]; rfl) hY
    refine ⟨z1, z2, fun i c hi => ?_⟩
    rw [z3 i c hi, h1]
    rfl

variable [IsStrictOrderedRing K]

/-- what `smoothing_with_HGNN` computes -/
def valS (l : List (List Int × K)) (X : Dense K) (i c : Nat) : K :=
  negHalf (Spec.hDeg l i) * hsum l i fun e => (e.map fun v => negHalf (Spec.hDeg l v.toNat) * X.at_ v.toNat c).sum / e.length

theorem smooth_val (hi : Hyper.Inv r) (hr : InRange r) (h : Has none r) (hw : Spec.HNonneg (lstOf none r))
    {X Y : Dense K} {keep : Nat → Bool} (hY : evSmooth none X 0 keep r = .ok Y) :
    Y.rows = r.numV ∧ Y.cols = X.cols ∧ ∀ i c, i < r.numV → Y.at_ i c = valS (lstOf none r) X i c := by
  obtain ⟨L, hL, l⟩ := evLHGNN_spec hi hr h hw
  simp only [evSmooth, hL, Graph.evDrop, lt_self_iff_false, if_false, bind, Except.bind] at hY
  have s := Sp.mmD_shape hY
  refine ⟨s.2.1.trans l.rows, s.2.2, fun i c hlt => ?_⟩
  rw [Sp.mmD_at hY l.wf, l.cols]
  rw [sum_congr rfl fun j hj => by rw [l.get i j hlt (mem_range.1 hj)]]
  unfold valS
  rw [← incident_hsum, ← incidentSum_eq, mul_sum]
  have hR := lst_rng hi hr none
  have e1 : ∀ j ∈ range r.numV, negHalf (Spec.hDeg (lstOf none r) i) * Spec.share (lstOf none r) i j *
      negHalf (Spec.hDeg (lstOf none r) j) * X.at_ j c = ∑ k ∈ range (lstOf none r).length,
      negHalf (Spec.hDeg (lstOf none r) i) * (Spec.inc (lstOf none r) i k * Spec.hWt (lstOf none r) k *
        (Spec.hSize (lstOf none r) k)⁻¹ * Spec.inc (lstOf none r) j k) * negHalf (Spec.hDeg (lstOf none r) j) * X.at_ j c := by
    intro j _
    rw [Spec.share, mul_sum, sum_mul, sum_mul]
  rw [sum_congr rfl e1, sum_comm]
  refine sum_congr rfl fun k hk => ?_
  have hm := memberSum_eq hR (mem_range.1 hk) fun v => negHalf (Spec.hDeg (lstOf none r) v) * X.at_ v c
  unfold Spec.memberSum at hm
  rw [← hm, sum_div, mul_sum, mul_sum, mul_sum]
  refine sum_congr rfl fun j _ => ?_
  rw [Spec.hSize]
  ring

/-- one call -/
theorem step (hi : Hyper.Inv r) (hr : InRange r) (h : Has none r) (hw : Spec.HNonneg (lstOf none r))
    (hi' : Hyper.Inv r') (hr' : InRange r') (h' : Has none r') (hw' : Spec.HNonneg (lstOf none r')) (hn : r'.numV = r.numV)
    {q : Spec.HCall K} (hq : Spec.PlainHCall q) {X X' Y Y' : Dense K} {k : Nat} (hXr : X.rows = r.numV)
    (hXr' : X'.rows = r.numV) (hc : X'.cols = X.cols) (hX : ∀ m, m < r.numV → Good r r' k m → Spec.SameRow X X' m)
    (hY : Loca.evH q X r = .ok Y) (hY' : Loca.evH q X' r' = .ok Y') :
    Y.rows = r.numV ∧ Y'.rows = r.numV ∧ Y'.cols = Y.cols ∧
      ∀ m, m < r.numV → Good r r' (k + 1) m → Spec.SameRow Y Y' m := by
  have hR := lst_rng hi hr none
  have hmem : ∀ {m : Nat}, Good r r' (k + 1) m → ∀ e ∈ lstOf none r, (m : Int) ∈ e.1 → ∀ v ∈ e.1,
      v.toNat < r.numV ∧ Good r r' k v.toNat := by
    intro m hg e he hm v hv
    have hv' := (hR e he).2 v hv
    refine ⟨by omega, hg.next ⟨e, he, hm, ?_⟩⟩
    rwa [Int.toNat_of_nonneg hv'.1]
  have hd : ∀ {k m : Nat}, Good r r' k m → Spec.hDeg (lstOf none r) m = Spec.hDeg (lstOf none r') m := fun hg => by
    rw [deg_hsum, deg_hsum]
    exact hsum_congr hg.same fun _ _ _ => rfl
  cases q with
  | v2v sc a =>
    obtain rfl : sc = none := hq.1
    obtain ⟨y1, y2, y3⟩ := v2v_val hi hr h hq hXr hY
    obtain ⟨z1, z2, z3⟩ := v2v_val hi' hr' h' hq (hXr'.trans hn.symm) hY'
    refine ⟨y1, z1.trans hn, z2.trans (hc.trans y2.symm), fun m hm hg c hcl => ?_⟩
    rw [y2] at hcl
    rw [y3 m c hm, z3 m c (hn ▸ hm)]
    have hs : hsum (lstOf none r) m (fun e => if decide (a.v2eAggr.getD a.aggr = .mean) then
        (e.map fun v => X.at_ v.toNat c).sum / (e.length : K) else (e.map fun v => X.at_ v.toNat c).sum) =
        hsum (lstOf none r') m (fun e => if decide (a.v2eAggr.getD a.aggr = .mean) then
        (e.map fun v => X'.at_ v.toNat c).sum / (e.length : K) else (e.map fun v => X'.at_ v.toNat c).sum) :=
      hsum_congr hg.same fun e he hme => by
        rw [List.map_congr_left fun v hv => hX _ (hmem hg e he hme v hv).1 (hmem hg e he hme v hv).2 c hcl]
    unfold val
    simp only [hs, hd hg]
  | hgnn sc p keep =>
    obtain ⟨rfl, rfl⟩ := hq
    obtain ⟨y1, y2, y3⟩ := smooth_val hi hr h hw hY
    obtain ⟨z1, z2, z3⟩ := smooth_val hi' hr' h' hw' hY'
    refine ⟨y1, z1.trans hn, z2.trans (hc.trans y2.symm), fun m hm hg c hcl => ?_⟩
    rw [y2] at hcl
    rw [y3 m c hm, z3 m c (hn ▸ hm)]
    unfold valS
    rw [hd hg]
    congr 1
    refine hsum_congr hg.same fun e he hme => ?_
    rw [List.map_congr_left fun v hv => by
      rw [hX _ (hmem hg e he hme v hv).1 (hmem hg e he hme v hv).2 c hcl, hd (hmem hg e he hme v hv).2]]

/-- networks -/
theorem steps (hi : Hyper.Inv r) (hr : InRange r) (h : Has none r) (hw : Spec.HNonneg (lstOf none r))
    (hi' : Hyper.Inv r') (hr' : InRange r') (h' : Has none r') (hw' : Spec.HNonneg (lstOf none r')) (hn : r'.numV = r.numV) :
    ∀ (ls : List (Spec.Layer K (Spec.HCall K))), (∀ q, .call q ∈ ls → Spec.PlainHCall q) →
    ∀ {X X' Y Y' : Dense K} {k : Nat}, X.rows = r.numV → X'.rows = r.numV → X'.cols = X.cols →
    (∀ m, m < r.numV → Good r r' k m → Spec.SameRow X X' m) →
    evNet Loca.evH ls X r = .ok Y → evNet Loca.evH ls X' r' = .ok Y' →
    Y'.rows = Y.rows ∧ Y'.cols = Y.cols ∧ ∀ m, m < r.numV → Good r r' (k + Spec.hops ls) m → Spec.SameRow Y Y' m
  | [], _, X, X', Y, Y', k, h0, h1, h2, h3, h4, h5 => by
    cases h4; cases h5
    exact ⟨h1.trans h0.symm, h2, h3⟩
  | .call q :: ls, hq, X, X', Y, Y', k, h0, h1, h2, h3, h4, h5 => by
    obtain ⟨Z, h6, h7⟩ := bok h4
    obtain ⟨Z', h8, h9⟩ := bok h5
    obtain ⟨i0, i1, i2, i3⟩ := step hi hr h hw hi' hr' h' hw' hn (hq q (List.mem_cons_self ..)) h0 h1 h2 h3 h6 h8
    obtain ⟨j1, j2, j3⟩ := steps hi hr h hw hi' hr' h' hw' hn ls (fun q h => hq q (List.mem_cons_of_mem _ h))
      i0 i1 i2 i3 h7 h9
    refine ⟨j1, j2, fun m hm hg => j3 m hm ?_⟩
    rwa [show k + 1 + Spec.hops ls = k + Spec.hops (.call q :: ls) by simp only [Spec.hops]; omega]
  | .rows cols f :: ls, hq, X, X', Y, Y', k, h0, h1, h2, h3, h4, h5 => by
    refine steps hi hr h hw hi' hr' h' hw' hn ls (fun q h => hq q (List.mem_cons_of_mem _ h))
      (X := Spec.mapRows cols f X) (X' := Spec.mapRows cols f X') h0 h1 rfl (fun m hm hg c hc => ?_) h4 h5
    show f _ c = f _ c
    rw [h2]
    congr 1
    exact List.map_congr_left fun c hc => h3 m hm hg c (List.mem_range.1 hc)

end EditH
open EditH

variable [IsStrictOrderedRing K]

/-- C121. Two hypergraphs with the same number of vertices and non-negative weights: if every vertex within `k` steps of
`i` is in the same hyperedges with the same weights (in any order, in any groups), then a network with `k` message
passing calls computes the same at `i`. -/
theorem C121_hypergraph_around {b b' : Bool} {s s' : HSt K} (hs : Built Proper b s) (hs' : Built Proper b' s')
    (hsc : Spec.HasScope s none) (hsc' : Spec.HasScope s' none) {n : Nat} (hn : (ask .numV s).1 = .ok (.num n))
    (hn' : (ask .numV s').1 = .ok (.num n)) (hw : Spec.HNonneg (Spec.hListing s none))
    (hw' : Spec.HNonneg (Spec.hListing s' none)) (ls : List (Spec.Layer K (Spec.HCall K)))
    (hp : ∀ q, .call q ∈ ls → Spec.PlainHCall q) (X : Dense K) (hX : X.rows = n) {Y Y' : Dense K}
    (hY : (Spec.net Spec.HCall.run ls X s).1 = .ok Y) (hY' : (Spec.net Spec.HCall.run ls X s').1 = .ok Y')
    {i : Nat} (hi : i < n)
    (h : ∀ m, Spec.Ball (Spec.HAdj (Spec.hListing s none)) (Spec.hops ls) i m →
      (Spec.hyperedgesAt (Spec.hListing s none) m).Perm (Spec.hyperedgesAt (Spec.hListing s' none) m)) :
    Y'.rows = Y.rows ∧ Y'.cols = Y.cols ∧ Spec.SameRow Y Y' i := by
  have e := Hy.numV_eq hn
  have e' := Hy.numV_eq hn'
  have a := hs.mono (Q := AnyH) fun _ _ _ => trivial
  have a' := hs'.mono (Q := AnyH) fun _ _ _ => trivial
  have key : ∀ {b : Bool} {s : HSt K}, CoherentOn (Tr b) evKey s → (Spec.net Spec.HCall.run ls X s).1 = evNet Loca.evH ls X s.raw :=
    fun {b s} hc => (net_readsOn (T := Hyper.Tr b) (f := Hyper.evKey) (ev := Loca.evH) (fun q X => by
      cases q with
      | v2v sc a => exact Hyper.reads_v2v sc X a
      | hgnn sc p keep => exact Hyper.reads_smooth sc X p keep) ls X s hc).1
  rw [key a.inv.2] at hY
  rw [key a'.inv.2] at hY'
  rw [listing_eq a] at h hw
  rw [listing_eq a'] at h hw'
  obtain ⟨h1, h2, h3⟩ := steps a.inv.1 hs.inRange (has_of_scope hsc) hw a'.inv.1 hs'.inRange (has_of_scope hsc') hw'
    (e'.trans e.symm) ls hp (k := 0) (hX.trans e.symm) (hX.trans e.symm) rfl (fun m _ _ c _ => rfl) hY hY'
  exact ⟨h1, h2, h3 i (e ▸ hi) (by rw [Nat.zero_add]; exact h)⟩

namespace EditH

section Frame
variable {α : Type} {p : List Int × K → Bool}

theorem filter_set {e : List Int} (h : ∀ w, p (e, w) = false) : ∀ (d : HGroup K) (w : K),
    (Dict.set d e w).filter p = d.filter p
  | [], w => by simp [Dict.set, h]
  | (e', w') :: d, w => by
    simp only [Dict.set]
    split
    · next he => subst he; simp [List.filter_cons, h]
    · rw [List.filter_cons, List.filter_cons, filter_set h d w]

theorem filter_upsert {e : List Int} (h : ∀ w, p (e, w) = false) (d : HGroup K) (f : K → K → K) (w : K) :
    (upsert d e f w).filter p = d.filter p := by
  unfold upsert
  split <;> exact filter_set h _ _

theorem filter_del {e : List Int} (h : ∀ w, p (e, w) = false) : ∀ (d : HGroup K),
    (Dict.del d e).filter p = d.filter p
  | [] => rfl
  | (e', w') :: d => by
    simp only [Dict.del]
    split
    · next he => subst he; rw [List.filter_cons, h]; rfl
    · rw [List.filter_cons, List.filter_cons, filter_del h d]

theorem flat_set {g : String} : ∀ (gs : Dict String (HGroup K)) {d : HGroup K},
    d.filter p = ((gs.get? g).getD []).filter p →
    ((Dict.set gs g d).flatMap Prod.snd).filter p = (gs.flatMap Prod.snd).filter p
  | [], d, h => by
    simp only [Dict.set, List.flatMap_cons, List.flatMap_nil, List.append_nil]
    exact h
  | (g', d') :: gs, d, h => by
    simp only [Dict.set]
    simp only [Dict.get?] at h
    split
    · next hg =>
      rw [if_pos hg] at h
      rw [List.flatMap_cons, List.flatMap_cons, List.filter_append, List.filter_append, h]
      rfl
    · next hg =>
      rw [if_neg hg] at h
      rw [List.flatMap_cons, List.flatMap_cons, List.filter_append, List.filter_append, flat_set gs h]

theorem flat_popAll {e : List Int} (h : ∀ w, p (e, w) = false) : ∀ (gs : Dict String (HGroup K)),
    ((popAll e gs).flatMap Prod.snd).filter p = (gs.flatMap Prod.snd).filter p
  | [] => rfl
  | (g', d') :: gs => by
    have ih := flat_popAll h gs
    simp only [popAll, List.map_cons, List.flatMap_cons, List.filter_append, filter_del h] at ih ⊢
    rw [ih]

theorem flat_popOne {e : List Int} (h : ∀ w, p (e, w) = false) (g : String) (gs : Dict String (HGroup K)) :
    ((popOne g e gs).flatMap Prod.snd).filter p = (gs.flatMap Prod.snd).filter p := by
  unfold popOne
  split
  · rfl
  · next d hd => exact flat_set gs (by rw [hd]; exact filter_del h d)

theorem set_ne {gs : Dict String (HGroup K)} {g : String} {d : HGroup K} : Dict.set gs g d ≠ [] := by
  cases gs with
  | nil => exact List.cons_ne_nil _ _
  | cons q gs => obtain ⟨a, b⟩ := q; simp only [Dict.set]; split <;> exact List.cons_ne_nil _ _

theorem popAll_ne {gs : Dict String (HGroup K)} {e : List Int} (h : gs ≠ []) : popAll e gs ≠ [] := by
  unfold popAll
  simpa using h

theorem popOne_ne {gs : Dict String (HGroup K)} {g : String} {e : List Int} (h : gs ≠ []) : popOne g e gs ≠ [] := by
  unfold popOne
  split
  · exact h
  · exact set_ne

end Frame

theorem addAll_frame {p : List Int × K → Bool} (op : MergeOp) (g : String) : ∀ (l : List (List Int × K)),
    (∀ q ∈ l, ∀ w, p (q.1, w) = false) → ∀ (r : HRaw K), r.groups ≠ [] →
    (l.foldl (addRaw op g) r).groups ≠ [] ∧ (l.foldl (addRaw op g) r).numV = r.numV ∧
      (lstOf none (l.foldl (addRaw op g) r)).filter p = (lstOf none r).filter p
  | [], _, r, hr => ⟨hr, rfl, rfl⟩
  | q :: l, h, r, hr => by
    obtain ⟨h1, h2, h3⟩ := addAll_frame op g l (fun q hq => h q (List.mem_cons_of_mem _ hq)) (addRaw op g r q) set_ne
    refine ⟨h1, h2, h3.trans ?_⟩
    exact flat_set r.groups (filter_upsert (h q (List.mem_cons_self ..)) _ _ _)

theorem removeAll_frame {p : List Int × K → Bool} (g : Option String) : ∀ (es : List (List Int)),
    (∀ e ∈ es, ∀ w, p (e, w) = false) → ∀ (r : HRaw K), r.groups ≠ [] →
    (removeRaw g r es).groups ≠ [] ∧ (removeRaw g r es).numV = r.numV ∧
      (lstOf none (removeRaw g r es)).filter p = (lstOf none r).filter p
  | [], _, r, hr => ⟨hr, rfl, rfl⟩
  | e :: es, h, r, hr => by
    cases g with
    | none =>
      obtain ⟨h1, h2, h3⟩ := removeAll_frame none es (fun q hq => h q (List.mem_cons_of_mem _ hq))
        { r with groups := popAll e r.groups } (popAll_ne hr)
      exact ⟨h1, h2, h3.trans (flat_popAll (h e (List.mem_cons_self ..)) r.groups)⟩
    | some g =>
      obtain ⟨h1, h2, h3⟩ := removeAll_frame (some g) es (fun q hq => h q (List.mem_cons_of_mem _ hq))
        { r with groups := popOne g e r.groups } (popOne_ne hr)
      exact ⟨h1, h2, h3.trans (flat_popOne (h e (List.mem_cons_self ..)) g r.groups)⟩

theorem away_one {b : Bool} {s : HSt K} (hs : Built Proper b s) (hg : s.raw.groups ≠ []) {T : Nat → Prop} {o : HOp K}
    (ho : Spec.AwayFromH s.raw.numV T o) :
    Built Proper b (apply o s).2 ∧ (apply o s).2.raw.groups ≠ [] ∧ (apply o s).2.raw.numV = s.raw.numV ∧
      ∀ m, T m → Spec.hyperedgesAt (lstOf none (apply o s).2.raw) m = Spec.hyperedgesAt (lstOf none s.raw) m := by
  have hfmt : ∀ {arg : HArg} {es : List (List Int)}, arg.format = .ok es →
      (∀ e ∈ argEdges arg, ∀ m : Nat, T m → (m : Int) ∉ e) → ∀ m, T m → ∀ e ∈ es, ∀ w : K,
      (fun e : List Int × K => decide ((m : Int) ∈ e.1)) (e, w) = false := by
    intro arg es hf h m hm e he w
    obtain ⟨e', h1, rfl⟩ := format_mem hf he
    simp only [decide_eq_false_iff_not]
    rw [(sortV_perm e').mem_iff]
    exact h e' h1 m hm
  cases o with
  | addHyperedges arg ew op g =>
    obtain ⟨h1, h2, h3⟩ := ho
    refine ⟨.op _ hs (.inl h1) (fun a _ _ _ h => by cases h; exact h2), ?_⟩
    rcases addHyperedges_cases arg ew op g s with ⟨e, he, _⟩ | ⟨es, ws, hf, _, _, ⟨_, h4⟩ | ⟨h4, _⟩⟩
    · have h5 : (apply (.addHyperedges arg ew op g) s).2 = s := by simp only [apply, he]
      rw [h5]; exact ⟨hg, rfl, fun _ _ => rfl⟩
    · simp only [apply, h4]
      have key := fun (p : List Int × K → Bool) h => addAll_frame (p := p) op g (es.zip ws) h s.raw hg
      refine ⟨(key (fun _ => false) fun _ _ _ => rfl).1, (key (fun _ => false) fun _ _ _ => rfl).2.1, fun m hm => ?_⟩
      exact (key _ fun q hq w => hfmt hf h3 m hm q.1 (List.of_mem_zip (a := q.1) (b := q.2) hq).1 w).2.2
    · exact absurd h4 h1
  | removeHyperedges arg g =>
    refine ⟨.op _ hs (.inl trivial) (fun a _ _ _ h => by cases h), ?_⟩
    rcases removeHyperedges_cases arg g s with ⟨e, he, _⟩ | ⟨es, hf, _, h4⟩
    · have h5 : (apply (.removeHyperedges arg g) s).2 = s := by simp only [apply, he]
      rw [h5]; exact ⟨hg, rfl, fun _ _ => rfl⟩
    · have hraw : (apply (.removeHyperedges arg g) s).2.raw = removeRaw g s.raw es := by
        simp only [apply, h4]; cases g <;> rfl
      rw [hraw]
      have key := fun (p : List Int × K → Bool) h => removeAll_frame (p := p) g es h s.raw hg
      exact ⟨(key (fun _ => false) fun _ _ _ => rfl).1, (key (fun _ => false) fun _ _ _ => rfl).2.1,
        fun m hm => (key _ fun e he w => hfmt hf ho m hm e he w).2.2⟩
  | setVWeight w =>
    refine ⟨.op _ hs (.inl trivial) (fun a _ _ _ h => by cases h), ?_⟩
    have hraw : (apply (.setVWeight w) s).2.raw.groups = s.raw.groups ∧
        (apply (.setVWeight w) s).2.raw.numV = s.raw.numV := ⟨rfl, rfl⟩
    unfold lstOf
    simp only [hraw]
    exact ⟨hg, trivial, fun _ _ => trivial⟩
  | _ => exact ho.elim

theorem away_all {b : Bool} {T : Nat → Prop} {n : Nat} : ∀ (os : List (HOp K)) {s : HSt K}, Built Proper b s →
    s.raw.groups ≠ [] → s.raw.numV = n → (∀ o ∈ os, Spec.AwayFromH n T o) →
    Built Proper b (run s (os.map .op)) ∧ (run s (os.map .op)).raw.groups ≠ [] ∧
      (run s (os.map .op)).raw.numV = n ∧ ∀ m, T m →
        Spec.hyperedgesAt (lstOf none (run s (os.map .op)).raw) m = Spec.hyperedgesAt (lstOf none s.raw) m
  | [], s, hs, hg, hn, _ => ⟨hs, hg, hn, fun _ _ => rfl⟩
  | o :: os, s, hs, hg, hn, ho => by
    subst hn
    obtain ⟨a1, a2, a3, a4⟩ := away_one hs hg (ho o (List.mem_cons_self ..))
    obtain ⟨b1, b2, b3, b4⟩ := away_all os a1 a2 a3 fun o h => ho o (List.mem_cons_of_mem _ h)
    exact ⟨b1, b2, b3, fun m hT => (b4 m hT).trans (a4 m hT)⟩

end EditH

/-- C121. Adding and removing hyperedges in any number of calls, none with a vertex within `k` steps of `i`, does not
change what a network with `k` message passing calls computes at `i` (weights non-negative before and after). -/
theorem C121_hypergraph_edits {b : Bool} {s : HSt K} (hs : Built Proper b s) (hsc : Spec.HasScope s none) {n : Nat}
    (hn : (ask .numV s).1 = .ok (.num n)) (hw : Spec.HNonneg (Spec.hListing s none))
    (ls : List (Spec.Layer K (Spec.HCall K))) (hp : ∀ q, .call q ∈ ls → Spec.PlainHCall q) {i : Nat} (hi : i < n)
    (os : List (HOp K))
    (ho : ∀ o ∈ os, Spec.AwayFromH n (Spec.Ball (Spec.HAdj (Spec.hListing s none)) (Spec.hops ls) i) o)
    (hw' : Spec.HNonneg (Spec.hListing (run s (os.map .op)) none)) (X : Dense K) (hX : X.rows = n) {Y Y' : Dense K}
    (hY : (Spec.net Spec.HCall.run ls X s).1 = .ok Y)
    (hY' : (Spec.net Spec.HCall.run ls X (run s (os.map .op))).1 = .ok Y') :
    Y'.rows = Y.rows ∧ Y'.cols = Y.cols ∧ Spec.SameRow Y Y' i := by
  have e := Hy.numV_eq hn
  have hg : s.raw.groups ≠ [] := has_of_scope hsc
  obtain ⟨h1, h2, h3, h4⟩ := away_all os hs hg e ho
  have a := hs.mono (Q := AnyH) fun _ _ _ => trivial
  have a' := h1.mono (Q := AnyH) fun _ _ _ => trivial
  refine C121_hypergraph_around hs h1 hsc (fun h => h2 ?_) hn (by rw [← h3]; rfl) hw hw' ls hp X hX hY hY' hi fun m hm => ?_
  · have hk : (run s (os.map .op)).raw.groups.keys = [] := h
    exact List.map_eq_nil_iff.1 hk
  · rw [listing_eq a, listing_eq a', h4 m hm]

/-! ## Examples -/

/-- one smoothing step, a function on the rows, one step of `v2v` with mean -/
noncomputable def exNetH : List (Spec.Layer ℝ (Spec.HCall ℝ)) :=
  [.call (.hgnn none 0 fun _ => true), .rows 1 (fun r _ => r.sum), .call (.v2v none { aggr := .mean, rate := 0 })]

example : (∀ q, .call q ∈ exNetH → Spec.PlainHCall q) ∧ Spec.hops exNetH = 2 := by
  refine ⟨fun q hq => ?_, rfl⟩
  simp only [exNetH, List.mem_cons, List.not_mem_nil, or_false, Spec.Layer.call.injEq, reduceCtorEq, false_or] at hq
  rcases hq with rfl | rfl
  · exact ⟨rfl, rfl⟩
  · exact ⟨rfl, .inr rfl, .inr rfl, rfl, rfl, rfl, rfl, rfl⟩

/-- removing the hyperedge {3} stays away from vertex 0 for one call -/
example : Spec.AwayFromH (K := ℝ) 4 (Spec.Ball (Spec.HAdj (Spec.hListing exH none)) 1 0)
    (.removeHyperedges (.one false [3]) none) := by
  intro e he m hm
  have hl : Spec.hListing exH none = [([0, 1, 2], 2), ([1, 3], 3), ([3], 5)] := rfl
  rw [hl] at hm
  simp only [argEdges, List.mem_singleton] at he
  subst he
  simp [Spec.Ball, Spec.HAdj] at hm
  simp only [List.mem_singleton]
  omega

end Props
end DHG
