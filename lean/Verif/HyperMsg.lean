import Verif.HyperMat2
import Verif.MsgLemmas

/-!
# Message passing of a `Hypergraph` and agreement of scopes
-/

set_option linter.unusedSectionVars false
set_option autoImplicit false

namespace DHG
namespace Hyper

open Finset

variable {K : Type} [Field K] [LinearOrder K] [PyReal K]

section Agg
variable {evP evD : HRaw K → Except Err (Sp K)} {r : HRaw K} {P : Sp K}

theorem evDrop_zero (M : Sp K) (keep : Nat → Bool) : Graph.evDrop M 0 keep = .ok M := by
  unfold Graph.evDrop; rw [if_neg (lt_irrefl _)]

theorem agg_sum {m n : Nat} {f : Nat → Nat → K} (hP : evP r = .ok P) (h : Spec.IsMat m n f P)
    (X : Dense K) (hX : X.rows = n) (keep : Nat → Bool) :
    ∃ Y, evAgg evP evD X .sum none 0 keep r = .ok Y ∧ Y.rows = m ∧ Y.cols = X.cols ∧
      ∀ i c, i < m → Y.at_ i c = ∑ j ∈ range n, f i j * X.at_ j c := by
  obtain ⟨Y, hY⟩ := Sp.mmD_ok (P := P) (X := X) (h.cols.trans hX.symm)
  have hs := Sp.mmD_shape hY
  refine ⟨Y, ?_, hs.2.1.trans h.rows, hs.2.2, ?_⟩
  · simp only [evAgg, hP, evDrop_zero, bind, Except.bind, reduceCtorEq, if_false, hY]
  · intro i c hi
    rw [Sp.mmD_at hY h.wf, h.cols]
    exact sum_congr rfl fun j hj => by rw [h.get i j hi (mem_range.1 hj)]

theorem agg_mean {m n : Nat} {f : Nat → Nat → K} {d : Nat → K} (hP : evP r = .ok P)
    (h : Spec.IsMat m n f P) (hD : evD r = .ok (Sp.diag ((List.range m).map d)))
    (X : Dense K) (hX : X.rows = n) (keep : Nat → Bool) :
    ∃ Y, evAgg evP evD X .mean none 0 keep r = .ok Y ∧ Y.rows = m ∧ Y.cols = X.cols ∧
      ∀ i c, i < m → Y.at_ i c = d i * ∑ j ∈ range n, f i j * X.at_ j c := by
  obtain ⟨Y, hY⟩ := Sp.mmD_ok (P := P) (X := X) (h.cols.trans hX.symm)
  have hs := Sp.mmD_shape hY
  obtain ⟨Z, hZ⟩ := Sp.mmD_ok (P := Sp.diag ((List.range m).map d)) (X := Y)
    (by rw [hs.2.1, h.rows]; simp [Sp.diag_cols])
  have hs' := Sp.mmD_shape hZ
  refine ⟨Z, ?_, hs'.2.1.trans (by simp [Sp.diag_rows]), hs'.2.2.trans hs.2.2, ?_⟩
  · simp only [evAgg, hP, evDrop_zero, bind, Except.bind, reduceCtorEq, if_false, hY, hD, hZ]
  · intro i c hi
    rw [Sp.diag_mmD_at hZ hi, Sp.mmD_at hY h.wf, h.cols]
    congr 1
    exact sum_congr rfl fun j hj => by rw [h.get i j hi (mem_range.1 hj)]

theorem withVals_ok {w : List K} (hl : w.length = P.ents.length) :
    P.withVals w = .ok { rows := P.rows, cols := P.cols, ents := (P.ents.map Prod.fst).zip w } := by
  unfold Sp.withVals; rw [if_pos hl.symm]

/-- explicit weights -/
theorem aggW_spec (hP : evP r = .ok P) (w : List K) (hl : w.length = P.ents.length) (X : Dense K)
    (hX : X.rows = P.cols) (keep : Nat → Bool) :
    let inc := fun x i => Spec.incoming (P.ents.map fun e => e.1.2) (P.ents.map fun e => e.1.1) w x i
    (∃ Y, evAgg evP evD X .sum (some w) 0 keep r = .ok Y ∧ ∀ i c, Y.at_ i c = inc (fun j => X.at_ j c) i) ∧
    (∃ Y, evAgg evP evD X .mean (some w) 0 keep r = .ok Y ∧ ∀ i c, i < P.rows →
      Y.at_ i c = inc (fun _ => 1) i * inc (fun j => X.at_ j c) i) := by
  intro inc
  have hl' : (P.ents.map Prod.fst).length = w.length := by simp [hl]
  have hm : ∀ x i, Spec.incoming ((P.ents.map Prod.fst).map Prod.snd) ((P.ents.map Prod.fst).map Prod.fst) w x i =
      inc x i := by
    intro x i; simp only [List.map_map]; rfl
  obtain ⟨Y, hY⟩ := Sp.mmD_ok
    (P := { rows := P.rows, cols := P.cols, ents := (P.ents.map Prod.fst).zip w }) (X := X) hX.symm
  constructor
  · refine ⟨Y, ?_, fun i c => by rw [mmD_zip hl' hY, hm]⟩
    simp only [evAgg, hP, withVals_ok hl, hl, if_true, evDrop_zero, bind, Except.bind, reduceCtorEq, if_false, hY]
  · refine ⟨Y.scaleRows (Sp.rowSum { rows := P.rows, cols := P.cols, ents := (P.ents.map Prod.fst).zip w }),
      by simp only [evAgg, hP, withVals_ok hl, hl, if_true, evDrop_zero, bind, Except.bind,
        reduceCtorEq, if_false, hY], fun i c hi => ?_⟩
    show List.getD _ i 0 * Y.at_ i c = _
    rw [rowSum_zip _ _ hl' _ _ _ hi, mmD_zip hl' hY, hm, hm]

/-- explicit weights, `softmax_then_sum` -/
theorem aggW_softmax [IsStrictOrderedRing K] (hP : evP r = .ok P) (hn : (P.ents.map Prod.fst).Nodup)
    (w : List K) (hl : w.length = P.ents.length) (X : Dense K) (hX : X.rows = P.cols) (keep : Nat → Bool) :
    let recv := P.ents.map fun e => e.1.1
    let send := P.ents.map fun e => e.1.2
    ∃ (Y : Dense K) (coef : List K) (z : Nat → K),
      evAgg evP evD X .softmax (some w) 0 keep r = .ok Y ∧
      coef.length = recv.length ∧
      (∀ i c, Y.at_ i c = Spec.incoming send recv coef (fun j => X.at_ j c) i) ∧
      (∀ i, i ∈ recv → 0 < z i) ∧
      (∀ k (h1 : k < coef.length) (h2 : k < w.length) (h3 : k < recv.length),
        coef[k] * z recv[k] = PyReal.exp w[k] ∧ 0 < coef[k]) ∧
      (∀ i, i ∈ recv → Spec.incoming send recv coef (fun _ => 1) i = 1) := by
  intro recv send
  have hl' : (P.ents.map Prod.fst).length = w.length := by simp [hl]
  let Q : Sp K := { rows := P.rows, cols := P.cols, ents := (P.ents.map Prod.fst).zip w }
  have hQ : (Q.ents.map Prod.fst) = P.ents.map Prod.fst := by
    simp only [Q]; rw [List.map_fst_zip hl'.le]
  have hQl : Q.ents.length = P.ents.length := by
    have := congrArg List.length hQ; simpa using this
  obtain ⟨z, h1, h2, h3⟩ := Ord.softmax_rows (P := Q) (by rw [hQ]; exact hn)
  obtain ⟨Y, hY⟩ := Sp.mmD_ok (P := Q.softmax) (X := X) hX.symm
  let coef : List K := Q.ents.map fun e => PyReal.exp e.2 / z e.1.1
  have hcl : coef.length = P.ents.length := by simp [coef, hQl]
  have hrl : recv.length = P.ents.length := by simp [recv]
  have hk1 : ∀ k (h : k < Q.ents.length) (h' : k < recv.length), (Q.ents[k]).1.1 = recv[k] := by
    intro k h h'; simp [Q, recv]
  have hk2 : ∀ k (h : k < Q.ents.length) (h' : k < w.length), (Q.ents[k]).2 = w[k] := by
    intro k h h'; simp [Q]
  have hmem : ∀ i, i ∈ recv → ∃ e ∈ Q.ents, e.1.1 = i := by
    intro i hi
    obtain ⟨k, hk, rfl⟩ := List.mem_iff_getElem.1 hi
    have hk' : k < Q.ents.length := by omega
    exact ⟨_, List.getElem_mem hk', hk1 k hk' hk⟩
  have hinc : ∀ (x : Nat → K) i, (Q.ents.map fun e =>
      if e.1.1 = i then PyReal.exp e.2 / z e.1.1 * x e.1.2 else 0).sum =
      Spec.incoming send recv coef x i := by
    intro x i
    have e1 : Q.ents.map (fun e => (e.1, PyReal.exp e.2 / z e.1.1)) = (P.ents.map Prod.fst).zip coef := by
      apply List.ext_getElem
      · simp [hQl, hcl]
      · intro k a c
        simp [Q, coef]
    have := incoming_zip (P.ents.map Prod.fst) coef (by simp [hcl]) x i
    rw [← e1, List.map_map] at this
    simp only [List.map_map] at this
    exact this
  refine ⟨Y, coef, z, ?_, hcl.trans hrl.symm, ?_, ?_, ?_, ?_⟩
  · simp only [evAgg, hP, withVals_ok hl, hl, if_true, evDrop_zero, bind, Except.bind, reduceCtorEq, if_false]
    exact hY
  · intro i c; rw [h2 X Y hY]; exact hinc (fun j => X.at_ j c) i
  · intro i hi
    obtain ⟨e, he, rfl⟩ := hmem i hi
    exact h1 e he
  · intro k a1 a2 a3
    have a4 : k < Q.ents.length := by omega
    have hp := h1 _ (List.getElem_mem a4)
    have e1 : coef[k] = PyReal.exp (Q.ents[k]).2 / z (Q.ents[k]).1.1 := by simp [coef]
    rw [e1, ← hk1 k a4 a3, ← hk2 k a4 a2]
    exact ⟨div_mul_cancel₀ _ hp.ne', div_pos (PyReal.exp_pos _) hp⟩
  · intro i hi
    obtain ⟨e, he, rfl⟩ := hmem i hi
    rw [← hinc (fun _ => 1)]
    exact h3 e he

/-- without weights, the stored values act as weights -/
theorem agg_softmax_default (hP : evP r = .ok P) (X : Dense K) (rate : K) (keep : Nat → Bool) :
    evAgg evP evD X .softmax none rate keep r =
      evAgg evP evD X .softmax (some (P.ents.map Prod.snd)) rate keep r := by
  have hz : ∀ l : Ents K, (l.map Prod.fst).zip (l.map Prod.snd) = l := by
    intro l; induction l with
    | nil => rfl
    | cons a l ih => simp [ih]
  have : P.withVals (P.ents.map Prod.snd) = .ok P := by
    rw [withVals_ok (by simp), hz]
  simp only [evAgg, hP, this, bind, Except.bind, List.length_map, if_true, reduceCtorEq, if_false]

end Agg

/-! ### one group: `scope = none` and `scope = some g` agree -/

section One
variable {r : HRaw K} {g : String} {d : HGroup K}

theorem one_group (h : r.groups = [(g, d)]) : evGroup r g = .ok d := by
  have : Dict.get? ([(g, d)] : Dict String (HGroup K)) g = some d := by simp [Dict.get?]
  unfold evGroup; rw [h, this]

theorem collect_one {α : Type} (h : r.groups = [(g, d)]) (f : String → Except Err α) :
    collectE r.groups.keys f = (f g).map fun x => [x] := by
  rw [h]
  simp only [Dict.keys, List.map_cons, List.map_nil, collectE]
  cases f g <;> rfl

theorem one_chk (h : r.groups = [(g, d)]) : chk (some g) r = chk none r := by
  have : Dict.has ([(g, d)] : Dict String (HGroup K)) g = true := by simp [Dict.has, Dict.get?]
  simp only [chk]; rw [h, this]; rfl

theorem one_E (h : r.groups = [(g, d)]) : evE none r = evE (some g) r := by
  simp only [evE, collect_one h, evEOf, one_group h]
  simp [bind, Except.bind, Except.map]

theorem one_NumE (h : r.groups = [(g, d)]) : evNumE none r = evNumE (some g) r := by
  simp only [evNumE, one_group h, h]
  simp [bind, Except.bind]

theorem one_H (h : r.groups = [(g, d)]) : evH none r = evH (some g) r := by
  simp only [evH, collect_one h]
  cases evHOf r g <;> rfl

theorem one_HT (h : r.groups = [(g, d)]) : evHT none r = evHT (some g) r := by
  simp only [evHT, one_H h]

theorem one_We (h : r.groups = [(g, d)]) : evWe none r = evWe (some g) r := by
  simp only [evWe, collect_one h, evWeOf, one_group h, bind, Except.bind, Except.map, catDiag]
  simp [Ord.diag_vals]

theorem one_Dv (h : r.groups = [(g, d)]) : evDv none r = evDv (some g) r := by
  simp only [evDv, collect_one h]
  unfold evDvOf evHOf
  simp only [evWeOf, one_group h, bind, Except.bind]
  cases hf : fetchH r.numV d with
  | error e => rfl
  | ok M =>
    simp only [Except.map, sumDiag, List.cons_ne_nil, if_false, List.map_cons, List.map_nil,
      List.sum_cons, List.sum_nil, Ord.diag_vals, add_zero]
    congr 2
    have hr : M.rows = r.numV := by
      unfold fetchH at hf
      simp only [bind, Except.bind] at hf
      split at hf
      · cases hf
      · rename_i N hN
        cases hf
        exact (Sp.build_WF hN).2.1
    apply List.ext_getElem
    · rw [Sp.rowSum_length]; simp [Sp.coalesce, Sp.scaleCols, hr]
    · intro i h1 h2
      simp only [List.getElem_map, List.getElem_range]
      rw [List.getD_eq_getElem?_getD, List.getElem?_eq_getElem h2]; rfl

theorem one_DvN1 (h : r.groups = [(g, d)]) : evDvN1 none r = evDvN1 (some g) r := by
  simp only [evDvN1, one_Dv h]
theorem one_DvN12 (h : r.groups = [(g, d)]) : evDvN12 none r = evDvN12 (some g) r := by
  simp only [evDvN12, one_Dv h]

theorem one_De (h : r.groups = [(g, d)]) : evDe none r = evDe (some g) r := by
  simp only [evDe, collect_one h]
  unfold evDeOf
  cases evHOf r g with
  | error e => rfl
  | ok M =>
    simp only [bind, Except.bind, Except.map, catDiag, List.cons_ne_nil, if_false]
    simp [Ord.diag_vals]

theorem one_DeN1 (h : r.groups = [(g, d)]) : evDeN1 none r = evDeN1 (some g) r := by
  simp only [evDeN1, one_De h]

theorem one_Ne (h : r.groups = [(g, d)]) (v : Int) : evNe v none r = evNe v (some g) r := by
  simp only [evNe, collect_one h]
  unfold evNeOf
  rw [one_chk h]
  simp only [chk, bind, Except.bind]
  by_cases hv : v < (r.numV : Int)
  · rw [if_pos hv, if_pos hv]
    simp only [evNumE, one_group h, bind, Except.bind]
    cases evHOf r g with
    | error e => rfl
    | ok M =>
      simp only
      cases M.rowIdx v with
      | error e => rfl
      | ok l => simp [Except.map, shiftCat]
  · rw [if_neg hv, if_neg hv]

theorem one_Nv (h : r.groups = [(g, d)]) (e : Int) : evNv e none r = evNv e (some g) r := by
  simp only [evNv, one_NumE h]
  have : r.groups.keys = [g] := by rw [h]; rfl
  rw [this]
  simp only [evFindNv, evNvOf, evNumE, one_group h, bind, Except.bind]
  by_cases he : e < (List.length d : Int)
  · rw [if_pos he]; simp only [if_pos he]
  · rw [if_neg he, if_neg he]

theorem one_LHGNN (h : r.groups = [(g, d)]) : evLHGNN none r = evLHGNN (some g) r := by
  simp only [evLHGNN, one_DvN12 h, one_H h, one_We h, one_DeN1 h, one_HT h]
theorem one_Lsym (h : r.groups = [(g, d)]) : evLsym none r = evLsym (some g) r := by
  simp only [evLsym, one_LHGNN h]
theorem one_Lrw (h : r.groups = [(g, d)]) : evLrw none r = evLrw (some g) r := by
  simp only [evLrw, one_DvN1 h, one_H h, one_We h, one_DeN1 h, one_HT h]

theorem agg_congr {evP evP' evD evD' : HRaw K → Except Err (Sp K)} {X : Dense K} {aggr : Aggr}
    {w : Option (List K)} {rate : K} {keep : Nat → Bool} (hP : evP r = evP' r) (hD : evD r = evD' r) :
    evAgg evP evD X aggr w rate keep r = evAgg evP' evD' X aggr w rate keep r := by
  simp only [evAgg, hP, hD]

theorem one_V2eAggr (h : r.groups = [(g, d)]) (X : Dense K) (aggr : Aggr) (w : Option (List K)) (rate : K)
    (keep : Nat → Bool) : evV2eAggr none X aggr w rate keep r = evV2eAggr (some g) X aggr w rate keep r := by
  simp only [evV2eAggr, one_chk h, agg_congr (one_HT h) (one_DeN1 h)]
theorem one_V2eUpd (h : r.groups = [(g, d)]) (X : Dense K) (ew : Option (List K)) :
    evV2eUpd none X ew r = evV2eUpd (some g) X ew r := by
  simp only [evV2eUpd, one_chk h, one_We h, one_NumE h]
theorem one_V2e (h : r.groups = [(g, d)]) (X : Dense K) (aggr : Aggr) (w ew : Option (List K)) (rate : K)
    (keep : Nat → Bool) : evV2e none X aggr w ew rate keep r = evV2e (some g) X aggr w ew rate keep r := by
  simp only [evV2e, one_chk h, one_V2eAggr h, one_V2eUpd h]
theorem one_E2vAggr (h : r.groups = [(g, d)]) (X : Dense K) (aggr : Aggr) (w : Option (List K)) (rate : K)
    (keep : Nat → Bool) : evE2vAggr none X aggr w rate keep r = evE2vAggr (some g) X aggr w rate keep r := by
  simp only [evE2vAggr, one_chk h, agg_congr (one_H h) (one_DvN1 h)]
theorem one_E2vUpd (h : r.groups = [(g, d)]) (X : Dense K) : evE2vUpd none X r = evE2vUpd (some g) X r := by
  simp only [evE2vUpd, one_chk h]
theorem one_E2v (h : r.groups = [(g, d)]) (X : Dense K) (aggr : Aggr) (w : Option (List K)) (rate : K)
    (keep : Nat → Bool) : evE2v none X aggr w rate keep r = evE2v (some g) X aggr w rate keep r := by
  simp only [evE2v, one_chk h, one_E2vAggr h, one_E2vUpd h]
theorem one_V2v (h : r.groups = [(g, d)]) (X : Dense K) (a : V2VArgs K) :
    evV2v none X a r = evV2v (some g) X a r := by
  simp only [evV2v, one_chk h, one_V2e h, one_E2v h]

end One

end Hyper

namespace Spec
variable {K : Type}

/-- the same read for the whole hypergraph -/
def globally : HQuery K → HQuery K
  | .numE _ => .numE none | .e _ => .e none | .H _ => .H none | .HT _ => .HT none
  | .We _ => .We none | .Dv _ => .Dv none | .DvN1 _ => .DvN1 none | .DvN12 _ => .DvN12 none
  | .De _ => .De none | .DeN1 _ => .DeN1 none | .degV _ => .degV none | .degE _ => .degE none
  | .nbrE v _ => .nbrE v none | .nbrV e _ => .nbrV e none
  | .v2eSrc _ => .v2eSrc none | .v2eDst _ => .v2eDst none | .v2eWeight _ => .v2eWeight none
  | .e2vSrc _ => .e2vSrc none | .e2vDst _ => .e2vDst none | .e2vWeight _ => .e2vWeight none
  | .Lsym _ => .Lsym none | .Lrw _ => .Lrw none | .LHGNN _ => .LHGNN none
  | .smoothHGNN _ X r k => .smoothHGNN none X r k
  | .v2eAggr _ X a w r k => .v2eAggr none X a w r k
  | .v2eUpd _ X w => .v2eUpd none X w
  | .v2e _ X a w e r k => .v2e none X a w e r k
  | .e2vAggr _ X a w r k => .e2vAggr none X a w r k
  | .e2vUpd _ X => .e2vUpd none X
  | .e2v _ X a w r k => .e2v none X a w r k
  | .v2v _ X a => .v2v none X a
  | q => q

end Spec

namespace Hyper
variable {K : Type} [Field K] [LinearOrder K] [PyReal K]

theorem one_ask {r : HRaw K} {g : String} {d : HGroup K} (h : r.groups = [(g, d)]) (q : HQuery K)
    (hq : QOf g q) : evAsk (Spec.globally q) r = evAsk q r := by
  cases q <;> simp only [QOf] at hq <;> first | exact hq.elim | subst hq <;>
    simp only [Spec.globally, evAsk, evSmooth, one_chk h, one_NumE h, one_E h, one_H h, one_HT h, one_We h,
      one_Dv h, one_DvN1 h, one_De h, one_DeN1 h, one_DvN12 h, one_LHGNN h, one_Lsym h, one_Lrw h,
      one_Ne h, one_Nv h, one_V2eAggr h, one_V2eUpd h, one_V2e h, one_E2vAggr h, one_E2vUpd h,
      one_E2v h, one_V2v h]

end Hyper
end DHG
