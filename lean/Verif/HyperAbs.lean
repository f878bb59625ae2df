import Verif.HyperInv
import Verif.HyperSpec

/-!
# The model refines the specification of `HyperSpec.lean`
-/

set_option linter.unusedSectionVars false
set_option autoImplicit false

namespace DHG
namespace Hyper

variable {K : Type} [Field K] [LinearOrder K]

theorem coe_sortV (l : List Int) : ((sortV l : List Int) : Multiset Int) = (l : Multiset Int) :=
  Multiset.coe_eq_coe.2 (sortV_perm l)

theorem coe_inj_sorted {l l' : List Int} (h : sortV l = l) (h' : sortV l' = l') :
    (l : Multiset Int) = (l' : Multiset Int) ↔ l = l' := by
  rw [Multiset.coe_eq_coe, ← sortV_eq_iff, h, h']

/-- abstract content of a group: hyperedges are looked up in sorted form -/
noncomputable def absG (d : HGroup K) : Multiset Int → Option K := fun e => Dict.get? d (sortV e.toList)

/-- abstract content -/
noncomputable def absM (r : HRaw K) : Spec.HMap K := fun g => (r.groups.get? g).map absG

theorem sortV_toList (l : List Int) : sortV (l : Multiset Int).toList = sortV l := by
  rw [sortV_eq_iff, ← Multiset.coe_eq_coe, Multiset.coe_toList]

theorem absG_coe (d : HGroup K) (l : List Int) : absG d (l : Multiset Int) = Dict.get? d (sortV l) := by
  unfold absG; rw [sortV_toList]

theorem absM_get (r : HRaw K) (g : String) (l : List Int) :
    Spec.hGet (absM r) g (l : Multiset Int) = Dict.get? ((r.groups.get? g).getD []) (sortV l) := by
  unfold Spec.hGet absM
  cases r.groups.get? g with
  | none => rfl
  | some d => exact absG_coe d l

theorem toList_eq_iff {l : List Int} {e : Multiset Int} :
    sortV e.toList = sortV l ↔ e = (l : Multiset Int) := by
  rw [sortV_eq_iff, ← Multiset.coe_eq_coe, Multiset.coe_toList]

theorem absM_addRaw (op : MergeOp) (g : String) (r : HRaw K) (l : List Int) (w : K) :
    absM (addRaw op g r (sortV l, w)) = Spec.hPut (absM r) op g (l : Multiset Int) w := by
  funext g'
  unfold Spec.hPut
  by_cases hg : g' = g
  · subst hg
    rw [if_pos rfl]
    unfold absM addRaw
    simp only [Dict.get?_set, if_true, Option.map_some]
    congr 1
    funext e
    rw [show absG _ e = _ from rfl]
    unfold absG
    rw [Graph.get?_upsert]
    have h2 := absM_get r g' l
    have h3 : Spec.hGet (absM r) g' e = Dict.get? ((r.groups.get? g').getD []) (sortV e.toList) := by
      unfold Spec.hGet absM
      cases r.groups.get? g' <;> rfl
    by_cases he : e = (l : Multiset Int)
    · rw [if_pos (toList_eq_iff.2 he), if_pos he]
      show _ = match Spec.hGet (absM r) g' (l : Multiset Int) with | some old => _ | none => _
      rw [h2]
      cases Dict.get? ((r.groups.get? g').getD []) (sortV l) <;> rfl
    · rw [if_neg (fun h => he (toList_eq_iff.1 h)), if_neg he]
      exact h3.symm
  · rw [if_neg hg]
    unfold absM addRaw
    simp only [Dict.get?_set]
    rw [if_neg (Ne.symm hg)]

theorem absM_addList (op : MergeOp) (g : String) (r : HRaw K) (ls : List (List Int)) (ws : List K) :
    absM (((ls.map sortV).zip ws).foldl (addRaw op g) r) =
      ((ls.map fun l : List Int => (l : Multiset Int)).zip ws).foldl
        (fun m p => Spec.hPut m op g p.1 p.2) (absM r) := by
  induction ls generalizing r ws with
  | nil => rfl
  | cons l ls ih =>
    cases ws with
    | nil => rfl
    | cons w ws =>
      simp only [List.map_cons, List.zip_cons_cons, List.foldl_cons]
      rw [ih, absM_addRaw]

theorem absG_del {d : HGroup K} (hd : d.keys.Nodup) (l : List Int) :
    absG (d.del (sortV l)) = fun e => if e = (l : Multiset Int) then none else absG d e := by
  funext e
  unfold absG
  rw [Dict.get?_del _ _ _ hd]
  by_cases he : e = (l : Multiset Int)
  · rw [if_pos (toList_eq_iff.2 he).symm, if_pos he]
  · rw [if_neg (fun h => he (toList_eq_iff.1 h.symm)), if_neg he]

theorem absM_popAll {r : HRaw K} (hr : Inv r) (l : List Int) :
    absM { r with groups := popAll (sortV l) r.groups } =
      Spec.hErase (fun _ => True) (absM r) (l : Multiset Int) := by
  funext g
  unfold absM Spec.hErase popAll
  simp only
  rw [Dict.get?_map_val r.groups fun _ d => d.del (sortV l)]
  cases hg : r.groups.get? g with
  | none => rfl
  | some d =>
    simp only [Option.map_some]
    rw [absG_del (hr.nodup _ (Dict.mem_of_get? hg))]
    congr 1
    funext e
    by_cases he : e = (l : Multiset Int) <;> simp [he]

theorem absM_popOne {r : HRaw K} (hr : Inv r) (g : String) (l : List Int) :
    absM { r with groups := popOne g (sortV l) r.groups } =
      Spec.hErase (fun g' => g' = g) (absM r) (l : Multiset Int) := by
  funext g'
  unfold absM Spec.hErase
  simp only
  by_cases hgg : g' = g
  · subst hgg
    unfold popOne
    cases hg : r.groups.get? g' with
    | none => simp only; rw [hg]; rfl
    | some d =>
      simp only [Dict.get?_set, if_true, Option.map_some]
      rw [absG_del (hr.nodup _ (Dict.mem_of_get? hg))]
      congr 1
      funext e
      by_cases he : e = (l : Multiset Int) <;> simp [he]
  · rw [popOne_agree g g' hgg]
    cases hg : r.groups.get? g' with
    | none => rfl
    | some d =>
      simp only [Option.map_some]
      congr 1
      funext e
      rw [if_neg]
      exact fun h => hgg h.2

theorem absM_removeAll {r : HRaw K} (hr : Inv r) (ls : List (List Int)) :
    absM (removeRaw none r (ls.map sortV)) =
      (ls.map fun l : List Int => (l : Multiset Int)).foldl (Spec.hErase fun _ => True) (absM r) := by
  induction ls generalizing r with
  | nil => rfl
  | cons l ls ih =>
    simp only [List.map_cons, List.foldl_cons]
    rw [← absM_popAll hr l]
    exact ih ((popAll_shrunk (sortV l) r).inv hr hr.weights)

theorem absM_removeOne {r : HRaw K} (hr : Inv r) (g : String) (ls : List (List Int)) :
    absM (removeRaw (some g) r (ls.map sortV)) =
      (ls.map fun l : List Int => (l : Multiset Int)).foldl (Spec.hErase fun g' => g' = g) (absM r) := by
  induction ls generalizing r with
  | nil => rfl
  | cons l ls ih =>
    simp only [List.map_cons, List.foldl_cons]
    rw [← absM_popOne hr g l]
    exact ih ((popOne_shrunk g (sortV l) r).inv hr hr.weights)

/-- what `_format_e_list` returns, and what it denotes -/
theorem format_edges (arg : HArg) :
    (∃ e, arg.format = .error e ∧ Spec.hEdges arg = none) ∨
    ∃ ls : List (List Int), arg.format = .ok (ls.map sortV) ∧
      Spec.hEdges arg = some (ls.map fun l : List Int => (l : Multiset Int)) := by
  cases arg with
  | one t vs =>
    cases vs with
    | nil => exact .inr ⟨[], rfl, rfl⟩
    | cons v vs => exact .inr ⟨[v :: vs], rfl, rfl⟩
  | many t es =>
    refine .inr ⟨es.map PySeq.items, ?_, ?_⟩
    · simp only [HArg.format, List.map_map, Function.comp_def]
    · simp only [Spec.hEdges, List.map_map, Function.comp_def]
  | other => exact .inl ⟨_, rfl, rfl⟩

theorem expand_weights (k : Nat) (ew : HW K) :
    (Spec.hWeights k ew = none ∧ ∀ ws, ew.expand k = .ok ws → k ≠ ws.length) ∨
    ∃ ws, ew.expand k = .ok ws ∧ k = ws.length ∧ Spec.hWeights k ew = some ws := by
  cases ew with
  | none => exact .inr ⟨_, rfl, by simp, rfl⟩
  | scalar w => exact .inr ⟨_, rfl, by simp, rfl⟩
  | list ws =>
    by_cases h : ws.length = k
    · exact .inr ⟨ws, rfl, h.symm, by simp [Spec.hWeights, h]⟩
    · refine .inl ⟨by simp [Spec.hWeights, h], ?_⟩
      intro ws' hw; cases hw; exact Ne.symm h
  | other => exact .inl ⟨rfl, fun ws h => by cases h⟩

/-- one call -/
theorem absM_apply {o : HOp K} {s : HSt K} (hs : Inv s.raw)
    (hg : GoodOp o ∨ (apply o s).1 = .ok ()) :
    absM (apply o s).2.raw = Spec.hApply (absM s.raw) o := by
  cases o with
  | addHyperedges arg ew op g =>
    simp only [apply] at hg ⊢
    simp only [Spec.hApply]
    rcases format_edges arg with ⟨e, h1, h2⟩ | ⟨ls, h1, h2⟩
    · rw [h2]
      rcases addHyperedges_cases arg ew op g s with ⟨e', h, _⟩ | ⟨es, ws, h3, _⟩
      · rw [h]
      · rw [h1] at h3; cases h3
    · rw [h2]
      simp only [List.length_map]
      rcases expand_weights ls.length ew with ⟨h3, h4⟩ | ⟨ws, h3, h4, h5⟩
      · rw [h3]
        rcases addHyperedges_cases arg ew op g s with ⟨e', h, _⟩ | ⟨es, ws, h5, h6, h7, _⟩
        · rw [h]
        · rw [h1] at h5; cases h5
          rw [List.length_map] at h6 h7
          exact absurd h7 (h4 ws h6)
      · rw [h5]
        rcases addHyperedges_cases arg ew op g s with
          ⟨e', h, h'⟩ | ⟨es, ws', h6, h7, h8, ⟨_, h9⟩ | ⟨h9, ⟨e, h10⟩, _⟩⟩
        · exact absurd (by simpa using h4) (h' _ ws h1 (by simpa using h3))
        · rw [h1] at h6; cases h6
          rw [List.length_map, h3] at h7; cases h7
          rw [h9]
          exact absM_addList op g s.raw ls ws
        · rcases hg with hg | hg
          · exact absurd h9 hg
          · rw [h10] at hg; cases hg
  | removeHyperedges arg g =>
    simp only [apply]
    have hclear : ∀ (s : HSt K), (clearCacheH g s).2.raw = s.raw := by cases g <;> intro s <;> rfl
    rcases removeHyperedges_cases arg g s with ⟨e, h, h' | ⟨e', h'⟩⟩ | ⟨es, h1, h2, h3⟩
    · rw [h]
      cases g with
      | none => cases h'
      | some g =>
        have hn : s.raw.groups.get? g = none := by
          simp only [knownGroup, Dict.has] at h'
          cases hx : s.raw.groups.get? g with
          | none => rfl
          | some d => rw [hx] at h'; cases h'
        simp only [Spec.hApply]
        cases Spec.hEdges arg with
        | none => rfl
        | some es =>
          simp only
          have : ∀ m : Spec.HMap K, m g = none → es.foldl (Spec.hErase fun g' => g' = g) m = m := by
            induction es with
            | nil => intro m _; rfl
            | cons e es ih =>
              intro m hm
              have he : Spec.hErase (fun g' => g' = g) m e = m := by
                funext g'
                unfold Spec.hErase
                cases hmg : m g' with
                | none => rfl
                | some d =>
                  simp only
                  congr 1
                  funext e'
                  rw [if_neg]
                  intro hc; rw [hc.2, hm] at hmg; cases hmg
              rw [List.foldl_cons, he]; exact ih m hm
          exact (this _ (by unfold absM; rw [hn]; rfl)).symm
    · rw [h]
      rcases format_edges arg with ⟨e, h1, h2⟩ | ⟨ls, h1, h2⟩
      · cases g <;> · simp only [Spec.hApply]; rw [h2]
      · rw [h1] at h'; cases h'
    · rw [h3]
      simp only [hclear]
      rcases format_edges arg with ⟨e, h4, _⟩ | ⟨ls, h4, h5⟩
      · rw [h1] at h4; cases h4
      · rw [h1] at h4; cases h4
        cases g with
        | none => simp only [Spec.hApply]; rw [h5]; exact absM_removeAll hs ls
        | some g => simp only [Spec.hApply]; rw [h5]; exact absM_removeOne hs g ls
  | removeGroup g =>
    funext g'
    show (Dict.get? (Dict.del s.raw.groups g) g').map absG = if g' = g then none else absM s.raw g'
    rw [Dict.get?_del _ _ _ hs.names]
    by_cases h : g' = g
    · rw [if_pos h, if_pos h.symm]; rfl
    · rw [if_neg h, if_neg (Ne.symm h)]; rfl
  | clear => rfl
  | setVWeight w => rfl

variable [PyReal K] {b : Bool}

theorem absM_run {s : HSt K} (hs : Inv s.raw) (hc : Coh b s)
    (l : List (Step K)) (hl : GoodRun s l) :
    absM (run s l).raw = Spec.hRun (absM s.raw) l := by
  induction l generalizing s with
  | nil => rfl
  | cons x l ih =>
    cases x with
    | op o =>
      have := ih (s := (apply o s).2) (apply_inv hl.1 hs).1 (apply_coh hl.1 hc) hl.2
      show absM (run (apply o s).2 l).raw = _
      rw [this, absM_apply hs hl.1]; rfl
    | read q =>
      obtain ⟨h1, h2⟩ := ask_keeps q hc
      have := ih (s := (ask q s).2) (h1 ▸ hs) h2 hl
      show absM (run (ask q s).2 l).raw = _
      rw [this, h1]; rfl

theorem absM_new {n : Int} {arg : Option HArg} {ew : HW K} {vw : Option (List K)} {op : MergeOp}
    {s : HSt K} (h : Hyper.new n arg ew vw op = .ok s) : absM s.raw = Spec.hNew arg ew op := by
  obtain ⟨r, hr, ⟨rfl, rfl⟩ | ⟨a, rfl, h1, rfl⟩⟩ := new_ok h
  · obtain ⟨_, _, h3, _⟩ := initRaw_ok hr
    funext g; unfold absM Spec.hNew; simp only [h3]; rfl
  · rw [absM_apply (initRaw_inv hr) (.inr h1)]
    obtain ⟨_, _, h3, _⟩ := initRaw_ok hr
    have : absM r = fun _ => none := by funext g; unfold absM; rw [h3]; rfl
    simp only [this]; rfl

/-! ### Observations -/

theorem hNames_eq {s : HSt K} (hs : Coh b s) : Spec.hNames s = s.raw.groups.keys := rfl

theorem evE_some {r : HRaw K} {g : String} {d : HGroup K} (h : r.groups.get? g = some d) :
    evE (some g) r = .ok (d.keys, d.vals) := by simp only [evE, evEOf, evGroup, h]; rfl

theorem ask_e {s : HSt K} (hs : Coh b s) (sc : Option String) :
    (ask (.e sc) s).1 = (evE sc s.raw).map fun p => .edges p.1 p.2 := by
  rw [ask_eq _ hs (.inr (by simp))]
  simp only [evAsk]
  cases evE sc s.raw <;> rfl

theorem hListing_eq {s : HSt K} (hs : Coh b s) (g : String) :
    Spec.hListing s (some g) = (s.raw.groups.get? g).getD [] := by
  unfold Spec.hListing
  rw [ask_e hs]
  cases hg : s.raw.groups.get? g with
  | none => rw [strict_E g _ hg]; rfl
  | some d =>
    rw [evE_some hg]
    exact Dict.zip_keys_vals d

theorem listed_iff {s : HSt K} (hi : Inv s.raw) (hs : Coh b s) (g : String) (e : Multiset Int) (w : K) :
    Spec.HListed s g e w ↔ Spec.hGet (absM s.raw) g e = some w := by
  unfold Spec.HListed
  rw [hListing_eq hs]
  unfold Spec.hGet absM
  cases hg : s.raw.groups.get? g with
  | none => simp
  | some d =>
    simp only [Option.getD_some, Option.map_some]
    have hm := Dict.mem_of_get? hg
    unfold absG
    rw [Dict.get?_eq_some_iff _ (hi.nodup _ hm)]
    constructor
    · rintro ⟨l, rfl, hl⟩
      rw [sortV_toList, hi.sorted _ hm l (List.mem_map.2 ⟨_, hl, rfl⟩)]; exact hl
    · intro h
      refine ⟨_, ?_, h⟩
      rw [coe_sortV, Multiset.coe_toList]

/-! ### Objects that differ in vertex weights and caches only -/

/-- same vertices and groups -/
def Same (r r' : HRaw K) : Prop := r.numV = r'.numV ∧ r.groups = r'.groups

theorem Same.ask {r r' : HRaw K} (h : Same r r') (q : HQuery K) (hq : Spec.NotVW q) :
    evAsk q r = evAsk q r' := by
  obtain ⟨n, w, gs⟩ := r
  obtain ⟨n', w', gs'⟩ := r'
  obtain ⟨h1, h2⟩ := h
  simp only at h1 h2
  subst h1 h2
  have hfind : ∀ (l : List String) (e : Int), evFindNv (⟨n, w, gs⟩ : HRaw K) e l =
      evFindNv ⟨n, w', gs⟩ e l := by
    intro l
    induction l with
    | nil => intro e; rfl
    | cons g l ih =>
      intro e
      simp only [evFindNv]
      show (_ >>= _) = (_ >>= _)
      congr 1
      funext k
      split
      · rfl
      · exact ih _
  have hagg : ∀ (evP evD : HRaw K → Except Err (Sp K)) (hP : evP ⟨n, w, gs⟩ = evP ⟨n, w', gs⟩)
      (hD : evD ⟨n, w, gs⟩ = evD ⟨n, w', gs⟩) X aggr ww rate keep,
      evAgg evP evD X aggr ww rate keep ⟨n, w, gs⟩ = evAgg evP evD X aggr ww rate keep ⟨n, w', gs⟩ := by
    intro evP evD hP hD X aggr ww rate keep
    simp only [evAgg, hP, hD]
  cases q with
  | vWeight => exact hq.elim
  | Wv => exact hq.elim
  | nbrV e sc =>
    cases sc with
    | none =>
      simp only [evAsk, evNv]
      simp only [hfind]; rfl
    | some g => rfl
  | v2eAggr sc X aggr w rate keep =>
    simp only [evAsk, evV2eAggr, hagg (evHT sc) (evDeN1 sc) rfl rfl]; rfl
  | v2e sc X aggr w ew rate keep =>
    simp only [evAsk, evV2e, evV2eAggr, hagg (evHT sc) (evDeN1 sc) rfl rfl]; rfl
  | e2vAggr sc X aggr w rate keep =>
    simp only [evAsk, evE2vAggr, hagg (evH sc) (evDvN1 sc) rfl rfl]; rfl
  | e2v sc X aggr w rate keep =>
    simp only [evAsk, evE2v, evE2vAggr, hagg (evH sc) (evDvN1 sc) rfl rfl]; rfl
  | v2v sc X a =>
    simp only [evAsk, evV2v, evV2e, evV2eAggr, evE2v, evE2vAggr,
      hagg (evHT sc) (evDeN1 sc) rfl rfl, hagg (evH sc) (evDvN1 sc) rfl rfl]; rfl
  | _ => rfl

theorem Same.addHyperedge {s s' : HSt K} (h : Same s.raw s'.raw) (e : List Int) (w : K)
    (op : MergeOp) (g : String) :
    (addHyperedge e w op g s).1 = (addHyperedge e w op g s').1 ∧
      Same (addHyperedge e w op g s).2.raw (addHyperedge e w op g s').2.raw := by
  unfold Hyper.addHyperedge
  simp only [PyM.bind_apply, readRaw, id, ← h.2]
  cases hg : Dict.get? s.raw.groups g with
  | none => exact ⟨rfl, h.1, by simp only [setRawH, PyM.modify, h.2]⟩
  | some d =>
    simp only
    cases hd : Dict.get? d e with
    | none => exact ⟨rfl, h.1, by simp only [setRawH, PyM.modify, h.2]⟩
    | some o =>
      simp only [PyM.bind_apply, PyM.lift_apply]
      cases hMerge (K := K) op with
      | error e => exact ⟨rfl, h⟩
      | ok f => exact ⟨rfl, h.1, by simp only [setRawH, PyM.modify, h.2]⟩

theorem Same.forM {s s' : HSt K} (h : Same s.raw s'.raw) (l : List (List Int × K))
    (op : MergeOp) (g : String) :
    (PyM.forM l (fun p => Hyper.addHyperedge p.1 p.2 op g) s).1 =
      (PyM.forM l (fun p => Hyper.addHyperedge p.1 p.2 op g) s').1 ∧
    Same (PyM.forM l (fun p => Hyper.addHyperedge p.1 p.2 op g) s).2.raw
      (PyM.forM l (fun p => Hyper.addHyperedge p.1 p.2 op g) s').2.raw := by
  induction l generalizing s s' with
  | nil => exact ⟨rfl, h⟩
  | cons p l ih =>
    rw [PyM.forM_cons, PyM.forM_cons]
    obtain ⟨h1, h2⟩ := h.addHyperedge p.1 p.2 op g
    rcases ha : Hyper.addHyperedge p.1 p.2 op g s with ⟨e | u, t⟩ <;>
      rcases hb : Hyper.addHyperedge p.1 p.2 op g s' with ⟨e' | u', t'⟩ <;>
      rw [ha, hb] at h1 h2 <;> simp only at h1 h2 ⊢
    · exact ⟨h1, h2⟩
    · cases h1
    · cases h1
    · exact ih h2

theorem Same.apply {s s' : HSt K} (h : Same s.raw s'.raw) (o : HOp K) :
    (apply o s).1 = (apply o s').1 ∧ Same (apply o s).2.raw (apply o s').2.raw := by
  cases o with
  | addHyperedges arg ew op g =>
    simp only [Hyper.apply, addHyperedges]
    simp only [PyM.bind_apply, PyM.lift_apply]
    cases arg.format with
    | error e => exact ⟨rfl, h⟩
    | ok es =>
      simp only
      cases ew.expand es.length with
      | error e => exact ⟨rfl, h⟩
      | ok ws =>
        simp only [PyM.assert]
        by_cases hl : es.length = ws.length
        · simp only [hl, decide_true, if_true, PyM.pure]
          obtain ⟨h1, h2⟩ := h.forM (es.zip ws) op g
          rcases ha : PyM.forM (es.zip ws) (fun p => Hyper.addHyperedge p.1 p.2 op g) s with ⟨e | u, t⟩ <;>
            rcases hb : PyM.forM (es.zip ws) (fun p => Hyper.addHyperedge p.1 p.2 op g) s' with ⟨e' | u', t'⟩ <;>
            rw [ha, hb] at h1 h2 <;> simp only at h1 h2 ⊢
          · exact ⟨h1, h2⟩
          · cases h1
          · cases h1
          · exact ⟨rfl, h2⟩
        · simp only [hl, decide_false]
          exact ⟨rfl, h⟩
  | removeHyperedges arg g =>
    have hk : knownGroup g s.raw = knownGroup g s'.raw := by
      cases g <;> simp only [knownGroup, h.2]
    simp only [Hyper.apply, removeHyperedges]
    simp only [PyM.bind_apply, PyM.lift_apply, readRaw, id, hk]
    unfold PyM.assert
    cases knownGroup g s'.raw with
    | false => exact ⟨rfl, h⟩
    | true =>
      simp only [if_true, PyM.pure]
      cases arg.format with
      | error e => exact ⟨rfl, h⟩
      | ok es =>
        simp only [forM_remove]
        cases g <;> exact ⟨rfl, h.1, by simp only [clearCacheH, PyM.modify, removeRaw, h.2]⟩
  | removeGroup g =>
    refine ⟨rfl, h.1, ?_⟩
    show Dict.del s.raw.groups g = Dict.del s'.raw.groups g
    rw [h.2]
  | clear => exact ⟨rfl, h.1, rfl⟩
  | setVWeight w => exact ⟨rfl, h⟩

theorem Same.run {s s' : HSt K} {b' : Bool} (h : Same s.raw s'.raw) (hs : Coh b s) (hs' : Coh b' s')
    (l : List (Step K)) (hl : GoodRun s l) :
    Same (run s l).raw (run s' l).raw ∧ Coh b (run s l) ∧ Coh b' (run s' l) := by
  induction l generalizing s s' with
  | nil => exact ⟨h, hs, hs'⟩
  | cons x l ih =>
    cases x with
    | op o =>
      obtain ⟨h1, h2⟩ := h.apply o
      refine ih (s := (Hyper.apply o s).2) (s' := (Hyper.apply o s').2) h2 (apply_coh hl.1 hs)
        (apply_coh ?_ hs') hl.2
      rcases hl.1 with h3 | h3
      · exact .inl h3
      · exact .inr (h1 ▸ h3)
    | read q =>
      obtain ⟨h1, h2⟩ := ask_keeps q hs
      obtain ⟨h3, h4⟩ := ask_keeps q hs'
      refine ih (s := (Hyper.ask q s).2) (s' := (Hyper.ask q s').2) ?_ h2 h4 hl
      rw [h1, h3]; exact h

theorem Same.indist {s s' : HSt K} {b' : Bool} (h : Same s.raw s'.raw) (hs : Coh b s)
    (hs' : Coh b' s') : Spec.HIndist Spec.NotVW s s' := by
  intro l hl q hq
  obtain ⟨h1, h2, h3⟩ := h.run hs hs' l hl
  have hq' : q ≠ .Wv := by rintro rfl; exact hq
  rw [ask_eq q h2 (.inr hq'), ask_eq q h3 (.inr hq')]
  exact h1.ask q hq

/-! ### Objects with equal raw attributes -/

theorem apply_vWeight (o : HOp K) (s : HSt K) :
    (apply o s).2.raw.vWeight = match o with
      | .clear => none
      | _ => s.raw.vWeight := by
  cases o with
  | addHyperedges arg ew op g =>
    simp only [apply]
    rcases addHyperedges_cases arg ew op g s with ⟨e, h, _⟩ | ⟨es, ws, h1, h2, h3, ⟨_, h5⟩ | ⟨_, _, h5⟩⟩
    · rw [h]
    · rw [h5]; exact (addRaw_numV op g s.raw _).2
    · rw [h5]
      have : ∀ (l : List (List Int × K)) (t : HSt K),
          (PyM.forM l (fun p => addHyperedge p.1 p.2 op g) t).2.raw.vWeight = t.raw.vWeight := by
        intro l
        induction l with
        | nil => intro t; rfl
        | cons p l ih =>
          intro t
          rw [PyM.forM_cons]
          have h1 : (addHyperedge p.1 p.2 op g t).2.raw.vWeight = t.raw.vWeight := by
            rcases addHyperedge_any op p.1 p.2 g t with h | h <;> rw [h] <;> rfl
          rcases ha : addHyperedge p.1 p.2 op g t with ⟨e | u, t'⟩ <;> rw [ha] at h1
          · exact h1
          · exact (ih t').trans h1
      exact this _ _
  | removeHyperedges arg g =>
    simp only [apply]
    rcases removeHyperedges_cases arg g s with ⟨e, h, _⟩ | ⟨es, h1, h2, h3⟩
    · rw [h]
    · rw [h3]; cases g <;> rfl
  | removeGroup g => rfl
  | clear => rfl
  | setVWeight w => rfl

theorem run_raw_eq {s s' : HSt K} {b' : Bool} (h : s.raw = s'.raw) (hs : Coh b s) (hs' : Coh b' s')
    (l : List (Step K)) (hl : GoodRun s l) :
    (run s l).raw = (run s' l).raw ∧ Coh b (run s l) ∧ Coh b' (run s' l) := by
  induction l generalizing s s' with
  | nil => exact ⟨h, hs, hs'⟩
  | cons x l ih =>
    cases x with
    | op o =>
      obtain ⟨h1, h2⟩ := Same.apply (s := s) (s' := s') ⟨by rw [h], by rw [h]⟩ o
      refine ih (s := (apply o s).2) (s' := (apply o s').2) ?_ (apply_coh hl.1 hs)
        (apply_coh ?_ hs') hl.2
      · have hv : (apply o s).2.raw.vWeight = (apply o s').2.raw.vWeight := by
          rw [apply_vWeight, apply_vWeight, h]
        rcases hr : (apply o s).2.raw with ⟨n, w, gs⟩
        rcases hr' : (apply o s').2.raw with ⟨n', w', gs'⟩
        rw [hr, hr'] at h2 hv
        obtain ⟨h4, h5⟩ := h2
        simp only at h4 h5 hv
        rw [h4, h5, hv]
      · rcases hl.1 with h3 | h3
        · exact .inl h3
        · exact .inr (h1 ▸ h3)
    | read q =>
      obtain ⟨h1, h2⟩ := ask_keeps q hs
      obtain ⟨h3, h4⟩ := ask_keeps q hs'
      refine ih (s := (ask q s).2) (s' := (ask q s').2) ?_ h2 h4 hl
      rw [h1, h3]; exact h

theorem indist_of_raw {s s' : HSt K} (h : s.raw = s'.raw) (hs : Coh true s)
    (hs' : Coh true s') : Spec.HIndist (fun _ => True) s s' := by
  intro l hl q _
  obtain ⟨h1, h2, h3⟩ := run_raw_eq h hs hs' l hl
  rw [ask_eq q h2 (.inl rfl), ask_eq q h3 (.inl rfl), h1]

/-! ### Rebuilding an object by public calls -/

theorem foldl_upsert_append {d l : HGroup K} (op : MergeOp) (h : (d.keys ++ l.keys).Nodup) :
    l.foldl (fun d p => upsert d p.1 (Spec.merge op) p.2) d = d ++ l := by
  induction l generalizing d with
  | nil => simp
  | cons p l ih =>
    have hp : p.1 ∉ Dict.keys d := by
      intro hc
      rw [List.nodup_append] at h
      exact h.2.2 _ hc _ List.mem_cons_self rfl
    have hu : upsert d p.1 (Spec.merge op) p.2 = d ++ [p] := by
      unfold upsert
      rw [(Dict.get?_eq_none_iff _ _).2 hp]
      exact Dict.set_of_notMem _ _ _ hp
    rw [List.foldl_cons, hu, ih]
    · simp
    · simpa [Dict.keys] using h

theorem set_last (gs : Dict String (HGroup K)) (g : String) (d d' : HGroup K) (h : g ∉ gs.keys) :
    Dict.set (gs ++ [(g, d)]) g d' = gs ++ [(g, d')] := by
  induction gs with
  | nil => simp [Dict.set]
  | cons x gs ih =>
    obtain ⟨a, y⟩ := x
    have ha : a ≠ g := by rintro rfl; exact h List.mem_cons_self
    simp only [List.cons_append, Dict.set]
    rw [if_neg ha, ih fun hc => h (List.mem_cons_of_mem _ hc)]

theorem get?_last (gs : Dict String (HGroup K)) (g : String) (d : HGroup K) (h : g ∉ gs.keys) :
    Dict.get? (gs ++ [(g, d)]) g = some d := by
  induction gs with
  | nil => simp [Dict.get?]
  | cons x gs ih =>
    obtain ⟨a, y⟩ := x
    have ha : a ≠ g := by rintro rfl; exact h List.mem_cons_self
    simp only [List.cons_append, Dict.get?]
    rw [if_neg ha, ih fun hc => h (List.mem_cons_of_mem _ hc)]

theorem foldl_addRaw_last (op : MergeOp) (n : Nat) (vw : Option (List K))
    (gs : Dict String (HGroup K)) (g : String) (h : g ∉ gs.keys) (l d : HGroup K) :
    l.foldl (addRaw op g) ⟨n, vw, gs ++ [(g, d)]⟩ =
      ⟨n, vw, gs ++ [(g, l.foldl (fun d p => upsert d p.1 (Spec.merge op) p.2) d)]⟩ := by
  induction l generalizing d with
  | nil => rfl
  | cons p l ih =>
    simp only [List.foldl_cons]
    rw [← ih]
    congr 1
    unfold addRaw
    simp only [get?_last gs g d h, Option.getD_some, set_last gs g d _ h]

theorem foldl_addRaw_new (op : MergeOp) (n : Nat) (vw : Option (List K))
    (gs : Dict String (HGroup K)) (g : String) (h : g ∉ gs.keys) (p : List Int × K) (l : HGroup K)
    (hl : (Dict.keys (p :: l)).Nodup) :
    (p :: l).foldl (addRaw op g) ⟨n, vw, gs⟩ = ⟨n, vw, gs ++ [(g, p :: l)]⟩ := by
  rw [List.foldl_cons]
  have : addRaw op g (⟨n, vw, gs⟩ : HRaw K) p = ⟨n, vw, gs ++ [(g, [p])]⟩ := by
    unfold addRaw
    simp only [(Dict.get?_eq_none_iff _ _).2 h, Option.getD_none, Dict.set_of_notMem _ _ _ h]
    rfl
  rw [this, foldl_addRaw_last op n vw gs g h l, foldl_upsert_append op (by simpa [Dict.keys] using hl)]
  rfl

theorem rebuildGroup_good (g : String) (d : HGroup K) : ∀ o ∈ Spec.rebuildGroup g d, GoodOp o := by
  intro o ho
  unfold Spec.rebuildGroup at ho
  split at ho
  · simp only [List.mem_cons, List.not_mem_nil, or_false] at ho
    rcases ho with rfl | rfl
    · simp [GoodOp]
    · trivial
  · simp only [List.mem_cons, List.not_mem_nil, or_false] at ho
    subst ho; simp [GoodOp]

theorem goodRun_of_ops (s : HSt K) (os : List (HOp K)) (h : ∀ o ∈ os, GoodOp o) :
    GoodRun s (os.map Step.op) := by
  induction os generalizing s with
  | nil => trivial
  | cons o os ih =>
    exact ⟨.inl (h o List.mem_cons_self), ih _ fun o' ho => h o' (List.mem_cons_of_mem _ ho)⟩

theorem run_append (s : HSt K) (l l' : List (Step K)) : run s (l ++ l') = run (run s l) l' :=
  List.foldl_append

theorem rebuildGroup_raw (n : Nat) (vw : Option (List K)) (gs : Dict String (HGroup K)) (g : String)
    (d : HGroup K) (h : g ∉ gs.keys) (hd : d.keys.Nodup) (hs : ∀ e ∈ d.keys, sortV e = e)
    (s : HSt K) (hr : s.raw = ⟨n, vw, gs⟩) :
    (run s ((Spec.rebuildGroup g d).map Step.op)).raw = ⟨n, vw, gs ++ [(g, d)]⟩ := by
  cases d with
  | nil =>
    have h1 : (apply (.addHyperedges (.one true [0]) .none .sum g) s).2.raw =
        ⟨n, vw, gs ++ [(g, [([0], 1)])]⟩ := by
      simp only [apply]
      rcases addHyperedges_cases (.one true [0]) .none .sum g s with
        ⟨e, _, h2⟩ | ⟨es, ws, h1, h2, h3, ⟨_, h5⟩ | ⟨h4, _⟩⟩
      · exact absurd (by simp) (h2 [sortV [0]] [1] rfl rfl)
      · cases h1; cases h2
        rw [h5]
        simp only [hr]
        exact foldl_addRaw_new .sum n vw gs g h ([0], 1) [] (by simp [Dict.keys])
      · cases h4
    show (apply (.removeHyperedges (.one true [0]) (some g))
      (apply (.addHyperedges (.one true [0]) .none .sum g) s).2).2.raw = _
    simp only [apply] at h1 ⊢
    rcases removeHyperedges_cases (.one true [0]) (some g)
      (addHyperedges (.one true [0]) .none .sum g s).2 with ⟨e, _, h' | ⟨e', h'⟩⟩ | ⟨es, h2, h3, h4⟩
    · rw [h1] at h'
      simp only [knownGroup, Dict.has, get?_last gs g _ h] at h'
      cases h'
    · cases h'
    · cases h2
      rw [h4]
      show removeRaw (some g) _ [[0]] = _
      rw [h1]
      unfold removeRaw
      simp only [List.foldl_cons, List.foldl_nil, popOne, get?_last gs g _ h,
        set_last gs g _ _ h]
      rfl
  | cons p d =>
    show (apply (.addHyperedges (.many true ((p :: d).map fun p => ⟨true, p.1⟩))
      (.list ((p :: d).map Prod.snd)) .sum g) s).2.raw = _
    have hf : (HArg.many true ((p :: d).map fun p => ⟨true, p.1⟩)).format = .ok (Dict.keys (p :: d)) := by
      simp only [HArg.format]
      congr 1
      rw [List.map_map]
      refine List.map_congr_left fun q hq => ?_
      exact hs q.1 (List.mem_map.2 ⟨q, hq, rfl⟩)
    simp only [apply]
    rcases addHyperedges_cases (.many true ((p :: d).map fun p => ⟨true, p.1⟩))
      (.list ((p :: d).map Prod.snd)) .sum g s with
      ⟨e, _, h2⟩ | ⟨es, ws, h1, h2, h3, ⟨_, h5⟩ | ⟨h4, _⟩⟩
    · exact absurd (by simp [Dict.keys]) (h2 _ _ hf rfl)
    · rw [hf] at h1; cases h1; cases h2
      rw [h5]
      have hz : (Dict.keys (p :: d)).zip ((p :: d).map Prod.snd) = p :: d := Dict.zip_keys_vals (p :: d)
      simp only [hr, hz]
      exact foldl_addRaw_new .sum n vw gs g h p d hd
    · cases h4

theorem rebuild_groups (n : Nat) (vw : Option (List K)) (gs gs' : Dict String (HGroup K))
    (h : (gs'.keys ++ gs.keys).Nodup) (hd : ∀ p ∈ gs, p.2.keys.Nodup)
    (hs : ∀ p ∈ gs, ∀ e ∈ p.2.keys, sortV e = e) (s : HSt K) (hr : s.raw = ⟨n, vw, gs'⟩) :
    (run s ((gs.flatMap fun p => Spec.rebuildGroup p.1 p.2).map Step.op)).raw = ⟨n, vw, gs' ++ gs⟩ := by
  induction gs generalizing s gs' with
  | nil => show s.raw = _; rw [hr]; simp
  | cons p gs ih =>
    rw [List.flatMap_cons, List.map_append, run_append]
    have hp : p.1 ∉ gs'.keys := by
      intro hc
      rw [List.nodup_append] at h
      exact h.2.2 _ hc _ List.mem_cons_self rfl
    have h1 := rebuildGroup_raw n vw gs' p.1 p.2 hp (hd p List.mem_cons_self)
      (hs p List.mem_cons_self) s hr
    rw [ih (gs' ++ [(p.1, p.2)]) (by simpa [Dict.keys] using h)
      (fun q hq => hd q (List.mem_cons_of_mem _ hq)) (fun q hq => hs q (List.mem_cons_of_mem _ hq)) _ h1]
    simp

/-- every object can be rebuilt from its visible content -/
theorem rebuild {r : HRaw K} (hr : Inv r) :
    ∃ s0 : HSt K, Hyper.new r.numV none .none r.vWeight .mean = .ok s0 ∧
      Coh true s0 ∧ GoodRun s0 ((Spec.rebuildOps r.vWeight r.groups).map Step.op) ∧
      (run s0 ((Spec.rebuildOps r.vWeight r.groups).map Step.op)).raw = r := by
  have hgood : ∀ o ∈ Spec.rebuildOps r.vWeight r.groups, GoodOp o := by
    intro o ho
    unfold Spec.rebuildOps at ho
    rcases List.mem_append.1 ho with ho | ho
    · cases hw : r.vWeight with
      | none => rw [hw] at ho; simp only [List.mem_singleton] at ho; subst ho; trivial
      | some w => rw [hw] at ho; exact absurd ho List.not_mem_nil
    · obtain ⟨p, _, hp⟩ := List.mem_flatMap.1 ho
      exact rebuildGroup_good _ _ o hp
  have hnew : Hyper.new (K := K) r.numV none .none r.vWeight .mean =
      .ok ⟨⟨r.numV, some (r.vWeight.getD (List.replicate r.numV 1)), []⟩, []⟩ := by
    unfold Hyper.new initRaw
    rw [if_pos (by have := hr.pos; omega)]
    cases hw : r.vWeight with
    | none => rfl
    | some w =>
      simp only [Int.toNat_natCast]
      rw [if_pos (hr.weights w hw)]
      rfl
  refine ⟨_, hnew, coherentOn_nil, goodRun_of_ops _ _ hgood, ?_⟩
  unfold Spec.rebuildOps
  rw [List.map_append, run_append]
  rw [rebuild_groups r.numV r.vWeight r.groups [] (by simpa [Dict.keys] using hr.names) hr.nodup hr.sorted]
  · simp
  · cases hw : r.vWeight with
    | none => rfl
    | some w => rfl

end Hyper
end DHG
