import Verif.HyperReads
import Verif.GraphSpec
import Verif.GraphLemmas

/-!
# Effect of the calls of `Hypergraph` on raw attributes and caches
-/

set_option linter.unusedSectionVars false
set_option autoImplicit false

namespace DHG

theorem sortV_perm (l : List Int) : (sortV l).Perm l := List.perm_insertionSort _ _

theorem mem_sortV {l : List Int} {v : Int} : v ∈ sortV l ↔ v ∈ l := (sortV_perm l).mem_iff

theorem sortV_sorted (l : List Int) : (sortV l).Pairwise (· ≤ ·) :=
  List.pairwise_insertionSort _ _

theorem sortV_of_sorted {l : List Int} (h : l.Pairwise (· ≤ ·)) : sortV l = l :=
  (sortV_perm l).eq_of_pairwise (by intro a b _ _ h1 h2; omega) (sortV_sorted l) h

theorem sortV_sortV (l : List Int) : sortV (sortV l) = sortV l := sortV_of_sorted (sortV_sorted l)

theorem sortV_eq_iff {l l' : List Int} : sortV l = sortV l' ↔ l.Perm l' := by
  constructor
  · intro h
    exact (sortV_perm l).symm.trans (h ▸ sortV_perm l')
  · intro h
    exact ((sortV_perm l).trans (h.trans (sortV_perm l').symm)).eq_of_pairwise
      (by intro a b _ _ h1 h2; omega) (sortV_sorted l) (sortV_sorted l')

theorem Dict.get?_filter_key {κ ν : Type} [DecidableEq κ] (d : Dict κ ν) (p : κ → Bool) (k : κ) :
    Dict.get? (d.filter fun x => p x.1) k = if p k then Dict.get? d k else none := by
  induction d with
  | nil => simp [Dict.get?]
  | cons x d ih =>
    obtain ⟨a, v⟩ := x
    by_cases hp : p a = true
    · rw [List.filter_cons_of_pos (by simpa using hp)]
      simp only [Dict.get?]
      by_cases ha : a = k
      · subst ha; simp [hp]
      · rw [if_neg ha, if_neg ha, ih]
    · rw [List.filter_cons_of_neg (by simpa using hp), ih]
      simp only [Dict.get?]
      by_cases ha : a = k
      · subst ha; simp [hp]
      · rw [if_neg ha]

theorem Dict.get?_map_val {κ ν μ : Type} [DecidableEq κ] (d : Dict κ ν) (f : κ → ν → μ) (k : κ) :
    Dict.get? (d.map fun x => (x.1, f x.1 x.2)) k = (Dict.get? d k).map (f k) := by
  induction d with
  | nil => rfl
  | cons x d ih =>
    obtain ⟨a, v⟩ := x
    simp only [List.map_cons, Dict.get?]
    by_cases ha : a = k
    · subst ha; simp
    · rw [if_neg ha, if_neg ha, ih]

namespace Hyper

variable {K : Type} [Field K] [LinearOrder K]

/-! ### Locality -/

/-- the two objects have the same number of vertices and the same group `g` -/
def Agree (g : String) (r r' : HRaw K) : Prop :=
  r.numV = r'.numV ∧ r.groups.get? g = r'.groups.get? g

theorem Agree.symm {g : String} {r r' : HRaw K} (h : Agree g r r') : Agree g r' r :=
  ⟨h.1.symm, h.2.symm⟩

theorem Agree.trans {g : String} {r r' r'' : HRaw K} (h : Agree g r r') (h' : Agree g r' r'') :
    Agree g r r'' := ⟨h.1.trans h'.1, h.2.trans h'.2⟩

theorem Agree.refl (g : String) (r : HRaw K) : Agree g r r := ⟨rfl, rfl⟩

section
variable {g : String} {r r' : HRaw K} (h : Agree g r r')
include h

theorem Agree.chk : chk (some g) r = chk (some g) r' := by
  unfold Hyper.chk Dict.has; simp only; rw [h.2]
theorem Agree.group : evGroup r g = evGroup r' g := by simp only [evGroup, h.2]
theorem Agree.E : evE (some g) r = evE (some g) r' := by simp only [evE, evEOf, h.group]
theorem Agree.numE : evNumE (some g) r = evNumE (some g) r' := by simp only [evNumE, h.group]
theorem Agree.H : evH (some g) r = evH (some g) r' := by simp only [evH, evHOf, h.group, h.1]
theorem Agree.HT : evHT (some g) r = evHT (some g) r' := by simp only [evHT, h.H]
theorem Agree.We : evWe (some g) r = evWe (some g) r' := by simp only [evWe, evWeOf, h.group]
theorem Agree.Dv : evDv (some g) r = evDv (some g) r' := by
  simp only [evDv, evDvOf, evHOf, evWeOf, h.group, h.1]
theorem Agree.DvN1 : evDvN1 (some g) r = evDvN1 (some g) r' := by simp only [evDvN1, h.Dv]
theorem Agree.De : evDe (some g) r = evDe (some g) r' := by
  simp only [evDe, evDeOf, evHOf, h.group, h.1]
theorem Agree.DeN1 : evDeN1 (some g) r = evDeN1 (some g) r' := by simp only [evDeN1, h.De]
theorem Agree.Ne (v : Int) : evNe v (some g) r = evNe v (some g) r' := by
  simp only [evNe, evNeOf, evHOf, h.group, h.1, h.chk]
theorem Agree.Nv (e : Int) : evNv e (some g) r = evNv e (some g) r' := by
  simp only [evNv, evNvOf, h.group, h.HT]

variable [PyReal K]
theorem Agree.DvN12 : evDvN12 (some g) r = evDvN12 (some g) r' := by simp only [evDvN12, h.Dv]
theorem Agree.LHGNN : evLHGNN (some g) r = evLHGNN (some g) r' := by
  simp only [evLHGNN, h.DvN12, h.H, h.We, h.DeN1, h.HT]
theorem Agree.Lsym : evLsym (some g) r = evLsym (some g) r' := by
  simp only [evLsym, h.LHGNN, h.1]
theorem Agree.Lrw : evLrw (some g) r = evLrw (some g) r' := by
  simp only [evLrw, h.DvN1, h.H, h.We, h.DeN1, h.HT, h.1]

theorem Agree.key (n : HName) : evKey (some g, n) r = evKey (some g, n) r' := by
  cases n <;> simp only [evKey, h.E, h.H, h.HT, h.We, h.Dv, h.DvN1, h.De, h.DeN1, h.DvN12,
    h.LHGNN, h.Lsym, h.Lrw]

theorem Agree.agg {X : Dense K} {aggr : Aggr} {w : Option (List K)} {rate : K} {keep : Nat → Bool}
    {evP evD : HRaw K → Except Err (Sp K)} (hP : evP r = evP r') (hD : evD r = evD r') :
    evAgg evP evD X aggr w rate keep r = evAgg evP evD X aggr w rate keep r' := by
  simp only [evAgg, hP, hD]

end

theorem Agree.ask [PyReal K] {g : String} {r r' : HRaw K} (h : Agree g r r') (q : HQuery K)
    (hq : QOf g q) : evAsk q r = evAsk q r' := by
  cases q <;> simp only [QOf] at hq <;> first | exact hq.elim | subst hq <;>
    simp only [evAsk, evSmooth, evV2eAggr, evV2eUpd, evV2e, evE2vAggr, evE2vUpd, evE2v, evV2v,
      h.chk, h.numE, h.E, h.H, h.HT, h.We, h.Dv, h.DvN1, h.De, h.DeN1, h.DvN12, h.LHGNN, h.Lsym,
      h.Lrw, h.Ne, h.Nv, h.agg (h.HT) (h.DeN1), h.agg (h.H) (h.DvN1)]

/-- queries about an unknown group raise -/
theorem evAsk_unknown [PyReal K] {g : String} {r : HRaw K} (h : r.groups.get? g = none)
    (q : HQuery K) (hq : QOf g q) : evAsk q r = .error .assertion := by
  have hc : Hyper.chk (some g) r = .error .assertion := by simp [Hyper.chk, Dict.has, h]
  cases q <;> simp only [QOf] at hq <;> first | exact hq.elim | subst hq <;>
    first
    | simp only [evAsk, strict_E g r h, strict_NumE g r h, strict_H g r h, strict_HT g r h,
        strict_We g r h, strict_Dv g r h, strict_DvN1 g r h, strict_DvN12 g r h, strict_De g r h,
        strict_DeN1 g r h, strict_LHGNN g r h, strict_Lsym g r h, strict_Lrw g r h]; rfl
    | simp only [evAsk, evSmooth, strict_LHGNN g r h]; rfl
    | simp only [evAsk, evV2eAggr, evV2eUpd, evV2e, evE2vAggr, evE2vUpd, evE2v, evV2v, hc]; rfl
    | simp only [evAsk, evNe, evNeOf, hc]; rfl
    | simp only [evAsk, evNv, evNvOf, evGroup_none h]; rfl

/-! ### Raw effect of the calls -/

/-- write one hyperedge -/
def addRaw (op : MergeOp) (g : String) (r : HRaw K) (p : List Int × K) : HRaw K :=
  ⟨r.numV, r.vWeight,
    r.groups.set g (upsert ((r.groups.get? g).getD []) p.1 (Spec.merge op) p.2)⟩

theorem addHyperedge_good {op : MergeOp} (hop : op ≠ .other) (e : List Int) (w : K) (g : String)
    (s : HSt K) : addHyperedge e w op g s =
      (.ok (), { s with raw := addRaw op g s.raw (e, w) }) := by
  have hm : ∃ f, hMerge (K := K) op = .ok f ∧ f = Spec.merge op := by
    cases op with
    | other => exact absurd rfl hop
    | mean => exact ⟨_, rfl, rfl⟩
    | sum => exact ⟨_, rfl, rfl⟩
    | max => exact ⟨_, rfl, by funext a b; simp only [Spec.merge, max_def]⟩
  obtain ⟨f, hf, rfl⟩ := hm
  unfold addHyperedge addRaw
  simp only [PyM.bind_apply, readRaw, hf, id]
  cases hg : Dict.get? s.raw.groups g with
  | none => rfl
  | some d =>
    simp only [Option.getD_some, upsert]
    cases hd : Dict.get? d e with
    | none => rfl
    | some o => rfl

theorem addHyperedge_ok {op : MergeOp} {e : List Int} {w : K} {g : String} {s : HSt K}
    (h : (addHyperedge e w op g s).1 = .ok ()) :
    (addHyperedge e w op g s).2 = { s with raw := addRaw op g s.raw (e, w) } := by
  by_cases hop : op = .other
  · subst hop
    revert h
    unfold addHyperedge addRaw
    simp only [PyM.bind_apply, readRaw, id]
    cases hg : Dict.get? s.raw.groups g with
    | none => intro _; rfl
    | some d =>
      simp only [Option.getD_some, upsert]
      cases hd : Dict.get? d e with
      | none => intro _; rfl
      | some o => intro h; cases h
  · rw [addHyperedge_good hop]

theorem addHyperedge_any (op : MergeOp) (e : List Int) (w : K) (g : String) (s : HSt K) :
    (addHyperedge e w op g s).2 = s ∨
      (addHyperedge e w op g s).2 = { s with raw := addRaw op g s.raw (e, w) } := by
  cases h : (addHyperedge e w op g s).1 with
  | ok u => exact .inr (addHyperedge_ok h)
  | error err =>
    left
    revert h
    unfold addHyperedge
    simp only [PyM.bind_apply, readRaw, id]
    cases hg : Dict.get? s.raw.groups g with
    | none => intro h; cases h
    | some d =>
      simp only []
      cases hd : Dict.get? d e with
      | none => intro h; cases h
      | some o => cases op <;> intro h <;> first | rfl | cases h

theorem forM_add_ok {op : MergeOp} {g : String} {l : List (List Int × K)} {s : HSt K}
    (h : (PyM.forM l (fun p => addHyperedge p.1 p.2 op g) s).1 = .ok ()) :
    (PyM.forM l (fun p => addHyperedge p.1 p.2 op g) s).2 =
      { s with raw := l.foldl (addRaw op g) s.raw } := by
  induction l generalizing s with
  | nil => rfl
  | cons p l ih =>
    rw [PyM.forM_cons] at h ⊢
    rcases ha : addHyperedge p.1 p.2 op g s with ⟨_ | u, s'⟩
    · rw [ha] at h; cases h
    · rw [ha] at h
      have := addHyperedge_ok (s := s) (e := p.1) (w := p.2) (op := op) (g := g) (by rw [ha])
      rw [ha] at this
      simp only at this h ⊢
      rw [ih h, this]; rfl

theorem forM_add_good {op : MergeOp} (hop : op ≠ .other) (g : String) (l : List (List Int × K))
    (s : HSt K) : (PyM.forM l (fun p => addHyperedge p.1 p.2 op g) s).1 = .ok () := by
  induction l generalizing s with
  | nil => rfl
  | cons p l ih => rw [PyM.forM_cons, addHyperedge_good hop]; exact ih _

/-- whatever happens, only the group `g` is touched -/
theorem forM_add_agree (op : MergeOp) (g : String) (l : List (List Int × K)) (s : HSt K) :
    (PyM.forM l (fun p => addHyperedge p.1 p.2 op g) s).2.cache = s.cache ∧
    ∀ g', g' ≠ g → Agree g' (PyM.forM l (fun p => addHyperedge p.1 p.2 op g) s).2.raw s.raw := by
  have hone : ∀ (p : List Int × K) (s : HSt K), (addHyperedge p.1 p.2 op g s).2.cache = s.cache ∧
      ∀ g', g' ≠ g → Agree g' (addHyperedge p.1 p.2 op g s).2.raw s.raw := by
    intro p s
    rcases addHyperedge_any op p.1 p.2 g s with h | h
    · rw [h]; exact ⟨rfl, fun g' _ => Agree.refl _ _⟩
    · rw [h]
      refine ⟨rfl, fun g' hg' => ⟨rfl, ?_⟩⟩
      simp only [addRaw, Dict.get?_set]
      rw [if_neg (Ne.symm hg')]
  induction l generalizing s with
  | nil => exact ⟨rfl, fun g' _ => Agree.refl _ _⟩
  | cons p l ih =>
    rw [PyM.forM_cons]
    obtain ⟨h1, h2⟩ := hone p s
    rcases ha : addHyperedge p.1 p.2 op g s with ⟨_ | u, s'⟩
    · rw [ha] at h1 h2; exact ⟨h1, h2⟩
    · rw [ha] at h1 h2
      obtain ⟨h3, h4⟩ := ih s'
      exact ⟨h3.trans h1, fun g' hg' => (h4 g' hg').trans (h2 g' hg')⟩

/-- delete hyperedges from one group or from all -/
def removeRaw (g : Option String) (r : HRaw K) (es : List (List Int)) : HRaw K :=
  { r with groups := es.foldl (fun gs e => match g with
      | none => popAll e gs
      | some g => popOne g e gs) r.groups }

theorem forM_remove (g : Option String) (es : List (List Int)) (s : HSt K) :
    PyM.forM es (removeOne g) s = (.ok (), { s with raw := removeRaw g s.raw es }) := by
  induction es generalizing s with
  | nil => rfl
  | cons e es ih =>
    rw [PyM.forM_cons]
    cases g with
    | none => exact ih _
    | some g => exact ih _

theorem popOne_agree (g g' : String) (h : g' ≠ g) (e : List Int) (gs : Dict String (HGroup K)) :
    (popOne g e gs).get? g' = gs.get? g' := by
  unfold popOne
  cases hg : Dict.get? gs g with
  | none => rfl
  | some d =>
    simp only [Dict.get?_set]
    rw [if_neg (Ne.symm h)]

theorem removeRaw_agree (g g' : String) (h : g' ≠ g) (r : HRaw K) (es : List (List Int)) :
    Agree g' (removeRaw (some g) r es) r := by
  refine ⟨rfl, ?_⟩
  unfold removeRaw
  simp only
  have : ∀ gs : Dict String (HGroup K), Dict.get? (es.foldl (fun gs e => popOne g e gs) gs) g' =
      Dict.get? gs g' := by
    induction es with
    | nil => intro gs; rfl
    | cons e es ih => intro gs; rw [List.foldl_cons, ih, popOne_agree g g' h]
  exact this _

/-- all possible effects of `add_hyperedges` -/
theorem addHyperedges_cases (arg : HArg) (ew : HW K) (op : MergeOp) (g : String) (s : HSt K) :
    (∃ e, addHyperedges arg ew op g s = (.error e, s) ∧
      ∀ es ws, arg.format = .ok es → ew.expand es.length = .ok ws → es.length ≠ ws.length) ∨
    ∃ es ws, arg.format = .ok es ∧ ew.expand es.length = .ok ws ∧ es.length = ws.length ∧
      (((addHyperedges arg ew op g s).1 = .ok () ∧ (addHyperedges arg ew op g s).2 =
          { raw := (es.zip ws).foldl (addRaw op g) s.raw
            cache := s.cache.filter fun p => decide (p.1.1 ≠ none ∧ p.1.1 ≠ some g) }) ∨
       (op = .other ∧ (∃ e, (addHyperedges arg ew op g s).1 = .error e) ∧
          (addHyperedges arg ew op g s).2 =
            (PyM.forM (es.zip ws) (fun p => addHyperedge p.1 p.2 op g) s).2)) := by
  unfold addHyperedges
  cases hf : arg.format with
  | error e => exact .inl ⟨e, rfl, fun es ws h => by cases h⟩
  | ok es =>
    cases hw : ew.expand es.length with
    | error e =>
      refine .inl ⟨e, ?_, fun es' ws h h' => ?_⟩
      · simp only [PyM.bind_apply, PyM.lift_apply, hw]
      · cases h; rw [hw] at h'; cases h'
    | ok ws =>
      by_cases hl : es.length = ws.length
      · refine .inr ⟨es, ws, rfl, hw, hl, ?_⟩
        have heq : (do
            let es ← PyM.lift arg.format
            let ws ← PyM.lift (ew.expand es.length)
            PyM.assert (decide (es.length = ws.length))
            PyM.forM (es.zip ws) fun p => addHyperedge p.1 p.2 op g
            clearCacheH (some g)) s =
            match PyM.forM (es.zip ws) (fun p => addHyperedge p.1 p.2 op g) s with
            | (.ok _, s') => clearCacheH (some g) s'
            | (.error e, s') => (.error e, s') := by
          simp only [PyM.bind_apply, PyM.lift_apply, hf, hw, PyM.assert, decide_eq_true hl, if_true,
            PyM.pure]
          rcases PyM.forM (es.zip ws) (fun p => addHyperedge p.1 p.2 op g) s with ⟨_ | _, _⟩ <;> rfl
        rw [← hf, heq]
        rcases hm : PyM.forM (es.zip ws) (fun p => addHyperedge p.1 p.2 op g) s with ⟨e | u, s'⟩
        · right
          refine ⟨?_, ⟨e, rfl⟩, rfl⟩
          by_contra hop
          have := forM_add_good hop g (es.zip ws) s
          rw [hm] at this; cases this
        · left
          have := forM_add_ok (op := op) (g := g) (l := es.zip ws) (s := s) (by rw [hm])
          rw [hm] at this
          simp only at this
          refine ⟨rfl, ?_⟩
          simp only [clearCacheH, PyM.modify, this]
      · refine .inl ⟨.assertion, ?_, fun es' ws' h h' => ?_⟩
        · simp only [PyM.bind_apply, PyM.lift_apply, hw, PyM.assert, hl, decide_false]
          rfl
        · cases h; rw [hw] at h'; cases h'; exact hl

theorem removeHyperedges_cases (arg : HArg) (g : Option String) (s : HSt K) :
    (∃ err, removeHyperedges arg g s = (.error err, s) ∧
      (knownGroup g s.raw = false ∨ ∃ err', arg.format = .error err')) ∨
    ∃ es, arg.format = .ok es ∧ knownGroup g s.raw = true ∧
      removeHyperedges arg g s =
        (.ok (), (clearCacheH g { s with raw := removeRaw g s.raw es }).2) := by
  unfold removeHyperedges
  cases hg : knownGroup g s.raw with
  | false =>
    refine .inl ⟨.assertion, ?_, .inl rfl⟩
    simp only [PyM.bind_apply, readRaw, id, hg, PyM.assert]
    rfl
  | true =>
    cases hf : arg.format with
    | error e =>
      refine .inl ⟨e, ?_, .inr ⟨e, rfl⟩⟩
      simp only [PyM.bind_apply, readRaw, id, hg, PyM.assert, PyM.lift_apply]
      rfl
    | ok es =>
      refine .inr ⟨es, rfl, rfl, ?_⟩
      simp only [PyM.bind_apply, readRaw, id, hg, PyM.assert, PyM.lift_apply, if_true,
        PyM.pure, forM_remove]
      cases g <;> rfl

end Hyper
end DHG
