import Mathlib.Data.Fintype.BigOperators
import Verif.Props.SplitUniform
import Verif.Props.UtilsData

/-!
# The training items of each user are a uniform choice (C136)
-/

set_option linter.unusedSectionVars false
set_option autoImplicit false

open MeasureTheory ProbabilityTheory

namespace DHG

/-! ## Specification -/

namespace Spec

section
variable {K : Type} [Field K] [LinearOrder K] [PyReal K]

/-- `v` is an item of user `u` -/
def HasItem (g : BSt K) (u v : Nat) : Prop := ∃ w, (((u : Int), (v : Int)), w) ∈ listingB g

/-- the number of items of user `u` -/
noncomputable def itemCount (g : BSt K) (u : Nat) : Nat := Set.ncard {v : Nat | HasItem g u v}

/-- the draws for shuffling the items of the users `0, …, m - 1` one after the other -/
def UserDraws {Ω : Type} [MeasurableSpace Ω] (P : Measure Ω) (g : BSt K) (m : Nat) (ω : Nat → Ω → Nat) : Prop :=
  UniformChoices P (fun i => (shuffleBounds ((List.range m).map (itemCount g))).getD i 1) ω

/-- `T` selects, for each of the users `0, …, m - 1`, as many of the items as `c` says -/
def Selects (g : BSt K) (m : Nat) (c : Nat → Nat) (T : Nat → Finset Nat) : Prop :=
  ∀ u < m, (∀ v ∈ T u, HasItem g u v) ∧ (T u).card = c (itemCount g u)

end
end Spec

namespace Props
namespace Law

open Finset Utils

theorem mem_fam_iff {ps L : List (List Nat)} : L ∈ fam ps ↔ L.length = ps.length ∧
    ∀ i < ps.length, (L.getD i []).Perm (ps.getD i []) := by
  rw [mem_fam, List.forall₂_iff_get]
  refine and_congr_right fun hl => ⟨fun h i hi => ?_, fun h i h1 h2 => ?_⟩
  · rw [List.getD_eq_getElem _ _ (hl ▸ hi), List.getD_eq_getElem _ _ hi]
    exact h i (hl ▸ hi) hi
  · have := h i h2
    rwa [List.getD_eq_getElem _ _ h1, List.getD_eq_getElem _ _ h2] at this

theorem relabel_one {q q' : List Nat} (hq : q.Nodup) (hq' : q'.Nodup) (h : q.length = q'.length) :
    ∃ σ : Nat → Nat, Set.InjOn σ {v | v ∈ q} ∧ q.map σ = q' := by
  have hmap : q.map (fun v => q'.getD (q.idxOf v) 0) = q' := by
    refine List.ext_getElem (by rw [List.length_map]; exact h) fun i h1 h2 => ?_
    rw [List.getElem_map, List.Nodup.idxOf_getElem hq, List.getD_eq_getElem]
  refine ⟨_, fun x hx y hy e => ?_, hmap⟩
  exact List.inj_on_of_nodup_map (by rw [hmap]; exact hq') hx hy e

/-- the sets of the first elements of the arranged lists -/
def firsts (c : Nat → Nat) (k : Nat) (L : List (List Nat)) : Fin k → Finset Nat :=
  fun i => ((L.getD i []).take (c (L.getD i []).length)).toFinset

theorem firsts_possible {ps : List (List Nat)} (hnd : ∀ p ∈ ps, p.Nodup) {c : Nat → Nat} :
    {X | ∃ a, firsts c ps.length (arr ps a) = X} = (Fintype.piFinset fun i : Fin ps.length =>
      powersetCard (min (c (ps.getD i []).length) (ps.getD i []).length) (ps.getD i []).toFinset : Finset _) := by
  have hnd' : ∀ i : Fin ps.length, (ps.getD i []).Nodup := fun i => by
    rw [List.getD_eq_getElem _ _ i.2]; exact hnd _ (List.getElem_mem _)
  ext X
  simp only [Set.mem_ofPred_eq, mem_coe, Fintype.mem_piFinset, mem_powersetCard]
  constructor
  · rintro ⟨a, rfl⟩ i
    have hp := (mem_fam_iff.1 (arr_mem ps a)).2 i i.2
    unfold firsts
    generalize (arr ps a).getD i [] = q at hp
    refine ⟨fun v hv => ?_, ?_⟩
    · rw [List.mem_toFinset] at hv ⊢
      exact hp.mem_iff.1 (List.mem_of_mem_take hv)
    · rw [List.toFinset_card_of_nodup ((hp.nodup_iff.2 (hnd' i)).sublist (List.take_sublist _ _)), List.length_take,
        hp.length_eq]
  · intro h
    have hL : List.ofFn (fun i : Fin ps.length => (ps.getD i []).filter (fun v => decide (v ∈ X i)) ++
        (ps.getD i []).filter (fun v => !decide (v ∈ X i))) ∈ fam ps := by
      rw [mem_fam_iff]
      refine ⟨by simp, fun i hi => ?_⟩
      rw [List.getD_eq_getElem _ _ (by simpa using hi), List.getElem_ofFn]
      exact List.filter_append_perm _ _
    obtain ⟨a, ha⟩ := arr_onto hnd hL
    refine ⟨a, ?_⟩
    rw [ha]
    funext i
    unfold firsts
    rw [List.getD_eq_getElem _ _ (by simp), List.getElem_ofFn]
    have hlen := (List.filter_append_perm (fun v => decide (v ∈ X i)) (ps.getD i [])).length_eq
    have hcard : ((ps.getD i []).filter (fun v => decide (v ∈ X i))).toFinset = X i := by
      ext v
      simp only [List.mem_toFinset, List.mem_filter, decide_eq_true_eq, and_iff_right_iff_imp]
      exact fun hv => List.mem_toFinset.1 ((h i).1 hv)
    have hc := (h i).2
    rw [← hcard, List.toFinset_card_of_nodup ((hnd' i).filter _)] at hc
    show (List.take (c (List.length (_ ++ _))) (_ ++ _)).toFinset = _
    rw [hlen]
    rw [List.length_append] at hlen
    rw [take_mid (by rw [hlen]; exact hc), hcard]

theorem firsts_law {Ω : Type} [MeasurableSpace Ω] {P : Measure Ω} [IsProbabilityMeasure P] {ω : Nat → Ω → Nat}
    {ps : List (List Nat)} (hnd : ∀ p ∈ ps, p.Nodup)
    (h : Spec.UniformChoices P (fun i => (Spec.shuffleBounds (ps.map List.length)).getD i 1) ω) {c : Nat → Nat}
    {X : Fin ps.length → Finset Nat} (hX : ∀ i, X i ⊆ (ps.getD i []).toFinset ∧
      (X i).card = min (c (ps.getD i []).length) (ps.getD i []).length) :
    P {s | firsts c ps.length (arr ps fun i => ω i s) = X} =
      ∏ i ∈ range ps.length, (((ps.getD i []).length.choose (min (c (ps.getD i []).length) (ps.getD i []).length) : Nat) :
        ENNReal)⁻¹ := by
  have hposs := firsts_possible hnd (c := c)
  have hnd' : ∀ i : Fin ps.length, (ps.getD i []).Nodup := fun i => by
    rw [List.getD_eq_getElem _ _ i.2]; exact hnd _ (List.getElem_mem _)
  rw [arr_uniform hnd h (f := firsts c ps.length) (fun L hL L' hL' => ?hf) (x := X) ?hx]
  · rw [hposs, Set.ncard_coe_finset, Fintype.card_piFinset, Finset.prod_range, Nat.cast_prod,
      ENNReal.prod_inv_distrib]
    · refine Finset.prod_congr rfl fun i _ => ?_
      rw [card_powersetCard, List.toFinset_card_of_nodup (hnd' i)]
    · intro i _ j _ _
      exact .inr (ENNReal.natCast_ne_top _)
  case hf =>
    rw [mem_fam_iff] at hL hL'
    have hσ : ∀ i : Fin ps.length, ∃ σ : Nat → Nat, Set.InjOn σ {v | v ∈ L.getD i []} ∧ (L.getD i []).map σ = L'.getD i [] :=
      fun i => relabel_one ((hL.2 i i.2).nodup_iff.2 (hnd' i)) ((hL'.2 i i.2).nodup_iff.2 (hnd' i))
        ((hL.2 i i.2).length_eq.trans (hL'.2 i i.2).length_eq.symm)
    choose σ h1 h2 using hσ
    have hget : ∀ (M : List (List Nat)) (i : Fin ps.length),
        (List.ofFn fun i : Fin ps.length => (M.getD i []).map (σ i)).getD i [] = (M.getD i []).map (σ i) := by
      intro M i
      rw [List.getD_eq_getElem _ _ (by simp), List.getElem_ofFn]
    refine ⟨fun M => List.ofFn fun i : Fin ps.length => (M.getD i []).map (σ i), fun M hM M' hM' e => ?_,
      fun M hM => ⟨?_, fun e => ?_⟩⟩
    · rw [mem_coe, mem_fam_iff] at hM hM'
      refine List.ext_getElem (hM.1.trans hM'.1.symm) fun i hi hi' => ?_
      have hip : i < ps.length := hM.1 ▸ hi
      have ei := congrArg (fun z => z.getD i []) e
      beta_reduce at ei
      rw [hget M ⟨i, hip⟩, hget M' ⟨i, hip⟩] at ei
      rw [← List.getD_eq_getElem _ [] hi, ← List.getD_eq_getElem _ [] hi']
      have hg : ∀ q : List Nat, q.Perm (ps.getD i []) →
          (q.map (σ ⟨i, hip⟩)).map (Function.invFunOn (σ ⟨i, hip⟩) {v | v ∈ L.getD i []}) = q := by
        intro q hq
        rw [List.map_map]
        conv_rhs => rw [← List.map_id q]
        exact List.map_congr_left fun v hv => (h1 ⟨i, hip⟩).leftInvOn_invFunOn
          ((hL.2 i hip).mem_iff.2 (hq.mem_iff.1 hv))
      have := congrArg (List.map (Function.invFunOn (σ ⟨i, hip⟩) {v | v ∈ L.getD i []})) ei
      rwa [hg _ (hM.2 i hip), hg _ (hM'.2 i hip)] at this
    · rw [mem_fam_iff] at hM ⊢
      refine ⟨by simp, fun i hi => ?_⟩
      rw [hget M ⟨i, hi⟩]
      have := ((hM.2 i hi).trans (hL.2 i hi).symm).map (σ ⟨i, hi⟩)
      rw [h2 ⟨i, hi⟩] at this
      exact this.trans (hL'.2 i hi)
    · rw [mem_fam_iff] at hM
      funext i
      have ei := congrFun e i
      unfold firsts at ei ⊢
      rw [hget M i, ← h2 i, List.length_map, List.length_map, ← List.map_take, ← List.map_take]
      ext v
      simp only [List.mem_toFinset, List.mem_map]
      have : ∀ w, w ∈ (M.getD i []).take (c (M.getD i []).length) ↔ w ∈ (L.getD i []).take (c (L.getD i []).length) := by
        intro w
        rw [← List.mem_toFinset, ei, List.mem_toFinset]
      simp only [this]
  case hx =>
    have : X ∈ {X | ∃ a, firsts c ps.length (arr ps a) = X} := by
      rw [hposs, mem_coe, Fintype.mem_piFinset]
      exact fun i => mem_powersetCard.2 (hX i)
    exact this

/-! ### The lines of the users -/

/-- the lines for the arranged items of users `us` -/
def linesOf (F : Deal) : List Nat → List (List Nat) → AdjList × AdjList
  | u :: us, p :: L => addLines u (F p) (linesOf F us L)
  | _, _ => ([], [])

theorem linesOf_train (F : Deal) (us : List Nat) (hus : us.Nodup) : ∀ (L : List (List Nat)), L.length = us.length →
    (linesOf F us L).1 = us.filterMap fun u => (F (L.getD (us.idxOf u) [])).1.map fun l => u :: l := by
  induction us with
  | nil => intro L _; cases L <;> rfl
  | cons u us ih =>
    intro L hL
    rw [List.nodup_cons] at hus
    cases L with
    | nil => cases hL
    | cons p L =>
      have hc : us.filterMap (fun x => (F ((p :: L).getD ((u :: us).idxOf x) [])).1.map fun l => x :: l) =
          us.filterMap fun x => (F (L.getD (us.idxOf x) [])).1.map fun l => x :: l := by
        apply List.filterMap_congr
        intro x hx
        have hne : u ≠ x := fun h => hus.1 (h ▸ hx)
        rw [List.idxOf_cons_ne _ hne, List.getD_cons_succ]
      simp only [linesOf, addLines]
      rw [ih hus.2 L (by simpa using hL), List.filterMap_cons, hc, List.idxOf_cons_self, List.getD_cons_zero]
      rcases (F p).1 with _ | x <;> rfl

section
variable {K : Type} [Field K] [LinearOrder K] [PyReal K] [IsStrictOrderedRing K]

theorem evUi_arr (F : Deal) {r : GRaw K} {f : Nat → List Nat} (us : List Nat) (hf : ∀ u ∈ us, Ord.evNr .bi u r = .ok (f u))
    (a : Draws) : evUi F us a r = .ok (linesOf F us (arr (us.map f) a)) := by
  induction us generalizing a with
  | nil => rfl
  | cons u us ih =>
    simp only [evUi, hf u List.mem_cons_self, bind, Except.bind, ih (fun x hx => hf x (List.mem_cons_of_mem _ hx)),
      List.map_cons, arr, linesOf]

theorem ui_law {Ω : Type} [MeasurableSpace Ω] {P : Measure Ω} [IsProbabilityMeasure P] {ω : Nat → Ω → Nat}
    {g : BSt K} {m n : Nat} (hg : BiGraph.Built Graph.NonNeg g) (hm : (BiGraph.ask .numU g).1 = .ok (.num m))
    (hn : (BiGraph.ask .numV g).1 = .ok (.num n)) (hx : Spec.Bipartite m n g) (h : Spec.UserDraws P g m ω) {F : Deal}
    {c : Nat → Nat} (hF : ∀ p, (F p).1.getD [] = p.take (c p.length)) {D : Draws → PyM (BSt K) (AdjList × AdjList)}
    (hD : ∀ a, (D a g).1 = evUi F (List.range g.raw.numU) a g.raw) {T : Nat → Finset Nat}
    (hT : Spec.Selects g m (fun k => min (c k) k) T) :
    P {s | ∃ tr te, (D (fun i => ω i s) g).1 = .ok (tr, te) ∧ ∀ u < m, (Spec.itemsOf tr u).toFinset = T u} =
      ∏ u ∈ range m, (((Spec.itemCount g u).choose (min (c (Spec.itemCount g u)) (Spec.itemCount g u)) : Nat) : ENNReal)⁻¹ := by
  have hn' := Props.Bi.numV_eq hn
  have hm' := Props.Bi.numU_eq hm
  subst hn' hm'
  have hex : ∀ u : Nat, ∃ l, u < g.raw.numU → Ord.evNr .bi u g.raw = .ok l ∧ l.Pairwise (· < ·) ∧
      ∀ v : Nat, v ∈ l ↔ ∃ w, (((u : Int), (v : Int)), w) ∈ Graph.lst g.raw := by
    intro u
    by_cases hu : u < g.raw.numU
    · obtain ⟨l, hl⟩ := Ord.nbr_row (c := .bi) (Props.Bi.fits hg hx) (v := u) hu
      exact ⟨l, fun _ => hl⟩
    · exact ⟨[], fun h => absurd h hu⟩
  choose f hf using hex
  have hmem : ∀ u < g.raw.numU, ∀ v : Nat, v ∈ f u ↔ Spec.HasItem g u v := by
    intro u hu v
    unfold Spec.HasItem
    rw [Props.Bi.listing_lst hg]
    exact (hf u hu).2.2 v
  have hnd : ∀ u < g.raw.numU, (f u).Nodup := fun u hu => (hf u hu).2.1.imp fun h => Nat.ne_of_lt h
  have hcount : ∀ u < g.raw.numU, Spec.itemCount g u = (f u).length := fun u hu =>
    ncard_eq_length (hnd u hu) fun v => (hmem u hu v).symm
  generalize g.raw.numU = m at *
  have hlen : ((List.range m).map f).length = m := by simp
  have hget : ∀ u < m, ((List.range m).map f).getD u [] = f u := by
    intro u hu
    rw [List.getD_eq_getElem _ _ (by simpa using hu)]
    simp
  have hnds : ∀ p ∈ (List.range m).map f, p.Nodup := by
    intro p hp
    obtain ⟨u, hu, rfl⟩ := List.mem_map.1 hp
    exact hnd u (List.mem_range.1 hu)
  have hsz : (List.range m).map (Spec.itemCount g) = ((List.range m).map f).map List.length := by
    rw [List.map_map]
    exact List.map_congr_left fun u hu => hcount u (List.mem_range.1 hu)
  unfold Spec.UserDraws at h
  rw [hsz] at h
  have key := firsts_law hnds h (c := c) (X := fun i => T i.1) (fun i => by
    have hi : i.1 < m := by simpa using i.2
    obtain ⟨t1, t2⟩ := hT i hi
    rw [hget _ hi]
    refine ⟨fun v hv => List.mem_toFinset.2 ((hmem _ hi v).2 (t1 v hv)), ?_⟩
    rw [t2, hcount _ hi])
  have hset : {s | ∃ tr te, (D (fun i => ω i s) g).1 = .ok (tr, te) ∧ ∀ u < m, (Spec.itemsOf tr u).toFinset = T u} =
      {s | firsts c ((List.range m).map f).length (arr ((List.range m).map f) fun i => ω i s) = fun i => T i.1} := by
    ext s
    simp only [Set.mem_ofPred_eq]
    rw [hD, evUi_arr F (List.range m) (fun u hu => (hf u (List.mem_range.1 hu)).1)]
    have hL := arr_mem ((List.range m).map f) fun i => ω i s
    generalize arr ((List.range m).map f) (fun i => ω i s) = L at hL
    rw [mem_fam_iff] at hL
    have hitems : ∀ u < m, Spec.itemsOf (linesOf F (List.range m) L).1 u = (L.getD u []).take (c (L.getD u []).length) := by
      intro u hu
      rw [linesOf_train F _ List.nodup_range L (by simpa using hL.1), itemsOf_filterMap _ List.nodup_range,
        if_pos (List.mem_range.2 hu), hF]
      have : (List.range m).idxOf u = u := by
        have := List.Nodup.idxOf_getElem (List.nodup_range (n := m)) u (by simpa using hu)
        simpa using this
      rw [this]
    constructor
    · rintro ⟨tr, te, e, hu⟩
      rw [Except.ok.injEq] at e
      funext i
      have hi : i.1 < m := by simpa using i.2
      rw [← hu i hi, ← show (linesOf F (List.range m) L).1 = tr by rw [e], hitems i hi]
      rfl
    · intro e
      refine ⟨_, _, rfl, fun u hu => ?_⟩
      rw [hitems u hu]
      exact congrFun e ⟨u, by simpa using hu⟩
  rw [hset, key, hlen]
  refine prod_congr rfl fun u hu => ?_
  rw [mem_range] at hu
  rw [hget u hu, hcount u hu]

end

end Law

open Utils

/-! ## C136 -/

section
variable {K : Type} [Field K] [LinearOrder K] [PyReal K] [IsStrictOrderedRing K]
variable {Ω : Type} [MeasurableSpace Ω] {P : Measure Ω} [IsProbabilityMeasure P] {ω : Nat → Ω → Nat}
variable {g : BSt K} {m n : Nat}

/-- C136. `split_by_num_for_UI_bigraph` selects the training items of each user uniformly from all selections of
`train_num` items (all items, if there are fewer), and independently of the other users. -/
theorem C136_split_by_num_UI (hg : BiGraph.Built Graph.NonNeg g) (hm : (BiGraph.ask .numU g).1 = .ok (.num m))
    (hn : (BiGraph.ask .numV g).1 = .ok (.num n)) (hx : Spec.Bipartite m n g) (h : Spec.UserDraws P g m ω) (t : Nat)
    {T : Nat → Finset Nat} (hT : Spec.Selects g m (fun k => min t k) T) :
    P {s | ∃ tr te, (splitByNumUI t (fun i => ω i s) g).1 = .ok (tr, te) ∧ ∀ u < m, (Spec.itemsOf tr u).toFinset = T u} =
      ∏ u ∈ Finset.range m, (((Spec.itemCount g u).choose (min t (Spec.itemCount g u)) : Nat) : ENNReal)⁻¹ := by
  refine Law.ui_law hg hm hn hx h (F := dealNum t) (c := fun _ => t) (fun p => ?_) (fun a => ?_) hT
  · unfold dealNum
    by_cases h0 : p.length = 0
    · rw [if_pos h0, List.length_eq_zero_iff.1 h0]; simp
    · rw [if_neg h0]
      by_cases h1 : (p.length : Int) ≤ t
      · rw [if_pos h1, List.take_of_length_le (by omega)]; rfl
      · rw [if_neg h1]; simp [slice_nonneg]
  · have hr : Ord.OReads (K := K) .bi (splitByNumUI t a) (fun r => evUi (dealNum t) (List.range r.numU) a r) := by
      unfold splitByNumUI
      exact (Reads.bind (Reads.readRaw _) fun n => reads_uiNum t (List.range n) a).congr fun _ => rfl
    exact (hr g hg.coh).1

/-- C136. `split_by_ratio_for_UI_bigraph` selects the training items of each user uniformly from all selections of the
requested share of the items, rounded down, and independently of the other users. -/
theorem C136_split_by_ratio_UI [FloorRing K] (hg : BiGraph.Built Graph.NonNeg g) (hm : (BiGraph.ask .numU g).1 = .ok (.num m))
    (hn : (BiGraph.ask .numV g).1 = .ok (.num n)) (hx : Spec.Bipartite m n g) (h : Spec.UserDraws P g m ω) {t : K}
    (ht : 0 ≤ t) (ht1 : t ≤ 1) {T : Nat → Finset Nat} (hT : Spec.Selects g m (fun k => ⌊(k : K) * t⌋₊) T) :
    P {s | ∃ tr te, (splitByRatioUI t (fun i => ω i s) g).1 = .ok (tr, te) ∧
        ∀ u < m, (Spec.itemsOf tr u).toFinset = T u} =
      ∏ u ∈ Finset.range m, (((Spec.itemCount g u).choose ⌊(Spec.itemCount g u : K) * t⌋₊ : Nat) : ENNReal)⁻¹ := by
  have hle : ∀ k : Nat, min ⌊(k : K) * t⌋₊ k = ⌊(k : K) * t⌋₊ := by
    intro k
    refine Nat.min_eq_left (Nat.floor_le_of_le ?_)
    have : (0 : K) ≤ k := Nat.cast_nonneg k
    nlinarith
  have := Law.ui_law hg hm hn hx h (F := dealRatio t) (c := fun k => ⌊(k : K) * t⌋₊) (fun p => ?_)
    (D := fun a => splitByRatioUI t a) (fun a => ?_) (T := T) (by simpa only [hle] using hT)
  · simpa only [hle] using this
  · unfold dealRatio
    have h3 : 0 ≤ (p.length : K) * t := mul_nonneg (Nat.cast_nonneg _) ht
    by_cases h0 : p.length = 0
    · rw [if_pos h0, List.length_eq_zero_iff.1 h0]; simp
    · rw [if_neg h0, truncInt_nonneg h3]; simp [slice_nonneg]
  · have hr : Ord.OReads (K := K) .bi (splitByRatioUI t a) (fun r => evUi (dealRatio t) (List.range r.numU) a r) := by
      unfold splitByRatioUI
      exact (Reads.bind (Reads.readRaw _) fun n => reads_uiRatio t (List.range n) a).congr fun _ => rfl
    exact (hr g hg.coh).1

/-- There are such draws, for all graphs. -/
theorem C136_draws_exist (g : BSt K) (m : Nat) :
    ∃ (P : Measure (Nat → Nat)) (ω : Nat → (Nat → Nat) → Nat), IsProbabilityMeasure P ∧ Spec.UserDraws P g m ω :=
  C134_draws_exist _ fun i => shuffleBounds_pos _ i

end

/-- user 0 has the item 2, user 1 has the items 0 and 1: one item for training is item 0 of user 1 with probability 1/2 -/
example : ∃ (P : Measure (Nat → Nat)) (ω : Nat → (Nat → Nat) → Nat), IsProbabilityMeasure P ∧
    P {s | ∃ tr te, (splitByNumUI (K := ℝ) (1 : Nat) (fun i => ω i s) exB).1 = .ok (tr, te) ∧
      ∀ u < 2, (Spec.itemsOf tr u).toFinset = if u = 0 then {2} else {0}} = (2 : ENNReal)⁻¹ := by
  obtain ⟨P, ω, hP, h⟩ := C136_draws_exist exB 2
  refine ⟨P, ω, hP, ?_⟩
  have h0 : ∀ v : Nat, Spec.HasItem exB 0 v ↔ v = 2 := by
    intro v
    unfold Spec.HasItem
    rw [exB_listing]
    simp only [List.mem_cons, Prod.mk.injEq, List.not_mem_nil]
    constructor
    · rintro ⟨w, ⟨⟨a, b⟩, -⟩ | ⟨⟨a, b⟩, -⟩ | ⟨⟨a, b⟩, -⟩ | h⟩
      · omega
      · omega
      · omega
      · exact h.elim
    · rintro rfl; exact ⟨3, by simp⟩
  have h1 : ∀ v : Nat, Spec.HasItem exB 1 v ↔ v = 0 ∨ v = 1 := by
    intro v
    unfold Spec.HasItem
    rw [exB_listing]
    simp only [List.mem_cons, Prod.mk.injEq, List.not_mem_nil]
    constructor
    · rintro ⟨w, ⟨⟨a, b⟩, -⟩ | ⟨⟨a, b⟩, -⟩ | ⟨⟨a, b⟩, -⟩ | h⟩
      · omega
      · omega
      · omega
      · exact h.elim
    · rintro (rfl | rfl)
      · exact ⟨2, by simp⟩
      · exact ⟨5, by simp⟩
  have c0 : Spec.itemCount exB 0 = 1 := ncard_eq_length (q := [2]) (by simp) fun v => by rw [h0]; simp
  have c1 : Spec.itemCount exB 1 = 2 := ncard_eq_length (q := [0, 1]) (by simp) fun v => by rw [h1]; simp
  rw [C136_split_by_num_UI exB_nonneg exB_numU exB_numV exB_flag h 1 (T := fun u => if u = 0 then {2} else {0})]
  · simp [Finset.prod_range_succ, c0, c1]
  · intro u hu
    rcases (by omega : u = 0 ∨ u = 1) with rfl | rfl
    · simp [h0, c0]
    · simp [h1, c1]

end Props
end DHG
