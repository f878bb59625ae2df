import Mathlib.Data.List.Sections
import Mathlib.Data.List.GetD
import Mathlib.Data.List.Flatten
import Mathlib.Data.List.Permutation
import Verif.Props.RandomUniform
import Verif.Props.UtilsSplit

/-!
# Every possible split is equally likely (C135)
-/

set_option linter.unusedSectionVars false
set_option autoImplicit false

open MeasureTheory ProbabilityTheory

namespace DHG

/-! ## Specification -/

namespace Spec

/-- Shuffling a list of length `n` chooses among `n`, then among `n - 1`, …, and at last among two things.  The numbers
for lists of lengths `ns`, shuffled one after the other. -/
def shuffleBounds : List Nat → List Nat
  | [] => []
  | n :: ns => ((List.range (n - 1)).map fun t : Nat => n - t) ++ shuffleBounds ns

/-- the sizes of the classes `0, 1, …`, or `1, 2, …` if 1 is the smallest label -/
def classSizes (labels : List Int) : List Nat :=
  (List.range labels.toFinset.card).map fun c : Nat =>
    labels.count ((c : Int) + if 1 ∈ labels ∧ ∀ x ∈ labels, 1 ≤ x then 1 else 0)

/-- the draws for shuffling the classes one after the other -/
def SplitDraws {Ω : Type} [MeasurableSpace Ω] (P : Measure Ω) (labels : List Int) (ω : Nat → Ω → Nat) : Prop :=
  UniformChoices P (fun i => (shuffleBounds (classSizes labels)).getD i 1) ω

end Spec

namespace Props
namespace Law

open Finset Utils

/-! ### Shuffling -/

theorem swapAt_get {α : Type} {l : List α} {p j : Nat} (hp : p < l.length) (hj : j < l.length) :
    (swapAt l p j)[p]? = l[j]? := by
  unfold swapAt
  rw [List.getElem?_eq_getElem hp, List.getElem?_eq_getElem hj]
  simp only
  by_cases h : j = p
  · subst h
    rw [List.getElem?_set_self (by simpa using hp)]
  · rw [List.getElem?_set_ne h, List.getElem?_set_self hp]

theorem swapAt_drop {α : Type} {l : List α} {p j m : Nat} (hp : p < m) (hj : j < m) :
    (swapAt l p j).drop m = l.drop m := by
  unfold swapAt
  split
  · rw [List.drop_set_of_lt hj, List.drop_set_of_lt hp]
  · rfl

theorem shuffleAux_drop {α : Type} (i : Nat) (l : List α) (a : Draws) :
    (shuffleAux i l a).1.drop (i + 1) = l.drop (i + 1) := by
  induction i generalizing l a with
  | zero => rfl
  | succ i ih =>
    have h := ih (swapAt l (i + 1) (a 0 % (i + 2))) a.tail
    have h' := congrArg (List.drop 1) h
    rw [List.drop_drop, List.drop_drop, swapAt_drop (by omega) (by have := Nat.mod_lt (a 0) (Nat.succ_pos (i + 1)); omega)] at h'
    exact h'

theorem shuffleAux_rest {α : Type} (i : Nat) (l : List α) (a : Draws) (t : Nat) : (shuffleAux i l a).2 t = a (i + t) := by
  induction i generalizing l a with
  | zero => simp [shuffleAux]
  | succ i ih =>
    show (shuffleAux i _ a.tail).2 t = _
    rw [ih]
    show a (i + t + 1) = _
    congr 1
    omega

theorem shuffleAux_residues {α : Type} (i : Nat) : ∀ l l' : List α, l.Nodup → i < l.length → l'.Perm l →
    l'.drop (i + 1) = l.drop (i + 1) →
    ∃ r : Nat → Nat, (∀ t < i, r t < i + 1 - t) ∧
      ∀ a : Draws, (shuffleAux i l a).1 = l' ↔ ∀ t < i, a t % (i + 1 - t) = r t := by
  induction i with
  | zero =>
    intro l l' hl hi hp hd
    have : l = l' := by
      cases l with
      | nil => cases hi
      | cons x xs =>
        cases l' with
        | nil => exact absurd hp.length_eq (by simp)
        | cons y ys =>
          simp only [List.drop_succ_cons, List.drop_zero] at hd
          subst hd
          have hy := hp.subset List.mem_cons_self
          have hnd := hp.nodup_iff.2 hl
          rw [List.nodup_cons] at hnd
          rcases List.mem_cons.1 hy with rfl | h
          · rfl
          · exact absurd h hnd.1
    subst this
    exact ⟨fun _ => 0, fun t ht => absurd ht (Nat.not_lt_zero _), fun a => ⟨fun _ t ht => absurd ht (Nat.not_lt_zero _),
      fun _ => rfl⟩⟩
  | succ i ih =>
    intro l l' hl hi hp hd
    have hlen := hp.length_eq
    have hi' : i + 1 < l'.length := by omega
    obtain ⟨j, hj, hy⟩ := List.getElem_of_mem (hp.subset (List.getElem_mem hi'))
    have hnd' := hp.nodup_iff.2 hl
    have hji : j < i + 2 := by
      by_contra hcon
      have h1 : l'[j]? = l[j]? := by
        have := congrArg (fun z => z[j - (i + 2)]?) hd
        simp only [List.getElem?_drop] at this
        rw [show i + 1 + 1 + (j - (i + 2)) = j by omega] at this
        exact this
      rw [List.getElem?_eq_getElem hj, hy, List.getElem?_eq_getElem (by omega : j < l'.length), Option.some.injEq] at h1
      have := (List.Nodup.getElem_inj_iff hnd').1 h1
      omega
    have hperm := swapAt_perm l (i + 1) j
    have hlen1 := hperm.length_eq
    have hdrop : ∀ m, m < i + 2 → (swapAt l (i + 1) m).drop (i + 1) = l'.drop (i + 1) → m = j := by
      intro m hm h
      have h1 := congrArg (fun z => z[0]?) h
      simp only [List.getElem?_drop, Nat.add_zero] at h1
      rw [swapAt_get hi (by omega), List.getElem?_eq_getElem (by omega : m < l.length), List.getElem?_eq_getElem hi',
        Option.some.injEq, ← hy] at h1
      exact (List.Nodup.getElem_inj_iff hl).1 h1
    obtain ⟨r, h1, h2⟩ := ih (swapAt l (i + 1) j) l' (hperm.nodup_iff.2 hl) (by omega) (hp.trans hperm.symm) (by
      rw [List.drop_eq_getElem_cons hi', List.drop_eq_getElem_cons (by omega : i + 1 < (swapAt l (i + 1) j).length)]
      congr 1
      · have h1 := swapAt_get hi hj
        rw [List.getElem?_eq_getElem (by omega), List.getElem?_eq_getElem hj, Option.some.injEq] at h1
        rw [h1, hy]
      · rw [swapAt_drop (by omega) hji]; exact hd)
    have hstep : ∀ a : Draws, (shuffleAux (i + 1) l a).1 = (shuffleAux i (swapAt l (i + 1) (a 0 % (i + 2))) a.tail).1 := fun a => rfl
    refine ⟨fun t => if t = 0 then j else r (t - 1), fun t ht => ?_, fun a => ?_⟩
    · rcases Nat.eq_zero_or_pos t with rfl | h0
      · simp only [if_true]; omega
      · have := h1 (t - 1) (by omega)
        simp only [if_neg h0.ne']
        omega
    · rw [hstep]
      constructor
      · intro h t ht
        have e4 : a 0 % (i + 2) = j := by
          refine hdrop _ (Nat.mod_lt _ (by omega)) ?_
          rw [← h, shuffleAux_drop]
        rcases Nat.eq_zero_or_pos t with rfl | ht0
        · simpa using e4
        · rw [e4] at h
          have := (h2 a.tail).1 h (t - 1) (by omega)
          simp only [if_neg ht0.ne']
          rw [← this]
          show _ = a (t - 1 + 1) % _
          rw [Nat.sub_add_cancel ht0]
          congr 1
          omega
      · intro ha
        have e4 : a 0 % (i + 2) = j := by simpa using ha 0 (by omega)
        rw [e4]
        refine (h2 a.tail).2 fun t ht => ?_
        have := ha (t + 1) (by omega)
        simp only [Nat.add_eq_zero_iff, one_ne_zero, and_false, if_false, Nat.add_sub_cancel] at this
        rw [← this]
        show a (t + 1) % _ = _
        congr 1
        omega

theorem shuffle_residues {α : Type} {l l' : List α} (hl : l.Nodup) (hp : l'.Perm l) :
    ∃ r : Nat → Nat, (∀ t < l.length - 1, r t < l.length - t) ∧
      ∀ a : Draws, (shuffle l a).1 = l' ↔ ∀ t < l.length - 1, a t % (l.length - t) = r t := by
  unfold shuffle
  rcases Nat.eq_zero_or_pos l.length with h0 | h0
  · rw [List.length_eq_zero_iff] at h0
    subst h0
    rw [List.perm_nil] at hp
    subst hp
    exact ⟨fun _ => 0, fun t ht => absurd ht (Nat.not_lt_zero _), fun a => ⟨fun _ t ht => absurd ht (Nat.not_lt_zero _),
      fun _ => rfl⟩⟩
  · have e : l.length - 1 + 1 = l.length := by omega
    have := shuffleAux_residues (l.length - 1) l l' hl (by omega) hp (by
      rw [e, List.drop_length, ← hp.length_eq, List.drop_length])
    rwa [e] at this

/-! ### Shuffling several lists -/

/-- the lists, shuffled one after the other -/
def arr : List (List Nat) → Draws → List (List Nat)
  | [], _ => []
  | p :: ps, a => (shuffle p a).1 :: arr ps (shuffle p a).2

theorem arr_residues (ps : List (List Nat)) : ∀ L : List (List Nat), (∀ p ∈ ps, p.Nodup) → List.Forall₂ List.Perm L ps →
    ∃ r : Nat → Nat, (∀ i < (Spec.shuffleBounds (ps.map List.length)).length,
        r i < (Spec.shuffleBounds (ps.map List.length)).getD i 1) ∧
      ∀ a, arr ps a = L ↔ ∀ i < (Spec.shuffleBounds (ps.map List.length)).length,
        a i % (Spec.shuffleBounds (ps.map List.length)).getD i 1 = r i := by
  induction ps with
  | nil =>
    intro L _ hL
    cases hL
    exact ⟨fun _ => 0, fun t ht => absurd ht (Nat.not_lt_zero _), fun a => ⟨fun _ t ht => absurd ht (Nat.not_lt_zero _),
      fun _ => rfl⟩⟩
  | cons p ps ih =>
    intro L hnd hL
    rcases hL with _ | ⟨hp, hL⟩
    rename_i q L
    obtain ⟨r1, h1, h2⟩ := shuffle_residues (hnd p List.mem_cons_self) hp
    obtain ⟨r2, h3, h4⟩ := ih L (fun x hx => hnd x (List.mem_cons_of_mem _ hx)) hL
    have hB : Spec.shuffleBounds ((p :: ps).map List.length) =
        ((List.range (p.length - 1)).map fun t : Nat => p.length - t) ++ Spec.shuffleBounds (ps.map List.length) := rfl
    generalize Spec.shuffleBounds (ps.map List.length) = B at h3 h4 hB
    rw [hB]
    have g1 : ∀ i < p.length - 1, (((List.range (p.length - 1)).map fun t : Nat => p.length - t) ++ B).getD i 1 = p.length - i := by
      intro i hi
      rw [List.getD_append _ _ _ _ (by simpa using hi), List.getD_eq_getElem _ _ (by simpa using hi)]
      simp
    have g2 : ∀ i, (((List.range (p.length - 1)).map fun t : Nat => p.length - t) ++ B).getD (p.length - 1 + i) 1 = B.getD i 1 := by
      intro i
      rw [List.getD_append_right _ _ _ _ (by simp)]
      simp
    have hlen : (((List.range (p.length - 1)).map fun t : Nat => p.length - t) ++ B).length = p.length - 1 + B.length := by simp
    rw [hlen]
    have hrest : ∀ a, (shuffle p a).2 = fun t => a (p.length - 1 + t) := fun a => funext fun t => shuffleAux_rest _ _ _ _
    refine ⟨fun i => if i < p.length - 1 then r1 i else r2 (i - (p.length - 1)), fun i hi => ?_, fun a => ?_⟩
    · by_cases h : i < p.length - 1
      · simp only [if_pos h]
        rw [g1 i h]; exact h1 i h
      · simp only [if_neg h]
        obtain ⟨k, rfl⟩ : ∃ k, i = p.length - 1 + k := ⟨i - (p.length - 1), by omega⟩
        rw [g2, Nat.add_sub_cancel_left]
        exact h3 k (by omega)
    · show _ :: _ = _ ↔ _
      rw [List.cons.injEq, h2, hrest, h4]
      constructor
      · rintro ⟨e1, e2⟩ i hi
        by_cases h : i < p.length - 1
        · simp only [if_pos h]
          rw [g1 i h]; exact e1 i h
        · simp only [if_neg h]
          obtain ⟨k, rfl⟩ : ∃ k, i = p.length - 1 + k := ⟨i - (p.length - 1), by omega⟩
          rw [g2, Nat.add_sub_cancel_left]
          exact e2 k (by omega)
      · intro h
        refine ⟨fun t ht => ?_, fun i hi => ?_⟩
        · have := h t (by omega)
          simp only [if_pos ht] at this
          rwa [g1 t ht] at this
        · have := h (p.length - 1 + i) (by omega)
          simp only [if_neg (by omega : ¬ p.length - 1 + i < p.length - 1)] at this
          rwa [g2, Nat.add_sub_cancel_left] at this

/-- all ways to arrange the lists -/
def fam (ps : List (List Nat)) : Finset (List (List Nat)) := (List.sections (ps.map List.permutations)).toFinset

theorem mem_fam {ps L : List (List Nat)} : L ∈ fam ps ↔ List.Forall₂ List.Perm L ps := by
  unfold fam
  rw [List.mem_toFinset, List.mem_sections, List.forall₂_map_right_iff]
  simp only [List.mem_permutations]

theorem arr_mem (ps : List (List Nat)) (a : Draws) : arr ps a ∈ fam ps := by
  rw [mem_fam]
  induction ps generalizing a with
  | nil => exact .nil
  | cons p ps ih => exact .cons (shuffle_perm _ _) (ih _)

theorem arr_onto {ps : List (List Nat)} (hnd : ∀ p ∈ ps, p.Nodup) {L : List (List Nat)} (h : L ∈ fam ps) :
    ∃ a, arr ps a = L := by
  obtain ⟨r, h1, h2⟩ := arr_residues ps L hnd (mem_fam.1 h)
  exact ⟨r, (h2 r).2 fun i hi => Nat.mod_eq_of_lt (h1 i hi)⟩

section Prob
variable {Ω : Type} [MeasurableSpace Ω] {P : Measure Ω} [IsProbabilityMeasure P] {ω : Nat → Ω → Nat}

theorem arr_atom {ps : List (List Nat)} (hnd : ∀ p ∈ ps, p.Nodup)
    (h : Spec.UniformChoices P (fun i => (Spec.shuffleBounds (ps.map List.length)).getD i 1) ω) {L : List (List Nat)}
    (hL : L ∈ fam ps) : MeasurableSet {s | arr ps (fun i => ω i s) = L} ∧ P {s | arr ps (fun i => ω i s) = L} =
      ∏ i ∈ range (Spec.shuffleBounds (ps.map List.length)).length,
        ((Spec.shuffleBounds (ps.map List.length)).getD i 1 : ENNReal)⁻¹ := by
  obtain ⟨r, h1, h2⟩ := arr_residues ps L hnd (mem_fam.1 hL)
  generalize Spec.shuffleBounds (ps.map List.length) = B at h h1 h2
  have hset : {s | arr ps (fun i => ω i s) = L} = ⋂ i ∈ range B.length, ω i ⁻¹' {a | a % B.getD i 1 = r i} := by
    ext s
    simp only [Set.mem_ofPred_eq, h2, Set.mem_iInter, mem_range, Set.mem_preimage]
  have hmeas : ∀ i, MeasurableSet {a : Nat | a % B.getD i 1 = r i} := fun i => trivial
  rw [hset]
  refine ⟨Finset.measurableSet_biInter _ fun i _ => h.measurable i (hmeas i), ?_⟩
  rw [h.indep.measure_inter_preimage_eq_mul _ fun i _ => hmeas i]
  exact prod_congr rfl fun i hi => h.law i (r i) (h1 i (mem_range.1 hi))

theorem arr_law {ps : List (List Nat)} (hnd : ∀ p ∈ ps, p.Nodup)
    (h : Spec.UniformChoices P (fun i => (Spec.shuffleBounds (ps.map List.length)).getD i 1) ω) {S : Finset (List (List Nat))}
    (hS : S ⊆ fam ps) : P {s | arr ps (fun i => ω i s) ∈ S} = S.card *
      ∏ i ∈ range (Spec.shuffleBounds (ps.map List.length)).length,
        ((Spec.shuffleBounds (ps.map List.length)).getD i 1 : ENNReal)⁻¹ := by
  have hset : {s | arr ps (fun i => ω i s) ∈ S} = ⋃ x ∈ S, {s | arr ps (fun i => ω i s) = x} := by
    ext s
    simp
  rw [hset, measure_biUnion_finset]
  · rw [sum_congr rfl fun x hx => (arr_atom hnd h (hS hx)).2, sum_const, nsmul_eq_mul]
  · intro x _ y _ hxy
    rw [Function.onFun, Set.disjoint_left]
    intro s hs hs'
    exact hxy (hs.symm.trans hs')
  · exact fun x hx => (arr_atom hnd h (hS hx)).1

/-- a function of the arrangement all of whose values are taken equally often is uniform -/
theorem arr_uniform {X : Type} {ps : List (List Nat)} (hnd : ∀ p ∈ ps, p.Nodup)
    (h : Spec.UniformChoices P (fun i => (Spec.shuffleBounds (ps.map List.length)).getD i 1) ω) {f : List (List Nat) → X}
    (hf : ∀ L ∈ fam ps, ∀ L' ∈ fam ps, ∃ τ : List (List Nat) → List (List Nat), Set.InjOn τ (fam ps) ∧
      ∀ M ∈ fam ps, τ M ∈ fam ps ∧ (f M = f L → f (τ M) = f L')) {x : X} (hx : ∃ a, f (arr ps a) = x) :
    P {s | f (arr ps fun i => ω i s) = x} = (Set.ncard {x | ∃ a, f (arr ps a) = x} : ENNReal)⁻¹ := by
  classical
  have him : {x | ∃ a, f (arr ps a) = x} = ((fam ps).image f : Finset X) := by
    ext y
    simp only [Set.mem_ofPred_eq, coe_image, Set.mem_image, mem_coe]
    constructor
    · rintro ⟨a, rfl⟩; exact ⟨_, arr_mem ps a, rfl⟩
    · rintro ⟨L, hL, rfl⟩
      obtain ⟨a, ha⟩ := arr_onto hnd hL
      exact ⟨a, by rw [ha]⟩
  rw [him, Set.ncard_coe_finset]
  have hle : ∀ L ∈ fam ps, ∀ L' ∈ fam ps, ((fam ps).filter fun M => f M = f L).card ≤ ((fam ps).filter fun M => f M = f L').card := by
    intro L hL L' hL'
    obtain ⟨τ, h1, h2⟩ := hf L hL L' hL'
    refine card_le_card_of_injOn τ (fun M hM => ?_) (fun M hM M' hM' e => ?_)
    · rw [mem_coe, mem_filter] at hM
      rw [mem_coe, mem_filter]
      exact ⟨(h2 M hM.1).1, (h2 M hM.1).2 hM.2⟩
    · rw [mem_coe, mem_filter] at hM hM'
      exact h1 hM.1 hM'.1 e
  obtain ⟨a, rfl⟩ := hx
  have hL0 := arr_mem ps a
  generalize arr ps a = L0 at hL0
  have hev : ∀ Q : List (List Nat) → Prop, {s | Q (arr ps fun i => ω i s)} = {s | (arr ps fun i => ω i s) ∈ (fam ps).filter Q} := by
    intro Q
    ext s
    simp only [Set.mem_ofPred_eq, mem_filter]
    exact ⟨fun hq => ⟨arr_mem _ _, hq⟩, And.right⟩
  rw [hev fun M => f M = f L0, arr_law hnd h (filter_subset _ _)]
  have hone := arr_law hnd h (Subset.refl (fam ps))
  have huniv : {s | (arr ps fun i => ω i s) ∈ fam ps} = Set.univ := Set.eq_univ_of_forall fun s => arr_mem _ _
  rw [huniv, measure_univ] at hone
  have hcard : (fam ps).card = ((fam ps).image f).card * ((fam ps).filter fun M => f M = f L0).card := by
    rw [card_eq_sum_card_image f (fam ps), sum_const_nat (m := ((fam ps).filter fun M => f M = f L0).card)]
    intro y hy
    obtain ⟨L, hL, rfl⟩ := mem_image.1 hy
    exact le_antisymm (hle L hL L0 hL0) (hle L0 hL0 L hL)
  refine ENNReal.eq_inv_of_mul_eq_one_left ?_
  rw [hone, hcard, Nat.cast_mul]
  ring

end Prob

/-! ### Renaming vertices -/

theorem exists_relabel {ps L L' : List (List Nat)} (hnd : ps.flatten.Nodup) (hL : L ∈ fam ps) (hL' : L' ∈ fam ps) :
    ∃ σ : Nat → Nat, Set.InjOn σ {v | v ∈ ps.flatten} ∧ L.map (List.map σ) = L' ∧
      ∀ M ∈ fam ps, M.map (List.map σ) ∈ fam ps := by
  rw [mem_fam] at hL hL'
  have hflat : ∀ {M N : List (List Nat)}, List.Forall₂ List.Perm M N → M.flatten.Perm N.flatten := by
    intro M N hM
    induction hM with
    | nil => exact .refl _
    | cons h _ ih => exact h.append ih
  have hlens : ∀ {M N : List (List Nat)}, List.Forall₂ List.Perm M N → M.map List.length = N.map List.length := by
    intro M N hM
    induction hM with
    | nil => rfl
    | cons h _ ih => rw [List.map_cons, List.map_cons, h.length_eq, ih]
  have hnL := (hflat hL).nodup_iff.2 hnd
  have hnL' := (hflat hL').nodup_iff.2 hnd
  have hlen : L.flatten.length = L'.flatten.length := (hflat hL).length_eq.trans (hflat hL').length_eq.symm
  have hσ : ∃ σ : Nat → Nat, L.flatten.map σ = L'.flatten := by
    refine ⟨fun v => L'.flatten.getD (L.flatten.idxOf v) 0, List.ext_getElem (by rw [List.length_map]; exact hlen) fun i h1 h2 => ?_⟩
    rw [List.getElem_map, List.Nodup.idxOf_getElem hnL, List.getD_eq_getElem]
  obtain ⟨σ, hσ⟩ := hσ
  have hmap : L.map (List.map σ) = L' := by
    rw [List.eq_iff_flatten_eq]
    refine ⟨by rw [← List.map_flatten, hσ], ?_⟩
    rw [hlens hL', ← hlens hL, List.map_map]
    exact List.map_congr_left fun x _ => by simp
  have hinj : Set.InjOn σ {v | v ∈ ps.flatten} := by
    intro x hx y hy e
    refine List.inj_on_of_nodup_map (f := σ) (l := L.flatten) (by rw [hσ]; exact hnL') ?_ ?_ e
    · exact (hflat hL).mem_iff.2 hx
    · exact (hflat hL).mem_iff.2 hy
  refine ⟨σ, hinj, hmap, fun M hM => ?_⟩
  rw [mem_fam] at hM ⊢
  have hps : List.Forall₂ (fun p q : List Nat => (p.map σ).Perm q) ps ps := by
    rw [← hmap] at hL'
    clear hM hflat hlens hnL hnL' hlen hσ hmap hinj hnd
    induction hL with
    | nil => exact .nil
    | cons h _ ih =>
      rw [List.map_cons] at hL'
      cases hL' with
      | cons h1 h2 => exact .cons ((h.map σ).symm.trans h1) (ih h2)
  clear hL hL' hflat hlens hnL hnL' hlen hσ hmap hinj hnd
  induction hM with
  | nil => exact .nil
  | cons h _ ih =>
    cases hps with
    | cons h1 h2 => exact .cons ((h.map σ).trans h1) (ih h2)

/-! ### The masks as a function of the arrangement -/

/-- the three selections from the arranged classes -/
def picks (cuts : Nat → Cuts) (L : List (List Nat)) : List Nat × List Nat × List Nat :=
  (L.flatMap fun p => slice p 0 (cuts p.length).train,
   L.flatMap fun p => slice p (cuts p.length).train ((cuts p.length).train + (cuts p.length).val),
   L.flatMap fun p => match (cuts p.length).test with
      | some t => slice p ((cuts p.length).train + (cuts p.length).val) ((cuts p.length).train + (cuts p.length).val + t)
      | none => sliceFrom p ((cuts p.length).train + (cuts p.length).val))

theorem splitLoop_arr (cuts : Nat → Cuts) (l : List Int) (cs : List Nat) (a : Draws) :
    splitLoop cuts l cs a = picks cuts (arr (cs.map fun c : Nat => whereEq l c) a) := by
  induction cs generalizing a with
  | nil => rfl
  | cons c cs ih =>
    simp only [splitLoop, ih, List.map_cons, arr]
    rfl

theorem slice_map {σ : Nat → Nat} (p : List Nat) (x y : Int) : slice (p.map σ) x y = (slice p x y).map σ := by
  unfold slice
  rw [List.length_map, List.map_drop, List.map_take]

theorem sliceFrom_map {σ : Nat → Nat} (p : List Nat) (x : Int) : sliceFrom (p.map σ) x = (sliceFrom p x).map σ := by
  unfold sliceFrom
  rw [List.length_map, List.map_drop]

theorem picks_map (cuts : Nat → Cuts) (σ : Nat → Nat) (L : List (List Nat)) : picks cuts (L.map (List.map σ)) =
    ((picks cuts L).1.map σ, (picks cuts L).2.1.map σ, (picks cuts L).2.2.map σ) := by
  unfold picks
  simp only [List.flatMap_map, List.map_flatMap, List.length_map, slice_map, sliceFrom_map]
  refine Prod.ext rfl (Prod.ext rfl ?_)
  refine congrArg (fun g => List.flatMap g L) (funext fun p => ?_)
  split <;> simp [*]

theorem mem_slice {p : List Nat} {x y : Int} {v : Nat} (h : v ∈ slice p x y) : v ∈ p :=
  List.mem_of_mem_take (List.mem_of_mem_drop h)

theorem mem_picks {cuts : Nat → Cuts} {L : List (List Nat)} {v : Nat} (h : v ∈ (picks cuts L).1 ∨ v ∈ (picks cuts L).2.1 ∨
    v ∈ (picks cuts L).2.2) : v ∈ L.flatten := by
  unfold picks at h
  simp only [List.mem_flatMap] at h
  rw [List.mem_flatten]
  rcases h with ⟨p, hp, hv⟩ | ⟨p, hp, hv⟩ | ⟨p, hp, hv⟩
  · exact ⟨p, hp, mem_slice hv⟩
  · exact ⟨p, hp, mem_slice hv⟩
  · refine ⟨p, hp, ?_⟩
    split at hv
    · exact mem_slice hv
    · exact List.mem_of_mem_drop hv

/-- the mask of a list -/
def mk (n : Nat) (A : List Nat) : List Bool := (List.range n).map fun v => decide (v ∈ A)

theorem mk_inj {n : Nat} {A A' : List Nat} (hA : ∀ i ∈ A, i < n) (hA' : ∀ i ∈ A', i < n) :
    mk n A = mk n A' ↔ ∀ i, i ∈ A ↔ i ∈ A' := by
  unfold mk
  rw [List.map_inj_left]
  simp only [List.mem_range, decide_eq_decide]
  exact ⟨fun h i => ⟨fun hi => (h i (hA i hi)).1 hi, fun hi => (h i (hA' i hi)).2 hi⟩, fun h i _ => h i⟩

/-- the masks for an arrangement -/
def masksOf (cuts : Nat → Cuts) (n : Nat) (b : Bool) (L : List (List Nat)) : Masks :=
  if b then .three (mk n (picks cuts L).1) (mk n (picks cuts L).2.1) (mk n (picks cuts L).2.2)
  else .two (mk n (picks cuts L).1) (mk n (picks cuts L).2.2)

theorem masksOf_map {cuts : Nat → Cuts} {n : Nat} {b : Bool} {L M : List (List Nat)} (σ : Nat → Nat)
    (h1 : ∀ v ∈ L.flatten, v < n) (h2 : ∀ v ∈ M.flatten, v < n)
    (h : masksOf cuts n b M = masksOf cuts n b L) :
    masksOf cuts n b (M.map (List.map σ)) = masksOf cuts n b (L.map (List.map σ)) := by
  have key : ∀ A A' : List Nat, (∀ v ∈ A, v ∈ M.flatten) → (∀ v ∈ A', v ∈ L.flatten) → mk n A = mk n A' →
      mk n (A.map σ) = mk n (A'.map σ) := by
    intro A A' hA hA' e
    rw [mk_inj (fun i hi => h2 i (hA i hi)) (fun i hi => h1 i (hA' i hi))] at e
    unfold mk
    refine List.map_congr_left fun i _ => ?_
    simp only [List.mem_map, e]
  unfold masksOf at h ⊢
  rw [picks_map, picks_map]
  cases b
  · simp only [Bool.false_eq_true, if_false, Masks.two.injEq] at h ⊢
    exact ⟨key _ _ (fun v hv => mem_picks (.inl hv)) (fun v hv => mem_picks (.inl hv)) h.1,
      key _ _ (fun v hv => mem_picks (.inr (.inr hv))) (fun v hv => mem_picks (.inr (.inr hv))) h.2⟩
  · simp only [if_true, Masks.three.injEq] at h ⊢
    exact ⟨key _ _ (fun v hv => mem_picks (.inl hv)) (fun v hv => mem_picks (.inl hv)) h.1,
      key _ _ (fun v hv => mem_picks (.inr (.inl hv))) (fun v hv => mem_picks (.inr (.inl hv))) h.2.1,
      key _ _ (fun v hv => mem_picks (.inr (.inr hv))) (fun v hv => mem_picks (.inr (.inr hv))) h.2.2⟩

theorem classes_nodup (l : List Int) {cs : List Nat} (hcs : cs.Nodup) : (cs.map fun c : Nat => whereEq l c).flatten.Nodup := by
  rw [List.nodup_flatten]
  constructor
  · intro p hp
    obtain ⟨c, -, rfl⟩ := List.mem_map.1 hp
    exact nodup_whereEq _ _
  · rw [List.pairwise_map]
    refine hcs.imp fun {c c'} hne => ?_
    intro v hv hv'
    rw [mem_whereEq] at hv hv'
    rw [hv, Option.some.injEq, Nat.cast_inj] at hv'
    exact hne hv'

theorem fam_flatten {ps M : List (List Nat)} (h : M ∈ fam ps) {v : Nat} (hv : v ∈ M.flatten) : v ∈ ps.flatten := by
  rw [mem_fam] at h
  induction h with
  | nil => exact hv
  | cons h _ ih =>
    rw [List.flatten_cons, List.mem_append] at hv ⊢
    exact hv.imp h.mem_iff.1 ih

theorem classes_lt {l : List Int} {cs : List Nat} {M : List (List Nat)} (hM : M ∈ fam (cs.map fun c : Nat => whereEq l c)) :
    ∀ v ∈ M.flatten, v < l.length := by
  intro v hv
  have := fam_flatten hM hv
  simp only [List.mem_flatten, List.mem_map] at this
  obtain ⟨_, ⟨c, -, rfl⟩, hv⟩ := this
  rw [mem_whereEq] at hv
  exact (List.getElem?_eq_some_iff.1 hv).1

theorem idx2mask_masksOf {cuts : Nat → Cuts} {n : Nat} {b : Bool} {L : List (List Nat)} (h : ∀ v ∈ L.flatten, v < n) :
    idx2mask n (picks cuts L).1 (picks cuts L).2.2 (if b then some (picks cuts L).2.1 else none) = .ok (masksOf cuts n b L) := by
  have h1 : maskOf n (picks cuts L).1 = .ok (mk n (picks cuts L).1) := if_pos fun i hi => h i (mem_picks (.inl hi))
  have h2 : maskOf n (picks cuts L).2.1 = .ok (mk n (picks cuts L).2.1) := if_pos fun i hi => h i (mem_picks (.inr (.inl hi)))
  have h3 : maskOf n (picks cuts L).2.2 = .ok (mk n (picks cuts L).2.2) := if_pos fun i hi => h i (mem_picks (.inr (.inr hi)))
  unfold idx2mask masksOf
  rw [h1, h3]
  cases b
  · rfl
  · simp only [bind, Except.bind, if_true, h2]

theorem classes_length {labels : List Int} {b : Int} (hb1 : b = 0 ∨ b = 1)
    (hb2 : b = 1 ↔ 1 ∈ labels ∧ ∀ x ∈ labels, 1 ≤ x) :
    ((List.range (numClasses (labels.map (· - b)))).map fun c : Nat => whereEq (labels.map (· - b)) c).map List.length =
      Spec.classSizes labels := by
  have hb : b = if 1 ∈ labels ∧ ∀ x ∈ labels, 1 ≤ x then 1 else 0 := by
    split
    · rename_i h; exact hb2.2 h
    · rename_i h; exact hb1.resolve_right fun e => h (hb2.1 e)
  have hinj : Function.Injective fun x : Int => x - b := fun x y h => by simpa using h
  have hc : numClasses (labels.map (· - b)) = labels.toFinset.card := by
    unfold numClasses
    rw [← List.card_toFinset, ← Finset.card_image_of_injective labels.toFinset hinj]
    congr 1
    ext x
    simp
  unfold Spec.classSizes
  rw [hc, List.map_map, ← hb]
  refine List.map_congr_left fun c _ => ?_
  show (whereEq _ _).length = _
  rw [length_whereEq]
  have := List.count_map_of_injective labels _ hinj ((c : Int) + b)
  simpa using this

/-- uniformity for every function that shuffles the classes and cuts them -/
theorem split_law {Ω : Type} [MeasurableSpace Ω] {P : Measure Ω} [IsProbabilityMeasure P] {ω : Nat → Ω → Nat}
    {labels : List Int} (h : Spec.SplitDraws P labels ω) {n : Nat} (hn : labels.length ≤ n) {cuts : Nat → Cuts} {b : Bool}
    {F : Draws → Except Err Masks}
    (hF : ∀ l, prepLabels labels = .ok l → ∀ a, F a = idx2mask n (splitLoop cuts l (List.range (numClasses l)) a).1
      (splitLoop cuts l (List.range (numClasses l)) a).2.2
      (if b then some (splitLoop cuts l (List.range (numClasses l)) a).2.1 else none))
    (h2 : 2 ≤ labels.length) {ms : Masks} (hms : ∃ a, F a = .ok ms) :
    P {s | F (fun i => ω i s) = .ok ms} = (Set.ncard {ms | ∃ a, F a = .ok ms} : ENNReal)⁻¹ := by
  obtain ⟨b', hb, hb1, hb2⟩ := prepLabels_cases labels h2
  have hsz := classes_length hb1 hb2
  have hl : (labels.map (· - b')).length ≤ n := by simpa using hn
  have hF' := hF _ hb
  generalize labels.map (· - b') = l at hsz hF' hl
  have hnd := classes_nodup l (List.nodup_range (n := numClasses l))
  have hlt : ∀ M ∈ fam ((List.range (numClasses l)).map fun c : Nat => whereEq l c), ∀ v ∈ M.flatten, v < n :=
    fun M hM v hv => (classes_lt hM v hv).trans_le hl
  have hFm : ∀ a, F a = .ok (masksOf cuts n b (arr ((List.range (numClasses l)).map fun c : Nat => whereEq l c) a)) := by
    intro a
    rw [hF', splitLoop_arr]
    exact idx2mask_masksOf (hlt _ (arr_mem _ _))
  unfold Spec.SplitDraws at h
  rw [← hsz] at h
  generalize ((List.range (numClasses l)).map fun c : Nat => whereEq l c) = ps at h hnd hlt hFm
  simp only [hFm, Except.ok.injEq] at hms ⊢
  refine arr_uniform (List.nodup_flatten.1 hnd).1 h (fun L hL L' hL' => ?_) hms
  obtain ⟨σ, h1, h3, h4⟩ := exists_relabel hnd hL hL'
  refine ⟨fun M => M.map (List.map σ), fun M hM M' hM' e => ?_, fun M hM => ⟨h4 M hM, fun e => ?_⟩⟩
  · have hg : ∀ N ∈ fam ps, (N.map (List.map σ)).map (List.map (Function.invFunOn σ {v | v ∈ ps.flatten})) = N := by
      intro N hN
      rw [List.map_map]
      conv_rhs => rw [← List.map_id N]
      refine List.map_congr_left fun p hp => ?_
      show (p.map σ).map _ = p
      rw [List.map_map]
      conv_rhs => rw [← List.map_id p]
      exact List.map_congr_left fun v hv => h1.leftInvOn_invFunOn (fam_flatten hN (List.mem_flatten.2 ⟨p, hp, hv⟩))
    have := congrArg (List.map (List.map (Function.invFunOn σ {v | v ∈ ps.flatten}))) e
    rwa [hg M hM, hg M' hM'] at this
  · rw [← h3]
    exact masksOf_map σ (hlt L hL) (hlt M hM) e

/-! ### Which splits are possible -/

theorem take_mid {α : Type} {X R : List α} {m : Nat} (h : X.length = min m (X.length + R.length)) : (X ++ R).take m = X := by
  rw [List.take_append, List.take_of_length_le (by omega)]
  have : R.take (m - X.length) = [] := by
    rw [List.take_eq_nil_iff]
    by_cases h0 : m ≤ X.length
    · exact .inl (by omega)
    · exact .inr (List.length_eq_zero_iff.1 (by omega))
  rw [this, List.append_nil]

theorem drop_mid {α : Type} {X R : List α} {m : Nat} (h : X.length = min m (X.length + R.length)) : (X ++ R).drop m = R := by
  rw [List.drop_append, List.drop_of_length_le (by omega), List.nil_append]
  by_cases h0 : m ≤ X.length
  · rw [show m - X.length = 0 by omega, List.drop_zero]
  · have : R = [] := List.length_eq_zero_iff.1 (by omega)
    rw [this, List.drop_nil]

/-- a class can be arranged such that given parts of the right sizes are cut out -/
theorem arrange {p : List Nat} (hp : p.Nodup) {T V E : Nat → Prop} (hTV : ∀ v, ¬ (T v ∧ V v)) (hTE : ∀ v, ¬ (T v ∧ E v))
    (hVE : ∀ v, ¬ (V v ∧ E v)) {k : Cuts} (hk : k.NonNeg)
    (cT : Set.ncard {v | v ∈ p ∧ T v} = min k.train.toNat p.length)
    (cV : Set.ncard {v | v ∈ p ∧ V v} = min k.val.toNat (p.length - k.train.toNat))
    (cE : Set.ncard {v | v ∈ p ∧ E v} = match k.test.map Int.toNat with
      | some t => min t (p.length - k.train.toNat - k.val.toNat)
      | none => p.length - k.train.toNat - k.val.toNat) :
    ∃ q : List Nat, q.Perm p ∧ (∀ v, v ∈ slice q 0 k.train ↔ v ∈ p ∧ T v) ∧
      (∀ v, v ∈ slice q k.train (k.train + k.val) ↔ v ∈ p ∧ V v) ∧ (∀ v, v ∈ testSlice q k ↔ v ∈ p ∧ E v) := by
  classical
  have hf : ∀ Q : Nat → Prop, Set.ncard {v | v ∈ p ∧ Q v} = (p.filter fun v => decide (Q v)).length :=
    fun Q => ncard_eq_length (hp.filter _) fun v => by simp
  have hmem : ∀ (Q : Nat → Prop) (v : Nat), (v ∈ p.filter fun v => decide (Q v)) ↔ v ∈ p ∧ Q v := fun Q v => by simp
  have hnd : ∀ Q : Nat → Prop, (p.filter fun v => decide (Q v)).Nodup := fun Q => hp.filter _
  rw [hf] at cT cV cE
  obtain ⟨R, hR⟩ : ∃ R : Nat → Prop, ∀ v, R v ↔ ¬ T v ∧ ¬ V v ∧ ¬ E v := ⟨_, fun _ => Iff.rfl⟩
  have hperm : ((p.filter fun v => decide (T v)) ++ ((p.filter fun v => decide (V v)) ++ ((p.filter fun v => decide (E v)) ++
      (p.filter fun v => decide (R v))))).Perm p := by
    rw [List.perm_ext_iff_of_nodup ?_ hp]
    · intro v
      simp only [List.mem_append, hmem]
      constructor
      · rintro (h | h | h | h) <;> exact h.1
      · intro h
        by_cases h1 : T v
        · exact .inl ⟨h, h1⟩
        by_cases h2 : V v
        · exact .inr (.inl ⟨h, h2⟩)
        by_cases h3 : E v
        · exact .inr (.inr (.inl ⟨h, h3⟩))
        exact .inr (.inr (.inr ⟨h, (hR v).2 ⟨h1, h2, h3⟩⟩))
    · rw [List.nodup_append', List.nodup_append', List.nodup_append']
      refine ⟨hnd _, ⟨hnd _, ⟨hnd _, hnd _, ?_⟩, ?_⟩, ?_⟩
      · intro v h1 h2
        rw [hmem] at h1 h2
        exact ((hR v).1 h2.2).2.2 h1.2
      · intro v h1 h2
        rw [List.mem_append, hmem, hmem] at h2
        rw [hmem] at h1
        rcases h2 with h2 | h2
        · exact hVE v ⟨h1.2, h2.2⟩
        · exact ((hR v).1 h2.2).2.1 h1.2
      · intro v h1 h2
        rw [List.mem_append, List.mem_append, hmem, hmem, hmem] at h2
        rw [hmem] at h1
        rcases h2 with h2 | h2 | h2
        · exact hTV v ⟨h1.2, h2.2⟩
        · exact hTE v ⟨h1.2, h2.2⟩
        · exact ((hR v).1 h2.2).1 h1.2
  refine ⟨_, hperm, ?_⟩
  have hlen := hperm.length_eq
  simp only [List.length_append] at hlen
  rw [trainSlice hk, valSlice hk, testSlice_nonneg hk]
  have eT := hmem T
  have eV := hmem V
  have eE := hmem E
  generalize (p.filter fun v => decide (T v)) = A at *
  generalize (p.filter fun v => decide (V v)) = B at *
  generalize (p.filter fun v => decide (E v)) = C at *
  generalize (p.filter fun v => decide (R v)) = D at *
  generalize k.train.toNat = t at *
  generalize k.val.toNat = w at *
  have e2 : ((A ++ (B ++ (C ++ D))).take (t + w)).drop t = B := by
    rw [← List.append_assoc, take_mid (by simp only [List.length_append]; omega),
      drop_mid (by omega)]
  refine ⟨fun v => ?_, fun v => ?_, fun v => ?_⟩
  · rw [take_mid (by simp only [List.length_append]; omega)]
    exact eT v
  · rw [e2]; exact eV v
  · rw [← eE]
    rcases hkt : k.test with _ | x
    · rw [hkt] at cE
      simp only [Option.map_none] at cE ⊢
      replace cE : C.length = p.length - (t + w) := by rw [cE, Nat.sub_sub]
      have hD : D = [] := List.length_eq_zero_iff.1 (by omega)
      rw [hD, List.append_nil, ← List.append_assoc, drop_mid (by simp only [List.length_append]; omega)]
    · rw [hkt] at cE
      simp only [Option.map_some] at cE ⊢
      replace cE : C.length = min x.toNat (p.length - (t + w)) := by rw [cE, Nat.sub_sub]
      rw [← List.append_assoc, ← List.append_assoc, take_mid (by simp only [List.length_append]; omega),
        drop_mid (by simp only [List.length_append]; omega)]

theorem mk_eq {n : Nat} {m : List Bool} (hm : m.length = n) {A : List Nat} (h : ∀ v, v ∈ A ↔ Spec.On m v) : mk n A = m := by
  unfold mk
  refine List.ext_getElem (by simp [hm]) fun i h1 h2 => ?_
  rw [List.getElem_map, List.getElem_range]
  have := h i
  unfold Spec.On at this
  rw [List.getElem?_eq_getElem h2, Option.some.injEq] at this
  rw [Bool.eq_iff_iff, decide_eq_true_iff, this]

end Law

open Utils

/-- the split respects the requested numbers: it has masks of the right form, and from a class of `k` vertices `tr k`
vertices are selected for training (or all, if there are fewer), `va k` of the remaining ones for validation, and
`te k` of what then remains for testing (all, if `te k` is `none`) -/
def Spec.ExactSplit (n : Nat) (labels : List Int) (hasVal : Bool) (tr va : Nat → Nat) (te : Nat → Option Nat) (ms : Masks) :
    Prop :=
  Spec.MasksDisjoint n labels hasVal ms ∧ ∀ c ∈ labels,
    Spec.inClass labels c (Spec.On (Spec.train ms)) = min (tr (labels.count c)) (labels.count c) ∧
    Spec.inClass labels c (Spec.OnVal ms) = min (va (labels.count c)) (labels.count c - tr (labels.count c)) ∧
    Spec.inClass labels c (Spec.On (Spec.test ms)) = match te (labels.count c) with
      | some q => min q (labels.count c - tr (labels.count c) - va (labels.count c))
      | none => labels.count c - tr (labels.count c) - va (labels.count c)

namespace Law

theorem exact_iff {labels : List Int} {n : Nat} (hn : labels.length ≤ n) {cuts : Nat → Cuts} (hk : ∀ m, (cuts m).NonNeg)
    {hv : Bool} (hv0 : hv = false → ∀ m, (cuts m).val = 0) {F : Draws → Except Err Masks}
    (hF : ∀ l, prepLabels labels = .ok l → ∀ a, F a = idx2mask n (splitLoop cuts l (List.range (numClasses l)) a).1
      (splitLoop cuts l (List.range (numClasses l)) a).2.2
      (if hv then some (splitLoop cuts l (List.range (numClasses l)) a).2.1 else none))
    (h2 : 2 ≤ labels.length) (hc : Spec.Contiguous labels) (ms : Masks) :
    (∃ a, F a = .ok ms) ↔ Spec.ExactSplit n labels hv (fun k => (cuts k).train.toNat) (fun k => (cuts k).val.toNat)
      (fun k => (cuts k).test.map Int.toNat) ms := by
  obtain ⟨b, hb, hb1, hb2⟩ := prepLabels_cases labels h2
  have hF' := hF _ hb
  obtain ⟨b', hb', k, hkl⟩ := hc
  obtain rfl : b = b' := shift_contig hb' (by rintro rfl; simp at h2) hkl hb1 hb2
  rw [numClasses_contig hkl] at hF'
  constructor
  · rintro ⟨a, ha⟩
    obtain ⟨ms', h1, h4⟩ := split_core cuts hk n (labels.map (· - b)) (by simpa using hn) k hv a
    rw [hF', h1, Except.ok.injEq] at ha
    subst ha
    refine ⟨disjoint_of h4 (by simp), fun c hcm => ?_⟩
    have hck := (hkl c).1 hcm
    have hlt : (c - b).toNat < k := by omega
    have hcast : (((c - b).toNat : Nat) : Int) = c - b := by omega
    have e1 := h4.train _ hlt
    have e2 := h4.test _ hlt
    rw [hcast, inClass_shift, count_shift] at e1 e2
    refine ⟨e1, ?_, ?_⟩
    · beta_reduce
      cases hvb : hv
      · rw [hv0 hvb, Int.toNat_zero, Nat.zero_min]
        unfold Spec.inClass
        convert Set.ncard_empty Nat
        ext x
        simp only [Set.mem_ofPred_eq, Set.mem_empty_iff_false, iff_false, not_and]
        rintro - ⟨m, hm, -⟩
        have := h4.hasVal
        rw [hm, hvb] at this
        simp at this
      · have e3 := h4.val hvb _ hlt
        rw [hcast, inClass_shift, count_shift] at e3
        exact e3
    · rw [e2]
      beta_reduce
      rcases (cuts (labels.count c)).test with _ | x <;> rfl
  · rintro ⟨⟨l1, l2, l3, l4, l5, d1, d2, d3⟩, hcnt⟩
    have harr : ∀ c : Nat, ∃ q : List Nat, c < k → q.Perm (whereEq (labels.map (· - b)) c) ∧
        (∀ v, v ∈ slice q 0 (cuts q.length).train ↔ v ∈ whereEq (labels.map (· - b)) c ∧ Spec.On (Spec.train ms) v) ∧
        (∀ v, v ∈ slice q (cuts q.length).train ((cuts q.length).train + (cuts q.length).val) ↔
          v ∈ whereEq (labels.map (· - b)) c ∧ Spec.OnVal ms v) ∧
        (∀ v, v ∈ testSlice q (cuts q.length) ↔ v ∈ whereEq (labels.map (· - b)) c ∧ Spec.On (Spec.test ms) v) := by
      intro c
      by_cases hck : c < k
      · have hcm : (c : Int) + b ∈ labels := (hkl _).2 (by omega)
        obtain ⟨e1, e2, e3⟩ := hcnt _ hcm
        have hw : (whereEq (labels.map (· - b)) c).length = labels.count ((c : Int) + b) := by
          have := count_shift labels b ((c : Int) + b)
          rw [length_whereEq, ← this, add_sub_cancel_right]
        have hcl : ∀ Q : Nat → Prop, Spec.inClass labels ((c : Int) + b) Q =
            Set.ncard {v | v ∈ whereEq (labels.map (· - b)) c ∧ Q v} := by
          intro Q
          rw [← inClass_shift labels b, add_sub_cancel_right]
          unfold Spec.inClass
          simp only [mem_whereEq]
        rw [hcl, ← hw] at e1 e2 e3
        obtain ⟨q, h1, h3, h4, h5⟩ := arrange (nodup_whereEq _ _) d2 d1 d3 (hk _) e1 e2 e3
        refine ⟨q, fun _ => ⟨h1, ?_⟩⟩
        rw [h1.length_eq]
        exact ⟨h3, h4, h5⟩
      · exact ⟨[], fun h => absurd h hck⟩
    choose q hq using harr
    have hfam : (List.range k).map q ∈ fam ((List.range k).map fun c : Nat => whereEq (labels.map (· - b)) c) := by
      rw [mem_fam, List.forall₂_map_left_iff, List.forall₂_map_right_iff, List.forall₂_same]
      exact fun c hc' => (hq c (List.mem_range.1 hc')).1
    obtain ⟨a, ha⟩ := arr_onto (List.nodup_flatten.1 (classes_nodup _ List.nodup_range)).1 hfam
    refine ⟨a, ?_⟩
    rw [hF', splitLoop_arr, ha, idx2mask_masksOf (fun v hv' => (classes_lt hfam v hv').trans_le (by simpa using hn))]
    have hcls : ∀ v, v < labels.length → ∃ c < k, v ∈ whereEq (labels.map (· - b)) (c : Nat) := by
      intro v hv'
      have hm := (hkl labels[v]).1 (List.getElem_mem hv')
      refine ⟨(labels[v] - b).toNat, by omega, ?_⟩
      rw [mem_whereEq, List.getElem?_map, List.getElem?_eq_getElem hv']
      simp only [Option.map_some, Option.some.injEq]
      omega
    have pT : ∀ v, v ∈ (picks cuts ((List.range k).map q)).1 ↔ Spec.On (Spec.train ms) v := by
      intro v
      unfold picks
      simp only [List.flatMap_map, List.mem_flatMap, List.mem_range]
      constructor
      · rintro ⟨c, hck, hv'⟩; exact (((hq c hck).2.1 v).1 hv').2
      · intro h
        obtain ⟨c, hck, hv'⟩ := hcls v (l5 v (.inl h))
        exact ⟨c, hck, ((hq c hck).2.1 v).2 ⟨hv', h⟩⟩
    have pV : ∀ v, v ∈ (picks cuts ((List.range k).map q)).2.1 ↔ Spec.OnVal ms v := by
      intro v
      unfold picks
      simp only [List.flatMap_map, List.mem_flatMap, List.mem_range]
      constructor
      · rintro ⟨c, hck, hv'⟩; exact (((hq c hck).2.2.1 v).1 hv').2
      · intro h
        obtain ⟨c, hck, hv'⟩ := hcls v (l5 v (.inr (.inr h)))
        exact ⟨c, hck, ((hq c hck).2.2.1 v).2 ⟨hv', h⟩⟩
    have pE : ∀ v, v ∈ (picks cuts ((List.range k).map q)).2.2 ↔ Spec.On (Spec.test ms) v := by
      intro v
      show v ∈ ((List.range k).map q).flatMap (fun p => testSlice p (cuts p.length)) ↔ _
      simp only [List.flatMap_map, List.mem_flatMap, List.mem_range]
      constructor
      · rintro ⟨c, hck, hv'⟩; exact (((hq c hck).2.2.2 v).1 hv').2
      · intro h
        obtain ⟨c, hck, hv'⟩ := hcls v (l5 v (.inr (.inl h)))
        exact ⟨c, hck, ((hq c hck).2.2.2 v).2 ⟨hv', h⟩⟩
    congr 1
    unfold masksOf
    rw [mk_eq l1 pT, mk_eq l2 pE]
    rcases ms with ⟨x, y⟩ | ⟨x, z, y⟩
    · cases l4
      rfl
    · cases l4
      have : mk n (picks cuts ((List.range k).map q)).2.1 = z := by
        refine mk_eq (l3 z rfl) fun v => ?_
        rw [pV]
        unfold Spec.OnVal
        simp [Spec.val?]
      simp only [if_true, Spec.val?, Option.isSome_some]
      rw [this]
      rfl

end Law

/-! ## C135 -/

section
variable {Ω : Type} [MeasurableSpace Ω] {P : Measure Ω} [IsProbabilityMeasure P] {ω : Nat → Ω → Nat} {labels : List Int}

/-- C135. `split_by_num` returns every split that it can return with the same probability. -/
theorem C135_split_by_num (h : Spec.SplitDraws P labels ω) {n : Nat} (hn : labels.length ≤ n) (train : Int)
    (val test : Option Int) {ms : Masks} (hms : ∃ a, splitByNum n labels train val test a = .ok ms) :
    P {s | splitByNum n labels train val test (fun i => ω i s) = .ok ms} =
      (Set.ncard {ms | ∃ a, splitByNum n labels train val test a = .ok ms} : ENNReal)⁻¹ := by
  have h2 : 2 ≤ labels.length := by
    obtain ⟨a, ha⟩ := hms
    rcases labels with _ | ⟨x, _ | ⟨y, l⟩⟩
    · cases ha
    · cases ha
    · simp
  refine Law.split_law h hn (cuts := fun _ => ⟨train, val.getD 0, test⟩) (b := decide (val.getD 0 ≠ 0)) (fun l hl a => ?_) h2 hms
  unfold splitByNum
  rw [hl]
  simp only [bind, Except.bind]
  by_cases hv : val.getD 0 = 0 <;> simp [hv]

/-- C135. For consecutive labels and counts that are not negative, `split_by_num` can return exactly the splits with the
requested numbers of vertices of each class. -/
theorem C135_split_by_num_possible (h2 : 2 ≤ labels.length) {n : Nat} (hn : labels.length ≤ n)
    (hc : Spec.Contiguous labels) (train : Nat) (val test : Option Nat) (ms : Masks) :
    (∃ a, splitByNum n labels train (val.map Int.ofNat) (test.map Int.ofNat) a = .ok ms) ↔
      Spec.ExactSplit n labels (decide (val.getD 0 ≠ 0)) (fun _ => train) (fun _ => val.getD 0) (fun _ => test) ms := by
  have hg : (val.map Int.ofNat).getD 0 = ((val.getD 0 : Nat) : Int) := by cases val <;> rfl
  have := Law.exact_iff hn (cuts := fun _ => ⟨train, (val.getD 0 : Nat), test.map Int.ofNat⟩) (fun _ => ⟨by simp, by simp, by
      intro x hx
      rcases test with _ | te
      · cases hx
      · cases hx; simp⟩) (hv := decide (val.getD 0 ≠ 0)) (fun h _ => by simpa using h)
    (F := splitByNum n labels train (val.map Int.ofNat) (test.map Int.ofNat)) (fun l hl a => by
      unfold splitByNum
      rw [hl]
      simp only [bind, Except.bind]
      rw [hg]
      by_cases hv : val.getD 0 = 0 <;> simp [hv]) h2 hc ms
  rw [this]
  have e : (test.map Int.ofNat).map Int.toNat = test := by cases test <;> rfl
  simp only [Int.toNat_natCast, e]

/-- C135. For consecutive labels and counts that are not negative, `split_by_num` returns each split with the requested
numbers of vertices of each class, all with the same probability. -/
theorem C135_split_by_num_uniform (h : Spec.SplitDraws P labels ω) (h2 : 2 ≤ labels.length) {n : Nat} (hn : labels.length ≤ n)
    (hc : Spec.Contiguous labels) (train : Nat) (val test : Option Nat) {ms : Masks}
    (hms : Spec.ExactSplit n labels (decide (val.getD 0 ≠ 0)) (fun _ => train) (fun _ => val.getD 0) (fun _ => test) ms) :
    P {s | splitByNum n labels train (val.map Int.ofNat) (test.map Int.ofNat) (fun i => ω i s) = .ok ms} =
      (Set.ncard {ms | Spec.ExactSplit n labels (decide (val.getD 0 ≠ 0)) (fun _ => train) (fun _ => val.getD 0)
        (fun _ => test) ms} : ENNReal)⁻¹ := by
  have hiff := C135_split_by_num_possible h2 hn hc train val test
  rw [C135_split_by_num h hn _ _ _ ((hiff ms).2 hms)]
  simp only [hiff]

variable {K : Type} [Field K] [LinearOrder K] [FloorRing K]

/-- C135. `split_by_ratio` returns every split that it can return with the same probability. -/
theorem C135_split_by_ratio (h : Spec.SplitDraws P labels ω) {n : Nat} (hn : labels.length ≤ n) (train : K)
    (val test : Option K) {ms : Masks} (hms : ∃ a, splitByRatio n labels train val test a = .ok ms) :
    P {s | splitByRatio n labels train val test (fun i => ω i s) = .ok ms} =
      (Set.ncard {ms | ∃ a, splitByRatio n labels train val test a = .ok ms} : ENNReal)⁻¹ := by
  have h2 : 2 ≤ labels.length := by
    obtain ⟨a, ha⟩ := hms
    rcases labels with _ | ⟨x, _ | ⟨y, l⟩⟩
    · cases ha
    · cases ha
    · simp
  have hr : ratiosOk train (val.getD 0) test = true := by
    obtain ⟨a, ha⟩ := hms
    obtain ⟨b, hb, -⟩ := prepLabels_cases labels h2
    by_contra hr
    unfold splitByRatio at ha
    rw [hb] at ha
    simp only [bind, Except.bind] at ha
    rw [if_neg hr] at ha
    cases ha
  refine Law.split_law h hn (cuts := fun m => ⟨truncInt ((m : K) * train), truncInt ((m : K) * val.getD 0),
    test.map fun t => truncInt ((m : K) * t)⟩) (b := decide (val.getD 0 ≠ 0)) (fun l hl a => ?_) h2 hms
  unfold splitByRatio
  rw [hl]
  simp only [bind, Except.bind]
  rw [if_pos hr]
  by_cases hv : val.getD 0 = 0 <;> simp [hv]

/-- C135. For consecutive labels and acceptable ratios, `split_by_ratio` can return exactly the splits with the requested
numbers of vertices of each class, rounded down. -/
theorem C135_split_by_ratio_possible [IsStrictOrderedRing K] (h2 : 2 ≤ labels.length) {n : Nat} (hn : labels.length ≤ n)
    (hc : Spec.Contiguous labels) (train : K) (val test : Option K) (ht : 0 ≤ train) (hv : ∀ x ∈ val, 0 ≤ x)
    (hte : ∀ x ∈ test, 0 ≤ x) (hs : Spec.SharesOk train (val.getD 0) test) (ms : Masks) :
    (∃ a, splitByRatio n labels train val test a = .ok ms) ↔
      Spec.ExactSplit n labels (decide (val.getD 0 ≠ 0)) (fun k => ⌊(k : K) * train⌋₊) (fun k => ⌊(k : K) * val.getD 0⌋₊)
        (fun k => test.map fun r => ⌊(k : K) * r⌋₊) ms := by
  have hv0 : 0 ≤ val.getD 0 := by
    rcases val with _ | v
    · exact le_rfl
    · exact hv v rfl
  have nn : ∀ (m : Nat) (x : K), 0 ≤ x → 0 ≤ truncInt ((m : K) * x) := fun m x hx => by
    rw [truncInt_nonneg (mul_nonneg (Nat.cast_nonneg m) hx)]; omega
  have tn : ∀ (m : Nat) (x : K), 0 ≤ x → (truncInt ((m : K) * x)).toNat = ⌊(m : K) * x⌋₊ := fun m x hx => by
    rw [truncInt_nonneg (mul_nonneg (Nat.cast_nonneg m) hx)]; simp
  have := Law.exact_iff hn (cuts := fun m => ⟨truncInt ((m : K) * train), truncInt ((m : K) * val.getD 0),
      test.map fun t => truncInt ((m : K) * t)⟩) (fun m => ⟨nn m train ht, nn m _ hv0, by
      intro x hx
      rcases test with _ | te
      · cases hx
      · cases hx; exact nn m te (hte te rfl)⟩) (hv := decide (val.getD 0 ≠ 0)) (fun h m => by
        have h0 : val.getD 0 = 0 := by simpa using h
        simp [h0, truncInt])
    (F := splitByRatio n labels train val test) (fun l hl a => by
      unfold splitByRatio
      rw [hl]
      simp only [bind, Except.bind]
      rw [if_pos ((ratiosOk_iff _ _ _).2 hs)]
      by_cases hv : val.getD 0 = 0 <;> simp [hv]) h2 hc ms
  rw [this]
  have e : ∀ m : Nat, (test.map fun t => truncInt ((m : K) * t)).map Int.toNat = test.map fun r => ⌊(m : K) * r⌋₊ := by
    intro m
    rcases test with _ | te
    · rfl
    · simp only [Option.map_some, tn m te (hte te rfl)]
  simp only [tn _ _ ht, tn _ _ hv0, e]

/-- C135. For consecutive labels and acceptable ratios, `split_by_ratio` returns each split with the requested numbers of
vertices of each class, all with the same probability. -/
theorem C135_split_by_ratio_uniform [IsStrictOrderedRing K] (h : Spec.SplitDraws P labels ω) (h2 : 2 ≤ labels.length) {n : Nat}
    (hn : labels.length ≤ n) (hc : Spec.Contiguous labels) (train : K) (val test : Option K) (ht : 0 ≤ train)
    (hv : ∀ x ∈ val, 0 ≤ x) (hte : ∀ x ∈ test, 0 ≤ x) (hs : Spec.SharesOk train (val.getD 0) test) {ms : Masks}
    (hms : Spec.ExactSplit n labels (decide (val.getD 0 ≠ 0)) (fun k => ⌊(k : K) * train⌋₊) (fun k => ⌊(k : K) * val.getD 0⌋₊)
        (fun k => test.map fun r => ⌊(k : K) * r⌋₊) ms) :
    P {s | splitByRatio n labels train val test (fun i => ω i s) = .ok ms} =
      (Set.ncard {ms | Spec.ExactSplit n labels (decide (val.getD 0 ≠ 0)) (fun k => ⌊(k : K) * train⌋₊)
        (fun k => ⌊(k : K) * val.getD 0⌋₊) (fun k => test.map fun r => ⌊(k : K) * r⌋₊) ms} : ENNReal)⁻¹ := by
  have hiff := C135_split_by_ratio_possible h2 hn hc train val test ht hv hte hs
  rw [C135_split_by_ratio h hn _ _ _ ((hiff ms).2 hms)]
  simp only [hiff]

end

theorem shuffleBounds_pos (ns : List Nat) (i : Nat) : 0 < (Spec.shuffleBounds ns).getD i 1 := by
  have this : ∀ x ∈ Spec.shuffleBounds ns, 0 < x := by
    induction ns with
    | nil => simp [Spec.shuffleBounds]
    | cons n ns ih =>
      intro x hx
      simp only [Spec.shuffleBounds, List.mem_append, List.mem_map, List.mem_range] at hx
      rcases hx with ⟨t, ht, rfl⟩ | hx
      · omega
      · exact ih x hx
  generalize Spec.shuffleBounds ns = B at this
  rcases lt_or_ge i B.length with h | h
  · rw [List.getD_eq_getElem _ _ h]; exact this _ (List.getElem_mem h)
  · rw [List.getD_eq_default _ _ h]; exact Nat.one_pos

/-- There are such draws, for all labels. -/
theorem C135_draws_exist (labels : List Int) :
    ∃ (P : Measure (Nat → Nat)) (ω : Nat → (Nat → Nat) → Nat), IsProbabilityMeasure P ∧ Spec.SplitDraws P labels ω :=
  C134_draws_exist _ fun i => shuffleBounds_pos _ i

/-- one of the two vertices with label 0 for training, the other vertices for testing: both choices have probability 1/2 -/
example : ∃ (P : Measure (Nat → Nat)) (ω : Nat → (Nat → Nat) → Nat), IsProbabilityMeasure P ∧
    P {s | splitByNum 3 [0, 0, 1] 1 none none (fun i => ω i s) = .ok (.two [true, false, true] [false, true, false])} =
      (2 : ENNReal)⁻¹ := by
  obtain ⟨P, ω, hP, h⟩ := C135_draws_exist [0, 0, 1]
  refine ⟨P, ω, hP, ?_⟩
  have h0 : splitByNum 3 [0, 0, 1] 1 none none (fun _ => 0) = .ok (.two [false, true, true] [true, false, false]) := by
    decide
  have h1 : splitByNum 3 [0, 0, 1] 1 none none (fun _ => 1) = .ok (.two [true, false, true] [false, true, false]) := by
    decide
  rw [C135_split_by_num h (by simp) 1 none none ⟨fun _ => 1, h1⟩]
  have hset : {ms | ∃ a, splitByNum 3 [0, 0, 1] 1 none none a = .ok ms} =
      {.two [false, true, true] [true, false, false], .two [true, false, true] [false, true, false]} := by
    ext ms
    simp only [Set.mem_ofPred_eq, Set.mem_insert_iff, Set.mem_singleton_iff]
    constructor
    · rintro ⟨a, ha⟩
      rcases Nat.mod_two_eq_zero_or_one (a 0) with h2 | h2
      · refine .inl ?_
        rw [← Except.ok.injEq (ε := Err), ← ha]
        simp [splitByNum, prepLabels, numClasses, splitLoop, whereEq, shuffle, shuffleAux, swapAt, randbelow, h2,
          idx2mask, maskOf, slice, sliceFrom, sliceBound, List.range_succ, List.min?, bind, Except.bind]
      · refine .inr ?_
        rw [← Except.ok.injEq (ε := Err), ← ha]
        simp [splitByNum, prepLabels, numClasses, splitLoop, whereEq, shuffle, shuffleAux, swapAt, randbelow, h2,
          idx2mask, maskOf, slice, sliceFrom, sliceBound, List.range_succ, List.min?, bind, Except.bind]
    · rintro (rfl | rfl)
      · exact ⟨_, h0⟩
      · exact ⟨_, h1⟩
  rw [hset, Set.ncard_pair (by decide)]
  rfl

end Props
end DHG
