import Mathlib.Data.List.Perm.Basic
import Mathlib.Algebra.Order.Field.Basic
import Mathlib.Data.Rat.Floor
import Mathlib.Tactic.NormNum
import Mathlib.Tactic.Positivity
import Verif.MetricsLemmas
import Verif.UtilsLemmas

/-! # Properties of the classification metrics (C63) -/

set_option linter.unusedSectionVars false
set_option autoImplicit false

namespace DHG
namespace Spec
open Metrics
variable {K : Type} [Field K] [LinearOrder K]

/-- `y` is the first class with the largest score -/
def Best (row : List K) (y : Int) : Prop :=
  ∃ i : Nat, y = (i : Int) ∧ i < row.length ∧ (∀ j < row.length, row.getD j 0 ≤ row.getD i 0) ∧
    ∀ j < i, row.getD j 0 < row.getD i 0

/-- the predicted labels: given as they are, or for each sample the first class with the largest
score -/
def Predicts : Pred K → List Int → Prop
  | .labels l, ys => ys = l
  | .scores _ rows, ys => List.Forall₂ Best rows ys
  | .other _, _ => False

/-- the scores form a matrix with at least one class -/
def Proper : Pred K → Prop
  | .labels _ => True
  | .scores w rows => 0 < w ∧ ∀ r ∈ rows, r.length = w
  | .other _ => False

/-- the samples classified correctly -/
def correct (yt ys : List Int) : Finset Nat := {i ∈ Finset.range yt.length | yt[i]? = ys[i]?}

/-- the predictions with the `i`-th sample being the `p i`-th of the given ones -/
def reorder (p : List Nat) : Pred K → Pred K
  | .labels l => .labels (p.map fun i => l.getD i 0)
  | .scores w rows => .scores w (p.map fun i => rows.getD i [])
  | .other s => .other s

end Spec

namespace Props
open Metrics Utils

section
variable {K : Type} [Field K] [LinearOrder K] [IsStrictOrderedRing K] [FloorRing K]

theorem argmax_ok {row : List K} {i : Nat} : argmax row = .ok i ↔
    i < row.length ∧ (∀ j < row.length, row.getD j 0 ≤ row.getD i 0) ∧
      ∀ j < i, row.getD j 0 < row.getD i 0 := by
  unfold argmax
  rcases hm : row.max? with _ | m
  · rw [List.max?_eq_none_iff] at hm
    subst hm
    simp
  · obtain ⟨hmem, hle⟩ := List.max?_eq_some_iff.mp hm
    have hlt := List.idxOf_lt_length_of_mem hmem
    have hget : row.getD (row.idxOf m) 0 = m := by
      rw [List.getD_eq_getElem _ _ hlt, List.getElem_idxOf]
    have hall : ∀ j < row.length, row.getD j 0 ≤ m := by
      intro j hj
      rw [List.getD_eq_getElem _ _ hj]
      exact hle _ (List.getElem_mem hj)
    have hbefore : ∀ j < row.idxOf m, row.getD j 0 < m := by
      intro j hj
      have hj' : j < row.length := lt_trans hj hlt
      rcases lt_or_eq_of_le (hall j hj') with h | h
      · exact h
      · exfalso
        rw [List.getD_eq_getElem _ _ hj'] at h
        have := List.not_of_lt_findIdx (p := fun x => x == m) (xs := row) (i := j) hj
        simp [h] at this
    simp only [Except.ok.injEq]
    constructor
    · rintro rfl
      refine ⟨hlt, ?_, ?_⟩ <;> rw [hget]
      · exact hall
      · exact hbefore
    · rintro ⟨h1, h2, h3⟩
      have hi : row.getD i 0 = m := le_antisymm (hall i h1) (by rw [← hget]; exact h2 _ hlt)
      rcases lt_trichotomy (row.idxOf m) i with h | h | h
      · have := h3 _ h; rw [hget, hi] at this; exact absurd this (lt_irrefl _)
      · exact h
      · have := hbefore _ h; rw [hi] at this; exact absurd this (lt_irrefl _)

theorem argmax_total {row : List K} (h : 0 < row.length) : ∃ i, argmax row = .ok i := by
  unfold argmax
  rcases hm : row.max? with _ | m
  · rw [List.max?_eq_none_iff] at hm
    subst hm; simp at h
  · exact ⟨_, rfl⟩

theorem forall₂_map_right {α β γ : Type} {R : α → γ → Prop} {f : β → γ} {l : List α} {l' : List β} :
    List.Forall₂ R l (l'.map f) ↔ List.Forall₂ (fun a b => R a (f b)) l l' :=
  List.forall₂_map_right_iff

theorem best_iff {rows : List (List K)} {l : List Nat} (hl : collectE rows argmax = .ok l)
    (ys : List Int) : List.Forall₂ Spec.Best rows ys ↔ ys = l.map fun i : Nat => (i : Int) := by
  replace hl := collectE_ok_iff.mp hl
  induction hl generalizing ys with
  | nil => simp
  | @cons row i rows l h _ ih =>
    constructor
    · intro hh
      rcases hh with _ | ⟨⟨j, rfl, hj⟩, hh⟩
      rw [(ih _).1 hh]
      have := argmax_ok.2 hj
      rw [h] at this
      cases this
      rfl
    · rintro rfl
      exact .cons ⟨i, rfl, argmax_ok.1 h⟩ ((ih _).2 rfl)

theorem argmaxes {rows : List (List K)} (h : ∀ r ∈ rows, 0 < r.length) :
    ∃ l, collectE rows argmax = .ok l := by
  induction rows with
  | nil => exact ⟨[], rfl⟩
  | cons r rows ih =>
    obtain ⟨i, hi⟩ := argmax_total (h r List.mem_cons_self)
    obtain ⟨l, hl⟩ := ih fun r hr => h r (List.mem_cons_of_mem _ hr)
    exact ⟨i :: l, collectE_ok_iff.mpr (.cons hi (collectE_ok_iff.mp hl))⟩

/-- the labels chosen by the code -/
theorem formatCls_eq {yp : Pred K} (hp : Spec.Proper yp) : ∃ zs, (∀ ys, Spec.Predicts yp ys ↔ ys = zs) ∧
    ∀ yt, formatCls (some yt) yp = if yt.length = zs.length then .ok (yt, zs) else .error .assertion := by
  rcases yp with zs | ⟨w, rows⟩ | s
  · exact ⟨zs, fun _ => Iff.rfl, fun _ => rfl⟩
  · obtain ⟨l, hl⟩ := argmaxes (rows := rows) fun r hr => by rw [hp.2 r hr]; exact hp.1
    refine ⟨_, best_iff hl, ?_⟩
    intro yt
    simp only [formatCls, bind, Except.bind]
    rw [if_neg hp.1.ne', hl]
    rfl
  · cases hp

theorem formatCls_ok {yt : List Int} {yp : Pred K} (hp : Spec.Proper yp) {r : List Int × List Int} :
    formatCls (some yt) yp = .ok r ↔ r.1 = yt ∧ Spec.Predicts yp r.2 ∧ yt.length = r.2.length := by
  obtain ⟨zs, h1, h2⟩ := formatCls_eq hp
  obtain ⟨r1, r2⟩ := r
  rw [h1, h2]
  split
  · rename_i h
    simp only [Except.ok.injEq, Prod.mk.injEq]
    constructor
    · rintro ⟨rfl, rfl⟩; exact ⟨rfl, rfl, h⟩
    · rintro ⟨rfl, rfl, _⟩; exact ⟨rfl, rfl⟩
  · rename_i h
    simp only [reduceCtorEq, false_iff]
    rintro ⟨_, h3, h'⟩
    subst h3
    exact h h'

theorem sum_indicator : ∀ (a b : List Int), a.length = b.length →
    (List.zipWith (fun x y => if x = y then (1 : K) else 0) a b).sum = ((Spec.correct a b).card : K) := by
  intro a b h
  rw [list_sum_range]
  simp only [List.length_zipWith, h, Nat.min_self]
  rw [Spec.correct, h, ← Finset.sum_boole]
  apply Finset.sum_congr rfl
  intro i hi
  have hb := Finset.mem_range.mp hi
  have ha : i < a.length := by omega
  rw [List.getD_eq_getElem _ _ (by simpa using ⟨ha, hb⟩)]
  simp [List.getElem?_eq_getElem ha, List.getElem?_eq_getElem hb]

theorem accuracy_ok {yt : List Int} {yp : Pred K} (hp : Spec.Proper yp) {x : Option K} :
    accuracy (some yt) yp = .ok x ↔ ∃ ys, Spec.Predicts yp ys ∧ yt.length = ys.length ∧
      x = if yt = [] then none else some (((Spec.correct yt ys).card : K) / (yt.length : K)) := by
  have hval : ∀ ys : List Int, yt.length = ys.length →
      fmean ((List.zipWith (fun a b => if a = b then (1 : K) else 0) yt ys).map some)
        = if yt = [] then none else some (((Spec.correct yt ys).card : K) / (yt.length : K)) := by
    intro ys hl
    unfold fmean
    rw [mapM_some]
    simp only
    rw [sum_indicator _ _ hl]
    simp only [List.length_zipWith, ← hl, Nat.min_self, fdiv]
    by_cases h0 : yt = []
    · subst h0; simp
    · rw [if_neg h0, if_neg]
      simpa using h0
  unfold accuracy
  constructor
  · intro h
    rcases hf : formatCls (some yt) yp with e | r
    · rw [hf] at h; cases h
    · rw [hf] at h
      obtain ⟨h1, h2, h3⟩ := (formatCls_ok hp).1 hf
      cases h
      refine ⟨r.2, h2, h3, ?_⟩
      rw [h1]
      exact hval _ h3
  · rintro ⟨ys, h1, h2, rfl⟩
    rw [(formatCls_ok (r := (yt, ys)) hp).2 ⟨rfl, h1, h2⟩]
    simp only [bind, Except.bind]
    rw [hval _ h2]

/-- C63. The predicted labels are determined, and exist whenever the scores form a matrix. -/
theorem C63_predictions (yp : Pred K) (hp : Spec.Proper yp) : ∃! ys, Spec.Predicts yp ys := by
  obtain ⟨zs, h1, _⟩ := formatCls_eq hp
  exact ⟨zs, (h1 zs).2 rfl, fun ys h => (h1 ys).1 h⟩

/-- C63. Accuracy is the fraction of correct predictions: of a non-empty vector of true labels and as
many predictions it is the number of positions where both agree, divided by the number of samples. -/
theorem C63_accuracy (yt : List Int) (yp : Pred K) (hp : Spec.Proper yp) (ys : List Int)
    (hys : Spec.Predicts yp ys) (hl : yt.length = ys.length) (hne : yt ≠ []) :
    accuracy (some yt) yp = .ok (some (((Spec.correct yt ys).card : K) / (yt.length : K))) :=
  (accuracy_ok hp).2 ⟨ys, hys, hl, by rw [if_neg hne]⟩

/-- C63. Predictions for a different number of samples, or true labels that are not a vector, are
refused; of no samples the accuracy is not a number. -/
theorem C63_accuracy_raises (yt : List Int) (yp : Pred K) (hp : Spec.Proper yp) (ys : List Int)
    (hys : Spec.Predicts yp ys) :
    (yt.length ≠ ys.length → accuracy (some yt) yp = .error .assertion) ∧
    accuracy none yp = .error .assertion ∧
    (yt = [] → ys = [] → accuracy (some yt) yp = .ok none) := by
  obtain ⟨zs, h1, h2⟩ := formatCls_eq hp
  obtain rfl := (h1 ys).1 hys
  refine ⟨?_, rfl, ?_⟩
  · intro hne
    unfold accuracy
    rw [h2, if_neg hne]; rfl
  · rintro rfl rfl
    exact (accuracy_ok hp).2 ⟨[], hys, rfl, rfl⟩

theorem correct_all {yt ys : List Int} (hl : yt.length = ys.length) :
    (Spec.correct yt ys).card = yt.length ↔ yt = ys := by
  rw [← Finset.card_range yt.length, Spec.correct, Finset.card_filter_eq_iff]
  constructor
  · intro h
    apply List.ext_getElem?
    intro i
    by_cases hi : i < yt.length
    · exact h i (Finset.mem_range.mpr hi)
    · rw [List.getElem?_eq_none (by omega), List.getElem?_eq_none (by omega)]
  · rintro rfl i _
    rfl

/-- C63. Accuracy lies between 0 and 1, and is 1 exactly if every prediction is correct. -/
theorem C63_accuracy_range (yt : List Int) (yp : Pred K) (hp : Spec.Proper yp) (ys : List Int)
    (hys : Spec.Predicts yp ys) (x : K) (h : accuracy (some yt) yp = .ok (some x)) :
    0 ≤ x ∧ x ≤ 1 ∧ (x = 1 ↔ yt = ys) := by
  obtain ⟨zs, h1, h2⟩ := formatCls_eq hp
  obtain rfl := (h1 ys).1 hys
  obtain ⟨zs', h3, h4, h5⟩ := (accuracy_ok hp).1 h
  obtain rfl := (h1 zs').1 h3
  split at h5
  · cases h5
  · rename_i hne
    obtain rfl := Option.some.inj h5
    have hpos : (0 : K) < yt.length := by
      exact_mod_cast List.length_pos_iff.mpr hne
    have hle : ((Spec.correct yt zs').card : K) ≤ yt.length := by
      have := Finset.card_filter_le (Finset.range yt.length) fun i => yt[i]? = zs'[i]?
      rw [Finset.card_range] at this
      exact_mod_cast this
    refine ⟨by positivity, (div_le_one hpos).2 hle, ?_⟩
    rw [div_eq_one_iff_eq hpos.ne', ← correct_all h4]
    exact_mod_cast Iff.rfl

theorem accuracy_sum {yt : List Int} {yp : Pred K} (hp : Spec.Proper yp) {ys : List Int}
    (hys : Spec.Predicts yp ys) (hl : yt.length = ys.length) :
    accuracy (some yt) yp = .ok (fdiv (((yt.zip ys).map fun q => if q.1 = q.2 then (1 : K) else 0).sum)
      ((yt.zip ys).length : K)) := by
  unfold accuracy
  rw [(formatCls_ok (r := (yt, ys)) hp).2 ⟨rfl, hys, hl⟩]
  simp only [bind, Except.bind, fmean, mapM_some]
  rw [List.zip, List.map_zipWith]
  simp

/-- C63. Reordering the samples does not change the accuracy. -/
theorem C63_accuracy_reorder (yt : List Int) (yp : Pred K) (hp : Spec.Proper yp) (ys : List Int)
    (hys : Spec.Predicts yp ys) (hl : yt.length = ys.length) (p : List Nat)
    (hperm : p.Perm (List.range yt.length)) :
    accuracy (some (p.map fun i => yt.getD i 0)) (Spec.reorder p yp) = accuracy (some yt) yp := by
  have hlt : ∀ i ∈ p, i < yt.length := fun i hi => List.mem_range.mp (hperm.mem_iff.mp hi)
  have hrl : ∀ rows : List (List K), List.Forall₂ Spec.Best rows ys → rows.length = ys.length :=
    fun rows h => h.length_eq
  have hp' : Spec.Proper (Spec.reorder p yp) := by
    rcases yp with zs | ⟨w, rows⟩ | s
    · exact trivial
    · refine ⟨hp.1, ?_⟩
      intro r hr
      obtain ⟨i, hi, rfl⟩ := List.mem_map.mp hr
      have : i < rows.length := by rw [hrl rows hys, ← hl]; exact hlt i hi
      rw [List.getD_eq_getElem _ _ this]
      exact hp.2 _ (List.getElem_mem this)
    · cases hp
  have hys' : Spec.Predicts (Spec.reorder p yp) (p.map fun i => ys.getD i 0) := by
    rcases yp with zs | ⟨w, rows⟩ | s
    · cases hys; rfl
    · simp only [Spec.reorder, Spec.Predicts, List.forall₂_map_left_iff, List.forall₂_map_right_iff,
        List.forall₂_same]
      intro i hi
      have h1 : i < ys.length := by rw [← hl]; exact hlt i hi
      have h2 : i < rows.length := by rw [hrl rows hys]; exact h1
      rw [List.getD_eq_getElem _ _ h1, List.getD_eq_getElem _ _ h2]
      exact (List.forall₂_iff_get.mp hys).2 i h2 h1
    · cases hp
  rw [accuracy_sum hp' hys' (by simp), accuracy_sum hp hys hl]
  have hz : ((p.map fun i => yt.getD i 0).zip (p.map fun i => ys.getD i 0)).Perm (yt.zip ys) := by
    rw [List.zip_map', ]
    refine (hperm.map _).trans ?_
    have : (List.range yt.length).map (fun i => (yt.getD i 0, ys.getD i 0)) = yt.zip ys := by
      apply List.ext_getElem
      · simp [hl]
      · intro i h1 h2
        have h3 : i < yt.length := by simpa using h1
        have h4 : i < ys.length := by omega
        simp [List.getElem?_eq_getElem h3, List.getElem?_eq_getElem h4]
    rw [this]
  rw [(hz.map _).sum_eq, hz.length_eq]

theorem countP_card {α : Type} (p : α → Bool) (l : List α) :
    l.countP p = ({s ∈ Finset.range l.length | l[s]?.any p = true} : Finset Nat).card := by
  induction l using List.reverseRecOn with
  | nil => simp
  | append_singleton l x ih =>
    rw [List.countP_append, ih, List.length_append, List.length_singleton, Finset.range_add_one,
      Finset.filter_insert]
    have hsame : ({s ∈ Finset.range l.length | (l ++ [x])[s]?.any p = true} : Finset Nat)
        = {s ∈ Finset.range l.length | l[s]?.any p = true} := by
      apply Finset.filter_congr
      intro s hs
      rw [List.getElem?_append_left (Finset.mem_range.mp hs)]
    rw [hsame]
    by_cases hx : p x = true
    · rw [if_pos (by simpa using hx), Finset.card_insert_of_notMem (by simp)]
      simp [hx]
    · rw [if_neg (by simpa using hx)]
      simp [hx]

/-- C63. The confusion matrix: one row and one column for each label occurring among the true or the
predicted ones, in increasing order; an entry counts the samples with this true label and this
predicted label.  Its entries add up to the number of samples, and those on the diagonal to the
number of correct predictions. -/
theorem C63_confusion_matrix (yt : List Int) (yp : Pred K) (hp : Spec.Proper yp) (ys : List Int)
    (hys : Spec.Predicts yp ys) (hl : yt.length = ys.length) :
    ∃ (ls : List Int) (M : List (List Nat)), confusionMatrix (some yt) yp = .ok M ∧
      ls.Pairwise (· < ·) ∧ (∀ a, a ∈ ls ↔ a ∈ yt ∨ a ∈ ys) ∧ M.length = ls.length ∧
      (∀ r ∈ M, r.length = ls.length) ∧
      (∀ (i j : Nat) (a b : Int), ls[i]? = some a → ls[j]? = some b →
        (M.getD i []).getD j 0
          = ({s ∈ Finset.range yt.length | yt[s]? = some a ∧ ys[s]? = some b} : Finset Nat).card) ∧
      (M.map List.sum).sum = yt.length ∧
      ((List.range ls.length).map fun i => (M.getD i []).getD i 0).sum = (Spec.correct yt ys).card := by
  have hok : confusionMatrix (some yt) yp
      = .ok ((labelSet yt ys).map fun a => (labelSet yt ys).map fun b => (yt.zip ys).count (a, b)) := by
    unfold confusionMatrix
    rw [(formatCls_ok (r := (yt, ys)) hp).2 ⟨rfl, hys, hl⟩]
    rfl
  have hmem : ∀ a, a ∈ labelSet yt ys ↔ a ∈ yt ∨ a ∈ ys := by
    intro a
    unfold labelSet
    rw [(List.perm_insertionSort _ _).mem_iff, List.mem_dedup, List.mem_append]
  have hnd : (labelSet yt ys).Nodup :=
    (List.perm_insertionSort _ _).nodup_iff.mpr (List.nodup_dedup _)
  have hsorted : (labelSet yt ys).Pairwise (· < ·) := by
    have h1 := List.pairwise_insertionSort (r := ((· ≤ ·) : Int → Int → Prop)) ((yt ++ ys).dedup)
    refine (List.pairwise_and_iff.mpr ⟨h1, hnd⟩).imp ?_
    rintro a b ⟨h2, h3⟩
    exact lt_of_le_of_ne h2 h3
  have hcount : ∀ a b, (yt.zip ys).count (a, b)
      = ({s ∈ Finset.range yt.length | yt[s]? = some a ∧ ys[s]? = some b} : Finset Nat).card := by
    intro a b
    rw [List.count, countP_card]
    congr 1
    simp only [List.length_zip, ← hl, Nat.min_self]
    apply Finset.filter_congr
    intro s hs
    have h1 := Finset.mem_range.mp hs
    have h2 : s < ys.length := by omega
    have h3 : s < (yt.zip ys).length := by simp; omega
    simp [List.getElem?_eq_getElem h1, List.getElem?_eq_getElem h2, List.getElem?_eq_getElem h3]
  refine ⟨labelSet yt ys, _, hok, hsorted, hmem, by simp, by simp, ?_, ?_, ?_⟩
  · intro i j a b ha hb
    rw [← hcount]
    have h1 := (List.getElem?_eq_some_iff.mp ha)
    have h2 := (List.getElem?_eq_some_iff.mp hb)
    obtain ⟨h1, rfl⟩ := h1
    obtain ⟨h2, rfl⟩ := h2
    simp [List.getElem?_eq_getElem h1, List.getElem?_eq_getElem h2]
  · rw [List.map_map, ← List.sum_toFinset _ hnd]
    simp only [Function.comp_apply]
    rw [Finset.sum_congr rfl fun a _ => (List.sum_toFinset (fun b => (yt.zip ys).count (a, b)) hnd).symm,
      ← Finset.sum_product (f := fun q => (yt.zip ys).count q)]
    have := Multiset.sum_count_eq_card (m := ((yt.zip ys : List (Int × Int)) : Multiset (Int × Int)))
      (s := (labelSet yt ys).toFinset ×ˢ (labelSet yt ys).toFinset) ?_
    · simp only [Multiset.coe_count, Multiset.coe_card] at this
      refine (Finset.sum_congr rfl fun q _ => ?_).trans (this.trans (by simp [hl]))
      exact List.countP_congr fun x _ => by simp
    · rintro ⟨a, b⟩ hq
      have hq := List.of_mem_zip (Multiset.mem_coe.mp hq)
      simp [hmem, hq.1, hq.2]
  · have hdiag : ((List.range (labelSet yt ys).length).map fun i =>
        (((labelSet yt ys).map fun a => (labelSet yt ys).map fun b => (yt.zip ys).count (a, b)).getD i []).getD i 0)
        = (labelSet yt ys).map fun a => (yt.zip ys).count (a, a) := by
      apply List.ext_getElem
      · simp
      · intro i h1 h2
        have h3 : i < (labelSet yt ys).length := by simpa using h1
        simp [List.getElem?_eq_getElem h3]
    rw [hdiag, ← List.sum_toFinset _ hnd]
    have hc : ∀ a : Int, (yt.zip ys).count (a, a)
        = (((yt.zip ys).filter fun q => decide (q.1 = q.2)).map Prod.fst).count a := by
      intro a
      induction yt.zip ys with
      | nil => rfl
      | cons q l ih =>
        obtain ⟨c, d⟩ := q
        rw [List.count_cons, ih]
        by_cases hcd : c = d
        · subst hcd
          simp [List.count_cons]
        · simp only [hcd, decide_false, Bool.false_eq_true, not_false_eq_true, List.filter_cons_of_neg]
          have : ¬ ((c, d) = (a, a)) := by rintro ⟨⟩; exact hcd rfl
          simp [this]
    rw [Finset.sum_congr rfl fun a _ => hc a]
    have := Multiset.sum_count_eq_card
      (m := ((((yt.zip ys).filter fun q => decide (q.1 = q.2)).map Prod.fst : List Int) : Multiset Int))
      (s := (labelSet yt ys).toFinset) ?_
    · simp only [Multiset.coe_count, Multiset.coe_card] at this
      rw [this, List.length_map, ← List.countP_eq_length_filter, countP_card]
      congr 1
      simp only [Spec.correct, List.length_zip, ← hl, Nat.min_self]
      apply Finset.filter_congr
      intro s hs
      have h1 := Finset.mem_range.mp hs
      have h2 : s < ys.length := by omega
      have h3 : s < (yt.zip ys).length := by simp; omega
      simp [List.getElem?_eq_getElem h1, List.getElem?_eq_getElem h2, List.getElem?_eq_getElem h3]
    · intro a ha
      obtain ⟨⟨c, d⟩, hq, rfl⟩ := List.mem_map.mp (Multiset.mem_coe.mp ha)
      have hq := List.of_mem_zip (List.mem_of_mem_filter hq)
      simp [hmem, hq.1]

end

/-- three samples with three classes; two are predicted correctly -/
def exTrue : List Int := [2, 0, 1]
def exPred : Pred ℚ := .scores 3 [[1, 2, 5], [7, 7, 0], [0, 0, 3]]

example : Spec.Proper exPred := ⟨by decide, by decide⟩
example : accuracy (some exTrue) exPred = .ok (some (2 / 3)) := by
  have : accuracy (some exTrue) exPred = .ok (some (fmean [some 1, some 1, some (0 : ℚ)]).get!) := by rfl
  rw [this]
  norm_num [fmean, fdiv]
example : confusionMatrix (some exTrue) exPred = .ok [[1, 0, 0], [0, 0, 1], [0, 0, 1]] := by rfl

end Props
end DHG
