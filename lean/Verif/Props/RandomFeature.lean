import Mathlib.Data.Finset.Sort
import Verif.RandomFeature

/-!
# Random features (C74)
-/

set_option linter.unusedSectionVars false
set_option autoImplicit false

namespace DHG
open RandGen

theorem npUnique_sorted (ls : List Int) : (npUnique ls).Pairwise (· < ·) := by
  have h1 : (npUnique ls).Pairwise (· ≤ ·) := List.pairwise_insertionSort _ _
  have h2 : (npUnique ls).Nodup := (List.perm_insertionSort _ _).nodup_iff.2 (List.nodup_dedup ls)
  exact (h1.and h2).imp fun h => lt_of_le_of_ne h.1 h.2

theorem mem_npUnique {ls : List Int} {x : Int} : x ∈ npUnique ls ↔ x ∈ ls := by
  unfold npUnique
  rw [List.mem_insertionSort, List.mem_dedup]

theorem npUnique_toFinset (ls : List Int) : (npUnique ls).toFinset = ls.toFinset := by
  ext x
  simp [mem_npUnique]

theorem idxOf_sorted : ∀ (s : List Int), s.Pairwise (· < ·) → ∀ x ∈ s,
    s.idxOf x = (s.filter fun y => decide (y < x)).length := by
  intro s
  induction s with
  | nil => intro _ x hx; cases hx
  | cons a s ih =>
    intro h x hx
    rw [List.pairwise_cons] at h
    by_cases hax : a = x
    · subst hax
      have : s.filter (fun y => decide (y < a)) = [] := by
        rw [List.filter_eq_nil_iff]
        intro y hy
        have := h.1 y hy
        simp; omega
      simp [this]
    · have hxs : x ∈ s := by
        rcases List.mem_cons.1 hx with h | h
        · exact absurd h.symm hax
        · exact h
      have hlt := h.1 x hxs
      rw [List.idxOf_cons_ne _ hax, ih h.2 x hxs, List.filter_cons_of_pos (by simpa using hlt)]
      rfl

/-- the distinct labels smaller than `x`, counted -/
def Spec.labelRank (labels : List Int) (x : Int) : Nat := (labels.toFinset.filter (· < x)).card

theorem rank_eq (ls : List Int) (x : Int) (hx : x ∈ ls) : (npUnique ls).idxOf x = Spec.labelRank ls x := by
  rw [idxOf_sorted _ (npUnique_sorted ls) x (mem_npUnique.2 hx)]
  unfold Spec.labelRank
  have hnd : (npUnique ls).Nodup := (npUnique_sorted ls).imp fun h => ne_of_lt h
  rw [← npUnique_toFinset, ← List.toFinset_card_of_nodup (hnd.filter _), List.toFinset_filter]
  simp

section
variable {K : Type} [Field K] [LinearOrder K]

/-- C74. One row per vertex and one column per distinct label; the noise is added to a centre that is
one in the column of the rank of the vertex's label and zero elsewhere. -/
theorem C74_normal_features {labels : List Int} (hne : labels ≠ []) {noise : K} (hn : ¬ noise < 0)
    (z : Nat → Nat → K) :
    ∃ F, normalFeatures labels noise z = .ok F ∧ F.rows = labels.length ∧
      F.cols = labels.toFinset.card ∧
      ∀ i x, labels[i]? = some x → ∀ j,
        F.at_ i j = (if j = Spec.labelRank labels x then 1 else 0) + noise * z i j := by
  refine ⟨⟨labels.length, (npUnique labels).length, fun i j =>
    (if (labels.map fun l => (npUnique labels).idxOf l)[i]? = some j then 1 else 0) + noise * z i j⟩,
    ?_, rfl, ?_, ?_⟩
  · unfold normalFeatures
    simp only
    rw [if_neg (by
      rintro ⟨l, hl, hl'⟩
      exact hl' (mem_npUnique.2 hl)), if_neg hne, if_neg hn]
  · have hnd : (npUnique labels).Nodup := (npUnique_sorted labels).imp fun h => ne_of_lt h
    show (npUnique labels).length = _
    rw [← npUnique_toFinset, List.toFinset_card_of_nodup hnd]
  · intro i x hx j
    have hmem : x ∈ labels := List.mem_of_getElem? hx
    simp only [List.getElem?_map, hx, Option.map_some, rank_eq labels x hmem, Option.some.injEq]
    congr 1
    by_cases h : j = Spec.labelRank labels x
    · rw [if_pos h, if_pos h.symm]
    · rw [if_neg h, if_neg (Ne.symm h)]

/-- C74. Two vertices have the same centre exactly when they have the same label; the column of every
label exists. -/
theorem C74_rank (labels : List Int) (x y : Int) (hx : x ∈ labels) (hy : y ∈ labels) :
    (Spec.labelRank labels x = Spec.labelRank labels y ↔ x = y) ∧
      Spec.labelRank labels x < labels.toFinset.card := by
  have hnd : (npUnique labels).Nodup := (npUnique_sorted labels).imp fun h => ne_of_lt h
  rw [← rank_eq _ _ hx, ← rank_eq _ _ hy]
  refine ⟨List.idxOf_inj (mem_npUnique.2 hx), ?_⟩
  rw [← npUnique_toFinset, List.toFinset_card_of_nodup hnd]
  exact List.idxOf_lt_length_iff.2 (mem_npUnique.2 hx)

/-- C74. Without noise the result is the table of centres. -/
theorem C74_no_noise {labels : List Int} (hne : labels ≠ []) (z : Nat → Nat → K) :
    ∃ F, normalFeatures labels (0 : K) z = .ok F ∧ ∀ i x, labels[i]? = some x → ∀ j,
        F.at_ i j = if j = Spec.labelRank labels x then 1 else 0 := by
  obtain ⟨F, h1, _, _, h2⟩ := C74_normal_features hne (lt_irrefl (0 : K)) z
  exact ⟨F, h1, fun i x hx j => by rw [h2 i x hx j, zero_mul, add_zero]⟩

/-- C74. An empty list of labels raises `IndexError`, a negative noise `ValueError`. -/
theorem C74_refuses (z : Nat → Nat → K) :
    (∀ noise, normalFeatures [] noise z = .error .index) ∧
    ∀ (labels : List Int) (noise : K), labels ≠ [] → noise < 0 →
      normalFeatures labels noise z = .error .value := by
  refine ⟨fun noise => ?_, fun labels noise hne hn => ?_⟩
  · unfold normalFeatures
    simp
  · unfold normalFeatures
    simp only
    rw [if_neg (by
      rintro ⟨l, hl, hl'⟩
      exact hl' (mem_npUnique.2 hl)), if_neg hne, if_pos hn]

end

/-- the documentation's example has four columns, and the label 5 has the last one -/
example : ([1, 3, 5, 2, 1, 5] : List Int) ≠ [] ∧
    ([1, 3, 5, 2, 1, 5] : List Int).toFinset.card = 4 ∧ Spec.labelRank [1, 3, 5, 2, 1, 5] 5 = 3 := by
  decide

end DHG
