import Mathlib.Analysis.SpecialFunctions.Log.Base
import Mathlib.Algebra.BigOperators.Group.Finset.Basic
import Mathlib.Order.Bounds.Basic
import Mathlib.Data.List.GetD
import Verif.Metrics

/-! # Vocabulary for the properties about metrics -/

set_option linter.unusedSectionVars false
set_option autoImplicit false

namespace DHG
namespace Spec
open Metrics

variable {K : Type} [Field K] [LinearOrder K]

/-- what `torch.argsort(…, descending=True)` promises: a permutation of the positions along which
the scores do not increase -/
def SortsDesc (srt : List K → List Nat) : Prop :=
  ∀ xs : List K, (srt xs).Perm (List.range xs.length) ∧
    (srt xs).Pairwise fun i j => xs.getD j 0 ≤ xs.getD i 0

/-- `r` gives every item its place (counted from 0) in a ranking by decreasing score -/
def Ranks (s : List K) (r : Nat → Nat) : Prop :=
  (∀ i < s.length, r i < s.length) ∧
  (∀ i < s.length, ∀ j < s.length, r i = r j → i = j) ∧
  (∀ i < s.length, ∀ j < s.length, s.getD j 0 < s.getD i 0 → r i < r j)

/-- the samples of a tensor: a one dimensional tensor is a single sample -/
def samples : Arr K → List (List K)
  | .d1 xs => [xs]
  | .d2 _ rows => rows
  | .other _ => []

/-- the number of items in each sample -/
def targets : Arr K → Nat
  | .d1 xs => xs.length
  | .d2 w _ => w
  | .other _ => 0

/-- every item is marked 0 or 1 -/
def Binary (y : Arr K) : Prop := ∀ row ∈ samples y, ∀ x ∈ row, x = 0 ∨ x = 1

/-- how many of the first places count: `ratio` overrides `k`, no more than there are items -/
def places [FloorRing K] (n : Nat) (k : Option Int) (ratio : Option K) : Int :=
  match ratio, k with
  | some q, _ => ⌈(n : K) * q⌉
  | none, some k => min k n
  | none, none => n

/-- the items of a sample that are relevant -/
def relevant (y : List K) : Finset Nat := {i ∈ Finset.range y.length | 0 < y.getD i 0}

/-- the relevant items among the first `c` places -/
def found (y : List K) (r : Nat → Nat) (c : Int) : Finset Nat := {i ∈ relevant y | (r i : Int) < c}

/-- the fraction of relevant items among the places up to the one of item `i` -/
def precisionAt (y : List K) (r : Nat → Nat) (i : Nat) : K :=
  ({j ∈ relevant y | r j ≤ r i} : Finset Nat).card / ((r i : K) + 1)

/-- the average of the numbers `f i` over a non-empty set -/
def avg (s : Finset Nat) (f : Nat → K) : K := (∑ i ∈ s, f i) / (s.card : K)

/-- the average of a list of numbers -/
def average (xs : List K) : K := xs.sum / (xs.length : K)

/-- discounted cumulative gain of a ranking: the gain of the item at place `p` (from 0) counts
`1 / log₂ (p + 2)` -/
noncomputable def dcg (y : List ℝ) (r : Nat → Nat) (c : Int) : ℝ :=
  ∑ i ∈ (Finset.range y.length).filter (fun i => (r i : Int) < c), y.getD i 0 / Real.logb 2 ((r i : ℝ) + 2)

/-- the two ways of taking the precision at a relevant item: as it is, or the largest one at this
item or a later one -/
def Scores (m : Method) (a : List K) (r : Nat → Nat) (M : Nat → K) : Prop :=
  match m with
  | .legacy => ∀ i ∈ relevant a, M i = precisionAt a r i
  | .pascalVoc => ∀ i ∈ relevant a,
      IsGreatest {z | ∃ j ∈ relevant a, r i ≤ r j ∧ z = precisionAt a r j} (M i)
  | .unknown => False

/-- without ties there is only one ranking: the place of an item is the number of items with a
larger score -/
theorem ranks_unique (s : List K) (hs : s.Nodup) (r : Nat → Nat) (h : Ranks s r) (i : Nat)
    (hi : i < s.length) :
    r i = (({j ∈ Finset.range s.length | s.getD i 0 < s.getD j 0}) : Finset Nat).card := by
  obtain ⟨h1, h2, h3⟩ := h
  have hgt : ∀ j < s.length, (s.getD i 0 < s.getD j 0 ↔ r j < r i) := by
    intro j hj
    constructor
    · exact h3 j hj i hi
    · intro hlt
      rcases lt_trichotomy (s.getD i 0) (s.getD j 0) with h | h | h
      · exact h
      · have : i = j := by
          have := (List.nodup_iff_injective_get.mp hs)
          have h' : s.get ⟨i, hi⟩ = s.get ⟨j, hj⟩ := by
            rw [List.getD_eq_getElem _ _ hi, List.getD_eq_getElem _ _ hj] at h
            simpa using h
          simpa using this h'
        subst this; omega
      · have := h3 i hi j hj h; omega
  have himg : ((Finset.range s.length).filter fun j => s.getD i 0 < s.getD j 0).image r
      = Finset.range (r i) := by
    have hsurj : (Finset.range s.length).image r = Finset.range s.length := by
      apply Finset.eq_of_subset_of_card_le
      · intro x hx
        obtain ⟨j, hj, rfl⟩ := Finset.mem_image.mp hx
        exact Finset.mem_range.mpr (h1 j (Finset.mem_range.mp hj))
      · rw [Finset.card_image_of_injOn]
        intro a ha b hb hab
        exact h2 a (by simpa using ha) b (by simpa using hb) hab
    ext x
    simp only [Finset.mem_image, Finset.mem_filter, Finset.mem_range]
    constructor
    · rintro ⟨j, ⟨hj, hlt⟩, rfl⟩
      exact (hgt j hj).1 hlt
    · intro hx
      have : x ∈ (Finset.range s.length).image r := by
        rw [hsurj]; exact Finset.mem_range.mpr (lt_trans hx (h1 i hi))
      obtain ⟨j, hj, rfl⟩ := Finset.mem_image.mp this
      have hj' := Finset.mem_range.mp hj
      exact ⟨j, ⟨hj', (hgt j hj').2 hx⟩, rfl⟩
  have hc := congrArg Finset.card himg
  rw [Finset.card_image_of_injOn, Finset.card_range] at hc
  · exact hc.symm
  · intro a ha b hb hab
    simp only [Finset.coe_filter, Finset.mem_range, Set.mem_ofPred_eq] at ha hb
    exact h2 a ha.1 b hb.1 hab

end Spec
end DHG
