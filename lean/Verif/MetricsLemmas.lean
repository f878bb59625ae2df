import Mathlib.Algebra.BigOperators.Group.Finset.Piecewise
import Mathlib.Algebra.BigOperators.Ring.Finset
import Mathlib.Algebra.BigOperators.Group.List.Basic
import Mathlib.Algebra.Order.Field.Basic
import Mathlib.Data.List.Nodup
import Verif.MetricsSpec

/-! # Lemmas about rankings and the metrics computed from them -/

set_option linter.unusedSectionVars false
set_option autoImplicit false

namespace DHG
namespace Metrics
open Utils Spec

/-! ### positions in a duplicate free list -/

theorem idxOf_getElem' {l : List Nat} (h : l.Nodup) (p : Nat) (hp : p < l.length) :
    l.idxOf l[p] = p := h.idxOf_getElem p hp

theorem mem_take_iff {l : List Nat} (h : l.Nodup) (c i : Nat) :
    i ∈ l.take c ↔ i ∈ l ∧ l.idxOf i < c := by
  constructor
  · intro hi
    obtain ⟨p, hp, rfl⟩ := List.mem_iff_getElem.mp hi
    rw [List.length_take] at hp
    rw [List.getElem_take]
    refine ⟨List.getElem_mem _, ?_⟩
    rw [idxOf_getElem' h]
    omega
  · rintro ⟨hi, hc⟩
    have hl := List.idxOf_lt_length_of_mem hi
    refine List.mem_iff_getElem.mpr ⟨l.idxOf i, ?_, ?_⟩
    · rw [List.length_take]; omega
    · rw [List.getElem_take]; exact List.getElem_idxOf hl

theorem zipIdx_map_idxOf {β : Type} {l : List Nat} (h : l.Nodup) (F : Nat → Nat → β) :
    (l.zipIdx.map fun p => F p.2 p.1) = l.map fun i => F (l.idxOf i) i := by
  apply List.ext_getElem
  · simp
  · intro p h1 h2
    simp only [List.length_map, List.length_zipIdx] at h1
    simp [idxOf_getElem' h p h1]

section
variable {K : Type} [Field K] [LinearOrder K]

theorem sum_take_map {l : List Nat} {n : Nat} (hp : l.Perm (List.range n)) (c : Nat) (f : Nat → K) :
    ((l.take c).map f).sum = ∑ i ∈ (Finset.range n).filter (fun i => l.idxOf i < c), f i := by
  have hn : l.Nodup := hp.nodup_iff.mpr List.nodup_range
  rw [← List.sum_toFinset f (hn.sublist (List.take_sublist c l))]
  apply Finset.sum_congr _ fun _ _ => rfl
  ext i
  rw [List.mem_toFinset, mem_take_iff hn, Finset.mem_filter, Finset.mem_range, hp.mem_iff,
    List.mem_range]

theorem slice_zero {α : Type} (l : List α) (c : Int) (hc : 0 ≤ c) : slice l 0 c = l.take c.toNat := by
  unfold slice sliceBound
  rw [if_neg (by omega), if_neg (by omega)]
  simp

/-! ### the ranking given by an argsort -/

/-- the place of item `i` -/
def rankOf (srt : Argsort K) (b : List K) (i : Nat) : Nat := (srt b).idxOf i

variable {srt : Argsort K} (hs : SortsDesc srt)
include hs

theorem srt_nodup (b : List K) : (srt b).Nodup := (hs b).1.nodup_iff.mpr List.nodup_range

theorem srt_length (b : List K) : (srt b).length = b.length := by
  rw [(hs b).1.length_eq, List.length_range]

theorem mem_srt (b : List K) (i : Nat) : i ∈ srt b ↔ i < b.length := by
  rw [(hs b).1.mem_iff, List.mem_range]

theorem rankOf_lt (b : List K) (i : Nat) (hi : i < b.length) : rankOf srt b i < b.length := by
  rw [← srt_length hs b]
  exact List.idxOf_lt_length_of_mem ((mem_srt hs b i).2 hi)

theorem rankOf_inj (b : List K) (i j : Nat) (hi : i < b.length) (hj : j < b.length)
    (h : rankOf srt b i = rankOf srt b j) : i = j := by
  have h1 := List.getElem_idxOf (List.idxOf_lt_length_of_mem ((mem_srt hs b i).2 hi))
  have h2 := List.getElem_idxOf (List.idxOf_lt_length_of_mem ((mem_srt hs b j).2 hj))
  unfold rankOf at h
  rw [← h1, ← h2]
  simp only [h]

theorem ranks (b : List K) : Ranks b (rankOf srt b) := by
  refine ⟨rankOf_lt hs b, fun i hi j hj => rankOf_inj hs b i j hi hj, ?_⟩
  intro i hi j hj hlt
  by_contra hcon
  rw [not_lt] at hcon
  rcases Nat.lt_or_eq_of_le hcon with h | h
  · have h1 := List.idxOf_lt_length_of_mem ((mem_srt hs b i).2 hi)
    have h2 := List.idxOf_lt_length_of_mem ((mem_srt hs b j).2 hj)
    have := List.pairwise_iff_getElem.mp (hs b).2 _ _ h2 h1 h
    rw [List.getElem_idxOf h1, List.getElem_idxOf h2] at this
    exact absurd hlt (not_lt.mpr this)
  · have := rankOf_inj hs b j i hj hi h
    subst this
    exact absurd hlt (lt_irrefl _)

/-- a strictly sorted order is the only possible result -/
theorem srt_eq (b : List K) (l : List Nat) (hp : l.Perm (List.range b.length))
    (hl : l.Pairwise fun i j => b.getD j 0 < b.getD i 0) : srt b = l := by
  have hp' : (srt b).Perm l := (hs b).1.trans hp.symm
  refine hp'.eq_of_pairwise (le := fun i j => b.getD j 0 ≤ b.getD i 0) ?_ (hs b).2
    (hl.imp fun h => le_of_lt h)
  intro i j hi hj h1 h2
  have hmem : i ∈ l := hp'.mem_iff.mp hi
  by_contra hne
  have : b.getD i 0 ≠ b.getD j 0 := by
    obtain ⟨p, hp1, rfl⟩ := List.mem_iff_getElem.mp hmem
    obtain ⟨q, hq1, rfl⟩ := List.mem_iff_getElem.mp hj
    rcases Nat.lt_trichotomy p q with h | h | h
    · exact (ne_of_gt (List.pairwise_iff_getElem.mp hl p q hp1 hq1 h))
    · subst h; exact absurd rfl hne
    · exact (ne_of_lt (List.pairwise_iff_getElem.mp hl q p hq1 hp1 h))
  exact this (le_antisymm h2 h1)

omit hs

theorem ranked_eq (a b : List K) : ranked srt a b = (srt b).map fun i => a.getD i 0 := rfl

include hs

theorem ranked_length (a b : List K) : (ranked srt a b).length = b.length := by
  rw [ranked_eq, List.length_map, srt_length hs]

/-- a sum over the first places is a sum over the items at those places -/
theorem ranked_sum (a b : List K) (hab : a.length = b.length) (c : Int) (hc : 0 ≤ c) :
    (slice (ranked srt a b) 0 c).sum
      = ∑ i ∈ (Finset.range a.length).filter (fun i => (rankOf srt b i : Int) < c), a.getD i 0 := by
  rw [slice_zero _ _ hc, ranked_eq, ← List.map_take, sum_take_map (hs b).1, hab]
  apply Finset.sum_congr _ fun _ _ => rfl
  apply Finset.filter_congr
  intro i _
  unfold rankOf
  omega

/-- the same with weights depending on the place -/
theorem ranked_sum_at (a b : List K) (hab : a.length = b.length) (c : Int) (hc : 0 ≤ c)
    (G : Nat → K → K) :
    ((slice (ranked srt a b) 0 c).zipIdx.map fun p => G p.2 p.1).sum
      = ∑ i ∈ (Finset.range a.length).filter (fun i => (rankOf srt b i : Int) < c),
          G (rankOf srt b i) (a.getD i 0) := by
  have hn := srt_nodup hs b
  have hm : ((slice (ranked srt a b) 0 c).zipIdx.map fun p => G p.2 p.1)
      = ((srt b).take c.toNat).map fun i => G (rankOf srt b i) (a.getD i 0) := by
    rw [slice_zero _ _ hc, ranked_eq, ← List.map_take, List.zipIdx_map, List.map_map]
    have := zipIdx_map_idxOf (l := (srt b).take c.toNat) (hn.sublist (List.take_sublist _ _))
      (fun p i => G p (a.getD i 0))
    refine (Eq.trans ?_ this).trans ?_
    · apply List.map_congr_left
      intro p _
      rfl
    · apply List.map_congr_left
      intro i hi
      have hi2 := (mem_take_iff hn _ _).1 hi
      have : ((srt b).take c.toNat).idxOf i = rankOf srt b i := by
        unfold rankOf
        conv_rhs => rw [← List.take_append_drop c.toNat (srt b)]
        rw [List.idxOf_append_of_mem hi]
      rw [this]
  rw [hm, sum_take_map (hs b).1, hab]
  apply Finset.sum_congr _ fun _ _ => rfl
  apply Finset.filter_congr
  intro i _
  unfold rankOf
  omega

end

/-! ### binary rows -/

section
variable {K : Type} [Field K] [LinearOrder K] [IsStrictOrderedRing K]

theorem binary_getD {a : List K} (ha : ∀ x ∈ a, x = 0 ∨ x = 1) (i : Nat) :
    a.getD i 0 = if 0 < a.getD i 0 then 1 else 0 := by
  by_cases hi : i < a.length
  · rw [List.getD_eq_getElem _ _ hi]
    rcases ha _ (List.getElem_mem hi) with h | h <;> rw [h] <;> simp
  · rw [List.getD_eq_default _ _ (by omega)]; simp

theorem binary_sum {a : List K} (ha : ∀ x ∈ a, x = 0 ∨ x = 1) (s : Finset Nat) :
    ∑ i ∈ s, a.getD i 0 = ((s.filter fun i => 0 < a.getD i 0).card : K) := by
  rw [Finset.sum_congr rfl fun i _ => binary_getD ha i, Finset.sum_boole]

theorem list_sum_range (a : List K) : a.sum = ∑ i ∈ Finset.range a.length, a.getD i 0 := by
  rw [Finset.sum_range, ← List.sum_ofFn]
  congr 1
  apply List.ext_getElem
  · simp
  · intro p h1 h2
    simp [List.getD_eq_getElem _ _ h1]

theorem binary_total {a : List K} (ha : ∀ x ∈ a, x = 0 ∨ x = 1) : a.sum = ((relevant a).card : K) := by
  rw [list_sum_range, binary_sum ha]; rfl

theorem ranked_found {srt : Argsort K} (hs : SortsDesc srt) {a b : List K} (hab : a.length = b.length)
    (ha : ∀ x ∈ a, x = 0 ∨ x = 1) (c : Int) (hc : 0 ≤ c) :
    (slice (ranked srt a b) 0 c).sum = ((found a (rankOf srt b) c).card : K) := by
  rw [ranked_sum hs a b hab c hc, binary_sum ha, Finset.filter_filter]
  congr 2
  ext i
  simp only [found, relevant, Finset.mem_filter, Finset.mem_range]
  tauto

theorem found_subset (a : List K) (r : Nat → Nat) (c : Int) : found a r c ⊆ relevant a :=
  Finset.filter_subset _ _

/-- no more relevant items than places -/
theorem found_card_le {b : List K} {r : Nat → Nat} (hr : Ranks b r) {a : List K}
    (hab : a.length = b.length) (c : Int) (hc : 0 ≤ c) : ((found a r c).card : Int) ≤ c := by
  have : (found a r c).card ≤ (Finset.range c.toNat).card := by
    apply Finset.card_le_card_of_injOn r
    · intro i hi
      simp only [found, relevant, Finset.coe_filter, Finset.mem_filter, Finset.mem_range,
        Set.mem_ofPred_eq] at hi
      simp only [Finset.coe_range, Set.mem_Iio]
      omega
    · intro i hi j hj hij
      simp only [found, relevant, Finset.coe_filter, Finset.mem_filter, Finset.mem_range,
        Set.mem_ofPred_eq] at hi hj
      exact hr.2.1 i (by omega) j (by omega) hij
  rw [Finset.card_range] at this
  omega

theorem found_all {b : List K} {r : Nat → Nat} (hr : Ranks b r) {a : List K}
    (hab : a.length = b.length) (c : Int) (hc : (a.length : Int) ≤ c) : found a r c = relevant a := by
  apply Finset.filter_true_of_mem
  intro i hi
  simp only [relevant, Finset.mem_filter, Finset.mem_range] at hi
  have := hr.1 i (by omega)
  omega

end

/-! ### the checks on the inputs -/

section
variable {K : Type} [Field K] [LinearOrder K]

theorem asRows_ok {yt yp : Arr K} {r : Nat × List (List K) × List (List K)} (h : asRows yt yp = .ok r) :
    r = (targets yt, samples yt, samples yp) ∧ (samples yt).length = (samples yp).length ∧
      (yt.Rect → yp.Rect → ∀ (i : Nat) (a b : List K), (samples yt)[i]? = some a → (samples yp)[i]? = some b →
        a.length = targets yt ∧ b.length = targets yt) := by
  unfold asRows at h
  split at h
  · cases h
  · rename_i hsh
    rw [not_not] at hsh
    split at h
    · rename_i a b
      cases h
      simp only [Arr.shape, List.cons.injEq, and_true] at hsh
      refine ⟨rfl, rfl, ?_⟩
      intro _ _ i x y hx hy
      simp only [samples, List.getElem?_cons] at hx hy
      split at hx
      · rename_i h0
        rw [if_pos h0] at hy
        cases hx; cases hy
        exact ⟨rfl, hsh.symm⟩
      · simp at hx
    · rename_i w a w' b
      cases h
      simp only [Arr.shape, List.cons.injEq, and_true] at hsh
      refine ⟨rfl, hsh.1, ?_⟩
      intro h1 h2 i x y hx hy
      obtain ⟨rfl⟩ := hsh.2
      exact ⟨h1 x (List.mem_of_getElem? hx), h2 y (List.mem_of_getElem? hy)⟩
    · cases h

variable [FloorRing K]

theorem format_ok {t : Task} {yt yp : Arr K} {k : Option Int} {ratio : Option K}
    {r : List (List K) × List (List K) × Int} (h : format t yt yp k ratio = .ok r) :
    r = (samples yt, samples yp, places (targets yt) k ratio) ∧
      (samples yt).length = (samples yp).length ∧
      (yt.Rect → yp.Rect → ∀ (i : Nat) (a b : List K), (samples yt)[i]? = some a → (samples yp)[i]? = some b →
        a.length = targets yt ∧ b.length = targets yt) ∧
      (∀ q, ratio = some q → 0 < q ∧ q ≤ 1 ∧ t = .retrieval) := by
  have key : ∀ x, asRows yt yp = .ok x → _ := fun x hx => asRows_ok hx
  cases t <;> simp only [format, formatRet, formatRec] at h <;>
    rcases hr : asRows yt yp with e | x <;> simp only [hr] at h
  · cases h
  · obtain ⟨rfl, h2, h3⟩ := key x hr
    rcases ratio with _ | q
    · cases h
      exact ⟨by rcases k with _ | k <;> rfl, h2, h3, fun q hq => by cases hq⟩
    · change (if 0 < q ∧ q ≤ 1 then _ else _) = _ at h
      split at h
      · rename_i hq
        cases h
        exact ⟨rfl, h2, h3, fun q' hq' => by cases hq'; exact ⟨hq.1, hq.2, rfl⟩⟩
      · cases h
  · cases h
  · obtain ⟨rfl, h2, h3⟩ := key x hr
    rcases ratio with _ | q
    · cases h
      exact ⟨by rcases k with _ | k <;> rfl, h2, h3, fun q hq => by cases hq⟩
    · cases h

theorem format_total {t : Task} {yt yp : Arr K} {k : Option Int} {ratio : Option K}
    (hsh : yt.shape = yp.shape) (hd : (samples yt).length = (samples yp).length)
    (hother : (∀ s, yt ≠ .other s) ∧ (∀ s, yp ≠ .other s)) (h1 : yt.Rect) (h2 : yp.Rect)
    (hq : ∀ q, ratio = some q → 0 < q ∧ q ≤ 1 ∧ t = .retrieval) :
    ∃ r, format t yt yp k ratio = .ok r := by
  have : ∃ x, asRows yt yp = .ok x := by
    unfold asRows
    rw [if_neg (by simpa using hsh)]
    rcases yt with a | ⟨w, a⟩ | s <;> rcases yp with b | ⟨w', b⟩ | s'
    · exact ⟨_, rfl⟩
    · simp [Arr.shape] at hsh
    · exact absurd rfl (hother.2 s')
    · simp [Arr.shape] at hsh
    · exact ⟨_, rfl⟩
    · exact absurd rfl (hother.2 s')
    · exact absurd rfl (hother.1 s)
    · exact absurd rfl (hother.1 s)
    · exact absurd rfl (hother.1 s)
  obtain ⟨x, hx⟩ := this
  cases t <;> simp only [format, formatRet, formatRec, hx] <;> rcases ratio with _ | q
  · exact ⟨_, rfl⟩
  · obtain ⟨h1, h2, _⟩ := hq q rfl
    exact ⟨_, if_pos ⟨h1, h2⟩⟩
  · exact ⟨_, rfl⟩
  · cases (hq q rfl).2.2

theorem mapM_some (xs : List K) : (xs.map some).mapM (m := Option) id = some xs := by
  induction xs with
  | nil => rfl
  | cons x xs ih => simp [List.mapM_cons, ih]

theorem fmean_some [CharZero K] (xs : List K) (h : xs ≠ []) :
    fmean (xs.map some) = some (average xs) := by
  unfold fmean fdiv average
  rw [mapM_some]
  refine if_neg ?_
  rw [Nat.cast_eq_zero, List.length_eq_zero_iff]
  exact h

omit [FloorRing K] in
theorem fmean_nil : fmean ([] : List (Option K)) = none := by
  simp [fmean, fdiv]

/-- the mean over a list without missing values -/
theorem fmean_ok [CharZero K] (xs : List (Option K)) (ys : List K) (h : xs = ys.map some) (hne : ys ≠ []) :
    fmean xs = some (average ys) := by rw [h]; exact fmean_some ys hne

theorem getElem?_zipWith' {α β γ : Type} (f : α → β → γ) (l1 : List α) (l2 : List β) (i : Nat) (a : α)
    (b : β) (ha : l1[i]? = some a) (hb : l2[i]? = some b) :
    (List.zipWith f l1 l2)[i]? = some (f a b) := by
  rw [List.getElem?_zipWith, ha, hb]

theorem checkBinary_ok {rows : List (List K)} {u : Unit} (h : checkBinary rows = .ok u) :
    ∃ row ∈ rows, (1 : K) ∈ row := by
  unfold checkBinary at h
  split at h
  · cases h
  · rename_i m hm
    split at h
    · rename_i h1
      subst h1
      have := List.max?_mem hm
      rw [List.mem_flatten] at this
      exact this
    · cases h

theorem checkBinary_total [IsStrictOrderedRing K] {rows : List (List K)}
    (hb : ∀ row ∈ rows, ∀ x ∈ row, x = 0 ∨ x = 1) (h1 : ∃ row ∈ rows, (1 : K) ∈ row) :
    checkBinary rows = .ok () := by
  unfold checkBinary
  have hmem : (1 : K) ∈ rows.flatten := List.mem_flatten.mpr h1
  have : rows.flatten.max? = some 1 := by
    rw [List.max?_eq_some_iff]
    refine ⟨hmem, ?_⟩
    intro x hx
    obtain ⟨row, hr, hx⟩ := List.mem_flatten.mp hx
    rcases hb row hr x hx with h | h <;> rw [h]
    exact zero_le_one
  rw [this]
  exact if_pos rfl

theorem checkBinary_raises [IsStrictOrderedRing K] {rows : List (List K)}
    (hb : ∀ row ∈ rows, ∀ x ∈ row, x = 0) (h1 : ∃ row ∈ rows, row ≠ []) :
    checkBinary rows = .error .assertion := by
  unfold checkBinary
  obtain ⟨row, hr, hne⟩ := h1
  obtain ⟨x, hx⟩ := List.exists_mem_of_ne_nil row hne
  have hmem : (0 : K) ∈ rows.flatten := List.mem_flatten.mpr ⟨row, hr, hb row hr x hx ▸ hx⟩
  have : rows.flatten.max? = some 0 := by
    rw [List.max?_eq_some_iff]
    refine ⟨hmem, ?_⟩
    intro x hx
    obtain ⟨row, hr, hx⟩ := List.mem_flatten.mp hx
    rw [hb row hr x hx]
  rw [this]
  exact if_neg (by simp)

theorem places_nonneg [IsStrictOrderedRing K] {n : Nat} {k : Option Int} {ratio : Option K}
    (hk : ∀ x, k = some x → 0 < x) (hq : ∀ q, ratio = some q → 0 < q ∧ q ≤ 1) :
    0 ≤ places n k ratio := by
  rcases ratio with _ | q <;> rcases k with _ | k <;> simp only [places]
  · omega
  · have := hk k rfl; omega
  all_goals exact Int.ceil_nonneg (mul_nonneg (Nat.cast_nonneg n) (hq q rfl).1.le)

theorem places_pos [IsStrictOrderedRing K] {n : Nat} {k : Option Int} {ratio : Option K} (hn : 0 < n)
    (hk : ∀ x, k = some x → 0 < x) (hq : ∀ q, ratio = some q → 0 < q ∧ q ≤ 1) :
    0 < places n k ratio := by
  rcases ratio with _ | q <;> rcases k with _ | k <;> simp only [places]
  · omega
  · have := hk k rfl; omega
  all_goals exact Int.ceil_pos.mpr (mul_pos (Nat.cast_pos.mpr hn) (hq q rfl).1)

theorem places_le [IsStrictOrderedRing K] {n : Nat} {k : Option Int} {ratio : Option K}
    (hq : ∀ q, ratio = some q → 0 < q ∧ q ≤ 1) : places n k ratio ≤ n := by
  rcases ratio with _ | q <;> rcases k with _ | k <;> simp only [places]
  · exact le_rfl
  · exact min_le_right _ _
  all_goals
    refine Int.ceil_le.mpr ?_
    have := mul_le_mul_of_nonneg_left (hq q rfl).2 (Nat.cast_nonneg (α := K) n)
    simpa using this

end

end Metrics
end DHG
