import Verif.MetricsNdcg

/-! # Average precision, reciprocal rank, precision-recall curve -/

set_option linter.unusedSectionVars false
set_option autoImplicit false

namespace DHG
namespace Metrics
open Utils Spec

section
variable {K : Type} [Field K] [LinearOrder K]

/-- the relevant items, first ranked first -/
def hits (srt : Argsort K) (a b : List K) : List Nat := (srt b).filter fun i => decide (0 < a.getD i 0)

theorem idxOf_append_cons {pre suf : List Nat} {x : Nat} (h : (pre ++ x :: suf).Nodup) :
    (pre ++ x :: suf).idxOf x = pre.length := by
  have hx : x ∉ pre := by
    intro hx
    have := List.nodup_append.mp h
    exact this.2.2 x hx x (by simp) rfl
  rw [List.idxOf_append_of_notMem hx]
  simp

theorem hitTerms (g : Nat → K) (l : List Nat) (hn : l.Nodup) :
    ∀ (suf pre : List Nat), l = pre ++ suf →
      ((predIndexFrom pre.length (suf.map g)).zipIdx (pre.countP fun i => decide (0 < g i))).map
          (fun p => ((p.2 + 1 : Nat) : K) / (p.1 : K))
        = (suf.filter fun i => decide (0 < g i)).map fun j =>
          (((l.take (l.idxOf j + 1)).countP fun i => decide (0 < g i) : Nat) : K) / ((l.idxOf j : K) + 1) := by
  intro suf
  induction suf with
  | nil => intro pre _; rfl
  | cons x suf ih =>
    intro pre hl
    have ih' := ih (pre ++ [x]) (by simpa using hl)
    rw [List.length_append, List.countP_append] at ih'
    simp only [List.map_cons, predIndexFrom]
    by_cases hx : 0 < g x
    · rw [if_pos hx, List.filter_cons_of_pos (by simpa using hx), List.zipIdx_cons, List.map_cons,
        List.map_cons]
      have hidx : l.idxOf x = pre.length := by rw [hl]; exact idxOf_append_cons (hl ▸ hn)
      congr 1
      · rw [hidx, hl]
        have : (pre ++ x :: suf).take (pre.length + 1) = pre ++ [x] := by
          rw [List.take_append]; simp
        rw [this, List.countP_append]
        simp [hx]
      · simpa [hx] using ih'
    · rw [if_neg hx, List.filter_cons_of_neg (by simpa using hx)]
      simpa [hx] using ih'

variable {srt : Argsort K} (hs : SortsDesc srt)
include hs

theorem mem_hits (a b : List K) (hab : a.length = b.length) (i : Nat) :
    i ∈ hits srt a b ↔ i ∈ relevant a := by
  simp only [hits, relevant, List.mem_filter, mem_srt hs, decide_eq_true_eq, Finset.mem_filter,
    Finset.mem_range, hab]

theorem hits_nodup (a b : List K) : (hits srt a b).Nodup := (srt_nodup hs b).filter _

theorem hits_toFinset (a b : List K) (hab : a.length = b.length) : (hits srt a b).toFinset = relevant a := by
  ext i; rw [List.mem_toFinset, mem_hits hs a b hab]

theorem hits_length (a b : List K) (hab : a.length = b.length) :
    (hits srt a b).length = (relevant a).card := by
  rw [← hits_toFinset hs a b hab, List.toFinset_card_of_nodup (hits_nodup hs a b)]

theorem hits_sum (a b : List K) (hab : a.length = b.length) (f : Nat → K) :
    ((hits srt a b).map f).sum = ∑ i ∈ relevant a, f i := by
  rw [← hits_toFinset hs a b hab, List.sum_toFinset f (hits_nodup hs a b)]

/-- the ranking order restricted to the relevant items -/
theorem hits_sorted (a b : List K) :
    (hits srt a b).Pairwise fun i j => rankOf srt b i < rankOf srt b j := by
  apply List.Pairwise.filter
  rw [List.pairwise_iff_getElem]
  intro p q hp hq hpq
  unfold rankOf
  rw [idxOf_getElem' (srt_nodup hs b), idxOf_getElem' (srt_nodup hs b)]
  exact hpq

theorem precisionAtHits_eq (a b : List K) (hab : a.length = b.length) :
    precisionAtHits (ranked srt a b) = (hits srt a b).map (precisionAt a (rankOf srt b)) := by
  have h := hitTerms (fun i => a.getD i 0) (srt b) (srt_nodup hs b) (srt b) [] rfl
  unfold precisionAtHits
  rw [ranked_eq]
  refine h.trans ?_
  apply List.map_congr_left
  intro j hj
  unfold precisionAt
  congr 2
  rw [List.countP_eq_length_filter, ← List.toFinset_card_of_nodup
    (((srt_nodup hs b).sublist (List.take_sublist _ _)).filter _)]
  congr 1
  ext i
  rw [List.mem_toFinset, List.mem_filter, mem_take_iff (srt_nodup hs b), mem_srt hs]
  simp only [relevant, Finset.mem_filter, Finset.mem_range, decide_eq_true_eq, hab]
  unfold rankOf
  constructor
  · rintro ⟨⟨h1, h2⟩, h3⟩; exact ⟨⟨h1, h3⟩, by omega⟩
  · rintro ⟨⟨h1, h3⟩, h2⟩; exact ⟨⟨h1, by omega⟩, h3⟩

omit hs

theorem cummaxFrom_length (m : K) (xs : List K) : (cummaxFrom m xs).length = xs.length := by
  induction xs generalizing m with
  | nil => rfl
  | cons x xs ih => simp [cummaxFrom, ih]

theorem cummax_length (xs : List K) : (cummax xs).length = xs.length := by
  cases xs with
  | nil => rfl
  | cons x xs => simp [cummax, cummaxFrom_length]

theorem cummaxFrom_get (m : K) (xs : List K) (j : Nat) (y : K) (hj : (cummaxFrom m xs)[j]? = some y) :
    IsGreatest {z | z = m ∨ ∃ i ≤ j, xs[i]? = some z} y := by
  induction xs generalizing m j with
  | nil => simp [cummaxFrom] at hj
  | cons x xs ih =>
    rcases j with _ | j
    · simp only [cummaxFrom, List.getElem?_cons_zero, Option.some.injEq] at hj
      subst hj
      constructor
      · rcases max_choice m x with h | h
        · exact .inl h
        · exact .inr ⟨0, le_rfl, by simp [h]⟩
      · rintro z (rfl | ⟨i, hi, hz⟩)
        · exact le_max_left _ _
        · obtain rfl : i = 0 := by omega
          simp only [List.getElem?_cons_zero, Option.some.injEq] at hz
          exact hz ▸ le_max_right _ _
    · simp only [cummaxFrom, List.getElem?_cons_succ] at hj
      obtain ⟨h1, h2⟩ := ih (max m x) j hj
      constructor
      · rcases h1 with h1 | ⟨i, hi, hz⟩
        · rcases max_choice m x with h | h
          · exact .inl (h1.trans h)
          · exact .inr ⟨0, by omega, by simp [h1, h]⟩
        · exact .inr ⟨i + 1, by omega, by simpa using hz⟩
      · rintro z (rfl | ⟨i, hi, hz⟩)
        · exact le_trans (le_max_left _ _) (h2 (.inl rfl))
        · rcases i with _ | i
          · simp only [List.getElem?_cons_zero, Option.some.injEq] at hz
            subst hz
            exact le_trans (le_max_right _ _) (h2 (.inl rfl))
          · exact h2 (.inr ⟨i, by omega, by simpa using hz⟩)

theorem cummax_get (xs : List K) (j : Nat) (y : K) (hj : (cummax xs)[j]? = some y) :
    IsGreatest {z | ∃ i ≤ j, xs[i]? = some z} y := by
  cases xs with
  | nil => simp [cummax] at hj
  | cons x xs =>
    rcases j with _ | j
    · simp only [cummax, List.getElem?_cons_zero, Option.some.injEq] at hj
      subst hj
      constructor
      · exact ⟨0, le_rfl, rfl⟩
      · rintro z ⟨i, hi, hz⟩
        obtain rfl : i = 0 := by omega
        simp only [List.getElem?_cons_zero, Option.some.injEq] at hz
        exact hz.symm.le
    · simp only [cummax, List.getElem?_cons_succ] at hj
      obtain ⟨h1, h2⟩ := cummaxFrom_get x xs j y hj
      constructor
      · rcases h1 with h1 | ⟨i, hi, hz⟩
        · exact ⟨0, by omega, by simp [h1]⟩
        · exact ⟨i + 1, by omega, by simpa using hz⟩
      · rintro z ⟨i, hi, hz⟩
        rcases i with _ | i
        · simp only [List.getElem?_cons_zero, Option.some.injEq] at hz
          exact h2 (.inl hz.symm)
        · exact h2 (.inr ⟨i, by omega, by simpa using hz⟩)

/-- the running maximum from the end, as a function on the list -/
theorem sufMax_get (xs : List K) (j : Nat) (y : K) (hj : ((cummax xs.reverse).reverse)[j]? = some y) :
    IsGreatest {z | ∃ i, j ≤ i ∧ xs[i]? = some z} y := by
  have hlt : j < xs.length := by
    have := (List.getElem?_eq_some_iff.mp hj).1
    simpa [cummax_length] using this
  rw [List.getElem?_reverse (by simpa [cummax_length] using hlt), cummax_length, List.length_reverse] at hj
  have h := cummax_get _ _ _ hj
  have hset : {z | ∃ i ≤ xs.length - 1 - j, xs.reverse[i]? = some z}
      = {z | ∃ i, j ≤ i ∧ xs[i]? = some z} := by
    ext z
    constructor
    · rintro ⟨i, hi, hz⟩
      have hi' : i < xs.length := by omega
      rw [List.getElem?_reverse hi'] at hz
      exact ⟨xs.length - 1 - i, by omega, hz⟩
    · rintro ⟨i, hi, hz⟩
      have hi' : i < xs.length := (List.getElem?_eq_some_iff.mp hz).1
      refine ⟨xs.length - 1 - i, by omega, ?_⟩
      rw [List.getElem?_reverse (by omega)]
      rw [show xs.length - 1 - (xs.length - 1 - i) = i by omega]
      exact hz
  rw [hset] at h
  exact h

include hs

/-- the interpolated precision of every relevant item -/
theorem interpolated (a b : List K) (hab : a.length = b.length) :
    ∃ M : Nat → K, (cummax (precisionAtHits (ranked srt a b)).reverse).reverse = (hits srt a b).map M ∧
      ∀ i ∈ relevant a, IsGreatest {z | ∃ j ∈ relevant a, rankOf srt b i ≤ rankOf srt b j ∧
        z = precisionAt a (rankOf srt b) j} (M i) := by
  set xs := precisionAtHits (ranked srt a b) with hxs
  have hx : xs = (hits srt a b).map (precisionAt a (rankOf srt b)) := precisionAtHits_eq hs a b hab
  have hlen : (cummax xs.reverse).reverse.length = (hits srt a b).length := by
    simp [cummax_length, hx]
  refine ⟨fun i => (cummax xs.reverse).reverse.getD ((hits srt a b).idxOf i) 0, ?_, ?_⟩
  · apply List.ext_getElem
    · simp [hlen]
    · intro p h1 h2
      have h3 : p < (hits srt a b).length := by rw [← hlen]; exact h1
      rw [List.getElem_map]
      show _ = (cummax xs.reverse).reverse.getD ((hits srt a b).idxOf (hits srt a b)[p]) 0
      rw [idxOf_getElem' (hits_nodup hs a b) p h3, List.getD_eq_getElem _ _ h1]
  · intro i hi
    have hi' := (mem_hits hs a b hab i).2 hi
    have hlt := List.idxOf_lt_length_of_mem hi'
    set p := (hits srt a b).idxOf i with hp
    have hget : (cummax xs.reverse).reverse[p]? = some ((cummax xs.reverse).reverse.getD p 0) := by
      rw [List.getD_eq_getElem _ _ (by rw [hlen]; exact hlt), List.getElem?_eq_getElem]
    have h := sufMax_get xs p _ hget
    have hset : {z | ∃ q, p ≤ q ∧ xs[q]? = some z} = {z | ∃ j ∈ relevant a, rankOf srt b i ≤ rankOf srt b j ∧
        z = precisionAt a (rankOf srt b) j} := by
      have hpi : (hits srt a b)[p] = i := List.getElem_idxOf hlt
      ext z
      constructor
      · rintro ⟨q, hpq, hz⟩
        rw [hx, List.getElem?_map] at hz
        rcases hq : (hits srt a b)[q]? with _ | j
        · rw [hq] at hz; cases hz
        · rw [hq] at hz
          cases hz
          obtain ⟨hql, hqj⟩ := List.getElem?_eq_some_iff.mp hq
          refine ⟨j, (mem_hits hs a b hab j).1 (List.mem_of_getElem? hq), ?_, rfl⟩
          rcases Nat.lt_or_eq_of_le hpq with hlt' | heq
          · have := List.pairwise_iff_getElem.mp (hits_sorted hs a b) p q hlt hql hlt'
            rw [hpi, hqj] at this
            exact this.le
          · have : j = i := by rw [← hqj, ← hpi]; simp only [heq]
            rw [this]
      · rintro ⟨j, hj, hle, rfl⟩
        have hj' := (mem_hits hs a b hab j).2 hj
        have hjl := List.idxOf_lt_length_of_mem hj'
        refine ⟨(hits srt a b).idxOf j, ?_, ?_⟩
        · by_contra hcon
          rw [not_le] at hcon
          have := List.pairwise_iff_getElem.mp (hits_sorted hs a b) _ p hjl hlt hcon
          rw [hpi, List.getElem_idxOf hjl] at this
          omega
        · rw [hx, List.getElem?_map, List.getElem?_eq_getElem hjl, List.getElem_idxOf hjl]
          rfl
    rw [hset] at h
    exact h

/-- the `t`-th relevant item has `t` relevant items before it -/
theorem hits_before (a b : List K) (hab : a.length = b.length) (t : Nat) (ht : t < (hits srt a b).length) :
    ({j ∈ relevant a | rankOf srt b j < rankOf srt b (hits srt a b)[t]} : Finset Nat).card = t := by
  have : ({j ∈ relevant a | rankOf srt b j < rankOf srt b (hits srt a b)[t]} : Finset Nat)
      = ((hits srt a b).take t).toFinset := by
    ext j
    rw [List.mem_toFinset, mem_take_iff (hits_nodup hs a b), Finset.mem_filter, mem_hits hs a b hab]
    constructor
    · rintro ⟨hj, hlt⟩
      refine ⟨hj, ?_⟩
      have hj' := (mem_hits hs a b hab j).2 hj
      have hjl := List.idxOf_lt_length_of_mem hj'
      by_contra hcon
      rw [not_lt] at hcon
      rcases Nat.lt_or_eq_of_le hcon with h | h
      · have := List.pairwise_iff_getElem.mp (hits_sorted hs a b) t _ ht hjl h
        rw [List.getElem_idxOf hjl] at this
        omega
      · have : (hits srt a b)[t] = j := by
          have := List.getElem_idxOf hjl
          simp only [← h] at this
          exact this
        rw [this] at hlt
        omega
    · rintro ⟨hj, hlt⟩
      refine ⟨hj, ?_⟩
      have hj' := (mem_hits hs a b hab j).2 hj
      have hjl := List.idxOf_lt_length_of_mem hj'
      have := List.pairwise_iff_getElem.mp (hits_sorted hs a b) _ t hjl ht hlt
      rwa [List.getElem_idxOf hjl] at this
  rw [this, List.toFinset_card_of_nodup ((hits_nodup hs a b).sublist (List.take_sublist _ _)),
    List.length_take]
  omega

omit hs

theorem recipTerms (g : Nat → K) (l : List Nat) (hn : l.Nodup) :
    ∀ (suf pre : List Nat), l = pre ++ suf →
      recipRanksFrom pre.length (suf.map g)
        = (suf.filter fun i => decide (g i ≠ 0)).map fun j => 1 / ((l.idxOf j : K) + 1) := by
  intro suf
  induction suf with
  | nil => intro pre _; rfl
  | cons x suf ih =>
    intro pre hl
    have ih' := ih (pre ++ [x]) (by simpa using hl)
    rw [List.length_append] at ih'
    simp only [List.map_cons, recipRanksFrom]
    by_cases hx : g x = 0
    · rw [if_pos hx, List.filter_cons_of_neg (by simpa using hx)]
      simpa using ih'
    · rw [if_neg hx, List.filter_cons_of_pos (by simpa using hx), List.map_cons]
      have hidx : l.idxOf x = pre.length := by rw [hl]; exact idxOf_append_cons (hl ▸ hn)
      rw [hidx]
      congr 1
      · simp

include hs

/-- the reciprocal ranks computed by `rr` -/
theorem recip_eq (a b : List K) (hab : a.length = b.length) (ha : ∀ x ∈ a, 0 ≤ x) (c : Int) (hc : 0 ≤ c) :
    ∃ L : List Nat, L.Nodup ∧ L.toFinset = found a (rankOf srt b) c ∧
      recipRanksFrom 0 (slice (ranked srt a b) 0 c) = L.map fun i => 1 / ((rankOf srt b i : K) + 1) := by
  have hn := srt_nodup hs b
  have hn' := hn.sublist (List.take_sublist c.toNat (srt b))
  refine ⟨((srt b).take c.toNat).filter fun i => decide (a.getD i 0 ≠ 0), hn'.filter _, ?_, ?_⟩
  · ext i
    rw [List.mem_toFinset, List.mem_filter, mem_take_iff hn, mem_srt hs]
    simp only [found, relevant, Finset.mem_filter, Finset.mem_range, hab, decide_eq_true_eq]
    unfold rankOf
    constructor
    · rintro ⟨⟨h1, h2⟩, h3⟩
      refine ⟨⟨h1, ?_⟩, by omega⟩
      rw [List.getD_eq_getElem _ _ (hab ▸ h1)] at h3 ⊢
      exact lt_of_le_of_ne (ha _ (List.getElem_mem _)) (Ne.symm h3)
    · rintro ⟨⟨h1, h2⟩, h3⟩
      exact ⟨⟨h1, by omega⟩, ne_of_gt h2⟩
  · rw [slice_zero _ _ hc, ranked_eq, ← List.map_take]
    have := recipTerms (fun i => a.getD i 0) _ hn' _ [] rfl
    refine this.trans ?_
    apply List.map_congr_left
    intro i hi
    have hi' := (List.mem_filter.mp hi).1
    have : ((srt b).take c.toNat).idxOf i = rankOf srt b i := by
      unfold rankOf
      conv_rhs => rw [← List.take_append_drop c.toNat (srt b)]
      rw [List.idxOf_append_of_mem hi']
    rw [this]

end

end Metrics
end DHG
