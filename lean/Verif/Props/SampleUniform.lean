import Mathlib.Analysis.SpecificLimits.Basic
import Verif.Props.RandomUniform
import Verif.Props.UtilsData

/-!
# Negative items and training triplets are drawn uniformly (C137)
-/

set_option linter.unusedSectionVars false
set_option autoImplicit false

open MeasureTheory ProbabilityTheory Filter

namespace DHG

/-! ## Specification -/

namespace Spec

/-- the items that are no partner of `u` -/
def negatives (pairs : List (Int × Int)) (ni : Nat) (u : Int) : Finset Nat :=
  (Finset.range ni).filter fun v => (u, (v : Int)) ∉ pairs

end Spec

namespace Props
namespace Law

open Finset Utils

section Prob
variable {Ω : Type} [MeasurableSpace Ω] {P : Measure Ω} [IsProbabilityMeasure P] {ω : Nat → Ω → Nat} {N : Nat}

/-- a draw among `N` things is also a fair draw among `q` things, if `q` divides `N` -/
theorem mod_law (h : Spec.UniformChoices P (fun _ => N) ω) (hN : 0 < N) {q : Nat} (hq : q ∣ N) (i : Nat) {a : Nat} (ha : a < q) :
    P {s | ω i s % q = a} = (q : ENNReal)⁻¹ := by
  obtain ⟨c, rfl⟩ := hq
  have hq0 : 0 < q := by omega
  have hc0 : 0 < c := Nat.pos_of_mul_pos_left hN
  have hset : {s | ω i s % q = a} = ⋃ j ∈ range c, {s | ω i s % (q * c) = a + q * j} := by
    ext s
    simp only [Set.mem_ofPred_eq, Set.mem_iUnion, mem_range, exists_prop]
    constructor
    · intro h1
      refine ⟨ω i s % (q * c) / q, ?_, ?_⟩
      · exact Nat.div_lt_of_lt_mul (Nat.mod_lt _ hN)
      · have := Nat.mod_add_div (ω i s % (q * c)) q
        rw [Nat.mod_mul_right_mod, h1] at this
        exact this.symm
    · rintro ⟨j, -, h1⟩
      rw [← Nat.mod_mul_right_mod (ω i s) q c, h1, Nat.add_mul_mod_self_left, Nat.mod_eq_of_lt ha]
  rw [hset, measure_biUnion_finset]
  · rw [sum_congr rfl fun j hj => h.law i (a + q * j) ?_, sum_const, card_range, nsmul_eq_mul, Nat.cast_mul,
      ENNReal.mul_inv (.inr (ENNReal.natCast_ne_top _)) (.inl (ENNReal.natCast_ne_top _)), mul_left_comm,
      ENNReal.mul_inv_cancel (by exact_mod_cast hc0.ne') (ENNReal.natCast_ne_top _), mul_one]
    have := mem_range.1 hj
    calc a + q * j < q + q * j := by omega
      _ = q * (j + 1) := by ring
      _ ≤ q * c := Nat.mul_le_mul_left _ this
  · intro x _ y _ hxy
    rw [Function.onFun, Set.disjoint_left]
    intro s hs hs'
    rw [Set.mem_ofPred_eq] at hs hs'
    refine hxy ?_
    have : q * x = q * y := by omega
    exact Nat.eq_of_mul_eq_mul_left hq0 this
  · intro j _
    exact h.measurable i (show MeasurableSet {x : Nat | x % (q * c) = a + q * j} from trivial)

theorem mod_law_mem (h : Spec.UniformChoices P (fun _ => N) ω) (hN : 0 < N) {q : Nat} (hq : q ∣ N) (i : Nat) {A : Finset Nat}
    (hA : ∀ a ∈ A, a < q) : P {s | ω i s % q ∈ A} = A.card * (q : ENNReal)⁻¹ := by
  have hset : {s | ω i s % q ∈ A} = ⋃ a ∈ A, {s | ω i s % q = a} := by ext s; simp
  rw [hset, measure_biUnion_finset]
  · rw [sum_congr rfl fun a ha => mod_law h hN hq i (hA a ha), sum_const, nsmul_eq_mul]
  · intro x _ y _ hxy
    rw [Function.onFun, Set.disjoint_left]
    intro s hs hs'
    exact hxy (hs.symm.trans hs')
  · intro a _
    exact h.measurable i (show MeasurableSet {x : Nat | x % q = a} from trivial)

/-- the first draw outside `bad`, from draw `m` on -/
theorem first_good (h : Spec.UniformChoices P (fun _ => N) ω) (hN : 0 < N) {n : Nat} (hn : n ∣ N) {bad : Finset Nat}
    (hb : ∀ a ∈ bad, a < n) {v : Nat} (hv : v < n) (hvb : v ∉ bad) (m : Nat) (S : Nat → Set Nat) (fuel : Nat) :
    P {s | (∀ i < m, ω i s ∈ S i) ∧ ∃ k < fuel, (∀ j < k, ω (m + j) s % n ∈ bad) ∧ ω (m + k) s % n = v} =
      (∏ i ∈ range m, P {s | ω i s ∈ S i}) * ((∑ k ∈ range fuel, (bad.card * (n : ENNReal)⁻¹) ^ k) * (n : ENNReal)⁻¹) := by
  have hset : {s | (∀ i < m, ω i s ∈ S i) ∧ ∃ k < fuel, (∀ j < k, ω (m + j) s % n ∈ bad) ∧ ω (m + k) s % n = v} =
      ⋃ k ∈ range fuel, ⋂ i ∈ range (m + k + 1), ω i ⁻¹' (if i < m then S i else if i < m + k then {x | x % n ∈ bad}
        else {x | x % n = v}) := by
    ext s
    simp only [Set.mem_ofPred_eq, Set.mem_iUnion, mem_range, exists_prop, Set.mem_iInter, Set.mem_preimage]
    constructor
    · rintro ⟨h1, k, hk, h2, h3⟩
      refine ⟨k, hk, fun i hi => ?_⟩
      split
      · exact h1 i ‹_›
      · split
        · have := h2 (i - m) (by omega)
          rwa [show m + (i - m) = i by omega] at this
        · rwa [show i = m + k by omega]
    · rintro ⟨k, hk, h1⟩
      refine ⟨fun i hi => ?_, k, hk, fun j hj => ?_, ?_⟩
      · have := h1 i (by omega)
        rwa [if_pos hi] at this
      · have := h1 (m + j) (by omega)
        rwa [if_neg (by omega), if_pos (by omega)] at this
      · have := h1 (m + k) (by omega)
        rwa [if_neg (by omega), if_neg (by omega)] at this
  have hm : ∀ T : Set Nat, MeasurableSet T := fun T => trivial
  rw [hset, measure_biUnion_finset]
  · rw [sum_mul, mul_sum]
    refine sum_congr rfl fun k _ => ?_
    rw [h.indep.measure_inter_preimage_eq_mul _ fun i _ => hm _, prod_range_succ, prod_range_add]
    rw [if_neg (by omega), if_neg (by omega)]
    have e1 : P (ω (m + k) ⁻¹' {x | x % n = v}) = (n : ENNReal)⁻¹ := mod_law h hN hn _ hv
    have e2 : ∏ i ∈ range m, P (ω i ⁻¹' (if i < m then S i else if i < m + k then {x | x % n ∈ bad} else {x | x % n = v})) =
        ∏ i ∈ range m, P {s | ω i s ∈ S i} := by
      refine prod_congr rfl fun i hi => ?_
      rw [if_pos (mem_range.1 hi)]
      rfl
    have e3 : ∏ j ∈ range k, P (ω (m + j) ⁻¹' (if m + j < m then S (m + j) else if m + j < m + k then {x | x % n ∈ bad}
        else {x | x % n = v})) = (bad.card * (n : ENNReal)⁻¹) ^ k := by
      rw [prod_congr rfl fun j hj => ?_, prod_const, card_range]
      have := mem_range.1 hj
      rw [if_neg (by omega), if_pos (by omega)]
      exact mod_law_mem h hN hn _ hb
    rw [e1, e2, e3, mul_assoc]
  · intro x _ y _ hxy
    rw [Function.onFun, Set.disjoint_left]
    intro s hs hs'
    simp only [Set.mem_iInter, mem_range, Set.mem_preimage] at hs hs'
    have key : ∀ x y : Nat, x < y → (∀ i < m + x + 1, ω i s ∈ (if i < m then S i else if i < m + x then {x | x % n ∈ bad}
        else {x | x % n = v})) → (∀ i < m + y + 1, ω i s ∈ (if i < m then S i else if i < m + y then {x | x % n ∈ bad}
        else {x | x % n = v})) → False := by
      intro x y hlt h1 h2
      have a1 := h1 (m + x) (by omega)
      have a2 := h2 (m + x) (by omega)
      rw [if_neg (by omega), if_neg (by omega)] at a1
      rw [if_neg (by omega), if_pos (by omega)] at a2
      rw [Set.mem_ofPred_eq] at a1 a2
      rw [a1] at a2
      exact hvb a2
    rcases Nat.lt_or_gt_of_ne hxy with hlt | hlt
    · exact key x y hlt hs hs'
    · exact key y x hlt hs' hs
  · intro k _
    exact Finset.measurableSet_biInter _ fun i _ => h.measurable i (hm _)

/-- in the end, one of the good values is drawn -/
theorem first_good_lim {n b : Nat} (hb : b < n) (c : ENNReal) (hc : c ≠ ⊤) : Tendsto (fun fuel : Nat =>
    c * ((∑ k ∈ range fuel, (b * (n : ENNReal)⁻¹) ^ k) * (n : ENNReal)⁻¹)) atTop (nhds (c * ((n - b : Nat) : ENNReal)⁻¹)) := by
  have hn0 : (n : ENNReal) ≠ 0 := by exact_mod_cast (by omega : n ≠ 0)
  have hnt : (n : ENNReal) ≠ ⊤ := ENNReal.natCast_ne_top _
  have hlim := ENNReal.tendsto_nat_tsum fun k : Nat => (b * (n : ENNReal)⁻¹) ^ k
  rw [ENNReal.tsum_geometric] at hlim
  have h1 := ENNReal.Tendsto.const_mul (a := c) (ENNReal.Tendsto.mul_const (b := (n : ENNReal)⁻¹) hlim
    (.inr (ENNReal.inv_ne_top.2 hn0))) (.inr hc)
  have : (1 - b * (n : ENNReal)⁻¹)⁻¹ * (n : ENNReal)⁻¹ = ((n - b : Nat) : ENNReal)⁻¹ := by
    rw [← ENNReal.mul_inv (.inr hnt) (.inr hn0), ENNReal.sub_mul fun _ _ => hnt, one_mul, mul_assoc,
      ENNReal.inv_mul_cancel hn0 hnt, mul_one, ENNReal.natCast_sub]
  rwa [this] at h1

end Prob

/-! ### The loop -/

theorem sampleNeg_iff {d : UIData} {n : Nat} (hn : d.numItems = n) (h0 : 0 < n) (u : Int) {v : Nat} (hv : (v : Int) ∉ d.items u)
    (fuel : Nat) (a : Draws) : (∃ rest, d.sampleNeg u fuel a = some (.ok (v, rest))) ↔
      ∃ k < fuel, (∀ j < k, ((a j % n : Nat) : Int) ∈ d.items u) ∧ a k % n = v := by
  induction fuel generalizing a with
  | zero => simp [UIData.sampleNeg]
  | succ fuel ih =>
    have hr : randrange d.numItems a = .ok (a 0 % n, (Draws.tail a)) := by
      unfold randrange randbelow
      rw [hn, if_pos (by omega), Int.toNat_natCast]
    unfold UIData.sampleNeg
    rw [hr]
    simp only
    by_cases hb : ((a 0 % n : Nat) : Int) ∈ d.items u
    · rw [if_pos hb, ih]
      constructor
      · rintro ⟨k, hk, h1, h2⟩
        refine ⟨k + 1, by omega, fun j hj => ?_, h2⟩
        cases j with
        | zero => exact hb
        | succ j => exact h1 j (by omega)
      · rintro ⟨k, hk, h1, h2⟩
        cases k with
        | zero => rw [h2] at hb; exact absurd hb hv
        | succ k => exact ⟨k, by omega, fun j hj => h1 (j + 1) (by omega), h2⟩
    · rw [if_neg hb]
      constructor
      · rintro ⟨rest, h⟩
        simp only [Option.some.injEq, Except.ok.injEq, Prod.mk.injEq] at h
        exact ⟨0, by omega, fun j hj => absurd hj (Nat.not_lt_zero _), h.1⟩
      · rintro ⟨k, hk, h1, h2⟩
        cases k with
        | zero => exact ⟨_, by rw [h2]⟩
        | succ k => exact absurd (h1 0 (by omega)) hb

theorem count_edgesFrom (pairs : List (Int × Int)) (u p : Int) :
    pairs.count (u, p) = ((Spec.edgesFrom pairs u).map Prod.snd).count p := by
  unfold Spec.edgesFrom
  induction pairs with
  | nil => rfl
  | cons e l ih =>
    rw [List.count_cons, ih]
    by_cases h : e.1 = u
    · rw [List.filter_cons_of_pos (by simpa using h), List.map_cons, List.count_cons]
      congr 1
      have : e = (u, p) ↔ e.2 = p := ⟨fun h' => by rw [h'], fun h' => Prod.ext h h'⟩
      simp only [beq_iff_eq, this]
    · rw [List.filter_cons_of_neg (by simpa using h), if_neg, Nat.add_zero]
      rw [beq_iff_eq]
      exact fun h' => h (by rw [h'])

end Law

open Utils

/-! ## C137 -/

section
variable {Ω : Type} [MeasurableSpace Ω] {P : Measure Ω} [IsProbabilityMeasure P] {ω : Nat → Ω → Nat} {N : Nat}

/-- C137. For training on all interactions (`strict_link`), the negative item of an interaction is uniform among the items
that are no partner of the user: whatever number of draws is allowed, all of them are equally likely, and without limit
each has the same probability. -/
theorem C137_negative_item (h : Spec.UniformChoices P (fun _ => N) ω) (hN : 0 < N) {nu : Int} {ni : Nat} (hni : ni ∣ N)
    {pairs : List (Int × Int)} {tp : Option (List (Int × Int))} {d : UIData}
    (hd : UIData.new nu ni pairs tp true "train" = .ok d) {i : Nat} (hi : i < pairs.length) {v : Nat}
    (hv : v ∈ Spec.negatives pairs ni pairs[i].1) :
    (∀ fuel, ∀ v' ∈ Spec.negatives pairs ni pairs[i].1,
      P {s | d.getTrain i fuel (fun j => ω j s) = some (.ok (pairs[i].1, pairs[i].2, (v' : Int)))} =
        P {s | d.getTrain i fuel (fun j => ω j s) = some (.ok (pairs[i].1, pairs[i].2, (v : Int)))}) ∧
    Tendsto (fun fuel => P {s | d.getTrain i fuel (fun j => ω j s) = some (.ok (pairs[i].1, pairs[i].2, (v : Int)))}) atTop
      (nhds ((Spec.negatives pairs ni pairs[i].1).card : ENNReal)⁻¹) := by
  rw [new_train] at hd
  cases hd
  have h0 : 0 < ni := Nat.pos_of_dvd_of_pos hni hN
  have hp : pyAt pairs (i : Int) = .ok pairs[i] := by
    unfold pyAt
    rw [if_neg (by omega), Int.toNat_natCast, List.getElem?_eq_getElem hi]
    simp only
    rw [if_neg (by omega)]
  generalize pairs[i] = e at hp hv
  have key : ∀ fuel, ∀ v' ∈ Spec.negatives pairs ni e.1,
      P {s | UIData.getTrain ⟨true, nu, ni, pairs, edgeListToAdjDict pairs, [], true⟩ i fuel (fun j => ω j s) =
        some (.ok (e.1, e.2, (v' : Int)))} = 1 * ((∑ k ∈ Finset.range fuel,
          (((Finset.range ni).filter fun v : Nat => (e.1, (v : Int)) ∈ pairs).card * (ni : ENNReal)⁻¹) ^ k) *
            (ni : ENNReal)⁻¹) := by
    intro fuel v' hv'
    unfold Spec.negatives at hv'
    rw [Finset.mem_filter, Finset.mem_range] at hv'
    have := Law.first_good h hN hni (bad := (Finset.range ni).filter fun v : Nat => (e.1, (v : Int)) ∈ pairs)
      (fun a ha => Finset.mem_range.1 (Finset.mem_filter.1 ha).1) hv'.1 (fun hm => hv'.2 (Finset.mem_filter.1 hm).2) 0
      (fun _ => Set.univ) fuel
    rw [Finset.prod_range_zero] at this
    rw [← this]
    congr 1
    ext s
    simp only [Set.mem_ofPred_eq, Nat.not_lt_zero, false_imp_iff, implies_true, true_and, Nat.zero_add, Finset.mem_filter,
      Finset.mem_range]
    have hiff := Law.sampleNeg_iff (d := ⟨true, nu, ni, pairs, edgeListToAdjDict pairs, [], true⟩) (n := ni) rfl h0 e.1
      (v := v') (fun hm => hv'.2 ((items_iff e.1 v').1 hm)) fuel (fun j => ω j s)
    unfold UIData.items at hiff
    simp only [items_iff] at hiff
    simp only [Nat.mod_lt _ h0, true_and]
    rw [← hiff]
    unfold UIData.getTrain
    simp only [if_true, hp]
    rcases UIData.sampleNeg _ e.1 fuel (fun j => ω j s) with _ | _ | ⟨x, rest⟩
    · simp
    · simp [Except.map]
    · simp [Except.map]
  refine ⟨fun fuel v' hv' => by rw [key fuel v' hv', key fuel v hv], ?_⟩
  rw [tendsto_congr fun fuel => key fuel v hv]
  have hcard : ((Finset.range ni).filter fun v : Nat => (e.1, (v : Int)) ∈ pairs).card + (Spec.negatives pairs ni e.1).card = ni := by
    have := Finset.card_filter_add_card_filter_not (s := Finset.range ni) (fun v : Nat => (e.1, (v : Int)) ∈ pairs)
    rwa [Finset.card_range] at this
  have hpos : 0 < (Spec.negatives pairs ni e.1).card := Finset.card_pos.2 ⟨v, hv⟩
  have := Law.first_good_lim (n := ni) (b := ((Finset.range ni).filter fun v : Nat => (e.1, (v : Int)) ∈ pairs).card) (by omega) 1
    ENNReal.one_ne_top
  rwa [show ni - ((Finset.range ni).filter fun v : Nat => (e.1, (v : Int)) ∈ pairs).card = (Spec.negatives pairs ni e.1).card by omega,
    one_mul] at this

/-- C137. Without `strict_link`, the user of a triplet is uniform among all users, the positive item is uniform among the
interactions of the user, and the negative item is uniform among the items that are no partner. -/
theorem C137_triplet (h : Spec.UniformChoices P (fun _ => N) ω) (hN : 0 < N) {nu ni : Nat} (hnu : nu ∣ N) (hni : ni ∣ N)
    {pairs : List (Int × Int)} (hk : ∀ u : Nat, u < nu → (Spec.edgesFrom pairs u).length ∣ N)
    {tp : Option (List (Int × Int))} {d : UIData} (hd : UIData.new nu ni pairs tp false "train" = .ok d) (i : Int) {u v : Nat}
    (hu : u < nu) (p : Int) (hv : v ∈ Spec.negatives pairs ni u) :
    Tendsto (fun fuel => P {s | d.getTrain i fuel (fun j => ω j s) = some (.ok ((u : Int), p, (v : Int)))}) atTop
      (nhds ((nu : ENNReal)⁻¹ * (pairs.count ((u : Int), p) * ((Spec.edgesFrom pairs u).length : ENNReal)⁻¹) *
        ((Spec.negatives pairs ni u).card : ENNReal)⁻¹)) := by
  rw [new_train] at hd
  cases hd
  have h0 : 0 < ni := Nat.pos_of_dvd_of_pos hni hN
  have hk0 : 0 < (Spec.edgesFrom pairs u).length := Nat.pos_of_dvd_of_pos (hk u hu) hN
  have hk' := hk u hu
  have hitems : UIData.items ⟨true, nu, ni, pairs, edgeListToAdjDict pairs, [], false⟩ u =
      (Spec.edgesFrom pairs u).map Prod.snd := adjDict_get pairs u
  have hlen : (Spec.edgesFrom pairs u).length = ((Spec.edgesFrom pairs u).map Prod.snd).length := by simp
  have hcount := Law.count_edgesFrom pairs u p
  have hneg := fun w : Nat => items_iff (es := pairs) (u : Int) (w : Int)
  have hneg' : ∀ w : Nat, (w : Int) ∈ (Spec.edgesFrom pairs u).map Prod.snd ↔ ((u : Int), (w : Int)) ∈ pairs := by
    intro w
    rw [← adjDict_get]
    exact hneg w
  rw [hlen, hcount]
  rw [hlen] at hk0 hk'
  generalize (Spec.edgesFrom pairs u).map Prod.snd = its at hk0 hk' hitems hneg'
  have hv' := hv
  unfold Spec.negatives at hv'
  rw [Finset.mem_filter, Finset.mem_range] at hv'
  have key : ∀ fuel, P {s | UIData.getTrain ⟨true, nu, ni, pairs, edgeListToAdjDict pairs, [], false⟩ i fuel (fun j => ω j s) =
        some (.ok ((u : Int), p, (v : Int)))} = ((nu : ENNReal)⁻¹ * (its.count p * (its.length : ENNReal)⁻¹)) *
          ((∑ k ∈ Finset.range fuel, (((Finset.range ni).filter fun v : Nat => ((u : Int), (v : Int)) ∈ pairs).card *
            (ni : ENNReal)⁻¹) ^ k) * (ni : ENNReal)⁻¹) := by
    intro fuel
    have := Law.first_good h hN hni (bad := (Finset.range ni).filter fun v : Nat => ((u : Int), (v : Int)) ∈ pairs)
      (fun a ha => Finset.mem_range.1 (Finset.mem_filter.1 ha).1) hv'.1 (fun hm => hv'.2 (Finset.mem_filter.1 hm).2) 2
      (fun i => if i = 0 then {x | x % nu = u} else {x | x % its.length ∈ (whereEq its p).toFinset}) fuel
    rw [Finset.prod_range_succ, Finset.prod_range_one] at this
    simp only [if_true, one_ne_zero, if_false] at this
    have e0 : P {s | ω 0 s ∈ {x | x % nu = u}} = (nu : ENNReal)⁻¹ := Law.mod_law h hN hnu 0 hu
    have e1 : P {s | ω 1 s ∈ {x | x % its.length ∈ (whereEq its p).toFinset}} = its.count p * (its.length : ENNReal)⁻¹ := by
      have := Law.mod_law_mem h hN hk' 1 (A := (whereEq its p).toFinset) (fun a ha => by
        rw [List.mem_toFinset, mem_whereEq] at ha
        exact (List.getElem?_eq_some_iff.1 ha).1)
      rw [List.toFinset_card_of_nodup (nodup_whereEq _ _), length_whereEq] at this
      exact this
    rw [e0, e1] at this
    rw [← this]
    congr 1
    ext s
    generalize hA : (fun j => ω j s) = a
    have hω : ∀ j, ω j s = a j := fun j => by rw [← hA]
    simp only [Set.mem_ofPred_eq, Finset.mem_filter, Finset.mem_range, hω, Nat.mod_lt _ h0, true_and]
    have hiff := Law.sampleNeg_iff (d := ⟨true, nu, ni, pairs, edgeListToAdjDict pairs, [], false⟩) (n := ni) rfl h0 u
      (v := v) (fun hm => hv'.2 (by rw [hitems] at hm; exact (hneg' v).1 hm)) fuel (fun j => a (2 + j))
    rw [hitems] at hiff
    simp only [hneg'] at hiff
    rw [← hiff]
    have hr : randrange (nu : Int) a = .ok (a 0 % nu, (Draws.tail a)) := by
      unfold randrange randbelow
      rw [if_pos (by omega), Int.toNat_natCast]
    have htl : Draws.tail (Draws.tail a) = fun j => a (2 + j) := funext fun j => congrArg a (by omega : j + 1 + 1 = 2 + j)
    have hall : (∀ i < 2, a i ∈ (if i = 0 then {x | x % nu = u} else {x | x % its.length ∈ (whereEq its p).toFinset})) ↔
        a 0 % nu = u ∧ its[a 1 % its.length]? = some p := by
      constructor
      · intro h
        have h1 := h 0 (by omega)
        have h2 := h 1 (by omega)
        simp only [if_true, one_ne_zero, if_false, Set.mem_ofPred_eq, List.mem_toFinset, mem_whereEq] at h1 h2
        exact ⟨h1, h2⟩
      · rintro ⟨h1, h2⟩ i hi
        rcases (by omega : i = 0 ∨ i = 1) with rfl | rfl
        · simpa using h1
        · simpa [mem_whereEq] using h2
    rw [hall]
    unfold UIData.getTrain UIData.sampleTriplet
    simp only [Bool.false_eq_true, if_false, hr]
    by_cases hu0 : a 0 % nu = u
    · rw [hu0, hitems, if_pos hk0]
      have hb : randbelow its.length (Draws.tail a) = (a 1 % its.length, Draws.tail (Draws.tail a)) := rfl
      unfold choice
      rw [hb]
      simp only [htl]
      rcases hx : its[a 1 % its.length]? with _ | x
      · simp
      · simp only
        rcases UIData.sampleNeg _ (u : Int) fuel (fun j => a (2 + j)) with _ | _ | ⟨y, rest⟩
        · simp
        · simp [Except.map]
        · simp [Except.map]
    · simp only [hu0, false_and, iff_false]
      intro hcon
      split at hcon
      · rcases hc : choice (UIData.items ⟨true, nu, ni, pairs, edgeListToAdjDict pairs, [], false⟩ ((a 0 % nu : Nat) : Int)) (Draws.tail a) with e | q
        · rw [hc] at hcon; simp at hcon
        · rw [hc] at hcon
          simp only at hcon
          rcases hs : UIData.sampleNeg _ ((a 0 % nu : Nat) : Int) fuel q.2 with _ | _ | ⟨y, rest⟩
          · rw [hs] at hcon; simp at hcon
          · rw [hs] at hcon; simp [Except.map] at hcon
          · rw [hs] at hcon
            simp only [Option.map_some, Except.map, Option.some.injEq, Except.ok.injEq, Prod.mk.injEq, Nat.cast_inj] at hcon
            exact hu0 hcon.1
      · simp at hcon
  rw [tendsto_congr key]
  have hcard : ((Finset.range ni).filter fun v : Nat => ((u : Int), (v : Int)) ∈ pairs).card + (Spec.negatives pairs ni u).card = ni := by
    have := Finset.card_filter_add_card_filter_not (s := Finset.range ni) (fun v : Nat => ((u : Int), (v : Int)) ∈ pairs)
    rwa [Finset.card_range] at this
  have hpos : 0 < (Spec.negatives pairs ni u).card := Finset.card_pos.2 ⟨v, hv⟩
  have hnu0 : (nu : ENNReal) ≠ 0 := by exact_mod_cast (by omega : nu ≠ 0)
  have hl0 : (its.length : ENNReal) ≠ 0 := by exact_mod_cast (by omega : its.length ≠ 0)
  have := Law.first_good_lim (n := ni) (b := ((Finset.range ni).filter fun v : Nat => ((u : Int), (v : Int)) ∈ pairs).card) (by omega)
    ((nu : ENNReal)⁻¹ * (its.count p * (its.length : ENNReal)⁻¹))
    (ENNReal.mul_ne_top (ENNReal.inv_ne_top.2 hnu0) (ENNReal.mul_ne_top (ENNReal.natCast_ne_top _) (ENNReal.inv_ne_top.2 hl0)))
  rwa [show ni - ((Finset.range ni).filter fun v : Nat => ((u : Int), (v : Int)) ∈ pairs).card = (Spec.negatives pairs ni u).card by omega]
    at this

/-- There are such draws: `N` may be any common multiple of the numbers of users, items and items of each user. -/
theorem C137_draws_exist {N : Nat} (hN : 0 < N) : ∃ (P : Measure (Nat → Nat)) (ω : Nat → (Nat → Nat) → Nat),
    IsProbabilityMeasure P ∧ Spec.UniformChoices P (fun _ => N) ω :=
  C134_draws_exist (fun _ => N) fun _ => hN

end

example : ∃ (P : Measure (Nat → Nat)) (ω : Nat → (Nat → Nat) → Nat) (d : UIData), IsProbabilityMeasure P ∧
    UIData.new 2 4 [(0, 0), (0, 1), (1, 2)] none true "train" = .ok d ∧
    Tendsto (fun fuel => P {s | d.getTrain 2 fuel (fun j => ω j s) = some (.ok (1, 2, 3))}) atTop (nhds (3 : ENNReal)⁻¹) := by
  obtain ⟨P, ω, hP, h⟩ := C137_draws_exist (N := 4) (by norm_num)
  refine ⟨P, ω, _, hP, new_train _ _ _ _ _, ?_⟩
  exact (C137_negative_item h (by norm_num) (ni := 4) (by norm_num) (pairs := [(0, 0), (0, 1), (1, 2)]) (tp := none) (nu := 2)
    (new_train _ _ _ _ _) (i := 2) (by norm_num) (v := 3) (by decide)).2

example : ∃ (P : Measure (Nat → Nat)) (ω : Nat → (Nat → Nat) → Nat) (d : UIData), IsProbabilityMeasure P ∧
    UIData.new 2 4 [(0, 0), (0, 1), (1, 2)] none false "train" = .ok d ∧
    Tendsto (fun fuel => P {s | d.getTrain 0 fuel (fun j => ω j s) = some (.ok (0, 1, 3))}) atTop
      (nhds ((2 : ENNReal)⁻¹ * (1 * (2 : ENNReal)⁻¹) * (2 : ENNReal)⁻¹)) := by
  obtain ⟨P, ω, hP, h⟩ := C137_draws_exist (N := 4) (by norm_num)
  refine ⟨P, ω, _, hP, new_train _ _ _ _ _, ?_⟩
  have := C137_triplet h (by norm_num) (nu := 2) (ni := 4) (by norm_num) (by norm_num) (pairs := [(0, 0), (0, 1), (1, 2)])
    (by
      intro u hu
      rcases (by omega : u = 0 ∨ u = 1) with rfl | rfl <;> decide)
    (tp := none) (new_train _ _ _ _ _) 0 (u := 0) (v := 3) (by norm_num) 1 (by decide)
  have h1 : ([(0, 0), (0, 1), (1, 2)] : List (Int × Int)).count (((0 : Nat) : Int), 1) = 1 := by decide
  have h2 : (Spec.edgesFrom [(0, 0), (0, 1), (1, 2)] (0 : Nat)).length = 2 := by decide
  have h3 : (Spec.negatives [(0, 0), (0, 1), (1, 2)] 4 (0 : Nat)).card = 2 := by decide
  rw [h1, h2, h3] at this
  simpa using this

end Props
end DHG
