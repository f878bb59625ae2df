import Verif.UtilsSplit

/-!
# C53, C54: `split_by_num` and `split_by_ratio`

`ω` is the stream of random draws, so the statements hold for every outcome of the shuffles.
-/

set_option linter.unusedSectionVars false
set_option autoImplicit false

namespace DHG
namespace Props
open Utils

/-- the masks have the right length, select labelled vertices only, and are pairwise disjoint;
there is a validation mask iff `hasVal` -/
def Spec.MasksDisjoint (n : Nat) (labels : List Int) (hasVal : Bool) (ms : Masks) : Prop :=
  (Spec.train ms).length = n ∧ (Spec.test ms).length = n ∧ (∀ m, Spec.val? ms = some m → m.length = n) ∧
  (Spec.val? ms).isSome = hasVal ∧
  (∀ v, Spec.On (Spec.train ms) v ∨ Spec.On (Spec.test ms) v ∨ Spec.OnVal ms v → v < labels.length) ∧
  (∀ v, ¬ (Spec.On (Spec.train ms) v ∧ Spec.On (Spec.test ms) v)) ∧
  (∀ v, ¬ (Spec.On (Spec.train ms) v ∧ Spec.OnVal ms v)) ∧
  (∀ v, ¬ (Spec.OnVal ms v ∧ Spec.On (Spec.test ms) v))

theorem disjoint_of {cuts : Nat → Cuts} {n : Nat} {l : List Int} {nc : Nat} {b : Bool} {ms : Masks}
    {L : List Int} (h : SplitOk cuts n l nc b ms) (hL : l.length = L.length) : Spec.MasksDisjoint n L b ms :=
  ⟨h.lenTrain, h.lenTest, h.lenVal, h.hasVal, fun v hv => hL ▸ h.labelled v hv, h.trainTest, h.trainVal, h.valTest⟩

/-! ## C53 -/

theorem splitByNum_core (n : Nat) (labels : List Int) (h2 : 2 ≤ labels.length) (hn : labels.length ≤ n)
    (t : Nat) (v te : Option Nat) (ω : Draws) :
    ∃ b ms, (b = 0 ∨ b = 1) ∧ (b = 1 ↔ 1 ∈ labels ∧ ∀ x ∈ labels, 1 ≤ x) ∧
      splitByNum n labels t (v.map Int.ofNat) (te.map Int.ofNat) ω = .ok ms ∧
      SplitOk (fun _ => ⟨t, (v.getD 0 : Nat), te.map Int.ofNat⟩) n (labels.map (· - b))
        (numClasses (labels.map (· - b))) (decide (v.getD 0 ≠ 0)) ms := by
  obtain ⟨b, hb, hb1, hb2⟩ := prepLabels_cases labels h2
  have hg : (v.map Int.ofNat).getD 0 = ((v.getD 0 : Nat) : Int) := by cases v <;> rfl
  obtain ⟨ms, h1, h3⟩ := split_core (fun _ => ⟨t, (v.getD 0 : Nat), te.map Int.ofNat⟩)
    (fun _ => ⟨by simp, by simp, by
      intro x hx
      rcases te with _ | te
      · cases hx
      · cases hx; simp⟩) n (labels.map (· - b)) (by simpa using hn)
    (numClasses (labels.map (· - b))) (decide (v.getD 0 ≠ 0)) ω
  refine ⟨b, ms, hb1, hb2, ?_, h3⟩
  unfold splitByNum
  rw [hb]
  simp only [bind, Except.bind]
  rw [hg, ← h1]
  by_cases hv : v.getD 0 = 0 <;> simp [hv]

/-- C53. For every labelling of at least two vertices, all counts that are not negative and all shuffles,
`split_by_num` returns pairwise disjoint masks. -/
theorem C53_split_by_num_disjoint (n : Nat) (labels : List Int) (h2 : 2 ≤ labels.length)
    (hn : labels.length ≤ n) (t : Nat) (v te : Option Nat) (ω : Draws) :
    ∃ ms, splitByNum n labels t (v.map Int.ofNat) (te.map Int.ofNat) ω = .ok ms ∧
      Spec.MasksDisjoint n labels (decide (v.getD 0 ≠ 0)) ms := by
  obtain ⟨b, ms, -, -, h3, h4⟩ := splitByNum_core n labels h2 hn t v te ω
  exact ⟨ms, h3, disjoint_of h4 (by simp)⟩

/-- C53, partial. If the labels are consecutive numbers starting at 0 or 1, every class of size `k`
contributes `min(train_num, k)` training vertices, as many of the remaining vertices as requested
for validation and test, and without `test_num` every vertex is selected. Missing: labels with
gaps, a single vertex, and negative counts. -/
theorem C53_split_by_num_counts_partial (n : Nat) (labels : List Int) (h2 : 2 ≤ labels.length)
    (hn : labels.length ≤ n) (hc : Spec.Contiguous labels) (t : Nat) (v te : Option Nat) (ω : Draws) :
    ∃ ms, splitByNum n labels t (v.map Int.ofNat) (te.map Int.ofNat) ω = .ok ms ∧
      (∀ c ∈ labels,
        Spec.inClass labels c (Spec.On (Spec.train ms)) = min t (labels.count c) ∧
        Spec.inClass labels c (Spec.OnVal ms) = min (v.getD 0) (labels.count c - t) ∧
        Spec.inClass labels c (Spec.On (Spec.test ms)) = (match te with
          | some k => min k (labels.count c - t - v.getD 0)
          | none => labels.count c - t - v.getD 0)) ∧
      (te = none → ∀ x < labels.length,
        Spec.On (Spec.train ms) x ∨ Spec.On (Spec.test ms) x ∨ Spec.OnVal ms x) := by
  obtain ⟨b, ms, hb1, hb2, h3, h4⟩ := splitByNum_core n labels h2 hn t v te ω
  obtain ⟨b', hb', k, hk⟩ := hc
  obtain rfl : b = b' := shift_contig hb' (by rintro rfl; simp at h2) hk hb1 hb2
  rw [numClasses_contig hk] at h4
  refine ⟨ms, h3, ?_, ?_⟩
  · intro c hcm
    have hck := (hk c).1 hcm
    have hlt : (c - b).toNat < k := by omega
    have hcast : (((c - b).toNat : Nat) : Int) = c - b := by omega
    have e1 := h4.train _ hlt
    have e2 := h4.test _ hlt
    rw [hcast, inClass_shift, count_shift] at e1 e2
    refine ⟨by simpa using e1, ?_, ?_⟩
    · by_cases hv : v.getD 0 = 0
      · rw [hv, Nat.zero_min]
        unfold Spec.inClass
        convert Set.ncard_empty Nat
        ext x
        simp only [Set.mem_ofPred_eq, Set.mem_empty_iff_false, iff_false, not_and]
        rintro - ⟨m, hm, -⟩
        have := h4.hasVal
        rw [hm, hv] at this
        simp at this
      · have e3 := h4.val (by simpa using hv) _ hlt
        rw [hcast, inClass_shift, count_shift] at e3
        simpa using e3
    · rw [e2]
      rcases te with _ | te <;> simp
  · intro hte x hx
    have hcm := (hk labels[x]).1 (List.getElem_mem hx)
    have hcast : (((labels[x] - b).toNat : Nat) : Int) = labels[x] - b := by omega
    refine h4.cover (by simp [hte]) (by simp) (labels[x] - b).toNat (by omega) x ?_
    rw [hcast]; simp [hx]

/-- C53 is false for labels with a gap: the vertex with label 2 is in no mask, whatever the
shuffles. -/
theorem C53_split_by_num_gap_false (ω : Draws) :
    splitByNum 3 [0, 0, 2] 5 none none ω = .ok (.two [true, true, false] [false, false, false]) := by
  have h : shuffle (whereEq [0, 0, 2] 0) ω = shuffle [0, 1] ω := rfl
  rcases Nat.mod_two_eq_zero_or_one (ω 0) with h0 | h0
  · simp [splitByNum, prepLabels, numClasses, splitLoop, whereEq, shuffle, shuffleAux, swapAt, randbelow, h0,
      idx2mask, maskOf, slice, sliceFrom, sliceBound, List.range_succ, List.min?, bind, Except.bind]
  · simp [splitByNum, prepLabels, numClasses, splitLoop, whereEq, shuffle, shuffleAux, swapAt, randbelow, h0,
      idx2mask, maskOf, slice, sliceFrom, sliceBound, List.range_succ, List.min?, bind, Except.bind]

/-- C53 is false for a single vertex: its label vector is squeezed to dimension 0 and the call
raises `AssertionError`. -/
theorem C53_split_by_num_single_false (n : Nat) (c t : Int) (v te : Option Int) (ω : Draws) :
    splitByNum n [c] t v te ω = .error .assertion := rfl

/-- C53 is false for negative counts, which are accepted and count from the end: a vertex is in the training
and the test mask, whatever the shuffles. -/
theorem C53_split_by_num_negative_false (ω : Draws) :
    ∃ ms, splitByNum 2 [0, 0] (-1) (some (-1)) none ω = .ok ms ∧
      ∃ x, Spec.On (Spec.train ms) x ∧ Spec.On (Spec.test ms) x := by
  rcases Nat.mod_two_eq_zero_or_one (ω 0) with h0 | h0
  · refine ⟨.three [false, true] [false, false] [true, true], ?_, 1, ?_, ?_⟩
    · simp [splitByNum, prepLabels, numClasses, splitLoop, whereEq, shuffle, shuffleAux, swapAt, randbelow, h0,
        idx2mask, maskOf, slice, sliceFrom, sliceBound, List.range_succ, List.min?, bind, Except.bind]
    · rfl
    · rfl
  · refine ⟨.three [true, false] [false, false] [true, true], ?_, 0, ?_, ?_⟩
    · simp [splitByNum, prepLabels, numClasses, splitLoop, whereEq, shuffle, shuffleAux, swapAt, randbelow, h0,
        idx2mask, maskOf, slice, sliceFrom, sliceBound, List.range_succ, List.min?, bind, Except.bind]
    · rfl
    · rfl

/-- labels from 1, as accepted by the partial theorem -/
example : Spec.Contiguous [1, 2, 1, 1] ∧ 2 ≤ [1, 2, 1, 1].length :=
  ⟨⟨1, .inr rfl, 2, fun x => by simp; omega⟩, by simp⟩

/-! ## C54 -/

section
variable {K : Type} [Field K] [LinearOrder K] [IsStrictOrderedRing K] [FloorRing K]

theorem truncInt_nonneg {x : K} (h : 0 ≤ x) : truncInt x = (⌊x⌋₊ : Int) := by
  unfold truncInt; rw [if_pos h, Int.natCast_floor_eq_floor h]

theorem splitByRatio_core (n : Nat) (labels : List Int) (h2 : 2 ≤ labels.length) (hn : labels.length ≤ n)
    (t : K) (v te : Option K) (ht : 0 ≤ t) (hv : ∀ x ∈ v, 0 ≤ x) (hte : ∀ x ∈ te, 0 ≤ x)
    (hr : ratiosOk t (v.getD 0) te = true) (ω : Draws) :
    ∃ b ms, (b = 0 ∨ b = 1) ∧ (b = 1 ↔ 1 ∈ labels ∧ ∀ x ∈ labels, 1 ≤ x) ∧
      splitByRatio n labels t v te ω = .ok ms ∧
      SplitOk (fun m => ⟨truncInt ((m : K) * t), truncInt ((m : K) * v.getD 0),
          te.map fun t => truncInt ((m : K) * t)⟩) n (labels.map (· - b))
        (numClasses (labels.map (· - b))) (decide (v.getD 0 ≠ 0)) ms := by
  obtain ⟨b, hb, hb1, hb2⟩ := prepLabels_cases labels h2
  have hv0 : 0 ≤ v.getD 0 := by
    rcases v with _ | v
    · exact le_rfl
    · exact hv v rfl
  have nn : ∀ (m : Nat) (x : K), 0 ≤ x → 0 ≤ truncInt ((m : K) * x) := fun m x hx => by
    rw [truncInt_nonneg (mul_nonneg (Nat.cast_nonneg m) hx)]; omega
  obtain ⟨ms, h1, h3⟩ := split_core (fun m => ⟨truncInt ((m : K) * t), truncInt ((m : K) * v.getD 0),
          te.map fun t => truncInt ((m : K) * t)⟩)
    (fun m => ⟨nn m t ht, nn m _ hv0, by
      intro x hx
      rcases te with _ | te
      · cases hx
      · cases hx; exact nn m te (hte te rfl)⟩) n (labels.map (· - b)) (by simpa using hn)
    (numClasses (labels.map (· - b))) (decide (v.getD 0 ≠ 0)) ω
  refine ⟨b, ms, hb1, hb2, ?_, h3⟩
  unfold splitByRatio
  rw [hb]
  simp only [bind, Except.bind]
  rw [if_pos hr, ← h1]
  by_cases hv : v.getD 0 = 0 <;> simp [hv]

/-- the requested shares leave the test set what is asked for: their sum is at most 1, and below 1
when the test set takes the rest -/
def Spec.SharesOk (t v : K) : Option K → Prop
  | some te => t + v + te ≤ 1
  | none => t + v < 1

theorem ratiosOk_iff (t v : K) (te : Option K) : ratiosOk t v te = true ↔ Spec.SharesOk t v te := by
  cases te <;> simp [ratiosOk, Spec.SharesOk]

/-- C54. For every labelling of at least two vertices, acceptable ratios and all shuffles,
`split_by_ratio` returns pairwise disjoint masks. -/
theorem C54_split_by_ratio_disjoint (n : Nat) (labels : List Int) (h2 : 2 ≤ labels.length)
    (hn : labels.length ≤ n) (t : K) (v te : Option K) (ht : 0 ≤ t) (hv : ∀ x ∈ v, 0 ≤ x)
    (hte : ∀ x ∈ te, 0 ≤ x) (hs : Spec.SharesOk t (v.getD 0) te) (ω : Draws) :
    ∃ ms, splitByRatio n labels t v te ω = .ok ms ∧
      Spec.MasksDisjoint n labels (decide (v.getD 0 ≠ 0)) ms := by
  obtain ⟨b, ms, -, -, h3, h4⟩ := splitByRatio_core n labels h2 hn t v te ht hv hte ((ratiosOk_iff _ _ _).2 hs) ω
  exact ⟨ms, h3, disjoint_of h4 (by simp)⟩

/-- C54, partial. With consecutive labels starting at 0 or 1, a class of size `k` contributes
exactly `int(k * ratio)` vertices to each requested set, and without `test_ratio` every vertex is
selected. Missing: labels with gaps, a single vertex, and negative ratios. -/
theorem C54_split_by_ratio_counts_partial (n : Nat) (labels : List Int) (h2 : 2 ≤ labels.length)
    (hn : labels.length ≤ n) (hc : Spec.Contiguous labels) (t : K) (v te : Option K) (ht : 0 ≤ t)
    (hv : ∀ x ∈ v, 0 ≤ x) (hte : ∀ x ∈ te, 0 ≤ x) (hs : Spec.SharesOk t (v.getD 0) te) (ω : Draws) :
    ∃ ms, splitByRatio n labels t v te ω = .ok ms ∧
      (∀ c ∈ labels,
        Spec.inClass labels c (Spec.On (Spec.train ms)) = ⌊(labels.count c : K) * t⌋₊ ∧
        Spec.inClass labels c (Spec.OnVal ms) = ⌊(labels.count c : K) * v.getD 0⌋₊ ∧
        Spec.inClass labels c (Spec.On (Spec.test ms)) = (match te with
          | some r => ⌊(labels.count c : K) * r⌋₊
          | none => labels.count c - ⌊(labels.count c : K) * t⌋₊ - ⌊(labels.count c : K) * v.getD 0⌋₊)) ∧
      (te = none → ∀ x < labels.length,
        Spec.On (Spec.train ms) x ∨ Spec.On (Spec.test ms) x ∨ Spec.OnVal ms x) := by
  obtain ⟨b, ms, hb1, hb2, h3, h4⟩ :=
    splitByRatio_core n labels h2 hn t v te ht hv hte ((ratiosOk_iff _ _ _).2 hs) ω
  obtain ⟨b', hb', k, hk⟩ := hc
  obtain rfl : b = b' := shift_contig hb' (by rintro rfl; simp at h2) hk hb1 hb2
  rw [numClasses_contig hk] at h4
  have hv0 : 0 ≤ v.getD 0 := by
    rcases v with _ | v
    · exact le_rfl
    · exact hv v rfl
  have tn : ∀ (m : Nat) (x : K), 0 ≤ x → (truncInt ((m : K) * x)).toNat = ⌊(m : K) * x⌋₊ := fun m x hx => by
    rw [truncInt_nonneg (mul_nonneg (Nat.cast_nonneg m) hx)]; simp
  -- the floors of the shares of a class fit in the class
  have fit : ∀ (m : Nat) (x y : K), 0 ≤ x → 0 ≤ y → x + y ≤ 1 → ⌊(m : K) * x⌋₊ + ⌊(m : K) * y⌋₊ ≤ m := by
    intro m x y hx hy hxy
    have hm : (0 : K) ≤ m := Nat.cast_nonneg m
    have h1 := Nat.floor_le (mul_nonneg hm hx)
    have h2 := Nat.floor_le (mul_nonneg hm hy)
    have h3 : (m : K) * x + m * y ≤ m := by nlinarith
    have : ((⌊(m : K) * x⌋₊ + ⌊(m : K) * y⌋₊ : Nat) : K) ≤ m := by push_cast; linarith
    exact_mod_cast this
  have fit3 : ∀ (m : Nat) (x y z : K), 0 ≤ x → 0 ≤ y → 0 ≤ z → x + y + z ≤ 1 →
      ⌊(m : K) * x⌋₊ + ⌊(m : K) * y⌋₊ + ⌊(m : K) * z⌋₊ ≤ m := by
    intro m x y z hx hy hz hxy
    have hm : (0 : K) ≤ m := Nat.cast_nonneg m
    have h1 := Nat.floor_le (mul_nonneg hm hx)
    have h2 := Nat.floor_le (mul_nonneg hm hy)
    have h2' := Nat.floor_le (mul_nonneg hm hz)
    have h3 : (m : K) * x + m * y + m * z ≤ m := by nlinarith
    have : ((⌊(m : K) * x⌋₊ + ⌊(m : K) * y⌋₊ + ⌊(m : K) * z⌋₊ : Nat) : K) ≤ m := by push_cast; linarith
    exact_mod_cast this
  have hsum : t + v.getD 0 ≤ 1 := by
    rcases te with _ | te
    · exact le_of_lt hs
    · have h1 : t + v.getD 0 + te ≤ 1 := hs
      have := hte te rfl
      linarith
  refine ⟨ms, h3, ?_, ?_⟩
  · intro c hcm
    have hck := (hk c).1 hcm
    have hlt : (c - b).toNat < k := by omega
    have hcast : (((c - b).toNat : Nat) : Int) = c - b := by omega
    have e1 := h4.train _ hlt
    have e2 := h4.test _ hlt
    rw [hcast, inClass_shift, count_shift] at e1 e2
    have f1 := fit (labels.count c) t (v.getD 0) ht hv0 hsum
    refine ⟨?_, ?_, ?_⟩
    · rw [e1]; simp only [tn _ t ht]; omega
    · by_cases hv : v.getD 0 = 0
      · rw [hv, mul_zero, Nat.floor_zero]
        unfold Spec.inClass
        convert Set.ncard_empty Nat
        ext x
        simp only [Set.mem_ofPred_eq, Set.mem_empty_iff_false, iff_false, not_and]
        rintro - ⟨m, hm, -⟩
        have := h4.hasVal
        rw [hm, hv] at this
        simp at this
      · have e3 := h4.val (by simpa using hv) _ hlt
        rw [hcast, inClass_shift, count_shift] at e3
        rw [e3]; simp only [tn _ t ht, tn _ _ hv0]; omega
    · rw [e2]
      rcases te with _ | te
      · simp only [Option.map_none, tn _ t ht, tn _ _ hv0]
      · have f3 := fit3 (labels.count c) t (v.getD 0) te ht hv0 (hte te rfl) hs
        simp only [Option.map_some, tn _ t ht, tn _ _ hv0, tn _ te (hte te rfl)]
        exact Nat.min_eq_left (by omega)
  · intro hte x hx
    have hcm := (hk labels[x]).1 (List.getElem_mem hx)
    have hcast : (((labels[x] - b).toNat : Nat) : Int) = labels[x] - b := by omega
    refine h4.cover (by simp [hte]) ?_ (labels[x] - b).toNat (by omega) x ?_
    · intro hb m
      have hz : v.getD 0 = 0 := by simpa using hb
      simp only [hz, mul_zero]
      simp [truncInt]
    · rw [hcast]; simp [hx]

/-- C54. Ratios that add up to more than 1 raise `AssertionError` for every labelling of at least
two vertices. -/
theorem C54_split_by_ratio_raises (n : Nat) (labels : List Int) (h2 : 2 ≤ labels.length) (t : K)
    (v te : Option K) (h : 1 < t + v.getD 0 + te.getD 0) (ω : Draws) :
    splitByRatio n labels t v te ω = .error .assertion := by
  obtain ⟨b, hb, -, -⟩ := prepLabels_cases labels h2
  unfold splitByRatio
  rw [hb]
  simp only [bind, Except.bind]
  rw [if_neg]
  rcases te with _ | te
  · simp only [Option.getD_none, add_zero] at h
    simp only [ratiosOk, decide_eq_true_eq, not_lt]; exact h.le
  · simp only [Option.getD_some] at h
    simp only [ratiosOk, decide_eq_true_eq, not_le]; exact h

/-- C54 is false for a single vertex. -/
theorem C54_split_by_ratio_single_false (n : Nat) (c : Int) (t : K) (v te : Option K) (ω : Draws) :
    splitByRatio n [c] t v te ω = .error .assertion := rfl

/-- C54 is false for labels with a gap: the vertex with label 2 is in no mask, whatever the
shuffles. -/
theorem C54_split_by_ratio_gap_false (ω : Draws) :
    splitByRatio (K := ℚ) 2 [0, 2] 0 none none ω = .ok (.two [false, false] [true, false]) := by
  simp [splitByRatio, prepLabels, numClasses, splitLoop, whereEq, shuffle, shuffleAux,
      idx2mask, maskOf, slice, sliceFrom, sliceBound, List.range_succ, List.min?, bind, Except.bind, ratiosOk, truncInt]

/-- C54 is false for negative ratios, which are accepted: the product with the class size is cut towards zero
and counts from the end, and a vertex is in the training and the test mask, whatever the shuffles. -/
theorem C54_split_by_ratio_negative_false (ω : Draws) :
    ∃ ms, splitByRatio (K := ℚ) 2 [0, 0] (-3/4) (some (-3/4)) none ω = .ok ms ∧
      ∃ x, Spec.On (Spec.train ms) x ∧ Spec.On (Spec.test ms) x := by
  have hc : truncInt ((2 : ℚ) * (-3 / 4)) = -1 := by
    unfold truncInt
    norm_num
  have hr : ratiosOk (-3 / 4 : ℚ) (-3 / 4) none = true := by simp only [ratiosOk]; norm_num
  rcases Nat.mod_two_eq_zero_or_one (ω 0) with h0 | h0
  · refine ⟨.three [false, true] [false, false] [true, true], ?_, 1, rfl, rfl⟩
    simp [splitByRatio, prepLabels, numClasses, splitLoop, whereEq, shuffle, shuffleAux, swapAt, randbelow, h0,
        idx2mask, maskOf, slice, sliceFrom, sliceBound, List.range_succ, List.min?, bind, Except.bind, hr, hc]
  · refine ⟨.three [true, false] [false, false] [true, true], ?_, 0, rfl, rfl⟩
    simp [splitByRatio, prepLabels, numClasses, splitLoop, whereEq, shuffle, shuffleAux, swapAt, randbelow, h0,
        idx2mask, maskOf, slice, sliceFrom, sliceBound, List.range_succ, List.min?, bind, Except.bind, hr, hc]

end

/-- ratios of the documentation example -/
example : Spec.SharesOk (0.6 : ℚ) ((some 0.1 : Option ℚ).getD 0) (some 0.2) ∧ (0 : ℚ) ≤ 0.6 ∧
    Spec.Contiguous [0, 1, 1] ∧ 2 ≤ [0, 1, 1].length :=
  ⟨by simp [Spec.SharesOk]; norm_num, by norm_num, ⟨0, .inl rfl, 2, fun x => by simp; omega⟩, by simp⟩

end Props
end DHG
