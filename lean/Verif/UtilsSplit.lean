import Verif.UtilsLemmas
import Verif.OrderedRaw

/-! # Lemmas about the dataset splits -/

set_option linter.unusedSectionVars false
set_option autoImplicit false

namespace DHG
namespace Utils

theorem sliceBound_nonneg {n : Nat} {i : Int} (h : 0 ≤ i) : sliceBound n i = min i.toNat n := by
  unfold sliceBound; rw [if_neg (by omega)]

theorem slice_nonneg {α : Type} (l : List α) {a b : Int} (ha : 0 ≤ a) (hb : 0 ≤ b) :
    slice l a b = (l.take b.toNat).drop a.toNat := by
  unfold slice
  rw [sliceBound_nonneg ha, sliceBound_nonneg hb]
  rw [List.take_eq_take_min (l := l) (i := b.toNat)]
  by_cases h : a.toNat ≤ l.length
  · rw [Nat.min_eq_left h]
  · have h1 : l.length ≤ a.toNat := by omega
    rw [Nat.min_eq_right h1, List.drop_eq_nil_of_le, List.drop_eq_nil_of_le]
    · simp; omega
    · simp

theorem sliceFrom_nonneg {α : Type} (l : List α) {a : Int} (ha : 0 ≤ a) : sliceFrom l a = l.drop a.toNat := by
  unfold sliceFrom
  rw [sliceBound_nonneg ha]
  by_cases h : a.toNat ≤ l.length
  · rw [Nat.min_eq_left h]
  · rw [Nat.min_eq_right (by omega), List.drop_length, List.drop_eq_nil_of_le (by omega)]

theorem slice_append_sliceFrom {α : Type} (l : List α) (a : Int) : slice l 0 a ++ sliceFrom l a = l := by
  unfold slice sliceFrom
  rw [show sliceBound l.length 0 = 0 from by simp [sliceBound], List.drop_zero, List.take_append_drop]

theorem mem_whereEq {l : List Int} {c : Int} {v : Nat} : v ∈ whereEq l c ↔ l[v]? = some c := by
  unfold whereEq
  rw [List.mem_filter, List.mem_range, beq_iff_eq]
  exact ⟨fun h => h.2, fun h => ⟨(List.getElem?_eq_some_iff.1 h).1, h⟩⟩

theorem nodup_whereEq (l : List Int) (c : Int) : (whereEq l c).Nodup := List.Nodup.filter _ List.nodup_range

theorem length_whereEq (l : List Int) (c : Int) : (whereEq l c).length = l.count c := by
  unfold whereEq
  induction l using List.reverseRecOn with
  | nil => rfl
  | append_singleton l x ih =>
    rw [List.length_append, List.length_singleton, List.range_succ, List.filter_append, List.length_append,
      List.count_append, ← ih]
    congr 1
    · congr 1
      apply List.filter_congr
      intro v hv
      rw [List.getElem?_append_left (List.mem_range.1 hv)]
    · by_cases h : x = c
      · simp [h]
      · simp [h]

/-- the test slice of a class -/
def testSlice (p : List Nat) (k : Cuts) : List Nat :=
  match k.test with
  | some t => slice p (k.train + k.val) (k.train + k.val + t)
  | none => sliceFrom p (k.train + k.val)

theorem splitLoop_perm (cuts : Nat → Cuts) (l : List Int) (cs : List Nat) (hcs : cs.Nodup) (ω : Draws) :
    ∃ π : Nat → List Nat, (∀ c, (π c).Perm (whereEq l c)) ∧
      splitLoop cuts l cs ω =
        (cs.flatMap fun c => slice (π c) 0 (cuts (π c).length).train,
         cs.flatMap fun c => slice (π c) (cuts (π c).length).train ((cuts (π c).length).train + (cuts (π c).length).val),
         cs.flatMap fun c => testSlice (π c) (cuts (π c).length)) := by
  induction cs generalizing ω with
  | nil => exact ⟨fun c => whereEq l c, fun c => List.Perm.refl _, rfl⟩
  | cons c cs ih =>
    rw [List.nodup_cons] at hcs
    obtain ⟨π, h1, h2⟩ := ih hcs.2 (shuffle (whereEq l c) ω).2
    have hne : ∀ x ∈ cs, x ≠ c := fun x hx h => hcs.1 (h ▸ hx)
    refine ⟨fun x => if x = c then (shuffle (whereEq l c) ω).1 else π x, ?_, ?_⟩
    · intro x
      by_cases hx : x = c
      · subst hx; simp only [if_true]; exact shuffle_perm _ _
      · simp only [hx, if_false]; exact h1 x
    · have key : ∀ F : List Nat → List Nat, cs.flatMap (fun x => F (if x = c then (shuffle (whereEq l c) ω).1 else π x)) =
          cs.flatMap fun x => F (π x) := by
        intro F
        apply List.flatMap_congr
        intro x hx; simp only [hne x hx, if_false]
      simp only [splitLoop, h2, List.flatMap_cons, if_true]
      rw [key fun p => slice p 0 (cuts p.length).train, key fun p => slice p (cuts p.length).train
        ((cuts p.length).train + (cuts p.length).val), key fun p => testSlice p (cuts p.length)]
      rfl

theorem mem_maskOf {n : Nat} {idx : List Nat} (h : ∀ i ∈ idx, i < n) :
    ∃ m, maskOf n idx = .ok m ∧ m.length = n ∧ ∀ v, Spec.On m v ↔ v ∈ idx := by
  refine ⟨_, if_pos h, by simp, ?_⟩
  intro v
  unfold Spec.On
  rw [List.getElem?_map]
  by_cases hv : v < n
  · rw [List.getElem?_range hv]; simp
  · rw [List.getElem?_eq_none (by simpa using hv)]
    simp
    exact fun h' => hv (h v h')

theorem idx2mask_ok {n : Nat} {tr te va : List Nat} (b : Bool) (h1 : ∀ i ∈ tr, i < n) (h2 : ∀ i ∈ te, i < n)
    (h3 : b = true → ∀ i ∈ va, i < n) :
    ∃ ms, idx2mask n tr te (if b then some va else none) = .ok ms ∧ (Spec.train ms).length = n ∧
      (Spec.test ms).length = n ∧ (∀ m, Spec.val? ms = some m → m.length = n) ∧
      ((Spec.val? ms).isSome = b) ∧ (∀ v, Spec.On (Spec.train ms) v ↔ v ∈ tr) ∧
      (∀ v, Spec.On (Spec.test ms) v ↔ v ∈ te) ∧ (∀ v, Spec.OnVal ms v ↔ b = true ∧ v ∈ va) := by
  obtain ⟨m1, e1, l1, o1⟩ := mem_maskOf h1
  obtain ⟨m2, e2, l2, o2⟩ := mem_maskOf h2
  cases b with
  | true =>
    obtain ⟨m3, e3, l3, o3⟩ := mem_maskOf (h3 rfl)
    refine ⟨.three m1 m3 m2, ?_, l1, l2, ?_, rfl, o1, o2, ?_⟩
    · unfold idx2mask; rw [e1, e2, if_pos rfl]
      show (maskOf n va >>= _) = _
      rw [e3]; rfl
    · intro m hm; cases hm; exact l3
    · intro v
      unfold Spec.OnVal
      simp only [Spec.val?, Option.some.injEq, exists_eq_left', true_and]
      exact o3 v
  | false =>
    refine ⟨.two m1 m2, ?_, l1, l2, ?_, rfl, o1, o2, ?_⟩
    · unfold idx2mask; rw [e1, e2]; rfl
    · intro m hm; cases hm
    · intro v
      unfold Spec.OnVal
      simp [Spec.val?]

/-- where the vertices of class `c` are allowed to go -/
theorem pieces {α : Type} [DecidableEq α] {p : List α} (hp : p.Nodup) {a b : Nat} :
    (∀ x, ¬ (x ∈ p.take a ∧ x ∈ (p.take (a + b)).drop a)) ∧
    (∀ x, ¬ (x ∈ p.take (a + b) ∧ x ∈ p.drop (a + b))) := by
  constructor
  · rintro x ⟨h1, h2⟩
    have h3 : (p.take (a + b)).Nodup := hp.sublist (List.take_sublist _ _)
    rw [← List.take_append_drop a (p.take (a + b)), List.take_take, Nat.min_eq_left (by omega)] at h3
    exact (List.disjoint_of_nodup_append h3) h1 h2
  · rintro x ⟨h1, h2⟩
    rw [← List.take_append_drop (a + b) p] at hp
    exact (List.disjoint_of_nodup_append hp) h1 h2

theorem ncard_eq_length {P : Nat → Prop} {q : List Nat} (hq : q.Nodup) (h : ∀ v, P v ↔ v ∈ q) :
    Set.ncard {v | P v} = q.length := by
  rw [← List.toFinset_card_of_nodup hq, ← Set.ncard_coe_finset]
  congr 1
  ext v; simp [h]

/-- cuts without negative numbers -/
def Cuts.NonNeg (k : Cuts) : Prop := 0 ≤ k.train ∧ 0 ≤ k.val ∧ ∀ t, k.test = some t → 0 ≤ t

theorem testSlice_nonneg {p : List Nat} {k : Cuts} (h : k.NonNeg) :
    testSlice p k = match k.test with
      | some t => (p.take (k.train.toNat + k.val.toNat + t.toNat)).drop (k.train.toNat + k.val.toNat)
      | none => p.drop (k.train.toNat + k.val.toNat) := by
  obtain ⟨h1, h2, h3⟩ := h
  unfold testSlice
  rcases ht : k.test with _ | t
  · simp only
    rw [sliceFrom_nonneg _ (by omega)]; congr 1; omega
  · have := h3 t ht
    simp only
    rw [slice_nonneg _ (by omega) (by omega)]
    congr 1
    · omega
    · congr 1; omega

theorem length_testSlice {p : List Nat} {k : Cuts} (h : k.NonNeg) :
    (testSlice p k).length = match k.test with
      | some t => min t.toNat (p.length - k.train.toNat - k.val.toNat)
      | none => p.length - k.train.toNat - k.val.toNat := by
  rw [testSlice_nonneg h]
  rcases k.test with _ | t
  · simp; omega
  · simp; omega

theorem testSlice_sub {p : List Nat} {k : Cuts} (h : k.NonNeg) {v : Nat} (hv : v ∈ testSlice p k) :
    v ∈ p.drop (k.train.toNat + k.val.toNat) := by
  rw [testSlice_nonneg h] at hv
  rcases ht : k.test with _ | t
  · rw [ht] at hv; exact hv
  · rw [ht] at hv
    simp only at hv
    rw [← List.take_append_drop (k.train.toNat + k.val.toNat + t.toNat) p, List.drop_append]
    exact List.mem_append_left _ hv

/-- the train slice without clipping -/
theorem trainSlice {p : List Nat} {k : Cuts} (h : k.NonNeg) : slice p 0 k.train = p.take k.train.toNat := by
  rw [slice_nonneg _ le_rfl h.1]; simp

theorem valSlice {p : List Nat} {k : Cuts} (h : k.NonNeg) :
    slice p k.train (k.train + k.val) = (p.take (k.train.toNat + k.val.toNat)).drop k.train.toNat := by
  rw [slice_nonneg _ h.1 (by have := h.1; have := h.2.1; omega)]
  congr 2
  have := h.1; have := h.2.1; omega

/-- Everything the split properties say, in terms of the labels used by the loop. -/
structure SplitOk (cuts : Nat → Cuts) (n : Nat) (l : List Int) (nc : Nat) (b : Bool) (ms : Masks) : Prop where
  lenTrain : (Spec.train ms).length = n
  lenTest : (Spec.test ms).length = n
  lenVal : ∀ m, Spec.val? ms = some m → m.length = n
  hasVal : (Spec.val? ms).isSome = b
  labelled : ∀ v, Spec.On (Spec.train ms) v ∨ Spec.On (Spec.test ms) v ∨ Spec.OnVal ms v → v < l.length
  trainTest : ∀ v, ¬ (Spec.On (Spec.train ms) v ∧ Spec.On (Spec.test ms) v)
  trainVal : ∀ v, ¬ (Spec.On (Spec.train ms) v ∧ Spec.OnVal ms v)
  valTest : ∀ v, ¬ (Spec.OnVal ms v ∧ Spec.On (Spec.test ms) v)
  train : ∀ c < nc, Spec.inClass l c (Spec.On (Spec.train ms)) =
    min (cuts (l.count (c : Int))).train.toNat (l.count (c : Int))
  val : b = true → ∀ c < nc, Spec.inClass l c (Spec.OnVal ms) =
    min (cuts (l.count (c : Int))).val.toNat (l.count (c : Int) - (cuts (l.count (c : Int))).train.toNat)
  test : ∀ c < nc, Spec.inClass l c (Spec.On (Spec.test ms)) = match (cuts (l.count (c : Int))).test with
    | some t => min t.toNat (l.count (c : Int) - (cuts (l.count (c : Int))).train.toNat -
        (cuts (l.count (c : Int))).val.toNat)
    | none => l.count (c : Int) - (cuts (l.count (c : Int))).train.toNat - (cuts (l.count (c : Int))).val.toNat
  cover : (∀ m, (cuts m).test = none) → (b = false → ∀ m, (cuts m).val = 0) →
    ∀ c < nc, ∀ v, l[v]? = some (c : Int) →
      Spec.On (Spec.train ms) v ∨ Spec.On (Spec.test ms) v ∨ Spec.OnVal ms v

theorem split_core (cuts : Nat → Cuts) (hk : ∀ m, (cuts m).NonNeg) (n : Nat) (l : List Int)
    (hn : l.length ≤ n) (nc : Nat) (b : Bool) (ω : Draws) :
    ∃ ms, idx2mask n (splitLoop cuts l (List.range nc) ω).1 (splitLoop cuts l (List.range nc) ω).2.2
      (if b then some (splitLoop cuts l (List.range nc) ω).2.1 else none) = .ok ms ∧
      SplitOk cuts n l nc b ms := by
  obtain ⟨π, hπ, heq⟩ := splitLoop_perm cuts l (List.range nc) List.nodup_range ω
  have hmem : ∀ c v, v ∈ π c ↔ l[v]? = some (c : Int) := fun c v => by rw [(hπ c).mem_iff, mem_whereEq]
  have hnd : ∀ c, (π c).Nodup := fun c => (hπ c).nodup_iff.2 (nodup_whereEq l c)
  have hlen : ∀ c : Nat, (π c).length = l.count (c : Int) := fun c => by
    rw [(hπ c).length_eq, length_whereEq]
  have tr : ∀ c, slice (π c) 0 (cuts (π c).length).train = (π c).take (cuts (l.count (c : Int))).train.toNat :=
    fun c => by rw [hlen, trainSlice (hk _)]
  have va : ∀ c, slice (π c) (cuts (π c).length).train ((cuts (π c).length).train + (cuts (π c).length).val) =
      ((π c).take ((cuts (l.count (c : Int))).train.toNat + (cuts (l.count (c : Int))).val.toNat)).drop
        (cuts (l.count (c : Int))).train.toNat := fun c => by rw [hlen, valSlice (hk _)]
  rw [heq]
  simp only
  have mTr : ∀ v, v ∈ (List.range nc).flatMap (fun c => slice (π c) 0 (cuts (π c).length).train) ↔
      ∃ c < nc, v ∈ (π c).take (cuts (l.count (c : Int))).train.toNat := fun v => by
    simp only [List.mem_flatMap, List.mem_range, tr]
  have mVa : ∀ v, v ∈ (List.range nc).flatMap (fun c => slice (π c) (cuts (π c).length).train
      ((cuts (π c).length).train + (cuts (π c).length).val)) ↔
      ∃ c < nc, v ∈ ((π c).take ((cuts (l.count (c : Int))).train.toNat +
        (cuts (l.count (c : Int))).val.toNat)).drop (cuts (l.count (c : Int))).train.toNat := fun v => by
    simp only [List.mem_flatMap, List.mem_range, va]
  have mTe : ∀ v, v ∈ (List.range nc).flatMap (fun c => testSlice (π c) (cuts (π c).length)) ↔
      ∃ c < nc, v ∈ testSlice (π c) (cuts (l.count (c : Int))) := fun v => by
    simp only [List.mem_flatMap, List.mem_range, hlen]
  -- a vertex of a slice of class `c` has label `c`
  have lTr : ∀ c v, v ∈ (π c).take (cuts (l.count (c : Int))).train.toNat → l[v]? = some (c : Int) :=
    fun c v h => (hmem c v).1 (List.mem_of_mem_take h)
  have lVa : ∀ c v, v ∈ ((π c).take ((cuts (l.count (c : Int))).train.toNat +
        (cuts (l.count (c : Int))).val.toNat)).drop (cuts (l.count (c : Int))).train.toNat → l[v]? = some (c : Int) :=
    fun c v h => (hmem c v).1 (List.mem_of_mem_take (List.mem_of_mem_drop h))
  have lTe : ∀ c v, v ∈ testSlice (π c) (cuts (l.count (c : Int))) → l[v]? = some (c : Int) :=
    fun c v h => (hmem c v).1 (List.mem_of_mem_drop (testSlice_sub (hk _) h))
  have inj : ∀ {c c' : Nat} {v : Nat}, l[v]? = some (c : Int) → l[v]? = some (c' : Int) → c = c' := by
    intro c c' v h h'
    rw [h] at h'
    exact Int.ofNat_inj.1 (Option.some.inj h')
  have lt_of : ∀ {c : Nat} {v : Nat}, l[v]? = some (c : Int) → v < l.length :=
    fun h => (List.getElem?_eq_some_iff.1 h).1
  obtain ⟨ms, e, h1, h2, h3, h4, h5, h6, h7⟩ := idx2mask_ok (n := n) (va := (List.range nc).flatMap (fun c =>
      slice (π c) (cuts (π c).length).train ((cuts (π c).length).train + (cuts (π c).length).val))) b
    (fun v hv => by obtain ⟨c, -, h⟩ := (mTr v).1 hv; exact (lt_of (lTr c v h)).trans_le hn)
    (fun v hv => by obtain ⟨c, -, h⟩ := (mTe v).1 hv; exact (lt_of (lTe c v h)).trans_le hn)
    (fun _ v hv => by obtain ⟨c, -, h⟩ := (mVa v).1 hv; exact (lt_of (lVa c v h)).trans_le hn)
  refine ⟨ms, e, ⟨h1, h2, h3, h4, ?_, ?_, ?_, ?_, ?_, ?_, ?_, ?_⟩⟩
  · intro v hv
    rw [h5, h6, h7, mTr, mTe, mVa] at hv
    rcases hv with ⟨c, -, h⟩ | ⟨c, -, h⟩ | ⟨-, c, -, h⟩
    · exact lt_of (lTr c v h)
    · exact lt_of (lTe c v h)
    · exact lt_of (lVa c v h)
  · rintro v ⟨ha, hb⟩
    rw [h5, mTr] at ha
    rw [h6, mTe] at hb
    obtain ⟨c, -, ha⟩ := ha
    obtain ⟨c', -, hb⟩ := hb
    obtain rfl := inj (lTr c v ha) (lTe c' v hb)
    refine (pieces (hnd c)).2 v ⟨?_, testSlice_sub (hk _) hb⟩
    exact (List.take_subset_take_left _ (Nat.le_add_right _ _)) ha
  · rintro v ⟨ha, hb⟩
    rw [h5, mTr] at ha
    rw [h7, mVa] at hb
    obtain ⟨c, -, ha⟩ := ha
    obtain ⟨-, c', -, hb⟩ := hb
    obtain rfl := inj (lTr c v ha) (lVa c' v hb)
    exact (pieces (hnd c)).1 v ⟨ha, hb⟩
  · rintro v ⟨ha, hb⟩
    rw [h7, mVa] at ha
    rw [h6, mTe] at hb
    obtain ⟨-, c, -, ha⟩ := ha
    obtain ⟨c', -, hb⟩ := hb
    obtain rfl := inj (lVa c v ha) (lTe c' v hb)
    exact (pieces (hnd c)).2 v ⟨List.mem_of_mem_drop ha, testSlice_sub (hk _) hb⟩
  · intro c hc
    unfold Spec.inClass
    rw [ncard_eq_length (q := (π c).take (cuts (l.count (c : Int))).train.toNat)]
    · rw [List.length_take, hlen]
    · exact (hnd c).sublist (List.take_sublist _ _)
    · intro v
      rw [h5, mTr]
      constructor
      · rintro ⟨hl, c', -, h⟩
        obtain rfl := inj hl (lTr c' v h)
        exact h
      · intro h; exact ⟨lTr c v h, c, hc, h⟩
  · intro hb c hc
    unfold Spec.inClass
    rw [ncard_eq_length (q := ((π c).take ((cuts (l.count (c : Int))).train.toNat +
        (cuts (l.count (c : Int))).val.toNat)).drop (cuts (l.count (c : Int))).train.toNat)]
    · rw [List.length_drop, List.length_take, hlen]; omega
    · exact ((hnd c).sublist (List.take_sublist _ _)).sublist (List.drop_sublist _ _)
    · intro v
      rw [h7, mVa]
      constructor
      · rintro ⟨hl, -, c', -, h⟩
        obtain rfl := inj hl (lVa c' v h)
        exact h
      · intro h; exact ⟨lVa c v h, hb, c, hc, h⟩
  · intro c hc
    unfold Spec.inClass
    rw [ncard_eq_length (q := testSlice (π c) (cuts (l.count (c : Int))))]
    · rw [length_testSlice (hk _), hlen]
    · rw [testSlice_nonneg (hk _)]
      rcases (cuts (l.count (c : Int))).test with _ | t
      · exact (hnd c).sublist (List.drop_sublist _ _)
      · exact ((hnd c).sublist (List.take_sublist _ _)).sublist (List.drop_sublist _ _)
    · intro v
      rw [h6, mTe]
      constructor
      · rintro ⟨hl, c', -, h⟩
        obtain rfl := inj hl (lTe c' v h)
        exact h
      · intro h; exact ⟨lTe c v h, c, hc, h⟩
  · intro ht hb c hc v hv
    have hv' := (hmem c v).2 hv
    rw [h5, h6, h7, mTr, mTe, mVa]
    rw [← List.take_append_drop ((cuts (l.count (c : Int))).train.toNat +
        (cuts (l.count (c : Int))).val.toNat) (π c), List.mem_append] at hv'
    rcases hv' with h | h
    · rw [← List.take_append_drop (cuts (l.count (c : Int))).train.toNat ((π c).take _), List.mem_append,
        List.take_take, Nat.min_eq_left (by omega)] at h
      rcases h with h | h
      · exact .inl ⟨c, hc, h⟩
      · cases b with
        | true => exact .inr (.inr ⟨rfl, c, hc, h⟩)
        | false =>
          rw [hb rfl] at h
          simp at h
    · refine .inr (.inl ⟨c, hc, ?_⟩)
      rw [testSlice_nonneg (hk _), ht]; exact h

/-! ### labels -/

theorem prepLabels_cases (L : List Int) (h2 : 2 ≤ L.length) :
    ∃ b : Int, prepLabels L = .ok (L.map (· - b)) ∧ (b = 0 ∨ b = 1) ∧
      (b = 1 ↔ 1 ∈ L ∧ ∀ x ∈ L, 1 ≤ x) := by
  unfold prepLabels
  rw [if_neg (by omega)]
  rcases hm : L.min? with _ | m
  · rw [List.min?_eq_none_iff] at hm; subst hm; simp at h2
  · have h := List.min?_eq_some_iff.1 hm
    by_cases h1 : m = 1
    · refine ⟨1, ?_, .inr rfl, ?_⟩
      · simp [h1]
      · subst h1; exact ⟨fun _ => h, fun _ => rfl⟩
    · refine ⟨0, ?_, .inl rfl, ?_⟩
      · simp [h1]
      · constructor
        · intro h0; exact absurd h0 (by decide)
        · intro h0
          exfalso; apply h1
          exact le_antisymm (h.2 1 h0.1) (h0.2 m h.1)

theorem inClass_shift (L : List Int) (b c : Int) (P : Nat → Prop) :
    Spec.inClass (L.map (· - b)) (c - b) P = Spec.inClass L c P := by
  unfold Spec.inClass
  congr 1
  ext v
  simp only [Set.mem_ofPred_eq, List.getElem?_map]
  rcases L[v]? with _ | x
  · simp
  · simp

theorem count_shift (L : List Int) (b c : Int) : (L.map (· - b)).count (c - b) = L.count c :=
  List.count_map_of_injective L (fun x : Int => x - b) (fun x y h => by simpa using h) c

theorem numClasses_contig {L : List Int} {b : Int} {c : Nat} (h : ∀ x : Int, x ∈ L ↔ b ≤ x ∧ x < b + c) :
    numClasses (L.map (· - b)) = c := by
  unfold numClasses
  rw [← List.card_toFinset]
  have : (L.map (· - b)).toFinset = (Finset.range c).map ⟨fun n : Nat => (n : Int), Nat.cast_injective⟩ := by
    ext x
    simp only [List.mem_toFinset, List.mem_map, Finset.mem_map, Finset.mem_range, Function.Embedding.coeFn_mk, h]
    constructor
    · rintro ⟨y, hy, rfl⟩
      exact ⟨(y - b).toNat, by omega, by omega⟩
    · rintro ⟨k, hk, rfl⟩
      exact ⟨k + b, by omega, by omega⟩
  rw [this, Finset.card_map, Finset.card_range]

theorem shift_contig {L : List Int} {b b' : Int} {c : Nat} (hb : b = 0 ∨ b = 1) (hne : L ≠ [])
    (h : ∀ x : Int, x ∈ L ↔ b ≤ x ∧ x < b + c) (hb' : b' = 0 ∨ b' = 1)
    (h1 : b' = 1 ↔ 1 ∈ L ∧ ∀ x ∈ L, 1 ≤ x) : b' = b := by
  obtain ⟨x, hx⟩ := List.exists_mem_of_ne_nil L hne
  have hx' := (h x).1 hx
  rcases hb with rfl | rfl
  · rcases hb' with rfl | rfl
    · rfl
    · have := (h1.1 rfl).2 0 ((h 0).2 (by omega)); omega
  · exact h1.2 ⟨(h 1).2 (by omega), fun y hy => ((h y).1 hy).1⟩

end Utils
end DHG
