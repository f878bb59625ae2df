import Verif.UtilsUI
import Verif.UtilsMath
import Verif.SparseLemmas

/-!
# C55 – C58: user-item splits, negative sampling, binomials, sparse dropout
-/

set_option linter.unusedSectionVars false
set_option autoImplicit false

namespace DHG
namespace Props
open Utils

/-! ## C55 -/

section
variable {K : Type} [Field K] [LinearOrder K] [PyReal K] [IsStrictOrderedRing K]

/-- `tr` and `te` split the items of every user `u < m`: no item occurs twice or in both lists, and
together they are exactly the items of the edges of `g` at `u`; there is at most one line per user
in each list, and only for users that have items. -/
def Spec.SplitsItems (g : BSt K) (m : Nat) (tr te : AdjList) : Prop :=
  (∀ u < m, (Spec.itemsOf tr u ++ Spec.itemsOf te u).Nodup ∧
    ∀ v : Nat, v ∈ Spec.itemsOf tr u ++ Spec.itemsOf te u ↔ ∃ w, (((u : Int), (v : Int)), w) ∈ Spec.listingB g) ∧
  (∀ l ∈ tr ++ te, ∃ u < m, l.head? = some u ∧ ∃ (v : Nat) (w : K), (((u : Int), (v : Int)), w) ∈ Spec.listingB g) ∧
  (tr.map List.head?).Nodup ∧ (te.map List.head?).Nodup

theorem nodup_heads (us : List Nat) (hus : us.Nodup) (G : Nat → Option (List Nat)) :
    ((us.filterMap fun u => (G u).map fun l => u :: l).map List.head?).Nodup := by
  have : ((us.filterMap fun u => (G u).map fun l => u :: l).map List.head?).Sublist (us.map some) := by
    clear hus
    induction us with
    | nil => exact List.Sublist.slnil
    | cons u us ih =>
      rw [List.filterMap_cons]
      rcases G u with _ | l
      · simp only [Option.map_none]; exact ih.trans (List.sublist_cons_self _ _)
      · simp only [Option.map_some, List.map_cons, List.head?_cons]; exact ih.cons₂ _
  exact (hus.map (Option.some_injective _)).sublist this

theorem splitsItems_of {g : BSt K} {m : Nat} {π : Nat → List Nat} {F : Deal}
    (hF : ∀ p, (F p).1.getD [] ++ (F p).2.getD [] = p) (hF0 : F [] = (none, none))
    (hπ : ∀ u < m, (π u).Nodup ∧ ∀ v : Nat, v ∈ π u ↔ ∃ w, (((u : Int), (v : Int)), w) ∈ Spec.listingB g) :
    Spec.SplitsItems g m ((List.range m).filterMap fun u => (F (π u)).1.map fun l => u :: l)
      ((List.range m).filterMap fun u => (F (π u)).2.map fun l => u :: l) := by
  refine ⟨?_, ?_, nodup_heads _ List.nodup_range _, nodup_heads _ List.nodup_range _⟩
  · intro u hu
    rw [itemsOf_filterMap _ List.nodup_range, itemsOf_filterMap _ List.nodup_range, if_pos (List.mem_range.2 hu),
      if_pos (List.mem_range.2 hu), hF]
    exact hπ u hu
  · have hne : ∀ u, F (π u) ≠ (none, none) ∨ True := fun _ => .inr trivial
    intro l hl
    obtain ⟨u, hu, l', h1, h2⟩ : ∃ u < m, ∃ l', ((F (π u)).1 = some l' ∨ (F (π u)).2 = some l') ∧ l = u :: l' := by
      rw [List.mem_append, List.mem_filterMap, List.mem_filterMap] at hl
      rcases hl with ⟨u, hu, h⟩ | ⟨u, hu, h⟩ <;>
      · obtain ⟨l', h1, h2⟩ := Option.map_eq_some_iff.1 h
        exact ⟨u, List.mem_range.1 hu, l', by simp [h1], h2.symm⟩
    subst h2
    refine ⟨u, hu, rfl, ?_⟩
    have hp : π u ≠ [] := by
      intro h0; rw [h0, hF0] at h1; simp at h1
    obtain ⟨v, hv⟩ := List.exists_mem_of_ne_nil _ hp
    obtain ⟨w, hw⟩ := ((hπ u hu).2 v).1 hv
    exact ⟨v, w, hw⟩

theorem dealNum_parts (t : Int) (p : List Nat) : ((dealNum t p).1.getD [] ++ (dealNum t p).2.getD []) = p := by
  unfold dealNum
  by_cases h0 : p.length = 0
  · rw [if_pos h0]; rw [List.length_eq_zero_iff] at h0; subst h0; rfl
  · rw [if_neg h0]
    by_cases h1 : (p.length : Int) ≤ t
    · rw [if_pos h1]; simp
    · rw [if_neg h1]; exact slice_append_sliceFrom p t

theorem dealRatio_parts [FloorRing K] (t : K) (p : List Nat) :
    ((dealRatio t p).1.getD [] ++ (dealRatio t p).2.getD []) = p := by
  unfold dealRatio
  by_cases h0 : p.length = 0
  · rw [if_pos h0]; rw [List.length_eq_zero_iff] at h0; subst h0; rfl
  · rw [if_neg h0]; exact slice_append_sliceFrom p _

theorem dealNum_train {t : Int} (ht : 0 ≤ t) (p : List Nat) :
    ((dealNum t p).1.getD []).length = min t.toNat p.length := by
  unfold dealNum
  by_cases h0 : p.length = 0
  · rw [if_pos h0, h0]; simp
  · rw [if_neg h0]
    by_cases h1 : (p.length : Int) ≤ t
    · rw [if_pos h1]; simp; omega
    · rw [if_neg h1]; simp [slice_nonneg _ le_rfl ht]

variable {g : BSt K} {m n : Nat}

/-- C55. `split_by_num_for_UI_bigraph` splits the items of every user into train and test; the
graph is only read. For `train_num ≥ 0` every user keeps `min(train_num, number of items)` items
for training. -/
theorem C55_split_by_num_UI (hg : BiGraph.Built Graph.NonNeg g) (hm : (BiGraph.ask .numU g).1 = .ok (.num m))
    (hn : (BiGraph.ask .numV g).1 = .ok (.num n)) (hx : Spec.Bipartite m n g) (t : Int) (ω : Draws) :
    ∃ tr te, (splitByNumUI t ω g).1 = .ok (tr, te) ∧ Spec.SplitsItems g m tr te ∧
      (0 ≤ t → ∀ u < m, (Spec.itemsOf tr u).length =
        min t.toNat ((Spec.itemsOf tr u).length + (Spec.itemsOf te u).length)) ∧
      Spec.IndistB (splitByNumUI t ω g).2 g := by
  have hr : Ord.OReads (K := K) .bi (splitByNumUI t ω)
      (fun r => evUi (dealNum t) (List.range r.numU) ω r) := by
    unfold splitByNumUI
    exact (Reads.bind (Reads.readRaw _) fun n => reads_uiNum t (List.range n) ω).congr fun _ => rfl
  obtain ⟨π, h1, h2⟩ := ui_core hg hm hn hx (dealNum t) ω
  obtain ⟨r1, r2, r3⟩ := hr g hg.coh
  refine ⟨_, _, r1.trans h1, splitsItems_of (dealNum_parts t) rfl h2, ?_, Bi.indist_of_raw r3 hg.coh r2⟩
  intro ht u hu
  rw [itemsOf_filterMap _ List.nodup_range, itemsOf_filterMap _ List.nodup_range, if_pos (List.mem_range.2 hu),
      if_pos (List.mem_range.2 hu), ← List.length_append, dealNum_parts, dealNum_train ht]

/-- C55. `split_by_ratio_for_UI_bigraph` splits the items of every user into train and test; the
graph is only read. For a ratio in `[0,1]` every user with `k` items keeps `int(k * ratio)` items
for training. -/
theorem C55_split_by_ratio_UI [FloorRing K] (hg : BiGraph.Built Graph.NonNeg g)
    (hm : (BiGraph.ask .numU g).1 = .ok (.num m)) (hn : (BiGraph.ask .numV g).1 = .ok (.num n))
    (hx : Spec.Bipartite m n g) (t : K) (ω : Draws) :
    ∃ tr te, (splitByRatioUI t ω g).1 = .ok (tr, te) ∧ Spec.SplitsItems g m tr te ∧
      (0 ≤ t → t ≤ 1 → ∀ u < m, (Spec.itemsOf tr u).length =
        ⌊(((Spec.itemsOf tr u).length + (Spec.itemsOf te u).length : Nat) : K) * t⌋₊) ∧
      Spec.IndistB (splitByRatioUI t ω g).2 g := by
  have hr : Ord.OReads (K := K) .bi (splitByRatioUI t ω)
      (fun r => evUi (dealRatio t) (List.range r.numU) ω r) := by
    unfold splitByRatioUI
    exact (Reads.bind (Reads.readRaw _) fun n => reads_uiRatio t (List.range n) ω).congr fun _ => rfl
  obtain ⟨π, h1, h2⟩ := ui_core hg hm hn hx (dealRatio t) ω
  obtain ⟨r1, r2, r3⟩ := hr g hg.coh
  refine ⟨_, _, r1.trans h1, splitsItems_of (dealRatio_parts t) rfl h2, ?_, Bi.indist_of_raw r3 hg.coh r2⟩
  intro h0 h01 u hu
  rw [itemsOf_filterMap _ List.nodup_range, itemsOf_filterMap _ List.nodup_range, if_pos (List.mem_range.2 hu),
      if_pos (List.mem_range.2 hu), ← List.length_append, dealRatio_parts]
  unfold dealRatio
  by_cases hp : (π u).length = 0
  · rw [if_pos hp, hp]; simp
  · rw [if_neg hp]
    have hnn : (0 : K) ≤ ((π u).length : K) * t := mul_nonneg (Nat.cast_nonneg _) h0
    have ht : truncInt (((π u).length : K) * t) = (⌊((π u).length : K) * t⌋₊ : Int) := by
      unfold truncInt; rw [if_pos hnn, Int.natCast_floor_eq_floor hnn]
    have hle : ⌊((π u).length : K) * t⌋₊ ≤ (π u).length := by
      apply Nat.floor_le_of_le
      have : (0 : K) ≤ ((π u).length : K) := Nat.cast_nonneg _
      nlinarith
    rw [ht]
    simp only [Option.getD_some]
    rw [slice_nonneg _ le_rfl (by omega)]
    simp [hle]

end

/-- the example graph has a user with two items, and the splits apply to it -/
example : BiGraph.Built Graph.NonNeg exB ∧ (BiGraph.ask .numU exB).1 = .ok (.num 2) ∧
    (BiGraph.ask .numV exB).1 = .ok (.num 3) ∧ Spec.Bipartite 2 3 exB :=
  ⟨exB_nonneg, exB_numU, exB_numV, exB_flag⟩

/-! ## C56 -/

theorem items_iff {es : List (Int × Int)} (u v : Int) :
    v ∈ ((edgeListToAdjDict es).get? u).getD [] ↔ (u, v) ∈ es := by
  rw [adjDict_get]
  unfold Spec.edgesFrom
  simp only [List.mem_map, List.mem_filter, decide_eq_true_eq]
  constructor
  · rintro ⟨e, ⟨he, rfl⟩, rfl⟩; exact he
  · intro h; exact ⟨(u, v), ⟨h, rfl⟩, rfl⟩

theorem sampleNeg_ok {d : UIData} {u : Int} {fuel : Nat} {ω : Draws} {p : Nat × Draws}
    (h : d.sampleNeg u fuel ω = some (.ok p)) : (p.1 : Int) < d.numItems ∧ (p.1 : Int) ∉ d.items u := by
  induction fuel generalizing ω with
  | zero => cases h
  | succ fuel ih =>
    unfold UIData.sampleNeg at h
    rcases hr : randrange d.numItems ω with e | q
    · rw [hr] at h; cases h
    · rw [hr] at h
      simp only at h
      by_cases hq : (q.1 : Int) ∈ d.items u
      · rw [if_pos hq] at h; exact ih h
      · rw [if_neg hq] at h; cases h; exact ⟨randrange_lt hr, hq⟩

theorem sampleNeg_none {d : UIData} {u : Int} (h0 : 0 < d.numItems)
    (h : ∀ v : Nat, (v : Int) < d.numItems → (v : Int) ∈ d.items u) (fuel : Nat) (ω : Draws) :
    d.sampleNeg u fuel ω = none := by
  induction fuel generalizing ω with
  | zero => rfl
  | succ fuel ih =>
    unfold UIData.sampleNeg
    have hr : randrange d.numItems ω = .ok (randbelow d.numItems.toNat ω) := if_pos h0
    rw [hr]
    simp only
    rw [if_pos (h _ (randrange_lt hr))]
    exact ih _

theorem sampleNeg_some {d : UIData} {u : Int} (h0 : 0 < d.numItems) (k : Nat) :
    ∀ ω : Draws, ((ω k % d.numItems.toNat : Nat) : Int) ∉ d.items u →
      ∃ p, d.sampleNeg u (k + 1) ω = some (.ok p) := by
  induction k with
  | zero =>
    intro ω h
    refine ⟨randbelow d.numItems.toNat ω, ?_⟩
    unfold UIData.sampleNeg
    rw [show randrange d.numItems ω = .ok (randbelow d.numItems.toNat ω) from if_pos h0]
    simp only
    exact if_neg h
  | succ k ih =>
    intro ω h
    unfold UIData.sampleNeg
    rw [show randrange d.numItems ω = .ok (randbelow d.numItems.toNat ω) from if_pos h0]
    simp only
    by_cases hq : ((randbelow d.numItems.toNat ω).1 : Int) ∈ d.items u
    · rw [if_pos hq]; exact ih ω.tail h
    · rw [if_neg hq]; exact ⟨_, rfl⟩

/-- the training data set over given pairs -/
theorem new_train (nu ni : Int) (pairs : List (Int × Int)) (tp : Option (List (Int × Int))) (strict : Bool) :
    UIData.new nu ni pairs tp strict "train" =
      .ok ⟨true, nu, ni, pairs, edgeListToAdjDict pairs, [], strict⟩ := by
  unfold UIData.new; simp

theorem pyAt_mem {α : Type} {l : List α} {i : Int} {a : α} (h : pyAt l i = .ok a) : a ∈ l := by
  unfold pyAt at h
  rcases hx : l[(if i < 0 then i + l.length else i).toNat]? with _ | b
  · rw [hx] at h; cases h
  · rw [hx] at h
    simp only at h
    by_cases hi : i < -(l.length : Int)
    · rw [if_pos hi] at h; cases h
    · rw [if_neg hi] at h; cases h; exact List.mem_of_getElem? hx

/-- C56. Whatever the draws, a triplet that is returned in the training phase consists of an
interaction and an item in range that the user has no interaction with. -/
theorem C56_training_triplet {nu ni : Int} {pairs : List (Int × Int)} {tp : Option (List (Int × Int))}
    {strict : Bool} {d : UIData} (hd : UIData.new nu ni pairs tp strict "train" = .ok d) {i : Int} {fuel : Nat}
    {ω : Draws} {u p q : Int} (h : d.getTrain i fuel ω = some (.ok (u, p, q))) :
    (u, p) ∈ pairs ∧ (u, q) ∉ pairs ∧ 0 ≤ q ∧ q < ni := by
  rw [new_train] at hd
  cases hd
  unfold UIData.getTrain at h
  cases strict with
  | true =>
    simp only [if_true] at h
    rcases hp : pyAt pairs i with e | e
    · rw [hp] at h; cases h
    · rw [hp] at h
      simp only [Option.map_eq_some_iff] at h
      obtain ⟨r, hr, h⟩ := h
      rcases r with _ | s
      · cases h
      · cases h
        obtain ⟨h1, h2⟩ := sampleNeg_ok hr
        exact ⟨pyAt_mem hp, fun hc => h2 ((items_iff _ _).2 hc), by omega, h1⟩
  | false =>
    simp only [Bool.false_eq_true, if_false] at h
    unfold UIData.sampleTriplet at h
    rcases hu : randrange nu ω with e | w
    · simp only [hu] at h; cases h
    · simp only [hu] at h
      by_cases hl : (UIData.items ⟨true, nu, ni, pairs, edgeListToAdjDict pairs, [], false⟩ w.1).length > 0
      · rw [if_pos hl] at h
        rcases hc : choice (UIData.items ⟨true, nu, ni, pairs, edgeListToAdjDict pairs, [], false⟩ w.1) w.2 with e | c
        · rw [hc] at h; cases h
        · rw [hc] at h
          simp only [Option.map_eq_some_iff] at h
          obtain ⟨r, hr, h⟩ := h
          rcases r with _ | s
          · cases h
          · cases h
            obtain ⟨h1, h2⟩ := sampleNeg_ok hr
            exact ⟨(items_iff _ _).1 (choice_mem hc), fun hc => h2 ((items_iff _ _).2 hc), by omega, h1⟩
      · rw [if_neg hl] at h; cases h

/-- C56. With `strict_link` the triplet of a valid index belongs to the interaction at that index,
and it is returned as soon as the generator draws an item that the user has no interaction with. -/
theorem C56_training_triplet_strict {nu ni : Int} {pairs : List (Int × Int)} {tp : Option (List (Int × Int))}
    {d : UIData} (hd : UIData.new nu ni pairs tp true "train" = .ok d) {i : Nat} (hi : i < pairs.length)
    (h0 : 0 < ni) (k : Nat) (ω : Draws) (hk : (pairs[i].1, ((ω k % ni.toNat : Nat) : Int)) ∉ pairs) :
    ∃ q, d.getTrain i (k + 1) ω = some (.ok (pairs[i].1, pairs[i].2, q)) := by
  rw [new_train] at hd
  cases hd
  have hp : pyAt pairs (i : Int) = .ok pairs[i] := by
    unfold pyAt
    rw [if_neg (by omega), Int.toNat_natCast, List.getElem?_eq_getElem hi]
    simp only
    rw [if_neg (by omega)]
  unfold UIData.getTrain
  simp only [if_true, hp]
  obtain ⟨p, h⟩ := sampleNeg_some (d := ⟨true, nu, ni, pairs, edgeListToAdjDict pairs, [], true⟩) (u := pairs[i].1)
    h0 k ω (fun hc => hk ((items_iff _ _).1 hc))
  rw [h]
  exact ⟨_, rfl⟩

/-- C56. If the user of an interaction has interacted with every item, the request never returns,
whatever the draws. -/
theorem C56_no_negative_never_returns {nu ni : Int} {pairs : List (Int × Int)} {tp : Option (List (Int × Int))}
    {d : UIData} (hd : UIData.new nu ni pairs tp true "train" = .ok d) {i : Nat} (hi : i < pairs.length)
    (h0 : 0 < ni) (hall : ∀ v : Nat, (v : Int) < ni → (pairs[i].1, (v : Int)) ∈ pairs) (fuel : Nat) (ω : Draws) :
    d.getTrain i fuel ω = none := by
  rw [new_train] at hd
  cases hd
  have hp : pyAt pairs (i : Int) = .ok pairs[i] := by
    unfold pyAt
    rw [if_neg (by omega), Int.toNat_natCast, List.getElem?_eq_getElem hi]
    simp only
    rw [if_neg (by omega)]
  unfold UIData.getTrain
  simp only [if_true, hp]
  rw [sampleNeg_none (d := ⟨true, nu, ni, pairs, edgeListToAdjDict pairs, [], true⟩) (u := pairs[i].1) h0
    (fun v hv => (items_iff _ _).2 (hall v hv))]
  rfl

section
variable {K : Type} [Field K]

theorem fillAt_ok {α : Type} {n : Nat} {zero x : α} {idx : List Int} (h : ∀ i ∈ idx, 0 ≤ i ∧ i < n) :
    ∃ l, fillAt n zero x idx = .ok l ∧ l.length = n ∧
      ∀ v < n, ((v : Int) ∈ idx → l[v]? = some x) ∧ ((v : Int) ∉ idx → l[v]? = some zero) := by
  refine ⟨(List.range n).map fun v : Nat => if (v : Int) ∈ idx ∨ (v : Int) - n ∈ idx then x else zero,
    ?_, by simp, ?_⟩
  · unfold fillAt
    rw [if_neg (by omega), if_pos (fun i hi => by have := h i hi; omega), Int.toNat_natCast]
  · intro v hv
    have hneg : ((v : Int) - n) ∉ idx := fun hc => by have := h _ hc; omega
    rw [List.getElem?_map, List.getElem?_range hv]
    constructor
    · intro hm; simp [hm]
    · intro hm; simp [hm, hneg]

/-- C56. In the test phase, with all items in range, the record of user `i` marks exactly the
user's training items by -inf (`⊥`) and the others by 0, and exactly the true items by 1. -/
theorem C56_test_record {nu : Int} {ni : Nat} {pairs tp : List (Int × Int)} {strict : Bool} {d : UIData}
    (hd : UIData.new nu ni pairs (some tp) strict "test" = .ok d)
    (hp : ∀ e ∈ pairs, 0 ≤ e.2 ∧ e.2 < ni) (ht : ∀ e ∈ tp, 0 ≤ e.2 ∧ e.2 < ni) (i : Int) :
    ∃ m r, d.getTest (K := K) i = .ok (i, m, r) ∧ m.length = ni ∧ r.length = ni ∧
      ∀ v < ni, ((i, (v : Int)) ∈ tp → m[v]? = some ⊥) ∧ ((i, (v : Int)) ∉ tp → m[v]? = some 0) ∧
        ((i, (v : Int)) ∈ pairs → r[v]? = some 1) ∧ ((i, (v : Int)) ∉ pairs → r[v]? = some 0) := by
  have hd' : d = ⟨false, nu, ni, pairs, edgeListToAdjDict pairs, edgeListToAdjDict tp, strict⟩ := by
    unfold UIData.new at hd; simp at hd; exact hd.symm
  subst hd'
  obtain ⟨m, h1, h2, h3⟩ := fillAt_ok (n := ni) (zero := (0 : WithBot K)) (x := ⊥)
    (idx := ((edgeListToAdjDict tp).get? i).getD []) (fun v hv => ht _ ((items_iff i v).1 hv))
  obtain ⟨r, h4, h5, h6⟩ := fillAt_ok (n := ni) (zero := (0 : K)) (x := 1)
    (idx := ((edgeListToAdjDict pairs).get? i).getD []) (fun v hv => hp _ ((items_iff i v).1 hv))
  refine ⟨m, r, ?_, h2, h5, ?_⟩
  · unfold UIData.getTest UIData.trainItems UIData.items
    simp only
    rw [h1, h4]; rfl
  · intro v hv
    have a := h3 v hv
    have b := h6 v hv
    rw [items_iff] at a b
    exact ⟨a.1, a.2, b.1, b.2⟩

/-- C56. The dataset has one record for each interaction in the training phase, and one for each user
in the test phase. -/
theorem C56_length {nu ni : Int} {pairs : List (Int × Int)} {tp : Option (List (Int × Int))} {strict : Bool}
    {ph : String} {d : UIData} (hd : UIData.new nu ni pairs tp strict ph = .ok d) :
    (ph = "train" → d.len = pairs.length) ∧ (ph = "test" → d.len = nu) := by
  constructor
  · rintro rfl
    rw [new_train] at hd
    cases hd; rfl
  · rintro rfl
    cases tp with
    | none => unfold UIData.new at hd; simp at hd
    | some tp =>
      have hd' : d = ⟨false, nu, ni, pairs, edgeListToAdjDict pairs, edgeListToAdjDict tp, strict⟩ := by
        unfold UIData.new at hd; simp at hd; exact hd.symm
      subst hd'; rfl

example : ∃ d d', UIData.new 3 4 [(0, 1), (2, 3)] none true "train" = .ok d ∧
    UIData.new 3 4 [(0, 1)] (some [(0, 2)]) true "test" = .ok d' := ⟨_, _, rfl, rfl⟩

/-- C56. The test phase needs the training interactions; other phases than train and test are
refused. -/
theorem C56_phase_checked (nu ni : Int) (pairs : List (Int × Int)) (strict : Bool) :
    UIData.new nu ni pairs none strict "test" = .error .assertion ∧
    ∀ tp (ph : String), ph ≠ "train" → ph ≠ "test" → UIData.new nu ni pairs tp strict ph = .error .assertion := by
  constructor
  · unfold UIData.new; simp
  · intro tp ph h1 h2; unfold UIData.new; simp [h1, h2]

end

/-- a user with one of three items: a draw of item 2 is a negative -/
example : (0 : Int) < 3 ∧ ((0 : Int), ((2 % (3 : Int).toNat : Nat) : Int)) ∉ [((0 : Int), (1 : Int))] := by decide
/-- a user with all items -/
example : ∀ v : Nat, (v : Int) < 1 → ((0 : Int), (v : Int)) ∈ [((0 : Int), (0 : Int))] := by
  intro v hv
  have : v = 0 := by omega
  subst this; simp

/-! ## C57 -/

/-- C57. With exact arithmetic `C(n, m)` is the binomial coefficient for `0 ≤ m ≤ n`. -/
theorem C57_binomial (n m : Nat) (h : m ≤ n) : binom n m = .ok (n.choose m : Nat) := binom_eq n m h

/-- C57. Outside `0 ≤ m ≤ n` the function returns 1 (not 0). -/
theorem C57_binomial_outside (n m : Int) (h : ¬ (0 ≤ m ∧ m ≤ n)) : binom n m = .ok 1 := binom_outside n m h

example : ¬ ((0 : Int) ≤ 3 ∧ (3 : Int) ≤ 2) := by decide

/-! ## C58 -/

section
variable {K : Type} [Field K] [LinearOrder K]

/-- the two forms of the model agree -/
theorem dropoutWith_eq (M : Sp K) (p fill : K) (us : Nat → K) :
    dropoutWith M p fill us = sparseDropout M p fill fun i => decide (us i < 1 - p) := by
  unfold dropoutWith sparseDropout
  simp only
  by_cases h : 0 ≤ p ∧ p ≤ 1
  · rw [if_pos h, if_pos h]
    by_cases hp : p = 0
    · rw [if_pos hp, if_pos hp]
    · rw [if_neg hp, if_neg hp]
      congr 2
      apply List.map_congr_left
      intro e _
      by_cases hu : us e.2 < 1 - p <;> simp [hu]
  · rw [if_neg h, if_neg h]

/-- C58. For `p` in `[0,1]` dropout succeeds, keeps the shape and the positions of the coalesced
matrix, and every stored value is either unchanged or the fill value. -/
theorem C58_sparse_dropout (M : Sp K) (p fill : K) (h0 : 0 ≤ p) (h1 : p ≤ 1) (us : Nat → K) :
    ∃ N, dropoutWith M p fill us = .ok N ∧ N.rows = M.rows ∧ N.cols = M.cols ∧
      N.ents.map Prod.fst = M.coalesce.ents.map Prod.fst ∧
      ∀ e ∈ (M.coalesce.ents.map Prod.snd).zip (N.ents.map Prod.snd), e.2 = e.1 ∨ e.2 = fill := by
  unfold dropoutWith
  simp only
  rw [if_pos ⟨h0, h1⟩]
  by_cases hp : p = 0
  · rw [if_pos hp]
    refine ⟨_, rfl, rfl, rfl, rfl, ?_⟩
    intro e he
    rw [List.zip_map'] at he
    obtain ⟨x, -, rfl⟩ := List.mem_map.1 he
    exact .inl rfl
  · rw [if_neg hp]
    refine ⟨_, rfl, rfl, rfl, ?_, ?_⟩
    · simp only [List.map_map, Function.comp_def]
      conv_rhs => rw [← List.zipIdx_map_fst 0 M.coalesce.ents, List.map_map]
      rfl
    · intro e he
      simp only [List.map_map, Function.comp_def] at he
      have hz : (M.coalesce.ents.map Prod.snd) = M.coalesce.ents.zipIdx.map fun x => x.1.2 := by
        conv_lhs => rw [← List.zipIdx_map_fst 0 M.coalesce.ents, List.map_map]
        rfl
      rw [hz, List.zip_map', ] at he
      obtain ⟨x, -, rfl⟩ := List.mem_map.1 he
      simp only
      by_cases hu : us x.2 < 1 - p
      · left; simp [hu]
      · right; simp [hu]

/-- C58. Entry number `i` is kept exactly if its draw falls below `1 - p`. -/
theorem C58_sparse_dropout_entry (M : Sp K) (p fill : K) (h0 : 0 < p) (h1 : p ≤ 1) (us : Nat → K) :
    ∃ N, dropoutWith M p fill us = .ok N ∧ ∀ i ij x, M.coalesce.ents[i]? = some (ij, x) →
      N.ents[i]? = some (ij, if us i < 1 - p then x else fill) := by
  unfold dropoutWith
  simp only
  rw [if_pos ⟨h0.le, h1⟩, if_neg h0.ne']
  refine ⟨_, rfl, ?_⟩
  intro i ij x hx
  simp only [List.getElem?_map, List.getElem?_zipIdx, hx]
  by_cases hu : us i < 1 - p <;> simp [hu]

/-- C58. `p = 0` is the identity: every entry of the matrix is unchanged. -/
theorem C58_sparse_dropout_zero (M : Sp K) [IsStrictOrderedRing K] (fill : K) (us : Nat → K) :
    ∃ N, dropoutWith M 0 fill us = .ok N ∧ N.rows = M.rows ∧ N.cols = M.cols ∧ ∀ i j, N.get i j = M.get i j := by
  refine ⟨M.coalesce, ?_, rfl, rfl, fun i j => Sp.get_coalesce M i j⟩
  unfold dropoutWith
  simp

/-- C58. A probability outside `[0,1]` raises. -/
theorem C58_sparse_dropout_raises (M : Sp K) (p fill : K) (h : p < 0 ∨ 1 < p) (us : Nat → K) :
    dropoutWith M p fill us = .error .assertion := by
  unfold dropoutWith
  simp only
  rw [if_neg]
  rintro ⟨h0, h1⟩
  rcases h with h | h
  · exact absurd h0 (not_le.2 h)
  · exact absurd h1 (not_le.2 h)

end

/-- a matrix with two stored entries -/
example : (Sp.coalesce (K := ℚ) ⟨2, 2, [((1, 0), 3), ((0, 1), 2)]⟩).ents = [((0, 1), 2), ((1, 0), 3)] := by
  decide +kernel

end Props
end DHG
