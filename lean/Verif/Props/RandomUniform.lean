import Mathlib.Probability.Independence.InfinitePi
import Mathlib.Probability.UniformOn
import Mathlib.Analysis.SpecificLimits.Basic
import Verif.Props.Random
import Verif.Props.RandomHyper
import Verif.Props.RandomLaw

/-!
# The distribution of the random graphs with a given number of edges (C134)

`random.choice(l)` is uniform in `l`, and independent of the other choices.
-/

set_option linter.unusedSectionVars false
set_option autoImplicit false

open MeasureTheory ProbabilityTheory

namespace DHG

/-! ## Specification -/

namespace Spec

/-- the raw draws `ω 0, ω 1, …` are independent, and the `i`-th one chooses uniformly among `q i` things -/
structure UniformChoices {Ω : Type} [MeasurableSpace Ω] (P : Measure Ω) (q : Nat → Nat) (ω : Nat → Ω → Nat) : Prop where
  measurable : ∀ i, Measurable (ω i)
  law : ∀ i a, a < q i → P {s | ω i s % q i = a} = (q i : ENNReal)⁻¹
  indep : iIndepFun ω P

end Spec

namespace Props
namespace Law

open RandGen Finset

/-! ### The loop on a list of draws -/

section Out
variable {R α β : Type} [DecidableEq α] [DecidableEq β]

/-- the rejection loop on a given list of draws -/
def out (sel : R → Option α) (m : Nat) : List α → List R → Option (List α)
  | acc, [] => if acc.length < m then none else some acc
  | acc, x :: xs =>
    if acc.length < m then
      match sel x with
      | none => out sel m acc xs
      | some y => if y ∈ acc then out sel m acc xs else out sel m (acc ++ [y]) xs
    else some acc

theorem out_map {R' : Type} {sel : R → Option α} {sel' : R' → Option β} {τ : R → R'} {f : α → β}
    (hf : Function.Injective f) (h : ∀ x, sel' (τ x) = (sel x).map f) (m : Nat) (xs : List R) (acc : List α) :
    out sel' m (acc.map f) (xs.map τ) = (out sel m acc xs).map (List.map f) := by
  induction xs generalizing acc with
  | nil =>
    simp only [out, List.map_nil, List.length_map]
    split <;> rfl
  | cons x xs ih =>
    simp only [out, List.map_cons, List.length_map, h]
    by_cases hl : acc.length < m
    · rw [if_pos hl, if_pos hl]
      cases sel x with
      | none => exact ih acc
      | some y =>
        simp only [Option.map_some, List.mem_map_of_injective hf]
        by_cases hy : y ∈ acc
        · rw [if_pos hy, if_pos hy]; exact ih acc
        · rw [if_neg hy, if_neg hy]
          have := ih (acc ++ [y])
          rwa [List.map_append] at this
    · rw [if_neg hl, if_neg hl]; rfl

theorem out_some {sel : R → Option α} {V : Finset α} (hV : ∀ x v, sel x = some v → v ∈ V) {m : Nat} (xs : List R)
    (acc : List α) {l : List α} (h : out sel m acc xs = some l) (hn : acc.Nodup) (ha : ∀ x ∈ acc, x ∈ V)
    (hl : acc.length ≤ m) : l.Nodup ∧ (∀ x ∈ l, x ∈ V) ∧ l.length = m := by
  induction xs generalizing acc with
  | nil =>
    simp only [out] at h
    split at h
    · cases h
    · cases h; exact ⟨hn, ha, by omega⟩
  | cons x xs ih =>
    simp only [out] at h
    split at h
    · next hlt =>
      cases hx : sel x with
      | none => rw [hx] at h; exact ih acc h hn ha hl
      | some y =>
        rw [hx] at h
        simp only at h
        by_cases hy : y ∈ acc
        · rw [if_pos hy] at h; exact ih acc h hn ha hl
        · rw [if_neg hy] at h
          refine ih _ h ?_ ?_ ?_
          · rw [List.nodup_append]
            exact ⟨hn, List.nodup_singleton _, fun a ha b hb => by
              rw [List.mem_singleton] at hb
              rintro rfl
              exact hy (hb ▸ ha)⟩
          · intro z hz
            rcases List.mem_append.1 hz with hz | hz
            · exact ha z hz
            · rw [List.mem_singleton] at hz; exact hz ▸ hV x y hx
          · rw [List.length_append, List.length_singleton]; omega
    · cases h; exact ⟨hn, ha, by omega⟩

/-- a loop that does not end has not seen some candidate -/
theorem out_none {sel : R → Option α} {m : Nat} (xs : List R) (acc : List α) (h : out sel m acc xs = none) :
    ∃ l : List α, l.length < m ∧ (∀ x ∈ acc, x ∈ l) ∧ ∀ x ∈ xs, ∀ v, sel x = some v → v ∈ l := by
  induction xs generalizing acc with
  | nil =>
    simp only [out] at h
    split at h
    · next hl => exact ⟨acc, hl, fun _ h => h, by simp⟩
    · cases h
  | cons x xs ih =>
    simp only [out] at h
    split at h
    · cases hx : sel x with
      | none =>
        rw [hx] at h
        obtain ⟨l, h1, h2, h3⟩ := ih acc h
        refine ⟨l, h1, h2, fun z hz v hv => ?_⟩
        rcases List.mem_cons.1 hz with rfl | hz
        · rw [hx] at hv; cases hv
        · exact h3 z hz v hv
      | some y =>
        rw [hx] at h
        simp only at h
        by_cases hy : y ∈ acc
        · rw [if_pos hy] at h
          obtain ⟨l, h1, h2, h3⟩ := ih acc h
          refine ⟨l, h1, h2, fun z hz v hv => ?_⟩
          rcases List.mem_cons.1 hz with rfl | hz
          · rw [hx] at hv; cases hv; exact h2 _ hy
          · exact h3 z hz v hv
        · rw [if_neg hy] at h
          obtain ⟨l, h1, h2, h3⟩ := ih _ h
          refine ⟨l, h1, fun z hz => h2 z (List.mem_append_left _ hz), fun z hz v hv => ?_⟩
          rcases List.mem_cons.1 hz with rfl | hz
          · rw [hx] at hv; cases hv; exact h2 _ (by simp)
          · exact h3 z hz v hv
    · cases h

end Out

theorem toFinset_map {α β : Type} [DecidableEq α] [DecidableEq β] (f : α → β) (l : List α) :
    (l.map f).toFinset = l.toFinset.image f := by
  ext x
  simp

/-! ### Counting -/

section Count
variable {R α : Type} [Fintype R] [DecidableEq R] [DecidableEq α]

/-- the sequences of draws from which the set `E` results -/
def results (sel : R → Option α) (m f : Nat) (E : Finset α) : Finset (Fin f → R) :=
  univ.filter fun x => (out sel m [] (List.ofFn x)).map List.toFinset = some E

/-- every candidate can be drawn in equally many ways -/
structure Even (sel : R → Option α) (V : Finset α) : Prop where
  mem : ∀ x v, sel x = some v → v ∈ V
  ex : ∀ v ∈ V, ∃ x, sel x = some v
  fib : ∀ v ∈ V, ∀ v' ∈ V, Fintype.card {x // sel x = some v} = Fintype.card {x // sel x = some v'}

/-- a permutation that carries one set into another of the same size and leaves everything else in place -/
theorem exists_perm {V E E' : Finset α} (h : E ⊆ V) (h' : E' ⊆ V) (hc : E.card = E'.card) :
    ∃ σ : Equiv.Perm α, (∀ v, v ∈ V ↔ σ v ∈ V) ∧ E.image σ = E' := by
  let e : {x : V // x.1 ∈ E} ≃ {x : V // x.1 ∈ E'} := by
    refine Fintype.equivOfCardEq ?_
    rw [Fintype.card_subtype, Fintype.card_subtype]
    have : ∀ F : Finset α, F ⊆ V → ((univ : Finset V).filter fun x => x.1 ∈ F).card = F.card := by
      intro F hF
      rw [← card_image_of_injective _ Subtype.val_injective]
      congr 1
      ext x
      simp only [mem_image, mem_filter, mem_univ, true_and, Subtype.exists, exists_and_right, exists_eq_right]
      exact ⟨fun ⟨_, h⟩ => h, fun h => ⟨hF h, h⟩⟩
    rw [this E h, this E' h', hc]
  have hσ : ∀ v (hv : v ∈ V), Equiv.Perm.ofSubtype e.extendSubtype v = (e.extendSubtype ⟨v, hv⟩).1 := fun v hv =>
    Equiv.Perm.ofSubtype_apply_of_mem _ hv
  have hsub : ∀ v ∈ E, Equiv.Perm.ofSubtype e.extendSubtype v ∈ E' := by
    intro v hv
    rw [hσ v (h hv)]
    exact Equiv.extendSubtype_mem e ⟨v, h hv⟩ hv
  refine ⟨Equiv.Perm.ofSubtype e.extendSubtype, fun v => ?_, ?_⟩
  · exact (Equiv.Perm.ofSubtype_apply_mem_iff_mem _ v).symm
  · refine eq_of_subset_of_card_le (fun w hw => ?_) ?_
    · obtain ⟨v, hv, rfl⟩ := mem_image.1 hw
      exact hsub v hv
    · rw [card_image_of_injective _ (Equiv.injective _), hc]

/-- a permutation of the candidates comes from a permutation of the draws -/
theorem exists_tau {sel : R → Option α} {V : Finset α} (h : Even sel V) {σ : Equiv.Perm α} (hσ : ∀ v, v ∈ V ↔ σ v ∈ V) :
    ∃ τ : Equiv.Perm R, ∀ x, sel (τ x) = (sel x).map σ := by
  have hcard : ∀ o : Option α, Fintype.card {x // sel x = o} = Fintype.card {x // sel x = Equiv.optionCongr σ o} := by
    intro o
    cases o with
    | none => rfl
    | some v =>
      rw [Equiv.optionCongr_apply, Option.map_some]
      by_cases hv : v ∈ V
      · exact h.fib v hv _ ((hσ v).1 hv)
      · rw [Fintype.card_eq_zero_iff.2 ⟨fun x => hv (h.mem _ _ x.2)⟩,
          Fintype.card_eq_zero_iff.2 ⟨fun x => hv ((hσ v).2 (h.mem _ _ x.2))⟩]
  let F : ∀ o : Option α, {x // sel x = o} ≃ {x // sel x = Equiv.optionCongr σ o} := fun o =>
    Fintype.equivOfCardEq (hcard o)
  refine ⟨(Equiv.sigmaFiberEquiv sel).symm.trans ((Equiv.sigmaCongr (Equiv.optionCongr σ) F).trans (Equiv.sigmaFiberEquiv sel)),
    fun x => ?_⟩
  exact (F (sel x) ⟨x, rfl⟩).2

theorem results_card {sel : R → Option α} {V : Finset α} (h : Even sel V) (m f : Nat) {E E' : Finset α} (hE : E ⊆ V)
    (hE' : E' ⊆ V) (hc : E.card = E'.card) : (results sel m f E).card = (results sel m f E').card := by
  obtain ⟨σ, h1, h2⟩ := exists_perm hE hE' hc
  obtain ⟨τ, h3⟩ := exists_tau h h1
  refine card_equiv (Equiv.arrowCongr (Equiv.refl _) τ) fun x => ?_
  unfold results
  simp only [mem_filter, mem_univ, true_and]
  have h4 : List.ofFn (Equiv.arrowCongr (Equiv.refl (Fin f)) τ x) = (List.ofFn x).map τ := by
    rw [List.map_ofFn]; rfl
  have h5 := out_map σ.injective h3 m (List.ofFn x) []
  rw [List.map_nil] at h5
  rw [h4, h5, ← h2]
  cases out sel m [] (List.ofFn x) with
  | none => simp
  | some l =>
    simp only [Option.map_some, Option.some.injEq, toFinset_map]
    exact ⟨fun h => by rw [h], fun h => image_injective σ.injective h⟩

/-- the sequences on which the loop ends -/
def returns (sel : R → Option α) (m f : Nat) : Finset (Fin f → R) :=
  univ.filter fun x => out sel m [] (List.ofFn x) ≠ none

theorem returns_card {sel : R → Option α} {V : Finset α} (h : Even sel V) (m f : Nat) {E : Finset α} (hE : E ⊆ V)
    (hc : E.card = m) : (returns sel m f).card = (results sel m f E).card * V.card.choose m := by
  have hu : returns sel m f = (V.powersetCard m).biUnion fun F => results sel m f F := by
    ext x
    unfold returns results
    simp only [mem_filter, mem_univ, true_and, mem_biUnion]
    constructor
    · intro hx
      obtain ⟨l, hl⟩ := Option.ne_none_iff_exists'.1 hx
      obtain ⟨h1, h2, h3⟩ := out_some h.mem _ _ hl List.nodup_nil (by simp) (by simp)
      refine ⟨l.toFinset, mem_powersetCard.2 ⟨fun v hv => h2 v (List.mem_toFinset.1 hv), ?_⟩, by rw [hl]; rfl⟩
      rw [List.toFinset_card_of_nodup h1, h3]
    · rintro ⟨F, _, hF⟩ hx
      rw [hx] at hF
      cases hF
  rw [hu, card_biUnion]
  · rw [sum_congr rfl fun F hF => results_card h m f (mem_powersetCard.1 hF).1 hE ((mem_powersetCard.1 hF).2.trans hc.symm),
      sum_const, card_powersetCard, smul_eq_mul, mul_comm]
  · intro F _ G _ hFG
    rw [Function.onFun, disjoint_left]
    intro x hx hx'
    unfold results at hx hx'
    rw [mem_filter] at hx hx'
    exact hFG (Option.some.inj (hx.2.symm.trans hx'.2))

/-- few sequences of draws miss a candidate -/
theorem stuck_card {sel : R → Option α} {V : Finset α} (h : Even sel V) {m : Nat} (hm : m ≤ V.card) (f : Nat) :
    ((returns sel m f)ᶜ).card ≤ V.card * (Fintype.card R - 1) ^ f := by
  classical
  rcases isEmpty_or_nonempty R with hR | hR
  · have hV : V = ∅ := eq_empty_of_forall_notMem fun v hv => by
      obtain ⟨x, _⟩ := h.ex v hv
      exact hR.false x
    subst hV
    have : (returns sel m f)ᶜ = ∅ := by
      rw [card_empty] at hm
      obtain rfl : m = 0 := by omega
      refine eq_empty_of_forall_notMem fun x hx => ?_
      unfold returns at hx
      simp only [mem_compl, mem_filter, mem_univ, true_and, not_not] at hx
      obtain ⟨l, h1, _⟩ := out_none _ _ hx
      omega
    rw [this]; simp
  choose! r hr using h.ex
  have hsub : (returns sel m f)ᶜ ⊆ V.biUnion fun v => Fintype.piFinset fun _ : Fin f => (univ.erase (r v) : Finset R) := by
    intro x hx
    unfold returns at hx
    simp only [mem_compl, mem_filter, mem_univ, true_and, not_not] at hx
    obtain ⟨l, h1, _, h3⟩ := out_none _ _ hx
    have : ¬ V ⊆ l.toFinset := by
      intro hV
      have := card_le_card hV
      have := List.toFinset_card_le l
      omega
    obtain ⟨v, hv, hvl⟩ := not_subset.1 this
    refine mem_biUnion.2 ⟨v, hv, Fintype.mem_piFinset.2 fun j => mem_erase.2 ⟨fun hj => hvl ?_, mem_univ _⟩⟩
    exact List.mem_toFinset.2 (h3 (x j) (List.mem_ofFn.2 ⟨j, rfl⟩) v (hj ▸ hr v hv))
  refine (card_le_card hsub).trans (card_biUnion_le.trans ?_)
  rw [sum_congr rfl (g := fun _ => (Fintype.card R - 1) ^ f) fun v _ => ?_]
  · rw [sum_const, smul_eq_mul]
  · rw [Fintype.card_piFinset_const, card_erase_of_mem (mem_univ _), card_univ]

end Count

/-! ### Probability -/

section Prob
variable {Ω : Type} [MeasurableSpace Ω] {P : Measure Ω} [IsProbabilityMeasure P] {ω : Nat → Ω → Nat}

/-- the draws are taken `b` at a time: `blk` reads the first `b` of them, which amounts to an element of `R`,
namely the residues `res` -/
structure Blocks (b : Nat) (q : Nat → Nat) (R : Type) [Fintype R] where
  blk : Draws → R
  res : R → Nat → Nat
  pos : 0 < b
  per : ∀ i, q (b + i) = q i
  qpos : ∀ i, 0 < q i
  lt : ∀ x t, t < b → res x t < q t
  iff : ∀ a x, blk a = x ↔ ∀ t < b, a t % q t = res x t
  card : Fintype.card R = ∏ t ∈ range b, q t

section Blocks
variable {R : Type} [Fintype R] [DecidableEq R] {b : Nat} {q : Nat → Nat}

theorem Blocks.per_mul (B : Blocks b q R) (j t : Nat) : q (b * j + t) = q t := by
  induction j with
  | zero => simp
  | succ j ih => rw [Nat.mul_succ, show b * j + b + t = b + (b * j + t) by ring, B.per, ih]

/-- the `j`-th block of draws -/
def Blocks.at (B : Blocks b q R) (a : Draws) (j : Nat) : R := B.blk fun i => a (b * j + i)

theorem atom (B : Blocks b q R) (h : Spec.UniformChoices P q ω) (f : Nat) (x : Fin f → R) :
    MeasurableSet {s | (fun j : Fin f => B.at (fun i => ω i s) j) = x} ∧
    P {s | (fun j : Fin f => B.at (fun i => ω i s) j) = x} = (∏ t ∈ range b, (q t : ENNReal)⁻¹) ^ f := by
  let r : Nat → Nat := fun i => if hi : i / b < f then B.res (x ⟨i / b, hi⟩) (i % b) else 0
  have hset : {s | (fun j : Fin f => B.at (fun i => ω i s) j) = x} =
      ⋂ i ∈ range (b * f), ω i ⁻¹' {a | a % q i = r i} := by
    ext s
    simp only [Set.mem_ofPred_eq, Set.mem_iInter, mem_range, Set.mem_preimage]
    constructor
    · intro hs i hi
      have hi' : i / b < f := Nat.div_lt_of_lt_mul hi
      have := (B.iff _ _).1 (congrFun hs ⟨i / b, hi'⟩) (i % b) (Nat.mod_lt _ B.pos)
      simp only [r, dif_pos hi']
      rw [← this]
      have e1 : b * (i / b) + i % b = i := Nat.div_add_mod i b
      have e2 : q (i % b) = q i := by
        conv_rhs => rw [← e1, B.per_mul]
      simp only [e1, e2]
    · intro hs
      funext j
      refine (B.iff _ _).2 fun t ht => ?_
      have hlt : b * j.1 + t < b * f := by
        have : b * (j.1 + 1) ≤ b * f := Nat.mul_le_mul_left _ j.2
        rw [Nat.mul_succ] at this
        omega
      have h1 := hs (b * j.1 + t) hlt
      have e1 : (b * j.1 + t) / b = j.1 := by
        rw [Nat.mul_add_div B.pos, Nat.div_eq_of_lt ht, add_zero]
      have e2 : (b * j.1 + t) % b = t := by rw [Nat.mul_add_mod, Nat.mod_eq_of_lt ht]
      simp only [r, e1, e2, j.2, dif_pos, B.per_mul] at h1
      exact h1
  have hmeas : ∀ i, MeasurableSet {a : Nat | a % q i = r i} := fun i => trivial
  rw [hset]
  refine ⟨Finset.measurableSet_biInter _ fun i _ => h.measurable i (hmeas i), ?_⟩
  rw [h.indep.measure_inter_preimage_eq_mul _ fun i _ => hmeas i]
  have hlaw : ∀ i ∈ range (b * f), P (ω i ⁻¹' {a | a % q i = r i}) = (q i : ENNReal)⁻¹ := by
    intro i hi
    refine h.law i (r i) ?_
    have hi' : i / b < f := Nat.div_lt_of_lt_mul (mem_range.1 hi)
    have e2 : q (i % b) = q i := by
      conv_rhs => rw [← Nat.div_add_mod i b, B.per_mul]
    simp only [r, dif_pos hi']
    rw [← e2]
    exact B.lt _ _ (Nat.mod_lt _ B.pos)
  rw [prod_congr rfl hlaw]
  clear hlaw hset hmeas r x
  induction f with
  | zero => simp
  | succ f ih =>
    rw [Nat.mul_succ, prod_range_add, ih, pow_succ]
    simp only [B.per_mul]

theorem count_law (B : Blocks b q R) (h : Spec.UniformChoices P q ω) (f : Nat) (S : Finset (Fin f → R)) :
    P {s | (fun j : Fin f => B.at (fun i => ω i s) j) ∈ S} = S.card * (∏ t ∈ range b, (q t : ENNReal)⁻¹) ^ f := by
  have hset : {s | (fun j : Fin f => B.at (fun i => ω i s) j) ∈ S} =
      ⋃ x ∈ S, {s | (fun j : Fin f => B.at (fun i => ω i s) j) = x} := by
    ext s
    simp
  rw [hset, measure_biUnion_finset]
  · rw [sum_congr rfl fun x _ => (atom B h f x).2, sum_const, nsmul_eq_mul]
  · intro x _ y _ hxy
    rw [Function.onFun, Set.disjoint_left]
    intro s hs hs'
    exact hxy (hs.symm.trans hs')
  · exact fun x _ => (atom B h f x).1

/-- the rejection loop depends on the blocks of draws only -/
theorem fill_out {α : Type} [DecidableEq α] (B : Blocks b q R) {sel : R → Option α}
    {pick : Draws → Except Err (Option α × Draws)}
    (hp : ∀ a, pick a = .ok (sel (B.blk a), fun i => a (b + i))) (k : Nat) (f : Nat) (acc : List α) (a : Draws) :
    fill pick k f acc a = (out sel k acc (List.ofFn fun j : Fin f => B.at a j)).map .ok := by
  induction f generalizing acc a with
  | zero =>
    simp only [fill, List.ofFn_zero, out, Nat.cast_lt]
    split <;> rfl
  | succ f ih =>
    have hb : (List.ofFn fun j : Fin (f + 1) => B.at a j) =
        B.blk a :: List.ofFn fun j : Fin f => B.at (fun i => a (b + i)) j := by
      rw [List.ofFn_succ]
      congr 1
      · simp [Blocks.at]
      · congr 1
        funext j
        unfold Blocks.at
        congr 1
        funext i
        congr 1
        simp only [Fin.val_succ]
        ring
    rw [hb]
    simp only [fill, out, Nat.cast_lt, hp]
    by_cases hl : acc.length < k
    · rw [if_pos hl, if_pos hl]
      cases sel (B.blk a) with
      | none => exact ih acc _
      | some y =>
        simp only
        by_cases hy : y ∈ acc
        · rw [if_pos hy, if_pos hy]; exact ih acc _
        · rw [if_neg hy, if_neg hy]; exact ih _ _
    · rw [if_neg hl, if_neg hl]; rfl

/-- what the loop and the constructor deliver -/
theorem uniform_law {α β γ : Type} [DecidableEq α] [DecidableEq β] (B : Blocks b q R)
    (h : Spec.UniformChoices P q ω) {sel : R → Option α} {V : Finset α} (hs : Even sel V)
    {ι : α → β} (hι : Function.Injective ι) {pick : Draws → Except Err (Option β × Draws)}
    (hp : ∀ a, pick a = .ok ((sel (B.blk a)).map ι, fun i => a (b + i))) {k : Nat} (hk : k ≤ V.card)
    {gen : Draws → Nat → Option (Except Err γ)} {mk : List β → Except Err γ}
    (hgen : ∀ a f, gen a f = finish mk (fill pick k f [] a)) {Is : γ → Finset β → Prop}
    (hmk : ∀ l : List β, l.Nodup → (∀ x ∈ l, x ∈ V.image ι) → ∃ g, mk l = .ok g ∧ ∀ F ⊆ V.image ι, Is g F ↔ l.toFinset = F)
    {E : Finset β} (hE : E ⊆ V.image ι) (hc : E.card = k) :
    (∀ f, P {s | ∃ g, gen (fun i => ω i s) f = some (.ok g) ∧ Is g E} * (V.card.choose k : ENNReal) =
      P {s | ∃ g, gen (fun i => ω i s) f = some (.ok g)}) ∧
    Filter.Tendsto (fun f => P {s | ∃ g, gen (fun i => ω i s) f = some (.ok g) ∧ Is g E}) Filter.atTop
      (nhds (V.card.choose k : ENNReal)⁻¹) := by
  obtain ⟨D, hDV, rfl⟩ : ∃ D ⊆ V, D.image ι = E := by
    obtain ⟨D, h1, h2⟩ := subset_image_iff.1 hE
    exact ⟨D, h1, h2⟩
  rw [card_image_of_injective _ hι] at hc
  have hrun : ∀ a f, gen a f = finish mk (((out sel k [] (List.ofFn fun j : Fin f => B.at a j)).map
      (List.map ι)).map .ok) := by
    intro a f
    rw [hgen, fill_out B (sel := fun x => (sel x).map ι) hp]
    have := out_map (sel := sel) (sel' := fun x => (sel x).map ι) (τ := id) hι (fun x => rfl) k
      (List.ofFn fun j : Fin f => B.at a j) []
    rw [List.map_id, List.map_nil] at this
    rw [this]
  have hone : ∀ a f, (∃ g, gen a f = some (.ok g) ∧ Is g (D.image ι)) ↔
      (fun j : Fin f => B.at a j) ∈ results sel k f D := by
    intro a f
    rw [hrun]
    unfold results
    rw [mem_filter]
    cases ho : out sel k [] (List.ofFn fun j : Fin f => B.at a j) with
    | none => simp [finish]
    | some l =>
      obtain ⟨h1, h2, h3⟩ := out_some hs.mem _ _ ho List.nodup_nil (by simp) (by simp)
      obtain ⟨g, g1, g2⟩ := hmk (l.map ι) (h1.map hι) (by
        intro x hx
        obtain ⟨y, hy, rfl⟩ := List.mem_map.1 hx
        exact mem_image_of_mem _ (h2 y hy))
      simp only [finish, Option.map_some, Except.bind, g1, Option.some.injEq, Except.ok.injEq, exists_eq_left', mem_univ,
        true_and, g2 _ (image_subset_image hDV), toFinset_map]
      exact ⟨fun h => image_injective hι h, fun h => by rw [h]⟩
  have hall : ∀ a f, (∃ g, gen a f = some (.ok g)) ↔ (fun j : Fin f => B.at a j) ∈ returns sel k f := by
    intro a f
    rw [hrun]
    unfold returns
    rw [mem_filter]
    cases ho : out sel k [] (List.ofFn fun j : Fin f => B.at a j) with
    | none => simp [finish]
    | some l =>
      obtain ⟨h1, h2, h3⟩ := out_some hs.mem _ _ ho List.nodup_nil (by simp) (by simp)
      obtain ⟨g, g1, g2⟩ := hmk (l.map ι) (h1.map hι) (by
        intro x hx
        obtain ⟨y, hy, rfl⟩ := List.mem_map.1 hx
        exact mem_image_of_mem _ (h2 y hy))
      simp [finish, Except.bind, g1]
  have hfirst : ∀ f, P {s | ∃ g, gen (fun i => ω i s) f = some (.ok g) ∧ Is g (D.image ι)} * (V.card.choose k : ENNReal) =
      P {s | ∃ g, gen (fun i => ω i s) f = some (.ok g)} := by
    intro f
    simp only [hone, hall]
    rw [count_law B h, count_law B h, returns_card hs k f hDV hc, Nat.cast_mul]
    ring
  refine ⟨hfirst, ?_⟩
  have hpos : (V.card.choose k : ENNReal) ≠ 0 := by
    have := Nat.choose_pos hk
    exact_mod_cast this.ne'
  have hfin : (V.card.choose k : ENNReal) ≠ ⊤ := ENNReal.natCast_ne_top _
  have heq : ∀ f, P {s | ∃ g, gen (fun i => ω i s) f = some (.ok g) ∧ Is g (D.image ι)} =
      P {s | ∃ g, gen (fun i => ω i s) f = some (.ok g)} * (V.card.choose k : ENNReal)⁻¹ := by
    intro f
    rw [← hfirst f, mul_assoc, ENNReal.mul_inv_cancel hpos hfin, mul_one]
  simp only [heq]
  have hlim : Filter.Tendsto (fun f => P {s | ∃ g, gen (fun i => ω i s) f = some (.ok g)}) Filter.atTop (nhds 1) := by
    have hR0 : 0 < Fintype.card R := by rw [B.card]; exact prod_pos fun t _ => B.qpos t
    have hinv : (∏ t ∈ range b, (q t : ENNReal)⁻¹) = ((Fintype.card R : Nat) : ENNReal)⁻¹ := by
      refine ENNReal.eq_inv_of_mul_eq_one_left ?_
      rw [B.card, Nat.cast_prod, ← prod_mul_distrib]
      refine prod_eq_one fun t _ => ENNReal.inv_mul_cancel ?_ (ENNReal.natCast_ne_top _)
      exact_mod_cast (B.qpos t).ne'
    have hq : ((Fintype.card R - 1 : Nat) : ENNReal) * (∏ t ∈ range b, (q t : ENNReal)⁻¹) < 1 := by
      rw [hinv, ← div_eq_mul_inv]
      refine ENNReal.div_lt_of_lt_mul ?_
      rw [one_mul]
      exact_mod_cast Nat.sub_lt hR0 Nat.one_pos
    have hc0 : ∀ f, P {s | ∃ g, gen (fun i => ω i s) f = some (.ok g)} =
        1 - P {s | (fun j : Fin f => B.at (fun i => ω i s) j) ∈ (returns sel k f)ᶜ} := by
      intro f
      have hms : MeasurableSet {s | (fun j : Fin f => B.at (fun i => ω i s) j) ∈ (returns sel k f)ᶜ} := by
        have : {s | (fun j : Fin f => B.at (fun i => ω i s) j) ∈ (returns sel k f)ᶜ} =
          ⋃ x ∈ (returns sel k f)ᶜ, {s | (fun j : Fin f => B.at (fun i => ω i s) j) = x} := by
          ext s; simp
        rw [this]
        exact Finset.measurableSet_biUnion _ fun x _ => (atom B h f x).1
      rw [← prob_compl_eq_one_sub hms]
      congr 1
      ext s
      simp [hall]
    simp only [hc0]
    have hsub : ∀ u : Nat → ENNReal, Filter.Tendsto u Filter.atTop (nhds 0) →
        Filter.Tendsto (fun f => 1 - u f) Filter.atTop (nhds 1) := by
      intro u hu
      have := ENNReal.Tendsto.sub (tendsto_const_nhds (x := (1 : ENNReal))) hu (.inl ENNReal.one_ne_top)
      rwa [tsub_zero] at this
    refine hsub _ ?_
    refine tendsto_of_tendsto_of_tendsto_of_le_of_le tendsto_const_nhds (h := fun f : Nat =>
      (V.card : ENNReal) * (((Fintype.card R - 1 : Nat) : ENNReal) * (∏ t ∈ range b, (q t : ENNReal)⁻¹)) ^ f) ?_
      (fun _ => zero_le) fun f => ?_
    · have := ENNReal.Tendsto.const_mul (a := (V.card : ENNReal)) (ENNReal.tendsto_pow_atTop_nhds_zero_of_lt_one hq)
        (.inr (ENNReal.natCast_ne_top _))
      rwa [mul_zero] at this
    · beta_reduce
      rw [count_law B h, mul_pow (((Fintype.card R - 1 : Nat) : ENNReal)), ← mul_assoc]
      refine mul_le_mul' ?_ le_rfl
      have := stuck_card hs hk f
      exact_mod_cast this
  have := ENNReal.Tendsto.mul_const (b := (V.card.choose k : ENNReal)⁻¹) hlim (.inl one_ne_zero)
  rwa [one_mul] at this

end Blocks
end Prob

/-! ### The candidates of the generators -/

/-- the pair as vertices of the graph -/
def asInt {m n : Nat} (x : Fin m × Fin n) : Int × Int := ((x.1.1 : Int), (x.2.1 : Int))

theorem asInt_inj {m n : Nat} : Function.Injective (asInt (m := m) (n := n)) := by
  rintro ⟨a, b⟩ ⟨c, d⟩ h
  simp only [asInt, Prod.mk.injEq] at h
  obtain ⟨h1, h2⟩ := h
  exact Prod.ext (Fin.ext (Nat.cast_inj.1 h1)) (Fin.ext (Nat.cast_inj.1 h2))

theorem mem_asInt {m n : Nat} (p : Fin m × Fin n → Prop) [DecidablePred p] (q : Int × Int → Prop)
    (h : ∀ x, p x ↔ q (asInt x)) (y : Int × Int) :
    y ∈ (univ.filter p).image asInt ↔ (0 ≤ y.1 ∧ y.1 < m ∧ 0 ≤ y.2 ∧ y.2 < n) ∧ q y := by
  rw [mem_image]
  constructor
  · rintro ⟨x, hx, rfl⟩
    rw [mem_filter, h] at hx
    refine ⟨?_, hx.2⟩
    have h1 := x.1.2
    have h2 := x.2.2
    simp only [asInt]
    omega
  · rintro ⟨⟨h1, h2, h3, h4⟩, hq⟩
    have e : asInt (m := m) (n := n) (⟨y.1.toNat, by omega⟩, ⟨y.2.toNat, by omega⟩) = y := by
      refine Prod.ext ?_ ?_
      · simp only [asInt]; omega
      · simp only [asInt]; omega
    exact ⟨_, mem_filter.2 ⟨mem_univ _, (h _).2 (e.symm ▸ hq)⟩, e⟩

/-- what `graph_Gnm` makes of a pair of draws -/
def selG {n : Nat} (x : Fin n × Fin n) : Option (Fin n × Fin n) :=
  if x.1 = x.2 then none else some (if x.1 < x.2 then x else x.swap)

theorem selG_iff {n : Nat} {x v : Fin n × Fin n} : selG x = some v ↔ v.1 < v.2 ∧ (x = v ∨ x = v.swap) := by
  obtain ⟨a, b⟩ := x
  obtain ⟨c, d⟩ := v
  unfold selG
  simp only [Prod.swap_prod_mk, Prod.mk.injEq]
  by_cases h1 : a = b
  · rw [if_pos h1]
    constructor
    · intro h; cases h
    · rintro ⟨h, ⟨rfl, rfl⟩ | ⟨rfl, rfl⟩⟩
      · exact absurd h1 h.ne
      · exact absurd h1 h.ne'
  · rw [if_neg h1]
    by_cases h2 : a < b
    · rw [if_pos h2, Option.some.injEq, Prod.mk.injEq]
      constructor
      · rintro ⟨rfl, rfl⟩; exact ⟨h2, .inl ⟨rfl, rfl⟩⟩
      · rintro ⟨h, ⟨rfl, rfl⟩ | ⟨rfl, rfl⟩⟩
        · exact ⟨rfl, rfl⟩
        · exact absurd h h2.asymm
    · rw [if_neg h2, Option.some.injEq, Prod.mk.injEq]
      constructor
      · rintro ⟨rfl, rfl⟩
        exact ⟨lt_of_le_of_ne (not_lt.1 h2) (Ne.symm h1), .inr ⟨rfl, rfl⟩⟩
      · rintro ⟨h, ⟨rfl, rfl⟩ | ⟨rfl, rfl⟩⟩
        · exact absurd h h2
        · exact ⟨rfl, rfl⟩

theorem even_G (n : Nat) : Even (selG (n := n)) (univ.filter fun x : Fin n × Fin n => x.1 < x.2) := by
  have hcard : ∀ v : Fin n × Fin n, v.1 < v.2 → Fintype.card {x // selG x = some v} = 2 := by
    intro v hv
    rw [Fintype.card_subtype]
    have : (univ.filter fun x => selG x = some v) = {v, v.swap} := by
      ext x
      rw [mem_filter, selG_iff, mem_insert, mem_singleton]
      exact ⟨fun h => h.2.2, fun h => ⟨mem_univ _, hv, h⟩⟩
    rw [this, card_pair]
    intro h
    have := congrArg Prod.fst h
    exact hv.ne this
  refine ⟨fun x v h => mem_filter.2 ⟨mem_univ _, (selG_iff.1 h).1⟩, fun v hv => ⟨v, selG_iff.2 ⟨(mem_filter.1 hv).2, .inl rfl⟩⟩,
    fun v hv v' hv' => ?_⟩
  rw [hcard v (mem_filter.1 hv).2, hcard v' (mem_filter.1 hv').2]

/-- a pair that is drawn in one way only -/
theorem even_some {R : Type} [Fintype R] [DecidableEq R] (p : R → Prop) [DecidablePred p] :
    Even (fun x => if p x then some x else none) (univ.filter p) := by
  have hiff : ∀ x v : R, (if p x then some x else none) = some v ↔ p v ∧ x = v := by
    intro x v
    by_cases h : p x
    · rw [if_pos h, Option.some.injEq]
      exact ⟨fun e => ⟨e ▸ h, e⟩, And.right⟩
    · rw [if_neg h]
      constructor
      · intro e; cases e
      · rintro ⟨h1, rfl⟩; exact absurd h1 h
  have hcard : ∀ v : R, p v → Fintype.card {x // (if p x then some x else none) = some v} = 1 := by
    intro v hv
    rw [Fintype.card_eq_one_iff]
    exact ⟨⟨v, (hiff v v).2 ⟨hv, rfl⟩⟩, fun y => Subtype.ext ((hiff y.1 v).1 y.2).2⟩
  refine ⟨fun x v h => mem_filter.2 ⟨mem_univ _, ((hiff x v).1 h).1⟩, fun v hv => ⟨v, (hiff v v).2 ⟨(mem_filter.1 hv).2, rfl⟩⟩,
    fun v hv v' hv' => ?_⟩
  rw [hcard v (mem_filter.1 hv).2, hcard v' (mem_filter.1 hv').2]

/-- how many things draw number `i` chooses among, when the draws are taken two at a time -/
def two (m n i : Nat) : Nat := if i % 2 = 0 then m else n

/-- the draws in pairs -/
def pairsB {m n : Nat} (hm : 0 < m) (hn : 0 < n) : Blocks 2 (two m n) (Fin m × Fin n) where
  blk a := (⟨a 0 % m, Nat.mod_lt _ hm⟩, ⟨a 1 % n, Nat.mod_lt _ hn⟩)
  res x t := if t = 0 then x.1.1 else x.2.1
  pos := by norm_num
  per i := by unfold two; rw [Nat.add_mod_left]
  qpos i := by unfold two; split <;> assumption
  lt x t ht := by
    obtain rfl | rfl : t = 0 ∨ t = 1 := by omega
    · exact x.1.2
    · exact x.2.2
  iff a x := by
    constructor
    · rintro rfl t ht
      obtain rfl | rfl : t = 0 ∨ t = 1 := by omega
      · rfl
      · rfl
    · intro h
      exact Prod.ext (Fin.ext (h 0 (by norm_num))) (Fin.ext (h 1 (by norm_num)))
  card := by
    rw [prod_range_succ, prod_range_succ, prod_range_zero, one_mul, Fintype.card_prod, Fintype.card_fin, Fintype.card_fin]
    rfl

theorem block_pair {m n : Nat} (hm : 0 < m) (hn : 0 < n) (a : Draws) : asInt ((pairsB hm hn).blk a) = pair2 m n a := rfl

theorem tail_tail (a : Draws) : a.tail.tail = fun i => a (2 + i) := by
  funext i
  show a (i + 1 + 1) = a (2 + i)
  congr 1
  omega

/-! ### Sampling without replacement -/

theorem swapLast {pool : List Int} {i : Nat} (hi : i < pool.length) :
    (swapAt pool i (pool.length - 1)).getLast? = some pool[i] := by
  unfold swapAt
  rw [List.getElem?_eq_getElem hi, List.getElem?_eq_getElem (by omega : pool.length - 1 < pool.length)]
  simp only
  rw [List.getLast?_eq_getElem?]
  simp only [List.length_set]
  rw [List.getElem?_set_self (by simp; omega)]

/-- every list of `k` different things of the pool is sampled for exactly one choice of residues -/
theorem sample_residues (k : Nat) : ∀ (pool l : List Int), pool.Nodup → l.Nodup → l ⊆ pool → l.length = k →
    ∃ r : Nat → Nat, (∀ t < k, r t < pool.length - t) ∧
      ∀ a : Draws, (sampleAux k pool a).1 = l ↔ ∀ t < k, a t % (pool.length - t) = r t := by
  induction k with
  | zero =>
    intro pool l _ _ _ hl
    rw [List.length_eq_zero_iff] at hl
    subst hl
    exact ⟨fun _ => 0, fun t ht => absurd ht (Nat.not_lt_zero _), fun a => ⟨fun _ t ht => absurd ht (Nat.not_lt_zero _),
      fun _ => rfl⟩⟩
  | succ k ih =>
    intro pool l hp hl hs hk
    cases l with
    | nil => cases hk
    | cons y ys =>
      rw [List.nodup_cons] at hl
      rw [List.length_cons, Nat.add_right_cancel_iff] at hk
      obtain ⟨j, hj, hy⟩ := List.getElem_of_mem (hs List.mem_cons_self)
      have hlen : (swapAt pool j (pool.length - 1)).length = pool.length := (swapAt_perm _ _ _).length_eq
      have hlast := swapLast hj
      have hpd : ((swapAt pool j (pool.length - 1)).dropLast ++ [y]).Perm pool := by
        refine List.Perm.trans (List.Perm.of_eq ?_) (swapAt_perm pool j (pool.length - 1))
        rw [← hy]
        exact List.dropLast_append_getLast? _ hlast
      have hnd := (List.nodup_append.1 (hpd.nodup_iff.2 hp)).1
      obtain ⟨r, h1, h2⟩ := ih (swapAt pool j (pool.length - 1)).dropLast ys hnd hl.2 (fun z hz => by
        have := hpd.symm.subset (hs (List.mem_cons_of_mem _ hz))
        rw [List.mem_append, List.mem_singleton] at this
        exact this.resolve_right fun e => hl.1 (e ▸ hz)) hk
      rw [List.length_dropLast, hlen] at h1 h2
      refine ⟨fun t => if t = 0 then j else r (t - 1), fun t ht => ?_, fun a => ?_⟩
      · rcases Nat.eq_zero_or_pos t with rfl | h0
        · simpa using hj
        · have := h1 (t - 1) (by omega)
          simp only [if_neg h0.ne']
          omega
      · have h0 : a 0 % pool.length < pool.length := Nat.mod_lt _ (by omega)
        have e1 : (sampleAux (k + 1) pool a).1 = pool[a 0 % pool.length] ::
            (sampleAux k (swapAt pool (a 0 % pool.length) (pool.length - 1)).dropLast a.tail).1 := by
          show (swapAt pool (a 0 % pool.length) (pool.length - 1)).getLast?.toList ++ _ = _
          rw [swapLast h0]
          rfl
        rw [e1, List.cons.injEq]
        constructor
        · rintro ⟨e2, e3⟩ t ht
          have e4 : a 0 % pool.length = j := by
            rw [← hy] at e2
            exact (List.Nodup.getElem_inj_iff hp).1 e2
          rcases Nat.eq_zero_or_pos t with rfl | ht0
          · simpa using e4
          · rw [e4] at e3
            have := (h2 a.tail).1 e3 (t - 1) (by omega)
            simp only [if_neg ht0.ne']
            rw [← this]
            show _ = a (t - 1 + 1) % _
            rw [Nat.sub_add_cancel ht0]
            congr 1
            omega
        · intro ha
          have e4 : a 0 % pool.length = j := by simpa using ha 0 (by omega)
          refine ⟨?_, ?_⟩
          · rw [← hy]
            exact (List.Nodup.getElem_inj_iff hp).2 e4
          · rw [e4]
            refine (h2 a.tail).2 fun t ht => ?_
            have := ha (t + 1) (by omega)
            simp only [Nat.add_eq_zero_iff, one_ne_zero, and_false, if_false, Nat.add_sub_cancel] at this
            rw [← this]
            show a (t + 1) % _ = _
            congr 1
            omega

/-- the draws of `random.sample(range(n), k)` -/
def sampleB {k n : Nat} (hk : 0 < k) (hkn : k ≤ n) : Blocks k (fun i => n - i % k) ((t : Fin k) → Fin (n - t)) where
  blk a := fun t => ⟨a t % (n - t), Nat.mod_lt _ (by have := t.2; omega)⟩
  res x t := if h : t < k then (x ⟨t, h⟩).1 else 0
  pos := hk
  per i := by rw [Nat.add_mod_left]
  qpos i := by have := Nat.mod_lt i hk; omega
  lt x t ht := by
    rw [dif_pos ht, Nat.mod_eq_of_lt ht]
    exact (x ⟨t, ht⟩).2
  iff a x := by
    constructor
    · rintro rfl t ht
      rw [dif_pos ht, Nat.mod_eq_of_lt ht]
    · intro h
      funext t
      have := h t.1 t.2
      rw [dif_pos t.2, Nat.mod_eq_of_lt t.2] at this
      exact Fin.ext this
  card := by
    rw [Fintype.card_pi, ← Fin.prod_univ_eq_prod_range]
    refine Fintype.prod_congr _ _ fun t => ?_
    rw [Fintype.card_fin, Nat.mod_eq_of_lt t.2]

/-- the sampled list -/
def sampled {k n : Nat} (x : (t : Fin k) → Fin (n - t)) : List Int :=
  (sampleAux k (rangeI n) fun t => if h : t < k then (x ⟨t, h⟩).1 else 0).1

theorem sampled_iff {k n : Nat} {l : List Int} (hl : l.Nodup) (hs : l ⊆ rangeI n) (hlen : l.length = k) :
    ∃ x : (t : Fin k) → Fin (n - t), ∀ y, sampled y = l ↔ y = x := by
  obtain ⟨r, h1, h2⟩ := sample_residues k (rangeI n) l (rangeI_nodup n) hl hs hlen
  rw [rangeI_length] at h1 h2
  refine ⟨fun t => ⟨r t, h1 t t.2⟩, fun y => ?_⟩
  unfold sampled
  rw [h2]
  constructor
  · intro h
    funext t
    have := h t.1 t.2
    rw [dif_pos t.2, Nat.mod_eq_of_lt (y t).2] at this
    exact Fin.ext this
  · rintro rfl t ht
    rw [dif_pos ht, Nat.mod_eq_of_lt (h1 t ht)]

theorem sampleAux_good {k n : Nat} (hkn : k ≤ n) (a : Draws) : (sampleAux k (rangeI n) a).1.Nodup ∧
    (sampleAux k (rangeI n) a).1 ⊆ rangeI n ∧ (sampleAux k (rangeI n) a).1.length = k := by
  obtain ⟨h1, rest, h2⟩ := sampleAux_spec k (rangeI n) a (by rw [rangeI_length]; exact hkn)
  exact ⟨(List.nodup_append.1 (h2.nodup_iff.2 (rangeI_nodup n))).1, fun x hx => h2.subset (List.mem_append_left _ hx), h1⟩

theorem sampled_blk {k n : Nat} (hk : 0 < k) (hkn : k ≤ n) (a : Draws) :
    sampled ((sampleB hk hkn).blk a) = (sampleAux k (rangeI n) a).1 := by
  obtain ⟨g1, g2, g3⟩ := sampleAux_good hkn a
  obtain ⟨r, h1, h2⟩ := sample_residues k (rangeI n) _ (rangeI_nodup n) g1 g2 g3
  unfold sampled
  rw [h2]
  intro t ht
  rw [← (h2 a).1 rfl t ht, dif_pos ht, rangeI_length]
  exact Nat.mod_mod _ _

theorem even_sample {k n : Nat} (hkn : k ≤ n) :
    Even (fun x : (t : Fin k) → Fin (n - t) => some (sortV (sampled x))) (combinations k (rangeI n)).toFinset := by
  have hcomb : ∀ x : (t : Fin k) → Fin (n - t), sortV (sampled x) ∈ combinations k (rangeI n) := by
    intro x
    have : sample n (k : Int) (fun t => if h : t < k then (x ⟨t, h⟩).1 else 0) =
        .ok (sampleAux k (rangeI n) fun t => if h : t < k then (x ⟨t, h⟩).1 else 0) := by
      unfold sample
      rw [if_pos (by omega), Int.toNat_natCast]
    exact sample_mem this
  have hgood : ∀ {e l : List Int}, e ∈ combinations k (rangeI n) → l.Perm e → l.Nodup ∧ l ⊆ rangeI n ∧ l.length = k := by
    intro e l he hl
    obtain ⟨h1, h2⟩ := (mem_combinations _ _ _).1 he
    exact ⟨hl.nodup_iff.2 ((rangeI_nodup n).sublist h1), fun x hx => h1.subset (hl.subset hx), hl.length_eq.trans h2⟩
  have hcard : ∀ e ∈ combinations k (rangeI n),
      Fintype.card {x : (t : Fin k) → Fin (n - t) // some (sortV (sampled x)) = some e} = k.factorial := by
    intro e he
    obtain ⟨e1, e2, e3⟩ := hgood he (List.Perm.refl _)
    have hp : e.permutations.toFinset.card = k.factorial := by
      rw [List.toFinset_card_of_nodup (List.nodup_permutations _ e1), List.length_permutations, e3]
    rw [Fintype.card_subtype, ← hp]
    refine card_bij (fun x _ => sampled x) ?_ ?_ ?_
    · intro x hx
      rw [mem_filter, Option.some.injEq] at hx
      rw [List.mem_toFinset, List.mem_permutations]
      exact hx.2 ▸ (sortV_perm _).symm
    · intro x hx y _ hxy
      rw [mem_filter, Option.some.injEq] at hx
      have hpx : (sampled x).Perm e := hx.2 ▸ (sortV_perm _).symm
      obtain ⟨g1, g2, g3⟩ := hgood he hpx
      obtain ⟨z, hz⟩ := sampled_iff g1 g2 g3
      rw [(hz x).1 rfl, (hz y).1 hxy.symm]
    · intro l hl
      rw [List.mem_toFinset, List.mem_permutations] at hl
      obtain ⟨g1, g2, g3⟩ := hgood he hl
      obtain ⟨z, hz⟩ := sampled_iff g1 g2 g3
      have hzl : sampled z = l := (hz z).2 rfl
      refine ⟨z, mem_filter.2 ⟨mem_univ _, ?_⟩, hzl⟩
      rw [hzl, Option.some.injEq, sortV_eq_iff.2 hl, combinations_sortV he]
  refine ⟨fun x v h => ?_, fun v hv => ?_, fun v hv v' hv' => ?_⟩
  · rw [Option.some.injEq] at h
    exact List.mem_toFinset.2 (h ▸ hcomb x)
  · have := hcard v (List.mem_toFinset.1 hv)
    have hpos : 0 < Fintype.card {x : (t : Fin k) → Fin (n - t) // some (sortV (sampled x)) = some v} :=
      this ▸ Nat.factorial_pos k
    obtain ⟨x⟩ := Fintype.card_pos_iff.1 hpos
    exact ⟨x.1, x.2⟩
  · rw [hcard v (List.mem_toFinset.1 hv), hcard v' (List.mem_toFinset.1 hv')]

end Law

open Law RandGen Finset Filter

variable {Ω : Type} [MeasurableSpace Ω] {P : Measure Ω} [IsProbabilityMeasure P] {ω : Nat → Ω → Nat}

/-- C134. `graph_Gnm`: whenever the generation has ended, all sets of `m` edges are equally likely; and it ends
eventually, so that each comes out with probability one over their number.  Missing: the complete graph, which
is refused (`C71_graph_Gnm_complete_false`). -/
theorem C134_graph_Gnm_partial {n : Int} (hn : 1 < n) (h : Spec.UniformChoices P (fun _ => n.toNat) ω) {m : Nat}
    (hm : m < n * (n - 1) / 2) {ord : List (Int × Int) → List (Int × Int)} (hord : ∀ l, (ord l).Perm l)
    (E : Finset (Int × Int)) (hE : ∀ p ∈ E, 0 ≤ p.1 ∧ p.1 < p.2 ∧ p.2 < n) (hc : E.card = m) :
    (∀ fuel, P {s | ∃ g, graphGnm (K := ℝ) n m ord (fun i => ω i s) fuel = some (.ok g) ∧ Spec.GraphIs g n fun p => p ∈ E} *
        ((n * (n - 1) / 2).toNat.choose m : ENNReal) =
      P {s | ∃ g, graphGnm (K := ℝ) n m ord (fun i => ω i s) fuel = some (.ok g)}) ∧
    Tendsto (fun fuel => P {s | ∃ g, graphGnm (K := ℝ) n m ord (fun i => ω i s) fuel = some (.ok g) ∧
        Spec.GraphIs g n fun p => p ∈ E}) atTop (nhds ((n * (n - 1) / 2).toNat.choose m : ENNReal)⁻¹) := by
  obtain ⟨n, rfl⟩ := Int.eq_ofNat_of_zero_le (by omega : 0 ≤ n)
  have hn0 : 0 < n := by omega
  have h' : Spec.UniformChoices P (two n n) ω := by
    have : two n n = fun _ => n := by funext i; simp [two]
    rw [this]; exact h
  have hV : ∀ y, y ∈ (univ.filter fun x : Fin n × Fin n => x.1 < x.2).image asInt ↔ 0 ≤ y.1 ∧ y.1 < y.2 ∧ y.2 < n := by
    intro y
    rw [mem_asInt _ (fun y => y.1 < y.2) fun x => by simp [asInt]]
    omega
  have hcard : (univ.filter fun x : Fin n × Fin n => x.1 < x.2).card = ((n : Int) * (n - 1) / 2).toNat := by
    rw [← card_image_of_injective _ asInt_inj, ← card_upTo (by omega)]
    congr 1
    ext y
    rw [hV, mem_upTo]
  rw [← hcard]
  refine uniform_law (pairsB hn0 hn0) h' (even_G n) asInt_inj (pick := pickGraph n) ?_ ?_
    (mk := fun es => Graph.new (K := ℝ) n (some (.many (ord es) .none)) false .mean)
    (Is := fun g F => Spec.GraphIs g n fun p => p ∈ F) ?_ ?_ ?_ hc
  · intro a
    rw [pickGraph_eq hn0, ← block_pair hn0 hn0, tail_tail]
    congr 2
    generalize (pairsB hn0 hn0).blk a = x
    obtain ⟨⟨x, hx⟩, ⟨y, hy⟩⟩ := x
    have hs : Graph.sortPair (asInt ((⟨x, hx⟩, ⟨y, hy⟩) : Fin n × Fin n)) = if (x : Int) ≤ y then ((x : Int), (y : Int)) else (y, x) := rfl
    rw [hs]
    simp only [asInt, selG, Fin.mk.injEq, Fin.mk_lt_mk, Nat.cast_inj, Prod.swap_prod_mk]
    by_cases hxy : x = y
    · rw [if_pos hxy, if_pos hxy]; rfl
    · rw [if_neg hxy, if_neg hxy]
      by_cases hlt : x < y
      · rw [if_pos hlt, if_pos (by omega)]; rfl
      · rw [if_neg hlt, if_neg (by omega)]; rfl
  · rw [hcard]; omega
  · intro a f
    unfold graphGnm
    rw [if_neg (not_not.2 hn), if_neg (not_not.2 hm), Int.toNat_natCast]
  · intro l hl hlV
    obtain ⟨g, g1, g2, _⟩ := graph_of_fill (K := ℝ) hn ((hord l).nodup_iff.2 hl) fun x hx =>
      (hV x).1 (hlV x ((hord l).subset hx))
    refine ⟨g, g1, fun F hFV => ⟨fun hF => ?_, fun hF => ?_⟩⟩
    · ext p
      rw [List.mem_toFinset, shows_unique hF g2 p, (hord l).mem_iff]
    · exact shows_congr g2 fun p => by rw [← hF, List.mem_toFinset, (hord l).mem_iff]
  · exact fun p hp => (hV p).2 (hE p hp)

/-- C134. `digraph_Gnm`.  Missing: the complete directed graph, which is refused
(`C71_digraph_Gnm_complete_false`). -/
theorem C134_digraph_Gnm_partial {n : Int} (hn : 1 < n) (h : Spec.UniformChoices P (fun _ => n.toNat) ω) {m : Nat}
    (hm : m < n * (n - 1)) {ord : List (Int × Int) → List (Int × Int)} (hord : ∀ l, (ord l).Perm l)
    (E : Finset (Int × Int)) (hE : ∀ p ∈ E, 0 ≤ p.1 ∧ p.1 < n ∧ 0 ≤ p.2 ∧ p.2 < n ∧ p.1 ≠ p.2) (hc : E.card = m) :
    (∀ fuel, P {s | ∃ g, digraphGnm (K := ℝ) n m ord (fun i => ω i s) fuel = some (.ok g) ∧
        Spec.DigraphIs g n fun p => p ∈ E} * ((n * (n - 1)).toNat.choose m : ENNReal) =
      P {s | ∃ g, digraphGnm (K := ℝ) n m ord (fun i => ω i s) fuel = some (.ok g)}) ∧
    Tendsto (fun fuel => P {s | ∃ g, digraphGnm (K := ℝ) n m ord (fun i => ω i s) fuel = some (.ok g) ∧
        Spec.DigraphIs g n fun p => p ∈ E}) atTop (nhds ((n * (n - 1)).toNat.choose m : ENNReal)⁻¹) := by
  obtain ⟨n, rfl⟩ := Int.eq_ofNat_of_zero_le (by omega : 0 ≤ n)
  have hn0 : 0 < n := by omega
  have h' : Spec.UniformChoices P (two n n) ω := by
    have : two n n = fun _ => n := by funext i; simp [two]
    rw [this]; exact h
  have hV : ∀ y, y ∈ (univ.filter fun x : Fin n × Fin n => x.1 ≠ x.2).image asInt ↔
      0 ≤ y.1 ∧ y.1 < n ∧ 0 ≤ y.2 ∧ y.2 < n ∧ y.1 ≠ y.2 := by
    intro y
    rw [mem_asInt _ (fun y => y.1 ≠ y.2) fun x => by simp [asInt, Fin.ext_iff]]
    tauto
  have hcard : (univ.filter fun x : Fin n × Fin n => x.1 ≠ x.2).card = ((n : Int) * (n - 1)).toNat := by
    have e1 : (univ.filter fun x : Fin n × Fin n => x.1 ≠ x.2) = (univ : Finset (Fin n)).offDiag := by
      ext x; simp [mem_offDiag]
    rw [e1, offDiag_card, card_univ, Fintype.card_fin, ← Nat.mul_sub_one]
    obtain ⟨k, rfl⟩ : ∃ j, n = j + 1 := ⟨n - 1, by omega⟩
    have : ((k + 1 : Nat) : Int) * (((k + 1 : Nat) : Int) - 1) = (((k + 1) * k : Nat) : Int) := by push_cast; ring
    rw [this, Int.toNat_natCast, Nat.add_sub_cancel]
  rw [← hcard]
  refine uniform_law (pairsB hn0 hn0) h' (even_some fun x : Fin n × Fin n => x.1 ≠ x.2) asInt_inj (pick := pickDigraph n) ?_ ?_
    (mk := fun es => DiGraph.new (K := ℝ) n (some (.many (ord es) .none)) false .mean)
    (Is := fun g F => Spec.DigraphIs g n fun p => p ∈ F) ?_ ?_ ?_ hc
  · intro a
    rw [pickDigraph_eq hn0, ← block_pair hn0 hn0, tail_tail]
    congr 2
    generalize (pairsB hn0 hn0).blk a = x
    obtain ⟨⟨x, hx⟩, ⟨y, hy⟩⟩ := x
    simp only [asInt, ne_eq, Fin.mk.injEq, Nat.cast_inj]
    by_cases hxy : x = y
    · rw [if_pos hxy, if_neg (not_not.2 hxy)]; rfl
    · rw [if_neg hxy, if_pos hxy]; rfl
  · rw [hcard]; omega
  · intro a f
    unfold digraphGnm
    rw [if_neg (not_not.2 hn), if_neg (not_not.2 hm), Int.toNat_natCast]
  · intro l hl hlV
    have hlV' := fun x hx => (hV x).1 (hlV x ((hord l).subset hx))
    obtain ⟨g, g1, g2, _⟩ := digraph_new (K := ℝ) (n := n) (by omega) (es := ord l) (fun e he => (hlV' e he).2.2.2.2)
      (fun e he => ⟨(hlV' e he).2.1, (hlV' e he).2.2.2.1⟩) ((hord l).nodup_iff.2 hl)
    refine ⟨g, g1, fun F hFV => ⟨fun hF => ?_, fun hF => ?_⟩⟩
    · ext p
      rw [List.mem_toFinset, shows_unique hF g2 p, (hord l).mem_iff]
    · exact shows_congr g2 fun p => by rw [← hF, List.mem_toFinset, (hord l).mem_iff]
  · exact fun p hp => (hV p).2 (hE p hp)

/-- C134. `bigraph_Gnm`: the draws choose alternately in the two sides. -/
theorem C134_bigraph_Gnm {m n : Int} (hm : 1 < m) (hn : 1 < n)
    (h : Spec.UniformChoices P (fun i => if i % 2 = 0 then m.toNat else n.toNat) ω) {e : Nat} (he : e ≤ m * n)
    {ord : List (Int × Int) → List (Int × Int)} (hord : ∀ l, (ord l).Perm l)
    (E : Finset (Int × Int)) (hE : ∀ p ∈ E, 0 ≤ p.1 ∧ p.1 < m ∧ 0 ≤ p.2 ∧ p.2 < n) (hc : E.card = e) :
    (∀ fuel, P {s | ∃ g, bigraphGnm (K := ℝ) m n e ord (fun i => ω i s) fuel = some (.ok g) ∧
        Spec.BigraphIs g m n fun p => p ∈ E} * ((m * n).toNat.choose e : ENNReal) =
      P {s | ∃ g, bigraphGnm (K := ℝ) m n e ord (fun i => ω i s) fuel = some (.ok g)}) ∧
    Tendsto (fun fuel => P {s | ∃ g, bigraphGnm (K := ℝ) m n e ord (fun i => ω i s) fuel = some (.ok g) ∧
        Spec.BigraphIs g m n fun p => p ∈ E}) atTop (nhds ((m * n).toNat.choose e : ENNReal)⁻¹) := by
  obtain ⟨n, rfl⟩ := Int.eq_ofNat_of_zero_le (by omega : 0 ≤ n)
  obtain ⟨m, rfl⟩ := Int.eq_ofNat_of_zero_le (by omega : 0 ≤ m)
  have hn0 : 0 < n := by omega
  have hm0 : 0 < m := by omega
  have h' : Spec.UniformChoices P (two m n) ω := h
  have hV : ∀ y, y ∈ (univ.filter fun _ : Fin m × Fin n => True).image asInt ↔
      0 ≤ y.1 ∧ y.1 < m ∧ 0 ≤ y.2 ∧ y.2 < n := by
    intro y
    rw [mem_asInt _ (fun _ => True) fun x => Iff.rfl]
    tauto
  have hcard : (univ.filter fun _ : Fin m × Fin n => True).card = ((m : Int) * n).toNat := by
    rw [filter_true, card_univ, Fintype.card_prod, Fintype.card_fin, Fintype.card_fin, ← Nat.cast_mul, Int.toNat_natCast]
  rw [← hcard]
  refine uniform_law (pairsB hm0 hn0) h' (even_some fun _ : Fin m × Fin n => True) asInt_inj (pick := pickBigraph m n) ?_ ?_
    (mk := fun es => BiGraph.new (K := ℝ) m n (some (.many (ord es) .none)) .mean)
    (Is := fun g F => Spec.BigraphIs g m n fun p => p ∈ F) ?_ ?_ ?_ hc
  · intro a
    rw [pickBigraph_eq hm0 hn0, ← block_pair hm0 hn0, tail_tail]
    rfl
  · rw [hcard]; omega
  · intro a f
    unfold bigraphGnm
    rw [if_neg (not_not.2 hm), if_neg (not_not.2 hn), if_neg (by rw [mul_comm]; omega), Int.toNat_natCast, Int.toNat_natCast]
  · intro l hl hlV
    have hlV' := fun x hx => (hV x).1 (hlV x ((hord l).subset hx))
    obtain ⟨g, g1, g2, _⟩ := bigraph_new (K := ℝ) (m := m) (n := n) (by omega) (by omega) (es := ord l)
      (fun e he => ⟨(hlV' e he).2.1, (hlV' e he).2.2.2⟩) ((hord l).nodup_iff.2 hl)
    refine ⟨g, g1, fun F hFV => ⟨fun hF => ?_, fun hF => ?_⟩⟩
    · ext p
      rw [List.mem_toFinset, shows_unique hF.2 g2.2 p, (hord l).mem_iff]
    · exact ⟨g2.1, shows_congr g2.2 fun p => by rw [← hF, List.mem_toFinset, (hord l).mem_iff]⟩
  · exact fun p hp => (hV p).2 (hE p hp)

/-- C134. `uniform_hypergraph_Gnm`: the draws of `random.sample(range(n), k)` choose among `n, n - 1, …, n - k + 1`
vertices. -/
theorem C134_uniform_hypergraph_Gnm {k n : Int} (hk : 1 < k) (hkn : k ≤ n)
    (h : Spec.UniformChoices P (fun i => n.toNat - i % k.toNat) ω) {m : Nat} (hm0 : 0 < m)
    (hm : m ≤ n.toNat.choose k.toNat) {ord : List (List Int) → List (List Int)} (hord : ∀ l, (ord l).Perm l)
    (E : Finset (Multiset Int)) (hE : ∀ e ∈ E, Spec.IsSubset n k e) (hc : E.card = m) :
    (∀ fuel, P {s | ∃ g, uniformGnm (K := ℝ) k n m ord (fun i => ω i s) fuel = some (.ok g) ∧
        Spec.HypergraphIs g n fun e => e ∈ E} * ((n.toNat.choose k.toNat).choose m : ENNReal) =
      P {s | ∃ g, uniformGnm (K := ℝ) k n m ord (fun i => ω i s) fuel = some (.ok g)}) ∧
    Tendsto (fun fuel => P {s | ∃ g, uniformGnm (K := ℝ) k n m ord (fun i => ω i s) fuel = some (.ok g) ∧
        Spec.HypergraphIs g n fun e => e ∈ E}) atTop (nhds ((n.toNat.choose k.toNat).choose m : ENNReal)⁻¹) := by
  obtain ⟨n, rfl⟩ := Int.eq_ofNat_of_zero_le (by omega : 0 ≤ n)
  obtain ⟨k, rfl⟩ := Int.eq_ofNat_of_zero_le (by omega : 0 ≤ k)
  simp only [Int.toNat_natCast] at h hm ⊢
  have hk0 : 0 < k := by omega
  have hkn' : k ≤ n := by omega
  have hcard : (combinations k (rangeI n)).toFinset.card = n.choose k := by
    rw [List.toFinset_card_of_nodup (combinations_nodup k _ (rangeI_nodup n)), combinations_length, rangeI_length]
  have hsort : ∀ e ∈ E, ∃ l ∈ combinations k (rangeI n), (l : Multiset Int) = e := fun e he =>
    (combinations_subset e).2 (hE e he)
  choose! f hf1 hf2 using hsort
  have hback : ∀ e, (∃ l ∈ E.image f, (l : Multiset Int) = e) ↔ e ∈ E := by
    intro e
    constructor
    · rintro ⟨l, hl, rfl⟩
      obtain ⟨d, hd, rfl⟩ := mem_image.1 hl
      rw [hf2 d hd]; exact hd
    · exact fun he => ⟨f e, mem_image_of_mem _ he, hf2 e he⟩
  have hinj : Set.InjOn f E := fun d hd e he h => by rw [← hf2 d hd, ← hf2 e he, h]
  have hEq : (fun e => e ∈ E) = fun e => ∃ l ∈ E.image f, (l : Multiset Int) = e := funext fun e => propext (hback e).symm
  rw [← hcard, hEq]
  refine uniform_law (sampleB hk0 hkn') h (even_sample hkn') (ι := id) Function.injective_id (pick := pickUniform k n) ?_ ?_
    (mk := fun es => Hyper.new (K := ℝ) n (some (Hyper.listArg (ord es))) .none none .mean)
    (Is := fun g F => Spec.HypergraphIs g n fun e => ∃ l ∈ F, (l : Multiset Int) = e) ?_ ?_ ?_ ?_
  · intro a
    rw [sampled_blk]
    unfold pickUniform sample
    rw [if_pos (by omega), Int.toNat_natCast]
    have : (sampleAux k (rangeI n) a).2 = fun i => a (k + i) := funext (sampleAux_draws _ _ _)
    rw [← this]
    rfl
  · rw [hcard]; exact hm
  · intro a f
    unfold uniformGnm
    rw [if_neg (by omega), if_neg (by omega), if_neg (by omega), Int.toNat_natCast]
  · intro l hl hlV
    rw [image_id] at hlV
    have hlV' : ∀ x ∈ l, x ∈ combinations k (rangeI n) := fun x hx => List.mem_toFinset.1 (hlV x hx)
    obtain ⟨g, g1, g2, _⟩ := hyper_new (K := ℝ) (n := n) (by omega) (es := ord l)
      (fun e he => combinations_sortV (hlV' e ((hord l).subset he))) ((hord l).nodup_iff.2 hl)
    refine ⟨g, g1, fun F hFV => ⟨fun hF => ?_, fun hF => ?_⟩⟩
    · have hiff : ∀ x ∈ combinations k (rangeI n), x ∈ l ↔ x ∈ F := by
        intro x hx
        have e1 := g2.edges x 1
        have e2 := hF.edges x 1
        simp only [and_true] at e1 e2
        have e3 := e1.symm.trans e2
        have key : ∀ y ∈ combinations k (rangeI n), (y : Multiset Int) = x → y = x := by
          intro y hy he
          rw [← combinations_sortV hy, ← combinations_sortV hx]
          exact sortV_eq_iff.2 (Multiset.coe_eq_coe.1 he)
        constructor
        · intro h
          obtain ⟨y, hy, he⟩ := e3.1 ⟨x, (hord l).mem_iff.2 h, rfl⟩
          rw [← key y (List.mem_toFinset.1 (by simpa using hFV hy)) he]; exact hy
        · intro h
          obtain ⟨y, hy, he⟩ := e3.2 ⟨x, h, rfl⟩
          have hy' := (hord l).mem_iff.1 hy
          rw [← key y (hlV' y hy') he]; exact hy'
      ext x
      rw [List.mem_toFinset]
      constructor
      · exact fun h => (hiff x (hlV' x h)).1 h
      · intro h
        exact (hiff x (List.mem_toFinset.1 (by simpa using hFV h))).2 h
    · have : (fun e => ∃ l' ∈ F, (l' : Multiset Int) = e) = fun e => ∃ l' ∈ ord l, (l' : Multiset Int) = e := by
        funext e
        refine propext (exists_congr fun l' => and_congr_left fun _ => ?_)
        rw [← hF, List.mem_toFinset, (hord l).mem_iff]
      rw [this]; exact g2
  · rw [image_id]
    intro l hl
    obtain ⟨e, he, rfl⟩ := mem_image.1 hl
    exact List.mem_toFinset.2 (hf1 e he)
  · rw [card_image_of_injOn hinj, hc]

/-- There are such draws, for all numbers of choices. -/
theorem C134_draws_exist (q : Nat → Nat) (hq : ∀ i, 0 < q i) :
    ∃ (P : Measure (Nat → Nat)) (ω : Nat → (Nat → Nat) → Nat), IsProbabilityMeasure P ∧ Spec.UniformChoices P q ω := by
  have hP : ∀ i, IsProbabilityMeasure (uniformOn (range (q i) : Set Nat)) := fun i =>
    isProbabilityMeasure_uniformOn (finite_toSet _) ⟨0, mem_coe.2 (mem_range.2 (hq i))⟩
  refine ⟨Measure.infinitePi fun i => uniformOn (range (q i) : Set Nat), fun i s => s i, inferInstance, ?_, ?_, ?_⟩
  · exact fun i => measurable_pi_apply i
  · intro i a ha
    have hs : MeasurableSet {x : Nat | x % q i = a} := trivial
    have : {s : Nat → Nat | s i % q i = a} = (fun s => s i) ⁻¹' {x | x % q i = a} := rfl
    rw [this, ← Measure.map_apply (measurable_pi_apply i) hs, Measure.infinitePi_map_eval, uniformOn,
      cond_apply (Finset.measurableSet _), Measure.count_apply_finset, card_range]
    have he : (range (q i) : Set Nat) ∩ {x | x % q i = a} = {a} := by
      ext x
      simp only [Set.mem_inter_iff, mem_coe, mem_range, Set.mem_ofPred_eq, Set.mem_singleton_iff]
      constructor
      · rintro ⟨h1, h2⟩; rwa [Nat.mod_eq_of_lt h1] at h2
      · rintro rfl; exact ⟨ha, Nat.mod_eq_of_lt ha⟩
    rw [he, Measure.count_singleton, mul_one]
  · exact iIndepFun_infinitePi (P := fun i => uniformOn (range (q i) : Set Nat)) (X := fun _ x => x) fun i => measurable_id

/-- The hypotheses are met by a graph with two of three edges. -/
example : ∃ (P : Measure (Nat → Nat)) (ω : Nat → (Nat → Nat) → Nat), IsProbabilityMeasure P ∧
    Tendsto (fun fuel => P {s | ∃ g, graphGnm (K := ℝ) 3 2 id (fun i => ω i s) fuel = some (.ok g) ∧
        Spec.GraphIs g 3 fun p => p ∈ ({(0, 2), (0, 1)} : Finset (Int × Int))}) atTop (nhds (3 : ENNReal)⁻¹) := by
  obtain ⟨P, ω, hP, h⟩ := C134_draws_exist (fun _ => 3) (by norm_num)
  refine ⟨P, ω, hP, ?_⟩
  exact (C134_graph_Gnm_partial (n := 3) (m := 2) (by norm_num) h (by norm_num) (fun l => List.Perm.refl _) {(0, 2), (0, 1)}
    (by simp) rfl).2

end Props
end DHG
