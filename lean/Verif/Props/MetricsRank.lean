import Mathlib.Data.Rat.Floor
import Mathlib.Tactic.NormNum
import Verif.MetricsNdcg

/-!
# Properties of the ranking metrics: precision, recall, ndcg (C60)

`srt` is whatever `torch.argsort` does: all that is known of it is `Spec.SortsDesc`.
-/

set_option linter.unusedSectionVars false
set_option autoImplicit false

namespace DHG
namespace Props
open Metrics Utils

section
variable {K : Type} [Field K] [LinearOrder K] [IsStrictOrderedRing K] [FloorRing K]

theorem precision_cases {t : Task} {srt : Argsort K} {yt yp : Arr K} {k : Option Int} {ratio : Option K}
    {rb : Bool} {out : Out K} (h : precision t srt yt yp k ratio rb = .ok out) :
    out = finish rb (List.zipWith (precisionRow srt (Spec.places (Spec.targets yt) k ratio))
      (Spec.samples yt) (Spec.samples yp)) ∧
    (Spec.samples yt).length = (Spec.samples yp).length ∧
    (yt.Rect → yp.Rect → ∀ (i : Nat) (a b : List K), (Spec.samples yt)[i]? = some a →
      (Spec.samples yp)[i]? = some b → a.length = Spec.targets yt ∧ b.length = Spec.targets yt) ∧
    (∀ q, ratio = some q → 0 < q ∧ q ≤ 1) ∧ ∃ row ∈ Spec.samples yt, (1 : K) ∈ row := by
  unfold precision at h
  rcases hf : format t yt yp k ratio with e | r
  · rw [hf] at h; cases h
  · rw [hf] at h
    obtain ⟨rfl, h2, h3, h4⟩ := format_ok hf
    simp only [bind, Except.bind] at h
    rcases hc : checkBinary (Spec.samples yt) with e | u
    · rw [hc] at h; cases h
    · rw [hc] at h
      cases h
      exact ⟨rfl, h2, h3, fun q hq => ⟨(h4 q hq).1, (h4 q hq).2.1⟩, checkBinary_ok hc⟩

theorem recall_cases {t : Task} {srt : Argsort K} {yt yp : Arr K} {k : Option Int} {ratio : Option K}
    {rb : Bool} {out : Out K} (h : recall t srt yt yp k ratio rb = .ok out) :
    out = finish rb (List.zipWith (recallRow srt (Spec.places (Spec.targets yt) k ratio))
      (Spec.samples yt) (Spec.samples yp)) ∧
    (Spec.samples yt).length = (Spec.samples yp).length ∧
    (yt.Rect → yp.Rect → ∀ (i : Nat) (a b : List K), (Spec.samples yt)[i]? = some a →
      (Spec.samples yp)[i]? = some b → a.length = Spec.targets yt ∧ b.length = Spec.targets yt) ∧
    (∀ q, ratio = some q → 0 < q ∧ q ≤ 1) ∧ ∃ row ∈ Spec.samples yt, (1 : K) ∈ row := by
  unfold recall at h
  rcases hf : format t yt yp k ratio with e | r
  · rw [hf] at h; cases h
  · rw [hf] at h
    obtain ⟨rfl, h2, h3, h4⟩ := format_ok hf
    simp only [bind, Except.bind] at h
    rcases hc : checkBinary (Spec.samples yt) with e | u
    · rw [hc] at h; cases h
    · rw [hc] at h
      cases h
      exact ⟨rfl, h2, h3, fun q hq => ⟨(h4 q hq).1, (h4 q hq).2.1⟩, checkBinary_ok hc⟩

theorem precisionRow_eq {srt : Argsort K} (hs : Spec.SortsDesc srt) {a b : List K}
    (hab : a.length = b.length) (ha : ∀ x ∈ a, x = 0 ∨ x = 1) {c : Int} (hc : 0 < c) :
    precisionRow srt c a b = some (((Spec.found a (rankOf srt b) c).card : K) / (c : K)) := by
  unfold precisionRow fdiv
  rw [if_neg (by exact_mod_cast hc.ne'), ranked_found hs hab ha c hc.le]

theorem recallRow_eq {srt : Argsort K} (hs : Spec.SortsDesc srt) {a b : List K}
    (hab : a.length = b.length) (ha : ∀ x ∈ a, x = 0 ∨ x = 1) {c : Int} (hc : 0 ≤ c) :
    recallRow srt c a b
      = some (((Spec.found a (rankOf srt b) c).card : K) / ((Spec.relevant a).card : K)) := by
  unfold recallRow zeroNan fdiv
  rw [ranked_found hs hab ha c hc, binary_total ha]
  congr 1
  split
  · rename_i h0
    rw [h0]; simp
  · rfl

theorem width_pos {yt : Arr K} (hr : yt.Rect) (h1 : ∃ row ∈ Spec.samples yt, (1 : K) ∈ row) :
    0 < Spec.targets yt := by
  obtain ⟨row, hrow, h1⟩ := h1
  have := List.length_pos_of_mem h1
  rcases yt with xs | ⟨w, rows⟩ | s
  · simp only [Spec.samples, List.mem_singleton] at hrow
    subst hrow; exact this
  · rw [hr row hrow] at this; exact this
  · simp [Spec.samples] at hrow

theorem getElem?_some_of_length {α β : Type} {l1 : List α} {l2 : List β} (h : l1.length = l2.length)
    {i : Nat} {b : β} (hb : l2[i]? = some b) : ∃ a, l1[i]? = some a := by
  have := (List.getElem?_eq_some_iff.mp hb).1
  exact ⟨_, List.getElem?_eq_getElem (h ▸ this)⟩

/-- C60. precision, sample by sample: the number of relevant items among the first places of a
ranking by decreasing score, divided by the number of places. -/
theorem C60_precision {t : Task} {srt : Argsort K} (hs : Spec.SortsDesc srt) {yt yp : Arr K}
    (h1 : yt.Rect) (h2 : yp.Rect) (hb : Spec.Binary yt) {k : Option Int} {ratio : Option K}
    (hk : ∀ x, k = some x → 0 < x) {out : Out K}
    (h : precision t srt yt yp k ratio true = .ok out) :
    ∃ ps, out = .batch ps ∧ ps.length = (Spec.samples yt).length ∧
      ∀ (i : Nat) (a b : List K), (Spec.samples yt)[i]? = some a → (Spec.samples yp)[i]? = some b →
        ∃ r, Spec.Ranks b r ∧
          ps[i]? = some (some (((Spec.found a r (Spec.places (Spec.targets yt) k ratio)).card : K)
            / (Spec.places (Spec.targets yt) k ratio : K))) := by
  obtain ⟨rfl, hl, hw, hq, h11⟩ := precision_cases h
  have hc := places_pos (width_pos h1 h11) hk hq
  refine ⟨_, rfl, by simp [hl], ?_⟩
  intro i a b ha hb'
  obtain ⟨hla, hlb⟩ := hw h1 h2 i a b ha hb'
  refine ⟨rankOf srt b, ranks hs b, ?_⟩
  rw [getElem?_zipWith' _ _ _ _ _ _ ha hb',
    precisionRow_eq hs (hla.trans hlb.symm) (hb a (List.mem_of_getElem? ha)) hc]

/-- C60. recall, sample by sample: the relevant items among the first places, divided by all
relevant items (0 if there are none: in `K`, `x / 0 = 0`). -/
theorem C60_recall {t : Task} {srt : Argsort K} (hs : Spec.SortsDesc srt) {yt yp : Arr K}
    (h1 : yt.Rect) (h2 : yp.Rect) (hb : Spec.Binary yt) {k : Option Int} {ratio : Option K}
    (hk : ∀ x, k = some x → 0 < x) {out : Out K}
    (h : recall t srt yt yp k ratio true = .ok out) :
    ∃ rs, out = .batch rs ∧ rs.length = (Spec.samples yt).length ∧
      ∀ (i : Nat) (a b : List K), (Spec.samples yt)[i]? = some a → (Spec.samples yp)[i]? = some b →
        ∃ r, Spec.Ranks b r ∧
          rs[i]? = some (some (((Spec.found a r (Spec.places (Spec.targets yt) k ratio)).card : K)
            / ((Spec.relevant a).card : K))) := by
  obtain ⟨rfl, hl, hw, hq, h11⟩ := recall_cases h
  have hc := places_nonneg (n := Spec.targets yt) hk hq
  refine ⟨_, rfl, by simp [hl], ?_⟩
  intro i a b ha hb'
  obtain ⟨hla, hlb⟩ := hw h1 h2 i a b ha hb'
  refine ⟨rankOf srt b, ranks hs b, ?_⟩
  rw [getElem?_zipWith' _ _ _ _ _ _ ha hb',
    recallRow_eq hs (hla.trans hlb.symm) (hb a (List.mem_of_getElem? ha)) hc]

/-- C60. With the same `k`: (number of places) * precision = (number of relevant items) * recall,
in every sample; and recall is 1 at full length as soon as something is relevant. -/
theorem C60_precision_recall_consistent {t : Task} {srt : Argsort K} (hs : Spec.SortsDesc srt)
    {yt yp : Arr K} (h1 : yt.Rect) (h2 : yp.Rect) (hb : Spec.Binary yt) {k : Option Int}
    {ratio : Option K} (hk : ∀ x, k = some x → 0 < x) {ps rs : List (Option K)}
    (hp : precision t srt yt yp k ratio true = .ok (.batch ps))
    (hr : recall t srt yt yp k ratio true = .ok (.batch rs)) (i : Nat) (a : List K)
    (ha : (Spec.samples yt)[i]? = some a) :
    ∃ p q, ps[i]? = some (some p) ∧ rs[i]? = some (some q) ∧
      (Spec.places (Spec.targets yt) k ratio : K) * p = ((Spec.relevant a).card : K) * q ∧
      (Spec.places (Spec.targets yt) k ratio = Spec.targets yt → Spec.relevant a ≠ ∅ → q = 1) := by
  obtain ⟨hpe, hl, hw, hq, h11⟩ := precision_cases hp
  obtain ⟨hre, _, _, _, _⟩ := recall_cases hr
  have hc := places_pos (width_pos h1 h11) hk hq
  cases hpe; cases hre
  obtain ⟨b, hb'⟩ := getElem?_some_of_length hl.symm ha
  obtain ⟨hla, hlb⟩ := hw h1 h2 i a b ha hb'
  have hba := hb a (List.mem_of_getElem? ha)
  refine ⟨_, _, by rw [getElem?_zipWith' _ _ _ _ _ _ ha hb',
      precisionRow_eq hs (hla.trans hlb.symm) hba hc],
    by rw [getElem?_zipWith' _ _ _ _ _ _ ha hb', recallRow_eq hs (hla.trans hlb.symm) hba hc.le], ?_, ?_⟩
  · have hcK : (Spec.places (Spec.targets yt) k ratio : K) ≠ 0 := by exact_mod_cast hc.ne'
    rw [mul_div_cancel₀ _ hcK]
    rcases Nat.eq_zero_or_pos (Spec.relevant a).card with h0 | h0
    · have : (Spec.found a (rankOf srt b) (Spec.places (Spec.targets yt) k ratio)).card = 0 := by
        have := Finset.card_le_card (found_subset a (rankOf srt b) (Spec.places (Spec.targets yt) k ratio))
        omega
      rw [this, h0]; simp
    · rw [mul_div_cancel₀]
      exact_mod_cast h0.ne'
  · intro hfull hne
    rw [found_all (ranks hs b) (hla.trans hlb.symm) _ (by rw [hfull, hla])]
    apply div_self
    exact_mod_cast (Finset.card_pos.mpr (Finset.nonempty_iff_ne_empty.mpr hne)).ne'

/-- C60. precision and recall lie between 0 and 1. -/
theorem C60_precision_recall_range {t : Task} {srt : Argsort K} (hs : Spec.SortsDesc srt) {yt yp : Arr K}
    (h1 : yt.Rect) (h2 : yp.Rect) (hb : Spec.Binary yt) {k : Option Int} {ratio : Option K}
    (hk : ∀ x, k = some x → 0 < x) {xs : List (Option K)}
    (h : precision t srt yt yp k ratio true = .ok (.batch xs) ∨
      recall t srt yt yp k ratio true = .ok (.batch xs)) :
    ∀ x ∈ xs, ∃ v, x = some v ∧ 0 ≤ v ∧ v ≤ 1 := by
  intro x hx
  obtain ⟨i, hi⟩ := List.mem_iff_getElem?.mp hx
  rcases h with h | h
  · obtain ⟨he, hl, hw, hq, h11⟩ := precision_cases h
    have hc := places_pos (width_pos h1 h11) hk hq
    have hlen : xs.length = (Spec.samples yt).length := by cases he; simp [hl]
    obtain ⟨a, ha⟩ := getElem?_some_of_length hlen.symm hi
    obtain ⟨b, hb'⟩ := getElem?_some_of_length hl.symm ha
    obtain ⟨hla, hlb⟩ := hw h1 h2 i a b ha hb'
    obtain ⟨ps, hps, _, hv⟩ := C60_precision hs h1 h2 hb hk h
    cases hps
    obtain ⟨r, hr, hv⟩ := hv i a b ha hb'
    rw [hi] at hv
    cases hv
    refine ⟨_, rfl, div_nonneg (Nat.cast_nonneg _) (by exact_mod_cast hc.le), ?_⟩
    rw [div_le_one (by exact_mod_cast hc)]
    have := found_card_le hr (hla.trans hlb.symm) _ hc.le
    exact_mod_cast this
  · obtain ⟨he, hl, hw, hq, h11⟩ := recall_cases h
    have hlen : xs.length = (Spec.samples yt).length := by cases he; simp [hl]
    obtain ⟨a, ha⟩ := getElem?_some_of_length hlen.symm hi
    obtain ⟨b, hb'⟩ := getElem?_some_of_length hl.symm ha
    obtain ⟨ps, hps, _, hv⟩ := C60_recall hs h1 h2 hb hk h
    cases hps
    obtain ⟨r, hr, hv⟩ := hv i a b ha hb'
    rw [hi] at hv
    cases hv
    refine ⟨_, rfl, div_nonneg (Nat.cast_nonneg _) (Nat.cast_nonneg _), ?_⟩
    apply div_le_one_of_le₀ _ (Nat.cast_nonneg _)
    exact_mod_cast Finset.card_le_card (found_subset a r _)

/-- C60. On tensors of the same one or two dimensional shape with 0/1 ground truth and at least one
relevant item, precision and recall do return one value per sample; without `ret_batch` they return
the average of these values. -/
theorem C60_precision_recall_total {t : Task} {srt : Argsort K} (hs : Spec.SortsDesc srt) {yt yp : Arr K}
    (hsh : yt.shape = yp.shape) (hother : (∀ s, yt ≠ .other s) ∧ (∀ s, yp ≠ .other s))
    (h1 : yt.Rect) (h2 : yp.Rect) (hb : Spec.Binary yt) (hrel : ∃ row ∈ Spec.samples yt, (1 : K) ∈ row)
    {k : Option Int} {ratio : Option K} (hk : ∀ x, k = some x → 0 < x)
    (hq : ∀ q, ratio = some q → 0 < q ∧ q ≤ 1 ∧ t = .retrieval) :
    ∃ ps rs : List K, precision t srt yt yp k ratio true = .ok (.batch (ps.map some)) ∧
      precision t srt yt yp k ratio false = .ok (.mean (some (Spec.average ps))) ∧
      recall t srt yt yp k ratio true = .ok (.batch (rs.map some)) ∧
      recall t srt yt yp k ratio false = .ok (.mean (some (Spec.average rs))) := by
  have hlen : (Spec.samples yt).length = (Spec.samples yp).length := by
    rcases yt with a | ⟨w, a⟩ | s <;> rcases yp with b | ⟨w', b⟩ | s' <;>
      simp_all [Arr.shape, Spec.samples]
  obtain ⟨r, hr⟩ := format_total (k := k) hsh hlen hother h1 h2 hq
  obtain ⟨rfl, _, hw, hq'⟩ := format_ok hr
  have hcb : checkBinary (Spec.samples yt) = .ok () := checkBinary_total hb hrel
  have hp : ∀ rb, precision t srt yt yp k ratio rb = .ok (finish rb (List.zipWith
      (precisionRow srt (Spec.places (Spec.targets yt) k ratio)) (Spec.samples yt) (Spec.samples yp))) := by
    intro rb
    unfold precision
    rw [hr]
    simp only [bind, Except.bind, hcb]
  have hrc : ∀ rb, recall t srt yt yp k ratio rb = .ok (finish rb (List.zipWith
      (recallRow srt (Spec.places (Spec.targets yt) k ratio)) (Spec.samples yt) (Spec.samples yp))) := by
    intro rb
    unfold recall
    rw [hr]
    simp only [bind, Except.bind, hcb]
  have hne : Spec.samples yt ≠ [] := by
    obtain ⟨row, hrow, _⟩ := hrel
    exact List.ne_nil_of_mem hrow
  have all_some : ∀ xs : List (Option K), (∀ x ∈ xs, ∃ v, x = some v ∧ (0 : K) ≤ v ∧ v ≤ 1) →
      xs.length = (Spec.samples yt).length → ∃ ys : List K, xs = ys.map some ∧ ys ≠ [] := by
    intro xs hx hl
    have : ∃ ys : List K, xs = ys.map some := by
      clear hl
      induction xs with
      | nil => exact ⟨[], rfl⟩
      | cons x xs ih =>
        obtain ⟨v, rfl, _⟩ := hx x (by simp)
        obtain ⟨ys, rfl⟩ := ih fun y hy => hx y (by simp [hy])
        exact ⟨v :: ys, rfl⟩
    obtain ⟨ys, rfl⟩ := this
    refine ⟨ys, rfl, ?_⟩
    intro h0
    subst h0
    apply hne
    simpa using hl.symm
  obtain ⟨ps, hps, hps0⟩ := all_some _ (C60_precision_recall_range hs h1 h2 hb hk (.inl (hp true)))
    (by simp [hlen])
  obtain ⟨rs, hrs, hrs0⟩ := all_some _ (C60_precision_recall_range hs h1 h2 hb hk (.inr (hrc true)))
    (by simp [hlen])
  refine ⟨ps, rs, ?_, ?_, ?_, ?_⟩
  · rw [hp, hps]; rfl
  · rw [hp, hps]
    simp only [finish, Bool.false_eq_true, if_false]
    rw [fmean_some ps hps0]
  · rw [hrc, hrs]; rfl
  · rw [hrc, hrs]
    simp only [finish, Bool.false_eq_true, if_false]
    rw [fmean_some rs hrs0]

/-- C60. What precision and recall refuse: tensors of different shape, a ratio for the recommender
functions (`np` is not imported there), and — although 0/1 — a ground truth without any relevant
item. -/
theorem C60_precision_recall_raises (t : Task) (srt : Argsort K) (yt yp : Arr K) (k : Option Int)
    (ratio : Option K) (rb : Bool) :
    (yt.shape ≠ yp.shape →
      precision t srt yt yp k ratio rb = .error .assertion ∧ recall t srt yt yp k ratio rb = .error .assertion) ∧
    (∀ (w : Nat) (a b : List (List K)) (q : K), yt = .d2 w a → yp = .d2 w b → a.length = b.length →
      precision .recommender srt yt yp k (some q) rb = .error .name ∧
      recall .recommender srt yt yp k (some q) rb = .error .name) ∧
    (∀ (w : Nat) (a b : List (List K)), yt = .d2 w a → yp = .d2 w b → a.length = b.length → ratio = none →
      (∀ row ∈ a, ∀ x ∈ row, x = 0) → (∃ row ∈ a, row ≠ []) →
      precision t srt yt yp k ratio rb = .error .assertion ∧ recall t srt yt yp k ratio rb = .error .assertion) := by
  refine ⟨?_, ?_, ?_⟩
  · intro hne
    have : asRows yt yp = .error .assertion := by unfold asRows; rw [if_pos hne]
    cases t <;> simp only [precision, recall, format, formatRet, formatRec, this] <;> exact ⟨rfl, rfl⟩
  · rintro w a b q rfl rfl hl
    have : asRows (Arr.d2 w a) (.d2 w b) = .ok (w, a, b) := by
      unfold asRows; rw [if_neg (by simp [Arr.shape, hl])]
    simp only [precision, recall, format, formatRec, this]
    exact ⟨rfl, rfl⟩
  · rintro w a b rfl rfl hl rfl h0 hne
    have : asRows (Arr.d2 w a) (.d2 w b) = .ok (w, a, b) := by
      unfold asRows; rw [if_neg (by simp [Arr.shape, hl])]
    have hc : checkBinary a = .error .assertion := checkBinary_raises h0 hne
    cases t <;> simp only [precision, recall, format, formatRet, formatRec, this, bind, Except.bind, hc] <;>
      exact ⟨trivial, trivial⟩

end

/-! ### ndcg -/

theorem ndcgRow_eq {srt : Argsort ℝ} (hs : Spec.SortsDesc srt) {a b : List ℝ}
    (hab : a.length = b.length) {c : Int} (hc : 0 ≤ c) :
    ndcgRow srt c a b = some (Spec.dcg a (rankOf srt b) c / Spec.dcg a (rankOf stableSrt a) c) := by
  unfold ndcgRow zeroNan fdiv
  rw [dcg_ranked hs a b hab c hc, sortDesc_eq, dcg_ranked stableSrt_sorts a a rfl c hc]
  congr 1
  split
  · rename_i h0; rw [h0]; simp
  · rfl

theorem ndcg_cases {t : Task} {srt : Argsort ℝ} {yt yp : Arr ℝ} {k : Option Int} {ratio : Option ℝ}
    {rb : Bool} {out : Out ℝ} (h : ndcg t srt yt yp k ratio rb = .ok out) :
    out = finish rb (List.zipWith (ndcgRow srt (Spec.places (Spec.targets yt) k ratio))
      (Spec.samples yt) (Spec.samples yp)) ∧
    (Spec.samples yt).length = (Spec.samples yp).length ∧
    (yt.Rect → yp.Rect → ∀ (i : Nat) (a b : List ℝ), (Spec.samples yt)[i]? = some a →
      (Spec.samples yp)[i]? = some b → a.length = Spec.targets yt ∧ b.length = Spec.targets yt) ∧
    (∀ q, ratio = some q → 0 < q ∧ q ≤ 1) := by
  unfold ndcg at h
  rcases hf : format t yt yp k ratio with e | r
  · rw [hf] at h; cases h
  · rw [hf] at h
    obtain ⟨rfl, h2, h3, h4⟩ := format_ok hf
    cases h
    exact ⟨rfl, h2, h3, fun q hq => ⟨(h4 q hq).1, (h4 q hq).2.1⟩⟩

/-- C60. ndcg, sample by sample: the discounted gain of a ranking by score over the discounted gain
of a ranking by relevance.  For non-negative relevances it lies between 0 and 1, and it is 1 when the
scores order the items as the relevances do and something is relevant. -/
theorem C60_ndcg {t : Task} {srt : Argsort ℝ} (hs : Spec.SortsDesc srt) {yt yp : Arr ℝ}
    (h1 : yt.Rect) (h2 : yp.Rect) {k : Option Int} {ratio : Option ℝ} (hk : ∀ x, k = some x → 0 < x)
    {out : Out ℝ} (h : ndcg t srt yt yp k ratio true = .ok out) :
    ∃ xs, out = .batch xs ∧ xs.length = (Spec.samples yt).length ∧
      ∀ (i : Nat) (a b : List ℝ), (Spec.samples yt)[i]? = some a → (Spec.samples yp)[i]? = some b →
        ∃ x, xs[i]? = some (some x) ∧
          (∃ r r', Spec.Ranks b r ∧ Spec.Ranks a r' ∧
            x = Spec.dcg a r (Spec.places (Spec.targets yt) k ratio)
              / Spec.dcg a r' (Spec.places (Spec.targets yt) k ratio)) ∧
          ((∀ y ∈ a, 0 ≤ y) → 0 ≤ x ∧ x ≤ 1) ∧
          ((∀ y ∈ a, 0 ≤ y) → (∃ y ∈ a, 0 < y) →
            (∀ i < a.length, ∀ j < a.length, a.getD j 0 < a.getD i 0 → b.getD j 0 < b.getD i 0) →
            x = 1) := by
  obtain ⟨rfl, hl, hw, hq⟩ := ndcg_cases h
  have hc := places_nonneg (n := Spec.targets yt) hk hq
  refine ⟨_, rfl, by simp [hl], ?_⟩
  intro i a b ha hb'
  obtain ⟨hla, hlb⟩ := hw h1 h2 i a b ha hb'
  have hab := hla.trans hlb.symm
  refine ⟨_, by rw [getElem?_zipWith' _ _ _ _ _ _ ha hb', ndcgRow_eq hs hab hc],
    ⟨rankOf srt b, rankOf stableSrt a, ranks hs b, ranks stableSrt_sorts a, rfl⟩, ?_, ?_⟩
  · intro h0
    refine ⟨div_nonneg (dcg_nonneg h0 _ _) (dcg_nonneg h0 _ _), ?_⟩
    exact div_le_one_of_le₀ (dcg_le hab (ranks hs b) (ranks stableSrt_sorts a) _) (dcg_nonneg h0 _ _)
  · intro h0 hpos hord
    have hn : 0 < Spec.targets yt := by
      obtain ⟨y, hy, _⟩ := hpos
      rw [← hla]; exact List.length_pos_of_mem hy
    have hcp := places_pos hn hk hq
    have hr : Spec.Ranks a (rankOf srt b) := by
      have := ranks hs b
      refine ⟨by rw [hab]; exact this.1, by rw [hab]; exact this.2.1, ?_⟩
      intro i hi j hj hlt
      exact this.2.2 i (hab ▸ hi) j (hab ▸ hj) (hord i hi j hj hlt)
    have heq : Spec.dcg a (rankOf srt b) (Spec.places (Spec.targets yt) k ratio)
        = Spec.dcg a (rankOf stableSrt a) (Spec.places (Spec.targets yt) k ratio) :=
      le_antisymm (dcg_le rfl hr (ranks stableSrt_sorts a) _) (dcg_le rfl (ranks stableSrt_sorts a) hr _)
    rw [heq]
    exact div_self (dcg_pos h0 hpos (ranks stableSrt_sorts a) _ hcp).ne'

/-- C60. The range claim fails for a negative `k`: two relevant items, `k = -1`, precision `-1`. -/
theorem C60_negative_k_false (t : Task) (srt : Argsort ℚ) (hs : Spec.SortsDesc srt) :
    precision t srt (.d1 [1, 1]) (.d1 [2, 1]) (some (-1)) none true = .ok (.batch [some (-1)]) := by
  have hsrt : srt [2, 1] = [0, 1] := srt_eq hs [2, 1] [0, 1] (by decide) (by decide)
  have hcb : checkBinary ([[1, 1]] : List (List ℚ)) = .ok () :=
    checkBinary_total (by decide) ⟨[1, 1], by decide, by decide⟩
  have hrow : precisionRow srt (-1) [1, 1] [2, 1] = some (-1) := by
    unfold precisionRow ranked
    rw [hsrt]
    decide +kernel
  have hf : format t (.d1 [1, 1]) (.d1 [2, 1]) (some (-1)) (none : Option ℚ)
      = .ok ([[1, 1]], [[2, 1]], -1) := by cases t <;> rfl
  unfold precision
  rw [hf]
  simp only [bind, Except.bind, hcb, List.zipWith, hrow]
  rfl

/-! ### the hypotheses can be met -/

/-- ground truth and scores of two samples -/
def exTruth : Arr ℚ := .d2 3 [[1, 0, 1], [0, 0, 1]]
def exScore : Arr ℚ := .d2 3 [[3, 2, 1], [1, 1, 2]]

example : Spec.SortsDesc (stableSrt (K := ℚ)) ∧ exTruth.Rect ∧ exScore.Rect ∧ Spec.Binary exTruth ∧
    exTruth.shape = exScore.shape ∧ ∃ row ∈ Spec.samples exTruth, (1 : ℚ) ∈ row := by
  refine ⟨stableSrt_sorts, ?_, ?_, ?_, rfl, [1, 0, 1], by simp [Spec.samples, exTruth], by simp⟩
  · intro r hr; simp at hr; rcases hr with rfl | rfl <;> rfl
  · intro r hr; simp at hr; rcases hr with rfl | rfl <;> rfl
  · intro r hr; simp [Spec.samples, exTruth] at hr
    rcases hr with rfl | rfl <;> simp

example : precisionRow stableSrt 2 [1, 0, 1] [3, 2, 1] = some (1 / 2 : ℚ) := by decide +kernel

end Props
end DHG
