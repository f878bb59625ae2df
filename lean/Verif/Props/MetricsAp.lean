import Mathlib.Data.Rat.Floor
import Mathlib.Tactic.NormNum
import Mathlib.Tactic.FieldSimp
import Verif.MetricsAp
import Verif.UtilsLemmas
import Verif.Props.MetricsRank

/-! # Average precision, reciprocal rank and precision-recall curve (C61) -/

set_option linter.unusedSectionVars false
set_option autoImplicit false

namespace DHG
namespace Props
open Metrics Utils

section
variable {K : Type} [Field K] [LinearOrder K] [IsStrictOrderedRing K] [FloorRing K]

theorem res_eq {srt : Argsort K} (hs : Spec.SortsDesc srt) {a b : List K} (hab : a.length = b.length)
    {m : Method} (hm : m ≠ .unknown) :
    ∃ M, Spec.Scores m a (rankOf srt b) M ∧
      (if m = .pascalVoc then (cummax (precisionAtHits (ranked srt a b)).reverse).reverse
        else precisionAtHits (ranked srt a b)) = (hits srt a b).map M := by
  rcases m with _ | _ | _
  · exact ⟨Spec.precisionAt a (rankOf srt b), fun _ _ => rfl, precisionAtHits_eq hs a b hab⟩
  · obtain ⟨M, h1, h2⟩ := interpolated hs a b hab
    exact ⟨M, h2, h1⟩
  · exact absurd rfl hm

theorem ap_cases (srt : Argsort K) {a b : List K} (hab : a.length = b.length) (k : Option Int)
    {ratio : Option K} (hq : ∀ q, ratio = some q → 0 < q ∧ q ≤ 1) {m : Method} (hm : m ≠ .unknown) :
    ap srt (.d1 a) (.d1 b) k ratio m = .ok (fmean
      ((if m = .pascalVoc then cummax (precisionAtHits (ranked srt a b)).reverse
        else precisionAtHits (ranked srt a b)).map some)) := by
  unfold ap
  rw [if_neg, if_neg hm, if_neg]
  · simp [Arr.shape, hab]
  · rcases ratio with _ | q
    · simp
    · simpa using hq q rfl

/-- C61, the part that holds. As soon as something is relevant, `ap` is the average over the
relevant items of the precision at their places (`legacy`), or of the largest precision at their
place or at a later relevant item (`pascal_voc`).  Missing: `k` and `ratio` play no role. -/
theorem C61_average_precision_partial {srt : Argsort K} (hs : Spec.SortsDesc srt) {a b : List K}
    (hab : a.length = b.length) (hrel : Spec.relevant a ≠ ∅) (k : Option Int) {ratio : Option K}
    (hq : ∀ q, ratio = some q → 0 < q ∧ q ≤ 1) {m : Method} (hm : m ≠ .unknown) :
    ∃ r M, Spec.Ranks b r ∧ Spec.Scores m a r M ∧
      ap srt (.d1 a) (.d1 b) k ratio m = .ok (some (Spec.avg (Spec.relevant a) M)) := by
  obtain ⟨M, hM, hres⟩ := res_eq hs hab hm
  refine ⟨rankOf srt b, M, ranks hs b, hM, ?_⟩
  rw [ap_cases srt hab k hq hm]
  set L := (if m = .pascalVoc then cummax (precisionAtHits (ranked srt a b)).reverse
        else precisionAtHits (ranked srt a b)) with hL
  have hperm : L.Perm ((hits srt a b).map M) := by
    rw [← hres, hL]
    split
    · exact (List.reverse_perm _).symm
    · exact List.Perm.refl _
  have hne : L ≠ [] := by
    intro h0
    have := hperm.length_eq
    rw [h0, List.length_map, hits_length hs a b hab] at this
    exact hrel (Finset.card_eq_zero.mp this.symm)
  rw [fmean_some L hne]
  unfold Spec.average Spec.avg
  rw [hperm.sum_eq, hits_sum hs a b hab, hperm.length_eq, List.length_map, hits_length hs a b hab]

/-- C61. `ap` and `pr_curve` do not look at `k` at all. -/
theorem C61_k_ignored (srt : Argsort K) (yt yp : Arr K) (k k' : Option Int) (ratio : Option K) (m : Method)
    (n : Int) (rb : Bool) :
    ap srt yt yp k ratio m = ap srt yt yp k' ratio m ∧
      map srt yt yp k none m rb = map srt yt yp k' none m rb ∧
      prCurve srt yt yp k none m n rb = prCurve srt yt yp k' none m n rb := by
  refine ⟨rfl, ?_, ?_⟩
  · unfold map formatRet
    split
    · rfl
    · rcases asRows yt yp with e | x
      · rfl
      · rfl
  · unfold prCurve formatRet
    split
    · rfl
    · rcases asRows yt yp with e | x
      · rfl
      · rfl

/-- C61. Every average precision is positive and at most 1. -/
theorem C61_average_precision_range {srt : Argsort K} (hs : Spec.SortsDesc srt) {a b : List K}
    (hab : a.length = b.length) (k : Option Int) {ratio : Option K}
    (hq : ∀ q, ratio = some q → 0 < q ∧ q ≤ 1) {m : Method} (hm : m ≠ .unknown) {x : K}
    (h : ap srt (.d1 a) (.d1 b) k ratio m = .ok (some x)) : 0 < x ∧ x ≤ 1 := by
  have hrel : Spec.relevant a ≠ ∅ := by
    intro h0
    rw [ap_cases srt hab k hq hm] at h
    have hh : hits srt a b = [] := by
      rw [← List.length_eq_zero_iff, hits_length hs a b hab, h0]; rfl
    have hp : precisionAtHits (ranked srt a b) = [] := by rw [precisionAtHits_eq hs a b hab, hh]; rfl
    rw [hp] at h
    have h' := Except.ok.inj h
    revert h'
    split
    · intro h'; exact absurd (h'.symm.trans (fmean_nil (K := K))) (by simp)
    · intro h'; exact absurd (h'.symm.trans (fmean_nil (K := K))) (by simp)
  obtain ⟨r, M, hr, hM, hx⟩ := C61_average_precision_partial hs hab hrel k hq hm
  rw [h] at hx
  obtain rfl := Option.some.inj (Except.ok.inj hx)
  have hprec : ∀ i ∈ Spec.relevant a, 0 < Spec.precisionAt a r i ∧ Spec.precisionAt a r i ≤ 1 := by
    intro i hi
    have hd : (0 : K) < (r i : K) + 1 := by positivity
    unfold Spec.precisionAt
    constructor
    · apply div_pos _ hd
      rw [Nat.cast_pos, Finset.card_pos]
      exact ⟨i, Finset.mem_filter.mpr ⟨hi, le_rfl⟩⟩
    · rw [div_le_one hd]
      have : ({j ∈ Spec.relevant a | r j ≤ r i} : Finset Nat).card ≤ (Finset.range (r i + 1)).card := by
        apply Finset.card_le_card_of_injOn r
        · intro j hj
          simp only [Finset.coe_filter, Set.mem_ofPred_eq] at hj
          simp only [Finset.coe_range, Set.mem_Iio]
          omega
        · intro j hj l hl hjl
          simp only [Spec.relevant, Finset.coe_filter, Finset.mem_filter, Finset.mem_range,
            Set.mem_ofPred_eq] at hj hl
          exact hr.2.1 j (by omega) l (by omega) hjl
      rw [Finset.card_range] at this
      exact_mod_cast this
  have hM' : ∀ i ∈ Spec.relevant a, 0 < M i ∧ M i ≤ 1 := by
    intro i hi
    rcases m with _ | _ | _
    · rw [hM i hi]; exact hprec i hi
    · obtain ⟨j, hj, _, hz⟩ := (hM i hi).1
      rw [hz]; exact hprec j hj
    · exact absurd rfl hm
  have hcard : (0 : K) < ((Spec.relevant a).card : K) := by
    rw [Nat.cast_pos, Finset.card_pos]; exact Finset.nonempty_iff_ne_empty.mpr hrel
  unfold Spec.avg
  constructor
  · exact div_pos (Finset.sum_pos (fun i hi => (hM' i hi).1) (Finset.nonempty_iff_ne_empty.mpr hrel)) hcard
  · rw [div_le_one hcard]
    calc ∑ i ∈ Spec.relevant a, M i ≤ ∑ i ∈ Spec.relevant a, (1 : K) :=
          Finset.sum_le_sum fun i hi => (hM' i hi).2
      _ = _ := by simp

/-- C61. `map` and `mrr` with `ret_batch` are `ap` and `rr` of the samples, one by one. -/
theorem C61_map_mrr_rows {srt : Argsort K} {yt yp : Arr K} (h1 : yt.Rect) (h2 : yp.Rect)
    {k : Option Int} {ratio : Option K} :
    (∀ m xs, map srt yt yp k ratio m true = .ok (.batch xs) →
      xs.length = (Spec.samples yt).length ∧
      ∀ (i : Nat) (a b : List K), (Spec.samples yt)[i]? = some a → (Spec.samples yp)[i]? = some b →
        ∃ x, xs[i]? = some x ∧ ap srt (.d1 a) (.d1 b) k ratio m = .ok x) ∧
    (∀ xs, mrr srt yt yp k ratio true = .ok (.batch xs) →
      xs.length = (Spec.samples yt).length ∧
      ∀ (i : Nat) (a b : List K), (Spec.samples yt)[i]? = some a → (Spec.samples yp)[i]? = some b →
        ∃ x, xs[i]? = some x ∧ rr srt (.d1 a) (.d1 b) k ratio = .ok x) := by
  have zipget : ∀ (i : Nat) (a b : List K) (l1 l2 : List (List K)), l1[i]? = some a → l2[i]? = some b →
      (l1.zip l2)[i]? = some (a, b) := by
    intro i a b l1 l2 ha hb
    rw [List.getElem?_zip_eq_some]
    exact ⟨ha, hb⟩
  have fget : ∀ {α β : Type} {R : α → β → Prop} {xs : List α} {ys : List β}, List.Forall₂ R xs ys →
      ∀ (i : Nat) (x : α), xs[i]? = some x → ∃ y, ys[i]? = some y ∧ R x y := by
    intro α β R xs ys h
    induction h with
    | nil => intro i x hx; simp at hx
    | cons hr _ ih =>
      intro i x hx
      rcases i with _ | i
      · simp only [List.getElem?_cons_zero, Option.some.injEq] at hx
        subst hx
        exact ⟨_, rfl, hr⟩
      · simpa using ih i x (by simpa using hx)
  constructor
  · intro m xs h
    unfold map at h
    split at h
    · cases h
    · rename_i hm
      rcases hf : formatRet yt yp k ratio with e | r
      · rw [hf] at h; cases h
      · rw [hf] at h
        obtain ⟨rfl, hl, hw, hq⟩ := format_ok (t := .retrieval) hf
        simp only [bind, Except.bind] at h
        split at h
        · cases h
        · rename_i ys hys
          cases h
          rw [collectE_ok_iff] at hys
          refine ⟨by rw [← hys.length_eq]; simp [hl], ?_⟩
          intro i a b ha hb
          obtain ⟨x, hx, hr⟩ := fget hys i (a, b) (zipget i a b _ _ ha hb)
          obtain ⟨hla, hlb⟩ := hw h1 h2 i a b ha hb
          refine ⟨x, hx, ?_⟩
          rw [← hr, ap_cases srt (hla.trans hlb.symm) _ (fun q hq' => ⟨(hq q hq').1, (hq q hq').2.1⟩) hm,
            ap_cases srt (hla.trans hlb.symm) _ (fun q hq' => by cases hq') hm]
  · intro xs h
    unfold mrr at h
    rcases hf : formatRet yt yp k ratio with e | r
    · rw [hf] at h; cases h
    · rw [hf] at h
      obtain ⟨rfl, hl, hw, hq⟩ := format_ok (t := .retrieval) hf
      simp only [bind, Except.bind] at h
      split at h
      · cases h
      · rename_i ys hys
        cases h
        rw [collectE_ok_iff] at hys
        refine ⟨by rw [← hys.length_eq]; simp [hl], ?_⟩
        intro i a b ha hb
        obtain ⟨x, hx, hr⟩ := fget hys i (a, b) (zipget i a b _ _ ha hb)
        obtain ⟨hla, hlb⟩ := hw h1 h2 i a b ha hb
        refine ⟨x, hx, ?_⟩
        rw [← hr]
        unfold rr
        split
        · rfl
        · simp only [hla]
          congr 5
          have hle := places_le (n := Spec.targets yt) (k := k)
            (fun q hq' => ⟨(hq q hq').1, (hq q hq').2.1⟩)
          simp only [clipK]
          rw [min_eq_left hle]
          rcases ratio with _ | q <;> rcases k with _ | k <;> rfl

/-- C61, the part that holds. `rr` looks at the first `k` places only, and it is the average over
*all* relevant items found there of 1 / (place counted from 1); with a single relevant item there it
is the reciprocal of its place.  Missing: with several it is not the reciprocal of the first,
with none it is `nan` instead of 0. -/
theorem C61_reciprocal_rank_partial {srt : Argsort K} (hs : Spec.SortsDesc srt) {a b : List K}
    (hab : a.length = b.length) (ha : ∀ x ∈ a, 0 ≤ x) {k : Option Int} (hk : ∀ x, k = some x → 0 < x)
    {ratio : Option K} (hq : ∀ q, ratio = some q → 0 < q ∧ q ≤ 1) :
    ∃ r, Spec.Ranks b r ∧
      (Spec.found a r (Spec.places a.length k ratio) = ∅ →
        rr srt (.d1 a) (.d1 b) k ratio = .ok none) ∧
      (Spec.found a r (Spec.places a.length k ratio) ≠ ∅ →
        rr srt (.d1 a) (.d1 b) k ratio = .ok (some
          (Spec.avg (Spec.found a r (Spec.places a.length k ratio)) fun i => 1 / ((r i : K) + 1)))) ∧
      (∀ i, Spec.found a r (Spec.places a.length k ratio) = {i} →
        rr srt (.d1 a) (.d1 b) k ratio = .ok (some (1 / ((r i : K) + 1)))) := by
  have hc := places_nonneg (n := a.length) hk hq
  obtain ⟨L, hn, hL, hrec⟩ := recip_eq hs a b hab ha _ hc
  have heq : rr srt (.d1 a) (.d1 b) k ratio = .ok (fmean ((L.map fun i =>
      1 / ((rankOf srt b i : K) + 1)).map some)) := by
    unfold rr
    rw [if_neg (by simp [Arr.shape, hab]), ← hrec]
    simp only
    congr 5
    rcases ratio with _ | q <;> rcases k with _ | k <;> rfl
  have hsome : Spec.found a (rankOf srt b) (Spec.places a.length k ratio) ≠ ∅ →
        rr srt (.d1 a) (.d1 b) k ratio = .ok (some
          (Spec.avg (Spec.found a (rankOf srt b) (Spec.places a.length k ratio))
            fun i => 1 / ((rankOf srt b i : K) + 1))) := by
    intro hne
    rw [heq, fmean_some]
    · unfold Spec.average Spec.avg
      rw [← hL, List.sum_toFinset _ hn, List.toFinset_card_of_nodup hn, List.length_map]
    · intro h0
      rw [List.map_eq_nil_iff] at h0
      rw [h0] at hL
      exact hne (by rw [← hL]; rfl)
  refine ⟨rankOf srt b, ranks hs b, ?_, hsome, ?_⟩
  · intro h0
    rw [heq]
    have : L = [] := by
      rw [← List.length_eq_zero_iff, ← List.toFinset_card_of_nodup hn, hL, h0]; rfl
    rw [this]
    rw [List.map_nil, List.map_nil, fmean_nil]
  · intro i hi
    rw [hsome (by rw [hi]; simp), hi]
    simp [Spec.avg]

/-- C61. With `ret_batch` the curves come in the order of the samples: the curve in place `i` is the one
of sample `i` alone. -/
theorem C61_pr_curve_rows (srt : Argsort K) (w : Nat) (A B : List (List K)) (hA : ∀ x ∈ A, x.length = w)
    (hB : ∀ x ∈ B, x.length = w) (k : Option Int) (ratio : Option K) (m : Method) (n : Int)
    {P R : List (List K)}
    (h : prCurve srt (.d2 w A) (.d2 w B) k ratio m n true = .ok (.curves P R)) :
    P.length = A.length ∧ R.length = A.length ∧
      ∀ i < A.length, prCurve srt (.d1 (A.getD i [])) (.d1 (B.getD i [])) k ratio m n true
        = .ok (.curves [P.getD i []] [R.getD i []]) := by
  unfold prCurve at h ⊢
  by_cases hm : m = .unknown
  · rw [if_pos hm] at h; cases h
  simp only [hm, if_false, bind, Except.bind, if_true] at h ⊢
  rcases hf : formatRet (.d2 w A) (.d2 w B) k ratio with e | f
  · rw [hf] at h; cases h
  rw [hf] at h
  simp only at h
  rcases hc : collectE (f.1.zip f.2.1) (fun p => prCurve1 srt p.1 p.2 m n) with e | cs
  · rw [hc] at h; cases h
  rw [hc] at h
  cases h
  have hsh : A.length = B.length := by
    by_contra hne
    unfold formatRet asRows at hf
    rw [if_pos (by simp [Arr.shape, hne])] at hf
    cases hf
  have hf' : f.1 = A ∧ f.2.1 = B ∧ (∀ q, ratio = some q → 0 < q ∧ q ≤ 1) := by
    unfold formatRet asRows at hf
    rw [if_neg (by simp [Arr.shape, hsh])] at hf
    simp only [bind, Except.bind] at hf
    cases ratio with
    | none => cases hf; exact ⟨rfl, rfl, fun q hq => by cases hq⟩
    | some q =>
      simp only at hf
      split at hf
      · rename_i hq
        cases hf
        exact ⟨rfl, rfl, fun q' hq' => by cases hq'; exact hq⟩
      · cases hf
  obtain ⟨e1, e2, hq⟩ := hf'
  rw [e1, e2] at hc
  have hcs := collectE_ok_iff.mp hc
  have hl : cs.length = A.length := by rw [← hcs.length_eq]; simp [hsh]
  refine ⟨by simp [hl], by simp [hl], fun i hi => ?_⟩
  have hi' : i < B.length := hsh ▸ hi
  have hic : i < cs.length := hl ▸ hi
  have h3 := (List.forall₂_iff_get.mp hcs).2 i (by simpa [← hsh] using hi) hic
  simp only [List.get_eq_getElem, List.getElem_zip] at h3
  have hlen : A[i].length = B[i].length := by
    rw [hA _ (List.getElem_mem hi), hB _ (List.getElem_mem hi')]
  have hg : ∃ c, formatRet (Arr.d1 A[i]) (.d1 B[i]) k ratio = .ok ([A[i]], [B[i]], c) := by
    unfold formatRet asRows
    rw [if_neg (by simp [Arr.shape, hlen])]
    cases ratio with
    | none => exact ⟨_, rfl⟩
    | some q =>
      simp only [bind, Except.bind]
      rw [if_pos (hq q rfl)]
      exact ⟨_, rfl⟩
  obtain ⟨c, hg⟩ := hg
  rw [List.getD_eq_getElem _ _ hi, List.getD_eq_getElem _ _ hi', hg]
  simp only [List.zip_cons_cons, List.zip_nil_right, collectE, h3, bind, Except.bind]
  rw [List.getD_eq_getElem _ _ (by simpa using hic), List.getD_eq_getElem _ _ (by simpa using hic)]
  simp

/-- C61. Without `ret_batch` the precision-recall curve is the mean, point by point, of the curves of the
samples that `ret_batch` returns; these have as many points and the same recall coordinates. -/
theorem C61_pr_curve_mean (srt : Argsort K) (yt yp : Arr K) (k : Option Int) (ratio : Option K) (m : Method)
    (n : Int) {P R : List (List K)} (h : prCurve srt yt yp k ratio m n true = .ok (.curves P R)) (hP : P ≠ []) :
    ∃ p r, prCurve srt yt yp k ratio m n false = .ok (.curve p r) ∧ P.length = R.length ∧
      (∀ x ∈ P, x.length = p.length) ∧ (∀ x ∈ R, x = r) ∧ r.length = p.length ∧ (p.length : Int) = n ∧
      ∀ j < p.length, p.getD j 0 = (P.map fun x => x.getD j 0).sum / (P.length : K) := by
  unfold prCurve at h ⊢
  by_cases hm : m = .unknown
  · rw [if_pos hm] at h; cases h
  rw [if_neg hm] at h ⊢
  simp only [bind, Except.bind, if_true] at h
  rcases hf : formatRet yt yp k ratio with e | f
  · rw [hf] at h; cases h
  rw [hf] at h
  simp only at h
  rcases hc : collectE (f.1.zip f.2.1) (fun p => prCurve1 srt p.1 p.2 m n) with e | cs
  · rw [hc] at h; cases h
  rw [hc] at h
  cases h
  have hcs := collectE_ok_iff.mp hc
  have hne : cs ≠ [] := by simpa using hP
  have hall : ∃ co, linspace01 (K := K) n = .ok co ∧ ∀ c ∈ cs, c.2 = co ∧ c.1.length = co.length := by
    have h1 : ∀ c ∈ cs, ∃ co, linspace01 (K := K) n = .ok co ∧ c.2 = co ∧ c.1.length = co.length := by
      intro c hc
      obtain ⟨i, hi, rfl⟩ := List.getElem_of_mem hc
      have hl := hcs.length_eq
      have h3 := List.forall₂_iff_get.mp hcs |>.2 i (by rw [hl]; exact hi) hi
      simp only [List.get_eq_getElem] at h3
      generalize cs[i] = c at h3 ⊢
      unfold prCurve1 at h3
      rcases hlin : linspace01 (K := K) n with e | co
      · rw [hlin] at h3; cases h3
      rw [hlin] at h3
      simp only [bind, Except.bind] at h3
      split at h3
      · cases h3
      · rename_i pr hpr
        cases h3
        exact ⟨co, rfl, rfl, (collectE_ok_iff.mp hpr).length_eq.symm⟩
    obtain ⟨c, cs', rfl⟩ := List.exists_cons_of_ne_nil hne
    obtain ⟨co, e, _⟩ := h1 c (by simp)
    refine ⟨co, e, fun c' hc' => ?_⟩
    obtain ⟨co', e', h'⟩ := h1 c' hc'
    rw [e] at e'
    cases e'
    exact h'
  obtain ⟨co, hlin, hall⟩ := hall
  have hn : 0 ≤ n ∧ co.length = n.toNat := by
    unfold linspace01 at hlin
    split at hlin
    · cases hlin
    · rename_i h0
      cases hlin
      exact ⟨by omega, by simp⟩
  have hlen : (cs.length : K) ≠ 0 := by
    have : cs.length ≠ 0 := by simpa using hne
    exact_mod_cast this
  have h2 : cs.map Prod.snd ≠ [] := by simpa using hne
  refine ⟨(List.range n.toNat).map fun j : Nat => ((cs.map Prod.fst).map fun r => r.getD j 0).sum /
    ((cs.map Prod.fst).length : K), co, ?_, by simp, ?_, ?_, ?_, ?_, ?_⟩
  rotate_left
  · intro x hx
    obtain ⟨c, hc', rfl⟩ := List.mem_map.1 hx
    rw [(hall c hc').2, hn.2]; simp
  · intro x hx
    obtain ⟨c, hc', rfl⟩ := List.mem_map.1 hx
    exact (hall c hc').1
  · rw [hn.2]; simp
  · simp [hn.1]
  · intro j hj
    rw [List.getD_eq_getElem _ _ hj]
    simp only [List.getElem_map, List.getElem_range]
  · simp only [bind, Except.bind, hc, Bool.false_eq_true, if_false]
    have e1 : colMeans n.toNat (cs.map Prod.fst) = .ok ((List.range n.toNat).map fun j : Nat =>
        ((cs.map Prod.fst).map fun r => r.getD j 0).sum / ((cs.map Prod.fst).length : K)) := if_neg hP
    have e2 : colMeans n.toNat (cs.map Prod.snd) = .ok co := by
      unfold colMeans
      rw [if_neg h2]
      congr 1
      apply List.ext_getElem
      · simp [hn.2]
      · intro j h3 h4
        simp only [List.getElem_map, List.getElem_range, List.map_map, List.length_map]
        have : cs.map ((fun r => r.getD j 0) ∘ Prod.snd) = cs.map fun _ => co[j] := by
          refine List.map_congr_left fun c hc' => ?_
          simp only [Function.comp]
          rw [(hall c hc').1, List.getD_eq_getElem _ _ h4]
        rw [this, List.map_const', List.sum_replicate, nsmul_eq_mul, mul_div_cancel_left₀ _ hlen]
    rw [e1, e2]

/-- C61, the part that holds. For 0/1 ground truth with something relevant, the precision-recall
curve with `n` points has recall coordinates `j/(n-1)` (0 if `n = 1`), and the precision at recall
`c` is the (interpolated) precision at the relevant item that has `⌊c (R - 1)⌋` of the `R` relevant
items before it.  Missing: `k` and `ratio` play no role. -/
theorem C61_pr_curve_partial {srt : Argsort K} (hs : Spec.SortsDesc srt) {a b : List K}
    (hab : a.length = b.length) (ha : ∀ x ∈ a, x = 0 ∨ x = 1) (hrel : Spec.relevant a ≠ ∅)
    (k : Option Int) {m : Method} (hm : m ≠ .unknown) {n : Nat} (hn : 0 < n) :
    ∃ r M p c, Spec.Ranks b r ∧ Spec.Scores m a r M ∧
      prCurve srt (.d1 a) (.d1 b) k none m n true = .ok (.curves [p] [c]) ∧
      p.length = n ∧ c.length = n ∧
      ∀ j < n, c.getD j 0 = (if n = 1 then 0 else (j : K) / ((n : K) - 1)) ∧
        ∃ i ∈ Spec.relevant a, p.getD j 0 = M i ∧
          (({l ∈ Spec.relevant a | r l < r i} : Finset Nat).card : Int)
            = ⌊c.getD j 0 * (((Spec.relevant a).card : K) - 1)⌋ := by
  obtain ⟨M, hM, hres⟩ := res_eq hs hab hm
  set R := (Spec.relevant a).card with hR
  have hRpos : 0 < R := Finset.card_pos.mpr (Finset.nonempty_iff_ne_empty.mpr hrel)
  have hhl : (hits srt a b).length = R := hits_length hs a b hab
  have hRne : ¬ ((R : K) - 1 < 0) := by
    have : (1 : K) ≤ R := by exact_mod_cast hRpos
    exact not_lt.mpr (sub_nonneg.mpr this)
  let C : Nat → K := fun j => if n = 1 then 0 else (j : K) / ((n : K) - 1)
  have hC : ∀ j < n, 0 ≤ C j ∧ C j ≤ 1 := by
    intro j hj
    simp only [C]
    split
    · exact ⟨le_rfl, zero_le_one⟩
    · rename_i h1
      have hn2 : (1 : K) ≤ (n : K) - 1 := by
        have : 2 ≤ n := by omega
        have : (2 : K) ≤ n := by exact_mod_cast this
        linarith
      constructor
      · exact div_nonneg (Nat.cast_nonneg _) (by linarith)
      · rw [div_le_one (by linarith)]
        have : (j : K) + 1 ≤ n := by exact_mod_cast hj
        linarith
  let T : Nat → Nat := fun j => ⌊C j * ((R : K) - 1)⌋.toNat
  have hfl : ∀ j < n, 0 ≤ ⌊C j * ((R : K) - 1)⌋ ∧ ⌊C j * ((R : K) - 1)⌋ < R := by
    intro j hj
    have h0 : (0 : K) ≤ (R : K) - 1 := not_lt.mp hRne
    constructor
    · exact Int.floor_nonneg.mpr (mul_nonneg (hC j hj).1 h0)
    · rw [Int.floor_lt]
      have : C j * ((R : K) - 1) ≤ 1 * ((R : K) - 1) := mul_le_mul_of_nonneg_right (hC j hj).2 h0
      push_cast
      linarith
  have hT : ∀ j < n, T j < (hits srt a b).length := by
    intro j hj
    have := hfl j hj
    rw [hhl]
    simp only [T]
    omega
  have hlin : linspace01 (K := K) (n : Int) = .ok ((List.range n).map C) := by
    unfold linspace01
    rw [if_neg (by omega)]
    congr 1
    apply List.map_congr_left
    intro i _
    simp only [C]
    by_cases h1 : n = 1
    · rw [if_pos h1, if_pos (by exact_mod_cast h1)]
    · rw [if_neg h1, if_neg (by exact_mod_cast h1)]
      push_cast
      rfl
  have hcoll : collectE ((List.range n).map C) (fun c => pyAt ((hits srt a b).map M) (truncInt (c * (a.sum - 1))))
      = .ok ((List.range n).map fun j => M ((hits srt a b).getD (T j) 0)) := by
    apply collectE_ok_map
    intro j hj
    have hj' := List.mem_range.mp hj
    have hsum : a.sum = (R : K) := binary_total ha
    have hnn : 0 ≤ C j * (a.sum - 1) := by
      rw [hsum]; exact mul_nonneg (hC j hj').1 (not_lt.mp hRne)
    unfold pyAt truncInt
    rw [if_pos hnn, hsum, if_neg (by have := (hfl j hj').1; omega)]
    have hTj := hT j hj'
    have : ((hits srt a b).map M)[⌊C j * ((R : K) - 1)⌋.toNat]?
        = some (M ((hits srt a b).getD (T j) 0)) := by
      rw [List.getElem?_map, List.getElem?_eq_getElem hTj, List.getD_eq_getElem _ _ hTj]
      rfl
    rw [this]
    refine if_neg ?_
    have := (hfl j hj').1
    omega
  have h1 : prCurve1 srt a b m (n : Int)
      = .ok ((List.range n).map (fun j => M ((hits srt a b).getD (T j) 0)), (List.range n).map C) := by
    unfold prCurve1
    simp only [hlin, bind, Except.bind, hres, hcoll]
  refine ⟨rankOf srt b, M, (List.range n).map (fun j => M ((hits srt a b).getD (T j) 0)),
    (List.range n).map C, ranks hs b, hM, ?_, by simp, by simp, ?_⟩
  · unfold prCurve
    rw [if_neg hm]
    have hf : formatRet (Arr.d1 a) (.d1 b) k (none : Option K) = .ok ([a], [b], clipK a.length k) := by
      unfold formatRet asRows
      rw [if_neg (by simp [Arr.shape, hab])]
      rfl
    rw [hf]
    simp only [bind, Except.bind, List.zip_cons_cons, List.zip_nil_right, collectE, h1]
    rfl
  · intro j hj
    have hTj := hT j hj
    have hc : ((List.range n).map C).getD j 0 = C j := by
      rw [List.getD_eq_getElem _ _ (by simpa using hj)]; simp
    have hp : ((List.range n).map fun j => M ((hits srt a b).getD (T j) 0)).getD j 0
        = M ((hits srt a b).getD (T j) 0) := by
      rw [List.getD_eq_getElem _ _ (by simpa using hj)]; simp
    rw [hc, hp]
    refine ⟨rfl, (hits srt a b)[T j], (mem_hits hs a b hab _).1 (List.getElem_mem hTj), ?_, ?_⟩
    · rw [List.getD_eq_getElem _ _ hTj]
    · rw [hits_before hs a b hab (T j) hTj]
      have := (hfl j hj).1
      simp only [T]
      omega

end

/-! ### what fails -/

/-- C61. `ap` and `map` at `k = 1` depend on what is ranked third: two ground truths that agree on
the first place of the ranking by the scores 3, 2, 1. -/
theorem C61_ap_topk_false (srt : Argsort ℚ) (hs : Spec.SortsDesc srt) :
    ap srt (.d1 [1, 0, 0]) (.d1 [3, 2, 1]) (some 1) none .legacy = .ok (some 1) ∧
    ap srt (.d1 [1, 0, 1]) (.d1 [3, 2, 1]) (some 1) none .legacy = .ok (some (5 / 6)) ∧
    map srt (.d1 [1, 0, 0]) (.d1 [3, 2, 1]) (some 1) none .legacy true = .ok (.batch [some 1]) ∧
    map srt (.d1 [1, 0, 1]) (.d1 [3, 2, 1]) (some 1) none .legacy true = .ok (.batch [some (5 / 6)]) := by
  have hsrt : srt [3, 2, 1] = [0, 1, 2] := srt_eq hs [3, 2, 1] [0, 1, 2] (by decide) (by decide +kernel)
  have key : ∀ (a : List ℚ) (x : ℚ) (_ : a.length = 3)
      (_ : fmean ((precisionAtHits ([0, 1, 2].map fun i => a.getD i 0)).map some) = some x),
      ap srt (.d1 a) (.d1 [3, 2, 1]) (some 1) none .legacy = .ok (some x) := by
    intro a x ha hx
    rw [ap_cases srt (by simpa using ha) _ (by simp) (by simp)]
    rw [if_neg (by simp)]
    unfold ranked
    rw [hsrt, hx]
  have h1 := key [1, 0, 0] 1 rfl (by decide +kernel)
  have h2 := key [1, 0, 1] (5 / 6) rfl (by decide +kernel)
  have kmap : ∀ (a : List ℚ) (x : ℚ) (_ : a.length = 3)
      (_ : ap srt (.d1 a) (.d1 [3, 2, 1]) (some 1) none .legacy = .ok (some x)),
      map srt (.d1 a) (.d1 [3, 2, 1]) (some 1) none .legacy true = .ok (.batch [some x]) := by
    intro a x ha hx
    unfold map formatRet asRows
    rw [if_neg (by simp), if_neg (by simp [Arr.shape, ha])]
    have : clipK a.length (some 1) = 1 := by rw [ha]; rfl
    simp only [bind, Except.bind, List.zip_cons_cons, List.zip_nil_right, collectE, this, hx]
    rfl
  exact ⟨h1, h2, kmap _ _ rfl h1, kmap _ _ rfl h2⟩

/-- C61. `rr` is not the reciprocal of the first relevant place when several items are relevant
(here places 1 and 2 are: 3/4 instead of 1), and it is `nan` instead of 0 when none is. -/
theorem C61_rr_false (srt : Argsort ℚ) (hs : Spec.SortsDesc srt) :
    rr srt (.d1 [1, 1, 0]) (.d1 [3, 2, 1]) none none = .ok (some (3 / 4)) ∧
    rr srt (.d1 [0, 0, 0]) (.d1 [3, 2, 1]) none none = .ok none := by
  have hsrt : srt [3, 2, 1] = [0, 1, 2] := srt_eq hs [3, 2, 1] [0, 1, 2] (by decide) (by decide +kernel)
  have key : ∀ (a : List ℚ) (x : Option ℚ) (_ : a.length = 3)
      (_ : fmean ((recipRanksFrom 0 (slice ([0, 1, 2].map fun i => a.getD i 0) 0 3)).map some) = x),
      rr srt (.d1 a) (.d1 [3, 2, 1]) none none = .ok x := by
    intro a x ha hx
    unfold rr ranked
    rw [if_neg (by simp [Arr.shape, ha])]
    simp only [clipK, ha, hsrt]
    exact congrArg Except.ok hx
  exact ⟨key _ _ rfl (by decide +kernel), key _ _ rfl (by decide +kernel)⟩

/-- C61. `pr_curve` at `k = 1` depends on what is ranked third. -/
theorem C61_pr_curve_topk_false (srt : Argsort ℚ) (hs : Spec.SortsDesc srt) :
    prCurve srt (.d1 [1, 0, 0]) (.d1 [3, 2, 1]) (some 1) none .legacy 2 true
      = .ok (.curves [[1, 1]] [[0, 1]]) ∧
    prCurve srt (.d1 [1, 0, 1]) (.d1 [3, 2, 1]) (some 1) none .legacy 2 true
      = .ok (.curves [[1, 2 / 3]] [[0, 1]]) := by
  have hsrt : srt [3, 2, 1] = [0, 1, 2] := srt_eq hs [3, 2, 1] [0, 1, 2] (by decide) (by decide +kernel)
  have hlin : linspace01 (K := ℚ) 2 = .ok [0, 1] := by
    have : (List.range 2).map (fun i : Nat => if (2 : Int) = 1 then 0 else (i : ℚ) / ((2 - 1 : Int) : ℚ))
      = [0, 1] := by decide +kernel
    unfold linspace01
    rw [if_neg (by decide)]
    exact congrArg Except.ok this
  have key : ∀ (a : List ℚ) (i : Int) (res : List ℚ) (x y : ℚ) (_ : a.length = 3)
      (_ : precisionAtHits ([0, 1, 2].map fun i => a.getD i 0) = res)
      (_ : truncInt (0 * (a.sum - 1)) = 0) (_ : truncInt (1 * (a.sum - 1)) = i)
      (_ : pyAt res 0 = .ok x) (_ : pyAt res i = .ok y),
      prCurve srt (.d1 a) (.d1 [3, 2, 1]) (some 1) none .legacy 2 true = .ok (.curves [[x, y]] [[0, 1]]) := by
    intro a i res x y ha hres h0 h1 hx hy
    have hc1 : prCurve1 srt a [3, 2, 1] .legacy 2 = .ok ([x, y], [0, 1]) := by
      unfold prCurve1 ranked
      rw [hsrt, hres]
      simp only [hlin, bind, Except.bind, collectE, h0, h1, hx, hy, if_neg (show ¬ Method.legacy = .pascalVoc by simp)]
    unfold prCurve formatRet asRows
    rw [if_neg (by simp), if_neg (by simp [Arr.shape, ha])]
    simp only [bind, Except.bind, List.zip_cons_cons, List.zip_nil_right, collectE, hc1]
    rfl
  exact ⟨key _ 0 [1] 1 1 rfl (by decide +kernel) (by decide +kernel) (by decide +kernel) rfl rfl,
    key _ 1 [1, 2 / 3] 1 (2 / 3) rfl (by decide +kernel) (by decide +kernel) (by decide +kernel) rfl rfl⟩

example : Spec.relevant ([1, 0, 1] : List ℚ) ≠ ∅ ∧ (∀ x ∈ ([1, 0, 1] : List ℚ), x = 0 ∨ x = 1) := by
  constructor
  · apply Finset.Nonempty.ne_empty
    exact ⟨0, by simp [Spec.relevant]⟩
  · simp

/-- two samples with different curves, as in `C61_pr_curve_rows` and `C61_pr_curve_mean` -/
example (srt : Argsort ℚ) (hs : Spec.SortsDesc srt) :
    prCurve srt (.d2 3 [[1, 0, 0], [1, 0, 1]]) (.d2 3 [[3, 2, 1], [3, 2, 1]]) none none .legacy 2 true
      = .ok (.curves [[1, 1], [1, 2 / 3]] [[0, 1], [0, 1]]) := by
  have hsrt : srt [3, 2, 1] = [0, 1, 2] := srt_eq hs [3, 2, 1] [0, 1, 2] (by decide) (by decide +kernel)
  have hlin : linspace01 (K := ℚ) 2 = .ok [0, 1] := by
    have : (List.range 2).map (fun i : Nat => if (2 : Int) = 1 then 0 else (i : ℚ) / ((2 - 1 : Int) : ℚ))
      = [0, 1] := by decide +kernel
    unfold linspace01
    rw [if_neg (by decide)]
    exact congrArg Except.ok this
  have key : ∀ (a : List ℚ) (i : Int) (res : List ℚ) (x y : ℚ)
      (_ : precisionAtHits ([0, 1, 2].map fun i => a.getD i 0) = res)
      (_ : truncInt (0 * (a.sum - 1)) = 0) (_ : truncInt (1 * (a.sum - 1)) = i)
      (_ : pyAt res 0 = .ok x) (_ : pyAt res i = .ok y),
      prCurve1 srt a [3, 2, 1] .legacy 2 = .ok ([x, y], [0, 1]) := by
    intro a i res x y hres h0 h1 hx hy
    unfold prCurve1 ranked
    rw [hsrt, hres]
    simp only [hlin, bind, Except.bind, collectE, h0, h1, hx, hy, if_neg (show ¬ Method.legacy = .pascalVoc by simp)]
  unfold prCurve formatRet asRows
  rw [if_neg (by simp), if_neg (by simp [Arr.shape])]
  simp only [bind, Except.bind, List.zip_cons_cons, List.zip_nil_right, collectE,
    key [1, 0, 0] 0 [1] 1 1 (by decide +kernel) (by decide +kernel) (by decide +kernel) rfl rfl,
    key [1, 0, 1] 1 [1, 2 / 3] 1 (2 / 3) (by decide +kernel) (by decide +kernel) (by decide +kernel) rfl rfl]
  rfl

end Props
end DHG
