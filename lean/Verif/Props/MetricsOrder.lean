import Mathlib.Data.List.Forall2
import Verif.MetricsNdcg

/-!
# Ranking metrics see the order of the scores only (C112)

`srt` and `srt'` are whatever `torch.argsort` does; they need not be the same function.
-/

set_option linter.unusedSectionVars false
set_option autoImplicit false

namespace DHG

open Metrics Utils

/-! ## Specification -/

namespace Spec

variable {K : Type} [Field K] [LinearOrder K]

/-- one sample, marks `a` and scores `b`, and another one, `a'` and `b'`, in which the same items come in some other
order, with scores changed in a way that keeps their order; no two scores are equal -/
structure SameRanking (a b a' b' : List K) : Prop where
  len : a.length = b.length
  len' : a'.length = b'.length
  distinct : b.Nodup
  same : ∃ f : K → K, (∀ x ∈ b, ∀ y ∈ b, x < y → f x < f y) ∧
    (a'.zip b').Perm ((a.zip b).map fun p => (p.1, f p.2))

/-- the same for the arguments of a metric: samples in the same order, each one ranked as before -/
inductive SameRankings : Arr K → Arr K → Arr K → Arr K → Prop
  | d1 {a b a' b' : List K} (h : SameRanking a b a' b') : SameRankings (.d1 a) (.d1 b) (.d1 a') (.d1 b')
  | d2 {w : Nat} {as bs as' bs' : List (List K)} (hl : as.length = bs.length) (hl' : as'.length = bs'.length)
      (h : List.Forall₂ (fun p p' => SameRanking p.1 p.2 p'.1 p'.2) (as.zip bs) (as'.zip bs')) :
      SameRankings (.d2 w as) (.d2 w bs) (.d2 w as') (.d2 w bs')

end Spec

namespace Props

section
variable {K : Type} [Field K] [LinearOrder K] [IsStrictOrderedRing K]

theorem ranked_zip {srt : Argsort K} (hs : Spec.SortsDesc srt) {a b : List K} (h : a.length = b.length) :
    ((srt b).map fun i => (a.getD i 0, b.getD i 0)).Perm (a.zip b) := by
  refine ((hs b).1.map _).trans (List.Perm.of_eq ?_)
  apply List.ext_getElem
  · simp [h]
  · intro i h1 h2
    simp only [List.length_map, List.length_range] at h1
    simp [h1, h]

theorem ranked_strict {srt : Argsort K} (hs : Spec.SortsDesc srt) {a b : List K} (hd : b.Nodup) :
    ((srt b).map fun i => (a.getD i 0, b.getD i 0)).Pairwise fun p q => q.2 < p.2 := by
  have hp := (hs b).1
  have hn : (srt b).Nodup := hp.nodup_iff.2 List.nodup_range
  rw [List.pairwise_map]
  have h1 := ((hs b).2.and hn)
  refine h1.imp_of_mem fun {i j} hi hj h => ?_
  have hi' : i < b.length := List.mem_range.1 (hp.mem_iff.1 hi)
  have hj' : j < b.length := List.mem_range.1 (hp.mem_iff.1 hj)
  refine lt_of_le_of_ne h.1 fun he => h.2 ?_
  simp only [List.getD_eq_getElem?_getD, List.getElem?_eq_getElem hi', List.getElem?_eq_getElem hj',
    Option.getD_some] at he
  exact ((List.Nodup.getElem_inj_iff hd).1 he).symm

theorem ranked_eq_of_same {srt srt' : Argsort K} (hs : Spec.SortsDesc srt) (hs' : Spec.SortsDesc srt')
    {a b a' b' : List K} (h : Spec.SameRanking a b a' b') : ranked srt a b = ranked srt' a' b' := by
  obtain ⟨hl, hl', hd, f, hf, hp⟩ := h
  have hb' : b'.Perm (b.map f) := by
    have := hp.map Prod.snd
    rw [List.map_map, List.map_snd_zip (by rw [hl'])] at this
    refine this.trans (List.Perm.of_eq ?_)
    rw [show (Prod.snd ∘ fun p : K × K => (p.1, f p.2)) = f ∘ Prod.snd from rfl, ← List.map_map,
      List.map_snd_zip (by rw [hl])]
  have hd' : b'.Nodup := by
    rw [hb'.nodup_iff]
    refine hd.map_on fun x hx y hy he => ?_
    rcases lt_trichotomy x y with h | h | h
    · exact absurd he (hf x hx y hy h).ne
    · exact h
    · exact absurd he (hf y hy x hx h).ne'
  set L := (srt b).map fun i => (a.getD i 0, b.getD i 0) with hL
  set L' := (srt' b').map fun i => (a'.getD i 0, b'.getD i 0) with hL'
  have hmem : ∀ p ∈ L, p.2 ∈ b := fun p hp => by
    have := (ranked_zip hs hl).mem_iff.1 hp
    exact (List.of_mem_zip this).2
  have hE : L.map (fun p => (p.1, f p.2)) = L' := by
    have hperm : (L.map fun p => (p.1, f p.2)).Perm L' :=
      ((ranked_zip hs hl).map _).trans (hp.symm.trans (ranked_zip hs' hl').symm)
    refine hperm.eq_of_pairwise (le := fun p q : K × K => q.2 < p.2) (fun p q _ _ h1 h2 => absurd h1 h2.asymm) ?_
      (ranked_strict hs' hd')
    rw [List.pairwise_map]
    exact (ranked_strict (a := a) hs hd).imp_of_mem fun {p q} hp hq h => hf _ (hmem q hq) _ (hmem p hp) h
  have e1 : ranked srt a b = L.map Prod.fst := by rw [hL, List.map_map]; rfl
  have e2 : ranked srt' a' b' = L'.map Prod.fst := by rw [hL', List.map_map]; rfl
  rw [e1, e2, ← hE]
  exact (List.map_map (f := fun p : K × K => (p.1, f p.2)) (g := Prod.fst) (l := L)).symm

theorem marks_perm {a b a' b' : List K} (h : Spec.SameRanking a b a' b') : a'.Perm a := by
  obtain ⟨hl, hl', _, f, _, hp⟩ := h
  have := hp.map Prod.fst
  rw [List.map_map, List.map_fst_zip (by rw [hl'])] at this
  refine this.trans (List.Perm.of_eq ?_)
  rw [show (Prod.fst ∘ fun p : K × K => (p.1, f p.2)) = Prod.fst from rfl, List.map_fst_zip (by rw [hl])]

theorem flatten_perm {as bs as' bs' : List (List K)} (hl : as.length = bs.length) (hl' : as'.length = bs'.length)
    (h : List.Forall₂ (fun p p' => Spec.SameRanking p.1 p.2 p'.1 p'.2) (as.zip bs) (as'.zip bs')) :
    as'.flatten.Perm as.flatten := by
  have e : as = (as.zip bs).map Prod.fst := by rw [List.map_fst_zip (by rw [hl])]
  have e' : as' = (as'.zip bs').map Prod.fst := by rw [List.map_fst_zip (by rw [hl'])]
  rw [e, e']
  clear e e'
  generalize as.zip bs = l at h
  generalize as'.zip bs' = l' at h
  induction h with
  | nil => exact .refl _
  | cons h _ ih => 
    simp only [List.map_cons, List.flatten_cons]
    exact (marks_perm h).append ih

theorem max_perm {l l' : List K} (h : l'.Perm l) : l'.max? = l.max? := by
  rcases hm : l.max? with _ | m
  · rw [List.max?_eq_none_iff] at hm ⊢
    subst hm; exact h.eq_nil
  · rw [List.max?_eq_some_iff] at hm ⊢
    exact ⟨h.mem_iff.2 hm.1, fun b hb => hm.2 b (h.mem_iff.1 hb)⟩

theorem check_perm {rows rows' : List (List K)} (h : rows'.flatten.Perm rows.flatten) :
    checkBinary rows' = checkBinary rows := by
  unfold checkBinary; rw [max_perm h]

theorem zipWith_same {β : Type} {F F' : List K → List K → β} {as bs as' bs' : List (List K)}
    (h : List.Forall₂ (fun p p' => Spec.SameRanking p.1 p.2 p'.1 p'.2) (as.zip bs) (as'.zip bs'))
    (hF : ∀ a b a' b', Spec.SameRanking a b a' b' → F a b = F' a' b') :
    List.zipWith F as bs = List.zipWith F' as' bs' := by
  have e : List.zipWith F as bs = (as.zip bs).map fun p => F p.1 p.2 := by rw [List.zip, List.map_zipWith]
  have e' : List.zipWith F' as' bs' = (as'.zip bs').map fun p => F' p.1 p.2 := by rw [List.zip, List.map_zipWith]
  rw [e, e']
  clear e e'
  generalize as.zip bs = l at h
  generalize as'.zip bs' = l' at h
  induction h with
  | nil => rfl
  | cons h _ ih => rw [List.map_cons, List.map_cons, hF _ _ _ _ h, ih]

variable [FloorRing K]

/-- both argument pairs are accepted and give the same number of places, or both are refused in the same way -/
theorem format_same {yt yp yt' yp' : Arr K} (h : Spec.SameRankings yt yp yt' yp') (t : Task) (k : Option Int)
    (ratio : Option K) :
    (∃ e, format t yt yp k ratio = .error e ∧ format t yt' yp' k ratio = .error e) ∨
    ∃ as bs as' bs' c, format t yt yp k ratio = .ok (as, bs, c) ∧ format t yt' yp' k ratio = .ok (as', bs', c) ∧
      as.length = bs.length ∧ as'.length = bs'.length ∧
      List.Forall₂ (fun p p' => Spec.SameRanking p.1 p.2 p'.1 p'.2) (as.zip bs) (as'.zip bs') := by
  rcases h with @⟨a, b, a', b', h⟩ | @⟨w, as, bs, as', bs', hl, hl', h⟩
  · have hw : a'.length = a.length := (marks_perm h).length_eq
    have s : (Arr.d1 a).shape = (Arr.d1 b).shape := by simp [Arr.shape, h.len]
    have s' : (Arr.d1 a').shape = (Arr.d1 b').shape := by simp [Arr.shape, h.len']
    rcases t <;> rcases ratio with _ | q
    · exact .inr ⟨[a], [b], [a'], [b'], clipK a.length k, by simp [format, formatRet, asRows, s, bind, Except.bind],
        by simp [format, formatRet, asRows, s', bind, Except.bind, hw], rfl, rfl, .cons h .nil⟩
    · by_cases hq : 0 < q ∧ q ≤ 1
      · exact .inr ⟨[a], [b], [a'], [b'], ⌈(a.length : K) * q⌉,
          by simp [format, formatRet, asRows, s, bind, Except.bind, hq],
          by simp [format, formatRet, asRows, s', bind, Except.bind, hw, hq], rfl, rfl, .cons h .nil⟩
      · exact .inl ⟨.assertion, by simp only [format, formatRet, asRows, s, bind, Except.bind, ne_eq, not_true, if_false, if_neg hq],
          by simp only [format, formatRet, asRows, s', bind, Except.bind, ne_eq, not_true, if_false, if_neg hq]⟩
    · exact .inr ⟨[a], [b], [a'], [b'], clipK a.length k, by simp [format, formatRec, asRows, s, bind, Except.bind],
        by simp [format, formatRec, asRows, s', bind, Except.bind, hw], rfl, rfl, .cons h .nil⟩
    · exact .inl ⟨.name, by simp [format, formatRec, asRows, s, bind, Except.bind],
        by simp [format, formatRec, asRows, s', bind, Except.bind]⟩
  · have s : (Arr.d2 w as).shape = (Arr.d2 w bs).shape := by simp [Arr.shape, hl]
    have s' : (Arr.d2 w as').shape = (Arr.d2 w bs').shape := by simp [Arr.shape, hl']
    rcases t <;> rcases ratio with _ | q
    · exact .inr ⟨as, bs, as', bs', clipK w k, by simp [format, formatRet, asRows, s, bind, Except.bind],
        by simp [format, formatRet, asRows, s', bind, Except.bind], hl, hl', h⟩
    · by_cases hq : 0 < q ∧ q ≤ 1
      · exact .inr ⟨as, bs, as', bs', ⌈(w : K) * q⌉,
          by simp [format, formatRet, asRows, s, bind, Except.bind, hq],
          by simp [format, formatRet, asRows, s', bind, Except.bind, hq], hl, hl', h⟩
      · exact .inl ⟨.assertion, by simp only [format, formatRet, asRows, s, bind, Except.bind, ne_eq, not_true, if_false, if_neg hq],
          by simp only [format, formatRet, asRows, s', bind, Except.bind, ne_eq, not_true, if_false, if_neg hq]⟩
    · exact .inr ⟨as, bs, as', bs', clipK w k, by simp [format, formatRec, asRows, s, bind, Except.bind],
        by simp [format, formatRec, asRows, s', bind, Except.bind], hl, hl', h⟩
    · exact .inl ⟨.name, by simp [format, formatRec, asRows, s, bind, Except.bind],
        by simp [format, formatRec, asRows, s', bind, Except.bind]⟩

/-! ## C112 -/

/-- C112 for `precision` and `recall` of both modules, with every argument; errors included. -/
theorem C112_precision_recall {srt srt' : Argsort K} (hs : Spec.SortsDesc srt) (hs' : Spec.SortsDesc srt')
    {yt yp yt' yp' : Arr K} (h : Spec.SameRankings yt yp yt' yp') (t : Task) (k : Option Int) (ratio : Option K)
    (rb : Bool) :
    precision t srt yt yp k ratio rb = precision t srt' yt' yp' k ratio rb ∧
    recall t srt yt yp k ratio rb = recall t srt' yt' yp' k ratio rb := by
  unfold precision recall
  rcases format_same h t k ratio with ⟨e, h1, h2⟩ | ⟨as, bs, as', bs', c, h1, h2, hl, hl', hf⟩
  · rw [h1, h2]; exact ⟨rfl, rfl⟩
  · rw [h1, h2]
    simp only [bind, Except.bind]
    rw [check_perm (flatten_perm hl hl' hf),
      zipWith_same (F := precisionRow srt c) (F' := precisionRow srt' c) hf fun a b a' b' h => by
        unfold precisionRow; rw [ranked_eq_of_same hs hs' h],
      zipWith_same (F := recallRow srt c) (F' := recallRow srt' c) hf fun a b a' b' h => by
        unfold recallRow; rw [ranked_eq_of_same hs hs' h, (marks_perm h).sum_eq]]
    exact ⟨rfl, rfl⟩

theorem ap_same {srt srt' : Argsort K} (hs : Spec.SortsDesc srt) (hs' : Spec.SortsDesc srt') {a b a' b' : List K}
    (h : Spec.SameRanking a b a' b') (k : Option Int) (ratio : Option K) (m : Method) :
    ap srt (.d1 a) (.d1 b) k ratio m = ap srt' (.d1 a') (.d1 b') k ratio m := by
  have s : (Arr.d1 a).shape = (Arr.d1 b).shape := by simp [Arr.shape, h.len]
  have s' : (Arr.d1 a').shape = (Arr.d1 b').shape := by simp [Arr.shape, h.len']
  unfold ap
  simp only [ne_eq, s, s', not_true, if_false, ranked_eq_of_same hs hs' h]

theorem rr_same {srt srt' : Argsort K} (hs : Spec.SortsDesc srt) (hs' : Spec.SortsDesc srt') {a b a' b' : List K}
    (h : Spec.SameRanking a b a' b') (k : Option Int) (ratio : Option K) :
    rr srt (.d1 a) (.d1 b) k ratio = rr srt' (.d1 a') (.d1 b') k ratio := by
  have s : (Arr.d1 a).shape = (Arr.d1 b).shape := by simp [Arr.shape, h.len]
  have s' : (Arr.d1 a').shape = (Arr.d1 b').shape := by simp [Arr.shape, h.len']
  unfold rr
  simp only [ne_eq, s, s', not_true, if_false, ranked_eq_of_same hs hs' h, (marks_perm h).length_eq]

theorem collect_same {β : Type} {F F' : List K × List K → Except Err β} {as bs as' bs' : List (List K)}
    (h : List.Forall₂ (fun p p' => Spec.SameRanking p.1 p.2 p'.1 p'.2) (as.zip bs) (as'.zip bs'))
    (hF : ∀ a b a' b', Spec.SameRanking a b a' b' → F (a, b) = F' (a', b')) :
    collectE (as.zip bs) F = collectE (as'.zip bs') F' := by
  generalize as.zip bs = l at h
  generalize as'.zip bs' = l' at h
  induction h with
  | nil => rfl
  | @cons p p' _ _ h _ ih =>
    obtain ⟨a, b⟩ := p
    obtain ⟨a', b'⟩ := p'
    simp only [collectE]
    rw [hF _ _ _ _ h, ih]

/-- C112 for `ap`, `map`, `rr`, `mrr` and `pr_curve`, with every argument; errors included. -/
theorem C112_average_precision {srt srt' : Argsort K} (hs : Spec.SortsDesc srt) (hs' : Spec.SortsDesc srt')
    {yt yp yt' yp' : Arr K} (h : Spec.SameRankings yt yp yt' yp') (k : Option Int) (ratio : Option K) (m : Method)
    (n : Int) (rb : Bool) :
    ap srt yt yp k ratio m = ap srt' yt' yp' k ratio m ∧
    rr srt yt yp k ratio = rr srt' yt' yp' k ratio ∧
    Metrics.map srt yt yp k ratio m rb = Metrics.map srt' yt' yp' k ratio m rb ∧
    mrr srt yt yp k ratio rb = mrr srt' yt' yp' k ratio rb ∧
    prCurve srt yt yp k ratio m n rb = prCurve srt' yt' yp' k ratio m n rb := by
  refine ⟨?_, ?_, ?_⟩
  · rcases h with @⟨a, b, a', b', h⟩ | @⟨w, as, bs, as', bs', hl, hl', h⟩
    · exact ap_same hs hs' h k ratio m
    · have s : (Arr.d2 w as).shape = (Arr.d2 w bs).shape := by simp [Arr.shape, hl]
      have s' : (Arr.d2 w as').shape = (Arr.d2 w bs').shape := by simp [Arr.shape, hl']
      unfold ap
      simp only [ne_eq, s, s', not_true, if_false]
  · rcases h with @⟨a, b, a', b', h⟩ | @⟨w, as, bs, as', bs', hl, hl', h⟩
    · exact rr_same hs hs' h k ratio
    · have s : (Arr.d2 w as).shape = (Arr.d2 w bs).shape := by simp [Arr.shape, hl]
      have s' : (Arr.d2 w as').shape = (Arr.d2 w bs').shape := by simp [Arr.shape, hl']
      unfold rr
      simp only [ne_eq, s, s', not_true, if_false]
  · unfold Metrics.map mrr prCurve
    have hfs := format_same h .retrieval k ratio
    simp only [format] at hfs
    rcases hfs with ⟨e, h1, h2⟩ | ⟨as, bs, as', bs', c, h1, h2, hl, hl', hf⟩
    · rw [h1, h2]; exact ⟨rfl, rfl, rfl⟩
    · rw [h1, h2]
      simp only [bind, Except.bind]
      rw [collect_same hf (F := fun p => ap srt (.d1 p.1) (.d1 p.2) (some c) none m)
          (F' := fun p => ap srt' (.d1 p.1) (.d1 p.2) (some c) none m) fun a b a' b' h => ap_same hs hs' h _ _ _,
        collect_same hf (F := fun p => rr srt (.d1 p.1) (.d1 p.2) (some c) none)
          (F' := fun p => rr srt' (.d1 p.1) (.d1 p.2) (some c) none) fun a b a' b' h => rr_same hs hs' h _ _,
        collect_same hf (F := fun p => prCurve1 srt p.1 p.2 m n)
          (F' := fun p => prCurve1 srt' p.1 p.2 m n) fun a b a' b' h => by
            unfold prCurve1; rw [ranked_eq_of_same hs hs' h, (marks_perm h).sum_eq]]
      exact ⟨rfl, rfl, rfl⟩

end

/-- C112 for `ndcg` of both modules, with every argument; errors included. -/
theorem C112_ndcg {srt srt' : Argsort ℝ} (hs : Spec.SortsDesc srt) (hs' : Spec.SortsDesc srt')
    {yt yp yt' yp' : Arr ℝ} (h : Spec.SameRankings yt yp yt' yp') (t : Task) (k : Option Int) (ratio : Option ℝ)
    (rb : Bool) : ndcg t srt yt yp k ratio rb = ndcg t srt' yt' yp' k ratio rb := by
  unfold ndcg
  rcases format_same h t k ratio with ⟨e, h1, h2⟩ | ⟨as, bs, as', bs', c, h1, h2, hl, hl', hf⟩
  · rw [h1, h2]; rfl
  · rw [h1, h2]
    simp only [bind, Except.bind]
    rw [zipWith_same (F := ndcgRow srt c) (F' := ndcgRow srt' c) hf fun a b a' b' h => by
        have : sortDesc a' = sortDesc a := by
          unfold sortDesc
          refine List.Perm.eq_of_pairwise (le := fun x y : ℝ => y ≤ x) (fun x y _ _ h1 h2 => le_antisymm h2 h1) ?_ ?_
            ((List.perm_insertionSort _ _).trans ((marks_perm h).trans (List.perm_insertionSort _ _).symm))
          · exact List.pairwise_insertionSort _ _
          · exact List.pairwise_insertionSort _ _
        unfold ndcgRow; rw [ranked_eq_of_same hs hs' h, this]]

/-- With equal scores the results need not agree: two ways to sort give different precisions of the same sample. -/
theorem C112_equal_scores_differ : ∃ srt srt' : Argsort ℚ, Spec.SortsDesc srt ∧ Spec.SortsDesc srt' ∧
    precision .retrieval srt (.d1 [1, 0]) (.d1 [5, 5]) (some 1) none true ≠
      precision .retrieval srt' (.d1 [1, 0]) (.d1 [5, 5]) (some 1) none true := by
  refine ⟨stableSrt, fun xs => if xs = [5, 5] then [1, 0] else stableSrt xs, stableSrt_sorts, ?_, ?_⟩
  · intro xs
    by_cases h : xs = [5, 5]
    · subst h
      simp only [if_true]
      exact ⟨by decide, by decide⟩
    · simp only [if_neg h]; exact stableSrt_sorts xs
  · have e1 : precisionRow stableSrt 1 [1, 0] [5, 5] = some (1 : ℚ) := by decide +kernel
    have e2 : precisionRow (fun xs : List ℚ => if xs = [5, 5] then [1, 0] else stableSrt xs) 1 [1, 0] [5, 5] =
      some (0 : ℚ) := by decide +kernel
    have hc : checkBinary ([[1, 0]] : List (List ℚ)) = .ok () :=
      checkBinary_total (by decide) ⟨[1, 0], by decide, by decide⟩
    have hf : format .retrieval (.d1 [1, 0]) (.d1 [5, 5]) (some 1) (none : Option ℚ) = .ok ([[1, 0]], [[5, 5]], 1) := rfl
    unfold precision
    rw [hf]
    simp only [bind, Except.bind, hc, List.zipWith, e1, e2, finish, if_true]
    intro h
    injection h with h; injection h with h; injection h with h; injection h with h
    exact one_ne_zero h

example : Spec.SameRankings (K := ℚ) (.d2 3 [[1, 0, 1], [0, 0, 1]]) (.d2 3 [[3, 2, 1], [1, 5, 2]])
    (.d2 3 [[0, 1, 1], [1, 0, 0]]) (.d2 3 [[5, 7, 3], [5, 11, 3]]) := by
  refine .d2 rfl rfl (.cons ⟨rfl, rfl, by decide, fun x => 2 * x + 1, ?_, ?_⟩
    (.cons ⟨rfl, rfl, by decide, fun x => 2 * x + 1, ?_, ?_⟩ .nil))
  · intro x _ y _ h; linarith
  · decide +kernel
  · intro x _ y _ h; linarith
  · decide +kernel

example : Spec.SortsDesc (stableSrt (K := ℝ)) := stableSrt_sorts

end Props
end DHG
