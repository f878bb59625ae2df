import Verif.EvaluatorLemmas

/-! # Metrics computed sample by sample: concatenating batches -/

set_option linter.unusedSectionVars false
set_option autoImplicit false

namespace DHG
namespace Metrics
open Utils

/-- a metric that treats the samples one by one: the results of two batches that it accepts, put one
after the other, are the results of the batches put one after the other; without `ret_batch` it
returns the mean -/
structure Samplewise (f : Metric (Arr ℝ × Arr ℝ)) : Prop where
  append : ∀ (w : Nat) (a b a' b' : List (List ℝ)) (xs ys : List (Option ℝ)),
    f (.d2 w a, .d2 w b) (some true) = .ok (.batch xs) →
    f (.d2 w a', .d2 w b') (some true) = .ok (.batch ys) →
    f (.d2 w (a ++ a'), .d2 w (b ++ b')) (some true) = .ok (.batch (xs ++ ys))
  mean : ∀ (y : Arr ℝ × Arr ℝ) (xs : List (Option ℝ)),
    f y (some true) = .ok (.batch xs) → f y none = .ok (.mean (fmean xs))
  batch : ∀ (y : Arr ℝ × Arr ℝ) (o : Out ℝ), f y (some true) = .ok o → ∃ xs, o = .batch xs

section
variable {K : Type} [Field K] [LinearOrder K] [IsStrictOrderedRing K] [FloorRing K]

/-- the number of places computed from the width -/
def placesE (t : Task) (w : Nat) (k : Option Int) (ratio : Option K) : Except Err Int :=
  match ratio, t with
  | some q, .retrieval => if 0 < q ∧ q ≤ 1 then .ok ⌈(w : K) * q⌉ else .error .assertion
  | some _, .recommender => .error .name
  | none, _ => .ok (clipK w k)

theorem format_d2 (t : Task) (w : Nat) (a b : List (List K)) (k : Option Int) (ratio : Option K) :
    format t (.d2 w a) (.d2 w b) k ratio
      = if a.length = b.length then (placesE t w k ratio).map fun c => (a, b, c) else .error .assertion := by
  cases t <;> simp only [format, formatRet, formatRec, asRows, Arr.shape, placesE] <;>
    by_cases hab : a.length = b.length <;> cases ratio <;>
    simp [hab, bind, Except.bind, Except.map] <;> split <;> rfl

theorem checkBinary_append {a a' : List (List K)} (h : checkBinary a = .ok ()) (h' : checkBinary a' = .ok ()) :
    checkBinary (a ++ a') = .ok () := by
  have key : ∀ l : List (List K), checkBinary l = .ok () ↔ 1 ∈ l.flatten ∧ ∀ x ∈ l.flatten, x ≤ 1 := by
    intro l
    unfold checkBinary
    rcases hm : l.flatten.max? with _ | m
    · rw [List.max?_eq_none_iff] at hm
      simp [hm]
    · obtain ⟨h1, h2⟩ := List.max?_eq_some_iff.mp hm
      simp only
      split
      · rename_i h; subst h
        simp only [true_iff]; exact ⟨h1, h2⟩
      · rename_i h
        simp only [reduceCtorEq, false_iff]
        rintro ⟨h3, h4⟩
        exact h (le_antisymm (h4 m h1) (h2 1 h3))
  rw [key] at h h' ⊢
  rw [List.flatten_append]
  refine ⟨List.mem_append_left _ h.1, ?_⟩
  intro x hx
  rcases List.mem_append.mp hx with hx | hx
  · exact h.2 x hx
  · exact h'.2 x hx

/-- precision and recall share this shape -/
def rowMetric (t : Task) (check : Bool) (row : Int → List K → List K → Option K) (yt yp : Arr K)
    (k : Option Int) (ratio : Option K) (rb : Bool) : Except Err (Out K) := do
  let r ← format t yt yp k ratio
  let _ ← if check then checkBinary r.1 else .ok ()
  .ok (finish rb (List.zipWith (row r.2.2) r.1 r.2.1))

theorem rowMetric_d2 {t : Task} {check : Bool} {row : Int → List K → List K → Option K} {w : Nat}
    {a b : List (List K)} {k : Option Int} {ratio : Option K} {rb : Bool} {out : Out K} :
    rowMetric t check row (.d2 w a) (.d2 w b) k ratio rb = .ok out ↔
      a.length = b.length ∧ (check = true → checkBinary a = .ok ()) ∧
      ∃ c, placesE t w k ratio = .ok c ∧ out = finish rb (List.zipWith (row c) a b) := by
  unfold rowMetric
  rw [format_d2]
  by_cases hab : a.length = b.length
  · rw [if_pos hab]
    rcases placesE t w k ratio with e | c
    · simp [bind, Except.bind, Except.map]
    · simp only [Except.map, bind, Except.bind, hab, true_and, Except.ok.injEq, exists_eq_left']
      cases check
      · simp only [Bool.false_eq_true, if_false, Except.ok.injEq, IsEmpty.forall_iff, true_and]
        exact eq_comm
      · simp only [if_true, true_implies]
        rcases checkBinary a with e | u
        · simp
        · simp only [Except.ok.injEq, true_and]; exact eq_comm
  · rw [if_neg hab]
    simp [bind, Except.bind, hab]

theorem rowMetric_append {t : Task} {check : Bool} {row : Int → List K → List K → Option K} {w : Nat}
    {a b a' b' : List (List K)} {k : Option Int} {ratio : Option K} {xs ys : List (Option K)}
    (h : rowMetric t check row (.d2 w a) (.d2 w b) k ratio true = .ok (.batch xs))
    (h' : rowMetric t check row (.d2 w a') (.d2 w b') k ratio true = .ok (.batch ys)) :
    rowMetric t check row (.d2 w (a ++ a')) (.d2 w (b ++ b')) k ratio true = .ok (.batch (xs ++ ys)) := by
  obtain ⟨h1, h2, c, h3, h4⟩ := rowMetric_d2.1 h
  obtain ⟨h1', h2', c', h3', h4'⟩ := rowMetric_d2.1 h'
  rw [h3] at h3'
  cases h3'
  cases h4
  cases h4'
  refine rowMetric_d2.2 ⟨by simp [h1, h1'], fun hc => checkBinary_append (h2 hc) (h2' hc), c, h3, ?_⟩
  rw [List.zipWith_append h1]
  rfl

theorem rowMetric_mean {t : Task} {check : Bool} {row : Int → List K → List K → Option K} {yt yp : Arr K}
    {k : Option Int} {ratio : Option K} {xs : List (Option K)}
    (h : rowMetric t check row yt yp k ratio true = .ok (.batch xs)) :
    rowMetric t check row yt yp k ratio false = .ok (.mean (fmean xs)) := by
  unfold rowMetric at h ⊢
  rcases hf : format t yt yp k ratio with e | r
  · rw [hf] at h; cases h
  · rw [hf] at h
    simp only [bind, Except.bind] at h ⊢
    cases check
    · cases h; rfl
    · simp only [if_true] at h ⊢
      rcases hc : checkBinary r.1 with e | u
      · rw [hc] at h; cases h
      · rw [hc] at h
        cases h
        rfl

theorem rowMetric_batch {t : Task} {check : Bool} {row : Int → List K → List K → Option K} {yt yp : Arr K}
    {k : Option Int} {ratio : Option K} {o : Out K}
    (h : rowMetric t check row yt yp k ratio true = .ok o) : ∃ xs, o = .batch xs := by
  unfold rowMetric at h
  rcases hf : format t yt yp k ratio with e | r
  · rw [hf] at h; cases h
  · rw [hf] at h
    simp only [bind, Except.bind] at h
    cases check
    · cases h; exact ⟨_, rfl⟩
    · simp only [if_true] at h
      rcases hc : checkBinary r.1 with e | u
      · rw [hc] at h; cases h
      · rw [hc] at h
        cases h
        exact ⟨_, rfl⟩

theorem precision_row (t : Task) (srt : Argsort K) (yt yp : Arr K) (k : Option Int) (ratio : Option K)
    (rb : Bool) : precision t srt yt yp k ratio rb = rowMetric t true (precisionRow srt) yt yp k ratio rb := rfl

theorem recall_row (t : Task) (srt : Argsort K) (yt yp : Arr K) (k : Option Int) (ratio : Option K)
    (rb : Bool) : recall t srt yt yp k ratio rb = rowMetric t true (recallRow srt) yt yp k ratio rb := rfl

/-- map and mrr share this shape -/
def rowMetricE (row : Int → List K × List K → Except Err (Option K)) (yt yp : Arr K)
    (k : Option Int) (ratio : Option K) (rb : Bool) : Except Err (Out K) := do
  let r ← formatRet yt yp k ratio
  let res ← collectE (r.1.zip r.2.1) (row r.2.2)
  .ok (finish rb res)

theorem rowMetricE_d2 {row : Int → List K × List K → Except Err (Option K)} {w : Nat}
    {a b : List (List K)} {k : Option Int} {ratio : Option K} {rb : Bool} {out : Out K} :
    rowMetricE row (.d2 w a) (.d2 w b) k ratio rb = .ok out ↔
      a.length = b.length ∧ ∃ c res, placesE .retrieval w k ratio = .ok c ∧
        collectE (a.zip b) (row c) = .ok res ∧ out = finish rb res := by
  unfold rowMetricE
  have := format_d2 .retrieval w a b k ratio
  simp only [format] at this
  rw [this]
  by_cases hab : a.length = b.length
  · rw [if_pos hab]
    rcases placesE .retrieval w k ratio with e | c
    · simp [bind, Except.bind, Except.map]
    · simp only [Except.map, bind, Except.bind, hab, true_and, Except.ok.injEq]
      constructor
      · intro h
        rcases hc : collectE (a.zip b) (row c) with e | res
        · rw [hc] at h; cases h
        · rw [hc] at h; cases h
          exact ⟨c, res, rfl, hc, rfl⟩
      · rintro ⟨c, res, rfl, hc, rfl⟩
        rw [hc]
  · rw [if_neg hab]
    simp [bind, Except.bind, hab]

theorem collectE_append {α β : Type} {f : α → Except Err β} {l l' : List α} {r r' : List β}
    (h : collectE l f = .ok r) (h' : collectE l' f = .ok r') : collectE (l ++ l') f = .ok (r ++ r') :=
  collectE_ok_iff.mpr (List.rel_append (collectE_ok_iff.mp h) (collectE_ok_iff.mp h'))

theorem rowMetricE_append {row : Int → List K × List K → Except Err (Option K)} {w : Nat}
    {a b a' b' : List (List K)} {k : Option Int} {ratio : Option K} {xs ys : List (Option K)}
    (h : rowMetricE row (.d2 w a) (.d2 w b) k ratio true = .ok (.batch xs))
    (h' : rowMetricE row (.d2 w a') (.d2 w b') k ratio true = .ok (.batch ys)) :
    rowMetricE row (.d2 w (a ++ a')) (.d2 w (b ++ b')) k ratio true = .ok (.batch (xs ++ ys)) := by
  obtain ⟨h1, c, r, h3, h4, h5⟩ := rowMetricE_d2.1 h
  obtain ⟨h1', c', r', h3', h4', h5'⟩ := rowMetricE_d2.1 h'
  rw [h3] at h3'
  cases h3'
  cases h5
  cases h5'
  refine rowMetricE_d2.2 ⟨by simp [h1, h1'], c, _, h3, ?_, rfl⟩
  rw [List.zip_append h1]
  exact collectE_append h4 h4'

theorem rowMetricE_mean {row : Int → List K × List K → Except Err (Option K)} {yt yp : Arr K}
    {k : Option Int} {ratio : Option K} {xs : List (Option K)}
    (h : rowMetricE row yt yp k ratio true = .ok (.batch xs)) :
    rowMetricE row yt yp k ratio false = .ok (.mean (fmean xs)) := by
  unfold rowMetricE at h ⊢
  rcases hf : formatRet yt yp k ratio with e | r
  · rw [hf] at h; cases h
  · rw [hf] at h
    simp only [bind, Except.bind] at h ⊢
    rcases hc : collectE (r.1.zip r.2.1) (row r.2.2) with e | u
    · rw [hc] at h; cases h
    · rw [hc] at h
      cases h
      rfl

theorem rowMetricE_batch {row : Int → List K × List K → Except Err (Option K)} {yt yp : Arr K}
    {k : Option Int} {ratio : Option K} {o : Out K}
    (h : rowMetricE row yt yp k ratio true = .ok o) : ∃ xs, o = .batch xs := by
  unfold rowMetricE at h
  rcases hf : formatRet yt yp k ratio with e | r
  · rw [hf] at h; cases h
  · rw [hf] at h
    simp only [bind, Except.bind] at h
    rcases hc : collectE (r.1.zip r.2.1) (row r.2.2) with e | u
    · rw [hc] at h; cases h
    · rw [hc] at h
      cases h
      exact ⟨_, rfl⟩

end

theorem ndcg_row (t : Task) (srt : Argsort ℝ) (yt yp : Arr ℝ) (k : Option Int) (ratio : Option ℝ)
    (rb : Bool) : ndcg t srt yt yp k ratio rb = rowMetric t false (ndcgRow srt) yt yp k ratio rb := by
  unfold ndcg rowMetric
  rcases format t yt yp k ratio with e | r <;> rfl

theorem mrr_row (srt : Argsort ℝ) (yt yp : Arr ℝ) (k : Option Int) (ratio : Option ℝ) (rb : Bool) :
    mrr srt yt yp k ratio rb
      = rowMetricE (fun c p => rr srt (.d1 p.1) (.d1 p.2) (some c) none) yt yp k ratio rb := rfl

theorem map_row (srt : Argsort ℝ) (yt yp : Arr ℝ) (k : Option Int) (ratio : Option ℝ) (m : Method)
    (hm : m ≠ .unknown) (rb : Bool) :
    map srt yt yp k ratio m rb
      = rowMetricE (fun c p => ap srt (.d1 p.1) (.d1 p.2) (some c) none m) yt yp k ratio rb := by
  unfold map
  rw [if_neg hm]; rfl

theorem samplewise_error {f : Metric (Arr ℝ × Arr ℝ)} (e : Err) (h : ∀ y rb, f y rb = .error e) :
    Samplewise f where
  append _ _ _ _ _ _ _ h1 := by rw [h] at h1; cases h1
  mean _ _ h1 := by rw [h] at h1; cases h1
  batch _ _ h1 := by rw [h] at h1; cases h1

theorem samplewise_row (t : Task) (check : Bool) (row : Int → List ℝ → List ℝ → Option ℝ)
    (k : Option Int) (ratio : Option ℝ) {f : Metric (Arr ℝ × Arr ℝ)}
    (hf : ∀ y rb, f y rb = rowMetric t check row y.1 y.2 k ratio (rb.getD false)) : Samplewise f where
  append w a b a' b' xs ys h1 h2 := by
    rw [hf] at h1 h2 ⊢
    exact rowMetric_append h1 h2
  mean y xs h := by
    rw [hf] at h ⊢
    exact rowMetric_mean h
  batch y o h := by
    rw [hf] at h
    exact rowMetric_batch h

theorem samplewise_rowE (row : Int → List ℝ × List ℝ → Except Err (Option ℝ))
    (k : Option Int) (ratio : Option ℝ) {f : Metric (Arr ℝ × Arr ℝ)}
    (hf : ∀ y rb, f y rb = rowMetricE row y.1 y.2 k ratio (rb.getD false)) : Samplewise f where
  append w a b a' b' xs ys h1 h2 := by
    rw [hf] at h1 h2 ⊢
    exact rowMetricE_append h1 h2
  mean y xs h := by
    rw [hf] at h ⊢
    exact rowMetricE_mean h
  batch y o h := by
    rw [hf] at h
    exact rowMetricE_batch h

/-- reading the parameters either fails for all inputs or gives `k` and `ratio` -/
theorem params_cases (ps : List (String × PVal)) (keys : List String)
    (G : Option Int → Option ℝ → Metric (Arr ℝ × Arr ℝ)) (hG : ∀ k q, Samplewise (G k q))
    {f : Metric (Arr ℝ × Arr ℝ)}
    (hf : ∀ y rb, f y rb = (do
      let _ ← checkKeys ps keys
      let k ← intParam ps "k"
      let q ← ratioParam ps
      G k q y rb)) : Samplewise f := by
  rcases h1 : checkKeys ps keys with e | u
  · exact samplewise_error e fun y rb => by rw [hf, h1]; rfl
  · rcases h2 : intParam ps "k" with e | k
    · exact samplewise_error e fun y rb => by rw [hf, h1, h2]; rfl
    · rcases h3 : ratioParam ps with e | q
      · exact samplewise_error e fun y rb => by rw [hf, h1, h2, h3]; rfl
      · have : f = G k q := by
          funext y rb
          rw [hf, h1, h2, h3]; rfl
        rw [this]; exact hG k q

/-- the retrieval metrics, except the curve, treat the samples one by one -/
theorem samplewise_retrieval (srt : Argsort ℝ) (name : String) (ps : List (String × PVal))
    (hn : name ≠ "pr_curve") : Samplewise (retrievalFun srt name ps) := by
  unfold retrievalFun
  by_cases h1 : name = "precision"
  · subst h1
    exact params_cases ps _ (fun k q y rb => precision .retrieval srt y.1 y.2 k q (rb.getD false))
      (fun k q => samplewise_row .retrieval true (precisionRow srt) k q fun y rb => precision_row ..) fun _ _ => rfl
  by_cases h2 : name = "recall"
  · subst h2
    exact params_cases ps _ (fun k q y rb => recall .retrieval srt y.1 y.2 k q (rb.getD false))
      (fun k q => samplewise_row .retrieval true (recallRow srt) k q fun y rb => recall_row ..) fun _ _ => rfl
  by_cases h3 : name = "ndcg"
  · subst h3
    exact params_cases ps _ (fun k q y rb => ndcg .retrieval srt y.1 y.2 k q (rb.getD false))
      (fun k q => samplewise_row .retrieval false (ndcgRow srt) k q fun y rb => ndcg_row ..) fun _ _ => rfl
  by_cases h4 : name = "mrr"
  · subst h4
    exact params_cases ps _ (fun k q y rb => mrr srt y.1 y.2 k q (rb.getD false))
      (fun k q => samplewise_rowE _ k q fun y rb => mrr_row ..) fun _ _ => rfl
  by_cases h5 : name = "map"
  · subst h5
    refine params_cases ps _ (fun k q y rb => map srt y.1 y.2 k q (methodParam ps) (rb.getD false)) ?_ fun _ _ => rfl
    intro k q
    by_cases hm : methodParam ps = .unknown
    · exact samplewise_error .assertion fun y rb => by simp [map, hm]
    · exact samplewise_rowE _ k q fun y rb => map_row _ _ _ _ _ _ hm _
  · exact samplewise_error .attribute fun y rb => by simp [h1, h2, h3, h4, h5, hn]

/-- the recommender metrics treat the samples one by one -/
theorem samplewise_recommender (srt : Argsort ℝ) (name : String) (ps : List (String × PVal)) :
    Samplewise (recommenderFun srt name ps) := by
  unfold recommenderFun
  by_cases h1 : name = "precision"
  · subst h1
    exact params_cases ps _ (fun k q y rb => precision .recommender srt y.1 y.2 k q (rb.getD false))
      (fun k q => samplewise_row .recommender true (precisionRow srt) k q fun y rb => precision_row ..) fun _ _ => rfl
  by_cases h2 : name = "recall"
  · subst h2
    exact params_cases ps _ (fun k q y rb => recall .recommender srt y.1 y.2 k q (rb.getD false))
      (fun k q => samplewise_row .recommender true (recallRow srt) k q fun y rb => recall_row ..) fun _ _ => rfl
  by_cases h3 : name = "ndcg"
  · subst h3
    exact params_cases ps _ (fun k q y rb => ndcg .recommender srt y.1 y.2 k q (rb.getD false))
      (fun k q => samplewise_row .recommender false (ndcgRow srt) k q fun y rb => ndcg_row ..) fun _ _ => rfl
  · exact params_cases ps ["k", "ratio"] (fun _ _ _ _ => .error .attribute)
      (fun _ _ => samplewise_error .attribute fun _ _ => rfl) fun y rb => by simp [h1, h2, h3]

end Metrics
end DHG
