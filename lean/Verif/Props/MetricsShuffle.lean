import Verif.Props.Evaluator
import Verif.Props.MetricsOrder

/-!
# The order in which the samples are evaluated does not matter (C131)
-/

set_option linter.unusedSectionVars false
set_option autoImplicit false

namespace DHG

open Metrics Utils

/-! ## Specification -/

namespace Spec

/-- a table of samples, marks and scores, as the two arguments of a metric; `w` items are ranked -/
def table (w : Nat) (S : List (List ℝ × List ℝ)) : Arr ℝ × Arr ℝ := (.d2 w (S.map Prod.fst), .d2 w (S.map Prod.snd))

end Spec

namespace Props

/-! ## Helper lemmas -/

theorem collectE_shuffle {α β : Type} {f : α → Except Err β} {l l' : List α} (hp : l.Perm l') {r : List β}
    (h : collectE l f = .ok r) :
    ∃ r', collectE l' f = .ok r' ∧ (l.zip r).Perm (l'.zip r') ∧ r.Perm r' := by
  induction hp generalizing r with
  | nil => exact ⟨r, h, .refl _, .refl _⟩
  | @cons a l l' _ ih =>
    have h' := collectE_ok_iff.mp h
    rcases h' with _ | ⟨ha, hl⟩
    rename_i b r
    obtain ⟨r', h1, h2, h3⟩ := ih (collectE_ok_iff.mpr hl)
    exact ⟨b :: r', collectE_ok_iff.mpr (.cons ha (collectE_ok_iff.mp h1)), h2.cons _, h3.cons _⟩
  | swap a c l =>
    have h' := collectE_ok_iff.mp h
    rcases h' with _ | ⟨ha, hl⟩
    rcases hl with _ | ⟨hc, hl⟩
    exact ⟨_, collectE_ok_iff.mpr (.cons hc (.cons ha hl)), .swap _ _ _, .swap _ _ _⟩
  | trans _ _ ih1 ih2 =>
    obtain ⟨r', h1, h2, h3⟩ := ih1 h
    obtain ⟨r'', h1', h2', h3'⟩ := ih2 h1
    exact ⟨r'', h1', h2.trans h2', h3.trans h3'⟩

theorem mean_shuffle {xs xs' : List (Option ℝ)} (h : xs.Perm xs') : Spec.mean xs = Spec.mean xs' := by
  unfold Spec.mean
  have h1 : (xs = [] ∨ none ∈ xs) ↔ (xs' = [] ∨ none ∈ xs') := by
    rw [h.mem_iff]
    refine or_congr ⟨fun e => ?_, fun e => ?_⟩ Iff.rfl
    · subst e; exact h.nil_eq.symm
    · subst e; exact h.eq_nil
  by_cases h0 : xs = [] ∨ none ∈ xs
  · rw [if_pos h0, if_pos (h1.1 h0)]
  · rw [if_neg h0, if_neg fun h2 => h0 (h1.2 h2)]
    unfold Spec.average
    rw [(h.map _).sum_eq, (h.map _).length_eq]

/-- treats a shuffled table as the table -/
structure Shuffles (f : Metric (Arr ℝ × Arr ℝ)) : Prop where
  values : ∀ (w : Nat) (S S' : List (List ℝ × List ℝ)) (xs : List (Option ℝ)), S.Perm S' →
    f (Spec.table w S) (some true) = .ok (.batch xs) →
    ∃ xs', f (Spec.table w S') (some true) = .ok (.batch xs') ∧ xs.length = S.length ∧ (S.zip xs).Perm (S'.zip xs')
  mean : ∀ (w : Nat) (S S' : List (List ℝ × List ℝ)) (o : Out ℝ), S.Perm S' →
    f (Spec.table w S) none = .ok o → f (Spec.table w S') none = .ok o

theorem shuffles_error {f : Metric (Arr ℝ × Arr ℝ)} (e : Err) (h : ∀ y rb, f y rb = .error e) : Shuffles f where
  values _ _ _ _ _ h1 := by rw [h] at h1; cases h1
  mean _ _ _ _ _ h1 := by rw [h] at h1; cases h1

theorem zipWith_table {β : Type} (F : List ℝ → List ℝ → β) (S : List (List ℝ × List ℝ)) :
    List.zipWith F (S.map Prod.fst) (S.map Prod.snd) = S.map fun p => F p.1 p.2 := by
  induction S with
  | nil => rfl
  | cons p S ih => simp [ih]

theorem zip_table (S : List (List ℝ × List ℝ)) : (S.map Prod.fst).zip (S.map Prod.snd) = S := by
  induction S with
  | nil => rfl
  | cons p S ih => simp [ih]

theorem zip_map_self {α β : Type} (F : α → β) (S : List α) : S.zip (S.map F) = S.map fun p => (p, F p) := by
  induction S with
  | nil => rfl
  | cons p S ih => simp [ih]

theorem shuffles_row (t : Task) (check : Bool) (row : Int → List ℝ → List ℝ → Option ℝ)
    (k : Option Int) (ratio : Option ℝ) {f : Metric (Arr ℝ × Arr ℝ)}
    (hf : ∀ y rb, f y rb = rowMetric t check row y.1 y.2 k ratio (rb.getD false)) : Shuffles f where
  values w S S' xs hp h := by
    rw [hf] at h
    obtain ⟨h1, h2, c, h3, h4⟩ := rowMetric_d2.1 h
    rw [zipWith_table] at h4
    cases h4
    refine ⟨S'.map fun p => row c p.1 p.2, ?_, by simp, ?_⟩
    · rw [hf]
      refine rowMetric_d2.2 ⟨by simp, fun hc => ?_, c, h3, by rw [zipWith_table]; rfl⟩
      rw [← h2 hc]
      exact check_perm ((hp.map _).flatten).symm
    · rw [zip_map_self, zip_map_self]
      exact hp.map _
  mean w S S' o hp h := by
    rw [hf] at h ⊢
    obtain ⟨h1, h2, c, h3, h4⟩ := rowMetric_d2.1 h
    refine rowMetric_d2.2 ⟨by simp, fun hc => ?_, c, h3, ?_⟩
    · rw [← h2 hc]
      exact check_perm ((hp.map _).flatten).symm
    · rw [h4, zipWith_table, zipWith_table]
      simp only [Option.getD_none, finish, Bool.false_eq_true, if_false, fmean_eq]
      rw [mean_shuffle (hp.map _)]

theorem shuffles_rowE (row : Int → List ℝ × List ℝ → Except Err (Option ℝ))
    (k : Option Int) (ratio : Option ℝ) {f : Metric (Arr ℝ × Arr ℝ)}
    (hf : ∀ y rb, f y rb = rowMetricE row y.1 y.2 k ratio (rb.getD false)) : Shuffles f where
  values w S S' xs hp h := by
    rw [hf] at h
    obtain ⟨h1, c, res, h3, h4, h5⟩ := rowMetricE_d2.1 h
    cases h5
    rw [zip_table] at h4
    obtain ⟨res', h6, h7, _⟩ := collectE_shuffle hp h4
    refine ⟨res', ?_, (collectE_ok_iff.mp h4).length_eq.symm, h7⟩
    rw [hf]
    exact rowMetricE_d2.2 ⟨by simp, c, res', h3, by rw [zip_table]; exact h6, rfl⟩
  mean w S S' o hp h := by
    rw [hf] at h ⊢
    obtain ⟨h1, c, res, h3, h4, h5⟩ := rowMetricE_d2.1 h
    rw [zip_table] at h4
    obtain ⟨res', h6, _, h7⟩ := collectE_shuffle hp h4
    refine rowMetricE_d2.2 ⟨by simp, c, res', h3, by rw [zip_table]; exact h6, ?_⟩
    rw [h5]
    simp only [Option.getD_none, finish, Bool.false_eq_true, if_false, fmean_eq]
    rw [mean_shuffle h7]

theorem shuffles_params (ps : List (String × PVal)) (keys : List String)
    (G : Option Int → Option ℝ → Metric (Arr ℝ × Arr ℝ)) (hG : ∀ k q, Shuffles (G k q))
    {f : Metric (Arr ℝ × Arr ℝ)}
    (hf : ∀ y rb, f y rb = (do
      let _ ← checkKeys ps keys
      let k ← intParam ps "k"
      let q ← ratioParam ps
      G k q y rb)) : Shuffles f := by
  rcases h1 : checkKeys ps keys with e | u
  · exact shuffles_error e fun y rb => by rw [hf, h1]; rfl
  · rcases h2 : intParam ps "k" with e | k
    · exact shuffles_error e fun y rb => by rw [hf, h1, h2]; rfl
    · rcases h3 : ratioParam ps with e | q
      · exact shuffles_error e fun y rb => by rw [hf, h1, h2, h3]; rfl
      · have : f = G k q := by
          funext y rb
          rw [hf, h1, h2, h3]; rfl
        rw [this]; exact hG k q

theorem shuffles_retrieval (srt : Argsort ℝ) (name : String) (ps : List (String × PVal))
    (hn : name ≠ "pr_curve") : Shuffles (retrievalFun srt name ps) := by
  unfold retrievalFun
  by_cases h1 : name = "precision"
  · subst h1
    exact shuffles_params ps _ (fun k q y rb => precision .retrieval srt y.1 y.2 k q (rb.getD false))
      (fun k q => shuffles_row .retrieval true (precisionRow srt) k q fun y rb => precision_row ..) fun _ _ => rfl
  by_cases h2 : name = "recall"
  · subst h2
    exact shuffles_params ps _ (fun k q y rb => recall .retrieval srt y.1 y.2 k q (rb.getD false))
      (fun k q => shuffles_row .retrieval true (recallRow srt) k q fun y rb => recall_row ..) fun _ _ => rfl
  by_cases h3 : name = "ndcg"
  · subst h3
    exact shuffles_params ps _ (fun k q y rb => ndcg .retrieval srt y.1 y.2 k q (rb.getD false))
      (fun k q => shuffles_row .retrieval false (ndcgRow srt) k q fun y rb => ndcg_row ..) fun _ _ => rfl
  by_cases h4 : name = "mrr"
  · subst h4
    exact shuffles_params ps _ (fun k q y rb => mrr srt y.1 y.2 k q (rb.getD false))
      (fun k q => shuffles_rowE _ k q fun y rb => mrr_row ..) fun _ _ => rfl
  by_cases h5 : name = "map"
  · subst h5
    refine shuffles_params ps _ (fun k q y rb => map srt y.1 y.2 k q (methodParam ps) (rb.getD false)) ?_ fun _ _ => rfl
    intro k q
    by_cases hm : methodParam ps = .unknown
    · exact shuffles_error .assertion fun y rb => by simp [map, hm]
    · exact shuffles_rowE _ k q fun y rb => map_row _ _ _ _ _ _ hm _
  · exact shuffles_error .attribute fun y rb => by simp [h1, h2, h3, h4, h5, hn]

theorem shuffles_recommender (srt : Argsort ℝ) (name : String) (ps : List (String × PVal)) :
    Shuffles (recommenderFun srt name ps) := by
  unfold recommenderFun
  by_cases h1 : name = "precision"
  · subst h1
    exact shuffles_params ps _ (fun k q y rb => precision .recommender srt y.1 y.2 k q (rb.getD false))
      (fun k q => shuffles_row .recommender true (precisionRow srt) k q fun y rb => precision_row ..) fun _ _ => rfl
  by_cases h2 : name = "recall"
  · subst h2
    exact shuffles_params ps _ (fun k q y rb => recall .recommender srt y.1 y.2 k q (rb.getD false))
      (fun k q => shuffles_row .recommender true (recallRow srt) k q fun y rb => recall_row ..) fun _ _ => rfl
  by_cases h3 : name = "ndcg"
  · subst h3
    exact shuffles_params ps _ (fun k q y rb => ndcg .recommender srt y.1 y.2 k q (rb.getD false))
      (fun k q => shuffles_row .recommender false (ndcgRow srt) k q fun y rb => ndcg_row ..) fun _ _ => rfl
  · exact shuffles_params ps ["k", "ratio"] (fun _ _ _ _ => .error .attribute)
      (fun _ _ => shuffles_error .attribute fun _ _ => rfl) fun y rb => by simp [h1, h2, h3]

theorem shuffles_perSample {srt : Argsort ℝ} {f : Metric (Arr ℝ × Arr ℝ)} (h : Spec.PerSample srt f) :
    Shuffles f := by
  rcases h with ⟨name, ps, hn, rfl⟩ | ⟨name, ps, rfl⟩
  · exact shuffles_retrieval srt name ps hn
  · exact shuffles_recommender srt name ps

theorem colMeans_shuffle {K : Type} [Field K] [LinearOrder K] {n : Nat} {l l' : List (List K)} (h : l.Perm l') :
    colMeans n l = colMeans n l' := by
  unfold colMeans
  by_cases h0 : l = []
  · rw [if_pos h0, if_pos (by subst h0; exact h.nil_eq.symm)]
  · rw [if_neg h0, if_neg fun h1 => h0 (by subst h1; exact h.eq_nil)]
    congr 1
    refine List.map_congr_left fun j _ => ?_
    rw [(h.map _).sum_eq, h.length_eq]

theorem batches_flat (bs : List (List (List ℝ × List ℝ))) (w : Nat) :
    Spec.table w bs.flatten
      = (.d2 w ((bs.map fun b => (b.map Prod.fst, b.map Prod.snd)).map Prod.fst).flatten,
         .d2 w ((bs.map fun b => (b.map Prod.fst, b.map Prod.snd)).map Prod.snd).flatten) := by
  unfold Spec.table
  simp only [List.map_map, List.map_flatten]
  rfl

/-! ## The property -/

/-- C131. Each sample keeps its value wherever it stands: with `ret_batch` a metric of a shuffled table
returns the same values, each at the new place of its sample. -/
theorem C131_values {srt : Argsort ℝ} {f : Metric (Arr ℝ × Arr ℝ)} (hf : Spec.PerSample srt f) (w : Nat)
    {S S' : List (List ℝ × List ℝ)} (hp : S.Perm S') {xs : List (Option ℝ)}
    (h : f (Spec.table w S) (some true) = .ok (.batch xs)) :
    ∃ xs', f (Spec.table w S') (some true) = .ok (.batch xs') ∧ xs.length = S.length ∧ xs'.length = S'.length ∧
      (S.zip xs).Perm (S'.zip xs') := by
  obtain ⟨xs', h1, h2, h3⟩ := (shuffles_perSample hf).values w S S' xs hp h
  obtain ⟨_, _, h4, _⟩ := (shuffles_perSample hf).values w S' S xs' hp.symm h1
  exact ⟨xs', h1, h2, h4, h3⟩

/-- C131. The mean of a metric over a shuffled table is the mean over the table; one is accepted exactly
if the other is. -/
theorem C131_mean {srt : Argsort ℝ} {f : Metric (Arr ℝ × Arr ℝ)} (hf : Spec.PerSample srt f) (w : Nat)
    {S S' : List (List ℝ × List ℝ)} (hp : S.Perm S') (o : Out ℝ) :
    f (Spec.table w S) none = .ok o ↔ f (Spec.table w S') none = .ok o :=
  ⟨(shuffles_perSample hf).mean w S S' o hp, (shuffles_perSample hf).mean w S' S o hp.symm⟩

/-- C131. So is the mean precision-recall curve. -/
theorem C131_mean_curve (srt : Argsort ℝ) (w : Nat) {S S' : List (List ℝ × List ℝ)} (hp : S.Perm S')
    (k : Option Int) (ratio : Option ℝ) (m : Method) (n : Int) (o : Out ℝ) :
    prCurve srt (Spec.table w S).1 (Spec.table w S).2 k ratio m n false = .ok o ↔
      prCurve srt (Spec.table w S').1 (Spec.table w S').2 k ratio m n false = .ok o := by
  have key : ∀ {S S' : List (List ℝ × List ℝ)}, S.Perm S' →
      prCurve srt (Spec.table w S).1 (Spec.table w S).2 k ratio m n false = .ok o →
      prCurve srt (Spec.table w S').1 (Spec.table w S').2 k ratio m n false = .ok o := by
    intro S S' hp h
    unfold prCurve at h ⊢
    by_cases hm : m = .unknown
    · rw [if_pos hm] at h; cases h
    rw [if_neg hm] at h ⊢
    have hf := fun S : List (List ℝ × List ℝ) =>
      format_d2 .retrieval w (S.map Prod.fst) (S.map Prod.snd) k ratio
    simp only [format, List.length_map, if_true] at hf
    unfold Spec.table at h ⊢
    simp only [hf] at h ⊢
    rcases hpl : placesE .retrieval w k ratio with e | c
    · rw [hpl] at h; cases h
    rw [hpl] at h
    simp only [Except.map, bind, Except.bind, zip_table] at h ⊢
    rcases hc : collectE S (fun p => prCurve1 srt p.1 p.2 m n) with e | cs
    · rw [hc] at h; cases h
    obtain ⟨cs', h1, _, h2⟩ := collectE_shuffle hp hc
    rw [hc] at h
    rw [h1]
    simp only at h ⊢
    rw [← colMeans_shuffle (h2.map Prod.fst), ← colMeans_shuffle (h2.map Prod.snd)]
    exact h
  exact ⟨key hp, key hp.symm⟩

/-- C131. Validation: two epochs over the same samples, shuffled and cut into batches in different ways,
have the same result, whatever the evaluator was used for before. -/
theorem C131_validate {srt : Argsort ℝ} {cfgs : List (String × Metric (Arr ℝ × Arr ℝ))} {v : Int}
    {e0 : Ev (Arr ℝ × Arr ℝ)} (hnew : Ev.new cfgs v = .ok e0) (hps : ∀ p ∈ cfgs, Spec.PerSample srt p.2)
    (h1 h1' : List (Ev.Op (Arr ℝ × Arr ℝ))) (hstart : Spec.ValidationStart e0 h1)
    (hstart' : Spec.ValidationStart e0 h1')
    (w : Nat) (bs bs' : List (List (List ℝ × List ℝ))) (hne : bs ≠ []) (hne' : bs' ≠ [])
    (hp : bs.flatten.Perm bs'.flatten)
    (hok : ∀ b ∈ bs, (Ev.validateAdd (Spec.table w b) e0).1 = .ok ())
    (hok' : ∀ b ∈ bs', (Ev.validateAdd (Spec.table w b) e0).1 = .ok ()) :
    ∃ x, (Ev.validateRes (e0.run (h1 ++ bs.map fun b => .validateAdd (Spec.table w b)))).1 = .ok x ∧
      (Ev.validateRes (e0.run (h1' ++ bs'.map fun b => .validateAdd (Spec.table w b)))).1 = .ok x := by
  have key : ∀ (h1 : List (Ev.Op (Arr ℝ × Arr ℝ))) (hstart : Spec.ValidationStart e0 h1)
      (bs : List (List (List ℝ × List ℝ))) (hne : bs ≠ [])
      (hok : ∀ b ∈ bs, (Ev.validateAdd (Spec.table w b) e0).1 = .ok ()),
      ∃ x, (Ev.validateRes (e0.run (h1 ++ bs.map fun b => .validateAdd (Spec.table w b)))).1 = .ok x ∧
        e0.validate (Spec.table w bs.flatten) = .ok (.mean x) := by
    intro h1 hstart bs hne hok
    have := C62_validate_partition hnew hps h1 hstart w (bs.map fun b => (b.map Prod.fst, b.map Prod.snd))
      (by simpa using hne) (by
        intro p hp
        obtain ⟨b, hb, rfl⟩ := List.mem_map.1 hp
        exact hok b hb)
    rw [← batches_flat, List.map_map] at this
    exact this
  obtain ⟨x, hx, hx'⟩ := key h1 hstart bs hne hok
  obtain ⟨y, hy, hy'⟩ := key h1' hstart' bs' hne' hok'
  have hv : ∃ p ∈ cfgs, ∀ y, e0.validate y = p.2 y none := by
    have hnew' := hnew
    unfold Ev.new at hnew
    split at hnew
    · rename_i h
      have hlt : v.toNat < cfgs.length := by omega
      have hget : cfgs[v.toNat]? = some (cfgs[v.toNat].1, cfgs[v.toNat].2) := List.getElem?_eq_getElem hlt
      refine ⟨cfgs[v.toNat], List.getElem_mem hlt, fun y => ?_⟩
      unfold Ev.validate
      rw [vfun_new hnew' hget]
    · cases hnew
  obtain ⟨p, hpm, hv⟩ := hv
  rw [hv] at hx' hy'
  have := (C131_mean (hps p hpm) w hp (.mean x)).1 hx'
  rw [hy'] at this
  cases this
  exact ⟨x, hx, hy⟩

/-- C131. Testing a whole table: the dictionary of a shuffled table is the dictionary of the table. -/
theorem C131_test {srt : Argsort ℝ} {cfgs : List (String × Metric (Arr ℝ × Arr ℝ))} {v : Int}
    {e0 : Ev (Arr ℝ × Arr ℝ)} (hnew : Ev.new cfgs v = .ok e0) (hps : ∀ p ∈ cfgs, Spec.PerSample srt p.2)
    (w : Nat) {S S' : List (List ℝ × List ℝ)} (hp : S.Perm S') (d : Dict String (Out ℝ)) :
    e0.test (Spec.table w S) = .ok d ↔ e0.test (Spec.table w S') = .ok d := by
  obtain ⟨_, _, _, hn4, hn5⟩ := vres_new hnew
  have hzip : e0.markers.zip e0.funcs = cfgs := by
    rw [hn4, hn5, List.zip_map']
    simp
  have key : ∀ {S S' : List (List ℝ × List ℝ)}, S.Perm S' →
      e0.test (Spec.table w S) = .ok d → e0.test (Spec.table w S') = .ok d := by
    intro S S' hp h
    unfold Ev.test at h ⊢
    rw [hzip] at h ⊢
    rcases hc : collectE cfgs (fun p => (p.2 (Spec.table w S) none).map fun o => (p.1, o)) with e | l
    · rw [hc] at h; cases h
    have hc' : collectE cfgs (fun p => (p.2 (Spec.table w S') none).map fun o => (p.1, o)) = .ok l := by
      rw [collectE_ok_iff] at hc ⊢
      clear h
      have hps' := hps
      clear hps hzip hn4 hn5 hnew
      induction hc with
      | nil => exact .nil
      | @cons c o cs os h1 _ ih =>
        refine .cons ?_ (ih fun p hp => hps' p (List.mem_cons_of_mem _ hp))
        rcases hx : c.2 (Spec.table w S) none with e | x
        · rw [hx] at h1; cases h1
        rw [(C131_mean (hps' c List.mem_cons_self) w hp x).1 hx, ← hx]
        exact h1
    rw [hc'] at *
    rw [hc] at h
    exact h
  exact ⟨key hp, key hp.symm⟩

/-- C131. Test epochs: two epochs over the same samples, shuffled and cut into batches in different ways,
have the same value under each marker. -/
theorem C131_test_epoch {srt : Argsort ℝ} {cfgs : List (String × Metric (Arr ℝ × Arr ℝ))} {v : Int}
    {e0 : Ev (Arr ℝ × Arr ℝ)} (hnew : Ev.new cfgs v = .ok e0) (hnd : (cfgs.map Prod.fst).Nodup)
    (hps : ∀ p ∈ cfgs, Spec.PerSample srt p.2)
    (h1 h1' : List (Ev.Op (Arr ℝ × Arr ℝ))) (hstart : Spec.TestStart e0 h1) (hstart' : Spec.TestStart e0 h1')
    (w : Nat) (bs bs' : List (List (List ℝ × List ℝ))) (hne : bs ≠ []) (hne' : bs' ≠ [])
    (hp : bs.flatten.Perm bs'.flatten)
    (hok : ∀ b ∈ bs, ∀ c ∈ cfgs, ∃ o, c.2 (Spec.table w b) (some true) = .ok o)
    (hok' : ∀ b ∈ bs', ∀ c ∈ cfgs, ∃ o, c.2 (Spec.table w b) (some true) = .ok o) :
    ∃ (r r' : Nat) (e e' : Ev (Arr ℝ × Arr ℝ)),
      Ev.testRes (e0.run (h1 ++ bs.map fun b => .testAdd (Spec.table w b))) = (.ok r, e) ∧
      Ev.testRes (e0.run (h1' ++ bs'.map fun b => .testAdd (Spec.table w b))) = (.ok r', e') ∧
      ∀ name ∈ cfgs.map Prod.fst, ∃ x, Dict.get? (e.look r) name = some (.num x) ∧
        Dict.get? (e'.look r') name = some (.num x) := by
  have key : ∀ (h1 : List (Ev.Op (Arr ℝ × Arr ℝ))) (_ : Spec.TestStart e0 h1)
      (bs : List (List (List ℝ × List ℝ))) (_ : bs ≠ [])
      (_ : ∀ b ∈ bs, ∀ c ∈ cfgs, ∃ o, c.2 (Spec.table w b) (some true) = .ok o),
      ∃ (ref : Nat) (d : Dict String (Out ℝ)) (e' : Ev (Arr ℝ × Arr ℝ)),
        Ev.testRes (e0.run (h1 ++ bs.map fun b => .testAdd (Spec.table w b))) = (.ok ref, e') ∧
        e0.test (Spec.table w bs.flatten) = .ok d ∧
        ∀ name ∈ cfgs.map Prod.fst, ∃ x, Dict.get? (e'.look ref) name = some (.num x) ∧
          Dict.get? d name = some (.mean x) := by
    intro h1 hstart bs hne hok
    have := C62_test_partition hnew hnd hps h1 hstart w (bs.map fun b => (b.map Prod.fst, b.map Prod.snd))
      (by simpa using hne) (by
        intro p hp
        obtain ⟨b, hb, rfl⟩ := List.mem_map.1 hp
        exact hok b hb)
    rw [← batches_flat, List.map_map] at this
    exact this
  obtain ⟨r, d, e, g1, g2, g3⟩ := key h1 hstart bs hne hok
  obtain ⟨r', d', e', g1', g2', g3'⟩ := key h1' hstart' bs' hne' hok'
  have := (C131_test hnew hps w hp d).1 g2
  rw [g2'] at this
  cases this
  refine ⟨r, r', e, e', g1, g1', fun name hname => ?_⟩
  obtain ⟨x, hx, hx'⟩ := g3 name hname
  obtain ⟨y, hy, hy'⟩ := g3' name hname
  rw [hx'] at hy'
  cases hy'
  exact ⟨x, hx, hy⟩

/-! ## Cases that meet the hypotheses -/

/-- two samples, one with the relevant item first and one with it second, in both orders -/
example (srt : Argsort ℝ) (hs : Spec.SortsDesc srt) :
    let S : List (List ℝ × List ℝ) := [([1, 0], [2, 1]), ([1, 0], [1, 2])]
    Spec.PerSample srt (retrievalFun srt "precision" exK1) ∧ S.Perm S.reverse ∧ S ≠ S.reverse ∧
    retrievalFun srt "precision" exK1 (Spec.table 2 S) (some true) = .ok (.batch [some 1, some 0]) := by
  refine ⟨.inl ⟨"precision", exK1, by decide, rfl⟩, (List.reverse_perm _).symm, ?_, ?_⟩
  · simp
  · exact (perSample_samplewise (.inl ⟨"precision", exK1, by decide, rfl⟩ :
      Spec.PerSample srt (retrievalFun srt "precision" exK1))).append 2 [[1, 0]] [[2, 1]] [[1, 0]] [[1, 2]]
      _ _ (exHit_precision hs) (exMiss_precision hs)

/-- one epoch in two batches, another in one: the hypotheses of `C131_validate` and `C131_test_epoch` -/
example (srt : Argsort ℝ) (hs : Spec.SortsDesc srt) :
    let bs : List (List (List ℝ × List ℝ)) := [[([1, 0], [2, 1])], [([1, 0], [1, 2])]]
    let bs' : List (List (List ℝ × List ℝ)) := [[([1, 0], [1, 2]), ([1, 0], [2, 1])]]
    bs.flatten.Perm bs'.flatten ∧
    (∀ b ∈ bs, ∃ o, retrievalFun srt "precision" exK1 (Spec.table 2 b) (some true) = .ok o) ∧
    (∀ b ∈ bs', ∃ o, retrievalFun srt "precision" exK1 (Spec.table 2 b) (some true) = .ok o) := by
  refine ⟨List.Perm.swap _ _ _, ?_, ?_⟩
  · intro b hb
    simp only [List.mem_cons, List.not_mem_nil, or_false] at hb
    rcases hb with rfl | rfl
    · exact ⟨_, exHit_precision hs⟩
    · exact ⟨_, exMiss_precision hs⟩
  · intro b hb
    obtain rfl := List.mem_singleton.1 hb
    exact ⟨_, (perSample_samplewise (.inl ⟨"precision", exK1, by decide, rfl⟩ :
      Spec.PerSample srt (retrievalFun srt "precision" exK1))).append 2 [[1, 0]] [[1, 2]] [[1, 0]] [[2, 1]]
      _ _ (exMiss_precision hs) (exHit_precision hs)⟩

end Props
end DHG
