import Mathlib.Tactic.NormNum
import Std.Data.String.ToInt
import Verif.BuildEval
import Verif.Props.Evaluator

/-!
# Properties of `build_evaluator` (C59)
-/

set_option linter.unusedSectionVars false
set_option autoImplicit false

namespace DHG
open Metrics Utils

namespace Spec

/-- the tasks named in the documentation of `build_evaluator` -/
def evTasks : List String :=
  ["graph_vertex_classification", "hypergraph_vertex_classification", "user_item_recommender"]

/-- the metrics documented for a task -/
def evMetrics (task : String) : List String :=
  if task = "user_item_recommender" then ["precision", "recall", "ndcg"]
  else ["accuracy", "f1_score", "confusion_matrix"]

/-- the configuration `c` asks for the metric `s` with parameters `ps`: the name alone, or a dictionary with
the name as its only key -/
inductive Asks : Config → String → List (String × PVal) → Prop
  | plain (s : String) : Asks (.name s) s []
  | params (s : String) (ps : List (String × PVal)) : Asks (.dict [(s, ps)]) s ps

/-- the value of a classification metric without parameters -/
noncomputable def clsMetric (f1 : List Int → List Int → List (String × PVal) → Except Err ℝ) (s : String)
    (y : Option (List Int) × Pred ℝ) : Except Err (Out ℝ) :=
  if s = "accuracy" then (accuracy y.1 y.2).map .mean
  else if s = "confusion_matrix" then (confusionMatrix y.1 y.2).map .table
  else (formatCls y.1 y.2).bind fun r => (f1 r.1 r.2 []).map fun x => .mean (some x)

/-- a recommender metric at `k` -/
noncomputable def recMetric (srt : Argsort ℝ) (s : String) (k : Int) (y : Arr ℝ × Arr ℝ) : Except Err (Out ℝ) :=
  if s = "precision" then precision .recommender srt y.1 y.2 (some k) none false
  else if s = "recall" then recall .recommender srt y.1 y.2 (some k) none false
  else ndcg .recommender srt y.1 y.2 (some k) none false

/-- the configuration `{s: {"k": k}}` -/
def atK (p : String × Int) : Config := .dict [(p.1, [("k", .int p.2)])]

/-- the name under which `test` reports it, e.g. `"ndcg -> k@10"` -/
def nameAtK (p : String × Int) : String := p.1 ++ " -> k@" ++ toString p.2

end Spec

namespace Props

section
variable {I : Type}

theorem formatOne_ok_iff {avail : List String} {g : String → List (String × PVal) → Metric I} {c : Config}
    {r : String × Metric I} (h : formatOne avail g c = .ok r) :
    ∃ s ps, Spec.Asks c s ps ∧ s ∈ avail ∧ r.2 = g s ps ∧ (ps = [] → c = .name s → r.1 = s) := by
  unfold formatOne at h
  split at h
  · split at h
    · cases h; exact ⟨_, _, .plain _, by assumption, rfl, fun _ _ => rfl⟩
    · cases h
  · split at h
    · cases h; exact ⟨_, _, .params _ _, by assumption, rfl, fun _ hc => by cases hc⟩
    · cases h
  · cases h
  · cases h

theorem formatOne_asks {avail : List String} {g : String → List (String × PVal) → Metric I} {c : Config}
    {s : String} {ps : List (String × PVal)} (h : Spec.Asks c s ps) (hs : s ∈ avail) :
    ∃ m, formatOne avail g c = .ok (m, g s ps) := by
  cases h with
  | plain => exact ⟨_, by simp only [formatOne, if_pos hs]; rfl⟩
  | params => exact ⟨_, by simp only [formatOne, if_pos hs]; rfl⟩

theorem asks_unique {c : Config} {s s' : String} {ps ps' : List (String × PVal)} (h : Spec.Asks c s ps)
    (h' : Spec.Asks c s' ps') : s = s' ∧ ps = ps' := by
  cases h <;> cases h' <;> exact ⟨rfl, rfl⟩

/-- what `format_metric_configs` and the constructor accept, and the evaluator they give -/
theorem make_iff {task : String} {avail : List String} (ha : available task = some avail)
    (g : String → List (String × PVal) → Metric I) (cfgs : List Config) (v : Int) :
    (∃ e, ((formatConfigs task g cfgs).bind fun l => Ev.new l v) = .ok e)
      ↔ (∀ c ∈ cfgs, ∃ s ps, Spec.Asks c s ps ∧ s ∈ avail) ∧ 0 ≤ v ∧ v < cfgs.length := by
  simp only [formatConfigs, ha]
  constructor
  · rintro ⟨e, he⟩
    rcases hc : collectE cfgs (formatOne avail g) with er | l
    · rw [hc] at he; cases he
    · rw [hc] at he
      have h2 := collectE_ok_iff.mp hc
      have he' : Ev.new l v = .ok e := he
      unfold Ev.new at he'
      split at he'
      · rename_i hv
        refine ⟨fun c hc' => ?_, hv.1, by rw [h2.length_eq]; exact hv.2⟩
        obtain ⟨i, hi, rfl⟩ := List.mem_iff_getElem.mp hc'
        have hi' : i < l.length := by rw [← h2.length_eq]; exact hi
        have h3 := (List.forall₂_iff_get.mp h2).2 i hi hi'
        obtain ⟨s, ps, h4, h5, _⟩ := formatOne_ok_iff h3
        exact ⟨s, ps, h4, h5⟩
      · cases he'
  · rintro ⟨hall, hv⟩
    have : ∃ l, collectE cfgs (formatOne avail g) = .ok l := by
      clear hv
      induction cfgs with
      | nil => exact ⟨[], rfl⟩
      | cons c cs ih =>
        obtain ⟨l, hl⟩ := ih fun c hc => hall c (List.mem_cons_of_mem _ hc)
        obtain ⟨s, ps, h1, h2⟩ := hall c List.mem_cons_self
        obtain ⟨m, hm⟩ := formatOne_asks (g := g) h1 h2
        exact ⟨(m, g s ps) :: l, collectE_ok_iff.mpr (.cons hm (collectE_ok_iff.mp hl))⟩
    obtain ⟨l, hl⟩ := this
    have hlen := (collectE_ok_iff.mp hl).length_eq
    rw [hl]
    have hn : ∃ e, Ev.new l v = .ok e := by
      unfold Ev.new
      rw [if_pos (by rw [← hlen]; exact hv)]
      exact ⟨_, rfl⟩
    exact hn

/-- the evaluator made from configurations validates with the metric asked for at the chosen place -/
theorem make_validate {task : String} {avail : List String} (ha : available task = some avail)
    {g : String → List (String × PVal) → Metric I} {cfgs : List Config} {v : Nat} {e : Ev I}
    (he : ((formatConfigs task g cfgs).bind fun l => Ev.new l v) = .ok e)
    {c : Config} (hc : cfgs[v]? = some c) {s : String} {ps : List (String × PVal)} (ha' : Spec.Asks c s ps)
    (x : I) : e.validate x = g s ps x none := by
  simp only [formatConfigs, ha] at he
  rcases hl : collectE cfgs (formatOne avail g) with er | l
  · rw [hl] at he; cases he
  · rw [hl] at he
    have h2 := collectE_ok_iff.mp hl
    obtain ⟨hi, hci⟩ := List.getElem?_eq_some_iff.mp hc
    have hi' : v < l.length := by rw [← h2.length_eq]; exact hi
    have h3 := (List.forall₂_iff_get.mp h2).2 v hi hi'
    simp only [List.get_eq_getElem, hci] at h3
    obtain ⟨s', ps', h4, _, h5, _⟩ := formatOne_ok_iff h3
    obtain ⟨rfl, rfl⟩ := asks_unique ha' h4
    have := vfun_new (cfgs := l) (v := (v : Int)) he (name := (l[v]).1) (f := (l[v]).2)
      (by simp [List.getElem?_eq_getElem hi'])
    simp only [Ev.validate, this, h5]

/-- the evaluator made from names tests every metric under its name -/
theorem make_test {task : String} {avail : List String} (ha : available task = some avail)
    {g : String → List (String × PVal) → Metric I} {names : List String} {v : Int} {e : Ev I}
    (he : ((formatConfigs task g (names.map Config.name)).bind fun l => Ev.new l v) = .ok e) :
    e.markers.zip e.funcs = names.map fun s => (s, g s []) := by
  simp only [formatConfigs, ha] at he
  rcases hl : collectE (names.map Config.name) (formatOne avail g) with er | l
  · rw [hl] at he; cases he
  · rw [hl] at he
    have h2 := collectE_ok_iff.mp hl
    have hl' : l = names.map fun s => (s, g s []) := by
      rw [List.forall₂_map_left_iff] at h2
      clear hl he
      induction h2 with
      | nil => rfl
      | cons h _ ih =>
        rw [List.map_cons, ih]
        unfold formatOne at h
        dsimp only at h
        split at h
        · cases h; rfl
        · cases h
    obtain ⟨_, _, _, hn4, hn5⟩ := vres_new (show Ev.new l v = .ok e from he)
    rw [hn4, hn5, List.zip_map', hl']
    simp

theorem foldl_set_new {ν : Type} (l : List (String × ν)) (d : Dict String ν)
    (hnd : (l.map Prod.fst).Nodup) (hd : ∀ p ∈ l, p.1 ∉ d.map Prod.fst) :
    l.foldl (fun d p => Dict.set d p.1 p.2) d = d ++ l := by
  induction l generalizing d with
  | nil => simp
  | cons p l ih =>
    have hp := hd p List.mem_cons_self
    have hset : Dict.set d p.1 p.2 = d ++ [p] := by
      clear ih hnd hd
      induction d with
      | nil => rfl
      | cons q d ihd =>
        simp only [List.map_cons, List.mem_cons, not_or] at hp
        have := ihd hp.2
        simp only [Dict.set] at this ⊢
        rw [if_neg (fun h => hp.1 h.symm), this]
        rfl
    simp only [List.map_cons, List.nodup_cons] at hnd
    rw [List.foldl_cons, hset, ih _ hnd.2, List.append_assoc]
    · rfl
    · intro q hq hm
      simp only [List.map_append, List.map_cons, List.map_nil, List.mem_append, List.mem_singleton] at hm
      rcases hm with hm | hm
      · exact hd q (List.mem_cons_of_mem _ hq) hm
      · exact hnd.1 (List.mem_map.mpr ⟨q, hq, hm⟩)

end

variable {f1 : List Int → List Int → List (String × PVal) → Except Err ℝ} {srt : Argsort ℝ}

theorem build_cls (task : String) (ht : task ∈ Spec.evTasks) (hr : task ≠ "user_item_recommender")
    (cfgs : List Config) (v : Int) :
    (∃ k : Ev ClsIn → AnyEv, (k = .graphCls ∨ k = .hypergraphCls) ∧
      buildEvaluator f1 srt task cfgs v = (clsEvaluator f1 cfgs v).map k) := by
  unfold buildEvaluator
  by_cases h1 : task = "graph_vertex_classification"
  · exact ⟨_, .inl rfl, if_pos h1⟩
  · by_cases h2 : task = "hypergraph_vertex_classification"
    · exact ⟨_, .inr rfl, by rw [if_neg h1, if_pos h2]⟩
    · simp [Spec.evTasks, h1, h2, hr] at ht

theorem build_rec (cfgs : List Config) (v : Int) :
    buildEvaluator f1 srt "user_item_recommender" cfgs v = (recEvaluator srt cfgs v).map .recommender := by
  unfold buildEvaluator
  rw [if_neg (by decide), if_neg (by decide), if_pos rfl]

/-- C59. For the documented tasks an evaluator is built exactly if every configuration asks for a metric of
the task, by name or by a dictionary with one key, and the index is that of a configuration. -/
theorem C59_accepts (task : String) (ht : task ∈ Spec.evTasks) (cfgs : List Config) (v : Int) :
    (∃ e, buildEvaluator f1 srt task cfgs v = .ok e)
      ↔ (∀ c ∈ cfgs, ∃ s ps, Spec.Asks c s ps ∧ s ∈ Spec.evMetrics task) ∧ 0 ≤ v ∧ v < cfgs.length := by
  by_cases hr : task = "user_item_recommender"
  · subst hr
    rw [build_rec]
    have := make_iff (task := "recommender") (avail := ["precision", "recall", "ndcg"]) rfl
      (recommenderFun srt) cfgs v
    simp only [Spec.evMetrics, if_pos]
    rw [← this]
    show (∃ e, (recEvaluator srt cfgs v).map AnyEv.recommender = .ok e) ↔ ∃ e, recEvaluator srt cfgs v = .ok e
    rcases recEvaluator srt cfgs v with er | e <;> simp [Except.map]
  · obtain ⟨k, _, hk⟩ := build_cls (f1 := f1) (srt := srt) task ht hr cfgs v
    rw [hk]
    have := make_iff (task := "classification") (avail := ["accuracy", "f1_score", "confusion_matrix"]) rfl
      (classificationFun f1) cfgs v
    simp only [Spec.evMetrics, if_neg hr]
    rw [← this]
    show (∃ e, (clsEvaluator f1 cfgs v).map k = .ok e) ↔ ∃ e, clsEvaluator f1 cfgs v = .ok e
    rcases clsEvaluator f1 cfgs v with er | e <;> simp [Except.map]

/-- C59. Other task names are refused with `ValueError`, whatever the configurations. -/
theorem C59_unknown_task (task : String) (ht : task ∉ Spec.evTasks) (cfgs : List Config) (v : Int) :
    buildEvaluator f1 srt task cfgs v = .error .value := by
  simp only [Spec.evTasks, List.mem_cons, List.not_mem_nil, or_false, not_or] at ht
  unfold buildEvaluator
  rw [if_neg ht.1, if_neg ht.2.1, if_neg ht.2.2]

/-- C59. A classification evaluator validates with the metric asked for by the configuration with the
chosen index. -/
theorem C59_validate_classification (task : String) (ht : task ∈ Spec.evTasks)
    (hr : task ≠ "user_item_recommender") {cfgs : List Config} {v : Nat} {e : AnyEv}
    (he : buildEvaluator f1 srt task cfgs v = .ok e) {c : Config} (hc : cfgs[v]? = some c) {s : String}
    (ha : Spec.Asks c s []) (y : Option (List Int) × Pred ℝ) :
    e.validateCls y = Spec.clsMetric f1 s y := by
  have hs : s ∈ Spec.evMetrics task := by
    obtain ⟨h1, _⟩ := (C59_accepts task ht cfgs v).mp ⟨e, he⟩
    obtain ⟨s', ps', h2, h3⟩ := h1 c (List.mem_of_getElem? hc)
    rw [(asks_unique ha h2).1]; exact h3
  obtain ⟨k, hk, hb⟩ := build_cls (f1 := f1) (srt := srt) task ht hr cfgs v
  rw [hb] at he
  rcases hcl : clsEvaluator f1 cfgs v with er | e'
  · rw [hcl] at he; cases he
  · rw [hcl] at he
    have hv := make_validate (task := "classification") rfl hcl hc ha y
    have : e.validateCls y = e'.validate y := by
      cases he; rcases hk with rfl | rfl <;> rfl
    rw [this, hv]
    simp only [Spec.evMetrics, if_neg hr, List.mem_cons, List.not_mem_nil, or_false] at hs
    rcases hs with rfl | rfl | rfl
    · simp only [classificationFun, Spec.clsMetric, if_pos, checkKeys, List.all_nil]
      rcases accuracy y.1 y.2 with er | x <;> rfl
    · simp only [classificationFun, Spec.clsMetric, checkKeys, List.all_nil, if_pos]
      rw [if_neg (by decide), if_neg (by decide)]
      rcases formatCls y.1 y.2 with er | r
      · rfl
      · rcases h : f1 r.1 r.2 [] with er | x <;> simp [bind, Except.bind, Except.map, h]
    · simp only [classificationFun, Spec.clsMetric, checkKeys, List.all_nil, if_pos]
      rw [if_neg (by decide)]
      rcases confusionMatrix y.1 y.2 with er | x <;> rfl

/-- C59. With distinct metrics given by name, `test` of a classification evaluator returns exactly these
names, in this order, each with the value of its metric; it raises if one of them does. -/
theorem C59_test_classification (task : String) (ht : task ∈ Spec.evTasks)
    (hr : task ≠ "user_item_recommender") {names : List String} (hnd : names.Nodup) {v : Nat} {e : AnyEv}
    (he : buildEvaluator f1 srt task (names.map Config.name) v = .ok e)
    (y : Option (List Int) × Pred ℝ) (d : Dict String (Out ℝ)) :
    e.testCls y = .ok d
      ↔ d.map Prod.fst = names ∧ ∀ p ∈ d, Spec.clsMetric f1 p.1 y = .ok p.2 := by
  have hs : ∀ s ∈ names, classificationFun f1 s [] y none = Spec.clsMetric f1 s y := by
    intro s hs
    obtain ⟨h1, _⟩ := (C59_accepts task ht _ v).mp ⟨e, he⟩
    obtain ⟨s', ps', h2, h3⟩ := h1 (.name s) (List.mem_map.mpr ⟨s, hs, rfl⟩)
    rw [← (asks_unique (.plain s) h2).1] at h3
    simp only [Spec.evMetrics, if_neg hr, List.mem_cons, List.not_mem_nil, or_false] at h3
    rcases h3 with rfl | rfl | rfl
    · simp only [classificationFun, Spec.clsMetric, if_pos, checkKeys, List.all_nil]
      rcases accuracy y.1 y.2 with er | x <;> rfl
    · simp only [classificationFun, Spec.clsMetric, checkKeys, List.all_nil, if_pos]
      rw [if_neg (by decide), if_neg (by decide)]
      rcases formatCls y.1 y.2 with er | r
      · rfl
      · rcases h : f1 r.1 r.2 [] with er | x <;> simp [bind, Except.bind, Except.map, h]
    · simp only [classificationFun, Spec.clsMetric, checkKeys, List.all_nil, if_pos]
      rw [if_neg (by decide)]
      rcases confusionMatrix y.1 y.2 with er | x <;> rfl
  obtain ⟨k, hk, hb⟩ := build_cls (f1 := f1) (srt := srt) task ht hr (names.map Config.name) v
  rw [hb] at he
  rcases hcl : clsEvaluator f1 (names.map Config.name) v with er | e'
  · rw [hcl] at he; cases he
  · rw [hcl] at he
    have hz := make_test (task := "classification") rfl hcl
    have : e.testCls y = e'.test y := by
      cases he; rcases hk with rfl | rfl <;> rfl
    rw [this]
    unfold Ev.test
    rw [hz]
    have key : ∀ l : List (String × Out ℝ),
        collectE (names.map fun s => (s, classificationFun f1 s []))
          (fun p => (p.2 y none).map fun o => (p.1, o)) = .ok l
        ↔ l.map Prod.fst = names ∧ ∀ p ∈ l, Spec.clsMetric f1 p.1 y = .ok p.2 := by
      intro l
      rw [collectE_ok_iff, List.forall₂_map_left_iff]
      clear hz this hcl he hb hnd
      induction names generalizing l with
      | nil => cases l <;> simp
      | cons s names ih =>
        cases l with
        | nil => simp
        | cons p l =>
          rw [List.forall₂_cons, ih (fun s hs' => hs s (List.mem_cons_of_mem _ hs')) l]
          dsimp only
          rw [hs s List.mem_cons_self]
          obtain ⟨q, o⟩ := p
          simp only [List.map_cons, List.cons.injEq, List.forall_mem_cons]
          constructor
          · rintro ⟨h1, h2, h3⟩
            rcases hm : Spec.clsMetric f1 s y with er | o'
            · rw [hm] at h1; cases h1
            · rw [hm] at h1; cases h1; exact ⟨⟨rfl, h2⟩, hm, h3⟩
          · rintro ⟨⟨rfl, h2⟩, h1, h3⟩
            rw [h1]; exact ⟨rfl, h2, h3⟩
    rcases hc : collectE (names.map fun s => (s, classificationFun f1 s []))
          (fun p => (p.2 y none).map fun o => (p.1, o)) with er | l
    · constructor
      · intro h; cases h
      · intro h; rw [(key d).mpr h] at hc; cases hc
    · have hl := (key l).mp hc
      have hfold := foldl_set_new l [] (by rw [hl.1]; exact hnd) (by simp)
      show (Except.ok (l.foldl (fun d p => Dict.set d p.1 p.2) []) : Except Err _) = .ok d ↔ _
      rw [hfold]
      constructor
      · intro h; cases h; exact hl
      · intro h
        have := (key d).mpr h
        rw [hc] at this
        cases this; rfl

/-- C59. The recommender evaluator validates with the metric asked for by the configuration with the chosen
index, here precision, recall or ndcg at `k`. -/
theorem C59_validate_recommender {cfgs : List Config} {v : Nat} {e : AnyEv}
    (he : buildEvaluator f1 srt "user_item_recommender" cfgs v = .ok e) :
    ∃ e', e = .recommender e' ∧ ∀ (k : Int) (y : Arr ℝ × Arr ℝ),
      (cfgs[v]? = some (.dict [("precision", [("k", .int k)])]) →
        e'.validate y = precision .recommender srt y.1 y.2 (some k) none false) ∧
      (cfgs[v]? = some (.dict [("recall", [("k", .int k)])]) →
        e'.validate y = recall .recommender srt y.1 y.2 (some k) none false) ∧
      (cfgs[v]? = some (.dict [("ndcg", [("k", .int k)])]) →
        e'.validate y = ndcg .recommender srt y.1 y.2 (some k) none false) := by
  rw [build_rec] at he
  rcases hcl : recEvaluator srt cfgs v with er | e'
  · rw [hcl] at he; cases he
  · rw [hcl] at he; cases he
    refine ⟨e', rfl, fun k y => ⟨fun h => ?_, fun h => ?_, fun h => ?_⟩⟩ <;>
    · rw [make_validate (task := "recommender") rfl hcl h (.params _ _) y]
      simp [recommenderFun, checkKeys, intParam, ratioParam, Dict.get?, bind, Except.bind]

/-- C59. A parameter that the metric does not have is noticed when the metric is computed, for any
labels and predictions: `TypeError`.  (Building the evaluator accepts it, by `C59_accepts`.)  Recommender
metrics have the parameters `k` and `ratio`, `f1_score` has `average`, the others have none. -/
theorem C59_unknown_parameter {cfgs : List Config} {v : Nat} {s : String} {ps : List (String × PVal)}
    (hc : cfgs[v]? = some (.dict [(s, ps)])) :
    (∀ e, buildEvaluator f1 srt "user_item_recommender" cfgs v = .ok (.recommender e) →
      (∃ p ∈ ps, p.1 ≠ "k" ∧ p.1 ≠ "ratio") → ∀ y, e.validate y = .error .type) ∧
    (∀ task ∈ Spec.evTasks, task ≠ "user_item_recommender" →
      ∀ e, buildEvaluator f1 srt task cfgs v = .ok e →
      (∃ p ∈ ps, s = "f1_score" → p.1 ≠ "average") → ∀ y, e.validateCls y = .error .type) := by
  have hbad : ∀ keys : List String, (∃ p ∈ ps, p.1 ∉ keys) → checkKeys ps keys = .error .type := by
    rintro keys ⟨p, hp, hk⟩
    unfold checkKeys
    rw [if_neg]
    intro h
    rw [List.all_eq_true] at h
    exact hk (of_decide_eq_true (h p hp))
  constructor
  · rintro e he ⟨p, hp, h1, h2⟩ y
    rw [build_rec] at he
    rcases hcl : recEvaluator srt cfgs v with er | e'
    · rw [hcl] at he; cases he
    · rw [hcl] at he; cases he
      rw [make_validate (task := "recommender") rfl hcl hc (.params _ _) y]
      unfold recommenderFun
      rw [hbad _ ⟨p, hp, by simp [h1, h2]⟩]
      rfl
  · rintro task ht hr e he ⟨p, hp, h1⟩ y
    have hs : s ∈ Spec.evMetrics task := by
      obtain ⟨h1, _⟩ := (C59_accepts task ht cfgs v).mp ⟨e, he⟩
      obtain ⟨s', ps', h2, h3⟩ := h1 _ (List.mem_of_getElem? hc)
      rw [(asks_unique (.params _ _) h2).1]; exact h3
    obtain ⟨k, hk, hb⟩ := build_cls (f1 := f1) (srt := srt) task ht hr cfgs v
    rw [hb] at he
    rcases hcl : clsEvaluator f1 cfgs v with er | e'
    · rw [hcl] at he; cases he
    · rw [hcl] at he
      have hv := make_validate (task := "classification") rfl hcl hc (.params _ _) y
      have : e.validateCls y = e'.validate y := by
        cases he; rcases hk with rfl | rfl <;> rfl
      rw [this, hv]
      simp only [Spec.evMetrics, if_neg hr, List.mem_cons, List.not_mem_nil, or_false] at hs
      rcases hs with rfl | rfl | rfl
      · simp only [classificationFun, hbad [] ⟨p, hp, by simp⟩]; rfl
      · simp only [classificationFun, hbad ["average"] ⟨p, hp, by simpa using h1 rfl⟩]; rfl
      · simp only [classificationFun, hbad [] ⟨p, hp, by simp⟩]; rfl

example : ∃ e, buildEvaluator f1 srt "user_item_recommender" [.dict [("precision", [("kk", .int 1)])]] 0
    = .ok (.recommender e) := ⟨_, rfl⟩

theorem make_testK {task : String} {avail : List String} (ha : available task = some avail)
    {g : String → List (String × PVal) → Metric (Arr ℝ × Arr ℝ)} {asked : List (String × Int)} {v : Int}
    {e : Ev (Arr ℝ × Arr ℝ)}
    (he : ((formatConfigs task g (asked.map Spec.atK)).bind fun l => Ev.new l v) = .ok e) :
    e.markers.zip e.funcs = asked.map fun p => (Spec.nameAtK p, g p.1 [("k", .int p.2)]) := by
  simp only [formatConfigs, ha] at he
  rcases hl : collectE (asked.map Spec.atK) (formatOne avail g) with er | l
  · rw [hl] at he; cases he
  · rw [hl] at he
    have h2 := collectE_ok_iff.mp hl
    have hl' : l = asked.map fun p => (Spec.nameAtK p, g p.1 [("k", .int p.2)]) := by
      rw [List.forall₂_map_left_iff] at h2
      clear hl he
      induction h2 with
      | nil => rfl
      | @cons p _ _ _ h _ ih =>
        rw [List.map_cons, ih]
        unfold formatOne Spec.atK at h
        dsimp only at h
        split at h
        · cases h
          congr 2
          show p.1 ++ " -> " ++ ("k" ++ "@" ++ toString p.2) = p.1 ++ " -> k@" ++ toString p.2
          rw [show " -> k@" = " -> " ++ ("k" ++ "@") from rfl]
          simp only [String.append_assoc]
        · cases h
    obtain ⟨_, _, _, hn4, hn5⟩ := vres_new (show Ev.new l v = .ok e from he)
    rw [hn4, hn5, List.zip_map', hl']
    simp

/-- different requests for the documented recommender metrics are reported under different names -/
theorem nameAtK_inj {p q : String × Int} (hp : p.1 ∈ ["precision", "recall", "ndcg"])
    (hq : q.1 ∈ ["precision", "recall", "ndcg"]) (h : Spec.nameAtK p = Spec.nameAtK q) : p = q := by
  obtain ⟨s, k⟩ := p
  obtain ⟨t, m⟩ := q
  simp only [List.mem_cons, List.not_mem_nil, or_false] at hp hq
  unfold Spec.nameAtK at h
  dsimp only at hp hq h
  have same : ∀ a : String, a ++ toString k = a ++ toString m → k = m := by
    intro a ha
    have := congrArg String.toList ha
    rw [String.toList_append, String.toList_append] at this
    exact Int.repr_injective (String.toList_injective (List.append_cancel_left this))
  have hd : ∀ a b : String, a.toList.head? ≠ none → b.toList.head? ≠ none → a.toList.head? ≠ b.toList.head? →
      a ++ " -> k@" ++ toString k ≠ b ++ " -> k@" ++ toString m := by
    intro a b ha hb hab hh
    have := congrArg (fun s : String => s.toList.head?) hh
    simp only [String.toList_append, List.head?_append] at this
    apply hab
    rcases h1 : a.toList.head? with _ | x
    · exact absurd h1 ha
    · rcases h2 : b.toList.head? with _ | y
      · exact absurd h2 hb
      · rw [h1, h2] at this; simpa using this
  rcases hp with rfl | rfl | rfl <;> rcases hq with rfl | rfl | rfl <;>
    first
    | rw [same _ h]
    | exact absurd h (hd _ _ (by decide) (by decide) (by decide))

/-- C59. With distinct recommender metrics, each at some `k`, `test` returns one entry for each, in order,
under the name of the metric with its `k`, with the value of the metric at that `k`; it raises if one of
them does. -/
theorem C59_test_recommender {asked : List (String × Int)} (hnd : asked.Nodup) {v : Nat} {e : AnyEv}
    (he : buildEvaluator f1 srt "user_item_recommender" (asked.map Spec.atK) v = .ok e)
    (y : Arr ℝ × Arr ℝ) :
    ∃ e', e = .recommender e' ∧ ∀ d : Dict String (Out ℝ), e'.test y = .ok d ↔
      d.map Prod.fst = asked.map Spec.nameAtK ∧
        ∀ p ∈ asked, ∀ o, (Spec.nameAtK p, o) ∈ d → Spec.recMetric srt p.1 p.2 y = .ok o := by
  have hmem : ∀ p ∈ asked, p.1 ∈ ["precision", "recall", "ndcg"] := by
    intro p hp
    obtain ⟨h1, _⟩ := (C59_accepts "user_item_recommender" (by decide) _ v).mp ⟨e, he⟩
    obtain ⟨s', ps', h2, h3⟩ := h1 (Spec.atK p) (List.mem_map.mpr ⟨p, hp, rfl⟩)
    rw [← (asks_unique (.params _ _) h2).1] at h3
    exact h3
  have hs : ∀ p ∈ asked, recommenderFun srt p.1 [("k", .int p.2)] y none = Spec.recMetric srt p.1 p.2 y := by
    intro p hp
    have h3 := hmem p hp
    obtain ⟨s, k⟩ := p
    simp only [List.mem_cons, List.not_mem_nil, or_false] at h3
    rcases h3 with rfl | rfl | rfl <;>
      simp [recommenderFun, Spec.recMetric, checkKeys, intParam, ratioParam, Dict.get?, bind, Except.bind]
  have hnames : (asked.map Spec.nameAtK).Nodup := by
    refine List.Nodup.map_on ?_ hnd
    intro p hp q hq h
    exact nameAtK_inj (hmem p hp) (hmem q hq) h
  rw [build_rec] at he
  rcases hcl : recEvaluator srt (asked.map Spec.atK) v with er | e'
  · rw [hcl] at he; cases he
  · rw [hcl] at he; cases he
    refine ⟨e', rfl, fun d => ?_⟩
    have hz := make_testK (task := "recommender") rfl hcl
    unfold Ev.test
    rw [hz]
    have key : ∀ l : List (String × Out ℝ),
        collectE (asked.map fun p => (Spec.nameAtK p, recommenderFun srt p.1 [("k", .int p.2)]))
          (fun p => (p.2 y none).map fun o => (p.1, o)) = .ok l
        ↔ l.map Prod.fst = asked.map Spec.nameAtK ∧
          ∀ p ∈ asked, ∀ o, (Spec.nameAtK p, o) ∈ l → Spec.recMetric srt p.1 p.2 y = .ok o := by
      intro l
      rw [collectE_ok_iff, List.forall₂_map_left_iff]
      clear hz hcl hnd
      induction asked generalizing l with
      | nil => cases l <;> simp
      | cons s asked ih =>
        cases l with
        | nil => simp
        | cons p l =>
          rw [List.map_cons, List.nodup_cons] at hnames
          rw [List.forall₂_cons, ih (fun s hs' => hmem s (List.mem_cons_of_mem _ hs'))
            (fun s hs' => hs s (List.mem_cons_of_mem _ hs')) hnames.2 l]
          dsimp only
          rw [hs s List.mem_cons_self]
          obtain ⟨q, o⟩ := p
          constructor
          · rintro ⟨h1, h2, h3⟩
            rcases hm : Spec.recMetric srt s.1 s.2 y with er | o'
            · rw [hm] at h1; cases h1
            · rw [hm] at h1; cases h1
              refine ⟨by rw [List.map_cons, List.map_cons, h2], ?_⟩
              intro t ht o'' ho
              rcases List.mem_cons.1 ht with rfl | ht
              · rcases List.mem_cons.1 ho with ho | ho
                · cases ho; exact hm
                · exact absurd (h2 ▸ List.mem_map.2 ⟨_, ho, rfl⟩) hnames.1
              · rcases List.mem_cons.1 ho with ho | ho
                · have hn : Spec.nameAtK t = Spec.nameAtK s := congrArg Prod.fst ho
                  exact absurd (List.mem_map.2 ⟨t, ht, hn⟩) hnames.1
                · exact h3 t ht _ ho
          · rintro ⟨h2, h3⟩
            simp only [List.map_cons, List.cons.injEq] at h2
            obtain ⟨rfl, h2⟩ := h2
            rw [h3 s List.mem_cons_self o List.mem_cons_self]
            exact ⟨rfl, h2, fun t ht o' ho => h3 t (List.mem_cons_of_mem _ ht) o' (List.mem_cons_of_mem _ ho)⟩
    rcases hc : collectE (asked.map fun p => (Spec.nameAtK p, recommenderFun srt p.1 [("k", .int p.2)]))
          (fun p => (p.2 y none).map fun o => (p.1, o)) with er | l
    · constructor
      · intro h; cases h
      · intro h; rw [(key d).mpr h] at hc; cases hc
    · have hl := (key l).mp hc
      have hfold := foldl_set_new l [] (by rw [hl.1]; exact hnames) (by simp)
      show (Except.ok (l.foldl (fun d p => Dict.set d p.1 p.2) []) : Except Err _) = .ok d ↔ _
      rw [hfold]
      constructor
      · intro h; cases h; exact hl
      · intro h
        have := (key d).mpr h
        rw [hc] at this
        cases this; rfl

example : [("ndcg", (1 : Int)), ("ndcg", 2), ("recall", 2)].Nodup ∧
    ∃ e, buildEvaluator f1 srt "user_item_recommender" ([("ndcg", 1), ("ndcg", 2), ("recall", 2)].map Spec.atK) (1 : Nat) = .ok e :=
  ⟨by decide, (C59_accepts _ (by decide) _ _).mpr ⟨by
    intro c hc
    simp only [List.map_cons, List.map_nil, List.mem_cons, List.not_mem_nil, or_false] at hc
    rcases hc with rfl | rfl | rfl <;> exact ⟨_, _, .params _ _, by decide⟩, by norm_num⟩⟩

/-- a configuration of each form is accepted -/
example : ∃ e, buildEvaluator f1 srt "graph_vertex_classification"
    [.name "accuracy", .dict [("f1_score", [("average", .str "macro")])]] 0 = .ok e :=
  (C59_accepts _ (by decide) _ _).mpr ⟨by
    intro c hc
    simp only [List.mem_cons, List.not_mem_nil, or_false] at hc
    rcases hc with rfl | rfl
    · exact ⟨_, _, .plain _, by decide⟩
    · exact ⟨_, _, .params _ _, by decide⟩, by norm_num⟩

example : ∃ e, buildEvaluator f1 srt "user_item_recommender" [.dict [("ndcg", [("k", .int 2)])]] 0 = .ok e :=
  (C59_accepts _ (by decide) _ _).mpr ⟨by
    intro c hc
    simp only [List.mem_cons, List.not_mem_nil, or_false] at hc
    subst hc; exact ⟨_, _, .params _ _, by decide⟩, by norm_num⟩

example : ∃ e, buildEvaluator f1 srt "hypergraph_vertex_classification"
    (["accuracy", "confusion_matrix"].map Config.name) (1 : Nat) = .ok e :=
  (C59_accepts _ (by decide) _ _).mpr ⟨by
    intro c hc
    simp only [List.map_cons, List.map_nil, List.mem_cons, List.not_mem_nil, or_false] at hc
    rcases hc with rfl | rfl <;> exact ⟨_, _, .plain _, by decide⟩, by norm_num⟩

end Props
end DHG
