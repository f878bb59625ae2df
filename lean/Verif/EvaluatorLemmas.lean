import Verif.EvaluatorSpec
import Verif.MetricsLemmas
import Verif.UtilsLemmas

/-! # Lemmas about evaluators: histories, accumulation, and concatenation of batches -/

set_option linter.unusedSectionVars false
set_option autoImplicit false

namespace DHG
namespace Metrics
open Utils

/-! ### histories -/

namespace Ev
variable {I : Type}

theorem addLoop_same (x : I) (fs : List (String × Metric I)) (e : Ev I) :
    ∃ t, (addLoop x fs e).2 = { e with tres := t } := by
  induction fs generalizing e with
  | nil => exact ⟨e.tres, rfl⟩
  | cons p fs ih =>
    obtain ⟨name, f⟩ := p
    simp only [addLoop]
    split
    · exact ⟨e.tres, rfl⟩
    · split
      · exact ⟨e.tres, rfl⟩
      · rename_i en _
        obtain ⟨t, ht⟩ := ih { e with tres := e.tres.set name en }
        exact ⟨t, ht⟩

theorem resLoop_same (d : Dict String Entry) (e : Ev I) :
    ∃ o, (resLoop d e).2 = { e with objs := o } := by
  induction d generalizing e with
  | nil => exact ⟨e.objs, rfl⟩
  | cons p d ih =>
    obtain ⟨name, en⟩ := p
    simp only [resLoop]
    split
    · exact ⟨e.objs, rfl⟩
    · rename_i v _
      obtain ⟨t, ht⟩ := ih { e with objs := e.objs.modify e.lastT fun d => d.set name v }
      exact ⟨t, ht⟩

/-- validation state is touched by validation calls only -/
theorem after_validate (e : Ev I) (op : Op I) (h1 : ∀ x, op ≠ .validateAdd x) (h2 : op ≠ .validateRes) :
    (e.after op).vres = e.vres ∧ (e.after op).lastV = e.lastV := by
  cases op with
  | validateAdd x => exact absurd rfl (h1 x)
  | validateRes => exact absurd rfl h2
  | testAdd x =>
    obtain ⟨t, ht⟩ := addLoop_same x (e.markers.zip e.funcs) e
    simp only [after, testAdd, ht, and_self]
  | testRes =>
    simp only [after, testRes]
    split
    · simp
    · obtain ⟨o, ho⟩ := resLoop_same e.tres e
      rcases hr : resLoop e.tres e with ⟨_ | _, e'⟩ <;> rw [hr] at ho <;> simp only at ho <;> subst ho <;>
        simp

/-- the test state is touched by test calls only -/
theorem after_test (e : Ev I) (op : Op I) (h1 : ∀ x, op ≠ .testAdd x) (h2 : op ≠ .testRes) :
    (e.after op).tres = e.tres ∧ (e.after op).objs = e.objs ∧ (e.after op).lastT = e.lastT := by
  cases op with
  | testAdd x => exact absurd rfl (h1 x)
  | testRes => exact absurd rfl h2
  | validateAdd x => simp only [after, validateAdd]; split <;> simp
  | validateRes =>
    simp only [after, validateRes]
    split
    · simp
    · simp
    · split <;> simp

/-- the metrics never change -/
theorem after_config (e : Ev I) (op : Op I) :
    (e.after op).vidx = e.vidx ∧ (e.after op).markers = e.markers ∧ (e.after op).funcs = e.funcs := by
  cases op with
  | validateAdd x => simp only [after, validateAdd]; split <;> simp
  | validateRes =>
    simp only [after, validateRes]
    split
    · simp
    · simp
    · split <;> simp
  | testAdd x =>
    obtain ⟨t, ht⟩ := addLoop_same x (e.markers.zip e.funcs) e
    simp only [after, testAdd, ht, and_self]
  | testRes =>
    simp only [after, testRes]
    split
    · simp
    · obtain ⟨o, ho⟩ := resLoop_same e.tres e
      rcases hr : resLoop e.tres e with ⟨_ | _, e'⟩ <;> rw [hr] at ho <;> simp only at ho <;> subst ho <;>
        simp

theorem run_config (e : Ev I) (h : List (Op I)) :
    (e.run h).vidx = e.vidx ∧ (e.run h).markers = e.markers ∧ (e.run h).funcs = e.funcs := by
  induction h generalizing e with
  | nil => exact ⟨rfl, rfl, rfl⟩
  | cons op h ih =>
    obtain ⟨h1, h2, h3⟩ := ih (e.after op)
    obtain ⟨h4, h5, h6⟩ := after_config e op
    exact ⟨h1.trans h4, h2.trans h5, h3.trans h6⟩

theorem run_append (e : Ev I) (h h' : List (Op I)) : e.run (h ++ h') = (e.run h).run h' := by
  simp [run, List.foldl_append]

theorem run_vfun (e : Ev I) (h : List (Op I)) : (e.run h).vfun = e.vfun := by
  obtain ⟨h1, _, h3⟩ := run_config e h
  unfold vfun
  rw [h1, h3]

/-! ### validation -/

theorem run_validate (e : Ev I) (h : List (Op I)) (hno : ∀ op ∈ h, op ≠ .validateRes)
    (os : List (Out ℝ)) (hs : List.Forall₂ (fun x o => e.vfun x (some true) = .ok o) (vInputs h) os) :
    (e.run h).vres = e.vres ++ os.map slabs ∧ (e.run h).lastV = e.lastV := by
  induction h generalizing e os with
  | nil => cases hs; simp [run]
  | cons op h ih =>
    have hno' : ∀ op ∈ h, op ≠ .validateRes := fun o ho => hno o (List.mem_cons_of_mem _ ho)
    have hf : (e.after op).vfun = e.vfun := run_vfun e [op]
    by_cases hop : ∃ x, op = .validateAdd x
    · obtain ⟨x, rfl⟩ := hop
      simp only [vInputs] at hs
      rcases hs with _ | ⟨h1, h2⟩
      rename_i o os
      have hst : e.after (.validateAdd x) = { e with vres := e.vres ++ [slabs o] } := by
        simp only [after, validateAdd, h1]
      obtain ⟨h3, h4⟩ := ih (e.after (.validateAdd x)) hno' os (by rw [hf]; exact h2)
      refine ⟨h3.trans ?_, h4.trans ?_⟩
      · rw [hst]; simp
      · rw [hst]
    · have hv : vInputs (op :: h) = vInputs h := by
        cases op with
        | validateAdd x => exact absurd ⟨x, rfl⟩ hop
        | _ => rfl
      rw [hv] at hs
      obtain ⟨h1, h2⟩ := after_validate e op (fun x hx => hop ⟨x, hx⟩) (hno op List.mem_cons_self)
      obtain ⟨h3, h4⟩ := ih (e.after op) hno' os (by rw [hf]; exact hs)
      exact ⟨h3.trans (by rw [h1]), h4.trans h2⟩

theorem stackMean_scores (ss : List (List (Option ℝ))) :
    stackMean (ss.map fun s => slabs (.batch s)) = .ok (fmean ss.flatten) := by
  have hfl : (ss.map fun s => slabs (.batch s)).flatten = ss.flatten.map fun x => [x] := by
    induction ss with
    | nil => rfl
    | cons s ss ih => simp only [List.map_cons, List.flatten_cons, ih, List.map_append]; rfl
  unfold stackMean
  rw [hfl, if_pos (by simp)]
  congr 2
  induction ss.flatten with
  | nil => rfl
  | cons x xs ih => simp [ih]

/-! ### testing -/

/-- accumulating the results of one metric -/
def entryOf : Option Entry → List (Out ℝ) → Except Err (Option Entry)
  | old, [] => .ok old
  | old, o :: os =>
    match addEntry old o with
    | .error er => .error er
    | .ok en => entryOf (some en) os

theorem addLoop_ok (x : I) (fs : List (String × Metric I)) (hnd : (fs.map Prod.fst).Nodup) (e : Ev I)
    (outs : String → Out ℝ) (hok : ∀ p ∈ fs, p.2 x (some true) = .ok (outs p.1))
    (ens : String → Entry) (hen : ∀ p ∈ fs, addEntry (e.tres.get? p.1) (outs p.1) = .ok (ens p.1)) :
    ∃ t, addLoop x fs e = (.ok (), { e with tres := t }) ∧
      ∀ name, t.get? name = if name ∈ fs.map Prod.fst then some (ens name) else e.tres.get? name := by
  induction fs generalizing e with
  | nil => exact ⟨e.tres, rfl, by simp⟩
  | cons p fs ih =>
    obtain ⟨name, f⟩ := p
    simp only [List.map_cons, List.nodup_cons] at hnd
    have h1 := hok (name, f) List.mem_cons_self
    have h2 := hen (name, f) List.mem_cons_self
    simp only at h1 h2
    obtain ⟨t, ht, hget⟩ := ih hnd.2 { e with tres := e.tres.set name (ens name) }
      (fun p hp => hok p (List.mem_cons_of_mem _ hp)) (by
        intro p hp
        have hne : name ≠ p.1 := by
          rintro rfl
          exact hnd.1 (List.mem_map.mpr ⟨p, hp, rfl⟩)
        simp only [Dict.get?_set]
        rw [if_neg (by first | exact hne | exact hne.symm)]
        exact hen p (List.mem_cons_of_mem _ hp))
    refine ⟨t, ?_, ?_⟩
    · simp only [addLoop, h1, h2, ht]
    · intro n
      rw [hget]
      simp only [List.map_cons, List.mem_cons, Dict.get?_set]
      by_cases hn : n ∈ fs.map Prod.fst
      · simp [hn]
      · by_cases hn' : n = name
        · subst hn'; simp [hn]
        · simp only [hn, hn', or_self, if_false]
          rw [if_neg (by first | exact hn' | exact Ne.symm hn')]

/-- what every history maintains -/
structure Good (e : Ev I) : Prop where
  last : e.lastT < e.objs.length
  nodup : (Dict.keys e.tres).Nodup
  sub : ∀ n ∈ Dict.keys e.tres, n ∈ e.markers
  obj : ∀ n ∈ Dict.keys (e.look e.lastT), n ∈ e.markers

theorem good_new {cfgs : List (String × Metric I)} {v : Int} {e : Ev I} (h : new cfgs v = .ok e) :
    Good e := by
  unfold new at h
  split at h
  · cases h
    exact ⟨Nat.zero_lt_one, List.nodup_nil, by simp, by simp [look]⟩
  · cases h

theorem good_addLoop (x : I) (fs : List (String × Metric I)) (e : Ev I)
    (hsub : ∀ p ∈ fs, p.1 ∈ e.markers) (h : Good e) : Good (addLoop x fs e).2 := by
  induction fs generalizing e with
  | nil => exact h
  | cons p fs ih =>
    obtain ⟨name, f⟩ := p
    simp only [addLoop]
    split
    · exact h
    · split
      · exact h
      · rename_i en _
        refine ih _ (fun p hp => hsub p (List.mem_cons_of_mem _ hp)) ⟨h.last, Dict.nodup_set _ _ _ h.nodup, ?_, h.obj⟩
        intro n hn
        rcases (Dict.mem_keys_set _ _ _ _).1 hn with rfl | hn
        · exact hsub _ List.mem_cons_self
        · exact h.sub n hn

theorem look_modify (e : Ev I) (hl : e.lastT < e.objs.length) (name : String) (v : TVal) :
    (({ e with objs := e.objs.modify e.lastT fun d => d.set name v } : Ev I)).look e.lastT
      = (e.look e.lastT).set name v := by
  simp only [look]
  rw [List.getD_eq_getElem _ _ (by simpa using hl), List.getD_eq_getElem _ _ hl]
  simp

theorem good_resLoop (d : Dict String Entry) (e : Ev I) (hsub : ∀ n ∈ Dict.keys d, n ∈ e.markers)
    (h : Good e) : Good (resLoop d e).2 := by
  induction d generalizing e with
  | nil => exact h
  | cons p d ih =>
    obtain ⟨name, en⟩ := p
    simp only [resLoop]
    split
    · exact h
    · rename_i v _
      refine ih _ (fun n hn => hsub n (List.mem_cons_of_mem _ hn)) ⟨by simpa using h.last, h.nodup, h.sub, ?_⟩
      intro n hn
      rw [look_modify e h.last] at hn
      rcases (Dict.mem_keys_set _ _ _ _).1 hn with rfl | hn
      · exact hsub _ List.mem_cons_self
      · exact h.obj n hn

theorem good_after (e : Ev I) (op : Op I) (h : Good e) : Good (e.after op) := by
  cases op with
  | validateAdd x =>
    simp only [after, validateAdd]
    split
    · exact h
    · exact ⟨h.last, h.nodup, h.sub, h.obj⟩
  | validateRes =>
    simp only [after, validateRes]
    split
    · exact h
    · exact h
    · split
      · exact h
      · exact ⟨h.last, h.nodup, h.sub, h.obj⟩
  | testAdd x =>
    exact good_addLoop x _ e (fun p hp => (List.of_mem_zip hp).1) h
  | testRes =>
    simp only [after, testRes]
    split
    · exact h
    · have hg := good_resLoop e.tres e h.sub h
      rcases hr : resLoop e.tres e with ⟨_ | _, e'⟩ <;> rw [hr] at hg
      · exact hg
      · exact ⟨hg.last, List.nodup_nil, by simp, hg.obj⟩

theorem good_run (e : Ev I) (hist : List (Op I)) (h : Good e) : Good (e.run hist) := by
  induction hist generalizing e with
  | nil => exact h
  | cons op hist ih => exact ih _ (good_after e op h)

theorem run_test (e : Ev I) (h : List (Op I)) (hno : ∀ op ∈ h, op ≠ .testRes)
    (hnd : e.markers.Nodup) (hlen : e.markers.length = e.funcs.length)
    (outs : String → List (Out ℝ)) (ens : String → Option Entry)
    (hs : ∀ p ∈ e.markers.zip e.funcs,
      List.Forall₂ (fun x o => p.2 x (some true) = .ok o) (tInputs h) (outs p.1) ∧
      entryOf (e.tres.get? p.1) (outs p.1) = .ok (ens p.1)) :
    (∀ n ∈ e.markers, (e.run h).tres.get? n = ens n) ∧ (e.run h).objs = e.objs ∧
      (e.run h).lastT = e.lastT := by
  induction h generalizing e outs with
  | nil =>
    refine ⟨?_, rfl, rfl⟩
    intro n hn
    obtain ⟨j, hj, rfl⟩ := List.mem_iff_getElem.mp hn
    obtain ⟨h1, h2⟩ := hs (e.markers[j], e.funcs[j]'(by omega))
      (by rw [List.mem_iff_getElem]; exact ⟨j, by simp; omega, by simp⟩)
    simp only [tInputs] at h1
    generalize outs e.markers[j] = os at h1 h2
    cases h1
    simp only [entryOf] at h2
    simpa [run] using h2
  | cons op h ih =>
    have hno' : ∀ op ∈ h, op ≠ .testRes := fun o ho => hno o (List.mem_cons_of_mem _ ho)
    obtain ⟨hc1, hc2, hc3⟩ := after_config e op
    by_cases hop : ∃ x, op = .testAdd x
    · obtain ⟨x, rfl⟩ := hop
      simp only [tInputs] at hs
      have hz : (e.markers.zip e.funcs).map Prod.fst = e.markers := by
        rw [List.map_fst_zip]; omega
      -- the first result of each metric
      have hhead : ∀ p ∈ e.markers.zip e.funcs, ∃ o os en, outs p.1 = o :: os ∧
          p.2 x (some true) = .ok o ∧ addEntry (e.tres.get? p.1) o = .ok en ∧
          entryOf (some en) os = .ok (ens p.1) ∧
          List.Forall₂ (fun x o => p.2 x (some true) = .ok o) (tInputs h) os := by
        intro p hp
        obtain ⟨h1, h2⟩ := hs p hp
        generalize outs p.1 = l at h1 h2
        rcases h1 with _ | ⟨h1, h3⟩
        rename_i o os
        simp only [entryOf] at h2
        split at h2
        · cases h2
        · rename_i en hen
          exact ⟨o, os, en, rfl, h1, hen, h2, h3⟩
      let o1 : String → Out ℝ := fun n => (outs n).headD (.mean none)
      let en1 : String → Entry := fun n =>
        match addEntry (e.tres.get? n) (o1 n) with
        | .ok en => en
        | .error _ => .arrs []
      obtain ⟨t, ht, hget⟩ := addLoop_ok x (e.markers.zip e.funcs) (by rw [hz]; exact hnd) e o1
        (by
          intro p hp
          obtain ⟨o, os, en, h1, h2, _⟩ := hhead p hp
          simp only [o1, h1]; exact h2)
        en1
        (by
          intro p hp
          obtain ⟨o, os, en, h1, _, h3, _⟩ := hhead p hp
          simp only [en1, o1, h1, List.headD_cons, h3])
      rw [hz] at hget
      have hst : e.after (.testAdd x) = { e with tres := t } := by
        simp only [after, testAdd, ht]
      have := ih (e.after (.testAdd x)) hno' (by rw [hc2]; exact hnd) (by rw [hc2, hc3]; exact hlen)
        (fun n => (outs n).tail) (by
          rw [hc2, hc3]
          intro p hp
          obtain ⟨o, os, en, h1, _, h3, h4, h5⟩ := hhead p hp
          rw [h1]
          refine ⟨h5, ?_⟩
          have hm : p.1 ∈ e.markers := (List.of_mem_zip hp).1
          have : en1 p.1 = en := by simp only [en1, o1, h1, List.headD_cons, h3]
          rw [hst]
          simp only
          rw [hget, if_pos hm, this]
          exact h4)
      obtain ⟨h1, h2, h3⟩ := this
      rw [hc2] at h1
      refine ⟨h1, h2.trans ?_, h3.trans ?_⟩ <;> rw [hst]
    · have hv : tInputs (op :: h) = tInputs h := by
        cases op with
        | testAdd x => exact absurd ⟨x, rfl⟩ hop
        | _ => rfl
      rw [hv] at hs
      obtain ⟨h1, h2, h3⟩ := after_test e op (fun x hx => hop ⟨x, hx⟩) (hno op List.mem_cons_self)
      obtain ⟨h4, h5, h6⟩ := ih (e.after op) hno' (by rw [hc2]; exact hnd) (by rw [hc2, hc3]; exact hlen)
        outs (by rw [hc2, hc3, h1]; exact hs)
      rw [hc2] at h4
      exact ⟨h4, h5.trans h2, h6.trans h3⟩

theorem resLoop_ok (d : Dict String Entry) (hnd : (Dict.keys d).Nodup) (e : Ev I)
    (hl : e.lastT < e.objs.length) (v : String → TVal)
    (hv : ∀ p ∈ d, entryVal p.2 = .ok (v p.1)) :
    ∃ o, resLoop d e = (.ok (), { e with objs := o }) ∧ o.length = e.objs.length ∧
      ∀ n, Dict.get? (o.getD e.lastT []) n
        = if n ∈ Dict.keys d then some (v n) else Dict.get? (e.look e.lastT) n := by
  induction d generalizing e with
  | nil => exact ⟨e.objs, rfl, rfl, by simp [look]⟩
  | cons p d ih =>
    obtain ⟨name, en⟩ := p
    simp only [Dict.keys_cons, List.nodup_cons] at hnd
    have h1 := hv (name, en) List.mem_cons_self
    simp only at h1
    obtain ⟨o, h2, h3, h4⟩ := ih hnd.2 { e with objs := e.objs.modify e.lastT fun d => d.set name (v name) }
      (by simpa using hl) (fun p hp => hv p (List.mem_cons_of_mem _ hp))
    refine ⟨o, ?_, ?_, ?_⟩
    · simp only [resLoop, h1, h2]
    · simpa using h3
    · intro n
      have := h4 n
      simp only at this
      rw [this, look_modify e hl, Dict.get?_set]
      simp only [Dict.keys_cons, List.mem_cons]
      by_cases hn : n ∈ Dict.keys d
      · simp [hn]
      · by_cases hn' : n = name
        · subst hn'; simp [hn]
        · simp only [hn, hn', or_self, if_false]
          rw [if_neg (Ne.symm hn')]

end Ev
end Metrics
end DHG
