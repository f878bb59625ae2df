import Mathlib.Tactic.NormNum
import Mathlib.Tactic.Linarith
import Verif.EvaluatorRows
import Verif.MetricsNdcg

/-!
# Properties of evaluators (C62)

`h : List (Ev.Op I)` is any history of the four calls that change an evaluator; `Ev.vInputs h` and
`Ev.tInputs h` are the batches given to it for validation and for testing.
-/

set_option linter.unusedSectionVars false
set_option autoImplicit false

namespace DHG
namespace Props
open Metrics Utils

section
variable {I : Type}

theorem mapM_id_eq (xs : List (Option ℝ)) :
    xs.mapM (m := Option) id = if none ∈ xs then none else some (xs.map fun x => x.getD 0) := by
  induction xs with
  | nil => rfl
  | cons x xs ih =>
    rw [List.mapM_cons, ih]
    cases x with
    | none => simp
    | some x =>
      by_cases h : none ∈ xs <;> simp [h]

theorem fmean_eq (xs : List (Option ℝ)) : fmean xs = Spec.mean xs := by
  unfold fmean Spec.mean
  rw [mapM_id_eq]
  by_cases h : none ∈ xs
  · simp [h]
  · by_cases h0 : xs = []
    · subst h0; simp [fdiv]
    · simp only [h, h0, if_false, or_self, fdiv, List.length_map, Spec.average]
      rw [if_neg]
      simpa using h0

theorem vfun_new {cfgs : List (String × Metric I)} {v : Int} {e : Ev I} (h : Ev.new cfgs v = .ok e)
    {name : String} {f : Metric I} (hf : cfgs[v.toNat]? = some (name, f)) : e.vfun = f := by
  unfold Ev.new at h
  split at h
  · cases h
    simp only [Ev.vfun, List.getD_eq_getElem?_getD, List.getElem?_map, hf]
    rfl
  · cases h

theorem vres_new {cfgs : List (String × Metric I)} {v : Int} {e : Ev I} (h : Ev.new cfgs v = .ok e) :
    e.vres = [] ∧ e.tres = [] ∧ e.lastV = none ∧ e.markers = cfgs.map Prod.fst ∧ e.funcs = cfgs.map Prod.snd := by
  unfold Ev.new at h
  split at h
  · cases h; exact ⟨rfl, rfl, rfl, rfl, rfl⟩
  · cases h

theorem validateRes_flush {e : Ev I} {x : Option ℝ} (h : (Ev.validateRes e).1 = .ok x) :
    (e.after .validateRes).vres = [] := by
  simp only [Ev.after, Ev.validateRes] at h ⊢
  split at h
  · rename_i h1 h2; simp [h1]
  · cases h
  · split at h
    · cases h
    · rfl

theorem testRes_flush {e : Ev I} {x : Nat} (h : (Ev.testRes e).1 = .ok x) :
    (e.after .testRes).tres = [] := by
  simp only [Ev.after, Ev.testRes] at h ⊢
  split at h
  · rename_i h1; simp [h1]
  · rename_i h1
    rw [if_neg h1]
    rcases hr : Ev.resLoop e.tres e with ⟨_ | _, e'⟩
    · rw [hr] at h; cases h
    · rfl

/-- the evaluator is at the start of a validation epoch: it is new, or its last epoch result has been
read -/
def _root_.DHG.Spec.ValidationStart (e0 : Ev I) (h : List (Ev.Op I)) : Prop :=
  h = [] ∨ ∃ h' x, h = h' ++ [.validateRes] ∧ (Ev.validateRes (e0.run h')).1 = .ok x

/-- the evaluator is at the start of a test epoch -/
def _root_.DHG.Spec.TestStart (e0 : Ev I) (h : List (Ev.Op I)) : Prop :=
  h = [] ∨ ∃ h' x, h = h' ++ [.testRes] ∧ (Ev.testRes (e0.run h')).1 = .ok x

/-- C62. Validation: whatever happened before, after the previous epoch result has been read (or at the
beginning) the result of the epoch is the mean over all samples of the batches added since, whatever
is done for testing in between.  Nothing of earlier epochs is left. -/
theorem C62_validate_epoch {cfgs : List (String × Metric I)} {v : Int} {e0 : Ev I}
    (hnew : Ev.new cfgs v = .ok e0) {name : String} {f : Metric I} (hf : cfgs[v.toNat]? = some (name, f))
    (h1 : List (Ev.Op I)) (hstart : Spec.ValidationStart e0 h1)
    (h2 : List (Ev.Op I)) (hno : ∀ op ∈ h2, op ≠ .validateRes) (hne : Ev.vInputs h2 ≠ [])
    (ss : List (List (Option ℝ)))
    (hs : List.Forall₂ (fun x s => f x (some true) = .ok (.batch s)) (Ev.vInputs h2) ss) :
    (Ev.validateRes (e0.run (h1 ++ h2))).1 = .ok (Spec.mean ss.flatten) := by
  have hvf := vfun_new hnew hf
  have hempty : (e0.run h1).vres = [] := by
    rcases hstart with rfl | ⟨h', x, rfl, hx⟩
    · exact (vres_new hnew).1
    · rw [Ev.run_append]; exact validateRes_flush hx
  obtain ⟨h3, _⟩ := Ev.run_validate (e0.run h1) h2 hno (ss.map .batch) (by
    rw [Ev.run_vfun, hvf, List.forall₂_map_right_iff]; exact hs)
  rw [Ev.run_append]
  generalize (e0.run h1).run h2 = e at h3
  rw [hempty, List.nil_append, List.map_map] at h3
  have hne' : ss ≠ [] := by
    rintro rfl
    rw [List.forall₂_nil_right_iff] at hs
    exact hne hs
  have hst : Ev.stackMean e.vres = .ok (Spec.mean ss.flatten) := by
    rw [h3, ← fmean_eq]; exact Ev.stackMean_scores ss
  obtain ⟨s, ss', rfl⟩ := List.exists_cons_of_ne_nil hne'
  simp only [Ev.validateRes]
  split
  · rename_i hnil _; rw [h3] at hnil; cases hnil
  · rename_i hnil _; rw [h3] at hnil; cases hnil
  · rename_i hb
    rw [hb] at hst
    rw [hst]

/-- C62. Asking for the validation result again, without new batches, gives the same result; asking
before any batch was added raises. -/
theorem C62_validate_repeat {cfgs : List (String × Metric I)} {v : Int} {e0 : Ev I}
    (hnew : Ev.new cfgs v = .ok e0) (h : List (Ev.Op I)) :
    (∀ x, (Ev.validateRes (e0.run h)).1 = .ok x →
      ∀ h', Ev.vInputs h' = [] → (Ev.validateRes (e0.run (h ++ [.validateRes] ++ h'))).1 = .ok x) ∧
    (Ev.vInputs h = [] → (Ev.validateRes (e0.run h)).1 = .error .assertion) := by
  have hquiet : ∀ (h : List (Ev.Op I)) (e : Ev I), Ev.vInputs h = [] → e.vres = [] →
      (e.run h).vres = [] ∧ (e.run h).lastV = e.lastV := by
    intro h
    induction h with
    | nil => intro e _ h1; exact ⟨h1, rfl⟩
    | cons op h ih =>
      intro e h0 h1
      have h0' : Ev.vInputs h = [] := by cases op <;> first | exact h0 | cases h0
      have hop : (e.after op).vres = [] ∧ (e.after op).lastV = e.lastV := by
        by_cases hr : op = .validateRes
        · subst hr
          simp only [Ev.after, Ev.validateRes]
          split
          · exact ⟨h1, rfl⟩
          · exact ⟨h1, rfl⟩
          · rename_i hb; rw [h1] at hb; cases hb
        · obtain ⟨h2, h3⟩ := Ev.after_validate e op (by rintro x rfl; cases h0) hr
          exact ⟨h2.trans h1, h3⟩
      obtain ⟨h4, h5⟩ := ih (e.after op) h0' hop.1
      exact ⟨h4, h5.trans hop.2⟩
  constructor
  · intro x hx h' h0
    rw [Ev.run_append, Ev.run_append]
    have h1 : ((e0.run h).run [.validateRes]).vres = [] := validateRes_flush hx
    have h2 : ((e0.run h).run [.validateRes]).lastV = some x := by
      generalize e0.run h = e at hx
      show (Ev.validateRes e).2.lastV = some x
      simp only [Ev.validateRes] at hx ⊢
      split at hx
      · rename_i h3 h4
        cases hx
        exact h4
      · cases hx
      · split at hx
        · cases hx
        · cases hx; rfl
    obtain ⟨h3, h4⟩ := hquiet h' _ h0 h1
    generalize ((e0.run h).run [.validateRes]).run h' = e at h3 h4
    simp only [Ev.validateRes, h3, h4, h2]
  · intro h0
    obtain ⟨h1, h2⟩ := hquiet h e0 h0 (vres_new hnew).1
    rw [(vres_new hnew).2.2.1] at h2
    generalize e0.run h = e at h1 h2
    simp only [Ev.validateRes, h1, h2]

/-! ### testing -/

theorem meanRows_mat (n : Nat) (bs : List (List (List ℝ))) (hne : bs ≠ [])
    (hw : ∀ b ∈ bs, b ≠ [] ∧ ∀ r ∈ b, r.length = n) :
    Ev.meanRows (bs.map Arr2.mat) = .ok (Spec.means n bs.flatten) := by
  have hwid : ∀ b ∈ bs, (Arr2.mat b).w = n := by
    intro b hb
    obtain ⟨h1, h2⟩ := hw b hb
    cases b with
    | nil => exact absurd rfl h1
    | cons r b => exact h2 r List.mem_cons_self
  have hrows : ((bs.map Arr2.mat).map Arr2.rows).flatten = bs.flatten.map fun r => r.map some := by
    rw [List.map_map, List.map_flatten]
    rfl
  have hlen : ∀ r ∈ bs.flatten, r.length = n := by
    intro r hr
    obtain ⟨b, hb, hr⟩ := List.mem_flatten.mp hr
    exact (hw b hb).2 r hr
  unfold Ev.meanRows
  obtain ⟨b, bs', rfl⟩ := List.exists_cons_of_ne_nil hne
  simp only [List.map_cons]
  rw [if_pos]
  · rw [hwid b List.mem_cons_self]
    have hrows' := hrows
    simp only [List.map_cons] at hrows'
    rw [hrows']
    unfold Spec.means
    split
    · rename_i h1
      subst h1
      rw [← fmean_eq]
      congr 3
      generalize (b :: bs').flatten = rows at hlen
      induction rows with
      | nil => rfl
      | cons r rows ih =>
        have h1 := hlen r List.mem_cons_self
        obtain ⟨x, rfl⟩ := List.length_eq_one_iff.mp h1
        simp only [List.map_cons, List.flatten_cons, List.map_nil]
        rw [ih fun r hr => hlen r (List.mem_cons_of_mem _ hr)]
        rfl
    · congr 2
      apply List.map_congr_left
      intro j hj
      rw [← fmean_eq, List.map_map]
      congr 1
      apply List.map_congr_left
      intro r hr
      have h1 := hlen r hr
      have h2 : j < r.length := by rw [h1]; exact List.mem_range.mp hj
      simp [List.getElem?_eq_getElem h2]
  · simp only [List.all_cons, decide_true, List.all_map, Bool.true_and, List.all_eq_true,
      Function.comp_apply, decide_eq_true_eq]
    intro b' hb'
    rw [hwid b' (List.mem_cons_of_mem _ hb'), hwid b List.mem_cons_self]

theorem epoch_entry {outs : List (Out ℝ)} {v : TVal} (h : Spec.EpochVal outs v) (hne : outs ≠ []) :
    ∃ en, Ev.entryOf none outs = .ok (some en) ∧ Ev.entryVal en = .ok v := by
  cases h with
  | scores ss =>
    have key : ∀ (ss : List (List (Option ℝ))) (bs : List Arr2),
        Ev.entryOf (some (.arrs bs)) (ss.map .batch) = .ok (some (.arrs (bs ++ ss.map Arr2.col))) := by
      intro ss
      induction ss with
      | nil => intro bs; simp [Ev.entryOf]
      | cons s ss ih => intro bs; simp [Ev.entryOf, Ev.addEntry, ih]
    obtain ⟨s, ss', rfl⟩ : ∃ s ss', ss = s :: ss' := by
      cases ss with
      | nil => exact absurd rfl hne
      | cons s ss => exact ⟨s, ss, rfl⟩
    refine ⟨.arrs ((s :: ss').map Arr2.col), ?_, ?_⟩
    · simp [Ev.entryOf, Ev.addEntry, key]
    · simp only [Ev.entryVal, List.map_cons, Ev.meanRows]
      rw [if_pos (by simp [Arr2.col]), if_pos (by simp [Arr2.col]), ← fmean_eq]
      congr 3
      rw [← List.map_cons, ← List.map_cons]
      generalize s :: ss' = l
      induction l with
      | nil => rfl
      | cons s l ih =>
        simp only [List.map_cons, List.flatten_cons, List.flatten_append, ih]
        congr 1
        simp only [Arr2.col]
        induction s with
        | nil => rfl
        | cons x s ih => simp [ih]
  | curves n cs hw =>
    have key : ∀ (cs : List (List (List ℝ) × List (List ℝ))) (ps rs : List Arr2),
        Ev.entryOf (some (.lists [ps, rs])) (cs.map fun c => .curves c.1 c.2)
          = .ok (some (.lists [ps ++ cs.map (fun c => Arr2.mat c.1), rs ++ cs.map fun c => Arr2.mat c.2])) := by
      intro cs
      induction cs with
      | nil => intro ps rs; simp [Ev.entryOf]
      | cons c cs ih => intro ps rs; simp [Ev.entryOf, Ev.addEntry, ih]
    obtain ⟨c, cs', rfl⟩ : ∃ c cs', cs = c :: cs' := by
      cases cs with
      | nil => exact absurd rfl hne
      | cons c cs => exact ⟨c, cs, rfl⟩
    refine ⟨.lists [((c :: cs').map Prod.fst).map Arr2.mat, ((c :: cs').map Prod.snd).map Arr2.mat], ?_, ?_⟩
    · simp only [List.map_cons, Ev.entryOf, Ev.addEntry, key]
      simp [List.map_map, Function.comp_def]
    · have h1 := meanRows_mat n ((c :: cs').map Prod.fst) (by simp) (by
        intro b hb
        obtain ⟨c', hc', rfl⟩ := List.mem_map.mp hb
        exact ⟨(hw c' hc').1, fun r hr => (hw c' hc').2.2 r (List.mem_append_left _ hr)⟩)
      have h2 := meanRows_mat n ((c :: cs').map Prod.snd) (by simp) (by
        intro b hb
        obtain ⟨c', hc', rfl⟩ := List.mem_map.mp hb
        exact ⟨(hw c' hc').2.1, fun r hr => (hw c' hc').2.2 r (List.mem_append_right _ hr)⟩)
      simp only [Ev.entryVal]
      rw [collectE_ok_iff.mpr (.cons h1 (.cons h2 .nil))]
      rfl

/-- C62. Testing: if the metrics have different markers, then whatever happened before, after the
previous epoch result has been read (or at the beginning), the dictionary returned for the epoch has
exactly the markers as keys, and under each the mean over all samples (the mean curve for curves) of
the batches added since. -/
theorem C62_test_epoch {cfgs : List (String × Metric I)} {v : Int} {e0 : Ev I}
    (hnew : Ev.new cfgs v = .ok e0) (hnd : (cfgs.map Prod.fst).Nodup)
    (h1 : List (Ev.Op I)) (hstart : Spec.TestStart e0 h1)
    (h2 : List (Ev.Op I)) (hno : ∀ op ∈ h2, op ≠ .testRes) (hne : Ev.tInputs h2 ≠ [])
    (outs : String → List (Out ℝ)) (val : String → TVal)
    (hs : ∀ p ∈ cfgs, List.Forall₂ (fun x o => p.2 x (some true) = .ok o) (Ev.tInputs h2) (outs p.1) ∧
      Spec.EpochVal (outs p.1) (val p.1)) :
    ∃ ref, (Ev.testRes (e0.run (h1 ++ h2))).1 = .ok ref ∧
      ∀ name, Dict.get? ((Ev.testRes (e0.run (h1 ++ h2))).2.look ref) name
        = if name ∈ cfgs.map Prod.fst then some (val name) else none := by
  obtain ⟨_, hn2, _, hn4, hn5⟩ := vres_new hnew
  have hempty : (e0.run h1).tres = [] := by
    rcases hstart with rfl | ⟨h', x, rfl, hx⟩
    · exact hn2
    · rw [Ev.run_append]; exact testRes_flush hx
  obtain ⟨hc1, hc2, hc3⟩ := Ev.run_config e0 h1
  have hzip : e0.markers.zip e0.funcs = cfgs := by
    rw [hn4, hn5, List.zip_map']
    simp
  have houts : ∀ p ∈ cfgs, outs p.1 ≠ [] := by
    intro p hp h0
    have := (hs p hp).1
    rw [h0, List.forall₂_nil_right_iff] at this
    exact hne this
  classical
  let ens : String → Option Entry := fun n => match Ev.entryOf none (outs n) with
    | .ok en => en
    | .error _ => none
  obtain ⟨h3, h4, h5⟩ := Ev.run_test (e0.run h1) h2 hno (by rw [hc2, hn4]; exact hnd)
    (by rw [hc2, hc3, hn4, hn5]; simp) outs ens (by
      rw [hc2, hc3, hzip, hempty]
      intro p hp
      refine ⟨(hs p hp).1, ?_⟩
      obtain ⟨en, h3, _⟩ := epoch_entry (hs p hp).2 (houts p hp)
      simp only [Dict.get?_nil, ens, h3])
  have hg : Ev.Good (e0.run (h1 ++ h2)) := Ev.good_run _ _ (Ev.good_new hnew)
  obtain ⟨hc4, hc5, hc6⟩ := Ev.run_config e0 (h1 ++ h2)
  rw [hc2, ← Ev.run_append] at h3
  rw [← Ev.run_append] at h4 h5
  generalize e0.run (h1 ++ h2) = e at *
  have hens : ∀ p ∈ cfgs, ∃ en, ens p.1 = some en ∧ Ev.entryVal en = .ok (val p.1) := by
    intro p hp
    obtain ⟨en, h3, h4⟩ := epoch_entry (hs p hp).2 (houts p hp)
    exact ⟨en, by simp only [ens, h3], h4⟩
  have hkeys : ∀ n, n ∈ Dict.keys e.tres ↔ n ∈ cfgs.map Prod.fst := by
    intro n
    constructor
    · intro hn
      have := hg.sub n hn
      rw [hc5, hn4] at this
      exact this
    · intro hn
      obtain ⟨p, hp, rfl⟩ := List.mem_map.mp hn
      obtain ⟨en, h6, _⟩ := hens p hp
      rw [← Dict.get?_isSome_iff, h3 p.1 (by rw [hn4]; exact hn), h6]
      rfl
  have hvals : ∀ p ∈ e.tres, Ev.entryVal p.2 = .ok (val p.1) := by
    rintro ⟨n, en⟩ hp
    have hk : n ∈ Dict.keys e.tres := List.mem_map.mpr ⟨(n, en), hp, rfl⟩
    obtain ⟨p, hp', hpn⟩ := List.mem_map.mp ((hkeys n).1 hk)
    subst hpn
    obtain ⟨en', h6, h7⟩ := hens p hp'
    have h8 := h3 p.1 (by rw [hn4]; exact (hkeys p.1).1 hk)
    rw [h6, (Dict.get?_eq_some_iff _ hg.nodup _ _).2 hp] at h8
    cases h8
    exact h7
  obtain ⟨o, h6, h7, h8⟩ := Ev.resLoop_ok e.tres hg.nodup e hg.last val hvals
  have hne' : e.tres ≠ [] := by
    intro h0
    have hex : ∃ p, p ∈ cfgs := by
      by_contra hcon
      have : cfgs = [] := List.eq_nil_iff_forall_not_mem.mpr fun p hp => hcon ⟨p, hp⟩
      subst this
      unfold Ev.new at hnew
      rw [if_neg (by simp)] at hnew
      cases hnew
    obtain ⟨p, hp⟩ := hex
    have := (hkeys p.1).2 (List.mem_map.mpr ⟨p, hp, rfl⟩)
    rw [h0] at this
    simp at this
  have hres : Ev.testRes e = (.ok e.lastT, { e with objs := o, tres := [] }) := by
    unfold Ev.testRes
    rw [if_neg hne', h6]
  refine ⟨e.lastT, by rw [hres], ?_⟩
  intro n
  rw [hres]
  have := h8 n
  simp only [Ev.look] at this ⊢
  rw [this]
  simp only [hkeys]
  split
  · rfl
  · rename_i hn
    rw [Dict.get?_eq_none_iff]
    intro hcon
    have := hg.obj n hcon
    rw [hc5, hn4] at this
    exact hn this

/-- C62. Before anything was added, the test result is an empty dictionary: no exception is raised,
unlike for validation. -/
theorem C62_test_nothing_added {cfgs : List (String × Metric I)} {v : Int} {e0 : Ev I}
    (hnew : Ev.new cfgs v = .ok e0) : (Ev.testRes e0).1 = .ok 0 ∧ (Ev.testRes e0).2.look 0 = [] := by
  unfold Ev.new at hnew
  split at hnew
  · cases hnew; exact ⟨rfl, rfl⟩
  · cases hnew

/-! ### batches and the whole set -/

theorem perSample_samplewise {srt : Argsort ℝ} {f : Metric (Arr ℝ × Arr ℝ)} (h : Spec.PerSample srt f) :
    Samplewise f := by
  rcases h with ⟨name, ps, hn, rfl⟩ | ⟨name, ps, rfl⟩
  · exact samplewise_retrieval srt name ps hn
  · exact samplewise_recommender srt name ps

theorem samplewise_all {f : Metric (Arr ℝ × Arr ℝ)} (hf : Samplewise f) (w : Nat)
    (bs : List (List (List ℝ) × List (List ℝ))) (hne : bs ≠ []) (ss : List (List (Option ℝ)))
    (hs : List.Forall₂ (fun p s => f (.d2 w p.1, .d2 w p.2) (some true) = .ok (.batch s)) bs ss) :
    f (.d2 w (bs.map Prod.fst).flatten, .d2 w (bs.map Prod.snd).flatten) (some true)
      = .ok (.batch ss.flatten) := by
  induction hs with
  | nil => exact absurd rfl hne
  | @cons p s bs ss h _ ih =>
    by_cases h0 : bs = []
    · subst h0
      rename_i hs
      cases hs
      simpa using h
    · simp only [List.map_cons, List.flatten_cons]
      exact hf.append w _ _ _ _ _ _ h (ih h0)

/-- C62. Splitting the samples into batches: if the metric accepts every batch, it accepts the whole
set, and the result for the whole set is the mean over all samples of all batches. -/
theorem C62_whole_is_mean_of_batches {srt : Argsort ℝ} {f : Metric (Arr ℝ × Arr ℝ)}
    (hf : Spec.PerSample srt f) (w : Nat) (bs : List (List (List ℝ) × List (List ℝ))) (hne : bs ≠ [])
    (ss : List (List (Option ℝ)))
    (hs : List.Forall₂ (fun p s => f (.d2 w p.1, .d2 w p.2) (some true) = .ok (.batch s)) bs ss) :
    f (.d2 w (bs.map Prod.fst).flatten, .d2 w (bs.map Prod.snd).flatten) none
      = .ok (.mean (Spec.mean ss.flatten)) := by
  rw [← fmean_eq]
  exact (perSample_samplewise hf).mean _ _ (samplewise_all (perSample_samplewise hf) w bs hne ss hs)

/-- C62. Feeding any partition of the samples batch by batch and reading the epoch result gives what
`validate` gives for the whole set. -/
theorem C62_validate_partition {srt : Argsort ℝ} {cfgs : List (String × Metric (Arr ℝ × Arr ℝ))} {v : Int}
    {e0 : Ev (Arr ℝ × Arr ℝ)} (hnew : Ev.new cfgs v = .ok e0)
    (hps : ∀ p ∈ cfgs, Spec.PerSample srt p.2)
    (h1 : List (Ev.Op (Arr ℝ × Arr ℝ))) (hstart : Spec.ValidationStart e0 h1)
    (w : Nat) (bs : List (List (List ℝ) × List (List ℝ))) (hne : bs ≠ [])
    (hok : ∀ p ∈ bs, (Ev.validateAdd (.d2 w p.1, .d2 w p.2) e0).1 = .ok ()) :
    ∃ x, (Ev.validateRes (e0.run (h1 ++ bs.map fun p => .validateAdd (.d2 w p.1, .d2 w p.2)))).1 = .ok x ∧
      e0.validate (.d2 w (bs.map Prod.fst).flatten, .d2 w (bs.map Prod.snd).flatten) = .ok (.mean x) := by
  have hv : ∃ p, cfgs[v.toNat]? = some p ∧ p ∈ cfgs := by
    unfold Ev.new at hnew
    split at hnew
    · rename_i h
      have hlt : v.toNat < cfgs.length := by omega
      exact ⟨_, List.getElem?_eq_getElem hlt, List.getElem_mem hlt⟩
    · cases hnew
  obtain ⟨⟨name, f⟩, hf, hmem⟩ := hv
  have hvf := vfun_new hnew hf
  have hsw := perSample_samplewise (hps _ hmem)
  have hss : ∃ ss, List.Forall₂ (fun (p : List (List ℝ) × List (List ℝ)) s =>
      f (.d2 w p.1, .d2 w p.2) (some true) = .ok (.batch s)) bs ss := by
    clear hne
    induction bs with
    | nil => exact ⟨[], .nil⟩
    | cons p bs ih =>
      obtain ⟨ss, hs⟩ := ih fun p hp => hok p (List.mem_cons_of_mem _ hp)
      have h0 := hok p List.mem_cons_self
      simp only [Ev.validateAdd, hvf] at h0
      split at h0
      · cases h0
      · rename_i o ho
        obtain ⟨xs, rfl⟩ := hsw.batch _ _ ho
        exact ⟨xs :: ss, .cons ho hs⟩
  obtain ⟨ss, hss⟩ := hss
  have hin : ∀ l : List (List (List ℝ) × List (List ℝ)),
      Ev.vInputs (l.map fun p => Ev.Op.validateAdd ((.d2 w p.1, .d2 w p.2) : Arr ℝ × Arr ℝ))
        = l.map fun p => (.d2 w p.1, .d2 w p.2) := by
    intro l
    induction l with
    | nil => rfl
    | cons p l ih => simp only [List.map_cons, Ev.vInputs, ih]
  refine ⟨Spec.mean ss.flatten, ?_, ?_⟩
  · refine C62_validate_epoch hnew hf h1 hstart _ ?_ ?_ ss ?_
    · intro op hop
      obtain ⟨p, _, rfl⟩ := List.mem_map.mp hop
      exact fun h => by cases h
    · rw [hin]; simpa using hne
    · rw [hin, List.forall₂_map_left_iff]; exact hss
  · unfold Ev.validate
    rw [hvf]
    exact C62_whole_is_mean_of_batches (hps _ hmem) w bs hne ss hss

theorem foldl_set_get {ν : Type} (l : List (String × ν)) (hnd : (l.map Prod.fst).Nodup)
    (d : Dict String ν) (n : String) :
    Dict.get? (l.foldl (fun d p => d.set p.1 p.2) d) n
      = (match l.find? fun p => p.1 = n with | some p => some p.2 | none => Dict.get? d n) := by
  induction l generalizing d with
  | nil => rfl
  | cons p l ih =>
    simp only [List.map_cons, List.nodup_cons] at hnd
    rw [List.foldl_cons, ih hnd.2]
    by_cases hp : p.1 = n
    · have hnone : (l.find? fun q => decide (q.1 = n)) = none := by
        rw [List.find?_eq_none]
        intro q hq hqn
        simp only [decide_eq_true_eq] at hqn
        exact hnd.1 (List.mem_map.mpr ⟨q, hq, by rw [hqn, hp]⟩)
      rw [hnone]
      simp [hp, Dict.get?_set]
    · simp only [List.find?_cons, hp, decide_false, Dict.get?_set, if_false]

/-- C62. Feeding any partition of the samples batch by batch and reading the test results gives, under
each marker, what `test` gives for the whole set. -/
theorem C62_test_partition {srt : Argsort ℝ} {cfgs : List (String × Metric (Arr ℝ × Arr ℝ))} {v : Int}
    {e0 : Ev (Arr ℝ × Arr ℝ)} (hnew : Ev.new cfgs v = .ok e0) (hnd : (cfgs.map Prod.fst).Nodup)
    (hps : ∀ p ∈ cfgs, Spec.PerSample srt p.2)
    (h1 : List (Ev.Op (Arr ℝ × Arr ℝ))) (hstart : Spec.TestStart e0 h1)
    (w : Nat) (bs : List (List (List ℝ) × List (List ℝ))) (hne : bs ≠ [])
    (hok : ∀ p ∈ bs, ∀ c ∈ cfgs, ∃ o, c.2 (.d2 w p.1, .d2 w p.2) (some true) = .ok o) :
    ∃ (ref : Nat) (d : Dict String (Out ℝ)) (e' : Ev (Arr ℝ × Arr ℝ)),
      Ev.testRes (e0.run (h1 ++ bs.map fun p => .testAdd (.d2 w p.1, .d2 w p.2))) = (.ok ref, e') ∧
      e0.test (.d2 w (bs.map Prod.fst).flatten, .d2 w (bs.map Prod.snd).flatten) = .ok d ∧
      ∀ name ∈ cfgs.map Prod.fst, ∃ x, Dict.get? (e'.look ref) name = some (.num x) ∧
        Dict.get? d name = some (.mean x) := by
  have hin : ∀ l : List (List (List ℝ) × List (List ℝ)),
      Ev.tInputs (l.map fun p => Ev.Op.testAdd ((.d2 w p.1, .d2 w p.2) : Arr ℝ × Arr ℝ))
        = l.map fun p => (.d2 w p.1, .d2 w p.2) := by
    intro l
    induction l with
    | nil => rfl
    | cons p l ih => simp only [List.map_cons, Ev.tInputs, ih]
  have hss : ∀ c ∈ cfgs, ∃ ss, List.Forall₂ (fun (p : List (List ℝ) × List (List ℝ)) s =>
      c.2 (.d2 w p.1, .d2 w p.2) (some true) = .ok (.batch s)) bs ss := by
    intro c hc
    clear hne
    induction bs with
    | nil => exact ⟨[], .nil⟩
    | cons p bs ih =>
      obtain ⟨ss, hs⟩ := ih fun p hp => hok p (List.mem_cons_of_mem _ hp)
      obtain ⟨o, ho⟩ := hok p List.mem_cons_self c hc
      obtain ⟨xs, rfl⟩ := (perSample_samplewise (hps c hc)).batch _ _ ho
      exact ⟨xs :: ss, .cons ho hs⟩
  classical
  -- the scores under each marker
  have hex : ∀ n, ∃ ss : List (List (Option ℝ)), ∀ c ∈ cfgs, c.1 = n →
      List.Forall₂ (fun (p : List (List ℝ) × List (List ℝ)) s =>
        c.2 (.d2 w p.1, .d2 w p.2) (some true) = .ok (.batch s)) bs ss := by
    intro n
    by_cases hn : ∃ c ∈ cfgs, c.1 = n
    · obtain ⟨c, hc, rfl⟩ := hn
      obtain ⟨ss, hs⟩ := hss c hc
      refine ⟨ss, ?_⟩
      intro c' hc' hcc
      have : c' = c := List.inj_on_of_nodup_map hnd hc' hc hcc
      rw [this]; exact hs
    · exact ⟨[], fun c hc hcn => absurd ⟨c, hc, hcn⟩ hn⟩
  choose S hS using hex
  obtain ⟨ref, h2, h3⟩ := C62_test_epoch hnew hnd h1 hstart
    (bs.map fun p => .testAdd (.d2 w p.1, .d2 w p.2))
    (by
      intro op hop
      obtain ⟨p, _, rfl⟩ := List.mem_map.mp hop
      exact fun h => by cases h)
    (by rw [hin]; simpa using hne)
    (fun n => (S n).map .batch) (fun n => .num (Spec.mean (S n).flatten))
    (by
      intro c hc
      refine ⟨?_, .scores _⟩
      rw [hin, List.forall₂_map_left_iff, List.forall₂_map_right_iff]
      exact hS c.1 c hc rfl)
  obtain ⟨_, _, _, hn4, hn5⟩ := vres_new hnew
  have hzip : e0.markers.zip e0.funcs = cfgs := by
    rw [hn4, hn5, List.zip_map']
    simp
  have htest : e0.test (.d2 w (bs.map Prod.fst).flatten, .d2 w (bs.map Prod.snd).flatten)
      = .ok ((cfgs.map fun c => (c.1, Out.mean (Spec.mean (S c.1).flatten))).foldl
          (fun d p => d.set p.1 p.2) []) := by
    unfold Ev.test
    rw [hzip, collectE_ok (g := fun c : String × Metric (Arr ℝ × Arr ℝ) =>
      (c.1, Out.mean (Spec.mean (S c.1).flatten)))]
    · rfl
    · intro c hc
      rw [C62_whole_is_mean_of_batches (hps c hc) w bs hne _ (hS c.1 c hc rfl)]
      rfl
  refine ⟨ref, _, _, Prod.ext h2 rfl, htest, ?_⟩
  intro n hn
  refine ⟨Spec.mean (S n).flatten, ?_, ?_⟩
  · rw [h3, if_pos hn]
  · obtain ⟨c, hc, rfl⟩ := List.mem_map.mp hn
    rw [foldl_set_get _ (by rw [List.map_map]; exact hnd)]
    have : ((cfgs.map fun c => (c.1, Out.mean (Spec.mean (S c.1).flatten))).find? fun p => p.1 = c.1)
        = some (c.1, Out.mean (Spec.mean (S c.1).flatten)) := by
      rw [List.find?_map]
      have h0 : (cfgs.find? ((fun p : String × Out ℝ => decide (p.1 = c.1)) ∘ fun c =>
          (c.1, Out.mean (Spec.mean (S c.1).flatten)))) = some c := by
        have hsome : (cfgs.find? ((fun p : String × Out ℝ => decide (p.1 = c.1)) ∘ fun c =>
          (c.1, Out.mean (Spec.mean (S c.1).flatten)))).isSome := by
          rw [List.find?_isSome]; exact ⟨c, hc, by simp⟩
        obtain ⟨c', hc'⟩ := Option.isSome_iff_exists.mp hsome
        have h4 := List.mem_of_find?_eq_some hc'
        have h5 := List.find?_some hc'
        simp only [Function.comp_apply, decide_eq_true_eq] at h5
        rw [hc', List.inj_on_of_nodup_map hnd h4 hc h5]
      rw [h0]; rfl
    rw [this]

/-! ### what does not hold -/

/-- C62. The dictionary returned by `test_epoch_res` is always the same object: every later result is
written into the dictionary handed out before. -/
theorem C62_same_dictionary {cfgs : List (String × Metric I)} {v : Int} {e0 : Ev I}
    (hnew : Ev.new cfgs v = .ok e0) (h : List (Ev.Op I)) {r : Nat}
    (hr : (Ev.testRes (e0.run h)).1 = .ok r) : r = 0 := by
  have h0 : e0.lastT = 0 := by
    unfold Ev.new at hnew
    split at hnew
    · cases hnew; rfl
    · cases hnew
  have hlast : ∀ (e : Ev I) (op : Ev.Op I), (e.after op).lastT = e.lastT := by
    intro e op
    cases op with
    | validateAdd x => exact (Ev.after_test e _ (by simp) (by simp)).2.2
    | validateRes => exact (Ev.after_test e _ (by simp) (by simp)).2.2
    | testAdd x =>
      obtain ⟨t, ht⟩ := Ev.addLoop_same x (e.markers.zip e.funcs) e
      simp only [Ev.after, Ev.testAdd, ht]
    | testRes =>
      simp only [Ev.after, Ev.testRes]
      split
      · rfl
      · obtain ⟨o, ho⟩ := Ev.resLoop_same e.tres e
        rcases hr : Ev.resLoop e.tres e with ⟨_ | _, e'⟩ <;> rw [hr] at ho <;> simp only at ho <;> subst ho <;>
          rfl
  have hrun : ∀ (h : List (Ev.Op I)) (e : Ev I), (e.run h).lastT = e.lastT := by
    intro h
    induction h with
    | nil => intro e; rfl
    | cons op h ih => intro e; exact (ih (e.after op)).trans (hlast e op)
  have h1 := hrun h e0
  rw [h0] at h1
  generalize e0.run h = e at hr h1
  unfold Ev.testRes at hr
  split at hr
  · cases hr; exact h1
  · obtain ⟨o, ho⟩ := Ev.resLoop_same e.tres e
    rcases hl : Ev.resLoop e.tres e with ⟨_ | _, e'⟩ <;> rw [hl] at ho hr <;> simp only at ho
    · cases hr
    · subst ho; cases hr; exact h1

/-- C62. Classification evaluators cannot be fed batch by batch: none of the classification metrics
takes `ret_batch`, so both calls raise `TypeError`. -/
theorem C62_classification_batches_false
    (f1 : List Int → List Int → List (String × PVal) → Except Err ℝ) (cfgs : List Config)
    {l : List (String × Metric (Option (List Int) × Pred ℝ))}
    (hl : formatConfigs "classification" (classificationFun f1) cfgs = .ok l) {v : Int}
    {e0 : Ev (Option (List Int) × Pred ℝ)} (hnew : Ev.new l v = .ok e0)
    (y : Option (List Int) × Pred ℝ) :
    (Ev.validateAdd y e0).1 = .error .type ∧ (Ev.testAdd y e0).1 = .error .type := by
  have hall : ∀ p ∈ l, p.2 y (some true) = .error .type := by
    intro p hp
    simp only [formatConfigs, available] at hl
    have h2 := collectE_ok_iff.mp hl
    obtain ⟨i, hi, rfl⟩ := List.mem_iff_getElem.mp hp
    have hi' : i < cfgs.length := by rw [h2.length_eq]; exact hi
    have h3 := (List.forall₂_iff_get.mp h2).2 i hi' hi
    simp only [List.get_eq_getElem] at h3
    generalize cfgs[i] = c at h3
    generalize l[i] = q at h3
    unfold formatOne at h3
    split at h3 <;> (try split at h3) <;> cases h3 <;> rfl
  obtain ⟨_, _, _, hn4, hn5⟩ := vres_new hnew
  have hzip : e0.markers.zip e0.funcs = l := by
    rw [hn4, hn5, List.zip_map']
    simp
  unfold Ev.new at hnew
  split at hnew
  · rename_i h
    have hlt : v.toNat < l.length := by omega
    have hvf := vfun_new (cfgs := l) (v := v) (e := e0) (by rw [Ev.new, if_pos h]; exact hnew)
      (name := (l[v.toNat]'hlt).1) (f := (l[v.toNat]'hlt).2) (List.getElem?_eq_getElem hlt)
    constructor
    · simp only [Ev.validateAdd, hvf, hall _ (List.getElem_mem hlt)]
    · unfold Ev.testAdd
      rw [hzip]
      cases l with
      | nil => simp at hlt
      | cons p l =>
        obtain ⟨n, f⟩ := p
        have := hall (n, f) List.mem_cons_self
        simp only at this
        simp only [Ev.addLoop, this]
  · cases hnew

/-- a sample whose only relevant item is ranked first -/
def exHit : Arr ℝ × Arr ℝ := (.d2 2 [[1, 0]], .d2 2 [[2, 1]])
/-- a sample whose only relevant item is ranked second -/
def exMiss : Arr ℝ × Arr ℝ := (.d2 2 [[1, 0]], .d2 2 [[1, 2]])

theorem srt_21 {srt : Argsort ℝ} (hs : Spec.SortsDesc srt) : srt [2, 1] = [0, 1] :=
  srt_eq hs _ _ (by decide) (by simp)

theorem srt_12 {srt : Argsort ℝ} (hs : Spec.SortsDesc srt) : srt [1, 2] = [1, 0] :=
  srt_eq hs _ _ (by decide) (by simp)

/-- `{"precision": {"k": 1}}` -/
def exK1 : List (String × PVal) := [("k", .int 1)]

theorem precision_k1 (srt : Argsort ℝ) (y : Arr ℝ × Arr ℝ) (rb : Option Bool) :
    retrievalFun srt "precision" exK1 y rb
      = rowMetric .retrieval true (precisionRow srt) y.1 y.2 (some 1) none (rb.getD false) := by
  rfl

theorem checkBinary_10 : checkBinary [[(1 : ℝ), 0]] = .ok () := by
  norm_num [checkBinary, List.max?]

theorem exHit_precision {srt : Argsort ℝ} (hs : Spec.SortsDesc srt) :
    retrievalFun srt "precision" exK1 exHit (some true) = .ok (.batch [some 1]) := by
  rw [precision_k1]
  refine rowMetric_d2.2 ⟨rfl, fun _ => checkBinary_10, 1, rfl, ?_⟩
  simp [finish, precisionRow, ranked, srt_21 hs, slice, sliceBound, fdiv]

theorem exMiss_precision {srt : Argsort ℝ} (hs : Spec.SortsDesc srt) :
    retrievalFun srt "precision" exK1 exMiss (some true) = .ok (.batch [some 0]) := by
  rw [precision_k1]
  refine rowMetric_d2.2 ⟨rfl, fun _ => checkBinary_10, 1, rfl, ?_⟩
  simp [finish, precisionRow, ranked, srt_12 hs, slice, sliceBound, fdiv]

/-- the configuration `[{"precision": {"k": 1}}]` -/
noncomputable def exCfg (srt : Argsort ℝ) : List (String × Metric (Arr ℝ × Arr ℝ)) :=
  [("precision -> k@1", retrievalFun srt "precision" exK1)]

/-- the hypotheses of the theorems above are met by a real evaluator -/
example (srt : Argsort ℝ) :
    formatConfigs "retrieval" (retrievalFun srt) [.dict [("precision", exK1)]] = .ok (exCfg srt) := by
  rfl
example (srt : Argsort ℝ) : ∃ e0, Ev.new (exCfg srt) 0 = .ok e0 ∧ ∀ p ∈ exCfg srt, Spec.PerSample srt p.2 :=
  ⟨_, rfl, by
    intro p hp
    obtain rfl := List.mem_singleton.mp hp
    exact .inl ⟨"precision", exK1, by decide, rfl⟩⟩

theorem mean_singleton (x : ℝ) : Spec.mean [some x] = some x := by
  simp [Spec.mean, Spec.average]

/-- C62 fails for returned test results: a dictionary handed out after one epoch holds the results of
the next epoch after the next call. -/
theorem C62_returned_result_changes_false {srt : Argsort ℝ} (hs : Spec.SortsDesc srt) :
    ∃ (e0 : Ev (Arr ℝ × Arr ℝ)) (r : Nat) (e1 e2 : Ev (Arr ℝ × Arr ℝ)), Ev.new (exCfg srt) 0 = .ok e0 ∧
      Ev.testRes (e0.run [.testAdd exHit]) = (.ok r, e1) ∧
      Dict.get? (e1.look r) "precision -> k@1" = some (.num (some 1)) ∧
      (Ev.testRes (e1.run [.testAdd exMiss])).2 = e2 ∧
      Dict.get? (e2.look r) "precision -> k@1" = some (.num (some 0)) := by
  have hnd : ((exCfg srt).map Prod.fst).Nodup := by simp [exCfg]
  obtain ⟨r, h1, h2⟩ := C62_test_epoch (cfgs := exCfg srt) (v := 0) rfl hnd [] (.inl rfl) [.testAdd exHit]
    (by simp) (by simp [Ev.tInputs]) (fun _ => [.batch [some 1]]) (fun _ => .num (some 1)) (by
      intro p hp
      obtain rfl := List.mem_singleton.mp hp
      refine ⟨.cons (exHit_precision hs) .nil, ?_⟩
      have := Spec.EpochVal.scores [[some 1]]
      rw [List.flatten_singleton, mean_singleton] at this
      exact this)
  obtain ⟨r', h3, h4⟩ := C62_test_epoch (cfgs := exCfg srt) (v := 0) rfl hnd ([.testAdd exHit] ++ [.testRes])
    (.inr ⟨_, r, rfl, h1⟩) [.testAdd exMiss]
    (by simp) (by simp [Ev.tInputs]) (fun _ => [.batch [some 0]]) (fun _ => .num (some 0)) (by
      intro p hp
      obtain rfl := List.mem_singleton.mp hp
      refine ⟨.cons (exMiss_precision hs) .nil, ?_⟩
      have := Spec.EpochVal.scores [[some 0]]
      rw [List.flatten_singleton, mean_singleton] at this
      exact this)
  have hr : r = 0 := C62_same_dictionary (cfgs := exCfg srt) (v := 0) rfl _ h1
  have hr' : r' = 0 := C62_same_dictionary (cfgs := exCfg srt) (v := 0) rfl _ h3
  subst hr hr'
  refine ⟨_, 0, _, _, rfl, Prod.ext h1 rfl, ?_, rfl, ?_⟩
  · have := h2 "precision -> k@1"
    rw [if_pos (by simp [exCfg])] at this
    exact this
  · have := h4 "precision -> k@1"
    rw [if_pos (by simp [exCfg])] at this
    exact this

/-- C62 fails for batches without a relevant item: the whole set is accepted, one of its batches is
refused. -/
theorem C62_batch_without_relevant_false (srt : Argsort ℝ) :
    (∃ o, retrievalFun srt "precision" exK1 (.d2 2 [[1, 0], [0, 0]], .d2 2 [[2, 1], [2, 1]]) none = .ok o) ∧
    retrievalFun srt "precision" exK1 (.d2 2 [[0, 0]], .d2 2 [[2, 1]]) (some true) = .error .assertion := by
  constructor
  · rw [precision_k1]
    exact ⟨_, rowMetric_d2.2 ⟨rfl, fun _ => by norm_num [checkBinary, List.max?], 1, rfl, rfl⟩⟩
  · rw [precision_k1]
    have hc : checkBinary [[(0 : ℝ), 0]] = .error .assertion := by norm_num [checkBinary, List.max?]
    simp only [rowMetric, format_d2, List.length_singleton, if_true, placesE, Except.map, bind,
      Except.bind, hc]

/-- two different metrics that get the same marker -/
noncomputable def exR1 : List (String × PVal) := [("ratio", .float (1 / 2))]
noncomputable def exR2 : List (String × PVal) := [("ratio", .float (50001 / 100000))]

theorem marks_equal : exR1.map paramMark = exR2.map paramMark := by
  have h1 : ⌊(1 / 2 : ℝ) * 10000 + 1 / 2⌋ = 5000 := by rw [Int.floor_eq_iff]; norm_num
  have h2 : ⌊(50001 / 100000 : ℝ) * 10000 + 1 / 2⌋ = 5000 := by rw [Int.floor_eq_iff]; norm_num
  simp only [exR1, exR2, List.map_cons, List.map_nil, paramMark, fmt4, h1, h2]

theorem precision_r (srt : Argsort ℝ) (q : ℝ) (y : Arr ℝ × Arr ℝ) (rb : Option Bool) :
    retrievalFun srt "precision" [("ratio", .float q)] y rb
      = rowMetric .retrieval true (precisionRow srt) y.1 y.2 none (some q) (rb.getD false) := by
  rfl

theorem exHit_r1 {srt : Argsort ℝ} (hs : Spec.SortsDesc srt) :
    retrievalFun srt "precision" exR1 exHit (some true) = .ok (.batch [some 1]) := by
  unfold exR1
  rw [precision_r]
  refine rowMetric_d2.2 ⟨rfl, fun _ => checkBinary_10, 1, ?_, ?_⟩
  · simp only [placesE]
    rw [if_pos (by norm_num)]
    congr 1
    rw [Int.ceil_eq_iff]; norm_num
  · simp [finish, precisionRow, ranked, srt_21 hs, slice, sliceBound, fdiv]

theorem exHit_r2 {srt : Argsort ℝ} (hs : Spec.SortsDesc srt) :
    retrievalFun srt "precision" exR2 exHit (some true) = .ok (.batch [some (1 / 2)]) := by
  unfold exR2
  rw [precision_r]
  refine rowMetric_d2.2 ⟨rfl, fun _ => checkBinary_10, 2, ?_, ?_⟩
  · simp only [placesE]
    rw [if_pos (by norm_num)]
    congr 1
    rw [Int.ceil_eq_iff]; norm_num
  · simp [finish, precisionRow, ranked, srt_21 hs, slice, sliceBound, fdiv]

theorem two_metrics_one_marker (m : String) {f g : Metric I} {x : I}
    (hf : f x (some true) = .ok (.batch [some 1])) (hg : g x (some true) = .ok (.batch [some (1 / 2)])) :
    ∃ e0 e1, Ev.new [(m, f), (m, g)] 0 = .ok e0 ∧
      Ev.testRes (e0.run [.testAdd x]) = (.ok 0, e1) ∧ e1.look 0 = [(m, .num (some (3 / 4)))] := by
  refine ⟨⟨0, [m, m], [f, g], [], [], none, [[]], 0⟩,
    (Ev.testRes (Ev.run ⟨0, [m, m], [f, g], [], [], none, [[]], 0⟩ [.testAdd x])).2, rfl, ?_, ?_⟩
  · simp [Ev.run, Ev.after, Ev.testAdd, Ev.addLoop, Ev.testRes, Ev.resLoop, hf, hg, Ev.addEntry,
      Dict.get?, Dict.set, Ev.entryVal, Ev.meanRows, Arr2.col, Ev.look]
  · simp only [Ev.run, Ev.after, Ev.testAdd, Ev.addLoop, Ev.testRes, Ev.resLoop, hf, hg, Ev.addEntry,
      Dict.get?, Dict.set, Ev.entryVal, Ev.meanRows, Arr2.col, Ev.look, List.foldl_cons, List.foldl_nil,
      List.map_cons, List.map_nil, List.zip_cons_cons, List.zip_nil_right, if_true, List.nil_append,
      List.cons_append, List.all_cons, List.all_nil, decide_true, Bool.and_self]
    simp [fmean, fdiv]
    norm_num
    rfl

/-- C62 fails for metrics whose parameters agree to four digits: precision for the ratios 0.5 and
0.50001 of two items share one marker, and the reported result, 3/4, is neither that of the first
metric (1) nor that of the second (1/2). -/
theorem C62_equal_markers_false {srt : Argsort ℝ} (hs : Spec.SortsDesc srt) :
    ∃ (m : String) (l : List (String × Metric (Arr ℝ × Arr ℝ))) (e0 e1 : Ev (Arr ℝ × Arr ℝ)) (r : Nat),
      formatConfigs "retrieval" (retrievalFun srt) [.dict [("precision", exR1)], .dict [("precision", exR2)]]
        = .ok l ∧ l.map Prod.fst = [m, m] ∧ Ev.new l 0 = .ok e0 ∧
      Ev.testRes (e0.run [.testAdd exHit]) = (.ok r, e1) ∧
      e1.look r = [(m, .num (some (3 / 4)))] ∧
      (retrievalFun srt "precision" exR1 exHit none = .ok (.mean (some 1))) ∧
      retrievalFun srt "precision" exR2 exHit none = .ok (.mean (some (1 / 2))) := by
  have hm : "precision" ++ " -> " ++ " | ".intercalate (exR2.map paramMark)
      = "precision" ++ " -> " ++ " | ".intercalate (exR1.map paramMark) := by rw [marks_equal]
  have h1 := exHit_r1 hs
  have h2 := exHit_r2 hs
  have hl : formatConfigs "retrieval" (retrievalFun srt)
      [.dict [("precision", exR1)], .dict [("precision", exR2)]]
      = .ok [("precision" ++ " -> " ++ " | ".intercalate (exR1.map paramMark), retrievalFun srt "precision" exR1),
        ("precision" ++ " -> " ++ " | ".intercalate (exR2.map paramMark), retrievalFun srt "precision" exR2)] := by
    rfl
  rw [hm] at hl
  generalize "precision" ++ " -> " ++ " | ".intercalate (exR1.map paramMark) = m at hl
  obtain ⟨e0, e1, h3, h4, h5⟩ := two_metrics_one_marker m h1 h2
  refine ⟨m, _, e0, e1, 0, hl, rfl, h3, h4, h5, ?_, ?_⟩
  · have := (samplewise_retrieval srt "precision" exR1 (by decide)).mean _ _ h1
    rw [this, fmean_eq, mean_singleton]
  · have := (samplewise_retrieval srt "precision" exR2 (by decide)).mean _ _ h2
    rw [this, fmean_eq, mean_singleton]

/-- C62 fails for curves in validation: with the default eleven points, reading the epoch result after
adding a batch with at least one sample raises `ValueError`. -/
theorem C62_validate_curve_false {srt : Argsort ℝ} {e0 : Ev (Arr ℝ × Arr ℝ)}
    (hnew : Ev.new [("pr_curve", retrievalFun srt "pr_curve" [])] 0 = .ok e0)
    (w : Nat) (a b : List (List ℝ)) (ha : a ≠ [])
    (hadd : (Ev.validateAdd (.d2 w a, .d2 w b) e0).1 = .ok ()) :
    (Ev.validateRes (e0.run [.validateAdd (.d2 w a, .d2 w b)])).1 = .error .value := by
  have hvf := vfun_new hnew (name := "pr_curve") (f := retrievalFun srt "pr_curve" []) rfl
  have hcur : ∀ o, retrievalFun srt "pr_curve" [] (.d2 w a, .d2 w b) (some true) = .ok o →
      ∃ p r, o = .curves p r ∧ p.flatten.length ≠ 1 := by
    intro o ho
    have h0 : retrievalFun srt "pr_curve" [] (.d2 w a, .d2 w b) (some true)
        = prCurve srt (.d2 w a) (.d2 w b) none none .pascalVoc 11 true := rfl
    rw [h0] at ho
    unfold prCurve at ho
    rw [if_neg (by decide)] at ho
    have hfm := format_d2 .retrieval w a b none (none : Option ℝ)
    simp only [format] at hfm
    rw [hfm] at ho
    by_cases hab : a.length = b.length
    · rw [if_pos hab] at ho
      simp only [placesE, Except.map, bind, Except.bind, if_true] at ho
      split at ho
      · cases ho
      · rename_i cs hcs
        cases ho
        refine ⟨_, _, rfl, ?_⟩
        have h2 := collectE_ok_iff.mp hcs
        obtain ⟨ra, a', rfl⟩ := List.exists_cons_of_ne_nil ha
        obtain ⟨rb, b', rfl⟩ : ∃ rb b', b = rb :: b' := by
          cases b with
          | nil => simp at hab
          | cons rb b' => exact ⟨rb, b', rfl⟩
        rw [List.zip_cons_cons] at h2
        rcases h2 with _ | ⟨h3, h4⟩
        rename_i c cs'
        have : c.1.length = 11 := by
          unfold prCurve1 at h3
          simp only [linspace01, bind, Except.bind] at h3
          rw [if_neg (by decide)] at h3
          simp only at h3
          split at h3
          · cases h3
          · rename_i pr hpr
            cases h3
            rw [← (collectE_ok_iff.mp hpr).length_eq]
            simp
        simp only [List.map_cons, List.flatten_cons, List.length_append, this]
        omega
    · rw [if_neg hab] at ho
      cases ho
  simp only [Ev.validateAdd, hvf] at hadd
  split at hadd
  · cases hadd
  · rename_i o ho
    obtain ⟨p, r, rfl, hp⟩ := hcur o ho
    obtain ⟨h1, h2⟩ := Ev.run_validate e0 [.validateAdd (.d2 w a, .d2 w b)] (by simp) [.curves p r]
      (.cons (by rw [hvf]; exact ho) .nil)
    rw [(vres_new hnew).1, List.nil_append] at h1
    generalize e0.run [.validateAdd (.d2 w a, .d2 w b)] = e at h1 h2
    have hst : Ev.stackMean e.vres = .error .value := by
      rw [h1]
      unfold Ev.stackMean
      rw [if_neg]
      intro hall
      have := List.all_eq_true.mp hall (p.flatten.map some) (by simp [Ev.slabs])
      rw [decide_eq_true_eq, List.length_map] at this
      exact hp this
    simp only [Ev.validateRes]
    split
    · rename_i hnil _; rw [h1] at hnil; cases hnil
    · rename_i hnil _; rw [h1] at hnil; cases hnil
    · rename_i hb
      rw [hb] at hst
      rw [hst]

end

end Props
end DHG
