import Verif.Task
import Verif.Props.Experiment
import Verif.Props.Evaluator

/-!
# Vertex classification tasks (C78)
-/

set_option linter.unusedSectionVars false
set_option autoImplicit false

namespace DHG
open Tasks Exper Metrics

/-! ## Specification -/

/-- the entries at the positions marked in the mask, in order -/
def Spec.chosen {α : Type} (mask : List Bool) (xs : List α) : List α :=
  (List.range mask.length).filterMap fun i => if mask[i]? = some true then xs[i]? else none

/-- the lists have the same entries at the marked positions -/
def Spec.AgreeOn {α : Type} (mask : List Bool) (xs ys : List α) : Prop :=
  ∀ i : Nat, mask[i]? = some true → xs[i]? = ys[i]?

variable {F St S M : Type}

theorem chosen_cons {α : Type} (b : Bool) (mask : List Bool) (x : α) (xs : List α) :
    Spec.chosen (b :: mask) (x :: xs) = (if b then [x] else []) ++ Spec.chosen mask xs := by
  unfold Spec.chosen
  rw [List.length_cons, List.range_succ_eq_map, List.filterMap_cons, List.filterMap_map]
  cases b <;> simp [Function.comp_def]

theorem maskSel_eq {α : Type} (mask : List Bool) (xs : List α) (h : mask.length = xs.length) :
    maskSel mask xs = .ok (Spec.chosen mask xs) := by
  unfold maskSel
  rw [if_pos h]
  congr 1
  induction mask generalizing xs with
  | nil => rfl
  | cons b mask ih =>
    cases xs with
    | nil => simp at h
    | cons x xs =>
      rw [chosen_cons, List.zip_cons_cons, List.filterMap_cons, ih xs (by simpa using h)]
      cases b <;> simp

theorem maskSel_ok {α : Type} {mask : List Bool} {xs ys : List α} (h : maskSel mask xs = .ok ys) :
    mask.length = xs.length ∧ ys = Spec.chosen mask xs := by
  by_cases hl : mask.length = xs.length
  · rw [maskSel_eq mask xs hl] at h
    exact ⟨hl, (Except.ok.inj h).symm⟩
  · unfold maskSel at h; rw [if_neg hl] at h; cases h

theorem chosen_congr {α : Type} {mask : List Bool} {xs ys : List α} (h : Spec.AgreeOn mask xs ys) :
    Spec.chosen mask xs = Spec.chosen mask ys := by
  unfold Spec.chosen
  congr 1
  funext i
  split
  · rename_i hi; exact h i hi
  · rfl

theorem maskSel_congr {α : Type} {mask : List Bool} {xs ys : List α} (hl : xs.length = ys.length)
    (h : Spec.AgreeOn mask xs ys) : maskSel mask xs = maskSel mask ys := by
  by_cases hm : mask.length = xs.length
  · rw [maskSel_eq _ _ hm, maskSel_eq _ _ (hm.trans hl), chosen_congr h]
  · unfold maskSel; rw [if_neg hm, if_neg (by rw [← hl]; exact hm)]

/-! ## C78 -/

theorem rebuilt_labels (n : Net F St S M) (d : VData F St) (l : List Int) :
    rebuilt n { d with labels := l } = { rebuilt n d with labels := l } := by
  unfold rebuilt; split <;> rfl

theorem rebuilt_same (n : Net F St S M) (d : VData F St) :
    (rebuilt n d).labels = d.labels ∧ (rebuilt n d).features = d.features ∧
      (rebuilt n d).trainMask = d.trainMask ∧ (rebuilt n d).valMask = d.valMask := by
  unfold rebuilt; split <;> exact ⟨rfl, rfl, rfl, rfl⟩

theorem vTrain_labels (n : Net F St S M) (d : VData F St) (l : List Int) (hl : d.labels.length = l.length)
    (h : Spec.AgreeOn d.trainMask d.labels l) (s : S) : vTrain n { d with labels := l } s = vTrain n d s := by
  unfold vTrain
  simp only [maskSel_congr hl h]

theorem vValidate_labels (n : Net F St S M) (ev : Ev VIn) (d : VData F St) (l : List Int)
    (hl : d.labels.length = l.length) (h : Spec.AgreeOn d.valMask d.labels l) (m : M) :
    vValidate n ev { d with labels := l } m = vValidate n ev d m := by
  unfold vValidate
  simp only [maskSel_congr hl h]

/-- C78.  Training sees the labels of the training vertices only: the models of all epochs are the same for
all labels that agree on `train_mask`. -/
theorem C78_training (ev : Ev VIn) (d : VData F St) (n : Net F St S M) (l : List Int)
    (hl : d.labels.length = l.length) (h : Spec.AgreeOn d.trainMask d.labels l) (e : Nat) :
    Spec.trained (vTrial ev { d with labels := l } n) e = Spec.trained (vTrial ev d n) e := by
  have ht : ∀ e s, (vTrial ev { d with labels := l } n).train e s = (vTrial ev d n).train e s := by
    intro e s
    have := rebuilt_same n d
    simp only [vTrial, rebuilt_labels]
    rw [vTrain_labels n (rebuilt n d) l (by rw [this.1]; exact hl) (by rw [this.1, this.2.2.1]; exact h)]
  have hv : ∀ (d : VData F St) e s, Spec.validated (vTrial ev d n) e s = s := by
    intro d e s
    simp only [Spec.validated, vTrial]
    cases vValidate n ev (rebuilt n d) (n.modelOf s) <;> rfl
  induction e with
  | zero => simp only [Spec.trained, Spec.trainStep, ht]; rfl
  | succ e ih =>
    simp only [Spec.trained, Spec.trainStep, ht, hv, ih]; rfl

/-- C78.  The labels of the vertices outside the training and validation masks influence neither the best
trial, its score, its model and its structure, nor the files that are left, nor whether the run fails. -/
theorem C78_selection (maxEpoch ran : Nat) (ev : Ev VIn) (d : VData F St) (net : Nat → Net F St S M)
    (c : Cache M St) (l : List Int) (hl : d.labels.length = l.length)
    (ht : Spec.AgreeOn d.trainMask d.labels l) (hv : Spec.AgreeOn d.valMask d.labels l) :
    run "maximize" maxEpoch ran (fun i => vTrial ev { d with labels := l } (net i)) c =
      run "maximize" maxEpoch ran (fun i => vTrial ev d (net i)) c := by
  congr 1
  funext i
  have := rebuilt_same (net i) d
  simp only [vTrial, rebuilt_labels]
  congr 1
  · funext e s
    rw [vTrain_labels _ _ l (by rw [this.1]; exact hl) (by rw [this.1, this.2.2.1]; exact ht)]
  · funext e s
    rw [vValidate_labels _ ev _ l (by rw [this.1]; exact hl) (by rw [this.1, this.2.2.2]; exact hv)]

/-- C78.  Testing a result uses the labels of the test vertices only. -/
theorem C78_testing (n : Net F St S M) (ev : Ev VIn) (d : VData F St) (r : Result M St ℝ) (l : List Int)
    (hl : d.labels.length = l.length) (h : Spec.AgreeOn d.testMask d.labels l) :
    vTest n ev { d with labels := l } r = vTest n ev d r := by
  unfold vTest
  simp only [maskSel_congr hl h]

theorem score_eq {ev : Ev VIn} {d : VData F St} {n : Net F St S M} {e : Nat} {x : ℝ}
    (h : Spec.score (vTrial ev d n) e = some x) :
    ∃ outputs, n.predict (n.modelOf (Spec.trained (vTrial ev d n) e)) d.features (rebuilt n d).struct = .ok outputs ∧
      ev.vfun (some (Spec.chosen d.valMask d.labels), .scores n.classes (Spec.chosen d.valMask outputs)) none
        = .ok (.mean (some x)) := by
  obtain ⟨e1, e2, _, e4⟩ := rebuilt_same n d
  unfold Spec.score at h
  generalize Spec.trained (vTrial ev d n) e = s at h ⊢
  simp only [vTrial, vValidate, e1, e2, e4] at h
  rcases ho : n.predict (n.modelOf s) d.features (rebuilt n d).struct with er | outputs
  · rw [ho] at h; cases h
  rw [ho] at h
  simp only [bind, Except.bind] at h
  rcases h1 : maskSel d.valMask d.labels with er | a
  · rw [h1] at h; cases h
  rcases h2 : maskSel d.valMask outputs with er | b
  · rw [h1, h2] at h; cases h
  rw [h1, h2] at h
  simp only at h
  obtain ⟨_, rfl⟩ := maskSel_ok h1
  obtain ⟨_, rfl⟩ := maskSel_ok h2
  rcases h3 : ev.validate (some (Spec.chosen d.valMask d.labels),
      .scores n.classes (Spec.chosen d.valMask outputs)) with er | o
  · rw [h3] at h; cases h
  rw [h3] at h
  cases o with
  | mean y =>
    simp only [number, lift] at h
    subst h
    exact ⟨outputs, rfl, h3⟩
  | _ => cases h

/-- C78.  A run in which no trial fails returns the model, structure and score of an epoch of a trial; the
score is the validation metric on exactly the vertices of `val_mask`: it is what validating the returned
model on the returned structure gives again; no other epoch of a completed trial has a higher one. -/
theorem C78_best {cfgs : List (String × Metric VIn)} {v : Int} {ev : Ev VIn} (hnew : Ev.new cfgs v = .ok ev)
    {name : String} {f : Metric VIn} (hf : cfgs[v.toNat]? = some (name, f)) (n ran : Nat) (d : VData F St)
    (net : Nat → Net F St S M) (hs : ∀ j < ran, Spec.Sound n (vTrial ev d (net j)))
    (hu : ∃ j < ran, Spec.Unpruned n (vTrial ev d (net j))) :
    ∃ r c outputs, run "maximize" n ran (fun i => vTrial ev d (net i)) (fun _ => none) = (.ok r, c) ∧
      r.number < ran ∧
      (∃ e < n, r.model = (net r.number).modelOf (Spec.trained (vTrial ev d (net r.number)) e)) ∧
      r.struct = ((net r.number).built?).getD d.struct ∧
      (net r.number).predict r.model d.features r.struct = .ok outputs ∧
      f (some (Spec.chosen d.valMask d.labels), .scores (net r.number).classes (Spec.chosen d.valMask outputs)) none
        = .ok (.mean (some r.score)) ∧
      ∀ j < ran, Spec.Unpruned n (vTrial ev d (net j)) → ∀ i < n, ∀ x,
        Spec.score (vTrial ev d (net j)) i = some x → x ≤ r.score := by
  obtain ⟨k, e, b, st, c, h1, h2, h3, h4, h5, h6, _⟩ :=
    C85_run n ran (fun i => vTrial ev d (net i)) hs hu
  obtain ⟨outputs, g1, g2⟩ := score_eq h5.2.1
  rw [Props.vfun_new hnew hf] at g2
  have hst : st = (rebuilt (net k) d).struct := (Option.some.inj h4).symm
  refine ⟨_, c, outputs, h1, h2, ⟨e, h5.1, rfl⟩, ?_, ?_, g2, fun j hj hju i hi x hx => (h6 j hj hju i hi x hx).1⟩
  · rw [hst]
    show (rebuilt (net k) d).struct = _
    unfold rebuilt
    cases (net k).built? <;> rfl
  · rw [hst]; exact g1

theorem get_foldl_set {ν : Type} (l : List (String × ν)) (hnd : (l.map Prod.fst).Nodup) :
    l.foldl (fun d p => Dict.set d p.1 p.2) [] = l := by
  have key : ∀ (l acc : List (String × ν)), ((acc ++ l).map Prod.fst).Nodup →
      l.foldl (fun d p => Dict.set d p.1 p.2) acc = acc ++ l := by
    intro l
    induction l with
    | nil => intro acc _; simp
    | cons p l ih =>
      intro acc h
      have hp : p.1 ∉ acc.map Prod.fst := by
        rw [List.map_append, List.nodup_append] at h
        exact fun hc => h.2.2 _ hc _ (by simp) rfl
      have hset : Dict.set acc p.1 p.2 = acc ++ [p] := by
        clear ih h
        induction acc with
        | nil => rfl
        | cons q acc ih =>
          simp only [List.map_cons, List.mem_cons, not_or] at hp
          simp only [Dict.set, List.cons_append]
          rw [if_neg (Ne.symm hp.1), ih hp.2]
      rw [List.foldl_cons, hset, ih _ (by simpa using h)]
      simp
  simpa using key l [] (by simpa using hnd)

/-- C78.  The test results of a run have exactly the markers of the metrics as keys, and under each the
value of the metric on exactly the vertices of `test_mask`, for the returned model and structure. -/
theorem C78_test {cfgs : List (String × Metric VIn)} {v : Int} {ev : Ev VIn} (hnew : Ev.new cfgs v = .ok ev)
    (hnd : (cfgs.map Prod.fst).Nodup) (n : Net F St S M) (d : VData F St) (r : Result M St ℝ)
    (outputs : List (List ℝ)) (ho : n.predict r.model d.features r.struct = .ok outputs)
    (hl : d.testMask.length = d.labels.length) (hlo : d.testMask.length = outputs.length)
    (res : String → Out ℝ)
    (hres : ∀ p ∈ cfgs, p.2 (some (Spec.chosen d.testMask d.labels),
      .scores n.classes (Spec.chosen d.testMask outputs)) none = .ok (res p.1)) :
    vTest n ev d r = .ok (cfgs.map fun p => (p.1, res p.1)) := by
  obtain ⟨_, _, _, e1, e2⟩ := Props.vres_new hnew
  unfold vTest
  rw [ho]
  simp only [bind, Except.bind, maskSel_eq _ _ hl, maskSel_eq _ _ hlo, Ev.test]
  have hz : ev.markers.zip ev.funcs = cfgs := by
    rw [e1, e2, List.zip_map_left, List.zip_map_right]
    clear * -
    induction cfgs with
    | nil => rfl
    | cons p l ih => simpa using ih
  rw [hz, collectE_ok (g := fun p => (p.1, res p.1))]
  · simp only
    rw [get_foldl_set _ (by rw [List.map_map]; exact hnd)]
  · intro p hp
    rw [hres p hp]; rfl

/-- C78.  A run whose metrics are numbers reports the best trial and its test results.
Missing: metrics that are not numbers. -/
theorem C78_report_partial {cfgs : List (String × Metric VIn)} {v : Int} {ev : Ev VIn}
    (hnew : Ev.new cfgs v = .ok ev) (hnd : (cfgs.map Prod.fst).Nodup) (n ran : Nat) (d : VData F St)
    (net : Nat → Net F St S M) (c c' : Cache M St) (r : Result M St ℝ)
    (hr : run "maximize" n ran (fun i => vTrial ev d (net i)) c = (.ok r, c'))
    (outputs : List (List ℝ)) (ho : (net r.number).predict r.model d.features r.struct = .ok outputs)
    (hl : d.testMask.length = d.labels.length) (hlo : d.testMask.length = outputs.length)
    (res : String → Option ℝ)
    (hres : ∀ p ∈ cfgs, p.2 (some (Spec.chosen d.testMask d.labels),
      .scores (net r.number).classes (Spec.chosen d.testMask outputs)) none = .ok (.mean (res p.1))) :
    vRun n ran ev d net c = (.ok (r, cfgs.map fun p => (p.1, .mean (res p.1))), c') := by
  unfold vRun
  rw [hr]
  simp only
  rw [C78_test hnew hnd (net r.number) d r outputs ho hl hlo (fun k => .mean (res k)) hres]
  simp only
  have : vLog (cfgs.map fun p => (p.1, Out.mean (res p.1))) = .ok () := by
    unfold vLog
    rw [collectE_ok (g := fun p : String × Out ℝ => match p.2 with | .mean x => x | _ => none)]
    · rfl
    · intro p hp
      obtain ⟨q, _, rfl⟩ := List.mem_map.1 hp
      rfl
  rw [this]

/-- C78 fails for a metric that is not a number, such as the confusion matrix: the run raises `TypeError`
at the end, when all trials are done, the best model is loaded, and the test results are computed. -/
theorem C78_report_false (n ran : Nat) (ev : Ev VIn) (d : VData F St) (net : Nat → Net F St S M)
    (c c' : Cache M St) (r : Result M St ℝ)
    (hr : run "maximize" n ran (fun i => vTrial ev d (net i)) c = (.ok r, c'))
    (res : Dict String (Out ℝ)) (ht : vTest (net r.number) ev d r = .ok res)
    (hm : ∃ p ∈ res, ∃ t, p.2 = .table t) :
    vRun n ran ev d net c = (.error (.raised .type), c') := by
  unfold vRun
  rw [hr]
  simp only
  rw [ht]
  simp only
  have : collectE res (fun p => number p.2) = .error .type := by
    obtain ⟨p, hp, t, hpt⟩ := hm
    clear ht
    induction res with
    | nil => cases hp
    | cons q res ih =>
      have hq : number q.2 = .error .type ∨ ∃ x, number q.2 = .ok x := by
        cases q.2 <;> simp [number]
      unfold collectE
      rcases hq with hq | ⟨x, hq⟩
      · rw [hq]; rfl
      · rcases List.mem_cons.1 hp with rfl | hp
        · rw [hpt] at hq; cases hq
        · rw [hq, ih hp]; rfl
  unfold vLog
  rw [this]
  rfl

/-! ## Examples -/

/-- three vertices, one for each purpose -/
def exVData : VData Unit Nat := ⟨(), 7, [0, 1, 1], [true, false, false], [false, true, false], [false, false, true]⟩

/-- a model that counts its training steps -/
def exVNet : Net Unit Nat Nat Nat where
  classes := 2
  init := 0
  forward := fun _ _ s => .ok ([[0, 1], [0, 1], [0, 1]], s)
  learn := fun _ _ _ _ l s => .ok (s + l.length)
  predict := fun m _ _ => .ok [[m, 0], [m, 1], [m, 2]]
  modelOf := id
  step := id
  prune := fun _ => false
  hasOptimizer := true
  hasCriterion := true
  built? := none

/-- the number of labels, and a table -/
def exVCfg (table : Bool) : List (String × Metric VIn) :=
  [("count", fun x _ => .ok (.mean (some ((x.1.getD []).length : ℝ))))] ++
    if table then [("table", fun _ _ => .ok (.table [[1]]))] else []

/-- an evaluator with these metrics, validating by the first -/
def exVEv (table : Bool) : Ev VIn :=
  { vidx := 0, markers := (exVCfg table).map Prod.fst, funcs := (exVCfg table).map Prod.snd, vres := [], tres := [],
    lastV := none, objs := [[]], lastT := 0 }

theorem exVEv_new (table : Bool) : Ev.new (exVCfg table) 0 = .ok (exVEv table) := by
  cases table <;> rfl

theorem exVNet_sound (table : Bool) : Spec.Sound 2 (vTrial (exVEv table) exVData exVNet) :=
  ⟨⟨rfl, rfl, fun _ _ => ⟨_, rfl⟩, fun _ _ => ⟨_, _, rfl, rfl⟩, fun _ => rfl⟩, nofun, fun _ => ⟨0, by omega, nofun⟩⟩

example : Spec.AgreeOn exVData.trainMask exVData.labels [0, 1, 5] ∧
    Spec.AgreeOn exVData.valMask exVData.labels [0, 1, 5] ∧ exVData.labels ≠ [0, 1, 5] := by
  refine ⟨?_, ?_, by decide⟩
  all_goals
    intro i h
    match i with
    | 0 | 1 => first | rfl | simp [exVData] at h
    | 2 => simp [exVData] at h
    | i + 3 => simp [exVData] at h

example : Spec.chosen exVData.testMask exVData.labels = [1] ∧ Spec.chosen [true, false, true] [5, 6, 7] = [5, 7] := by
  decide

/-- the hypotheses of `C78_best` and `C78_report_partial` hold for the example -/
example : ∃ r c, run "maximize" 2 1 (fun _ => vTrial (exVEv false) exVData exVNet) (fun _ => none) = (.ok r, c) ∧
    vRun 2 1 (exVEv false) exVData (fun _ => exVNet) (fun _ => none) = (.ok (r, [("count", .mean (some 1))]), c) := by
  obtain ⟨r, c, outputs, h1, _, _, _, h2, _⟩ := C78_best (exVEv_new false) rfl 2 1 exVData (fun _ => exVNet)
    (fun _ _ => exVNet_sound false) ⟨0, by omega, fun _ _ => rfl⟩
  refine ⟨r, c, h1, ?_⟩
  have := Except.ok.inj h2
  exact C78_report_partial (exVEv_new false) (by simp [exVCfg]) 2 1 exVData (fun _ => exVNet) (fun _ => none) c r h1
    outputs h2 rfl (by rw [← this]; rfl) (fun _ => some 1) (by
      intro p hp
      simp only [exVCfg, List.mem_append, List.mem_singleton] at hp
      rcases hp with rfl | hp
      · have : (Spec.chosen exVData.testMask exVData.labels).length = 1 := by decide
        simp [this]
      · cases hp)

/-- with a table among the metrics the run fails -/
example : ∃ c, vRun 2 1 (exVEv true) exVData (fun _ => exVNet) (fun _ => none) = (.error (.raised .type), c) := by
  obtain ⟨r, c, outputs, h1, _, _, _, h2, _⟩ := C78_best (exVEv_new true) rfl 2 1 exVData (fun _ => exVNet)
    (fun _ _ => exVNet_sound true) ⟨0, by omega, fun _ _ => rfl⟩
  have := Except.ok.inj h2
  exact ⟨c, C78_report_false 2 1 (exVEv true) exVData (fun _ => exVNet) (fun _ => none) c r h1 _ rfl
    ⟨_, List.mem_cons_of_mem _ (List.mem_singleton.2 rfl), [[1]], rfl⟩⟩

end DHG
