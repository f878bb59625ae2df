import Verif.Signatures

/-!
# Calls as documented (C127)
-/

set_option linter.unusedSectionVars false
set_option autoImplicit false

namespace DHG
open Sig

namespace Spec

variable {V : Type}

/-- A call as the documentation of the function allows: not more positional arguments than documented parameters, keywords that are documented and
not given by position, none twice, and everything is given that has no default, neither in the documentation nor in the signature. -/
structure DocCall (f : Fn) (pos : List V) (kw : List (String × V)) : Prop where
  few : pos.length ≤ f.doc.length
  names : ∀ k ∈ kw, k.1 ∈ (f.doc.drop pos.length).map (·.name)
  once : (kw.map (·.1)).Nodup
  all : ∀ d ∈ f.doc.drop pos.length, d.optional = false → (∀ p ∈ f.params, p.name = d.name → p.default = none) →
    d.name ∈ kw.map (·.1)

/-- The call does what the documentation says: the documented parameters get the positional arguments in the documented order, the others the
keyword arguments, and what is left out has the documented default. -/
structure BoundAs (f : Fn) (pos : List V) (kw : List (String × V)) (b : List (String × Arg V)) : Prop where
  byPos : ∀ (j : Nat) d v, f.doc[j]? = some d → pos[j]? = some v → b.lookup d.name = some (.given v)
  byName : ∀ n v, (n, v) ∈ kw → b.lookup n = some (.given v)
  rest : ∀ d ∈ f.doc.drop pos.length, d.name ∉ kw.map (·.1) →
    ∃ t, b.lookup d.name = some (.default t) ∧ ∀ t', d.default = some t' → t = t'

/-- where the documentation and the signature differ -/
def misdocumented : List (String × String) :=
  [("experiments/graphs/graph.py", "GraphVertexClassificationTask"),
   ("models/hypergraphs/hypergcn.py", "HyperGCN"),
   ("random/hypergraphs/hypergraph.py", "uniform_hypergraph_Gnp"),
   ("random/hypergraphs/hypergraph.py", "hypergraph_Gnm"),
   ("structure/base.py", "BaseHypergraph.add_hyperedges"),
   ("structure/hypergraphs/hypergraph.py", "Hypergraph.add_hyperedges"),
   ("structure/hypergraphs/hypergraph.py", "Hypergraph.add_hyperedges_from_feature_kNN"),
   ("structure/hypergraphs/hypergraph.py", "Hypergraph.add_hyperedges_from_bigraph"),
   ("visualization/feature/utils.py", "tanh"),
   ("visualization/feature/utils.py", "project_to_poincare_ball"),
   ("visualization/feature/visualization.py", "draw_in_euclidean_space"),
   ("visualization/feature/visualization.py", "draw_in_poincare_ball"),
   ("visualization/feature/visualization.py", "animation_of_3d_poincare_ball"),
   ("visualization/feature/visualization.py", "animation_of_3d_euclidean_space")]

end Spec

namespace Props
namespace SG
open Spec

variable {V : Type}

theorem lookup_cons' {α : Type} {l : List (String × α)} {n : String} (x : String × α) :
    (x :: l).lookup n = if n == x.1 then some x.2 else l.lookup n := by
  rw [List.lookup_cons]
  cases n == x.1 <;> rfl

theorem lookup_none {α : Type} {l : List (String × α)} {n : String} (h : n ∉ l.map (·.1)) : l.lookup n = none := by
  induction l with
  | nil => rfl
  | cons x l ih =>
    simp only [List.map_cons, List.mem_cons, not_or] at h
    rw [lookup_cons', if_neg (by simpa using h.1), ih h.2]

theorem lookup_mem {α : Type} {l : List (String × α)} (hl : (l.map (·.1)).Nodup) {n : String} {v : α} (h : (n, v) ∈ l) :
    l.lookup n = some v := by
  induction l with
  | nil => cases h
  | cons x l ih =>
    rw [List.map_cons, List.nodup_cons] at hl
    rw [lookup_cons']
    rcases List.mem_cons.1 h with rfl | h
    · simp
    · rw [if_neg, ih hl.2 h]
      intro e
      have e : n = x.1 := by simpa using e
      exact hl.1 (List.mem_map.2 ⟨_, h, e⟩)

theorem lookup_isSome {α : Type} {l : List (String × α)} {n : String} (h : n ∈ l.map (·.1)) : l.lookup n ≠ none := by
  induction l with
  | nil => cases h
  | cons x l ih =>
    rw [lookup_cons']
    split
    · simp
    · next e =>
      rw [List.map_cons, List.mem_cons] at h
      rcases h with h | h
      · simp [h] at e
      · exact ih h

theorem fill_ok (kw : List (String × V)) : ∀ (ps : List Param) (pos : List V), pos.length ≤ ps.length →
    (∀ p ∈ ps.take pos.length, kw.lookup p.name = none) →
    (∀ p ∈ ps.drop pos.length, kw.lookup p.name ≠ none ∨ p.default ≠ none) → (ps.map (·.name)).Nodup →
    ∃ b, fill ps pos kw = .ok b ∧ (∀ n, n ∉ ps.map (·.name) → b.lookup n = none) ∧
      (∀ (j : Nat) p v, ps[j]? = some p → pos[j]? = some v → b.lookup p.name = some (.given v)) ∧
      ∀ p ∈ ps.drop pos.length, b.lookup p.name =
        match kw.lookup p.name with
        | some v => some (.given v)
        | none => p.default.map .default
  | [], [], _, _, _, _ => ⟨[], rfl, fun _ _ => rfl, fun j p v h => by simp at h, fun p h => by simp at h⟩
  | [], _ :: _, h, _, _, _ => by simp at h
  | p :: ps, v :: pos, h, hn, hd, hN => by
    rw [List.map_cons, List.nodup_cons] at hN
    obtain ⟨b, h1, h2, h3, h4⟩ := fill_ok kw ps pos (by simpa using h)
      (fun q hq => hn q (by simp [hq])) (fun q hq => hd q (by simpa using hq)) hN.2
    refine ⟨(p.name, .given v) :: b, ?_, fun n hn => ?_, fun j q x hq hx => ?_, fun q hq => ?_⟩
    · rw [fill, hn p (by simp), h1]; rfl
    · simp only [List.map_cons, List.mem_cons, not_or] at hn
      rw [lookup_cons', if_neg (by simpa using hn.1), h2 n hn.2]
    · rw [lookup_cons']
      cases j with
      | zero =>
        simp only [List.getElem?_cons_zero, Option.some.injEq] at hq hx
        subst hq hx
        simp
      | succ j =>
        simp only [List.getElem?_cons_succ] at hq hx
        rw [if_neg, h3 j q x hq hx]
        intro e
        have e : q.name = p.name := by simpa using e
        exact hN.1 (e ▸ List.mem_map.2 ⟨q, List.mem_of_getElem? hq, rfl⟩)
    · have hq' : q ∈ ps.drop pos.length := by simpa using hq
      rw [lookup_cons', if_neg, h4 q hq']
      intro e
      have e : q.name = p.name := by simpa using e
      exact hN.1 (e ▸ List.mem_map.2 ⟨q, List.mem_of_mem_drop hq', rfl⟩)
  | p :: ps, [], h, hn, hd, hN => by
    rw [List.map_cons, List.nodup_cons] at hN
    obtain ⟨b, h1, h2, h3, h4⟩ := fill_ok kw ps [] (by simp) (by simp) (fun q hq => hd q (by
      simp only [List.length_nil, List.drop_zero] at hq ⊢
      exact List.mem_cons_of_mem _ hq)) hN.2
    have key : ∀ a : Arg V, (match kw.lookup p.name with
          | some v => some (.given v)
          | none => p.default.map .default) = some a → fill (p :: ps) [] kw = .ok ((p.name, a) :: b) := by
      intro a ha
      rw [fill]
      cases hk : kw.lookup p.name with
      | some v =>
        rw [hk] at ha
        simp only [Option.some.injEq] at ha
        subst ha
        simp only [h1]; rfl
      | none =>
        rw [hk] at ha
        cases hp : p.default with
        | none => rw [hp] at ha; cases ha
        | some t =>
          rw [hp] at ha
          simp only [Option.map_some, Option.some.injEq] at ha
          subst ha
          simp only [h1]; rfl
    have hex : ∃ a : Arg V, (match kw.lookup p.name with
          | some v => some (.given v)
          | none => p.default.map .default) = some a := by
      rcases hd p (by simp) with hk | hk
      · cases hk' : kw.lookup p.name with
        | none => exact absurd hk' hk
        | some v => exact ⟨_, rfl⟩
      · cases hk' : kw.lookup p.name with
        | some v => exact ⟨_, rfl⟩
        | none =>
          cases hp : p.default with
          | none => exact absurd hp hk
          | some t => exact ⟨_, rfl⟩
    obtain ⟨a, ha⟩ := hex
    refine ⟨_, key a ha, fun n hn => ?_, fun j q x hq hx => by simp at hx, fun q hq => ?_⟩
    · simp only [List.map_cons, List.mem_cons, not_or] at hn
      rw [lookup_cons', if_neg (by simpa using hn.1), h2 n hn.2]
    · simp only [List.length_nil, List.drop_zero] at hq
      rw [lookup_cons']
      rcases List.mem_cons.1 hq with rfl | hq
      · rw [ha]; simp
      · rw [if_neg, h4 q (by simpa using hq)]
        intro e
        have e : q.name = p.name := by simpa using e
        exact hN.1 (e ▸ List.mem_map.2 ⟨q, hq, rfl⟩)

/-- the documented parameters exist with the documented defaults, and undocumented ones have a default -/
def Fits (f : Fn) : Prop :=
  (f.params.map (·.name)).Nodup ∧ (f.doc.map (·.name)).Nodup ∧
  (∀ d ∈ f.doc, ∃ p ∈ f.params, p.name = d.name ∧ (d.optional = true → p.default ≠ none) ∧
    (d.default = none ∨ p.default = d.default)) ∧
  ∀ p ∈ f.params, p.name ∈ f.doc.map (·.name) ∨ p.default ≠ none

instance (f : Fn) : Decidable (Fits f) := by unfold Fits; infer_instance

theorem bound {f : Fn} (hf : Fits f) {pos : List V} {kw : List (String × V)} (h : DocCall f pos kw)
    (ht : (f.doc.take pos.length).map (·.name) = (f.params.take pos.length).map (·.name)) :
    ∃ b, bind f.params pos kw = .ok b ∧ BoundAs f pos kw b := by
  obtain ⟨hN, hM, hD, hP⟩ := hf
  have hsplit : ((f.doc.take pos.length).map (·.name) ++ (f.doc.drop pos.length).map (·.name)).Nodup := by
    rw [← List.map_append, List.take_append_drop]; exact hM
  have hdis := (List.nodup_append.1 hsplit).2.2
  have hlen : pos.length ≤ f.params.length := by
    have := congrArg List.length ht
    simp only [List.length_map, List.length_take] at this
    have := h.few
    omega
  have hkw : ∀ k ∈ kw, k.1 ∈ f.doc.map (·.name) := fun k hk => by
    obtain ⟨d, hd, e⟩ := List.mem_map.1 (h.names k hk)
    exact List.mem_map.2 ⟨d, List.mem_of_mem_drop hd, e⟩
  -- a parameter after the positional ones is documented after them or not at all
  have hlater : ∀ p ∈ f.params.drop pos.length, ∀ d ∈ f.doc, d.name = p.name → d ∈ f.doc.drop pos.length := by
    intro p hp d hd e
    rw [← List.take_append_drop pos.length f.doc] at hd
    rcases List.mem_append.1 hd with hd | hd
    · have h1 : p.name ∈ (f.params.take pos.length).map (·.name) := ht ▸ List.mem_map.2 ⟨d, hd, e⟩
      have h2 : ((f.params.take pos.length).map (·.name) ++ (f.params.drop pos.length).map (·.name)).Nodup := by
        rw [← List.map_append, List.take_append_drop]; exact hN
      exact absurd rfl ((List.nodup_append.1 h2).2.2 _ h1 _ (List.mem_map.2 ⟨p, hp, rfl⟩))
    · exact hd
  obtain ⟨b, h1, h2, h3, h4⟩ := fill_ok kw f.params pos hlen
    (by
      intro p hp
      refine lookup_none fun hc => ?_
      obtain ⟨k, hk, e⟩ := List.mem_map.1 hc
      have ha : p.name ∈ (f.doc.take pos.length).map (·.name) := ht ▸ List.mem_map.2 ⟨p, hp, rfl⟩
      exact hdis _ ha _ (h.names k hk) e.symm)
    (by
      intro p hp
      rcases hP p (List.mem_of_mem_drop hp) with hd | hd
      · obtain ⟨d, hd, e⟩ := List.mem_map.1 hd
        cases ho : d.optional with
        | false =>
          cases hpd : p.default with
          | some t => exact .inr (by simp)
          | none =>
            refine .inl (lookup_isSome (e ▸ h.all d (hlater p hp d hd e) ho fun q hq e' => ?_))
            rw [List.inj_on_of_nodup_map hN hq (List.mem_of_mem_drop hp) (e'.trans e), hpd]
        | true =>
          right
          obtain ⟨q, hq, e', hq', -⟩ := hD d hd
          have : q = p := List.inj_on_of_nodup_map hN hq (List.mem_of_mem_drop hp) (e'.trans e)
          exact this ▸ hq' ho
      · exact .inr hd) hN
  -- the parameter of a documented one
  have hparam : ∀ d ∈ f.doc.drop pos.length, ∃ p ∈ f.params.drop pos.length, p.name = d.name ∧
      (d.optional = true → p.default ≠ none) ∧ (d.default = none ∨ p.default = d.default) := by
    intro d hd
    obtain ⟨p, hp, e, hq⟩ := hD d (List.mem_of_mem_drop hd)
    rw [← List.take_append_drop pos.length f.params] at hp
    rcases List.mem_append.1 hp with hp | hp
    · have ha : d.name ∈ (f.doc.take pos.length).map (·.name) := ht ▸ List.mem_map.2 ⟨p, hp, e⟩
      exact absurd rfl (hdis _ ha _ (List.mem_map.2 ⟨d, hd, rfl⟩))
    · exact ⟨p, hp, e, hq⟩
  refine ⟨b, ?_, ⟨fun j d v hj hv => ?_, fun n v hn => ?_, fun d hd hn => ?_⟩⟩
  · unfold Sig.bind
    rw [if_pos, h1]
    rw [List.all_eq_true]
    intro k hk
    rw [List.any_eq_true]
    obtain ⟨d, hd, e⟩ := List.mem_map.1 (hkw k hk)
    obtain ⟨p, hp, e', -⟩ := hD d hd
    exact ⟨p, hp, by simp [e', e]⟩
  · have hlt : j < pos.length := by
      by_contra hc
      rw [List.getElem?_eq_none (by omega)] at hv
      cases hv
    have hj' : (f.params[j]?).map (·.name) = some d.name := by
      have := congrArg (·[j]?) ht
      simp only [List.getElem?_map, List.getElem?_take, if_pos hlt, hj] at this
      exact this.symm
    cases hp : f.params[j]? with
    | none => rw [hp] at hj'; cases hj'
    | some p =>
      rw [hp] at hj'
      simp only [Option.map_some, Option.some.injEq] at hj'
      rw [← hj']
      exact h3 j p v hp hv
  · obtain ⟨d, hd, e⟩ := List.mem_map.1 (h.names _ hn)
    obtain ⟨p, hp, e', -⟩ := hparam d hd
    have := h4 p hp
    have e2 : p.name = n := e'.trans e
    rw [e2, lookup_mem h.once hn] at this
    exact this
  · obtain ⟨p, hp, e', ho, hdf⟩ := hparam d hd
    have := h4 p hp
    rw [e', lookup_none hn] at this
    cases hpd : p.default with
    | none =>
      cases hopt : d.optional with
      | true => exact absurd hpd (ho hopt)
      | false =>
        refine absurd (h.all d hd hopt fun q hq e => ?_) hn
        rw [List.inj_on_of_nodup_map hN hq (List.mem_of_mem_drop hp) (e.trans e'.symm), hpd]
    | some t =>
      rw [hpd] at this hdf
      refine ⟨t, this, fun t' ht' => ?_⟩
      rcases hdf with hdf | hdf
      · rw [hdf] at ht'; cases ht'
      · rw [ht'] at hdf; simpa using hdf

/-- positional arguments go where the documentation says -/
def InOrder (f : Fn) : Prop := f.doc.map (·.name) = (f.params.take f.doc.length).map (·.name)

instance (f : Fn) : Decidable (InOrder f) := by unfold InOrder; infer_instance

theorem InOrder.take {f : Fn} (h : InOrder f) {n : Nat} (hn : n ≤ f.doc.length) :
    (f.doc.take n).map (·.name) = (f.params.take n).map (·.name) := by
  have := congrArg (List.take n) h
  rwa [← List.map_take, ← List.map_take, List.take_take, Nat.min_eq_left hn] at this

theorem table_fits : ∀ f ∈ table, (f.file, f.name) ∉ misdocumented → Fits f ∧ InOrder f := by
  decide +kernel

/-! ### the constructors of the tasks -/

/-- the parameters of `BaseTask` and of the classes that hand on all of them -/
def taskParams : List Param :=
  [⟨"work_root", none⟩, ⟨"data", none⟩, ⟨"model_builder", none⟩, ⟨"train_builder", none⟩, ⟨"evaluator", none⟩,
   ⟨"device", none⟩, ⟨"structure_builder", some "None"⟩, ⟨"study_name", some "None"⟩, ⟨"overwrite", some "True"⟩]

/-- what the documentation of the tasks lists -/
def taskNames : List String :=
  ["work_root", "data", "model_builder", "train_builder", "evaluator", "device", "structure_builder", "study_name",
   "overwrite"]

theorem params_base : paramsOf "experiments/base.py" "BaseTask" = taskParams := by decide +kernel
theorem params_vertex : paramsOf "experiments/vertex_classification.py" "VertexClassificationTask" = taskParams := by
  decide +kernel
theorem params_rec : paramsOf "experiments/recommender.py" "UserItemRecommenderTask" = taskParams := by decide +kernel
theorem params_hyper :
    paramsOf "experiments/hypergraphs/hypergraph.py" "HypergraphVertexClassificationTask" = taskParams := by
  decide +kernel

/-- nine values under the names of the task, looked up in the same way -/
theorem handOn_all (file cls : String) {b : List (String × Arg V)} (h : ∀ n ∈ taskNames, ∃ a, b.lookup n = some a) :
    ∃ b', handOn ⟨file, cls, ["work_root", "data", "model_builder", "train_builder", "evaluator", "device"],
        [("structure_builder", "structure_builder"), ("study_name", "study_name"), ("overwrite", "overwrite")]⟩
        taskParams b = .ok b' ∧ ∀ n ∈ taskNames, b'.lookup n = b.lookup n := by
  obtain ⟨a1, h1⟩ := h "work_root" (by simp [taskNames])
  obtain ⟨a2, h2⟩ := h "data" (by simp [taskNames])
  obtain ⟨a3, h3⟩ := h "model_builder" (by simp [taskNames])
  obtain ⟨a4, h4⟩ := h "train_builder" (by simp [taskNames])
  obtain ⟨a5, h5⟩ := h "evaluator" (by simp [taskNames])
  obtain ⟨a6, h6⟩ := h "device" (by simp [taskNames])
  obtain ⟨a7, h7⟩ := h "structure_builder" (by simp [taskNames])
  obtain ⟨a8, h8⟩ := h "study_name" (by simp [taskNames])
  obtain ⟨a9, h9⟩ := h "overwrite" (by simp [taskNames])
  have hb : Sig.bind taskParams [a1, a2, a3, a4, a5, a6]
      [("structure_builder", a7), ("study_name", a8), ("overwrite", a9)] =
      .ok [("work_root", .given a1), ("data", .given a2), ("model_builder", .given a3), ("train_builder", .given a4),
        ("evaluator", .given a5), ("device", .given a6), ("structure_builder", .given a7), ("study_name", .given a8),
        ("overwrite", .given a9)] := by
    rfl
  refine ⟨[("work_root", a1), ("data", a2), ("model_builder", a3), ("train_builder", a4), ("evaluator", a5),
    ("device", a6), ("structure_builder", a7), ("study_name", a8), ("overwrite", a9)], ?_, ?_⟩
  · unfold handOn
    simp only [List.mapM_cons, List.mapM_nil, value, h1, h2, h3, h4, h5, h6, h7, h8, h9]
    show (do
      let b' ← Sig.bind taskParams [a1, a2, a3, a4, a5, a6]
        [("structure_builder", a7), ("study_name", a8), ("overwrite", a9)]
      return b'.map fun x : String × Arg (Arg V) => (x.1, flat x.2)) = _
    rw [hb]
    rfl
  · intro n hn
    simp only [taskNames, List.mem_cons, List.not_mem_nil, or_false] at hn
    rcases hn with rfl | rfl | rfl | rfl | rfl | rfl | rfl | rfl | rfl <;>
      first | rw [h1] | rw [h2] | rw [h3] | rw [h4] | rw [h5] | rw [h6] | rw [h7] | rw [h8] | rw [h9]
    all_goals rfl

/-- the same for the class that has no `structure_builder` -/
theorem handOn_graph {b : List (String × Arg V)} (h : ∀ n ∈ taskNames, n ≠ "structure_builder" → ∃ a, b.lookup n = some a) :
    ∃ b', handOn handsGraph taskParams b = .ok b' ∧ b'.lookup "structure_builder" = some (.default "None") ∧
      ∀ n ∈ taskNames, n ≠ "structure_builder" → b'.lookup n = b.lookup n := by
  obtain ⟨a1, h1⟩ := h "work_root" (by simp [taskNames]) (by decide)
  obtain ⟨a2, h2⟩ := h "data" (by simp [taskNames]) (by decide)
  obtain ⟨a3, h3⟩ := h "model_builder" (by simp [taskNames]) (by decide)
  obtain ⟨a4, h4⟩ := h "train_builder" (by simp [taskNames]) (by decide)
  obtain ⟨a5, h5⟩ := h "evaluator" (by simp [taskNames]) (by decide)
  obtain ⟨a6, h6⟩ := h "device" (by simp [taskNames]) (by decide)
  obtain ⟨a8, h8⟩ := h "study_name" (by simp [taskNames]) (by decide)
  obtain ⟨a9, h9⟩ := h "overwrite" (by simp [taskNames]) (by decide)
  have hb : Sig.bind taskParams [a1, a2, a3, a4, a5, a6] [("study_name", a8), ("overwrite", a9)] =
      .ok [("work_root", .given a1), ("data", .given a2), ("model_builder", .given a3), ("train_builder", .given a4),
        ("evaluator", .given a5), ("device", .given a6), ("structure_builder", .default "None"), ("study_name", .given a8),
        ("overwrite", .given a9)] := by
    rfl
  refine ⟨[("work_root", a1), ("data", a2), ("model_builder", a3), ("train_builder", a4), ("evaluator", a5),
    ("device", a6), ("structure_builder", .default "None"), ("study_name", a8), ("overwrite", a9)], ?_, rfl, ?_⟩
  · unfold handOn handsGraph
    simp only [List.mapM_cons, List.mapM_nil, value, h1, h2, h3, h4, h5, h6, h8, h9]
    show (do
      let b' ← Sig.bind taskParams [a1, a2, a3, a4, a5, a6] [("study_name", a8), ("overwrite", a9)]
      return b'.map fun x : String × Arg (Arg V) => (x.1, flat x.2)) = _
    rw [hb]
    rfl
  · intro n hn hne
    simp only [taskNames, List.mem_cons, List.not_mem_nil, or_false] at hn
    rcases hn with rfl | rfl | rfl | rfl | rfl | rfl | rfl | rfl | rfl <;>
      first | exact absurd rfl hne | rw [h1] | rw [h2] | rw [h3] | rw [h4] | rw [h5] | rw [h6] | rw [h8] | rw [h9]
    all_goals rfl

theorem boundAs_some {f : Fn} {pos : List V} {kw : List (String × V)} {b : List (String × Arg V)}
    (hb : BoundAs f pos kw b) {n : String} (hn : n ∈ f.doc.map (·.name)) : ∃ a, b.lookup n = some a := by
  obtain ⟨d, hd, rfl⟩ := List.mem_map.1 hn
  obtain ⟨j, hj, e⟩ := List.getElem_of_mem hd
  by_cases hp : j < pos.length
  · exact ⟨_, hb.byPos j d pos[j] (by rw [List.getElem?_eq_getElem hj, e]) (List.getElem?_eq_getElem hp)⟩
  · by_cases hk : d.name ∈ kw.map (·.1)
    · obtain ⟨k, hk, e'⟩ := List.mem_map.1 hk
      exact ⟨_, e' ▸ hb.byName k.1 k.2 hk⟩
    · have : d ∈ f.doc.drop pos.length := by
        rw [← e]
        exact List.mem_drop_iff_getElem.2 ⟨j - pos.length, by omega, by congr 1; omega⟩
      obtain ⟨t, ht, -⟩ := hb.rest d this hk
      exact ⟨_, ht⟩

theorem boundAs_congr {f : Fn} {pos : List V} {kw : List (String × V)} {b b' : List (String × Arg V)}
    (hc : DocCall f pos kw) (hb : BoundAs f pos kw b) (h : ∀ n ∈ f.doc.map (·.name), b'.lookup n = b.lookup n) :
    BoundAs f pos kw b' := by
  refine ⟨fun j d v hj hv => ?_, fun n v hn => ?_, fun d hd hn => ?_⟩
  · rw [h _ (List.mem_map.2 ⟨d, List.mem_of_getElem? hj, rfl⟩)]
    exact hb.byPos j d v hj hv
  · obtain ⟨d, hd, e⟩ := List.mem_map.1 (hc.names _ hn)
    rw [h _ (List.mem_map.2 ⟨d, List.mem_of_mem_drop hd, e⟩)]
    exact hb.byName n v hn
  · rw [h _ (List.mem_map.2 ⟨d, List.mem_of_mem_drop hd, rfl⟩)]
    exact hb.rest d hd hn

theorem tasks_fit : ∀ f ∈ table, f.name ∈ ["BaseTask", "VertexClassificationTask", "UserItemRecommenderTask",
      "HypergraphVertexClassificationTask"] →
    f.params = taskParams ∧ f.doc.map (·.name) = taskNames ∧ Fits f ∧ InOrder f := by
  decide +kernel

end SG
open Spec SG

variable {V : Type}

/-- C127. A call as the documentation of a function, method or class allows, with any arguments and any mixture of positional and keyword
arguments, is accepted, and every documented parameter gets the argument that the documentation says, or the documented
default.  Missing: the functions in `Spec.misdocumented` (the theorems `C127_…_false`), and functions with `*args` or `**kwargs`. -/
theorem C127_calls_as_documented_partial {f : Fn} (hf : f ∈ table) (hm : (f.file, f.name) ∉ Spec.misdocumented)
    {pos : List V} {kw : List (String × V)} (h : Spec.DocCall f pos kw) :
    ∃ b, Sig.bind f.params pos kw = .ok b ∧ Spec.BoundAs f pos kw b :=
  bound (table_fits f hf hm).1 h ((table_fits f hf hm).2.take h.few)

/-- C127. For `HyperGCN` and `uniform_hypergraph_Gnp` this holds when all arguments are given by keyword; for `HyperGCN` also when only the first four
are positional.  Missing: positional arguments (`C127_HyperGCN_false`, `C127_uniform_hypergraph_Gnp_false`). -/
theorem C127_keyword_calls_partial {f : Fn} (hf : f ∈ table) {pos : List V} {kw : List (String × V)} (h : Spec.DocCall f pos kw)
    (hm : f.name = "HyperGCN" ∧ pos.length ≤ 4 ∨ f.name = "uniform_hypergraph_Gnp" ∧ pos = []) :
    ∃ b, Sig.bind f.params pos kw = .ok b ∧ Spec.BoundAs f pos kw b := by
  have key : ∀ f ∈ table, (f.name = "HyperGCN" → Fits f ∧ f.doc.length = 6 ∧
      (f.doc.take 4).map (·.name) = (f.params.take 4).map (·.name)) ∧
      (f.name = "uniform_hypergraph_Gnp" → Fits f) := by decide +kernel
  rcases hm with ⟨hn, hl⟩ | ⟨hn, rfl⟩
  · obtain ⟨hF, -, ht⟩ := (key f hf).1 hn
    refine bound hF h ?_
    have := congrArg (List.take pos.length) ht
    rwa [← List.map_take, ← List.map_take, List.take_take, List.take_take, Nat.min_eq_left hl] at this
  · exact bound ((key f hf).2 hn) h rfl

/-- C127. Whatever class of tasks is called as documented, `BaseTask.__init__` gets for each documented parameter the argument that the
documentation says, or the documented default.  Missing: `GraphVertexClassificationTask` (`C127_graph_task_false`). -/
theorem C127_task_constructors_partial {cls : String} {chain : List Hands} (hc : (cls, chain) ∈ chains)
    (hg : cls ≠ "GraphVertexClassificationTask") {f : Fn} (hf : f ∈ table) (hn : f.name = cls)
    {pos : List V} {kw : List (String × V)} (h : Spec.DocCall f pos kw) :
    ∃ b, construct chain pos kw = .ok b ∧ Spec.BoundAs f pos kw b := by
  have hcls : f.name ∈ ["BaseTask", "VertexClassificationTask", "UserItemRecommenderTask",
      "HypergraphVertexClassificationTask"] := by
    simp only [chains, List.mem_cons, Prod.mk.injEq, List.not_mem_nil, or_false] at hc
    simp only [hn, List.mem_cons, List.not_mem_nil, or_false]
    rcases hc with h | h | h | h | h
    · exact .inl h.1
    · exact .inr (.inl h.1)
    · exact .inr (.inr (.inl h.1))
    · exact absurd h.1 hg
    · exact .inr (.inr (.inr h.1))
  obtain ⟨hp, hd, hF, hO⟩ := tasks_fit f hf hcls
  obtain ⟨b, hb, hB⟩ := bound hF h (hO.take h.few)
  rw [hp] at hb
  have hsome : ∀ n ∈ taskNames, ∃ a, b.lookup n = some a := fun n hn => boundAs_some hB (hd ▸ hn)
  simp only [chains, List.mem_cons, Prod.mk.injEq, List.not_mem_nil, or_false] at hc
  rcases hc with ⟨-, rfl⟩ | ⟨-, rfl⟩ | ⟨-, rfl⟩ | h' | ⟨-, rfl⟩
  · exact ⟨b, by rw [construct, params_base, hb], hB⟩
  · obtain ⟨b', h1, h2⟩ := handOn_all "experiments/vertex_classification.py" "VertexClassificationTask" hsome
    refine ⟨b', ?_, boundAs_congr h hB (hd ▸ h2)⟩
    simp only [construct, handsVertex, params_vertex, hb, construct.up, params_base]
    exact h1
  · obtain ⟨b', h1, h2⟩ := handOn_all "experiments/recommender.py" "UserItemRecommenderTask" hsome
    refine ⟨b', ?_, boundAs_congr h hB (hd ▸ h2)⟩
    simp only [construct, handsRec, params_rec, hb, construct.up, params_base]
    exact h1
  · exact absurd h'.1 hg
  · obtain ⟨b', h1, h2⟩ := handOn_all "experiments/hypergraphs/hypergraph.py" "HypergraphVertexClassificationTask" hsome
    obtain ⟨b'', h3, h4⟩ := handOn_all "experiments/vertex_classification.py" "VertexClassificationTask" (b := b')
      fun n hn => by rw [h2 n hn]; exact hsome n hn
    refine ⟨b'', ?_, boundAs_congr h hB (hd ▸ fun n hn => (h4 n hn).trans (h2 n hn))⟩
    simp only [construct, handsHyper, handsVertex, params_hyper, params_vertex, hb, construct.up, params_base]
    show (handOn _ _ b >>= fun x => handOn _ _ x) = _
    rw [h1]
    exact h3

/-- C127. `GraphVertexClassificationTask` called as documented, but never with `structure_builder`, hands everything to
`BaseTask.__init__`, with no builder.  Missing: `structure_builder` (`C127_graph_task_false`). -/
theorem C127_graph_task_partial {chain : List Hands} (hc : ("GraphVertexClassificationTask", chain) ∈ chains)
    {f : Fn} (hf : f ∈ table) (hn : f.name = "GraphVertexClassificationTask") {pos : List V} {kw : List (String × V)}
    (h : Spec.DocCall { f with doc := f.doc.filter fun d => d.name != "structure_builder" } pos kw) :
    ∃ b, construct chain pos kw = .ok b ∧
      Spec.BoundAs { f with doc := f.doc.filter fun d => d.name != "structure_builder" } pos kw b ∧
      b.lookup "structure_builder" = some (.default "None") := by
  have key : ∀ f ∈ table, f.name = "GraphVertexClassificationTask" →
      Fits { f with doc := f.doc.filter fun d => d.name != "structure_builder" } ∧
      InOrder { f with doc := f.doc.filter fun d => d.name != "structure_builder" } ∧
      (f.doc.filter fun d => d.name != "structure_builder").map (·.name) = taskNames.filter (· != "structure_builder") ∧
      f.params = paramsOf "experiments/graphs/graph.py" "GraphVertexClassificationTask" := by decide +kernel
  obtain ⟨hF, hO, hd, hp⟩ := key f hf hn
  obtain ⟨b, hb, hB⟩ := bound hF h (hO.take h.few)
  have hmem : ∀ n ∈ taskNames, n ≠ "structure_builder" →
      n ∈ ({ f with doc := f.doc.filter fun d => d.name != "structure_builder" } : Fn).doc.map (·.name) := by
    intro n hn hne
    show n ∈ (f.doc.filter fun d => d.name != "structure_builder").map (·.name)
    rw [hd, List.mem_filter]
    exact ⟨hn, by simpa using hne⟩
  obtain ⟨b1, h1, hs, h2⟩ := handOn_graph (b := b) fun n hn hne => boundAs_some hB (hmem n hn hne)
  have hsome : ∀ n ∈ taskNames, ∃ a, b1.lookup n = some a := by
    intro n hn
    by_cases hne : n = "structure_builder"
    · exact ⟨_, hne ▸ hs⟩
    · rw [h2 n hn hne]; exact boundAs_some hB (hmem n hn hne)
  obtain ⟨b2, h3, h4⟩ := handOn_all "experiments/vertex_classification.py" "VertexClassificationTask" hsome
  have hchain : chain = [handsGraph, handsVertex] := by
    simp only [chains, List.mem_cons, Prod.mk.injEq, List.not_mem_nil, or_false] at hc
    rcases hc with h | h | h | h | h
    · exact absurd h.1 (by decide)
    · exact absurd h.1 (by decide)
    · exact absurd h.1 (by decide)
    · exact h.2
    · exact absurd h.1 (by decide)
  refine ⟨b2, ?_, boundAs_congr h hB ?_, by rw [h4 _ (by simp [taskNames])]; exact hs⟩
  · rw [hchain]
    change Sig.bind f.params pos kw = _ at hb
    rw [hp] at hb
    simp only [construct, handsGraph, handsVertex, params_vertex, hb, construct.up, params_base]
    show (handOn handsGraph _ b >>= fun x => handOn _ _ x) = _
    rw [h1]
    exact h3
  · intro n hn'
    change n ∈ (f.doc.filter fun d => d.name != "structure_builder").map (·.name) at hn'
    rw [hd, List.mem_filter] at hn'
    rw [h4 n hn'.1, h2 n hn'.1 (by simpa using hn'.2)]

/-! ### where the documentation is wrong -/

/-- the conditions of `DocCall`, to be computed -/
def docCallB (f : Fn) (pos : List Nat) (kw : List (String × Nat)) : Prop :=
  pos.length ≤ f.doc.length ∧ (∀ k ∈ kw, k.1 ∈ (f.doc.drop pos.length).map (·.name)) ∧ (kw.map (·.1)).Nodup ∧
  ∀ d ∈ f.doc.drop pos.length, d.optional = false → (∀ p ∈ f.params, p.name = d.name → p.default = none) →
    d.name ∈ kw.map (·.1)

instance (f : Fn) (pos : List Nat) (kw : List (String × Nat)) : Decidable (docCallB f pos kw) := by
  unfold docCallB; infer_instance

/-- the call fails, or a positional argument or a default is not where the documentation says -/
def badB (f : Fn) (pos : List Nat) (kw : List (String × Nat)) : Prop :=
  match Sig.bind f.params pos kw with
  | .error _ => True
  | .ok b => (∃ x ∈ f.doc.zip pos, b.lookup x.1.name ≠ some (.given x.2)) ∨
      ∃ d ∈ f.doc.drop pos.length, d.name ∉ kw.map (·.1) ∧ d.default ≠ none ∧
        b.lookup d.name ≠ d.default.map .default

instance (f : Fn) (pos : List Nat) (kw : List (String × Nat)) : Decidable (badB f pos kw) := by
  unfold badB; split <;> infer_instance

theorem not_bound {f : Fn} {pos : List Nat} {kw : List (String × Nat)} (h : badB f pos kw) :
    ¬ ∃ b, Sig.bind f.params pos kw = .ok b ∧ Spec.BoundAs f pos kw b := by
  rintro ⟨b, hb, hB⟩
  unfold badB at h
  rw [hb] at h
  rcases h with ⟨x, hx, hne⟩ | ⟨d, hd, hn, hdf, hne⟩
  · obtain ⟨j, hj, e⟩ := List.getElem_of_mem hx
    rw [List.getElem_zip] at e
    rw [List.length_zip] at hj
    subst e
    exact hne (hB.byPos j _ _ (List.getElem?_eq_getElem (by omega)) (List.getElem?_eq_getElem (by omega)))
  · obtain ⟨t, ht, h'⟩ := hB.rest d hd hn
    cases hdd : d.default with
    | none => exact hdf hdd
    | some t' =>
      rw [hdd, ht, h' t' hdd] at hne
      exact hne rfl

/-- for each of them a call as documented -/
def badCalls : List ((String × String) × List Nat × List (String × Nat)) :=
  [(("experiments/graphs/graph.py", "GraphVertexClassificationTask"), [1, 2, 3, 4, 5, 6], [("structure_builder", 7)]),
   (("models/hypergraphs/hypergcn.py", "HyperGCN"), [1, 2, 3, 4, 5], []),
   (("random/hypergraphs/hypergraph.py", "uniform_hypergraph_Gnp"), [1, 2, 3], []),
   (("random/hypergraphs/hypergraph.py", "hypergraph_Gnm"), [1, 2], []),
   (("structure/base.py", "BaseHypergraph.add_hyperedges"), [1, 2, 3], []),
   (("structure/hypergraphs/hypergraph.py", "Hypergraph.add_hyperedges"), [1, 2], []),
   (("structure/hypergraphs/hypergraph.py", "Hypergraph.add_hyperedges_from_feature_kNN"), [], [("features", 1), ("k", 2)]),
   (("structure/hypergraphs/hypergraph.py", "Hypergraph.add_hyperedges_from_bigraph"), [1], []),
   (("visualization/feature/utils.py", "tanh"), [1], [("clap", 2)]),
   (("visualization/feature/utils.py", "project_to_poincare_ball"), [], [("feature", 1), ("dim", 2)]),
   (("visualization/feature/visualization.py", "draw_in_euclidean_space"), [], [("feature", 1)]),
   (("visualization/feature/visualization.py", "draw_in_poincare_ball"), [], [("feature", 1)]),
   (("visualization/feature/visualization.py", "animation_of_3d_poincare_ball"), [], [("feature", 1)]),
   (("visualization/feature/visualization.py", "animation_of_3d_euclidean_space"), [], [("feature", 1)])]

/-- C127 is false for each function in `Spec.misdocumented`: there is a call as documented that fails or does not do what the documentation says. -/
theorem C127_misdocumented_false : ∀ x ∈ Spec.misdocumented, ∃ f ∈ table, (f.file, f.name) = x ∧
    ¬ ∀ (pos : List Nat) (kw : List (String × Nat)), Spec.DocCall f pos kw →
      ∃ b, Sig.bind f.params pos kw = .ok b ∧ Spec.BoundAs f pos kw b := by
  have key : ∀ x ∈ Spec.misdocumented, ∃ c ∈ badCalls, c.1 = x ∧ ∃ f ∈ table, (f.file, f.name) = x ∧
      docCallB f c.2.1 c.2.2 ∧ badB f c.2.1 c.2.2 := by decide +kernel
  intro x hx
  obtain ⟨c, -, -, f, hf, e, ⟨h1, h2, h3, h4⟩, hb⟩ := key x hx
  exact ⟨f, hf, e, fun h => not_bound hb (h _ _ ⟨h1, h2, h3, h4⟩)⟩

/-- C127 is false for `GraphVertexClassificationTask`, which documents `structure_builder`: by keyword it is a `TypeError`, by position it becomes the name of
the study and there is no builder. -/
theorem C127_graph_task_false {chain : List Hands} (hc : ("GraphVertexClassificationTask", chain) ∈ chains)
    {f : Fn} (hf : f ∈ table) (hn : f.name = "GraphVertexClassificationTask") :
    (Spec.DocCall f [1, 2, 3, 4, 5, 6] [("structure_builder", 7)] ∧
      construct chain [1, 2, 3, 4, 5, 6] [("structure_builder", 7)] = .error .type) ∧
    Spec.DocCall f [1, 2, 3, 4, 5, 6, 7] [] ∧ ∃ b, construct chain [1, 2, 3, 4, 5, 6, 7] [] = .ok b ∧
      b.lookup "study_name" = some (.given 7) ∧ b.lookup "structure_builder" = some (.default "None") := by
  have key : ∀ c ∈ chains, c.1 = "GraphVertexClassificationTask" →
      construct c.2 [1, 2, 3, 4, 5, 6] [("structure_builder", 7)] = .error .type ∧
      construct c.2 [1, 2, 3, 4, 5, 6, 7] [] = .ok [("work_root", .given 1), ("data", .given 2), ("model_builder", .given 3),
        ("train_builder", .given 4), ("evaluator", .given 5), ("device", .given 6), ("structure_builder", .default "None"),
        ("study_name", .given 7), ("overwrite", .default "True")] := by
    simp only [chains, List.forall_mem_cons]
    refine ⟨by decide, by decide, by decide, fun _ => ⟨by decide +kernel, by decide +kernel⟩, by decide, by simp⟩
  have key' : ∀ f ∈ table, f.name = "GraphVertexClassificationTask" →
      docCallB f [1, 2, 3, 4, 5, 6] [("structure_builder", 7)] ∧ docCallB f [1, 2, 3, 4, 5, 6, 7] [] := by decide +kernel
  obtain ⟨k1, k2⟩ := key _ hc rfl
  obtain ⟨⟨a1, a2, a3, a4⟩, b1, b2, b3, b4⟩ := key' f hf hn
  exact ⟨⟨⟨a1, a2, a3, a4⟩, k1⟩, ⟨b1, b2, b3, b4⟩, _, k2, rfl, rfl⟩

/-- C127 is false for `HyperGCN` by position: the documented `fast` goes to the undocumented `use_bn`, and the documented `drop_rate` to `fast`. -/
theorem C127_HyperGCN_false {f : Fn} (hf : f ∈ table) (hn : f.name = "HyperGCN") :
    f.doc.map (·.name) = ["in_channels", "hid_channels", "num_classes", "use_mediator", "fast", "drop_rate"] ∧
    ∃ b, Sig.bind f.params [1, 2, 3, 4, 5, 6] [] = .ok b ∧ b.lookup "use_bn" = some (.given 5) ∧
      b.lookup "fast" = some (.given 6) ∧ b.lookup "drop_rate" = some (.default "0.5") := by
  have key : ∀ f ∈ table, f.name = "HyperGCN" →
      f.doc.map (·.name) = ["in_channels", "hid_channels", "num_classes", "use_mediator", "fast", "drop_rate"] ∧
      Sig.bind f.params [1, 2, 3, 4, 5, 6] [] = .ok [("in_channels", .given 1), ("hid_channels", .given 2),
        ("num_classes", .given 3), ("use_mediator", .given 4), ("use_bn", .given 5), ("fast", .given 6),
        ("drop_rate", .default "0.5")] := by decide +kernel
  exact ⟨(key f hf hn).1, _, (key f hf hn).2, rfl, rfl, rfl⟩

/-- C127 is false for `uniform_hypergraph_Gnp` by position: the documented order is `num_v`, `k`, the order of the signature `k`, `num_v`. -/
theorem C127_uniform_hypergraph_Gnp_false {f : Fn} (hf : f ∈ table) (hn : f.name = "uniform_hypergraph_Gnp") :
    f.doc.map (·.name) = ["num_v", "k", "prob"] ∧
    ∃ b, Sig.bind f.params [1, 2, 3] [] = .ok b ∧ b.lookup "num_v" = some (.given 2) ∧ b.lookup "k" = some (.given 1) := by
  have key : ∀ f ∈ table, f.name = "uniform_hypergraph_Gnp" → f.doc.map (·.name) = ["num_v", "k", "prob"] ∧
      Sig.bind f.params [1, 2, 3] [] = .ok [("k", .given 1), ("num_v", .given 2), ("prob", .given 3)] := by
    decide +kernel
  exact ⟨(key f hf hn).1, _, (key f hf hn).2, rfl, rfl⟩

/-- C127 is false for two defaults: `method` of `hypergraph_Gnm` and `U_as_vertex` of `add_hyperedges_from_bigraph`. -/
theorem C127_defaults_false :
    (∃ f ∈ table, f.name = "hypergraph_Gnm" ∧ (⟨"method", true, some "\"uniform\""⟩ : DocParam) ∈ f.doc ∧
      ∃ b, Sig.bind f.params [1, 2] [] = .ok b ∧ b.lookup "method" = some (.default "\"low_order_first\"")) ∧
    ∃ f ∈ table, f.name = "Hypergraph.add_hyperedges_from_bigraph" ∧
      (⟨"U_as_vertex", true, some "True"⟩ : DocParam) ∈ f.doc ∧
      ∃ b, Sig.bind f.params [1] [] = .ok b ∧ b.lookup "U_as_vertex" = some (.default "False") := by
  have k1 : ∃ f ∈ table, f.name = "hypergraph_Gnm" ∧ (⟨"method", true, some "\"uniform\""⟩ : DocParam) ∈ f.doc ∧
      Sig.bind f.params [1, 2] [] = .ok [("num_v", .given 1), ("num_e", .given 2),
        ("method", .default "\"low_order_first\""), ("prob_k_list", .default "None")] := by decide +kernel
  have k2 : ∃ f ∈ table, f.name = "Hypergraph.add_hyperedges_from_bigraph" ∧
      (⟨"U_as_vertex", true, some "True"⟩ : DocParam) ∈ f.doc ∧
      Sig.bind f.params [1] [] = .ok [("bigraph", .given 1), ("U_as_vertex", .default "False"),
        ("group_name", .default "\"main\"")] := by decide +kernel
  obtain ⟨f, h1, h2, h3, h4⟩ := k1
  obtain ⟨g, g1, g2, g3, g4⟩ := k2
  exact ⟨⟨f, h1, h2, h3, _, h4, rfl⟩, g, g1, g2, g3, _, g4, rfl⟩

/-- a documented call with positional and keyword arguments -/
example : ∃ f ∈ table, f.name = "Graph.add_edges" ∧ (f.file, f.name) ∉ Spec.misdocumented ∧ f.doc.length = 3 ∧
    Spec.DocCall f [1] [("merge_op", 2)] := by
  have : ∃ f ∈ table, f.name = "Graph.add_edges" ∧ (f.file, f.name) ∉ Spec.misdocumented ∧ f.doc.length = 3 ∧
    docCallB f [1] [("merge_op", 2)] := by decide +kernel
  obtain ⟨f, h1, h2, h3, h4, a, b, c, d⟩ := this
  exact ⟨f, h1, h2, h3, h4, a, b, c, d⟩

example : ∃ f ∈ table, f.name = "HyperGCN" ∧ Spec.DocCall f [1, 2, 3, 4] [("drop_rate", 5), ("fast", 6)] := by
  have : ∃ f ∈ table, f.name = "HyperGCN" ∧ docCallB f [1, 2, 3, 4] [("drop_rate", 5), ("fast", 6)] := by decide +kernel
  obtain ⟨f, h1, h2, a, b, c, d⟩ := this
  exact ⟨f, h1, h2, a, b, c, d⟩

example : ∃ f ∈ table, f.name = "HypergraphVertexClassificationTask" ∧
    Spec.DocCall f [1, 2, 3, 4, 5, 6, 7] [("overwrite", 8)] := by
  have : ∃ f ∈ table, f.name = "HypergraphVertexClassificationTask" ∧ docCallB f [1, 2, 3, 4, 5, 6, 7] [("overwrite", 8)] := by
    decide +kernel
  obtain ⟨f, h1, h2, a, b, c, d⟩ := this
  exact ⟨f, h1, h2, a, b, c, d⟩

example : ∃ f ∈ table, f.name = "GraphVertexClassificationTask" ∧
    Spec.DocCall { f with doc := f.doc.filter fun d => d.name != "structure_builder" } [1, 2, 3, 4, 5, 6] [("overwrite", 8)] := by
  have : ∃ f ∈ table, f.name = "GraphVertexClassificationTask" ∧
      docCallB { f with doc := f.doc.filter fun d => d.name != "structure_builder" } [1, 2, 3, 4, 5, 6] [("overwrite", 8)] := by
    decide +kernel
  obtain ⟨f, h1, h2, a, b, c, d⟩ := this
  exact ⟨f, h1, h2, a, b, c, d⟩

end Props
end DHG
