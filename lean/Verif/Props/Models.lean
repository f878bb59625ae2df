import Verif.Props.ModelParts
import Verif.Props.NnHyper

/-!
# Models do not depend on earlier calls (C97)
-/

set_option linter.unusedSectionVars false
set_option autoImplicit false

namespace DHG

namespace Props

open Finset Nn

variable {K : Type} [Field K] [LinearOrder K] [PyReal K] {b : Bool}

section
variable {R κ ν α β : Type} [DecidableEq κ] {f : κ → R → Except Err ν} {S : κ → Prop}

theorem isRead_bind {m : PyM (Cached R κ ν) α} {g : α → PyM (Cached R κ ν) β} (hm : ∃ p, Reads f m p)
    (hg : ∀ a, ∃ q, Reads f (g a) q) : ∃ p, Reads f (m >>= g) p := by
  obtain ⟨p, hp⟩ := hm
  choose q hq using hg
  exact ⟨_, Reads.bind hp hq⟩

theorem isReadOn_bind {m : PyM (Cached R κ ν) α} {g : α → PyM (Cached R κ ν) β} (hm : ∃ p, ReadsOn S f m p)
    (hg : ∀ a, ∃ q, ReadsOn S f (g a) q) : ∃ p, ReadsOn S f (m >>= g) p := by
  obtain ⟨p, hp⟩ := hm
  choose q hq using hg
  exact ⟨_, ReadsOn.bind hp hq⟩

theorem isRead_collect (ms : List (PyM (Cached R κ ν) α)) (h : ∀ m ∈ ms, ∃ p, Reads f m p) :
    ∃ p, Reads f (PyM.collect ms id) p := by
  induction ms with
  | nil => exact ⟨_, Reads.pure _⟩
  | cons m ms ih =>
    exact isRead_bind (h m List.mem_cons_self) fun a =>
      isRead_bind (ih fun m hm => h m (List.mem_cons_of_mem _ hm)) fun as => ⟨_, Reads.pure _⟩

theorem isReadOn_collect (ms : List (PyM (Cached R κ ν) α)) (h : ∀ m ∈ ms, ∃ p, ReadsOn S f m p) :
    ∃ p, ReadsOn S f (PyM.collect ms id) p := by
  induction ms with
  | nil => exact ⟨_, ReadsOn.pure _⟩
  | cons m ms ih =>
    exact isReadOn_bind (h m List.mem_cons_self) fun a =>
      isReadOn_bind (ih fun m hm => h m (List.mem_cons_of_mem _ hm)) fun as => ⟨_, ReadsOn.pure _⟩

theorem isRead_stack (ls : List (Dense K → PyM (Cached R κ ν) (Dense K))) (h : ∀ l ∈ ls, ∀ X, ∃ p, Reads f (l X) p)
    (X : Dense K) : ∃ p, Reads f (stackRun ls X) p := by
  induction ls generalizing X with
  | nil => exact ⟨_, Reads.pure _⟩
  | cons l ls ih =>
    exact isRead_bind (h l List.mem_cons_self X) fun Y => ih (fun m hm => h m (List.mem_cons_of_mem _ hm)) Y

theorem isReadOn_stack (ls : List (Dense K → PyM (Cached R κ ν) (Dense K)))
    (h : ∀ l ∈ ls, ∀ X, ∃ p, ReadsOn S f (l X) p)
    (X : Dense K) : ∃ p, ReadsOn S f (stackRun ls X) p := by
  induction ls generalizing X with
  | nil => exact ⟨_, ReadsOn.pure _⟩
  | cons l ls ih =>
    exact isReadOn_bind (h l List.mem_cons_self X) fun Y => ih (fun m hm => h m (List.mem_cons_of_mem _ hm)) Y

theorem isRead_layerwise (ls : List (Dense K → PyM (Cached R κ ν) (Dense K)))
    (h : ∀ l ∈ ls, ∀ X, ∃ p, Reads f (l X) p) (X : Dense K) : ∃ p, Reads f (layerwise ls X) p := by
  induction ls generalizing X with
  | nil => exact ⟨_, Reads.pure _⟩
  | cons l ls ih =>
    exact isRead_bind (h l List.mem_cons_self X) fun Y =>
      isRead_bind (ih (fun m hm => h m (List.mem_cons_of_mem _ hm)) Y) fun _ => ⟨_, Reads.pure _⟩

theorem isRead_multiHead (readout : String) (hs : List (PyM (Cached R κ ν) (Dense K)))
    (h : ∀ m ∈ hs, ∃ p, Reads f m p) : ∃ p, Reads f (multiHead readout hs) p := by
  refine isRead_bind (isRead_collect hs h) fun outs => ?_
  split
  · exact ⟨_, Reads.lift _⟩
  · split
    · exact ⟨_, Reads.lift _⟩
    · split
      · exact ⟨_, Reads.lift _⟩
      · split
        · exact ⟨_, Reads.lift _⟩
        · exact isRead_bind ⟨_, Reads.lift _⟩ fun _ => ⟨_, Reads.raise _⟩

theorem isReadOn_multiHead (readout : String) (hs : List (PyM (Cached R κ ν) (Dense K)))
    (h : ∀ m ∈ hs, ∃ p, ReadsOn S f m p) : ∃ p, ReadsOn S f (multiHead readout hs) p := by
  refine isReadOn_bind (isReadOn_collect hs h) fun outs => ?_
  split
  · exact ⟨_, ReadsOn.lift _⟩
  · split
    · exact ⟨_, ReadsOn.lift _⟩
    · split
      · exact ⟨_, ReadsOn.lift _⟩
      · split
        · exact ⟨_, ReadsOn.lift _⟩
        · exact isReadOn_bind ⟨_, ReadsOn.lift _⟩ fun _ => ⟨_, ReadsOn.raise _⟩

end

theorem isRead_gcn (l : Conv K) (X : Dense K) : ∃ p, Graph.GReads (gcnConv l X) p :=
  isRead_bind ⟨_, Reads.lift _⟩ fun _ => isRead_bind ⟨_, Graph.reads_smoothGCN _ _ _⟩ fun _ => ⟨_, Reads.lift _⟩

theorem isRead_sage (l : Conv K) (X : Dense K) : ∃ p, Graph.GReads (sageConv l X) p :=
  isRead_bind ⟨_, Graph.reads_v2v _ _ _ _ _⟩ fun _ => isRead_bind ⟨_, Reads.lift _⟩ fun _ =>
    isRead_bind ⟨_, Reads.lift _⟩ fun _ => ⟨_, Reads.lift _⟩

theorem isRead_gin (m : Dense K → Except Err (Dense K)) (eps : K) (X : Dense K) :
    ∃ p, Graph.GReads (ginConv m eps X) p :=
  isRead_bind ⟨_, Graph.reads_v2v _ _ _ _ _⟩ fun _ => isRead_bind ⟨_, Reads.lift _⟩ fun _ => ⟨_, Reads.lift _⟩

theorem isRead_gat (l : Gat K) (X : Dense K) : ∃ p, Graph.GReads (gatConv l X) p := by
  refine isRead_bind ⟨_, Reads.lift _⟩ fun _ => isRead_bind ⟨_, Reads.lift _⟩ fun _ =>
    isRead_bind ⟨_, Reads.lift _⟩ fun _ => isRead_bind ⟨_, Graph.reads_getESrc⟩ fun _ =>
    isRead_bind ⟨_, Graph.reads_getEDst⟩ fun _ => isRead_bind ⟨_, Reads.lift _⟩ fun _ =>
    isRead_bind ⟨_, Reads.lift _⟩ fun _ => isRead_bind ?_ fun _ => ⟨_, Reads.lift _⟩
  unfold squeezed
  split
  · exact ⟨_, Reads.raise _⟩
  · exact ⟨_, Graph.reads_v2v _ _ _ _ _⟩

theorem isRead_gmodel (M : GModel K) (X : Dense K) : ∃ p, Graph.GReads (M.run X) p := by
  cases M with
  | gcn ls =>
    exact isRead_stack _ (by simp only [List.mem_map]; rintro _ ⟨l, _, rfl⟩ X; exact isRead_gcn l X) X
  | sage ls =>
    exact isRead_stack _ (by simp only [List.mem_map]; rintro _ ⟨l, _, rfl⟩ X; exact isRead_sage l X) X
  | gin p ls =>
    refine isRead_bind ⟨_, Reads.lift _⟩ fun P => ?_
    induction ls generalizing X P with
    | nil => exact ⟨_, Reads.pure _⟩
    | cons l ls ih =>
      exact isRead_bind (isRead_gin _ _ _) fun Y => isRead_bind ⟨_, Reads.lift _⟩ fun _ =>
        isRead_bind ⟨_, Reads.lift _⟩ fun Q => ih Y Q
  | gat d1 hs d2 o =>
    exact isRead_bind (isRead_multiHead _ _ (by simp only [List.mem_map]; rintro _ ⟨l, _, rfl⟩; exact isRead_gat l _))
      fun Y => isRead_gat o _

theorem isRead_hmodel (M : HModel K) (X : Dense K) : ∃ p, Hyper.HReads b (M.run X) p := by
  cases M with
  | hgnn ls =>
    exact isReadOn_stack _ (by simp only [List.mem_map]; rintro _ ⟨l, _, rfl⟩ X; exact ⟨_, reads_hgnn l X⟩) X
  | hgnnp ls =>
    exact isReadOn_stack _ (by simp only [List.mem_map]; rintro _ ⟨l, _, rfl⟩ X; exact ⟨_, reads_hgnnp l X⟩) X
  | hnhn ls =>
    exact isReadOn_stack _ (by simp only [List.mem_map]; rintro _ ⟨l, _, rfl⟩ X; exact ⟨_, reads_hnhn _ _ X⟩) X
  | uniGcn ls =>
    exact isReadOn_stack _ (by simp only [List.mem_map]; rintro _ ⟨l, _, rfl⟩ X; exact ⟨_, reads_uniGcn l X⟩) X
  | uniSage ls =>
    exact isReadOn_stack _ (by simp only [List.mem_map]; rintro _ ⟨l, _, rfl⟩ X; exact ⟨_, reads_uniSage l X⟩) X
  | uniGin ls =>
    exact isReadOn_stack _ (by simp only [List.mem_map]; rintro _ ⟨l, _, rfl⟩ X; exact ⟨_, reads_uniGin _ _ X⟩) X
  | uniGat d1 hs d2 o =>
    exact isReadOn_bind (isReadOn_multiHead _ _ (by
      simp only [List.mem_map]; rintro _ ⟨l, _, rfl⟩; exact ⟨_, reads_uniGat l _⟩)) fun Y => ⟨_, reads_uniGat o _⟩

/-! ## C97 -/

/-- C97. What a model on graphs returns does not depend on what was read from the graph before or on earlier
calls of models on it, and no later call on the graph can tell that the model was called. -/
theorem C97_graph_models {P : EArg K → Prop} {g : GSt K} (hg : Graph.Built P g) (M M' : GModel K)
    (X X' : Dense K) :
    (∀ q, (M.run X (Graph.ask q g).2).1 = (M.run X g).1) ∧
    (M.run X (M'.run X' g).2).1 = (M.run X g).1 ∧
    Spec.Indist (M.run X g).2 g := by
  obtain ⟨p, hp⟩ := isRead_gmodel M X
  obtain ⟨p', hp'⟩ := isRead_gmodel M' X'
  have hc := hg.inv.2
  refine ⟨fun q => ?_, ?_, ?_⟩
  · have h := Graph.reads_ask q g hc
    rw [(hp _ h.2.2).1, (hp _ hc).1, h.2.1]
  · have h := hp' g hc
    rw [(hp _ h.2.2).1, (hp _ hc).1, h.2.1]
  · have h := hp g hc
    exact Graph.indist_of_raw (by rw [h.2.1]; exact hg.inv.1) h.2.2 hc h.2.1

/-- C97. The same for the models on hypergraphs other than `HyperGCN`. -/
theorem C97_hypergraph_models {s : HSt K} (hs : Hyper.Built Hyper.AnyH true s) (M M' : HModel K) (X X' : Dense K) :
    (∀ q, (M.run X (Hyper.ask q s).2).1 = (M.run X s).1) ∧
    (M.run X (M'.run X' s).2).1 = (M.run X s).1 ∧
    Spec.HIndist (fun _ => True) (M.run X s).2 s := by
  obtain ⟨p, hp⟩ := isRead_hmodel (b := true) M X
  obtain ⟨p', hp'⟩ := isRead_hmodel (b := true) M' X'
  have hc := hs.inv.2
  refine ⟨fun q => ?_, ?_, ?_⟩
  · have h := Hyper.reads_ask q (.inl rfl) s hc
    rw [(hp _ h.2.2).1, (hp _ hc).1, h.2.1]
  · have h := hp' s hc
    rw [(hp _ h.2.2).1, (hp _ hc).1, h.2.1]
  · have h := hp s hc
    exact Hyper.indist_of_raw h.2.1 h.2.2 hc

example : Graph.Built Graph.NonNeg exG ∧ Hyper.Built Hyper.Proper true exH :=
  ⟨exG_nonneg, exH_proper⟩

/-- a `HyperGCN` layer with a given graph neither reads nor changes the hypergraph -/
theorem hyperGcn_given (l : Conv K) (med : Bool) (g : GSt K) (rv : Nat → K) (X : Dense K) :
    ∃ r, ∀ s : HSt K, hyperGcnConv l med (some g) rv X s = (r, s) := by
  unfold hyperGcnConv
  cases l.theta.fwd X with
  | error e => exact ⟨.error e, fun s => rfl⟩
  | ok Y =>
    refine ⟨(match (Graph.smoothGCN Y 0 (fun _ => true) g).1 with
      | .ok Z => l.run Z
      | .error e => .error e), fun s => ?_⟩
    simp only [PyM.bind_apply, PyM.lift_apply, onOther]
    cases (Graph.smoothGCN Y 0 (fun _ => true) g).1 <;> rfl

theorem hyperGcn_stack_given (ls : List (Conv K × (Nat → K))) (med : Bool) (g : GSt K) (X : Dense K) :
    ∃ r, ∀ s : HSt K, stackRun (ls.map fun l => hyperGcnConv l.1 med (some g) l.2) X s = (r, s) := by
  induction ls generalizing X with
  | nil => exact ⟨.ok X, fun s => rfl⟩
  | cons l ls ih =>
    obtain ⟨r, hr⟩ := hyperGcn_given l.1 med g l.2 X
    cases r with
    | error e => exact ⟨.error e, fun s => by simp only [List.map_cons, stackRun, PyM.bind_apply, hr]⟩
    | ok Y =>
      obtain ⟨r, hr'⟩ := ih Y
      exact ⟨r, fun s => by simp only [List.map_cons, stackRun, PyM.bind_apply, hr, hr']⟩

theorem isRead_hyperGcn (l : Conv K) (med : Bool) (rv : Nat → K) (X : Dense K) :
    ∃ p, Hyper.HReads b (hyperGcnConv l med none rv X) p :=
  isReadOn_bind ⟨_, ReadsOn.lift _⟩ fun Y => isReadOn_bind ⟨_, Graph.reads_gcn Y med true rv⟩ fun _ =>
    isReadOn_bind ⟨_, ReadsOn.lift _⟩ fun _ => ⟨_, ReadsOn.lift _⟩

/-- C97, partial. What `HyperGCN` with `fast=False` returns does not depend on earlier calls of itself or
of other models on any hypergraph, and calls leave no trace. With `fast=True`, once a graph is kept, the
result does not depend on the hypergraph passed at all. Missing: the dependence on
the hypergraph for `fast=True`, where it is false (`C97_hypergcn_fast_false`). -/
theorem C97_hypergcn_partial (M : HyperGcn K) (X : Dense K) :
    (M.fast = false → ∀ (rv rv' : Nat → K) (s : HSt K) c c', Hyper.Built Hyper.AnyH true s →
      (M.run rv X (s, c)).1 = (M.run rv' X (s, c')).1 ∧
      (∀ q, (M.run rv X ((Hyper.ask q s).2, c)).1 = (M.run rv X (s, c)).1) ∧
      (∀ (M' : HModel K) X', (M.run rv X ((M'.run X' s).2, c)).1 = (M.run rv X (s, c)).1) ∧
      (M.run rv X (s, c)).2.2 = c ∧ Spec.HIndist (fun _ => True) (M.run rv X (s, c)).2.1 s) ∧
    (M.fast = true → ∀ (rv rv' : Nat → K) (g : GSt K) (s s' : HSt K),
      (M.run rv X (s, some g)).1 = (M.run rv' X (s', some g)).1 ∧ (M.run rv X (s, some g)).2 = (s, some g)) := by
  refine ⟨fun h rv rv' s c c' hs => ?_, fun h rv rv' g s s' => ?_⟩
  · obtain ⟨p, hp⟩ : ∃ p, Hyper.HReads true
        (stackRun (M.layers.map fun l => hyperGcnConv l.1 M.mediator none l.2) X) p :=
      isReadOn_stack _ (by simp only [List.mem_map]; rintro _ ⟨l, _, rfl⟩ X; exact isRead_hyperGcn _ _ _ X) X
    have hc := hs.inv.2
    unfold HyperGcn.run
    rw [h]
    refine ⟨rfl, fun q => ?_, fun M' X' => ?_, rfl, ?_⟩
    · have h := Hyper.reads_ask q (.inl rfl) s hc
      simp only [Bool.false_eq_true, if_false, onFst]
      rw [(hp _ h.2.2).1, (hp _ hc).1, h.2.1]
    · obtain ⟨p', hp'⟩ := isRead_hmodel (b := true) M' X'
      have h := hp' s hc
      simp only [Bool.false_eq_true, if_false, onFst]
      rw [(hp _ h.2.2).1, (hp _ hc).1, h.2.1]
    · have h := hp s hc
      exact Hyper.indist_of_raw h.2.1 h.2.2 hc
  · obtain ⟨r, hr⟩ := hyperGcn_stack_given M.layers M.mediator g X
    unfold HyperGcn.run
    rw [h]
    simp only [if_true, PyM.bind_apply, HyperGcn.graph, onFst, hr, and_self]

/-- example: three vertices, one hyperedge `{0,1}` -/
noncomputable def exH3 : HSt ℝ :=
  { raw := { numV := 3, vWeight := some [1, 1, 1], groups := [("main", [([0, 1], 1)])] }, cache := [] }

theorem exH3_new : Hyper.new (K := ℝ) 3 (some (.one true [0, 1])) .none none .mean = .ok exH3 := rfl

theorem exH3_proper : Hyper.Built Hyper.Proper true exH3 := .new exH3_new (by
  intro a ha; cases ha
  intro e he
  simp [Hyper.argEdges] at he
  subst he
  simp)

theorem exH3_listing : Spec.hListing exH3 none = [([0, 1], 1)] := rfl

/-- example: a last layer with a 1 x 1 weight -/
noncomputable def exFastLayer : Conv ℝ :=
  { isLast := true, bn := none, drop := id, theta := ⟨⟨1, 1, fun _ _ => 1⟩, none⟩ }

/-- example: a `HyperGCN` with `fast=True` and a single layer -/
noncomputable def exFast : HyperGcn ℝ :=
  { fast := true, mediator := false, layers := [(exFastLayer, fun _ => 1)] }

theorem exFast_run {s : HSt ℝ} (hs : Hyper.Built Hyper.Proper true s) {n : Nat}
    (hn : (Hyper.ask .numV s).1 = .ok (.num n)) (hl : Spec.hListing s none = [([0, 1], 1)]) :
    ∃ Y g L, (exFast.run (fun _ => 1) (exX n) (s, none)).1 = .ok Y ∧
      (exFast.run (fun _ => 1) (exX n) (s, none)).2.2 = some g ∧
      Graph.evLGCN g.raw = .ok L ∧ L.cols = n ∧ Coherent Graph.evKey g := by
  obtain ⟨A, B, g, hE, hg, hgn, hb, hlg⟩ := C44_hypergcn_partial hs hn (X := exX n) rfl
    (by rw [hl]; simp) false true (fun _ => 1) (fun _ => by rw [hl]; simp)
  have hw : Spec.NonnegWeights (Spec.listing g) := by
    intro e he
    have := (hlg e.1.1 e.1.2 e.2).1 (.inl he)
    rw [this.2.2]
    simp only [Bool.false_eq_true, if_false]
    unfold Spec.plainWt
    apply List.sum_nonneg
    intro x hx
    obtain ⟨f, hf, rfl⟩ := List.mem_map.1 hx
    split
    · positivity
    · exact le_rfl
  obtain ⟨L, _, hL, _, hLm, _⟩ := C11_graph_LGCN hb hgn hw
  have hev : Graph.evLGCN g.raw = .ok L := by
    rw [ask_eq hb] at hL
    simp only [Graph.evAsk] at hL
    cases he : Graph.evLGCN g.raw <;> rw [he] at hL <;> cases hL
    rfl
  obtain ⟨H, hH, h1, h2, h3⟩ := linear_ok (⟨⟨1, 1, fun _ _ => 1⟩, none⟩ : Linear ℝ) (X := exX n) rfl
  obtain ⟨Z, hZ, _⟩ := C11_graph_smoothing hb hgn hw hL H h1 fun _ => true
  rcases hc : Graph.fromHypergraphHypergcn (exX n) false true (fun _ => 1) s with ⟨r, s1⟩
  rw [hc] at hg
  simp only at hg
  subst hg
  have hrun : exFast.run (fun _ => 1) (exX n) (s, none) = (.ok Z, (s1, some g)) := by
    have hl : ∀ rv, hyperGcnConv exFastLayer false (some g) rv (exX n) s1 = (.ok Z, s1) := fun rv => by
      simp only [hyperGcnConv, PyM.bind_apply, PyM.lift_apply, exFastLayer, hH, onOther, smooth_run hZ]
      rfl
    have hst : stackRun (exFast.layers.map fun l => hyperGcnConv l.1 false (some g) l.2) (exX n) s1 =
        (.ok Z, s1) := by
      simp only [exFast, List.map_cons, List.map_nil, stackRun, PyM.bind_apply, hl, PyM.pure_apply]
    rw [HyperGcn.run, if_pos (show exFast.fast = true from rfl)]
    simp only [PyM.bind_apply, HyperGcn.graph, show exFast.mediator = false from rfl, hc, onFst, hst]
  exact ⟨Z, g, L, by rw [hrun], by rw [hrun], hev, hLm.cols, hb.inv.2⟩

/-- C97 fails for `HyperGCN` with `fast=True`: a call on a hypergraph that would succeed raises because the
model was called before, on another hypergraph. -/
theorem C97_hypergcn_fast_false :
    ¬ ∀ (M : HyperGcn ℝ) (rv : Nat → ℝ) (s s' : HSt ℝ) (X X' Y Y' : Dense ℝ),
      Hyper.Built Hyper.Proper true s → Hyper.Built Hyper.Proper true s' →
      (M.run rv X (s, none)).1 = .ok Y → (M.run rv X' (s', none)).1 = .ok Y' →
      (M.run rv X' (s', (M.run rv X (s, none)).2.2)).1 = .ok Y' := by
  intro h
  obtain ⟨Y, g, L, h1, h3, h5, h6, h7⟩ := exFast_run exH2_proper (n := 2) rfl exH2_listing
  obtain ⟨Y', g', L', h1', _⟩ := exFast_run exH3_proper (n := 3) rfl exH3_listing
  have := h exFast _ exH2 exH3 _ _ _ _ exH2_proper exH3_proper h1 h1'
  rw [h3] at this
  obtain ⟨H, hH, e1, e2, e3⟩ := linear_ok (⟨⟨1, 1, fun _ _ => 1⟩, none⟩ : Linear ℝ) (X := exX 3) rfl
  have hZ : (Graph.smoothGCN H 0 (fun _ => true) g).1 = .error .runtime := by
    rw [(Graph.reads_smoothGCN _ _ _ g h7).1]
    simp only [Graph.evSmoothGCN, h5, Graph.evDrop, bind, Except.bind]
    rw [if_neg (lt_irrefl _)]
    simp only [Sp.mmD]
    rw [if_neg]
    rw [h6, e1]; simp [exX]
  have hl : ∀ rv, hyperGcnConv exFastLayer false (some g) rv (exX 3) exH3 = (.error .runtime, exH3) := fun rv => by
    simp only [hyperGcnConv, PyM.bind_apply, PyM.lift_apply, exFastLayer, hH, onOther, hZ]
  have hst : stackRun (exFast.layers.map fun l => hyperGcnConv l.1 false (some g) l.2) (exX 3) exH3 =
      (.error .runtime, exH3) := by
    simp only [exFast, List.map_cons, List.map_nil, stackRun, PyM.bind_apply, hl]
  have hrun : (exFast.run (fun _ => 1) (exX 3) (exH3, some g)).1 = .error .runtime := by
    rw [HyperGcn.run, if_pos (show exFast.fast = true from rfl)]
    simp only [PyM.bind_apply, HyperGcn.graph, show exFast.mediator = false from rfl, onFst, hst]
  rw [hrun] at this
  cases this

end Props
end DHG
