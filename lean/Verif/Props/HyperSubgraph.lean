import Verif.Props.HyperEdges
import Verif.GraphMat

/-!
# Properties of `Hypergraph`: sub-hypergraphs, vertex weights, arguments

Specification of sub-hypergraphs: `Spec.rank`, `Spec.restrict`, `Spec.Enough` (`HyperSub.lean`).
-/

set_option linter.unusedSectionVars false
set_option autoImplicit false

namespace DHG
namespace Props

open Hyper Hy

variable {K : Type} [Field K] [LinearOrder K] [PyReal K] {b : Bool}

/-! ## C39 -/

/-- C39. The sub-hypergraph has one vertex per distinct chosen vertex, the same groups, and per group
exactly the restrictions of the hyperedges that keep enough vertices; each weight is the weight of a
hyperedge with that restriction. (`subgraph` returns a new object; the original is not an output.) -/
theorem C39_hypergraph_sub_content {s s' : HSt K} (hs : Built AnyH b s) {vl : List Int}
    {keepOne : Bool} (h : subgraph vl keepOne s = .ok s') :
    (ask .numV s').1 = .ok (.num vl.dedup.length) ∧ Spec.hNames s' = Spec.hNames s ∧
    ∀ g, (∀ e w, Spec.HListed s' g e w →
        ∃ e0, Spec.HListed s g e0 w ∧ Spec.Enough vl keepOne e0 ∧ e = Spec.restrict vl e0) ∧
      (∀ e0 w0, Spec.HListed s g e0 w0 → Spec.Enough vl keepOne e0 →
        ∃ w, Spec.HListed s' g (Spec.restrict vl e0) w) := by
  obtain ⟨hi, hc⟩ := hs.inv
  refine ⟨?_, ?_, fun g => sub_listed hc h g⟩
  · obtain ⟨_, _, rfl⟩ := subgraph_ok h
    have : (sortedSet vl).length = vl.dedup.length := (sortV_perm _).length_eq
    rw [← this]; rfl
  · obtain ⟨_, _, rfl⟩ := subgraph_ok h
    show (s.raw.groups.map fun p => (p.1, subGroup (sortedSet vl) keepOne p.2)).map Prod.fst = _
    rw [List.map_map]; rfl

/-- C39, partial. Weights: if no two kept hyperedges of the group have the same restriction, the
restriction of each kept hyperedge carries its weight. Missing: coinciding restrictions, of which
the last one wins (`C39_hypergraph_sub_weights_false`). -/
theorem C39_hypergraph_sub_weights_partial {s s' : HSt K} (hs : Built AnyH b s) {vl : List Int}
    {keepOne : Bool} (h : subgraph vl keepOne s = .ok s') (g : String)
    (hinj : ∀ e0 w0 e1 w1, Spec.HListed s g e0 w0 → Spec.HListed s g e1 w1 →
      Spec.Enough vl keepOne e0 → Spec.Enough vl keepOne e1 →
      Spec.restrict vl e0 = Spec.restrict vl e1 → e0 = e1) (e : Multiset Int) (w : K) :
    Spec.HListed s' g e w ↔
      ∃ e0, Spec.HListed s g e0 w ∧ Spec.Enough vl keepOne e0 ∧ e = Spec.restrict vl e0 := by
  obtain ⟨hi, hc⟩ := hs.inv
  obtain ⟨h1, h2⟩ := sub_listed hc h g
  refine ⟨h1 e w, ?_⟩
  rintro ⟨e0, h3, h4, rfl⟩
  obtain ⟨w', h5⟩ := h2 e0 w h3 h4
  obtain ⟨e1, h6, h7, h8⟩ := h1 _ _ h5
  obtain rfl := hinj e0 w e1 w' h3 h6 h4 h7 h8
  have : w = w' := by
    rw [listed_iff hi hc] at h3 h6
    rw [h3] at h6
    exact Option.some.inj h6
  rw [this]; exact h5

/-- C39. Taking all vertices gives back the same hyperedges (`keep_edges_with_only_one_nodes` at its
default; hyperedges without vertices are dropped). -/
theorem C39_hypergraph_sub_all {s s' : HSt K} (hs : Built Proper b s) {n : Nat}
    (hn : (ask .numV s).1 = .ok (.num n)) {vl : List Int}
    (hvl : ∀ v, v ∈ vl ↔ 0 ≤ v ∧ v < (n : Int)) (h : subgraph vl true s = .ok s')
    (g : String) (e : Multiset Int) (w : K) :
    Spec.HListed s' g e w ↔ Spec.HListed s g e w ∧ e ≠ 0 := by
  have hr := hs.inRange
  have hs' : Built AnyH b s := hs.mono fun _ _ _ => trivial
  obtain ⟨hi, hc⟩ := hs'.inv
  have hn' : s.raw.numV = n := by
    have : (Except.ok (HAns.num s.raw.numV) : Except Err (HAns K)) = .ok (.num n) := hn
    injection this with h; injection h
  have hrange : ∀ e w, Spec.HListed s g e w → ∀ v ∈ e, 0 ≤ v ∧ v < (n : Int) := by
    intro e w hl v hv
    obtain ⟨d, hd, l, rfl, hlw⟩ := (listed_of hc g e w).1 hl
    have := (hr _ (Dict.mem_of_get? hd) l (List.mem_map.2 ⟨_, hlw, rfl⟩)).2 v (Multiset.mem_coe.1 hv)
    rw [← hn']; exact this
  have hne : ∀ e0, Spec.Enough vl true e0 → e0 ≠ 0 := by
    rintro e0 h0 rfl
    simp [Spec.Enough] at h0
  rw [C39_hypergraph_sub_weights_partial hs' h g]
  · constructor
    · rintro ⟨e0, h1, h2, rfl⟩
      rw [restrict_all hvl (hrange _ _ h1)]
      exact ⟨h1, hne _ h2⟩
    · rintro ⟨h1, h2⟩
      exact ⟨e, h1, enough_all hvl (hrange _ _ h1) h2, (restrict_all hvl (hrange _ _ h1)).symm⟩
  · intro e0 w0 e1 w1 h0 h1 _ _ he
    rwa [restrict_all hvl (hrange _ _ h0), restrict_all hvl (hrange _ _ h1)] at he

/-- C39. A selection is accepted exactly when it is not empty and in range; otherwise the call
raises `AssertionError`. -/
theorem C39_hypergraph_sub_raises {s : HSt K} {n : Nat}
    (hn : (ask .numV s).1 = .ok (.num n)) (vl : List Int) (keepOne : Bool) :
    ((vl ≠ [] ∧ ∀ v ∈ vl, 0 ≤ v ∧ v < (n : Int)) → ∃ s', subgraph vl keepOne s = .ok s') ∧
    (¬ (vl ≠ [] ∧ ∀ v ∈ vl, 0 ≤ v ∧ v < (n : Int)) →
      subgraph vl keepOne s = .error .assertion) := by
  have hn' : s.raw.numV = n := by
    have : (Except.ok (HAns.num s.raw.numV) : Except Err (HAns K)) = .ok (.num n) := hn
    injection this with h; injection h
  have he : sortedSet vl ≠ [] ↔ vl ≠ [] := by
    have : ∀ l : List Int, l ≠ [] ↔ ∃ v, v ∈ l := fun l => by
      cases l with
      | nil => simp
      | cons a l => simp only [ne_eq, reduceCtorEq, not_false_eq_true, true_iff]; exact ⟨a, List.mem_cons_self⟩
    rw [this, this]
    simp only [mem_sortedSet]
  subst hn'
  constructor
  · rintro ⟨h1, h2⟩
    unfold subgraph
    simp only
    rw [if_pos (he.2 h1), if_pos (fun v hv => h2 v (mem_sortedSet.1 hv)),
      fromStateDict_of_pos (by simpa [List.length_pos_iff] using he.2 h1)]
    cases s.raw.vWeight with
    | none => exact ⟨_, rfl⟩
    | some w => exact ⟨_, rfl⟩
  · intro h1
    unfold subgraph
    simp only
    by_cases h2 : vl ≠ []
    · rw [if_pos (he.2 h2), if_neg]
      intro h3
      exact h1 ⟨h2, fun v hv => h3 v (mem_sortedSet.2 hv)⟩
    · rw [if_neg (fun h => h2 (he.1 h))]

example : Built AnyH true exH ∧ ∃ s', subgraph [3, 1, 1] false exH = .ok s' :=
  ⟨exH_built, _, rfl⟩

example : Built Proper true exH ∧ (ask .numV exH).1 = .ok (.num 4) ∧
    ∀ v, v ∈ [(3 : Int), 0, 1, 2] ↔ 0 ≤ v ∧ v < ((4 : Nat) : Int) :=
  ⟨exH_proper, rfl, by intro v; simp; omega⟩

/-- example: `{0,1}` of weight 2 and `{0,2}` of weight 3 -/
noncomputable def exHc : HSt ℝ :=
  { raw := { numV := 3, vWeight := some [1, 1, 1], groups := [("main", [([0, 1], 2), ([0, 2], 3)])] }
    cache := [] }

theorem exHc_built : Built AnyH true exHc :=
  .new (n := 3) (arg := some (.many false [⟨true, [0, 1]⟩, ⟨true, [0, 2]⟩])) (ew := .list [2, 3])
    (vw := none) (op := .mean) rfl fun _ _ => trivial

/-- C39 is false for weights when two restrictions coincide: the weight of one of them is lost. -/
theorem C39_hypergraph_sub_weights_false :
    ¬ ∀ (s s' : HSt ℝ) (vl : List Int), Built AnyH true s → subgraph vl true s = .ok s' →
      ∀ g e0 w0, Spec.HListed s g e0 w0 → Spec.Enough vl true e0 →
        Spec.HListed s' g (Spec.restrict vl e0) w0 := by
  intro h
  have h1 := h exHc _ [0] exHc_built rfl "main" (([0, 1] : List Int) : Multiset Int) 2
    ⟨[0, 1], rfl, by show ([0, 1], (2 : ℝ)) ∈ [(([0, 1] : List Int), (2 : ℝ)), ([0, 2], 3)]; simp⟩
    (by unfold Spec.Enough; decide)
  obtain ⟨l, _, hl⟩ := h1
  have hl' : (l, (2 : ℝ)) ∈ [(([0] : List Int), (3 : ℝ))] := hl
  simp at hl'

/-! ## C45 -/

/-- C45, partial. The vertex weights given to the constructor are returned by `v_weight`, and are the
diagonal of `W_v`, after any history of calls other than `clear`; sub-hypergraphs carry the weights
of the chosen vertices. Missing: `clone`, `state_dict`, `drop_hyperedges`, assignment and `clear`
(`C45_hypergraph_*_false`). -/
theorem C45_hypergraph_vertex_weights_partial {n : Int} {arg : Option HArg} {ew : HW K}
    {vw : List K} {op : MergeOp} {s : HSt K} (hs : Hyper.new n arg ew (some vw) op = .ok s)
    (h : List (Step K)) (hh : GoodRun s h) (hnc : Step.op .clear ∉ h) :
    (vw.length : Int) = n ∧
    (ask .vWeight (run s h)).1 = .ok (.optVec (some vw)) ∧
    ∃ M, (ask .Wv (run s h)).1 = .ok (.mat M) ∧
      Spec.IsMat n.toNat n.toNat (fun i j => if i = j then vw.getD i 0 else 0) M := by
  have hb : Built AnyH true s := .new hs fun _ _ => trivial
  obtain ⟨hi, hc⟩ := hb.inv
  have hw0 : s.raw.vWeight = some vw ∧ vw.length = n.toNat ∧ 0 < n := by
    obtain ⟨r, hr, ⟨_, rfl⟩ | ⟨a, _, _, rfl⟩⟩ := new_ok hs
    · obtain ⟨h1, _, _, h4, h5⟩ := initRaw_ok hr
      exact ⟨h4, h5, h1⟩
    · obtain ⟨h1, _, _, h4, h5⟩ := initRaw_ok hr
      refine ⟨?_, h5, h1⟩
      rw [apply_vWeight]
      exact h4
  have hrun : ∀ (h : List (Step K)) (s : HSt K), Coh true s → GoodRun s h → Step.op .clear ∉ h →
      (run s h).raw.vWeight = s.raw.vWeight := by
    intro h
    induction h with
    | nil => intro s _ _ _; rfl
    | cons x h ih =>
      intro s hc hh hnc
      rw [List.mem_cons, not_or] at hnc
      cases x with
      | op o =>
        have h1 := ih (apply o s).2 (apply_coh hh.1 hc) hh.2 hnc.2
        refine h1.trans ?_
        rw [apply_vWeight]
        cases o <;> first | rfl | exact absurd rfl hnc.1
      | read q =>
        obtain ⟨h2, h3⟩ := ask_keeps q hc
        exact (ih (ask q s).2 h3 hh hnc.2).trans (by rw [h2])
  have hwr := (hrun h s hc hh hnc).trans hw0.1
  obtain ⟨_, hc'⟩ := (hb.run h hh).inv
  refine ⟨by omega, ?_, Sp.diag vw, ?_, ?_⟩
  · show Except.ok (HAns.optVec (run s h).raw.vWeight) = _
    rw [hwr]
  · rw [ask_eq _ hc' (.inl rfl)]
    simp only [evAsk, evWv, hwr]; rfl
  · have hl := hw0.2.1
    rw [← hl]
    exact ⟨rfl, rfl, Sp.diag_WF vw, fun i j _ _ => Sp.diag_get vw i j⟩

/-- C45. The weights of a sub-hypergraph: the vertex of rank `rank v` has the weight of `v`. -/
theorem C45_hypergraph_sub_weights {s s' : HSt K} (hs : Built AnyH b s) {vl : List Int}
    {keepOne : Bool} (h : subgraph vl keepOne s = .ok s') {w : List K}
    (hw : (ask .vWeight s).1 = .ok (.optVec (some w))) :
    ∃ w', (ask .vWeight s').1 = .ok (.optVec (some w')) ∧ w'.length = vl.dedup.length ∧
      ∀ v ∈ vl, w'[(Spec.rank vl v).toNat]? = w[v.toNat]? := by
  obtain ⟨hi, _⟩ := hs.inv
  have hw' : s.raw.vWeight = some w := by
    have : (Except.ok (HAns.optVec s.raw.vWeight) : Except Err (HAns K)) = .ok (.optVec (some w)) := hw
    injection this with h; injection h
  obtain ⟨_, hrange, rfl⟩ := subgraph_ok h
  refine ⟨subWeights (sortedSet vl) w, by rw [hw']; rfl, ?_, ?_⟩
  · show (List.map _ _).length = _
    rw [List.length_map]
    exact (sortV_perm _).length_eq
  · intro v hv
    have hm := mem_sortedSet.2 hv
    rw [← idxOf_sortedSet hv, Int.toNat_natCast]
    unfold subWeights
    rw [List.getElem?_map, List.getElem?_idxOf hm]
    have hlt : v.toNat < w.length := by
      have := hrange v hm
      rw [hi.weights w hw']; omega
    simp [hlt]

example : Hyper.new (K := ℝ) 2 (some (.one false [0, 1])) .none (some [2, 3]) .mean = .ok exHw ∧
    GoodRun exHw [.read .Wv, .op (.removeGroup "main")] :=
  ⟨exHw_new, .inl trivial, trivial⟩

example : ∃ s', subgraph [1] true exHw = .ok s' ∧
    (ask .vWeight exHw).1 = .ok (.optVec (some [2, 3])) := ⟨_, rfl, rfl⟩

/-- C45 is false for `clone`: it loses the weights, and if `W_v` was read before, the clone's `W_v`
contradicts its own `v_weight`. -/
theorem C45_hypergraph_clone_false :
    (¬ ∀ (s s' : HSt ℝ), Built AnyH true s → clone s = .ok s' →
      (ask .vWeight s').1 = (ask .vWeight s).1) ∧
    ¬ ∀ (s s' : HSt ℝ) (w : List ℝ) (M : Sp ℝ), Built AnyH true s → clone s = .ok s' →
      (ask .vWeight s').1 = .ok (.optVec (some w)) → (ask .Wv s').1 = .ok (.mat M) →
      M.ents.map Prod.snd = w := by
  constructor
  · intro h
    have h1 := h exHw _ exHw_built rfl
    have h2 : (Except.ok (HAns.optVec (some [1, 1])) : Except Err (HAns ℝ)) =
      .ok (.optVec (some [2, 3])) := h1
    injection h2 with h2
    injection h2 with h2
    simp at h2
  · intro h
    have h1 := h (ask .Wv exHw).2 _ [1, 1] (Sp.diag [2, 3]) (.read .Wv exHw_built) rfl rfl rfl
    have h2 : ([2, 3] : List ℝ) = [1, 1] := h1
    simp at h2

/-- C45 is false for `drop_hyperedges` and `from_state_dict(state_dict)`: the weights are lost. -/
theorem C45_hypergraph_drop_state_false :
    (¬ ∀ (s s' : HSt ℝ) (rate : ℝ) (rnd : Nat → ℝ), Built AnyH true s →
      dropHyperedges rate true rnd s = .ok s' → (ask .vWeight s').1 = (ask .vWeight s).1) ∧
    ¬ ∀ (s s' : HSt ℝ), Built AnyH true s → fromStateDict (stateDict s) = .ok s' →
      (ask .vWeight s').1 = (ask .vWeight s).1 := by
  have hne : ¬ (Except.ok (HAns.optVec (some [1, 1])) : Except Err (HAns ℝ)) =
      .ok (.optVec (some [2, 3])) := by
    intro h2
    injection h2 with h2
    injection h2 with h2
    simp at h2
  constructor
  · intro h
    exact hne (h exHw _ 0 (fun _ => 1) exHw_built rfl)
  · intro h
    exact hne (h exHw _ exHw_built rfl)

/-- C45 is false for assignment: it always raises `AttributeError`. -/
theorem C45_hypergraph_assign_false (s : HSt K) (w : List K) :
    apply (.setVWeight w) s = (.error .attribute, s) := rfl

/-- C45 is false for `clear`: the vertices stay but `v_weight` is `None` and `W_v` raises. -/
theorem C45_hypergraph_clear_false :
    ∃ s : HSt ℝ, Built AnyH true s ∧
      (ask .numV (apply .clear s).2).1 = .ok (.num 2) ∧
      (ask .vWeight (apply .clear s).2).1 = .ok (.optVec none) ∧
      (ask .Wv (apply .clear s).2).1 = .error .type :=
  ⟨exHw, exHw_built, rfl, rfl, rfl⟩

end Props
end DHG
