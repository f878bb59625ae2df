import Verif.GraphHelpers

/-!
# Properties of `Graph`: freshness, edge set, listing, copies, dropping, removal, failures

`Built AnyArg g`: `g` was obtained through the public interface in any way (`GraphApi.lean`).
`Spec.*` is the abstract edge map (`GraphSpec.lean`).
-/

set_option linter.unusedSectionVars false
set_option autoImplicit false

namespace DHG
namespace Props

open Graph

variable {K : Type} [Field K] [LinearOrder K] [PyReal K]

/-- example graph used to show that hypotheses can be met: three vertices, edges 0-1 (weight 2)
and 1-2 (weight 3), a self loop at 2 -/
noncomputable def exG : GSt ℝ :=
  { raw := { numV := 3, eDict := [((0, 1), 2), ((1, 2), 3)], loops := [(2, 7)], extra := false }
    cache := [] }

theorem exG_new : Graph.new (K := ℝ) 3
    (some (.many [(1, 0), (1, 2), (2, 2)] (.list [2, 3, 7]))) false .sum = .ok exG := rfl

theorem exG_built : Built AnyArg exG := .new exG_new fun _ _ => trivial

theorem exG_nonneg : Built NonNeg exG :=
  .new exG_new (by intro a ha; cases ha; simp [NonNeg])

/-! ## C01 -/

/-- C01. Any read after any history equals the same read on a graph freshly constructed from the
stored vertices, edges, weights and flag (as shown by `state_dict`). -/
theorem C01_graph_reads_fresh {g : GSt K} (hg : Built AnyArg g) (h : List (Step K))
    (q : GQuery K) (op : MergeOp) (hop : op ≠ .other) :
    let sd := stateDict (run g h)
    ∃ g' : GSt K,
      Graph.new sd.numV
        (some (.many (sd.eDict.keys ++ sd.loops.keys.map fun v => (v, v))
          (.list (sd.eDict.vals ++ sd.loops.vals)))) sd.extra op = .ok g' ∧
      (ask q (run g h)).1 = (ask q g').1 := by
  have hb := hg.run h
  refine ⟨{ raw := (run g h).raw, cache := [] }, new_rebuild hb.inv.1 op hop, ?_⟩
  rw [(reads_ask q _ hb.inv.2).1, (reads_ask q _ (coherent_nil _)).1]

/-- C01. Reads never influence later answers. -/
theorem C01_graph_reads_do_not_interfere {g : GSt K} (hg : Built AnyArg g) (qs : List (GQuery K))
    (h : List (Step K)) (q : GQuery K) :
    (ask q (run (run g (qs.map .read)) h)).1 = (ask q (run g h)).1 := by
  have key : (run g (qs.map .read)).raw = g.raw := by
    induction qs generalizing g with
    | nil => rfl
    | cons q' qs ih =>
      have h1 := ih (g := (ask q' g).2) (.read q' hg)
      exact h1.trans (reads_ask q' g hg.inv.2).2.1
  exact ((hg.run _).indist hg.inv.2 key) h q

example : Built AnyArg exG ∧ (MergeOp.mean ≠ .other) := ⟨exG_built, by decide⟩

/-! ## C02 -/

/-- C02. After any history from construction, reading `e` shows exactly the abstract edge map
obtained by replaying the calls, plus the unit self loops when the flag is set. -/
theorem C02_graph_edge_set {n : Int} {arg : Option (EArg K)} {extra : Bool} {op : MergeOp}
    {g : GSt K} (hg : Graph.new n arg extra op = .ok g) (h : List (Step K)) (a b : Int) (w : K) :
    let s := Spec.run n.toNat (Spec.new n.toNat arg extra op) h
    Spec.Listed (run g h) a b w ↔
      (s.map a b = some w ∨ (s.extra = true ∧ a = b ∧ 0 ≤ a ∧ a < n ∧ w = 1)) := by
  have hb : Built AnyArg g := .new hg fun _ _ => trivial
  obtain ⟨h1, h2, h3⟩ := absS_new hg
  obtain ⟨h4, h5⟩ := absS_run hb.inv.1 hb.inv.2 h
  rw [h1, h2] at h4
  simp only
  rw [← h4, (hb.run h).listed, h5, h2]
  simp only [absS]
  have : (a < (n.toNat : Int)) ↔ a < n := by omega
  rw [this]

/-- C02. Writing an edge as `(a,b)` or `(b,a)` makes no difference: replacing every edge of a call
by its mirror image gives the same abstract effect, hence (by `C02_graph_edge_set`) the same
listing. -/
def mirror : EArg K → EArg K
  | .single a b w => .single b a w
  | .many es ws => .many (es.map fun e => (e.2, e.1)) ws

theorem C02_orientation_irrelevant {g : GSt K} (hg : Built AnyArg g) (arg : EArg K) (op : MergeOp) :
    Spec.Indist (apply (.addEdges arg op) g).2 (apply (.addEdges (mirror arg) op) g).2 ∧
    Spec.Indist (apply (.removeEdges arg) g).2 (apply (.removeEdges (mirror arg)) g).2 := by
  have hsp : ∀ e : Int × Int, sortPair (e.2, e.1) = sortPair e := by
    intro e
    unfold sortPair
    simp only
    split <;> split
    · exact Prod.ext (by simp only []; omega) (by simp only []; omega)
    · rfl
    · rfl
    · omega
  have hfmt : ∀ (n : Nat) (a : EArg K), formatEdges n (mirror a) =
      (formatEdges n a).map fun p => (p.1.map (fun e => (e.2, e.1)), p.2) := by
    intro n a
    cases a with
    | single x y w =>
      simp only [mirror, formatEdges, max_comm y x]
      split <;> rfl
    | many es ws =>
      cases es with
      | nil => rfl
      | cons p es =>
        simp only [mirror, formatEdges, List.map_cons]
        by_cases hh : ∀ q ∈ p :: es, q.1 < (n : Int) ∧ q.2 < (n : Int)
        · have hh' : ∀ q ∈ (p.2, p.1) :: es.map (fun e => (e.2, e.1)),
              q.1 < (n : Int) ∧ q.2 < (n : Int) := by
            intro q hq
            rw [← List.map_cons (f := fun e : Int × Int => (e.2, e.1))] at hq
            obtain ⟨q', hq', rfl⟩ := List.mem_map.1 hq
            exact (hh q' hq').symm
          rw [if_pos hh, if_pos hh']
          cases ws <;> simp [Except.map]
        · have hh' : ¬ ∀ q ∈ (p.2, p.1) :: es.map (fun e => (e.2, e.1)),
              q.1 < (n : Int) ∧ q.2 < (n : Int) := by
            intro hc
            apply hh
            intro q hq
            have := hc (q.2, q.1) (by
              rw [← List.map_cons (f := fun e : Int × Int => (e.2, e.1))]
              exact List.mem_map.2 ⟨q, hq, rfl⟩)
            exact this.symm
          rw [if_neg hh, if_neg hh']
          rfl
  have hpairs : ∀ (r : GRaw K) (f : K → K → K) (es : List (Int × Int)) (ws : List K),
      addPairs r f ((es.map fun e => (e.2, e.1)).zip ws) = addPairs r f (es.zip ws) := by
    intro r f es
    induction es generalizing r with
    | nil => intro ws; rfl
    | cons e es ih =>
      intro ws
      cases ws with
      | nil => rfl
      | cons w ws =>
        show addPairs (r.addEdge f (sortPair (e.2, e.1)).1 (sortPair (e.2, e.1)).2 w) f
          ((es.map fun e => (e.2, e.1)).zip ws) = _
        rw [ih, hsp]
        rfl
  have hrem : ∀ (r : GRaw K) (es : List (Int × Int)),
      removeList r (es.map fun e => (e.2, e.1)) = removeList r es := by
    intro r es
    induction es generalizing r with
    | nil => rfl
    | cons e es ih =>
      show removeList (r.removeEdge (sortPair (e.2, e.1)).1 (sortPair (e.2, e.1)).2)
          (es.map fun e => (e.2, e.1)) = _
      rw [ih, hsp]
      rfl
  constructor
  · apply (Built.op (.addEdges arg op) hg fun _ _ _ => trivial).indist
      (Built.op (P := AnyArg) (.addEdges (mirror arg) op) hg fun _ _ _ => trivial).inv.2
    show (addEdges arg op g).2.raw = (addEdges (mirror arg) op g).2.raw
    unfold addEdges
    have he : (mirror arg).isEmpty = arg.isEmpty := by
      cases arg with
      | single => rfl
      | many es ws => cases es <;> rfl
    rw [he]
    cases arg.isEmpty with
    | true => rfl
    | false =>
      simp only [Bool.false_eq_true, if_false, PyM.bind_apply, readRaw, PyM.lift_apply, hfmt]
      cases hf : formatEdges g.raw.numV arg with
      | error e => rfl
      | ok p =>
        simp only [Except.map]
        cases hop : mergeFn (K := K) op with
        | error e =>
          rw [forM_addEdge_err hop, forM_addEdge_err hop]
          by_cases hz : p.1.zip p.2 = [] <;>
            by_cases hz' : (p.1.map fun e => (e.2, e.1)).zip p.2 = [] <;> simp [hz, hz', clearCache]
        | ok f =>
          rw [forM_addEdge_ok hop, forM_addEdge_ok hop]
          simp [clearCache, hpairs]
  · apply (Built.op (.removeEdges arg) hg fun _ _ _ => trivial).indist
      (Built.op (P := AnyArg) (.removeEdges (mirror arg)) hg fun _ _ _ => trivial).inv.2
    show (removeEdges arg g).2.raw = (removeEdges (mirror arg) g).2.raw
    unfold removeEdges
    have hw : (mirror arg).noWeight = mirror arg.noWeight := by cases arg <;> rfl
    simp only [PyM.bind_apply, readRaw, PyM.lift_apply, hw, hfmt]
    cases hf : formatEdges g.raw.numV arg.noWeight with
    | error e => rfl
    | ok p =>
      simp only [Except.map]
      rw [forM_removeEdge, forM_removeEdge]
      simp [clearCache, hrem]

/-- C02. At most one weight is stored per unordered pair: any weight shown for a proper edge is
the only one. -/
theorem C02_one_weight_per_pair {g : GSt K} (hg : Built AnyArg g) {a b : Int} (hab : a ≠ b)
    {w w' : K} (h : Spec.Listed g a b w) (h' : Spec.Listed g a b w') : w = w' := by
  rw [hg.listed] at h h'
  simp only [hab, false_and, and_false, or_false] at h h'
  exact Option.some.inj (h.symm.trans h')

example : ∃ g : GSt ℝ, Graph.new 3 (some (.many [(1, 0), (1, 2), (2, 2)] (.list [2, 3, 7])))
    false .sum = .ok g := ⟨_, exG_new⟩
example : Spec.Listed exG 1 0 2 := by
  rw [exG_built.listed]
  left; rfl

end Props
end DHG
