import Verif.Props.GraphEdges2
import Verif.Props.GraphMatrices
import Verif.Props.DiGraphEdges
import Verif.Props.BiGraphEdges
import Verif.Props.HyperEdges

/-!
# C118: calls with good arguments are accepted, calls with vertices that do not exist are refused
-/

set_option linter.unusedSectionVars false
set_option autoImplicit false

namespace DHG

variable {K : Type} [Field K] [LinearOrder K] [PyReal K]

namespace Spec

/-- the endpoints are vertices: numbers from 0, below the numbers `m` and `n` of vertices of the
sides (for `Graph` and `DiGraph` the two are the same) -/
def EndsExist (m n : Nat) (es : List (Int × Int)) : Prop :=
  ∀ e ∈ es, 0 ≤ e.1 ∧ e.1 < (m : Int) ∧ 0 ≤ e.2 ∧ e.2 < (n : Int)

/-- no negative numbers -/
def EndsNonneg (es : List (Int × Int)) : Prop := ∀ e ∈ es, 0 ≤ e.1 ∧ 0 ≤ e.2

/-- the edges of an adjacency list: from the head of a line to each later element of the line -/
def adjPairs (adj : List (List Int)) : List (Int × Int) :=
  adj.flatMap fun line => line.tail.map fun b => (line.headD 0, b)

end Spec

namespace Props

/-! ### The formatting of edges -/

theorem formatEdges_outcome (n : Nat) (arg : EArg K) (hne : Spec.named arg ≠ [])
    (hw : Spec.weighted arg ≠ none) :
    ((∀ e ∈ Spec.named arg, e.1 < (n : Int) ∧ e.2 < (n : Int)) → ∃ p, formatEdges n arg = .ok p) ∧
    (¬ (∀ e ∈ Spec.named arg, e.1 < (n : Int) ∧ e.2 < (n : Int)) →
      formatEdges n arg = .error .assertion) := by
  cases arg with
  | single a b w =>
    simp only [Spec.named, List.mem_singleton, forall_eq, formatEdges]
    constructor
    · intro h; rw [if_pos (by omega)]; exact ⟨_, rfl⟩
    · intro h; rw [if_neg (by omega)]
  | many es ws =>
    cases es with
    | nil => exact absurd rfl hne
    | cons p es =>
      simp only [Spec.named, formatEdges]
      constructor
      · intro h
        rw [if_pos h]
        cases ws with
        | scalar w => exact absurd rfl hw
        | none => exact ⟨_, rfl⟩
        | list l => exact ⟨_, rfl⟩
      · intro h; rw [if_neg h]

theorem formatEdgesBi_outcome (m n : Nat) (arg : EArg K) (hne : Spec.named arg ≠ [])
    (hw : Spec.weighted arg ≠ none) :
    ((∀ e ∈ Spec.named arg, e.1 < (m : Int) ∧ e.2 < (n : Int)) → ∃ p, formatEdgesBi m n arg = .ok p) ∧
    (¬ (∀ e ∈ Spec.named arg, e.1 < (m : Int) ∧ e.2 < (n : Int)) →
      formatEdgesBi m n arg = .error .assertion) := by
  cases arg with
  | single a b w =>
    simp only [Spec.named, List.mem_singleton, forall_eq, formatEdgesBi]
    constructor
    · intro h; rw [if_pos h]; exact ⟨_, rfl⟩
    · intro h; rw [if_neg h]
  | many es ws =>
    cases es with
    | nil => exact absurd rfl hne
    | cons p es =>
      simp only [Spec.named, formatEdgesBi]
      constructor
      · intro h
        rw [if_pos h]
        cases ws with
        | scalar w => exact absurd rfl hw
        | none => exact ⟨_, rfl⟩
        | list l => exact ⟨_, rfl⟩
      · intro h; rw [if_neg h]

theorem isEmpty_of_named {arg : EArg K} (h : Spec.named arg ≠ []) : arg.isEmpty = false := by
  cases arg with
  | single a b w => rfl
  | many es ws => cases es with
    | nil => exact absurd rfl h
    | cons p es => rfl

theorem weighted_noWeight (arg : EArg K) : Spec.weighted arg.noWeight ≠ none := by
  cases arg <;> simp [EArg.noWeight, Spec.weighted]

theorem named_noWeight (arg : EArg K) : Spec.named arg.noWeight = Spec.named arg := by
  cases arg <;> rfl

/-- what the theorems below say of one call -/
theorem outcome_iff {r : Except Err Unit} {P Q : Prop} (hPQ : P ↔ Q) (h1 : P → r = .ok ())
    (h2 : ¬ P → r = .error .assertion) : (Q → r = .ok ()) ∧ (¬ Q → r = .error .assertion) :=
  ⟨fun h => h1 (hPQ.2 h), fun h => h2 fun hp => h (hPQ.1 hp)⟩

theorem ends_iff {m n : Nat} {es : List (Int × Int)} (h0 : Spec.EndsNonneg es) :
    (∀ e ∈ es, e.1 < (m : Int) ∧ e.2 < (n : Int)) ↔ Spec.EndsExist m n es :=
  ⟨fun h e he => ⟨(h0 e he).1, (h e he).1, (h0 e he).2, (h e he).2⟩,
    fun h e he => ⟨(h e he).2.1, (h e he).2.2.2⟩⟩

/-! ### Graph -/

theorem graph_add_outcome (g : GSt K) (arg : EArg K) (op : MergeOp) (hop : op ≠ .other)
    (hne : Spec.named arg ≠ []) (hw : Spec.weighted arg ≠ none) :
    ((∀ e ∈ Spec.named arg, e.1 < (g.raw.numV : Int) ∧ e.2 < (g.raw.numV : Int)) →
      (Graph.addEdges arg op g).1 = .ok ()) ∧
    (¬ (∀ e ∈ Spec.named arg, e.1 < (g.raw.numV : Int) ∧ e.2 < (g.raw.numV : Int)) →
      (Graph.addEdges arg op g).1 = .error .assertion) := by
  obtain ⟨f, hf⟩ := (Graph.mergeFn_ok_iff (K := K) op).2 hop
  obtain ⟨h1, h2⟩ := formatEdges_outcome g.raw.numV arg hne hw
  unfold Graph.addEdges
  rw [if_neg (by rw [isEmpty_of_named hne]; decide)]
  simp only [PyM.bind_apply, readRaw, PyM.lift_apply]
  constructor
  · intro h
    obtain ⟨p, hp⟩ := h1 h
    rw [hp]
    simp only
    rw [Graph.forM_addEdge_ok hf]
    rfl
  · intro h
    rw [h2 h]

theorem ord_add_outcome (c : Cls) (g : OSt K) (arg : EArg K) (op : MergeOp) (hop : op ≠ .other)
    (hne : Spec.named arg ≠ []) :
    ((∃ p, Ord.format c g.raw arg = .ok p) → (Ord.addEdges c arg op g).1 = .ok ()) ∧
    (∀ e, Ord.format c g.raw arg = .error e → (Ord.addEdges c arg op g).1 = .error e) := by
  obtain ⟨f, hf⟩ := (Graph.mergeFn_ok_iff (K := K) op).2 hop
  unfold Ord.addEdges
  rw [if_neg (by rw [isEmpty_of_named hne]; decide)]
  simp only [PyM.bind_apply, readRaw, PyM.lift_apply, id]
  constructor
  · rintro ⟨p, hp⟩
    rw [hp]
    simp only
    rw [Ord.forM_addEdge_ok hf]
    rfl
  · intro e he
    rw [he]

/-- C118 (Graph), `add_edges`: no negative numbers, a known operation, weights that are missing or a
list: accepted if all endpoints are vertices, `AssertionError` otherwise.  An empty list is
accepted.  Missing for the full claim: negative numbers, see `C118_graph_false`. -/
theorem C118_graph_add_partial {g : GSt K} {n : Nat} (hn : (Graph.ask .numV g).1 = .ok (.num n))
    (arg : EArg K) (op : MergeOp) (hop : op ≠ .other) (hw : Spec.weighted arg ≠ none)
    (h0 : Spec.EndsNonneg (Spec.named arg)) :
    (Spec.EndsExist n n (Spec.named arg) → (Graph.apply (.addEdges arg op) g).1 = .ok ()) ∧
    (¬ Spec.EndsExist n n (Spec.named arg) →
      (Graph.apply (.addEdges arg op) g).1 = .error .assertion) := by
  have hn' := numV_eq hn
  subst hn'
  by_cases hne : Spec.named arg = []
  · refine ⟨fun _ => ?_, fun h => absurd ?_ h⟩
    · cases arg with
      | single a b w => cases hne
      | many es ws => simp only [Spec.named] at hne; subst hne; rfl
    · rw [hne]; exact fun e he => by cases he
  · exact outcome_iff (ends_iff h0) (graph_add_outcome g arg op hop hne hw).1
      (graph_add_outcome g arg op hop hne hw).2

/-- C118 (Graph), `remove_edges`, for a list that is not empty -/
theorem C118_graph_remove_partial {g : GSt K} {n : Nat} (hn : (Graph.ask .numV g).1 = .ok (.num n))
    (arg : EArg K) (hne : Spec.named arg ≠ []) (h0 : Spec.EndsNonneg (Spec.named arg)) :
    (Spec.EndsExist n n (Spec.named arg) → (Graph.apply (.removeEdges arg) g).1 = .ok ()) ∧
    (¬ Spec.EndsExist n n (Spec.named arg) →
      (Graph.apply (.removeEdges arg) g).1 = .error .assertion) := by
  have hn' := numV_eq hn
  subst hn'
  obtain ⟨h1, h2⟩ := formatEdges_outcome (K := K) g.raw.numV arg.noWeight
    (by rw [named_noWeight]; exact hne) (weighted_noWeight arg)
  rw [named_noWeight] at h1 h2
  refine outcome_iff (ends_iff h0) ?_ ?_
  · intro h
    obtain ⟨p, hp⟩ := h1 h
    simp only [Graph.apply, Graph.removeEdges, PyM.bind_apply, readRaw, PyM.lift_apply, hp]
    rw [Graph.forM_removeEdge]
    rfl
  · intro h
    simp only [Graph.apply, Graph.removeEdges, PyM.bind_apply, readRaw, PyM.lift_apply, h2 h]

/-- C118 (Graph), the constructor -/
theorem C118_graph_new_partial (n : Int) (arg : EArg K) (extra : Bool) (op : MergeOp)
    (hop : op ≠ .other) (hw : Spec.weighted arg ≠ none) (h0 : Spec.EndsNonneg (Spec.named arg)) :
    (0 < n → Spec.EndsExist n.toNat n.toNat (Spec.named arg) →
      ∃ g, Graph.new n (some arg) extra op = .ok g) ∧
    (¬ (0 < n ∧ Spec.EndsExist n.toNat n.toNat (Spec.named arg)) →
      Graph.new n (some arg) extra op = .error .assertion) := by
  unfold Graph.new GRaw.init
  by_cases hp : 0 < n
  · rw [if_pos hp]
    simp only [bind, Except.bind]
    obtain ⟨h1, h2⟩ := C118_graph_add_partial (K := K)
      (g := { raw := { numV := n.toNat, eDict := [], loops := [], extra }, cache := [] }) rfl arg op
      hop hw h0
    constructor
    · intro _ h
      have := h1 h
      rcases hr : Graph.addEdges arg op (K := K)
        { raw := { numV := n.toNat, eDict := [], loops := [], extra }, cache := [] } with ⟨x, t⟩
      rw [show Graph.apply (.addEdges arg op) _ = Graph.addEdges arg op _ from rfl, hr] at this
      cases this
      exact ⟨t, rfl⟩
    · intro h
      have := h2 fun h' => h ⟨hp, h'⟩
      rcases hr : Graph.addEdges arg op (K := K)
        { raw := { numV := n.toNat, eDict := [], loops := [], extra }, cache := [] } with ⟨x, t⟩
      rw [show Graph.apply (.addEdges arg op) _ = Graph.addEdges arg op _ from rfl, hr] at this
      cases this
      rfl
  · rw [if_neg hp]
    exact ⟨fun h => absurd h hp, fun _ => rfl⟩

theorem adjListEdges_eq (adj : List (List Int)) : Graph.adjListEdges adj = Spec.adjPairs adj := by
  unfold Graph.adjListEdges Spec.adjPairs
  congr 1
  funext line
  rcases line with _ | ⟨a, _ | ⟨b, l⟩⟩ <;> rfl

/-- C118 (Graph): which adjacency lists are accepted -/
theorem C118_graph_adj_list_partial (n : Int) (adj : List (List Int)) (extra : Bool)
    (h0 : Spec.EndsNonneg (Spec.adjPairs adj)) :
    (0 < n → Spec.EndsExist n.toNat n.toNat (Spec.adjPairs adj) →
      ∃ g : GSt K, Graph.fromAdjList n adj extra = .ok g) ∧
    (¬ (0 < n ∧ Spec.EndsExist n.toNat n.toNat (Spec.adjPairs adj)) →
      Graph.fromAdjList (K := K) n adj extra = .error .assertion) := by
  unfold Graph.fromAdjList
  rw [adjListEdges_eq]
  exact C118_graph_new_partial n (.many (Spec.adjPairs adj) .none) extra .mean (by decide) (by
    simp [Spec.weighted]) h0

/-- What goes wrong (Graph): negative numbers are accepted; removing the edges of an empty list
raises, although adding them does not; one weight for a list of edges (documented:
`e_weight: Union[float, List[float]]`) raises. -/
theorem C118_graph_false (g : GSt K) (a b : Int) (ha : a < 0) (hb : b < 0) (op : MergeOp)
    (hop : op ≠ .other) (ws : WArg K) (es : List (Int × Int)) (hes : es ≠ [])
    (hin : ∀ e ∈ es, e.1 < (g.raw.numV : Int) ∧ e.2 < (g.raw.numV : Int)) (w : K) :
    (Graph.apply (.addEdges (.single a b none) op) g).1 = .ok () ∧
    (Graph.apply (.addEdges (.many [] ws) op) g).1 = .ok () ∧
    (Graph.apply (.removeEdges (.many [] ws)) g).1 = .error .index ∧
    (Graph.apply (.addEdges (.many es (.scalar w)) op) g).1 = .error .type := by
  refine ⟨?_, rfl, rfl, ?_⟩
  · refine (graph_add_outcome g (.single a b none) op hop (by simp [Spec.named]) (by
      simp [Spec.weighted])).1 ?_
    simp only [Spec.named, List.mem_singleton, forall_eq]
    omega
  · cases es with
    | nil => exact absurd rfl hes
    | cons e es =>
      have hf : formatEdges g.raw.numV (.many (e :: es) (.scalar w)) = .error .type := if_pos hin
      show (Graph.addEdges (.many (e :: es) (.scalar w)) op g).1 = _
      unfold Graph.addEdges
      rw [if_neg (by simp [EArg.isEmpty])]
      simp only [PyM.bind_apply, readRaw, PyM.lift_apply, hf]

/-- the hypotheses are met -/
example : (Graph.apply (.addEdges (.many [(0, 2), (2, 2)] (.list [5, 6])) .max) exG).1 = .ok () :=
  (C118_graph_add_partial (n := 3) rfl (.many [(0, 2), (2, 2)] (.list [5, 6])) .max (by decide)
    (by simp [Spec.weighted]) (by simp [Spec.EndsNonneg, Spec.named])).1
    (by simp [Spec.EndsExist, Spec.named])
example : (Graph.apply (.removeEdges (.many [(0, 3)] .none)) exG).1 = .error .assertion :=
  (C118_graph_remove_partial (n := 3) rfl (.many [(0, 3)] .none) (by simp [Spec.named])
    (by simp [Spec.EndsNonneg, Spec.named])).2 (by simp [Spec.EndsExist, Spec.named])
example : ∃ g : GSt ℝ, Graph.fromAdjList 3 [[0, 1, 2], [7], [2, 2]] false = .ok g :=
  (C118_graph_adj_list_partial 3 [[0, 1, 2], [7], [2, 2]] false
    (by simp [Spec.EndsNonneg, Spec.adjPairs])).1 (by decide) (by simp [Spec.EndsExist, Spec.adjPairs])
example : Graph.fromAdjList (K := ℝ) 3 [[0, 1, 3]] false = .error .assertion :=
  (C118_graph_adj_list_partial 3 [[0, 1, 3]] false
    (by simp [Spec.EndsNonneg, Spec.adjPairs])).2 (by simp [Spec.EndsExist, Spec.adjPairs])

/-! ### DiGraph -/

/-- C118 (DiGraph), `add_edges` -/
theorem C118_digraph_add_partial {g : DSt K} {n : Nat} (hn : (DiGraph.ask .numV g).1 = .ok (.num n))
    (arg : EArg K) (op : MergeOp) (hop : op ≠ .other) (hw : Spec.weighted arg ≠ none)
    (h0 : Spec.EndsNonneg (Spec.named arg)) :
    (Spec.EndsExist n n (Spec.named arg) → (DiGraph.apply (.addEdges arg op) g).1 = .ok ()) ∧
    (¬ Spec.EndsExist n n (Spec.named arg) →
      (DiGraph.apply (.addEdges arg op) g).1 = .error .assertion) := by
  have hn' : g.raw.numV = n := by
    have : (Except.ok (GAns.num g.raw.numV) : Except Err (GAns K)) = .ok (.num n) := hn
    injection this with h; injection h
  subst hn'
  by_cases hne : Spec.named arg = []
  · refine ⟨fun _ => ?_, fun h => absurd ?_ h⟩
    · cases arg with
      | single a b w => cases hne
      | many es ws => simp only [Spec.named] at hne; subst hne; rfl
    · rw [hne]; exact fun e he => by cases he
  · obtain ⟨h1, h2⟩ := formatEdges_outcome g.raw.numV arg hne hw
    obtain ⟨k1, k2⟩ := ord_add_outcome .di g arg op hop hne
    exact outcome_iff (ends_iff h0) (fun h => k1 (h1 h)) (fun h => k2 _ (h2 h))

theorem ord_remove_outcome (c : Cls) (g : OSt K) (arg : EArg K) :
    ((∃ p, Ord.format c g.raw arg.noWeight = .ok p) → (Ord.removeEdges c arg g).1 = .ok ()) ∧
    (∀ e, Ord.format c g.raw arg.noWeight = .error e → (Ord.removeEdges c arg g).1 = .error e) := by
  unfold Ord.removeEdges
  simp only [PyM.bind_apply, readRaw, PyM.lift_apply, id]
  constructor
  · rintro ⟨p, hp⟩
    rw [hp]
    simp only
    rw [Ord.forM_removeEdge]
    rfl
  · intro e he
    rw [he]

/-- C118 (DiGraph), `remove_edges`, for a list that is not empty -/
theorem C118_digraph_remove_partial {g : DSt K} {n : Nat}
    (hn : (DiGraph.ask .numV g).1 = .ok (.num n))
    (arg : EArg K) (hne : Spec.named arg ≠ []) (h0 : Spec.EndsNonneg (Spec.named arg)) :
    (Spec.EndsExist n n (Spec.named arg) → (DiGraph.apply (.removeEdges arg) g).1 = .ok ()) ∧
    (¬ Spec.EndsExist n n (Spec.named arg) →
      (DiGraph.apply (.removeEdges arg) g).1 = .error .assertion) := by
  have hn' : g.raw.numV = n := by
    have : (Except.ok (GAns.num g.raw.numV) : Except Err (GAns K)) = .ok (.num n) := hn
    injection this with h; injection h
  subst hn'
  obtain ⟨h1, h2⟩ := formatEdges_outcome (K := K) g.raw.numV arg.noWeight
    (by rw [named_noWeight]; exact hne) (weighted_noWeight arg)
  rw [named_noWeight] at h1 h2
  obtain ⟨k1, k2⟩ := ord_remove_outcome .di g arg
  exact outcome_iff (ends_iff h0) (fun h => k1 (h1 h)) (fun h => k2 _ (h2 h))

/-- C118 (DiGraph), the constructor -/
theorem C118_digraph_new_partial (n : Int) (arg : EArg K) (extra : Bool) (op : MergeOp)
    (hop : op ≠ .other) (hw : Spec.weighted arg ≠ none) (h0 : Spec.EndsNonneg (Spec.named arg)) :
    (0 < n → Spec.EndsExist n.toNat n.toNat (Spec.named arg) →
      ∃ g, DiGraph.new n (some arg) extra op = .ok g) ∧
    (¬ (0 < n ∧ Spec.EndsExist n.toNat n.toNat (Spec.named arg)) →
      DiGraph.new n (some arg) extra op = .error .assertion) := by
  unfold DiGraph.new GRaw.init
  by_cases hp : 0 < n
  · rw [if_pos hp]
    simp only [bind, Except.bind]
    obtain ⟨h1, h2⟩ := C118_digraph_add_partial (K := K)
      (g := { raw := { numV := n.toNat, eDict := [], loops := [], extra }, cache := [] }) rfl arg op
      hop hw h0
    constructor
    · intro _ h
      have := h1 h
      rcases hr : Ord.addEdges .di arg op (K := K)
        { raw := { numV := n.toNat, eDict := [], loops := [], extra }, cache := [] } with ⟨x, t⟩
      rw [show DiGraph.apply (.addEdges arg op) _ = Ord.addEdges .di arg op _ from rfl, hr] at this
      cases this
      exact ⟨t, rfl⟩
    · intro h
      have := h2 fun h' => h ⟨hp, h'⟩
      rcases hr : Ord.addEdges .di arg op (K := K)
        { raw := { numV := n.toNat, eDict := [], loops := [], extra }, cache := [] } with ⟨x, t⟩
      rw [show DiGraph.apply (.addEdges arg op) _ = Ord.addEdges .di arg op _ from rfl, hr] at this
      cases this
      rfl
  · rw [if_neg hp]
    exact ⟨fun h => absurd h hp, fun _ => rfl⟩

/-- C118 (DiGraph): which adjacency lists are accepted -/
theorem C118_digraph_adj_list_partial (n : Int) (adj : List (List Int)) (extra : Bool)
    (h0 : Spec.EndsNonneg (Spec.adjPairs adj)) :
    (0 < n → Spec.EndsExist n.toNat n.toNat (Spec.adjPairs adj) →
      ∃ g : DSt K, DiGraph.fromAdjList n adj extra = .ok g) ∧
    (¬ (0 < n ∧ Spec.EndsExist n.toNat n.toNat (Spec.adjPairs adj)) →
      DiGraph.fromAdjList (K := K) n adj extra = .error .assertion) := by
  unfold DiGraph.fromAdjList
  rw [adjListEdges_eq]
  exact C118_digraph_new_partial n (.many (Spec.adjPairs adj) .none) extra .mean (by decide) (by
    simp [Spec.weighted]) h0

/-- what goes wrong (DiGraph), as for `Graph` -/
theorem C118_digraph_false (g : DSt K) (a b : Int) (ha : a < 0) (hb : b < 0) (op : MergeOp)
    (hop : op ≠ .other) (ws : WArg K) :
    (DiGraph.apply (.addEdges (.single a b none) op) g).1 = .ok () ∧
    (DiGraph.apply (.addEdges (.many [] ws) op) g).1 = .ok () ∧
    (DiGraph.apply (.removeEdges (.many [] ws)) g).1 = .error .index := by
  refine ⟨(ord_add_outcome .di g (.single a b none) op hop (by simp [Spec.named])).1
    ((formatEdges_outcome _ (.single a b none) (by simp [Spec.named]) (by simp [Spec.weighted])).1 ?_), rfl, rfl⟩
  simp only [Spec.named, List.mem_singleton, forall_eq]
  omega

example : (DiGraph.apply (.addEdges (.single 2 0 none) .max) exD).1 = .ok () :=
  (C118_digraph_add_partial (n := 3) rfl (.single 2 0 none) .max (by decide)
    (by simp [Spec.weighted]) (by simp [Spec.EndsNonneg, Spec.named])).1
    (by simp [Spec.EndsExist, Spec.named])
example : (DiGraph.apply (.removeEdges (.many [(0, 3)] .none)) exD).1 = .error .assertion :=
  (C118_digraph_remove_partial (n := 3) rfl (.many [(0, 3)] .none) (by simp [Spec.named])
    (by simp [Spec.EndsNonneg, Spec.named])).2 (by simp [Spec.EndsExist, Spec.named])
example : ∃ g : DSt ℝ, DiGraph.fromAdjList 3 [[0, 1, 2], [7], [2, 2]] false = .ok g :=
  (C118_digraph_adj_list_partial 3 [[0, 1, 2], [7], [2, 2]] false
    (by simp [Spec.EndsNonneg, Spec.adjPairs])).1 (by decide) (by simp [Spec.EndsExist, Spec.adjPairs])

/-! ### BiGraph -/

/-- C118 (BiGraph), `add_edges` -/
theorem C118_bigraph_add_partial {g : BSt K} {m n : Nat}
    (hm : (BiGraph.ask .numU g).1 = .ok (.num m)) (hn : (BiGraph.ask .numV g).1 = .ok (.num n))
    (arg : EArg K) (op : MergeOp) (hop : op ≠ .other) (hw : Spec.weighted arg ≠ none)
    (h0 : Spec.EndsNonneg (Spec.named arg)) :
    (Spec.EndsExist m n (Spec.named arg) → (BiGraph.apply (.addEdges arg op) g).1 = .ok ()) ∧
    (¬ Spec.EndsExist m n (Spec.named arg) →
      (BiGraph.apply (.addEdges arg op) g).1 = .error .assertion) := by
  have hn' : g.raw.numV = n := by
    have : (Except.ok (GAns.num g.raw.numV) : Except Err (GAns K)) = .ok (.num n) := hn
    injection this with h; injection h
  have hm' : g.raw.numU = m := by
    have : (Except.ok (GAns.num g.raw.numU) : Except Err (GAns K)) = .ok (.num m) := hm
    injection this with h; injection h
  subst hn' hm'
  by_cases hne : Spec.named arg = []
  · refine ⟨fun _ => ?_, fun h => absurd ?_ h⟩
    · cases arg with
      | single a b w => cases hne
      | many es ws => simp only [Spec.named] at hne; subst hne; rfl
    · rw [hne]; exact fun e he => by cases he
  · obtain ⟨h1, h2⟩ := formatEdgesBi_outcome g.raw.numU g.raw.numV arg hne hw
    obtain ⟨k1, k2⟩ := ord_add_outcome .bi g arg op hop hne
    exact outcome_iff (ends_iff h0) (fun h => k1 (h1 h)) (fun h => k2 _ (h2 h))

/-- C118 (BiGraph), `remove_edges`, for a list that is not empty -/
theorem C118_bigraph_remove_partial {g : BSt K} {m n : Nat}
    (hm : (BiGraph.ask .numU g).1 = .ok (.num m)) (hn : (BiGraph.ask .numV g).1 = .ok (.num n))
    (arg : EArg K) (hne : Spec.named arg ≠ []) (h0 : Spec.EndsNonneg (Spec.named arg)) :
    (Spec.EndsExist m n (Spec.named arg) → (BiGraph.apply (.removeEdges arg) g).1 = .ok ()) ∧
    (¬ Spec.EndsExist m n (Spec.named arg) →
      (BiGraph.apply (.removeEdges arg) g).1 = .error .assertion) := by
  have hn' : g.raw.numV = n := by
    have : (Except.ok (GAns.num g.raw.numV) : Except Err (GAns K)) = .ok (.num n) := hn
    injection this with h; injection h
  have hm' : g.raw.numU = m := by
    have : (Except.ok (GAns.num g.raw.numU) : Except Err (GAns K)) = .ok (.num m) := hm
    injection this with h; injection h
  subst hn' hm'
  obtain ⟨h1, h2⟩ := formatEdgesBi_outcome (K := K) g.raw.numU g.raw.numV arg.noWeight
    (by rw [named_noWeight]; exact hne) (weighted_noWeight arg)
  rw [named_noWeight] at h1 h2
  obtain ⟨k1, k2⟩ := ord_remove_outcome .bi g arg
  exact outcome_iff (ends_iff h0) (fun h => k1 (h1 h)) (fun h => k2 _ (h2 h))

/-- C118 (BiGraph), the constructor.  The number of vertices of the first side is not checked
(bipartite_graph.py:36), only that of the second is. -/
theorem C118_bigraph_new_partial (m : Nat) (n : Int) (arg : EArg K) (op : MergeOp)
    (hop : op ≠ .other) (hw : Spec.weighted arg ≠ none) (h0 : Spec.EndsNonneg (Spec.named arg)) :
    (0 < n → Spec.EndsExist m n.toNat (Spec.named arg) →
      ∃ g, BiGraph.new m n (some arg) op = .ok g) ∧
    (¬ (0 < n ∧ Spec.EndsExist m n.toNat (Spec.named arg)) →
      BiGraph.new m n (some arg) op = .error .assertion) := by
  unfold BiGraph.new BiGraph.initRaw GRaw.init
  by_cases hp : 0 < n
  · rw [if_pos hp]
    simp only [bind, Except.bind]
    obtain ⟨h1, h2⟩ := C118_bigraph_add_partial (K := K)
      (g := { raw := { numU := m, numV := n.toNat, eDict := [], loops := [], extra := false },
              cache := [] }) rfl rfl arg op hop hw h0
    constructor
    · intro _ h
      have := h1 h
      rcases hr : Ord.addEdges .bi arg op (K := K)
        { raw := { numU := m, numV := n.toNat, eDict := [], loops := [], extra := false },
          cache := [] } with ⟨x, t⟩
      rw [show BiGraph.apply (.addEdges arg op) _ = Ord.addEdges .bi arg op _ from rfl, hr] at this
      cases this
      exact ⟨t, rfl⟩
    · intro h
      have := h2 fun h' => h ⟨hp, h'⟩
      rcases hr : Ord.addEdges .bi arg op (K := K)
        { raw := { numU := m, numV := n.toNat, eDict := [], loops := [], extra := false },
          cache := [] } with ⟨x, t⟩
      rw [show BiGraph.apply (.addEdges arg op) _ = Ord.addEdges .bi arg op _ from rfl, hr] at this
      cases this
      rfl
  · rw [if_neg hp]
    exact ⟨fun h => absurd h hp, fun _ => rfl⟩

/-- C118 (BiGraph): which adjacency lists are accepted -/
theorem C118_bigraph_adj_list_partial (m : Nat) (n : Int) (adj : List (List Int))
    (h0 : Spec.EndsNonneg (Spec.adjPairs adj)) :
    (0 < n → Spec.EndsExist m n.toNat (Spec.adjPairs adj) →
      ∃ g : BSt K, BiGraph.fromAdjList m n adj = .ok g) ∧
    (¬ (0 < n ∧ Spec.EndsExist m n.toNat (Spec.adjPairs adj)) →
      BiGraph.fromAdjList (K := K) m n adj = .error .assertion) := by
  unfold BiGraph.fromAdjList
  rw [adjListEdges_eq]
  exact C118_bigraph_new_partial m n (.many (Spec.adjPairs adj) .none) .mean (by decide) (by
    simp [Spec.weighted]) h0

/-- what goes wrong (BiGraph), as for `Graph`; besides, a bipartite graph whose first side has no
vertices is accepted -/
theorem C118_bigraph_false (g : BSt K) (a b : Int) (ha : a < 0) (hb : b < 0) (op : MergeOp)
    (hop : op ≠ .other) (ws : WArg K) :
    (BiGraph.apply (.addEdges (.single a b none) op) g).1 = .ok () ∧
    (BiGraph.apply (.addEdges (.many [] ws) op) g).1 = .ok () ∧
    (BiGraph.apply (.removeEdges (.many [] ws)) g).1 = .error .index ∧
    ∃ g' : BSt K, BiGraph.new 0 1 none op = .ok g' := by
  refine ⟨(ord_add_outcome .bi g (.single a b none) op hop (by simp [Spec.named])).1
    ((formatEdgesBi_outcome _ _ (.single a b none) (by simp [Spec.named]) (by simp [Spec.weighted])).1 ?_), rfl, rfl,
    _, rfl⟩
  simp only [Spec.named, List.mem_singleton, forall_eq]
  omega

example : (BiGraph.apply (.addEdges (.single 1 2 none) .max) exB).1 = .ok () :=
  (C118_bigraph_add_partial (m := 2) (n := 3) rfl rfl (.single 1 2 none) .max (by decide)
    (by simp [Spec.weighted]) (by simp [Spec.EndsNonneg, Spec.named])).1
    (by simp [Spec.EndsExist, Spec.named])
example : (BiGraph.apply (.removeEdges (.many [(2, 0)] .none)) exB).1 = .error .assertion :=
  (C118_bigraph_remove_partial (m := 2) (n := 3) rfl rfl (.many [(2, 0)] .none) (by simp [Spec.named])
    (by simp [Spec.EndsNonneg, Spec.named])).2 (by simp [Spec.EndsExist, Spec.named])
example : ∃ g : BSt ℝ, BiGraph.fromAdjList 2 3 [[0, 1, 2], [7], [1, 2]] = .ok g :=
  (C118_bigraph_adj_list_partial 2 3 [[0, 1, 2], [7], [1, 2]]
    (by simp [Spec.EndsNonneg, Spec.adjPairs])).1 (by decide) (by simp [Spec.EndsExist, Spec.adjPairs])

/-! ### Hypergraph -/

/-- C118 (Hypergraph): no vertex is checked when hyperedges are added: the call with one hyperedge is
accepted whatever its vertices are -/
theorem C118_hypergraph_false (s : HSt K) (vs : List Int) (t : Bool) (op : MergeOp)
    (hop : op ≠ .other) (g : String) :
    (Hyper.apply (.addHyperedges (.one t vs) .none op g) s).1 = .ok () := by
  simp only [Hyper.apply]
  rcases Hyper.addHyperedges_cases (.one t vs) .none op g s with
    ⟨e, h1, h2⟩ | ⟨es, ws, _, _, _, ⟨h4, _⟩ | ⟨h4, _⟩⟩
  · exfalso
    cases vs with
    | nil => exact h2 [] [] rfl rfl rfl
    | cons v vs => exact h2 [sortV (v :: vs)] [1] rfl rfl rfl
  · exact h4
  · exact absurd h4 hop

end Props
end DHG
