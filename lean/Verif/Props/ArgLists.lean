import Verif.ArgCaches
import Verif.GraphHelpers
import Verif.Props.GraphEdges
import Verif.Props.DiGraphEdges
import Verif.Props.BiGraphEdges
import Verif.Props.HyperEdges

/-!
# Lists of hyperedges given to hypergraphs (C46, C108, C109)

The arguments are objects of a memory, see `Verif/ArgLists.lean`.
-/

set_option linter.unusedSectionVars false
set_option autoImplicit false

namespace DHG
namespace Props

open Args

variable {K : Type} [Field K] [LinearOrder K]

/-! ## C46 -/

theorem mem_remove (r : Nat) (g : Option String) (s : HSt K) (m : Mem) :
    (removeHyperedges r g (s, m)).2.2 = m ∨
      (removeHyperedges r g (s, m)).2.2 = Function.update m r (m r).after := by
  rw [removeHyperedges_eq]
  cases Hyper.knownGroup g s.raw with
  | true => exact .inr rfl
  | false => exact .inl rfl

/-- C46, partial. The caller's argument is left as it was when it is a tuple, a flat list of
vertices, or a list whose elements are already sorted tuples. Missing: lists of other sequences
(`C46_hypergraph_argument_unchanged_false`). -/
theorem C46_hypergraph_argument_unchanged_partial {m : Mem} {r : Nat}
    (h : ∀ es, m r = .many false es → ∀ x ∈ es, x.tup = true ∧ x.items.Pairwise (· ≤ ·)) :
    (∀ (ew : HW K) op g s, (addHyperedges r ew op g (s, m)).2.2 = m) ∧
    (∀ g (s : HSt K), (removeHyperedges r g (s, m)).2.2 = m) ∧
    (∀ n (ew : HW K) vw op, (new n (some r) ew vw op m).2 = m) := by
  have h1 : Function.update m r (m r).after = m := by
    have : (m r).after = m r := by
      rcases e : m r with ⟨t, vs⟩ | ⟨t, es⟩ | _
      · rfl
      · cases t with
        | true => rfl
        | false => exact after_sorted es fun x hx => ⟨(h es e x hx).1, sortV_of_sorted (h es e x hx).2⟩
      · rfl
    rw [this]
    exact Function.update_eq_self r m
  refine ⟨fun ew op g s => ?_, fun g s => ?_, fun n ew vw op => ?_⟩
  · rw [addHyperedges_eq]; exact h1
  · rcases mem_remove r g s m with e | e <;> rw [e]; exact h1
  · rcases new_mem n r ew vw op m with e | e <;> rw [e]; exact h1

/-- C46. No object other than the argument is ever changed. -/
theorem C46_hypergraph_others_unchanged {m : Mem} {r k : Nat} (h : k ≠ r) :
    (∀ (ew : HW K) op g s, (addHyperedges r ew op g (s, m)).2.2 k = m k) ∧
    (∀ g (s : HSt K), (removeHyperedges r g (s, m)).2.2 k = m k) ∧
    (∀ n (ew : HW K) vw op, (new n (some r) ew vw op m).2 k = m k) := by
  refine ⟨fun ew op g s => ?_, fun g s => ?_, fun n ew vw op => ?_⟩
  · rw [addHyperedges_eq]; exact Function.update_of_ne h ..
  · rcases mem_remove r g s m with e | e <;> rw [e]; exact Function.update_of_ne h ..
  · rcases new_mem n r ew vw op m with e | e <;> rw [e]; exact Function.update_of_ne h ..

theorem seq1_spec {s s' : PySeq} (h : Seq1 s s') : Spec.OrSorted s s' := by
  rcases h with rfl | rfl
  · exact .inl rfl
  · exact .inr ⟨rfl, sortV_perm _, sortV_sorted _⟩

theorem like_spec {a a' : HArg} (h : Like a a') : Spec.SameHyperedges a a' := by
  cases h with
  | refl =>
    rcases a with ⟨t, vs⟩ | ⟨t, es⟩ | _
    · rfl
    · cases t with
      | true => rfl
      | false => exact List.forall₂_same.2 fun x _ => .inl rfl
    · rfl
  | many es es' h => exact h.imp fun _ _ => seq1_spec

/-- C46. In every case the argument still holds the same hyperedges: each element of a list is as it was, or is now
the tuple of the same vertices in ascending order. -/
theorem C46_hypergraph_argument_same_hyperedges (m : Mem) (r : Nat) :
    (∀ (ew : HW K) op g s, Spec.SameHyperedges (m r) ((addHyperedges r ew op g (s, m)).2.2 r)) ∧
    (∀ g (s : HSt K), Spec.SameHyperedges (m r) ((removeHyperedges r g (s, m)).2.2 r)) ∧
    (∀ n (ew : HW K) vw op, Spec.SameHyperedges (m r) ((new n (some r) ew vw op m).2 r)) := by
  have h1 : Spec.SameHyperedges (m r) (Function.update m r (m r).after r) := by
    rw [Function.update_self]; exact like_spec (Like.refl _).after
  have h0 : Spec.SameHyperedges (m r) (m r) := like_spec (.refl _)
  refine ⟨fun ew op g s => ?_, fun g s => ?_, fun n ew vw op => ?_⟩
  · rw [addHyperedges_eq]; exact h1
  · rcases mem_remove r g s m with e | e <;> rw [e]
    · exact h0
    · exact h1
  · rcases new_mem n r ew vw op m with e | e <;> rw [e]
    · exact h0
    · exact h1

/-- C46. Apart from the effect on the caller's object, the calls do what they do with a value. -/
theorem C46_hypergraph_same_call (m : Mem) (r : Nat) :
    (∀ (ew : HW K) op g s, ((addHyperedges r ew op g (s, m)).1, (addHyperedges r ew op g (s, m)).2.1) =
      Hyper.addHyperedges (m r) ew op g s) ∧
    (∀ g (s : HSt K), ((removeHyperedges r g (s, m)).1, (removeHyperedges r g (s, m)).2.1) =
      Hyper.removeHyperedges (m r) g s) ∧
    (∀ n (ew : HW K) vw op, (new n (some r) ew vw op m).1 = Hyper.new n (some (m r)) ew vw op) :=
  ⟨fun ew op g s => by rw [addHyperedges_eq], fun g s => by rw [removeHyperedges_eq], fun n ew vw op => new_eq ..⟩

/-- C46 is false: in a list of hyperedges given as lists, each is replaced by a sorted tuple. -/
theorem C46_hypergraph_argument_unchanged_false :
    ¬ (∀ (m : Mem) (r : Nat) (s : HSt K) (ew : HW K) op g, (addHyperedges r ew op g (s, m)).2.2 r = m r) ∧
    ¬ (∀ (m : Mem) (r : Nat) (s : HSt K) g, (removeHyperedges r g (s, m)).2.2 r = m r) ∧
    ¬ (∀ (m : Mem) (r : Nat) (n : Int) (ew : HW K) vw op, (new n (some r) ew vw op m).2 r = m r) := by
  have h1 : Function.update (fun _ : Nat => HArg.many false [⟨false, [2, 1]⟩]) 0
      (HArg.many false [⟨false, [2, 1]⟩]).after 0 ≠ .many false [⟨false, [2, 1]⟩] := by
    rw [Function.update_self]; decide
  refine ⟨fun h => ?_, fun h => ?_, fun h => ?_⟩
  · have := h (fun _ => .many false [⟨false, [2, 1]⟩]) 0 { raw := { numV := 3, vWeight := none, groups := [] }, cache := [] }
      .none .mean "main"
    rw [addHyperedges_eq] at this
    exact h1 this
  · have := h (fun _ => .many false [⟨false, [2, 1]⟩]) 0 { raw := { numV := 3, vWeight := none, groups := [] }, cache := [] }
      none
    rw [removeHyperedges_eq] at this
    exact h1 this
  · have := h (fun _ => .many false [⟨false, [2, 1]⟩]) 0 3 .none none .mean
    rw [new_mem_ok (K := K) (n := 3) (r := 0) (ew := .none) (vw := none) (op := .mean)
      (m := fun _ => .many false [⟨false, [2, 1]⟩]) rfl] at this
    exact h1 this

example : ∀ es, (fun _ : Nat => HArg.many false [⟨true, [0, 1]⟩, ⟨true, [2]⟩]) 0 = .many false es →
    ∀ x ∈ es, x.tup = true ∧ x.items.Pairwise (· ≤ ·) := by
  intro es h; cases h; decide

/-! ## C108 -/

section Real
variable [PyReal K]

/-- C108: passing kept objects, again and again and to several hypergraphs, gives the hypergraphs that copies give, and
all their answers are the same. -/
theorem C108_same_hypergraphs (p : List (Cmd K)) :
    (execAll .empty p).objs = (execAll .empty (Spec.copies p)).objs ∧
      ∀ i q, answer (execAll .empty p) i q = answer (execAll .empty (Spec.copies p)) i q := by
  have h : (execAll .empty p).objs = (execAll .empty (Spec.copies p)).objs := (Sim.start.run p).objs
  exact ⟨h, fun i q => by unfold answer; rw [h]⟩

/-- C108: whatever calls they were passed to, the caller's objects hold the hyperedges the caller wrote. -/
theorem C108_lists (p : List (Cmd K)) (h : Nat) (a : HArg) (ha : (Spec.written p)[h]? = some a) :
    Spec.SameHyperedges a ((execAll .empty p).mem h) := like_spec ((Sim.start.run p).now h a ha)

/-- C108: objects of which copies are passed are exactly as the caller wrote them. -/
theorem C108_copies (p : List (Cmd K)) (h : Nat) (a : HArg) (ha : (Spec.written p)[h]? = some a) :
    (execAll .empty (Spec.copies p)).mem h = a := (Sim.start.run p).same h a ha

end Real

/-- a list of two hyperedges for two hypergraphs, with a change between -/
def exArgs : List (Cmd ℝ) :=
  [.arg (.many false [⟨false, [2, 0]⟩, ⟨true, [1, 0]⟩]),
   .make 3 (some ⟨0, false⟩) .none none .mean,
   .editSeqs 0 (.append ⟨false, [2, 1, 0]⟩),
   .make 3 (some ⟨0, false⟩) .none none .mean,
   .remove 0 ⟨0, false⟩ none]

example : (Spec.written exArgs)[0]? = some (.many false [⟨false, [2, 0]⟩, ⟨true, [1, 0]⟩, ⟨false, [2, 1, 0]⟩]) := rfl

/-- C108 needs its freedom: the lists are not as the caller wrote them -/
theorem C108_lists_may_change : ¬ ∀ (p : List (Cmd ℝ)) (h : Nat) (a : HArg), (Spec.written p)[h]? = some a →
    (execAll .empty p).mem h = a := by
  intro h
  have h1 := h (exArgs.take 2) 0 (.many false [⟨false, [2, 0]⟩, ⟨true, [1, 0]⟩]) rfl
  have h2 := new_mem_ok (K := ℝ) (n := 3) (r := 0) (ew := .none) (vw := none) (op := .mean)
    (m := Function.update (World.empty : World ℝ).mem 0 (.many false [⟨false, [2, 0]⟩, ⟨true, [1, 0]⟩])) rfl
  have h3 : (execAll .empty (exArgs.take 2)).mem =
      (new (K := ℝ) 3 (some 0) .none none .mean
        (Function.update (World.empty : World ℝ).mem 0 (.many false [⟨false, [2, 0]⟩, ⟨true, [1, 0]⟩]))).2 := rfl
  rw [h3, h2, Function.update_self, Function.update_self] at h1
  exact absurd h1 (by decide)

/-! ## C109 -/

section Caches
variable [PyReal K]

theorem ofGraph_state {g : GSt K} {p : List (Int × Int) × List K} (h : (Graph.getE g).1 = .ok p)
    (hs : ∀ e ∈ p.1, e.1 ≤ e.2) (n : Int) (ew : HW K) (vw : Option (List K)) (op : MergeOp) :
    ofGraph n ew vw op g = (Hyper.new n (some (ofPairs p.1)) ew vw op, (Graph.getE g).2) := by
  have h1 := graph_entry g h
  unfold ofGraph
  rcases hx : Graph.getE g with ⟨x1, x2⟩
  rw [hx] at h h1
  cases h
  simp only [PyM.bind_apply, hx, PyM.modify, pairs_kept n p.1 hs, set_same _ _ _ h1, newFrom_result, PyM.lift]

theorem ofOrdered_state {g : OSt K} {p : List (Int × Int) × List K} (h : (Ord.getE g).1 = .ok p)
    (hs : ∀ e ∈ p.1, e.1 ≤ e.2) (n : Int) (ew : HW K) (vw : Option (List K)) (op : MergeOp) :
    ofOrdered n ew vw op g = (Hyper.new n (some (ofPairs p.1)) ew vw op, (Ord.getE g).2) := by
  have h1 := ord_entry g h
  unfold ofOrdered
  rcases hx : Ord.getE g with ⟨x1, x2⟩
  rw [hx] at h h1
  cases h
  simp only [PyM.bind_apply, hx, PyM.modify, pairs_kept n p.1 hs, set_same _ _ _ h1, newFrom_result, PyM.lift]

theorem ofHyper_state {s : HSt K} {sc : Option String} {p : List (List Int) × List K} (h : (Hyper.getE sc s).1 = .ok p)
    (hs : ∀ e ∈ p.1, sortV e = e) (n : Int) (ew : HW K) (vw : Option (List K)) (op : MergeOp) :
    ofHyper sc n ew vw op s = (Hyper.new n (some (ofTuples p.1)) ew vw op, (Hyper.getE sc s).2) := by
  have h1 := hyper_entry sc s h
  unfold ofHyper
  rcases hx : Hyper.getE sc s with ⟨x1, x2⟩
  rw [hx] at h h1
  cases h
  simp only [PyM.bind_apply, hx, PyM.modify, tuples_kept n p.1 hs, set_same _ _ _ h1, newFrom_result, PyM.lift]

/-- C109 for simple graphs: a hypergraph made of the listed edges is the one made of these pairs, and no later calls
and reads tell that the list was used. -/
theorem C109_graph {g : GSt K} (hg : Graph.Built Graph.AnyArg g) {es : List (Int × Int)} {ws : List K}
    (he : (Graph.ask .e g).1 = .ok (.edges es ws)) (n : Int) (ew : HW K) (vw : Option (List K)) (op : MergeOp) :
    (ofGraph n ew vw op g).1 = Hyper.new n (some (.many false (es.map fun p => ⟨true, [p.1, p.2]⟩))) ew vw op ∧
      Spec.Indist (ofGraph n ew vw op g).2 g := by
  obtain ⟨h1, h2, h3⟩ := Graph.reads_getE g hg.inv.2
  have hs : ∀ e ∈ g.raw.edgeList, e.1 ≤ e.2 := by
    intro e h
    unfold GRaw.edgeList at h
    rcases List.mem_append.1 h with h | h
    · rcases List.mem_append.1 h with h | h
      · exact (hg.inv.1.lt e h).le
      · obtain ⟨v, _, rfl⟩ := List.mem_map.1 h; exact le_refl _
    · split at h
      · obtain ⟨v, _, rfl⟩ := List.mem_map.1 h; exact le_refl _
      · cases h
  have he' : es = g.raw.edgeList := by
    have : (Graph.ask .e g).1 = .ok (.edges g.raw.edgeList g.raw.edgeWts) := (Graph.reads_ask .e g hg.inv.2).1
    rw [this] at he; cases he; rfl
  subst he'
  rw [ofGraph_state h1 hs]
  refine ⟨rfl, ?_⟩
  exact Graph.indist_of_raw (by rw [h2]; exact hg.inv.1) h3 hg.inv.2 h2

theorem collectE_mem {α β : Type} {f : α → Except Err β} {l : List α} {r : List β} (h : collectE l f = .ok r)
    {y : β} (hy : y ∈ r) : ∃ x ∈ l, f x = .ok y := by
  induction l generalizing r with
  | nil => cases h; cases hy
  | cons x l ih =>
    simp only [collectE, bind, Except.bind] at h
    cases hx : f x with
    | error e => rw [hx] at h; cases h
    | ok a =>
      rw [hx] at h
      cases hl : collectE l f with
      | error e => rw [hl] at h; cases h
      | ok as =>
        rw [hl] at h
        cases h
        rcases List.mem_cons.1 hy with rfl | hy
        · exact ⟨x, List.mem_cons_self, hx⟩
        · obtain ⟨z, hz, hf⟩ := ih hl hy
          exact ⟨z, List.mem_cons_of_mem _ hz, hf⟩

/-- C109 for hypergraphs, listed as a whole or by group. -/
theorem C109_hypergraph {s : HSt K} (hs : Hyper.Built Hyper.AnyH true s) {sc : Option String}
    {es : List (List Int)} {ws : List K}
    (he : (Hyper.ask (.e sc) s).1 = .ok (.edges es ws)) (n : Int) (ew : HW K) (vw : Option (List K)) (op : MergeOp) :
    (ofHyper sc n ew vw op s).1 = Hyper.new n (some (.many false (es.map fun e => ⟨true, e⟩))) ew vw op ∧
      Spec.HIndist (fun _ => True) (ofHyper sc n ew vw op s).2 s := by
  obtain ⟨h1, h2, h3⟩ := Hyper.reads_getE (b := true) sc s hs.inv.2
  have hq : (Hyper.getE sc s).1 = .ok (es, ws) := by
    have : (Hyper.ask (.e sc) s).1 = (Hyper.getE sc s).1.map fun p => .edges p.1 p.2 := by
      show ((Hyper.getE sc >>= _) s).1 = _
      rw [PyM.bind_apply]
      rcases Hyper.getE sc s with ⟨x1, x2⟩
      cases x1 <;> rfl
    rw [this] at he
    cases hx : (Hyper.getE sc s).1 with
    | error e => rw [hx] at he; cases he
    | ok p => rw [hx] at he; cases he; rfl
  have hsort : ∀ e ∈ es, sortV e = e := by
    have hr := h1.symm.trans hq
    have key : ∀ g p, Hyper.evEOf s.raw g = .ok p → ∀ e ∈ p.1, sortV e = e := by
      intro g p hp e he
      unfold Hyper.evEOf Hyper.evGroup at hp
      cases hd : s.raw.groups.get? g with
      | none => rw [hd] at hp; cases hp
      | some d =>
        rw [hd] at hp
        cases hp
        exact hs.inv.1.sorted _ (Dict.mem_of_get? hd) e he
    cases sc with
    | some g => exact key g _ hr
    | none =>
      intro e hmem
      simp only [Hyper.evE] at hr
      cases hc : collectE s.raw.groups.keys (Hyper.evEOf s.raw) with
      | error x => rw [hc] at hr; cases hr
      | ok l =>
        rw [hc] at hr
        cases hr
        obtain ⟨p, hp, hep⟩ := List.mem_flatMap.1 hmem
        obtain ⟨g, _, hg⟩ := collectE_mem hc hp
        exact key g p hg e hep
  rw [ofHyper_state hq hsort]
  exact ⟨rfl, Hyper.indist_of_raw h2 h3 hs.inv.2⟩

theorem ofOrdered_any {g : OSt K} {p : List (Int × Int) × List K} (h : (Ord.getE g).1 = .ok p)
    (n : Int) (ew : HW K) (vw : Option (List K)) (op : MergeOp) :
    (ofOrdered n ew vw op g).1 = Hyper.new n (some (ofPairs p.1)) ew vw op ∧
      ∃ es', (Ord.getE (ofOrdered n ew vw op g).2).1 = .ok (es', p.2) ∧
        (es' = p.1 ∨ es' = p.1.map fun e => (min e.1 e.2, max e.1 e.2)) := by
  unfold ofOrdered
  rcases hx : Ord.getE g with ⟨x1, x2⟩
  rw [hx] at h
  cases h
  simp only [PyM.bind_apply, hx, PyM.modify, newFrom_result, PyM.lift]
  refine ⟨trivial, toPairs (newFrom n (ofPairs p.1) ew vw op).2, ?_, ?_⟩
  · simp [Ord.getE, PyM.bind_apply, memo, Dict.get?_set, Ord.asEdges, Graph.asEdges, PyM.pure, pure]
  · rcases newFrom_list n (ofPairs p.1) ew vw op with e | e <;> rw [e]
    · exact .inl (toPairs_ofPairs p.1)
    · refine .inr ?_
      simp only [toPairs, ofPairs, HArg.after, List.map_map]
      refine List.map_congr_left fun x _ => ?_
      obtain ⟨a, b⟩ := x
      rcases le_or_gt a b with hab | hab
      · simp [sortV_pair hab, min_eq_left hab, max_eq_right hab]
      · simp [sortV_pair' hab, min_eq_right hab.le, max_eq_left hab.le]

/-- C109 for directed graphs, without any hypothesis on the edges: the new hypergraph is the one made of the listed
pairs, and afterwards the graph lists, with the same weights, either the same edges or all of them turned upwards. -/
theorem C109_digraph_result {b : Bool} {g : DSt K} (hg : DiGraph.Built Graph.AnyArg b g) {es : List (Int × Int)}
    {ws : List K} (he : (DiGraph.ask .e g).1 = .ok (.edges es ws)) (n : Int) (ew : HW K) (vw : Option (List K))
    (op : MergeOp) :
    (ofOrdered n ew vw op g).1 = Hyper.new n (some (.many false (es.map fun p => ⟨true, [p.1, p.2]⟩))) ew vw op ∧
      ∃ es', (DiGraph.ask .e (ofOrdered n ew vw op g).2).1 = .ok (.edges es' ws) ∧
        (es' = es ∨ es' = es.map fun e => (min e.1 e.2, max e.1 e.2)) := by
  obtain ⟨h1, h2, h3⟩ := Ord.reads_getE (c := .di) g hg.coh.1
  have he' : (g.raw.edgeList, g.raw.edgeWts) = (es, ws) := by rw [hg.ask] at he; cases he; rfl
  replace h1 : (Ord.getE g).1 = .ok (es, ws) := h1.trans (congrArg Except.ok he')
  obtain ⟨h4, es', h5, h6⟩ := ofOrdered_any h1 n ew vw op
  refine ⟨h4, es', ?_, h6⟩
  show ((Ord.getE >>= _) _).1 = _
  rw [PyM.bind_apply]
  rcases hx : Ord.getE (ofOrdered n ew vw op g).2 with ⟨x1, x2⟩
  rw [hx] at h5
  cases h5
  rfl

/-- C109 for bipartite graphs, without any hypothesis on the edges: the new hypergraph is the one made of the listed
pairs, and afterwards the graph lists, with the same weights, either the same pairs or each as lower, higher number. -/
theorem C109_bigraph_result {g : BSt K} (hg : BiGraph.Built Graph.AnyArg g) {es : List (Int × Int)}
    {ws : List K} (he : (BiGraph.ask .e g).1 = .ok (.edges es ws)) (n : Int) (ew : HW K) (vw : Option (List K))
    (op : MergeOp) :
    (ofOrdered n ew vw op g).1 = Hyper.new n (some (.many false (es.map fun p => ⟨true, [p.1, p.2]⟩))) ew vw op ∧
      ∃ es', (BiGraph.ask .e (ofOrdered n ew vw op g).2).1 = .ok (.edges es' ws) ∧
        (es' = es ∨ es' = es.map fun e => (min e.1 e.2, max e.1 e.2)) := by
  obtain ⟨h1, h2, h3⟩ := Ord.reads_getE (c := .bi) g hg.coh
  have he' : (g.raw.edgeList, g.raw.edgeWts) = (es, ws) := by rw [hg.ask] at he; cases he; rfl
  replace h1 : (Ord.getE g).1 = .ok (es, ws) := h1.trans (congrArg Except.ok he')
  obtain ⟨h4, es', h5, h6⟩ := ofOrdered_any h1 n ew vw op
  refine ⟨h4, es', ?_, h6⟩
  show ((Ord.getE >>= _) _).1 = _
  rw [PyM.bind_apply]
  rcases hx : Ord.getE (ofOrdered n ew vw op g).2 with ⟨x1, x2⟩
  rw [hx] at h5
  cases h5
  rfl

/-- C109 for directed graphs, partial: if every listed edge goes from the lower to the higher vertex.  Missing: the same
without this hypothesis, which fails, see `C109_digraph_false`. -/
theorem C109_digraph_partial {b : Bool} {g : DSt K} (hg : DiGraph.Built Graph.AnyArg b g) {es : List (Int × Int)}
    {ws : List K} (he : (DiGraph.ask .e g).1 = .ok (.edges es ws)) (hs : ∀ e ∈ es, e.1 ≤ e.2)
    (n : Int) (ew : HW K) (vw : Option (List K)) (op : MergeOp) :
    (ofOrdered n ew vw op g).1 = Hyper.new n (some (.many false (es.map fun p => ⟨true, [p.1, p.2]⟩))) ew vw op ∧
      Spec.IndistNR (ofOrdered n ew vw op g).2 g := by
  obtain ⟨h1, h2, h3⟩ := Ord.reads_getE (c := .di) g hg.coh.1
  have he' : es = g.raw.edgeList := by rw [hg.ask] at he; cases he; rfl
  subst he'
  rw [ofOrdered_state h1 hs]
  exact ⟨rfl, Di.indist_of_raw h3 hg.coh.1 h2⟩

/-- C109 for bipartite graphs, partial: if no listed pair has the higher number in `U`.  Missing: the same
without this hypothesis, which fails, see `C109_bigraph_false`. -/
theorem C109_bigraph_partial {g : BSt K} (hg : BiGraph.Built Graph.AnyArg g) {es : List (Int × Int)}
    {ws : List K} (he : (BiGraph.ask .e g).1 = .ok (.edges es ws)) (hs : ∀ e ∈ es, e.1 ≤ e.2)
    (n : Int) (ew : HW K) (vw : Option (List K)) (op : MergeOp) :
    (ofOrdered n ew vw op g).1 = Hyper.new n (some (.many false (es.map fun p => ⟨true, [p.1, p.2]⟩))) ew vw op ∧
      Spec.IndistB (ofOrdered n ew vw op g).2 g := by
  obtain ⟨h1, h2, h3⟩ := Ord.reads_getE (c := .bi) g hg.coh
  have he' : es = g.raw.edgeList := by rw [hg.ask] at he; cases he; rfl
  subst he'
  rw [ofOrdered_state h1 hs]
  exact ⟨rfl, Bi.indist_of_raw h3 hg.coh h2⟩

end Caches

/-- the graph `exD` with the edge 1→0 turned round -/
noncomputable def exDturned : DSt ℝ :=
  { raw := { numV := 3, eDict := [((0, 1), 2), ((1, 2), 3)], loops := [(2, 7)], extra := false }, cache := [] }

theorem exDturned_built : DiGraph.Built Graph.AnyArg false exDturned :=
  .new (n := 3) (arg := some (.many [(0, 1), (1, 2), (2, 2)] (.list [2, 3, 7]))) (extra := false) (op := .sum) rfl
    fun _ _ => trivial

/-- C109 is false for directed graphs: `Hypergraph(3, g.e[0])` turns an edge of `g` round.  Then `g` lists the edges, and
has the adjacency matrix, of another graph. -/
theorem C109_digraph_false : ∃ g g' : DSt ℝ, DiGraph.Built Graph.AnyArg false g ∧ DiGraph.Built Graph.AnyArg false g' ∧
    (DiGraph.ask .e g).1 = .ok (.edges [(1, 0), (1, 2), (2, 2)] [2, 3, 7]) ∧
    (DiGraph.ask .e g').1 = .ok (.edges [(0, 1), (1, 2), (2, 2)] [2, 3, 7]) ∧
    (DiGraph.ask .e (ofOrdered 3 .none none .mean g).2).1 = (DiGraph.ask .e g').1 ∧
    (DiGraph.ask .A (ofOrdered 3 .none none .mean g).2).1 = (DiGraph.ask .A g').1 :=
  ⟨exD, exDturned, exD_built, exDturned_built, rfl, rfl, rfl, rfl⟩

/-- the graph `exB` with the pair (1, 0) turned round -/
noncomputable def exBturned : BSt ℝ :=
  { raw := { numU := 2, numV := 3, eDict := [((0, 1), 2), ((0, 2), 3), ((1, 1), 5)], loops := [], extra := false }
    cache := [] }

theorem exBturned_built : BiGraph.Built Graph.AnyArg exBturned :=
  .new (m := 2) (n := 3) (arg := some (.many [(0, 1), (0, 2), (1, 1)] (.list [2, 3, 5]))) (op := .sum) rfl
    fun _ _ => trivial

/-- C109 is false for bipartite graphs: `Hypergraph(3, g.e[0])` exchanges the ends of an edge of `g`. -/
theorem C109_bigraph_false : ∃ g g' : BSt ℝ, BiGraph.Built Graph.AnyArg g ∧ BiGraph.Built Graph.AnyArg g' ∧
    (BiGraph.ask .e g).1 = .ok (.edges [(1, 0), (0, 2), (1, 1)] [2, 3, 5]) ∧
    (BiGraph.ask .e g').1 = .ok (.edges [(0, 1), (0, 2), (1, 1)] [2, 3, 5]) ∧
    (BiGraph.ask .e (ofOrdered 3 .none none .mean g).2).1 = (BiGraph.ask .e g').1 ∧
    (BiGraph.ask .B (ofOrdered 3 .none none .mean g).2).1 = (BiGraph.ask .B g').1 :=
  ⟨exB, exBturned, exB_built, exBturned_built, rfl, rfl, rfl, rfl⟩

example : DiGraph.Built Graph.AnyArg false exDturned ∧
    (DiGraph.ask .e exDturned).1 = .ok (.edges [(0, 1), (1, 2), (2, 2)] [2, 3, 7]) ∧
    ∀ e ∈ [((0 : Int), (1 : Int)), (1, 2), (2, 2)], e.1 ≤ e.2 := ⟨exDturned_built, rfl, by decide⟩

example : BiGraph.Built Graph.AnyArg exBturned ∧
    (BiGraph.ask .e exBturned).1 = .ok (.edges [(0, 1), (0, 2), (1, 1)] [2, 3, 5]) ∧
    ∀ e ∈ [((0 : Int), (1 : Int)), (0, 2), (1, 1)], e.1 ≤ e.2 := ⟨exBturned_built, rfl, by decide⟩

example : Graph.Built Graph.AnyArg exG ∧ ∃ es ws, (Graph.ask .e exG).1 = .ok (.edges es ws) :=
  ⟨exG_built, _, _, rfl⟩

example : Hyper.Built Hyper.AnyH true exH ∧ ∃ es ws, (Hyper.ask (.e (some "main")) exH).1 = .ok (.edges es ws) :=
  ⟨exH_built, _, _, rfl⟩

end Props
end DHG
