import Verif.HeapLemmas
import Verif.Keeps
import Verif.DiGraphLemmas
import Verif.BiGraphLemmas
import Verif.Props.GraphEdges2
import Verif.Props.DiGraphEdges
import Verif.Props.BiGraphEdges
import Verif.Props.HyperEdges

/-!
# Independence of objects, state dictionaries and files (C15, C16, C47)

A program is a list of commands that create objects, call their methods, clone them, derive objects from them, take
state dictionaries and rebuild objects from those.  `view C w i` is the `i`-th object as its methods see it.
-/

set_option linter.unusedSectionVars false
set_option autoImplicit false

namespace DHG

namespace Spec

open Heap

variable {σ A B D Op Q Ans New Der : Type}

/-- what a command does to the object `i` when there is no other: the calls addressed to it, nothing else -/
def own (C : Klass σ A B D Op Q Ans New Der) (i : Nat) (s : σ) : Cmd Op Q New Der → σ
  | .call k o => if k = i then (C.call o s).2 else s
  | .read k q => if k = i then (C.read q s).2 else s
  | _ => s

/-- the object `i` after the commands addressed to it -/
def alone (C : Klass σ A B D Op Q Ans New Der) (i : Nat) (s : σ) (cs : List (Cmd Op Q New Der)) : σ :=
  cs.foldl (own C i) s

/-- the world after a program -/
def after [Inhabited A] [Inhabited B] (C : Klass σ A B D Op Q Ans New Der) (prog : List (Cmd Op Q New Der)) : World σ A B D :=
  execAll C .empty prog

/-- none of the commands calls a method of the object `i` that could change it or fill its cache -/
def Avoids (i : Nat) (cs : List (Cmd Op Q New Der)) : Prop :=
  ∀ c ∈ cs, (∀ o, c ≠ .call i o) ∧ ∀ q, c ≠ .read i q

/-- After any program, clone the object `i`; let any commands follow.  The original is then what the calls on
the original alone make of it, and the clone is what the calls on the clone alone make of the copy. -/
def ClonesIndependent [Inhabited A] [Inhabited B] (C : Klass σ A B D Op Q Ans New Der) : Prop :=
  ∀ (prog cs : List (Cmd Op Q New Der)) (i : Nat) (g g' : σ), view C (after C prog) i = some g → C.clone g = .ok g' →
    view C (after C (prog ++ .clone i :: cs)) i = some (alone C i g cs) ∧
    view C (after C (prog ++ .clone i :: cs)) (after C prog).objs.length =
      some (alone C (after C prog).objs.length g' cs)

/-- Any object of any program is changed only by the calls addressed to it, wherever it came from: a constructor,
`clone`, `from_state_dict`, or a call that returns a new object. -/
def ObjectsIndependent [Inhabited A] [Inhabited B] (C : Klass σ A B D Op Q Ans New Der) : Prop :=
  ∀ (prog cs : List (Cmd Op Q New Der)) (i : Nat) (g : σ), view C (after C prog) i = some g →
    view C (after C (prog ++ cs)) i = some (alone C i g cs)

/-- A state dictionary taken from the object `i` keeps its content, whatever happens to other objects, to copies
and to objects rebuilt from it, until the first mutating call on `i` itself; and for ever if that call is `clear`. -/
def DictKept [Inhabited A] [Inhabited B] (C : Klass σ A B D Op Q Ans New Der) (clear : Op) : Prop :=
  ∀ (prog cs ds : List (Cmd Op Q New Der)) (i : Nat) (g : σ), view C (after C prog) i = some g →
    (∀ o, Cmd.call i o ∉ cs) →
    dictView (after C (prog ++ .stateDict i :: cs)) (after C prog).dicts.length = some (C.entries g, C.cells g) ∧
    dictView (after C (prog ++ .stateDict i :: cs ++ .call i clear :: ds)) (after C prog).dicts.length =
      some (C.entries g, C.cells g)

/-- Assigning to the dictionaries found in a state dictionary taken from the object `i` changes no other object,
in particular none rebuilt from that state dictionary. -/
def EditsConfined [Inhabited A] [Inhabited B] (C : Klass σ A B D Op Q Ans New Der) : Prop :=
  ∀ (prog cs : List (Cmd Op Q New Der)) (i k : Nat) (g : σ) (c : A × B), view C (after C prog) i = some g → k ≠ i →
    view C (edit (after C (prog ++ .stateDict i :: cs)) (after C prog).dicts.length c) k =
      view C (after C (prog ++ .stateDict i :: cs)) k

/-- The dictionary returned by `state_dict` keeps the content it had when taken, whatever follows. -/
def DictsAreSnapshots [Inhabited A] [Inhabited B] (C : Klass σ A B D Op Q Ans New Der) : Prop :=
  ∀ (prog cs : List (Cmd Op Q New Der)) (i : Nat) (g : σ), view C (after C prog) i = some g →
    dictView (after C (prog ++ .stateDict i :: cs)) (after C prog).dicts.length = some (C.entries g, C.cells g)

open Files in
/-- further calls of `save` -/
def saves {K : Type} [Field K] [LinearOrder K] (d : Disk K) (l : List (Structure K × String × Bool)) : Disk K :=
  l.foldl (fun d o => (save o.1 o.2.1 o.2.2 d).2) d

/-- the class of a structure -/
def className {K : Type} : Files.Structure K → String
  | .graph _ => "Graph"
  | .digraph _ => "DiGraph"
  | .bigraph _ => "BiGraph"
  | .hypergraph _ => "Hypergraph"

end Spec

namespace Props

open Heap

section Machine

variable {σ A B D Op Q Ans New Der : Type} [Inhabited A] [Inhabited B] {C : Klass σ A B D Op Q Ans New Der}

theorem after_inv (prog : List (Cmd Op Q New Der)) : Inv (Spec.after C prog) := execAll_inv .empty prog

theorem after_append (p q : List (Cmd Op Q New Der)) : Spec.after C (p ++ q) = execAll C (Spec.after C p) q := by
  unfold Spec.after execAll
  rw [List.foldl_append]

theorem view_some {w : World σ A B D} {i : Nat} {g : σ} (h : view C w i = some g) :
    ∃ o, w.objs[i]? = some o ∧ o.view C w = g := Option.map_eq_some_iff.1 h

theorem exec_view {w : World σ A B D} (hw : Inv w) {i : Nat} {g : σ} (h : view C w i = some g) (c : Cmd Op Q New Der) :
    view C (exec C w c) i = some (Spec.own C i g c) := by
  obtain ⟨o, ho, hg⟩ := view_some h
  have step : ∀ (k : Nat) (x : Obj σ) (s : σ) re, w.objs[k]? = some x → k ≠ i → view C (write C w k x s re) i = some g :=
    fun k x s re hx hk => (write_view_other hw hx s re (Ne.symm hk)).trans h
  cases c with
  | make x => exact alloc_view_old hw _ h
  | call k p =>
    simp only [exec, Spec.own]
    by_cases hk : k = i
    · subst hk
      rw [if_pos rfl, ho]
      simp only
      rw [write_view_self ho, hg]
    · rw [if_neg hk]
      cases hx : w.objs[k]? with
      | none => exact h
      | some x => exact step k x _ _ hx hk
  | read k q =>
    simp only [exec, Spec.own]
    by_cases hk : k = i
    · subst hk
      rw [if_pos rfl, ho]
      simp only
      rw [write_view_self ho, hg]
    · rw [if_neg hk]
      cases hx : w.objs[k]? with
      | none => exact h
      | some x => exact step k x _ _ hx hk
  | clone k =>
    simp only [exec, Spec.own]
    cases hx : w.objs[k]? with
    | none => exact h
    | some x => exact alloc_view_old hw _ h
  | derive k d =>
    simp only [exec, Spec.own]
    cases hx : w.objs[k]? with
    | none => exact h
    | some x => exact alloc_view_old hw _ h
  | stateDict k =>
    simp only [exec, Spec.own]
    cases hx : w.objs[k]? with
    | none => exact h
    | some x => exact h
  | fromStateDict j =>
    simp only [exec, Spec.own]
    cases hx : w.dicts[j]? with
    | none => exact h
    | some x => exact alloc_view_old hw _ h

theorem execAll_view {w : World σ A B D} (hw : Inv w) {i : Nat} {g : σ} (h : view C w i = some g)
    (cs : List (Cmd Op Q New Der)) : view C (execAll C w cs) i = some (Spec.alone C i g cs) := by
  induction cs generalizing w g with
  | nil => exact h
  | cons c cs ih => exact ih (exec_inv (C := C) hw c) (exec_view hw h c)

theorem objects_independent : Spec.ObjectsIndependent C := by
  intro prog cs i g h
  rw [after_append]
  exact execAll_view (after_inv prog) h cs

theorem clones_independent : Spec.ClonesIndependent C := by
  intro prog cs i g g' h hc
  obtain ⟨o, ho, hg⟩ := view_some h
  refine ⟨objects_independent prog (.clone i :: cs) i g h, ?_⟩
  rw [after_append]
  show view C (execAll C (exec C (Spec.after C prog) (.clone i)) cs) _ = _
  have he : exec C (Spec.after C prog) (.clone i) = alloc C (Spec.after C prog) (.ok g') := by
    simp only [exec, ho, hg, hc]
  refine execAll_view (exec_inv (C := C) (after_inv prog) _) ?_ cs
  rw [he]
  exact alloc_view_new g'

theorem alone_avoids {i : Nat} {cs : List (Cmd Op Q New Der)} (g : σ) (hc : Spec.Avoids i cs) :
    Spec.alone C i g cs = g := by
  unfold Spec.alone
  induction cs with
  | nil => rfl
  | cons c cs ih =>
    rw [List.foldl_cons]
    have hcc := hc c List.mem_cons_self
    have : Spec.own C i g c = g := by
      cases c with
      | call k o => exact if_neg fun hk : k = i => hcc.1 o (hk ▸ rfl)
      | read k q => exact if_neg fun hk : k = i => hcc.2 q (hk ▸ rfl)
      | _ => rfl
    rw [this]
    exact ih fun c h => hc c (List.mem_cons_of_mem _ h)

theorem answer_avoids (prog cs : List (Cmd Op Q New Der)) (i : Nat) (q : Q) (hi : i < (Spec.after C prog).objs.length)
    (hc : Spec.Avoids i cs) : answer C (Spec.after C (prog ++ cs)) i q = answer C (Spec.after C prog) i q := by
  have h : view C (Spec.after C prog) i = some ((Spec.after C prog).objs[i].view C (Spec.after C prog)) := by
    rw [view, List.getElem?_eq_getElem hi]; rfl
  rw [answer, answer, objects_independent prog cs i _ h, alone_avoids _ hc, h]

theorem dict_kept (hC : Lawful C) {clear : Op} (hre : C.rebinds clear = (true, true)) : Spec.DictKept C clear := by
  intro prog cs ds i g h hcs
  obtain ⟨o, ho, hg⟩ := view_some h
  have hw := after_inv (C := C) prog
  obtain ⟨hoff, hlen⟩ := stateDict_off (C := C) hw ho
  have hw1 := exec_inv (C := C) hw (.stateDict i)
  have h0 : dictView (exec C (Spec.after C prog) (.stateDict i)) (Spec.after C prog).dicts.length =
      some (C.entries g, C.cells g) := by
    simp only [exec, ho, dictView]
    rw [List.getElem?_append_right (Nat.le_refl _)]
    simp only [Nat.sub_self, List.getElem?_cons_zero, Option.map_some, hg]
    rw [← hg, Obj.view, hC.cells_store]
  obtain ⟨h1, h2, h3⟩ := execAll_dict hC cs hw1 hlen hoff fun k p hk he => hcs p (he ▸ hk)
  have hA : dictView (Spec.after C (prog ++ .stateDict i :: cs)) (Spec.after C prog).dicts.length =
      some (C.entries g, C.cells g) := by
    rw [after_append]
    exact h1.trans h0
  refine ⟨hA, ?_⟩
  have hv := objects_independent prog (.stateDict i :: cs) i g h
  obtain ⟨o', ho', _⟩ := view_some hv
  set w1 := Spec.after C (prog ++ .stateDict i :: cs) with hw1'
  have e1 : w1 = execAll C (exec C (Spec.after C prog) (.stateDict i)) cs := by rw [hw1', after_append]; rfl
  rw [← e1] at h2 h3
  have hwi : Inv w1 := after_inv _
  rw [after_append]
  show dictView (execAll C (exec C w1 (.call i clear)) ds) _ = _
  have he : exec C w1 (.call i clear) = write C w1 i o' (C.call clear (o'.view C w1)).2 (true, true) := by
    simp only [exec, ho', hre]
  have h4 : Off (fun _ => False) (Spec.after C prog).dicts.length (exec C w1 (.call i clear)) := by
    rw [he]
    exact write_off_rebind hwi (by
      intro k p d hk hp hd
      exact h2 k p d (fun hki => hk (.inr hki)) hp hd) _
  have h5 : dictView (exec C w1 (.call i clear)) (Spec.after C prog).dicts.length = some (C.entries g, C.cells g) := by
    rw [he, write_dict hwi fun d hd => ⟨.inl rfl, .inl rfl⟩]
    exact hA
  have h6 := (exec_off (C := C) hwi h3 h2 (.call i clear)).2
  exact (execAll_dict hC ds (exec_inv (C := C) hwi _) h6 h4 fun _ _ _ hf => hf).1.trans h5

theorem edits_confined (hC : Lawful C) : Spec.EditsConfined C := by
  intro prog cs i k g c h hk
  obtain ⟨o, ho, hg⟩ := view_some h
  have hw := after_inv (C := C) prog
  obtain ⟨hoff, hlen⟩ := stateDict_off (C := C) hw ho
  have hw1 := exec_inv (C := C) hw (.stateDict i)
  rw [after_append]
  show view C (edit (execAll C (exec C (Spec.after C prog) (.stateDict i)) cs) _ c) k =
    view C (execAll C (exec C (Spec.after C prog) (.stateDict i)) cs) k
  have hoff2 : Off (· = i) (Spec.after C prog).dicts.length (execAll C (exec C (Spec.after C prog) (.stateDict i)) cs) := by
    clear h ho hg
    generalize exec C (Spec.after C prog) (.stateDict i) = w at *
    induction cs generalizing w with
    | nil => exact hoff
    | cons c cs ih =>
      have := exec_off (C := C) hw1 hlen hoff c
      exact ih _ this.1 this.2 (exec_inv (C := C) hw1 c)
  generalize execAll C (exec C (Spec.after C prog) (.stateDict i)) cs = w at hoff2
  unfold edit
  cases hd : w.dicts[(Spec.after C prog).dicts.length]? with
  | none => rfl
  | some d =>
    unfold view
    simp only
    cases hp : w.objs[k]? with
    | none => rfl
    | some p =>
      have := hoff2 k p d hk hp hd
      simp only [Option.map_some, Obj.view]
      rw [Function.update_of_ne this.1, Function.update_of_ne this.2]

end Machine

variable {K : Type} [Field K] [LinearOrder K] [PyReal K]

theorem graph_lawful : Lawful (Heap.graph (K := K)) :=
  ⟨fun q s => by
    show ((Graph.ask q s).2.raw.eDict, (Graph.ask q s).2.raw.loops) = (s.raw.eDict, s.raw.loops)
    rw [(Graph.keeps_ask q).keep s], fun _ _ => rfl⟩
theorem digraph_lawful : Lawful (Heap.digraph (K := K)) :=
  ⟨fun q s => by
    show ((DiGraph.ask q s).2.raw.eDict, (DiGraph.ask q s).2.raw.loops) = (s.raw.eDict, s.raw.loops)
    rw [DiGraph.keeps_ask q s], fun _ _ => rfl⟩
theorem bigraph_lawful : Lawful (Heap.bigraph (K := K)) :=
  ⟨fun q s => by
    show ((BiGraph.ask q s).2.raw.eDict, (BiGraph.ask q s).2.raw.loops) = (s.raw.eDict, s.raw.loops)
    rw [BiGraph.keeps_ask q s], fun _ _ => rfl⟩
theorem hypergraph_lawful : Lawful (Heap.hypergraph (K := K)) :=
  ⟨fun q s => by
    show ((Hyper.ask q s).2.raw.groups, ()) = (s.raw.groups, ())
    rw [(Hyper.keeps_ask q).keep s], fun _ _ => rfl⟩

/-! ## C15: clones and other objects are independent -/

/-- C15 (Graph). After `clone`, no operation on the clone changes the original, nor vice versa. -/
theorem C15_graph_clones_independent : Spec.ClonesIndependent (Heap.graph (K := K)) := clones_independent
/-- C15 (DiGraph). -/
theorem C15_digraph_clones_independent : Spec.ClonesIndependent (Heap.digraph (K := K)) := clones_independent
/-- C15 (BiGraph). -/
theorem C15_bigraph_clones_independent : Spec.ClonesIndependent (Heap.bigraph (K := K)) := clones_independent
/-- C15 (Hypergraph). -/
theorem C15_hypergraph_clones_independent : Spec.ClonesIndependent (Heap.hypergraph (K := K)) := clones_independent

/-- C15 (all four classes). More generally no two objects of a program ever influence one another. -/
theorem C15_objects_independent : Spec.ObjectsIndependent (Heap.graph (K := K)) ∧
    Spec.ObjectsIndependent (Heap.digraph (K := K)) ∧ Spec.ObjectsIndependent (Heap.bigraph (K := K)) ∧
    Spec.ObjectsIndependent (Heap.hypergraph (K := K)) :=
  ⟨objects_independent, objects_independent, objects_independent, objects_independent⟩

/-- C15 (Graph). The clone answers every read as the original did when it was cloned, whatever is done to the
original and to other objects in between. -/
theorem C15_graph_clone_answers (prog cs : List (Cmd (GOp K) (GQuery K) (NewG K) (Drop K))) (i : Nat) (g : GSt K)
    (h : view Heap.graph (Spec.after Heap.graph prog) i = some g)
    (hc : Spec.Avoids (Spec.after Heap.graph prog).objs.length cs) (q : GQuery K) :
    answer Heap.graph (Spec.after Heap.graph (prog ++ .clone i :: cs)) (Spec.after Heap.graph prog).objs.length q =
      some (Graph.ask q g).1 := by
  rw [answer, (clones_independent (C := Heap.graph) prog cs i g _ h rfl).2, alone_avoids _ hc]
  rfl

/-- C15. An original answers every read as before, whatever is done to its clone: no command addressed to other
objects changes an answer. -/
theorem C15_original_answers :
    (∀ (prog cs : List (Cmd (GOp K) (GQuery K) (NewG K) (Drop K))) i q, i < (Spec.after Heap.graph prog).objs.length →
      Spec.Avoids i cs → answer Heap.graph (Spec.after Heap.graph (prog ++ cs)) i q =
        answer Heap.graph (Spec.after Heap.graph prog) i q) ∧
    (∀ (prog cs : List (Cmd (DOp K) (DQuery K) (NewG K) (Drop K))) i q, i < (Spec.after Heap.digraph prog).objs.length →
      Spec.Avoids i cs → answer Heap.digraph (Spec.after Heap.digraph (prog ++ cs)) i q =
        answer Heap.digraph (Spec.after Heap.digraph prog) i q) ∧
    (∀ (prog cs : List (Cmd (BOp K) (BQuery K) (NewB K) (DerB K))) i q, i < (Spec.after Heap.bigraph prog).objs.length →
      Spec.Avoids i cs → answer Heap.bigraph (Spec.after Heap.bigraph (prog ++ cs)) i q =
        answer Heap.bigraph (Spec.after Heap.bigraph prog) i q) ∧
    ∀ (prog cs : List (Cmd (HOp K) (HQuery K) (NewH K) (DerH K))) i q, i < (Spec.after Heap.hypergraph prog).objs.length →
      Spec.Avoids i cs → answer Heap.hypergraph (Spec.after Heap.hypergraph (prog ++ cs)) i q =
        answer Heap.hypergraph (Spec.after Heap.hypergraph prog) i q :=
  ⟨answer_avoids, answer_avoids, answer_avoids, answer_avoids⟩

/-! ## C47: state dictionaries -/

/-- C47 (Graph). A state dictionary keeps its content while only reads are made on the graph it came from, and for
ever once `clear` is called on it.  Missing: other mutating calls, which change it
(`C47_graph_snapshot_false`). -/
theorem C47_graph_state_dict_partial : Spec.DictKept (Heap.graph (K := K)) .clear := dict_kept graph_lawful rfl
/-- C47 (DiGraph).  Missing: as for `Graph` (`C47_digraph_snapshot_false`). -/
theorem C47_digraph_state_dict_partial : Spec.DictKept (Heap.digraph (K := K)) .clear := dict_kept digraph_lawful rfl
/-- C47 (BiGraph).  Missing: as for `Graph` (`C47_bigraph_snapshot_false`). -/
theorem C47_bigraph_state_dict_partial : Spec.DictKept (Heap.bigraph (K := K)) .clear := dict_kept bigraph_lawful rfl
/-- C47 (Hypergraph).  Missing: as for `Graph` (`C47_hypergraph_snapshot_false`). -/
theorem C47_hypergraph_state_dict_partial : Spec.DictKept (Heap.hypergraph (K := K)) .clear :=
  dict_kept hypergraph_lawful rfl

/-- C47. An object rebuilt from a state dictionary shares nothing with it: assigning to the state dictionary
changes no object but the one it was taken from.  (That `from_state_dict` copies is also part of
`C15_objects_independent`.) -/
theorem C47_rebuilt_shares_nothing : Spec.EditsConfined (Heap.graph (K := K)) ∧
    Spec.EditsConfined (Heap.digraph (K := K)) ∧ Spec.EditsConfined (Heap.bigraph (K := K)) ∧
    Spec.EditsConfined (Heap.hypergraph (K := K)) :=
  ⟨edits_confined graph_lawful, edits_confined digraph_lawful, edits_confined bigraph_lawful,
    edits_confined hypergraph_lawful⟩

/-- two vertices, no edge -/
def exNewG : NewG ℝ := ⟨2, none, false, .mean⟩
/-- two plus two vertices, no edge -/
def exNewB : NewB ℝ := ⟨2, 2, none, .mean⟩
/-- two vertices, no hyperedge -/
def exNewH : NewH ℝ := ⟨2, none, .none, none, .mean⟩

theorem dict_get_some {α β γ : Type} {x y : α × β × γ} (h : some x = some y) : x.2.1 = y.2.1 := by
  injection h with h; rw [h]

/-- C47 (Graph) is false: adding an edge changes the state dictionaries already taken. -/
theorem C47_graph_snapshot_false : ¬ Spec.DictsAreSnapshots (Heap.graph (K := ℝ)) := by
  intro h
  have h1 := h [.make exNewG] [.call 0 (.addEdges (.single 0 1 none) .mean)] 0 _ rfl
  have h2 : ([((0, 1), 1)] : Dict (Int × Int) ℝ) = [] := dict_get_some h1
  cases h2

/-- C47 (DiGraph) is false. -/
theorem C47_digraph_snapshot_false : ¬ Spec.DictsAreSnapshots (Heap.digraph (K := ℝ)) := by
  intro h
  have h1 := h [.make exNewG] [.call 0 (.addEdges (.single 0 1 none) .mean)] 0 _ rfl
  have h2 : ([((0, 1), 1)] : Dict (Int × Int) ℝ) = [] := dict_get_some h1
  cases h2

/-- C47 (BiGraph) is false. -/
theorem C47_bigraph_snapshot_false : ¬ Spec.DictsAreSnapshots (Heap.bigraph (K := ℝ)) := by
  intro h
  have h1 := h [.make exNewB] [.call 0 (.addEdges (.single 0 1 none) .mean)] 0 _ rfl
  have h2 : ([((0, 1), 1)] : Dict (Int × Int) ℝ) = [] := dict_get_some h1
  cases h2

/-- C47 (Hypergraph) is false. -/
theorem C47_hypergraph_snapshot_false : ¬ Spec.DictsAreSnapshots (Heap.hypergraph (K := ℝ)) := by
  intro h
  have h1 := h [.make exNewH] [.call 0 (.addHyperedges (.one false [0, 1]) .none .mean "main")] 0 _ rfl
  have h2 : ([("main", [([0, 1], 1)])] : Dict String (HGroup ℝ)) = [] := dict_get_some h1
  cases h2

/-- C47 (Graph). A state dictionary taken before `add_extra_selfloop` and edges added after it mix the two states:
the object rebuilt has the new edges and the old flag. -/
theorem C47_graph_mixed_false :
    ¬ ∀ (prog cs : List (Cmd (GOp ℝ) (GQuery ℝ) (NewG ℝ) (Drop ℝ))) (i : Nat),
      let w := Spec.after Heap.graph (prog ++ .stateDict i :: cs)
      ∀ d, dictView w (Spec.after Heap.graph prog).dicts.length = some d →
        (∃ g, view Heap.graph (Spec.after Heap.graph prog) i = some g ∧ d = (Heap.graph.entries g, Heap.graph.cells g)) ∨
        ∃ g, view Heap.graph w i = some g ∧ d = (Heap.graph.entries g, Heap.graph.cells g) := by
  intro h
  rcases h [.make exNewG] [.call 0 .addExtraSelfloop, .call 0 (.addEdges (.single 0 1 none) .mean)] 0 _ rfl with
    ⟨g, hg, hd⟩ | ⟨g, hg, hd⟩
  · injection hg with hg
    subst hg
    have h2 : ([((0, 1), 1)] : Dict (Int × Int) ℝ) = [] := dict_get_some (congrArg some hd)
    cases h2
  · injection hg with hg
    subst hg
    have h2 : ((2, false) : Nat × Bool) = (2, true) := congrArg Prod.fst hd
    cases h2

/-- a program satisfying the hypotheses of the statements above: a graph with an edge, a clone of it, changes to
both -/
example : view Heap.graph (Spec.after (Heap.graph (K := ℝ)) [.make exNewG, .call 0 (.addEdges (.single 0 1 none) .mean)]) 0 =
      some { raw := ⟨0, 2, [((0, 1), 1)], [], false⟩, cache := [] } ∧
    (Heap.graph (K := ℝ)).clone { raw := ⟨0, 2, [((0, 1), 1)], [], false⟩, cache := [] } =
      .ok { raw := ⟨0, 2, [((0, 1), 1)], [], false⟩, cache := [] } ∧
    Spec.Avoids (Op := GOp ℝ) (Q := GQuery ℝ) (New := NewG ℝ) (Der := Drop ℝ) 0
      [.call 1 (.removeEdges (.single (K := ℝ) 0 1 none)), .stateDict 0, .read 1 .A] :=
  ⟨rfl, rfl, by simp [Spec.Avoids]⟩

/-! ## C16: files -/

open Files

section Files

variable {disk disk' : Disk K} {path : String}

omit [PyReal K] in
theorem save_ok {s : Structure K} {dir : Bool} (h : save s path dir disk = (.ok (), disk')) :
    dir = true ∧ disk' = disk.set path (saved s) := by
  cases dir with
  | false => simp [save, PyM.assert, PyM.bind_apply, PyM.raise] at h
  | true =>
    refine ⟨rfl, ?_⟩
    have : (Except.ok (), disk.set path (saved s)) = ((Except.ok (), disk') : Except Err Unit × _) := h
    injection this with _ h2
    exact h2.symm

omit [PyReal K] in
/-- C16. `save` raises exactly when the directory is missing, and then writes nothing. -/
theorem C16_save_needs_directory (s : Structure K) (dir : Bool) :
    (save s path dir disk = (.ok (), disk.set path (saved s)) ∧ dir = true) ∨
      (save s path dir disk = (.error .assertion, disk) ∧ dir = false) := by
  cases dir
  · exact .inr ⟨rfl, rfl⟩
  · exact .inl ⟨rfl, rfl⟩

omit [PyReal K] in
theorem saved_get (g : Structure K) (dir : Bool) (others : List (Structure K × String × Bool))
    (ho : ∀ o ∈ others, o.2.1 ≠ path) (hs : (save g path dir disk).1 = .ok ()) :
    (Spec.saves (save g path dir disk).2 others).get? path = some (saved g) := by
  have h0 : (save g path dir disk).2.get? path = some (saved g) := by
    rcases C16_save_needs_directory (disk := disk) (path := path) g dir with ⟨h, _⟩ | ⟨h, _⟩
    · rw [h]; simp [Dict.get?_set]
    · rw [h] at hs; cases hs
  unfold Spec.saves
  generalize (save g path dir disk).2 = d0 at h0
  clear hs
  induction others generalizing d0 with
  | nil => exact h0
  | cons o os ih =>
    rw [List.foldl_cons]
    refine ih (fun p hp => ho p (List.mem_cons_of_mem _ hp)) _ ?_
    have hne := ho o List.mem_cons_self
    rcases C16_save_needs_directory (disk := d0) (path := o.2.1) o.1 o.2.2 with ⟨h, _⟩ | ⟨h, _⟩
    · rw [h]; simp [Dict.get?_set, hne, h0]
    · rw [h]; exact h0

/-- C16 (Graph). A graph saved to a file and loaded again, with `Graph.load` or `load_structure`, answers every
history of calls as the original, whatever was saved to other paths in between. -/
theorem C16_graph_file_round_trip {g : GSt K} (hg : Graph.Built Graph.AnyArg g) {dir : Bool}
    (hs : (save (.graph g) path dir disk).1 = .ok ()) {others : List (Structure K × String × Bool)}
    (ho : ∀ o ∈ others, o.2.1 ≠ path) :
    ∃ g', loadGraph path (Spec.saves (save (.graph g) path dir disk).2 others) = .ok g' ∧
      loadStructure path (Spec.saves (save (.graph g) path dir disk).2 others) = .ok (.graph g') ∧ Spec.Indist g' g := by
  obtain ⟨g', h1, h2⟩ := C16_graph_state_dict_round_trip hg
  have := saved_get _ dir others ho hs
  exact ⟨g', by simp only [loadGraph, this, saved, h1], by simp only [loadStructure, this, saved, h1, Except.map], h2⟩

/-- C16 (DiGraph). As for `Graph`; reads after `reverse_direction` excepted, see C22. -/
theorem C16_digraph_file_round_trip {b : Bool} {g : DSt K} (hg : DiGraph.Built Graph.AnyArg b g) {dir : Bool}
    (hs : (save (.digraph g) path dir disk).1 = .ok ()) {others : List (Structure K × String × Bool)}
    (ho : ∀ o ∈ others, o.2.1 ≠ path) :
    ∃ g', loadDiGraph path (Spec.saves (save (.digraph g) path dir disk).2 others) = .ok g' ∧
      loadStructure path (Spec.saves (save (.digraph g) path dir disk).2 others) = .ok (.digraph g') ∧
      Spec.IndistNR g' g := by
  obtain ⟨g', h1, h2⟩ := C16_digraph_state_dict_round_trip hg
  have := saved_get _ dir others ho hs
  exact ⟨g', by simp only [loadDiGraph, this, saved, h1], by simp only [loadStructure, this, saved, h1, Except.map], h2⟩

/-- C16 (BiGraph). As for `Graph`, for bipartite graphs without the extra self loop flag.  Missing: that flag, which
is not saved (`C16_bigraph_round_trip_false`). -/
theorem C16_bigraph_file_round_trip_partial {g : BSt K} (hg : BiGraph.Built Graph.AnyArg g) (hx : g.raw.extra = false)
    (hv : 0 < g.raw.numV) {dir : Bool} (hs : (save (.bigraph g) path dir disk).1 = .ok ())
    {others : List (Structure K × String × Bool)} (ho : ∀ o ∈ others, o.2.1 ≠ path) :
    ∃ g', loadBiGraph path (Spec.saves (save (.bigraph g) path dir disk).2 others) = .ok g' ∧
      loadStructure path (Spec.saves (save (.bigraph g) path dir disk).2 others) = .ok (.bigraph g') ∧
      Spec.IndistB g' g := by
  obtain ⟨g', h1, h2⟩ := C16_bigraph_round_trip_partial hg hx hv
  have := saved_get _ dir others ho hs
  exact ⟨g', by simp only [loadBiGraph, this, saved, h1], by simp only [loadStructure, this, saved, h1, Except.map], h2⟩

/-- C16 (Hypergraph). As for `Graph`, for all reads but those of vertex weights.  Missing: vertex weights, which are
not saved (`C16_hypergraph_state_dict_false`). -/
theorem C16_hypergraph_file_round_trip_partial {b : Bool} {g : HSt K} (hg : Hyper.Built Hyper.AnyH b g) {dir : Bool}
    (hs : (save (.hypergraph g) path dir disk).1 = .ok ()) {others : List (Structure K × String × Bool)}
    (ho : ∀ o ∈ others, o.2.1 ≠ path) :
    ∃ g', loadHypergraph path (Spec.saves (save (.hypergraph g) path dir disk).2 others) = .ok g' ∧
      loadStructure path (Spec.saves (save (.hypergraph g) path dir disk).2 others) = .ok (.hypergraph g') ∧
      Spec.HIndist Spec.NotVW g g' := by
  obtain ⟨g', h1, h2⟩ := C16_hypergraph_state_dict_partial hg
  have := saved_get _ dir others ho hs
  exact ⟨g', by simp only [loadHypergraph, this, saved, h1], by simp only [loadStructure, this, saved, h1, Except.map], h2⟩

/-- C16. Loading a file written by another class raises an `AssertionError`; `load_structure` returns a structure of the class that wrote the file. -/
theorem C16_load_other_class (s : Structure K) {dir : Bool} (hs : (save s path dir disk).1 = .ok ())
    {others : List (Structure K × String × Bool)} (ho : ∀ o ∈ others, o.2.1 ≠ path) :
    let d := Spec.saves (save s path dir disk).2 others
    (Spec.className s ≠ "Graph" → loadGraph path d = .error .assertion) ∧
    (Spec.className s ≠ "DiGraph" → loadDiGraph path d = .error .assertion) ∧
    (Spec.className s ≠ "BiGraph" → loadBiGraph path d = .error .assertion) ∧
    (Spec.className s ≠ "Hypergraph" → loadHypergraph path d = .error .assertion) ∧
    ∀ t, loadStructure path d = .ok t → Spec.className t = Spec.className s := by
  intro d
  have hd : d.get? path = some (saved s) := saved_get _ dir others ho hs
  refine ⟨?_, ?_, ?_, ?_, ?_⟩
  · intro hc
    cases s <;> simp only [loadGraph, hd, saved, Spec.className, ne_eq, not_true_eq_false] at hc ⊢
  · intro hc
    cases s <;> simp only [loadDiGraph, hd, saved, Spec.className, ne_eq, not_true_eq_false] at hc ⊢
  · intro hc
    cases s <;> simp only [loadBiGraph, hd, saved, Spec.className, ne_eq, not_true_eq_false] at hc ⊢
  · intro hc
    cases s <;> simp only [loadHypergraph, hd, saved, Spec.className, ne_eq, not_true_eq_false] at hc ⊢
  · intro t ht
    cases s with
    | graph x =>
      simp only [loadStructure, hd, saved] at ht
      cases hx : Graph.fromStateDict (Graph.stateDict x) <;> rw [hx] at ht <;> simp only [Except.map] at ht
      · cases ht
      · injection ht with ht; subst ht; rfl
    | digraph x =>
      simp only [loadStructure, hd, saved] at ht
      cases hx : DiGraph.fromStateDict (DiGraph.stateDict x) <;> rw [hx] at ht <;> simp only [Except.map] at ht
      · cases ht
      · injection ht with ht; subst ht; rfl
    | bigraph x =>
      simp only [loadStructure, hd, saved] at ht
      cases hx : BiGraph.fromStateDict (BiGraph.stateDict x) <;> rw [hx] at ht <;> simp only [Except.map] at ht
      · cases ht
      · injection ht with ht; subst ht; rfl
    | hypergraph x =>
      simp only [loadStructure, hd, saved] at ht
      cases hx : Hyper.fromStateDict (Hyper.stateDict x) <;> rw [hx] at ht <;> simp only [Except.map] at ht
      · cases ht
      · injection ht with ht; subst ht; rfl

/-- C16. Loading a file that does not exist raises an `AssertionError` in all five functions. -/
theorem C16_load_missing_file (h : path ∉ disk.keys) :
    loadGraph path disk = .error .assertion ∧ loadDiGraph path disk = .error .assertion ∧
    loadBiGraph path disk = .error .assertion ∧ loadHypergraph path disk = .error .assertion ∧
    loadStructure path disk = .error .assertion := by
  have : disk.get? path = none := (Dict.get?_eq_none_iff _ _).2 h
  simp only [loadGraph, loadDiGraph, loadBiGraph, loadHypergraph, loadStructure, this, and_self]

/-- files of the four classes next to one another -/
example : Graph.Built Graph.AnyArg exG ∧ (save (.graph exG) "a" true ([] : Disk ℝ)).1 = .ok () ∧
    (∀ o ∈ [((.bigraph exB, "b", true) : Structure ℝ × String × Bool), (.graph exG, "c", false)], o.2.1 ≠ "a") ∧
    Spec.className (.bigraph exB : Structure ℝ) ≠ "Graph" :=
  ⟨exG_built, rfl, by simp, by simp [Spec.className]⟩

end Files

end Props
end DHG
