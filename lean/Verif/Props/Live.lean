import Verif.LiveClasses

/-!
# Changing returned lists and matrices in place (C106)

A program is a list of commands that create objects, call their methods, clone them, derive objects from them, keep
what a property returned, and write to what was kept.  `view w i` is the `i`-th object as its methods see it.
`Spec.noEdits p` is the program `p` without the writes.
-/

set_option linter.unusedSectionVars false
set_option autoImplicit false

namespace DHG

instance {K : Type} : Inhabited (GVal K) := ⟨.edges [] []⟩
instance {K : Type} : Inhabited (HVal K) := ⟨.verts []⟩

namespace Props

open Live

variable {K : Type} [Field K] [LinearOrder K] [PyReal K]

/-! ### What is held -/

/-- C106: no write into what a `Graph` returned changes the vertices, edges, weights and flags of any graph. -/
theorem C106_graph_data : Spec.DataKept (Heap.graph (K := K)) := data_kept live_graph
theorem C106_digraph_data : Spec.DataKept (Heap.digraph (K := K)) := data_kept live_digraph
theorem C106_bigraph_data : Spec.DataKept (Heap.bigraph (K := K)) := data_kept live_bigraph
theorem C106_hypergraph_data : Spec.DataKept (Heap.hypergraph (K := K)) := data_kept live_hypergraph

/-! ### What is answered

In full: `∀ p i q, answer C (Spec.world C p) i q = answer C (Spec.world C (Spec.noEdits p)) i q`.  This fails for the
structure whose result was written to, see `C106_..._live_false`. -/

/-- C106: a graph of whose results none was written to since its last change answers as if nothing had been written;
in particular other graphs, clones made before and graphs derived from a touched one. -/
theorem C106_graph_untouched_partial : Spec.UntouchedSame (Heap.graph (K := K)) Spec.renewG := untouched_same live_graph
theorem C106_digraph_untouched_partial : Spec.UntouchedSame (Heap.digraph (K := K)) Spec.renewD := untouched_same live_digraph
theorem C106_bigraph_untouched_partial : Spec.UntouchedSame (Heap.bigraph (K := K)) Spec.renewB := untouched_same live_bigraph
theorem C106_hypergraph_untouched_partial : Spec.UntouchedSame (Heap.hypergraph (K := K)) Spec.renewH :=
  untouched_same live_hypergraph

/-- C106: after a successful change a graph answers as if nothing had been written. -/
theorem C106_graph_refreshed : Spec.RefreshedSame (Heap.graph (K := K)) Spec.renewG := refreshed_same live_graph
theorem C106_digraph_refreshed : Spec.RefreshedSame (Heap.digraph (K := K)) Spec.renewD := refreshed_same live_digraph
theorem C106_bigraph_refreshed : Spec.RefreshedSame (Heap.bigraph (K := K)) Spec.renewB := refreshed_same live_bigraph
theorem C106_hypergraph_refreshed : Spec.RefreshedSame (Heap.hypergraph (K := K)) Spec.renewH :=
  refreshed_same live_hypergraph

/-! ### Concrete programs -/

/-- two graphs with one edge each; the edge list of the first is kept and emptied -/
def exLiveG : List (Cmd GKey (GVal ℝ) (GOp ℝ) (GQuery ℝ) (Heap.NewG ℝ) (Heap.Drop ℝ)) :=
  [.make ⟨2, some (.single 0 1 none), false, .mean⟩, .make ⟨3, some (.single 1 2 none), false, .mean⟩, .read 0 .e,
    .clone 0, .keep 0 .e, .edit 0 (.edges [] [])]

/-- C106 does not hold in full: writing to the list returned by `g.e` changes what `g.e` returns later. -/
theorem C106_graph_live_false :
    ¬ ∀ (p : List (Cmd GKey (GVal ℝ) (GOp ℝ) (GQuery ℝ) (Heap.NewG ℝ) (Heap.Drop ℝ))) (i : Nat) (q : GQuery ℝ),
      answer Heap.graph (Spec.world Heap.graph p) i q =
        answer Heap.graph (Spec.world Heap.graph (Spec.noEdits p)) i q := by
  intro h
  have h1 : answer Heap.graph (Spec.world (Heap.graph (K := ℝ)) exLiveG) 0 .e = some (.ok (.edges [] [])) := rfl
  have h2 : answer Heap.graph (Spec.world (Heap.graph (K := ℝ)) (Spec.noEdits exLiveG)) 0 .e =
      some (.ok (.edges [(0, 1)] [1])) := rfl
  have := h exLiveG 0 .e
  rw [h1, h2] at this
  cases this

-- the first graph is touched; the second and the clone made before are not; changing the first refreshes it
example : Spec.Touched (Heap.graph (K := ℝ)) Spec.renewG exLiveG 0 ∧
    ¬ Spec.Touched (Heap.graph (K := ℝ)) Spec.renewG exLiveG 1 ∧
    ¬ Spec.Touched (Heap.graph (K := ℝ)) Spec.renewG exLiveG 2 ∧
    ¬ Spec.Touched (Heap.graph (K := ℝ)) Spec.renewG (exLiveG ++ [.call 0 (.addEdges (.single 0 0 none) .mean)]) 0 := by
  refine ⟨rfl, ?_, ?_, ?_⟩ <;> intro h <;> cases h

/-- two directed graphs with one edge each; the edge list of the first is kept and emptied -/
def exLiveD : List (Cmd OKey (GVal ℝ) (DOp ℝ) (DQuery ℝ) (Heap.NewG ℝ) (Heap.Drop ℝ)) :=
  [.make ⟨2, some (.single 0 1 none), false, .mean⟩, .make ⟨3, some (.single 1 2 none), false, .mean⟩, .read 0 .e,
    .clone 0, .keep 0 .e, .edit 0 (.edges [] [])]

/-- C106 does not hold in full: writing to the list returned by `g.e` changes what `g.e` returns later. -/
theorem C106_digraph_live_false :
    ¬ ∀ (p : List (Cmd OKey (GVal ℝ) (DOp ℝ) (DQuery ℝ) (Heap.NewG ℝ) (Heap.Drop ℝ))) (i : Nat) (q : _),
      answer Heap.digraph (Spec.world Heap.digraph p) i q =
        answer Heap.digraph (Spec.world Heap.digraph (Spec.noEdits p)) i q := by
  intro h
  have h1 : answer Heap.digraph (Spec.world (Heap.digraph (K := ℝ)) exLiveD) 0 .e = some (.ok (.edges [] [])) := rfl
  have h2 : answer Heap.digraph (Spec.world (Heap.digraph (K := ℝ)) (Spec.noEdits exLiveD)) 0 .e =
      some (.ok (.edges [(0, 1)] [1])) := rfl
  have := h exLiveD 0 .e
  rw [h1, h2] at this
  cases this

example : Spec.Touched (Heap.digraph (K := ℝ)) Spec.renewD exLiveD 0 ∧
    ¬ Spec.Touched (Heap.digraph (K := ℝ)) Spec.renewD exLiveD 1 ∧
    ¬ Spec.Touched (Heap.digraph (K := ℝ)) Spec.renewD exLiveD 2 ∧
    ¬ Spec.Touched (Heap.digraph (K := ℝ)) Spec.renewD (exLiveD ++ [.call 0 (.addEdges (.single 0 0 none) .mean)]) 0 := by
  refine ⟨rfl, ?_, ?_, ?_⟩ <;> intro h <;> cases h

/-- two bipartite graphs with one edge each; the edge list of the first is kept and emptied -/
def exLiveB : List (Cmd OKey (GVal ℝ) (BOp ℝ) (BQuery ℝ) (Heap.NewB ℝ) (Heap.DerB ℝ)) :=
  [.make ⟨2, 2, some (.single 0 1 none), .mean⟩, .make ⟨3, 2, some (.single 1 1 none), .mean⟩, .read 0 .e,
    .clone 0, .keep 0 .e, .edit 0 (.edges [] [])]

/-- C106 does not hold in full: writing to the list returned by `g.e` changes what `g.e` returns later. -/
theorem C106_bigraph_live_false :
    ¬ ∀ (p : List (Cmd OKey (GVal ℝ) (BOp ℝ) (BQuery ℝ) (Heap.NewB ℝ) (Heap.DerB ℝ))) (i : Nat) (q : _),
      answer Heap.bigraph (Spec.world Heap.bigraph p) i q =
        answer Heap.bigraph (Spec.world Heap.bigraph (Spec.noEdits p)) i q := by
  intro h
  have h1 : answer Heap.bigraph (Spec.world (Heap.bigraph (K := ℝ)) exLiveB) 0 .e = some (.ok (.edges [] [])) := rfl
  have h2 : answer Heap.bigraph (Spec.world (Heap.bigraph (K := ℝ)) (Spec.noEdits exLiveB)) 0 .e =
      some (.ok (.edges [(0, 1)] [1])) := rfl
  have := h exLiveB 0 .e
  rw [h1, h2] at this
  cases this

example : Spec.Touched (Heap.bigraph (K := ℝ)) Spec.renewB exLiveB 0 ∧
    ¬ Spec.Touched (Heap.bigraph (K := ℝ)) Spec.renewB exLiveB 1 ∧
    ¬ Spec.Touched (Heap.bigraph (K := ℝ)) Spec.renewB exLiveB 2 ∧
    ¬ Spec.Touched (Heap.bigraph (K := ℝ)) Spec.renewB (exLiveB ++ [.call 0 (.addEdges (.single 0 0 none) .mean)]) 0 := by
  refine ⟨rfl, ?_, ?_, ?_⟩ <;> intro h <;> cases h

/-- two hypergraphs; the vertex list of the first is kept and emptied -/
def exLiveH : List (Cmd HKey (HVal ℝ) (HOp ℝ) (HQuery ℝ) (Heap.NewH ℝ) (Heap.DerH ℝ)) :=
  [.make ⟨2, none, .none, none, .mean⟩, .make ⟨3, none, .none, none, .mean⟩, .read 0 .v,
    .clone 0, .keep 0 (none, .v), .edit 0 (.verts [])]

/-- C106 does not hold in full: writing to the list returned by `hg.v` changes what `hg.v` returns later. -/
theorem C106_hypergraph_live_false :
    ¬ ∀ (p : List (Cmd HKey (HVal ℝ) (HOp ℝ) (HQuery ℝ) (Heap.NewH ℝ) (Heap.DerH ℝ))) (i : Nat) (q : _),
      answer Heap.hypergraph (Spec.world Heap.hypergraph p) i q =
        answer Heap.hypergraph (Spec.world Heap.hypergraph (Spec.noEdits p)) i q := by
  intro h
  have h1 : answer Heap.hypergraph (Spec.world (Heap.hypergraph (K := ℝ)) exLiveH) 0 .v = some (.ok (.idx [])) := rfl
  have h2 : answer Heap.hypergraph (Spec.world (Heap.hypergraph (K := ℝ)) (Spec.noEdits exLiveH)) 0 .v =
      some (.ok (.idx [0, 1])) := rfl
  have := h exLiveH 0 .v
  rw [h1, h2] at this
  cases this

example : Spec.Touched (Heap.hypergraph (K := ℝ)) Spec.renewH exLiveH 0 ∧
    ¬ Spec.Touched (Heap.hypergraph (K := ℝ)) Spec.renewH exLiveH 1 ∧
    ¬ Spec.Touched (Heap.hypergraph (K := ℝ)) Spec.renewH exLiveH 2 ∧
    ¬ Spec.Touched (Heap.hypergraph (K := ℝ)) Spec.renewH (exLiveH ++ [.call 0 (.removeGroup "main")]) 0 := by
  refine ⟨rfl, ?_, ?_, ?_⟩ <;> intro h <;> cases h

end Props
end DHG
