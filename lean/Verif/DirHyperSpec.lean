import Verif.DirHyper

/-!
# Directed hyperedges: specification of the stored hyperedges (C115, C116, C117)
-/

set_option linter.unusedSectionVars false
set_option autoImplicit false

namespace DHG

variable {K : Type} [Field K] [LinearOrder K]

namespace Spec

/-! ### Which hyperedges there should be -/

/-- a hyperedge as a caller writes it: source vertices and target vertices -/
abbrev DEdge := List Int × List Int

/-- the order in which the vertices of a side are written does not matter -/
def SameEdge (a b : DEdge) : Prop := a.1.Perm b.1 ∧ a.2.Perm b.2

instance (a b : DEdge) : Decidable (SameEdge a b) := by unfold SameEdge; infer_instance

/-- the groups in the order of their first use, each with its hyperedges in the order of their first
addition -/
abbrev DStore := List (String × List DEdge)

/-- adding a hyperedge to a group: nothing happens if it is there -/
def dAdd (g : String) (c : DEdge) : DStore → DStore
  | [] => [(g, [c])]
  | (g', l) :: st =>
    if g' = g then (g', if ∃ c' ∈ l, SameEdge c' c then l else l ++ [c]) :: st
    else (g', l) :: dAdd g c st

/-- removing a hyperedge from a group -/
def dDel (g : String) (c : DEdge) (st : DStore) : DStore :=
  st.map fun p => if p.1 = g then (p.1, p.2.filter fun c' => ¬ SameEdge c' c) else p

/-- the vertex lists of an argument of `add_hyperedges` -/
def dSides : DArg K → List (List Int)
  | .one vs _ => [vs]
  | .many es _ => es.map PySeq.items

/-- the vertex lists of an argument of `remove_hyperedges`; an empty list lists nothing -/
def dListed : HArg → List (List Int)
  | .one _ [] => []
  | .one _ vs => [vs]
  | .many _ es => es.map PySeq.items
  | .other => []

/-- what a call is meant to do -/
def dEffect : DHOp K → DStore → DStore
  | .add src dst _ _ g, st => ((dSides src).zip (dSides dst)).foldl (fun st c => dAdd g c st) st
  | .remove src dst (some g), st =>
    ((dListed src).zip (dListed dst)).foldl (fun st c => dDel g c st) st
  | .remove src dst none, st =>
    ((dListed src).zip (dListed dst)).foldl (fun st c => (st.map Prod.fst).foldl
      (fun st g => dDel g c st) st) st
  | .clear, _ => []
  | .setVWeight _, st => st

/-- objects made by `BaseHypergraph(n)` and any calls that did not raise, with any reads in between,
next to the hyperedges they should have -/
inductive DirBuilt (n : Nat) : DHSt K → DStore → Prop
  | new {s : DHSt K} : DirH.new n = .ok s → DirBuilt n s []
  | call {s : DHSt K} {st : DStore} (op : DHOp K) :
      DirBuilt n s st → (DirH.apply op s).1 = .ok () → DirBuilt n (DirH.apply op s).2 (dEffect op st)
  | read {s : DHSt K} {st : DStore} (q : DHQuery) :
      DirBuilt n s st → DirBuilt n (DirH.ask q s).2 st

/-- source or target vertices -/
def side : Side → DEdge → List Int
  | .v2e, c => c.1
  | .e2v, c => c.2

/-- the hyperedges of a group or of all groups -/
def dScope (st : DStore) : Option String → Option (List DEdge)
  | none => if st = [] then none else some (st.flatMap Prod.snd)
  | some g => (st.find? fun p => p.1 = g).map Prod.snd

/-- what `_raw_groups[g]` holds for a hyperedge (its vertices sorted) -/
def dStored (s : DHSt K) (g : String) (c : DEdge) : Option (DContent K) :=
  (s.raw.groups.get? g).bind fun d =>
    d.get? (c.1.insertionSort (· ≤ ·), c.2.insertionSort (· ≤ ·))

/-- the weights of the connections of the `i`-th hyperedge of an argument: the given ones, or ones -/
def dConnW : DArg K → Nat → List K
  | .one vs none, _ => List.replicate vs.length 1
  | .one _ (some ws), _ => ws
  | .many es none, i => List.replicate ((es.map PySeq.items).getD i []).length 1
  | .many _ (some wss), i => wss.getD i []

/-- the weight of the `i`-th hyperedge: the given one, or one -/
def dEdgeW : HW K → Nat → K
  | .list ws, i => ws.getD i 0
  | _, _ => 1

/-- the stored connection weights `xs` of vertices `vs` (written in this order by the caller) are the
given ones `ws`: every vertex has kept its weight -/
def KeepsWeights (vs : List Int) (ws xs : List K) : Prop :=
  xs.length = vs.length ∧ ((vs.insertionSort (· ≤ ·)).zip xs).Perm (vs.zip ws)

/-- the weight of a hyperedge of weight `a` that is added again with weight `b` -/
def dMerged : MergeOp → K → K → Option K
  | .mean, a, b => some ((a + b) / 2)
  | .sum, a, b => some (a + b)
  | .max, a, b => some (max a b)
  | .other, _, _ => none

end Spec

end DHG
