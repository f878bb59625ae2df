import Mathlib.Data.Multiset.ZeroCons
import Verif.HyperApi
import Verif.GraphSpec

/-!
# Specification of the content of a hypergraph

For every existing group, a map from hyperedges (collections of vertices without order) to weights,
and how the public calls change it.  Nothing here refers to dictionaries, caches or helper functions
of the model.
-/

set_option linter.unusedSectionVars false
set_option autoImplicit false

namespace DHG
namespace Spec

variable {K : Type} [Field K] [LinearOrder K]

/-- weights of the hyperedges of each existing group -/
abbrev HMap (K : Type) := String → Option (Multiset Int → Option K)

/-- weight of a hyperedge in a group, if the group and the hyperedge are present -/
def hGet (m : HMap K) (g : String) (e : Multiset Int) : Option K :=
  match m g with
  | none => none
  | some d => d e

/-- write `w` to the hyperedge `e` of group `g`, merging with an existing weight and creating the
group if needed -/
def hPut (m : HMap K) (op : MergeOp) (g : String) (e : Multiset Int) (w : K) : HMap K := fun g' =>
  if g' = g then some fun e' =>
    if e' = e then
      match hGet m g e with
      | some old => some (merge op old w)
      | none => some w
    else hGet m g e'
  else m g'

/-- forget the hyperedge `e` in the groups selected by `sel` -/
def hErase (sel : String → Prop) [DecidablePred sel] (m : HMap K) (e : Multiset Int) : HMap K :=
  fun g => match m g with
    | none => none
    | some d => some fun e' => if e' = e ∧ sel g then none else d e'

/-- hyperedges written in an argument, `none` when it is not a list of hyperedges -/
def hEdges : HArg → Option (List (Multiset Int))
  | .one _ [] => some []
  | .one _ vs => some [(vs : Multiset Int)]
  | .many _ es => some (es.map fun s => (s.items : Multiset Int))
  | .other => none

/-- weights for `k` hyperedges, `none` when they are not usable -/
def hWeights (k : Nat) : HW K → Option (List K)
  | .none => some (List.replicate k 1)
  | .scalar w => some (List.replicate k w)
  | .list ws => if ws.length = k then some ws else none
  | .other => none

/-- effect of a public call; unusable arguments and unknown groups have no effect -/
def hApply (m : HMap K) : HOp K → HMap K
  | .addHyperedges arg ew op g =>
    match hEdges arg with
    | none => m
    | some es => match hWeights es.length ew with
      | none => m
      | some ws => (es.zip ws).foldl (fun m p => hPut m op g p.1 p.2) m
  | .removeHyperedges arg none =>
    match hEdges arg with
    | none => m
    | some es => es.foldl (hErase fun _ => True) m
  | .removeHyperedges arg (some g) =>
    match hEdges arg with
    | none => m
    | some es => es.foldl (hErase fun g' => g' = g) m
  | .removeGroup g => fun g' => if g' = g then none else m g'
  | .clear => fun _ => none
  | .setVWeight _ => m

/-- replay of a history; reads have no effect -/
def hRun (m : HMap K) (h : List (Hyper.Step K)) : HMap K :=
  h.foldl (fun m st => match st with
    | .op o => hApply m o
    | .read _ => m) m

/-- content of a newly constructed hypergraph: the hyperedges given go to the group `"main"` -/
def hNew (arg : Option HArg) (ew : HW K) (op : MergeOp) : HMap K :=
  match arg with
  | none => fun _ => none
  | some a => hApply (fun _ => none) (.addHyperedges a ew op "main")

variable [PyReal K]

/-- the listing of a group (`e_of_group`) or of all groups (`e`) -/
def hListing (s : HSt K) (sc : Option String) : List (List Int × K) :=
  match (Hyper.ask (.e sc) s).1 with
  | .ok (.edges es ws) => es.zip ws
  | _ => []

/-- the names of the groups -/
def hNames (s : HSt K) : List String :=
  match (Hyper.ask .groupNames s).1 with
  | .ok (.names l) => l
  | _ => []

/-- reading the listing of group `g` shows the hyperedge `e` with weight `w` -/
def HListed (s : HSt K) (g : String) (e : Multiset Int) (w : K) : Prop :=
  ∃ l : List Int, (l : Multiset Int) = e ∧ (l, w) ∈ hListing s (some g)

/-- no history of public calls (without failing merges) followed by a read of the kind `ok` tells
the two objects apart -/
def HIndist (ok : HQuery K → Prop) (s s' : HSt K) : Prop :=
  ∀ h : List (Hyper.Step K), Hyper.GoodRun s h → ∀ q : HQuery K, ok q →
    (Hyper.ask q (Hyper.run s h)).1 = (Hyper.ask q (Hyper.run s' h)).1

/-- reads that do not concern vertex weights -/
def NotVW : HQuery K → Prop
  | .vWeight | .Wv => False
  | _ => True

/-- calls that build up a group with the given content -/
def rebuildGroup (g : String) (d : List (List Int × K)) : List (HOp K) :=
  match d with
  | [] => [.addHyperedges (.one true [0]) .none .sum g, .removeHyperedges (.one true [0]) (some g)]
  | d => [.addHyperedges (.many true (d.map fun p => ⟨true, p.1⟩)) (.list (d.map Prod.snd)) .sum g]

/-- calls that build up all groups; without vertex weights, start from a cleared object -/
def rebuildOps (vw : Option (List K)) (gs : List (String × List (List Int × K))) : List (HOp K) :=
  (match vw with | none => [.clear] | some _ => []) ++ gs.flatMap fun p => rebuildGroup p.1 p.2

end Spec
end DHG
