import Verif.GraphSpec
import Verif.DiGraph
import Verif.BiGraph

/-!
# Specification of the edge set of directed and bipartite graphs

A map from ordered pairs to weights, and how the public calls change it.  `mu`, `mv` bound the first
and the second component (both `num_v` for `DiGraph`; `num_u`, `num_v` for `BiGraph`).
-/

set_option linter.unusedSectionVars false
set_option autoImplicit false

namespace DHG
namespace Spec

variable {K : Type} [Field K] [LinearOrder K]

namespace O

/-- write `w` to the ordered pair `(a,b)`, merging with an existing weight -/
def put (m : WMap K) (op : MergeOp) (a b : Int) (w : K) : WMap K := fun x y =>
  if x = a ∧ y = b then
    match m a b with
    | some old => some (merge op old w)
    | none => some w
  else m x y

/-- forget the ordered pair `(a,b)` -/
def erase (m : WMap K) (a b : Int) : WMap K := fun x y => if x = a ∧ y = b then none else m x y

/-- all pairs named by the argument are below the bounds -/
def InB (mu mv : Nat) (arg : EArg K) : Prop := ∀ e ∈ named arg, e.1 < (mu : Int) ∧ e.2 < (mv : Int)

open Classical in
/-- `add_edges`: refused (no effect) when some vertex is too large, the operation is unknown or
the weights are not a list -/
noncomputable def add (mu mv : Nat) (m : WMap K) (arg : EArg K) (op : MergeOp) : WMap K :=
  if InB mu mv arg ∧ op ≠ .other then
    match weighted arg with
    | some l => l.foldl (fun m e => put m op e.1 e.2.1 e.2.2) m
    | none => m
  else m

open Classical in
/-- `remove_edges`: refused (no effect) when some vertex is too large -/
noncomputable def remove (mu mv : Nat) (m : WMap K) (arg : EArg K) : WMap K :=
  if InB mu mv arg then (named arg).foldl (fun m e => erase m e.1 e.2) m else m

/-- effect of a public call on the abstract state of a `DiGraph` with `n` vertices -/
noncomputable def applyD (n : Nat) (s : GState K) : DOp K → GState K
  | .addEdges arg op => { s with map := add n n s.map arg op }
  | .removeEdges arg => { s with map := remove n n s.map arg }
  | .addExtraSelfloop => { s with extra := true }
  | .removeExtraSelfloop => { s with extra := false }
  | .removeSelfloop => { map := fun a b => if a = b then none else s.map a b, extra := false }
  | .clear => { map := fun _ _ => none, extra := false }
  | .reverseDirection => { s with map := fun a b => s.map b a }

/-- effect of a public call on the abstract state of a `BiGraph` -/
noncomputable def applyB (mu mv : Nat) (s : GState K) : BOp K → GState K
  | .addEdges arg op => { s with map := add mu mv s.map arg op }
  | .removeEdges arg => { s with map := remove mu mv s.map arg }
  | .addExtraSelfloop => { s with extra := true }
  | .removeExtraSelfloop => { s with extra := false }
  | .removeSelfloop => { s with extra := false }
  | .clear => { map := fun _ _ => none, extra := false }

/-- replay of a history; reads have no effect -/
noncomputable def runD (n : Nat) (s : GState K) (h : List (DiGraph.Step K)) : GState K :=
  h.foldl (fun s st => match st with
    | .op o => applyD n s o
    | .read _ => s) s

/-- replay of a history; reads have no effect -/
noncomputable def runB (mu mv : Nat) (s : GState K) (h : List (BiGraph.Step K)) : GState K :=
  h.foldl (fun s st => match st with
    | .op o => applyB mu mv s o
    | .read _ => s) s

/-- abstract state of a newly constructed graph -/
noncomputable def new (mu mv : Nat) (arg : Option (EArg K)) (extra : Bool) (op : MergeOp) :
    GState K :=
  { map := match arg with
      | none => fun _ _ => none
      | some a => add mu mv (fun _ _ => none) a op
    extra }

/-- weighted pairs of an answer to `e` -/
def pairs : Except Err (GAns K) → List ((Int × Int) × K)
  | .ok (.edges es ws) => es.zip ws
  | _ => []

/-- total weight listed for the ordered pair `(i,j)` -/
def wt (l : List ((Int × Int) × K)) (i j : Int) : K :=
  (l.map fun e => if e.1 = (i, j) then e.2 else 0).sum

/-- total weight of the listed edges leaving `i` -/
def degOut (l : List ((Int × Int) × K)) (i : Int) : K :=
  (l.map fun e => if e.1.1 = i then e.2 else 0).sum

/-- total weight of the listed edges entering `j` -/
def degIn (l : List ((Int × Int) × K)) (j : Int) : K :=
  (l.map fun e => if e.1.2 = j then e.2 else 0).sum

end O

variable [PyReal K]

/-- the listing returned by reading `e` of a `DiGraph` -/
def listingD (g : DSt K) : List ((Int × Int) × K) := O.pairs (DiGraph.ask .e g).1

/-- the listing returned by reading `e` of a `BiGraph` -/
def listingB (g : BSt K) : List ((Int × Int) × K) := O.pairs (BiGraph.ask .e g).1

/-- no history of public calls followed by a read tells the two objects apart -/
def IndistD (g g' : DSt K) : Prop :=
  ∀ (h : List (DiGraph.Step K)) (q : DQuery K),
    (DiGraph.ask q (DiGraph.run g h)).1 = (DiGraph.ask q (DiGraph.run g' h)).1

/-- `reverse_direction` is not called in the history -/
def NoReverse (h : List (DiGraph.Step K)) : Prop := ∀ st ∈ h, st ≠ .op .reverseDirection

/-- no history of public calls other than `reverse_direction`, followed by a read, tells the two
objects apart -/
def IndistNR (g g' : DSt K) : Prop :=
  ∀ (h : List (DiGraph.Step K)), NoReverse h → ∀ (q : DQuery K),
    (DiGraph.ask q (DiGraph.run g h)).1 = (DiGraph.ask q (DiGraph.run g' h)).1

/-- no history of public calls followed by a read tells the two objects apart -/
def IndistB (g g' : BSt K) : Prop :=
  ∀ (h : List (BiGraph.Step K)) (q : BQuery K),
    (BiGraph.ask q (BiGraph.run g h)).1 = (BiGraph.ask q (BiGraph.run g' h)).1

end Spec
end DHG
