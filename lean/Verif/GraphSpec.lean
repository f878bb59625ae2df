import Verif.GraphApi
import Verif.ListSpec

/-!
# Specification of the edge set of an undirected graph

A map from unordered pairs of vertices to weights, and how the public calls change it.  Nothing
here refers to dictionaries, caches or helper functions of the model.
-/

set_option linter.unusedSectionVars false
set_option autoImplicit false

namespace DHG
namespace Spec

variable {K : Type} [Field K] [LinearOrder K]

/-- weights of unordered pairs (always used symmetrically); `m a a` is a self loop -/
abbrev WMap (K : Type) := Int → Int → Option K

/-- weight after merging an old and a new one -/
def merge : MergeOp → K → K → K
  | .sum, old, new => old + new
  | .max, old, new => if old ≤ new then new else old
  | .mean, old, new => (old + new) / 2
  | .other, _, new => new

/-- write `w` to the pair `{a,b}`, merging with an existing weight -/
def put (m : WMap K) (op : MergeOp) (a b : Int) (w : K) : WMap K := fun x y =>
  if (x = a ∧ y = b) ∨ (x = b ∧ y = a) then
    match m a b with
    | some old => some (merge op old w)
    | none => some w
  else m x y

/-- forget the pair `{a,b}` -/
def erase (m : WMap K) (a b : Int) : WMap K := fun x y =>
  if (x = a ∧ y = b) ∨ (x = b ∧ y = a) then none else m x y

/-- abstract state: edge weights and the extra-self-loop flag -/
structure GState (K : Type) where
  map : WMap K
  extra : Bool

/-- weighted edges meant by an `add_edges` argument, `none` when the arguments are not usable -/
def weighted : EArg K → Option (List (Int × Int × K))
  | .single a b w => some [(a, b, w.getD 1)]
  | .many es .none => some (es.map fun e => (e.1, e.2, 1))
  | .many es (.list ws) => some ((es.zip ws).map fun e => (e.1.1, e.1.2, e.2))
  | .many _ (.scalar _) => none

/-- edges named by an argument -/
def named : EArg K → List (Int × Int)
  | .single a b _ => [(a, b)]
  | .many es _ => es

/-- `add_edges`: refused (no effect) when some vertex is too large, the operation is unknown or
the weights are not a list -/
def add (n : Nat) (m : WMap K) (arg : EArg K) (op : MergeOp) : WMap K :=
  if (∀ e ∈ named arg, e.1 < (n : Int) ∧ e.2 < (n : Int)) ∧ op ≠ .other then
    match weighted arg with
    | some l => l.foldl (fun m e => put m op e.1 e.2.1 e.2.2) m
    | none => m
  else m

/-- `remove_edges`: refused (no effect) when some vertex is too large -/
def remove (n : Nat) (m : WMap K) (arg : EArg K) : WMap K :=
  if ∀ e ∈ named arg, e.1 < (n : Int) ∧ e.2 < (n : Int) then
    (named arg).foldl (fun m e => erase m e.1 e.2) m
  else m

/-- effect of a public call on the abstract state -/
def apply (n : Nat) (s : GState K) : GOp K → GState K
  | .addEdges arg op => { s with map := add n s.map arg op }
  | .removeEdges arg => { s with map := remove n s.map arg }
  | .addExtraSelfloop => { s with extra := true }
  | .removeExtraSelfloop => { s with extra := false }
  | .removeSelfloop => { map := fun a b => if a = b then none else s.map a b, extra := false }
  | .clear => { map := fun _ _ => none, extra := false }

/-- replay of a history; reads have no effect -/
def run (n : Nat) (s : GState K) (h : List (Graph.Step K)) : GState K :=
  h.foldl (fun s st => match st with
    | .op o => apply n s o
    | .read _ => s) s

/-- abstract state of a newly constructed graph -/
def new (n : Nat) (arg : Option (EArg K)) (extra : Bool) (op : MergeOp) : GState K :=
  { map := match arg with
      | none => fun _ _ => none
      | some a => add n (fun _ _ => none) a op
    extra }

variable [PyReal K]

/-- the listing returned by reading `e`, as weighted pairs -/
def listing (g : GSt K) : List ((Int × Int) × K) :=
  match (Graph.ask .e g).1 with
  | .ok (.edges es ws) => es.zip ws
  | _ => []

/-- reading `e` shows the unordered pair `{a,b}` with weight `w` -/
def Listed (g : GSt K) (a b : Int) (w : K) : Prop :=
  ((a, b), w) ∈ listing g ∨ ((b, a), w) ∈ listing g

/-- no history of public calls followed by a read tells the two objects apart -/
def Indist (g g' : GSt K) : Prop :=
  ∀ (h : List (Graph.Step K)) (q : GQuery K),
    (Graph.ask q (Graph.run g h)).1 = (Graph.ask q (Graph.run g' h)).1

end Spec
end DHG
