import Verif.Graph

/-!
# The public interface of `Graph` as operations and queries

Used to quantify over histories.  Each constructor names one public call; its meaning is the model
function of that call in `Graph.lean`.
-/

set_option linter.unusedSectionVars false
set_option autoImplicit false

namespace DHG

variable {K : Type} [Field K] [LinearOrder K]

/-- mutating calls on a `Graph` (graph.py:307-352, base.py:86-92, 242-259) -/
inductive GOp (K : Type)
  | addEdges (arg : EArg K) (op : MergeOp)
  | removeEdges (arg : EArg K)
  | addExtraSelfloop
  | removeExtraSelfloop
  | removeSelfloop
  | clear

/-- reading calls on a `Graph` (graph.py:378-705, base.py:262-335) -/
inductive GQuery (K : Type)
  | e | eBoth | numV | numE | A | Dv | DvN1 | DvN12 | Nv (v hop : Int) | degV
  | eSrc | eDst | eWeight | L | Lsym | Lrw | LGCN
  | smoothGCN (X : Dense K) (dropRate : K) (keep : Nat → Bool)
  | v2v (X : Dense K) (aggr : Aggr) (ew : Option (List K)) (dropRate : K) (keep : Nat → Bool)

/-- answers to reading calls (return values of graph.py:381-704) -/
inductive GAns (K : Type)
  | edges (es : List (Int × Int)) (ws : List K)
  | num (n : Nat)
  | idx (l : List Nat)
  | vec (l : List K)
  | mat (M : Sp K)
  | feat (X : Dense K)

namespace Graph

/-- execute one mutating call; the answer says whether it raised
(the mutating methods, graph.py:140-376) -/
def apply : GOp K → PyM (GSt K) Unit
  | .addEdges arg op => addEdges arg op
  | .removeEdges arg => removeEdges arg
  | .addExtraSelfloop => DHG.addExtraSelfloop
  | .removeExtraSelfloop => DHG.removeExtraSelfloop
  | .removeSelfloop => DHG.removeSelfloop
  | .clear => clearAll

/-- execute one reading call (the reading methods, graph.py:381-704) -/
def ask [PyReal K] : GQuery K → PyM (GSt K) (GAns K)
  | .e => do let p ← getE; pure (.edges p.1 p.2)
  | .eBoth => do let p ← getEBoth; pure (.edges p.1 p.2)
  | .numV => do let n ← readRaw GRaw.numV; pure (.num n)
  | .numE => do let n ← getNumE; pure (.num n)
  | .A => do let M ← getA; pure (.mat M)
  | .Dv => do let M ← getDv; pure (.mat M)
  | .DvN1 => do let M ← getDvN1; pure (.mat M)
  | .DvN12 => do let M ← getDvN12; pure (.mat M)
  | .Nv v hop => do let l ← getNv v hop; pure (.idx l)
  | .degV => do let l ← getDegV; pure (.vec l)
  | .eSrc => do let l ← getESrc; pure (.idx l)
  | .eDst => do let l ← getEDst; pure (.idx l)
  | .eWeight => do let l ← getEWeight; pure (.vec l)
  | .L => do let M ← getL; pure (.mat M)
  | .Lsym => do let M ← getLsym; pure (.mat M)
  | .Lrw => do let M ← getLrw; pure (.mat M)
  | .LGCN => do let M ← getLGCN; pure (.mat M)
  | .smoothGCN X p keep => do let Y ← smoothGCN X p keep; pure (.feat Y)
  | .v2v X aggr ew p keep => do let Y ← v2v X aggr ew p keep; pure (.feat Y)

/-- a history: mutations and reads in any order
(a caller of the methods in graph.py; no line of its own) -/
inductive Step (K : Type)
  | op (o : GOp K)
  | read (q : GQuery K)

/-- state after one step (calls that raise included: the state is what they left behind)
(a caller of the methods in graph.py; no line of its own) -/
def step [PyReal K] (g : GSt K) : Step K → GSt K
  | .op o => (apply o g).2
  | .read q => (ask q g).2

/-- state after a history (a caller of the methods in graph.py; no line of its own) -/
def run [PyReal K] (g : GSt K) (h : List (Step K)) : GSt K := h.foldl step g

/-- All `Graph` objects obtainable through the public interface with edge arguments satisfying
`P`: constructors, mutations, reads, `clone`, state dictionaries and `drop_edges`.
(graph.py:29-40, 140-376, 381-704) -/
inductive Built [PyReal K] (P : EArg K → Prop) : GSt K → Prop
  | new {n arg extra op g} (h : Graph.new n arg extra op = .ok g) (hP : ∀ a, arg = some a → P a) :
      Built P g
  | adj {n adj extra g} (h : fromAdjList n adj extra = .ok g)
      (hP : P (.many (adjListEdges adj) .none)) : Built P g
  | op {g} (o : GOp K) (hg : Built P g) (hP : ∀ a op, o = .addEdges a op → P a) :
      Built P (apply o g).2
  | read {g} (q : GQuery K) (hg : Built P g) : Built P (ask q g).2
  | clone {g} (hg : Built P g) : Built P (clone g)
  | state {g g'} (hg : Built P g) (h : fromStateDict (stateDict g) = .ok g') : Built P g'
  | drop {g g' rate uniform rnd} (hg : Built P g) (h : dropEdges rate uniform rnd g = .ok g') :
      Built P g'

/-- no restriction on the arguments (a condition on callers; no line of its own) -/
def AnyArg (_ : EArg K) : Prop := True

/-- all vertex ids in an edge argument are non-negative
(a condition on callers: negative ids pass the check in structure/base.py:136) -/
def NonNeg : EArg K → Prop
  | .single a b _ => 0 ≤ a ∧ 0 ≤ b
  | .many es _ => ∀ e ∈ es, 0 ≤ e.1 ∧ 0 ≤ e.2

end Graph
end DHG
