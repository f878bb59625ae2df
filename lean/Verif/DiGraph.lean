import Verif.Ordered
import Verif.GraphApi

/-!
# `DiGraph` (dhg/structure/graphs/directed_graph.py)
-/

set_option linter.unusedSectionVars false
set_option autoImplicit false

namespace DHG

variable {K : Type} [Field K] [LinearOrder K]

/-- the `direction` argument of `DiGraph.v2v` (directed_graph.py:543, 556, 559) -/
inductive Dir
  | dst2src | src2dst | other
  deriving DecidableEq, Repr

/-- mutating calls on a `DiGraph` (directed_graph.py:252-300, base.py:86-92, 242-259) -/
inductive DOp (K : Type)
  | addEdges (arg : EArg K) (op : MergeOp)
  | removeEdges (arg : EArg K)
  | addExtraSelfloop
  | removeExtraSelfloop
  | removeSelfloop
  | clear
  | reverseDirection

/-- reading calls on a `DiGraph` (directed_graph.py:324-639, base.py:262-335) -/
inductive DQuery (K : Type)
  | e | numV | numE | A | AT | DvOut | DvIn | DvOutN1 | DvInN1 | Nout (v : Int) | Nin (v : Int)
  | degOut | degIn | eSrc | eDst | eWeight
  | v2v (X : Dense K) (aggr : Aggr) (ew : Option (List K)) (dir : Dir) (dropRate : K)
      (keep : Nat → Bool)

/-- a `DiGraph` object (directed_graph.py:16-39) -/
abbrev DSt (K : Type) := OSt K

namespace DiGraph

/-- `DiGraph.reverse_direction` (directed_graph.py:297-300): rebuilds `_raw_e_dict` only; the cache
is not cleared -/
def reverseDirection : PyM (DSt K) Unit :=
  setRaw fun r => { r with eDict := Dict.ofPairs (r.eDict.map fun p => ((p.1.2, p.1.1), p.2)) }

/-- `DiGraph.__init__` (directed_graph.py:28-39) -/
def new (numV : Int) (arg : Option (EArg K)) (extra : Bool) (op : MergeOp) :
    Except Err (DSt K) := do
  let r ← GRaw.init numV extra
  match arg with
  | none => .ok { raw := r, cache := [] }
  | some arg =>
    match Ord.addEdges .di arg op { raw := r, cache := [] } with
    | (.ok _, s) => .ok s
    | (.error e, _) => .error e

/-- `DiGraph.clone` (directed_graph.py:138-147): raw fields and cache are deep-copied -/
def clone (s : DSt K) : DSt K := { raw := s.raw, cache := s.cache }

/-- `DiGraph.state_dict` (directed_graph.py:47-55) -/
structure StateDict (K : Type) where
  numV : Nat
  eDict : Dict (Int × Int) K
  loops : Dict Int K
  extra : Bool
  deriving DecidableEq, Repr

/-- `DiGraph.state_dict` (directed_graph.py:47-55); sharing of the dict objects is modelled in
`Heap.lean` -/
def stateDict (s : DSt K) : StateDict K :=
  { numV := s.raw.numV, eDict := s.raw.eDict, loops := s.raw.loops, extra := s.raw.extra }

/-- `DiGraph.from_state_dict` (directed_graph.py:160-169) -/
def fromStateDict (d : StateDict K) : Except Err (DSt K) := do
  let r ← GRaw.init (K := K) d.numV d.extra
  .ok { raw := { r with eDict := d.eDict, loops := d.loops }, cache := [] }

/-- `DiGraph.from_adj_list` (directed_graph.py:172-196) -/
def fromAdjList (numV : Int) (adj : List (List Int)) (extra : Bool) : Except Err (DSt K) :=
  new numV (some (.many (Graph.adjListEdges adj) .none)) extra .mean

/-- `DiGraph.drop_edges` (directed_graph.py:302-322) -/
def dropEdges (rate : K) (uniform : Bool) (rnd : Nat → K) (s : DSt K) : Except Err (DSt K) :=
  if uniform then
    fromStateDict
      { numV := s.raw.numV
        eDict := Graph.dropFilter rate rnd 0 s.raw.eDict
        loops := Graph.dropFilter rate rnd s.raw.eDict.length s.raw.loops
        extra := s.raw.extra }
  else .error .value

/-- `DiGraph.v2v` (directed_graph.py:538-639) -/
def v2v [PyReal K] (X : Dense K) (aggr : Aggr) (ew : Option (List K)) (dir : Dir) (dropRate : K)
    (keep : Nat → Bool) : PyM (DSt K) (Dense K) := do
  PyM.assert (decide (aggr ≠ .other))
  match dir with
  | .dst2src => Ord.toRows .di X aggr ew dropRate keep
  | .src2dst => Ord.toCols .di X aggr ew dropRate keep
  | .other => PyM.raise .assertion

/-- execute one mutating call (the mutating methods, directed_graph.py:133-322) -/
def apply : DOp K → PyM (DSt K) Unit
  | .addEdges arg op => Ord.addEdges .di arg op
  | .removeEdges arg => Ord.removeEdges .di arg
  | .addExtraSelfloop => DHG.addExtraSelfloop
  | .removeExtraSelfloop => DHG.removeExtraSelfloop
  | .removeSelfloop => DHG.removeSelfloop
  | .clear => clearAll
  | .reverseDirection => reverseDirection

/-- execute one reading call; `deg_v_in`, `deg_v_out` (directed_graph.py:354-363) are the values of
the degree matrices, `nbr_v_in`, `nbr_v_out` (365-379) call `N_v_in`, `N_v_out` -/
def ask [PyReal K] : DQuery K → PyM (DSt K) (GAns K)
  | .e => do let p ← Ord.getE; pure (.edges p.1 p.2)
  | .numV => do let n ← readRaw GRaw.numV; pure (.num n)
  | .numE => do let n ← readRaw GRaw.numE; pure (.num n)
  | .A => do let M ← Ord.getM .di; pure (.mat M)
  | .AT => do let M ← Ord.getMT .di; pure (.mat M)
  | .DvOut => do let M ← Ord.getDr .di; pure (.mat M)
  | .DvIn => do let M ← Ord.getDc .di; pure (.mat M)
  | .DvOutN1 => do let M ← Ord.getDrN1 .di; pure (.mat M)
  | .DvInN1 => do let M ← Ord.getDcN1 .di; pure (.mat M)
  | .Nout v => do let l ← Ord.getNr .di v; pure (.idx l)
  | .Nin v => do let l ← Ord.getNc .di v; pure (.idx l)
  | .degOut => do let M ← Ord.getDr .di; pure (.vec (M.ents.map Prod.snd))
  | .degIn => do let M ← Ord.getDc .di; pure (.vec (M.ents.map Prod.snd))
  | .eSrc => do let l ← Ord.getERow .di; pure (.idx l)
  | .eDst => do let l ← Ord.getECol .di; pure (.idx l)
  | .eWeight => do let l ← Ord.getEWeight .di; pure (.vec l)
  | .v2v X aggr ew dir p keep => do let Y ← v2v X aggr ew dir p keep; pure (.feat Y)

/-- a history: mutations and reads in any order
(a caller of the methods in directed_graph.py; no line of its own) -/
inductive Step (K : Type)
  | op (o : DOp K)
  | read (q : DQuery K)

/-- state after one step (calls that raise included: the state is what they left behind)
(a caller of the methods in directed_graph.py; no line of its own) -/
def step [PyReal K] (g : DSt K) : Step K → DSt K
  | .op o => (apply o g).2
  | .read q => (ask q g).2

/-- state after a history (a caller of the methods in directed_graph.py; no line of its own) -/
def run [PyReal K] (g : DSt K) (h : List (Step K)) : DSt K := h.foldl step g

/-- All `DiGraph` objects obtainable through the public interface with edge arguments satisfying
`P`. (directed_graph.py:28-39, 133-322, 327-639) -/
inductive Any [PyReal K] (P : EArg K → Prop) : DSt K → Prop
  | new {n arg extra op g} (h : DiGraph.new n arg extra op = .ok g) (hP : ∀ a, arg = some a → P a) :
      Any P g
  | adj {n adj extra g} (h : fromAdjList n adj extra = .ok g)
      (hP : P (.many (Graph.adjListEdges adj) .none)) : Any P g
  | op {g} (o : DOp K) (hg : Any P g) (hP : ∀ a op, o = .addEdges a op → P a) :
      Any P (apply o g).2
  | read {g} (q : DQuery K) (hg : Any P g) : Any P (ask q g).2
  | clone {g} (hg : Any P g) : Any P (clone g)
  | state {g g'} (hg : Any P g) (h : fromStateDict (stateDict g) = .ok g') : Any P g'
  | drop {g g' rate uniform rnd} (hg : Any P g) (h : dropEdges rate uniform rnd g = .ok g') :
      Any P g'

/-- calls that clear the cache when they return normally: all mutators except
`reverse_direction`, and `add_edges` only if it is given at least one edge
(directed_graph.py:133-136, 251-300) -/
def Clears : DOp K → Prop
  | .reverseDirection => False
  | .addEdges arg _ => arg.isEmpty = false
  | _ => True

/-- Objects on which `reverse_direction` was never called while something was cached, or on which a
cache clearing call was made since; `warm = false` means that additionally nothing has been read
since the object was created or last cleared its cache.
(`reverse_direction`, directed_graph.py:297-300, does not clear the cache) -/
inductive Built [PyReal K] (P : EArg K → Prop) : Bool → DSt K → Prop
  | new {n arg extra op g} (h : DiGraph.new n arg extra op = .ok g) (hP : ∀ a, arg = some a → P a) :
      Built P false g
  | adj {n adj extra g} (h : fromAdjList n adj extra = .ok g)
      (hP : P (.many (Graph.adjListEdges adj) .none)) : Built P false g
  | refresh {g} (o : DOp K) (hg : Any P g) (hc : Clears o) (hok : (apply o g).1 = .ok ())
      (hP : ∀ a op, o = .addEdges a op → P a) : Built P false (apply o g).2
  | op {w g} (o : DOp K) (hg : Built P w g) (ho : o ≠ .reverseDirection)
      (hP : ∀ a op, o = .addEdges a op → P a) : Built P w (apply o g).2
  | reverse {g} (hg : Built P false g) : Built P false (apply .reverseDirection g).2
  | read {w g} (q : DQuery K) (hg : Built P w g) : Built P true (ask q g).2
  | clone {w g} (hg : Built P w g) : Built P w (clone g)
  | state {g g'} (hg : Any P g) (h : fromStateDict (stateDict g) = .ok g') : Built P false g'
  | drop {g g' rate uniform rnd} (hg : Any P g) (h : dropEdges rate uniform rnd g = .ok g') :
      Built P false g'

end DiGraph
end DHG
