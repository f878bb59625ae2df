import Verif.Hypergraph

/-!
# The public interface of `Hypergraph` as operations and queries
-/

set_option linter.unusedSectionVars false
set_option autoImplicit false

namespace DHG

variable {K : Type} [Field K] [LinearOrder K]

/-- mutating calls on a `Hypergraph` (hypergraph.py:143-146, 319-350, 417-449; assignment to
`v_weight`, 507-511) -/
inductive HOp (K : Type)
  | addHyperedges (arg : HArg) (ew : HW K) (op : MergeOp) (g : String)
  | removeHyperedges (arg : HArg) (g : Option String)
  | removeGroup (g : String)
  | clear
  | setVWeight (w : List K)

/-- reading calls on a `Hypergraph` (hypergraph.py:501-1699); the scope `none` is the property or
method of the whole hypergraph, `some g` the corresponding `_of_group` method -/
inductive HQuery (K : Type)
  | numV | numE (sc : Option String) | numGroups | groupNames | v | vWeight
  | e (sc : Option String)
  | H (sc : Option String) | HT (sc : Option String)
  | Wv | We (sc : Option String)
  | Dv (sc : Option String) | DvN1 (sc : Option String) | DvN12 (sc : Option String)
  | De (sc : Option String) | DeN1 (sc : Option String)
  | degV (sc : Option String) | degE (sc : Option String)
  | nbrE (v : Int) (sc : Option String) | nbrV (e : Int) (sc : Option String)
  | v2eSrc (sc : Option String) | v2eDst (sc : Option String) | v2eWeight (sc : Option String)
  | e2vSrc (sc : Option String) | e2vDst (sc : Option String) | e2vWeight (sc : Option String)
  | Lsym (sc : Option String) | Lrw (sc : Option String) | LHGNN (sc : Option String)
  | smoothHGNN (sc : Option String) (X : Dense K) (rate : K) (keep : Nat → Bool)
  | v2eAggr (sc : Option String) (X : Dense K) (aggr : Aggr) (w : Option (List K)) (rate : K)
      (keep : Nat → Bool)
  | v2eUpd (sc : Option String) (X : Dense K) (ew : Option (List K))
  | v2e (sc : Option String) (X : Dense K) (aggr : Aggr) (w ew : Option (List K)) (rate : K)
      (keep : Nat → Bool)
  | e2vAggr (sc : Option String) (X : Dense K) (aggr : Aggr) (w : Option (List K)) (rate : K)
      (keep : Nat → Bool)
  | e2vUpd (sc : Option String) (X : Dense K)
  | e2v (sc : Option String) (X : Dense K) (aggr : Aggr) (w : Option (List K)) (rate : K)
      (keep : Nat → Bool)
  | v2v (sc : Option String) (X : Dense K) (a : Hyper.V2VArgs K)

/-- answers to reading calls (return values of hypergraph.py:501-1699) -/
inductive HAns (K : Type)
  | num (n : Nat)
  | names (l : List String)
  | edges (es : List (List Int)) (ws : List K)
  | idx (l : List Nat)
  | vec (l : List K)
  | optVec (l : Option (List K))
  | mat (M : Sp K)
  | feat (X : Dense K)

namespace Hyper

/-- execute one mutating call; the answer says whether it raised
(the mutating methods, hypergraph.py:143-146, 318-498) -/
def apply : HOp K → PyM (HSt K) Unit
  | .addHyperedges arg ew op g => addHyperedges arg ew op g
  | .removeHyperedges arg g => removeHyperedges arg g
  | .removeGroup g => removeGroup g
  | .clear => clear
  | .setVWeight w => setVWeight w

/-- execute one reading call.  `deg_v`, `deg_e` (hypergraph.py:559-587) are the stored values of the
degree matrices, `nbr_e`, `nbr_v` (589-623) call `N_e`, `N_v`, the connection vectors (680-768) are
the indices and values of `H_T` and `H`. -/
def ask [PyReal K] : HQuery K → PyM (HSt K) (HAns K)
  | .numV => do let r ← readRaw id; pure (.num r.numV)
  | .numE sc => do let n ← getNumE sc; pure (.num n)
  | .numGroups => do let r ← readRaw id; pure (.num r.groups.length)
  | .groupNames => do let l ← names; pure (.names l)
  | .v => do let l ← getV; pure (.idx l)
  | .vWeight => do let r ← readRaw id; pure (.optVec r.vWeight)
  | .e sc => do let p ← getE sc; pure (.edges p.1 p.2)
  | .H sc => do let M ← getH sc; pure (.mat M)
  | .HT sc => do let M ← getHT sc; pure (.mat M)
  | .Wv => do let M ← getWv; pure (.mat M)
  | .We sc => do let M ← getWe sc; pure (.mat M)
  | .Dv sc => do let M ← getDv sc; pure (.mat M)
  | .DvN1 sc => do let M ← getDvN1 sc; pure (.mat M)
  | .DvN12 sc => do let M ← getDvN12 sc; pure (.mat M)
  | .De sc => do let M ← getDe sc; pure (.mat M)
  | .DeN1 sc => do let M ← getDeN1 sc; pure (.mat M)
  | .degV sc => do let M ← getDv sc; pure (.vec (M.ents.map Prod.snd))
  | .degE sc => do let M ← getDe sc; pure (.vec (M.ents.map Prod.snd))
  | .nbrE v sc => do let l ← getNe v sc; pure (.idx l)
  | .nbrV e sc => do let l ← getNv e sc; pure (.idx l)
  | .v2eSrc sc => do let M ← getHT sc; pure (.idx (M.ents.map fun e => e.1.2))
  | .v2eDst sc => do let M ← getHT sc; pure (.idx (M.ents.map fun e => e.1.1))
  | .v2eWeight sc => do let M ← getHT sc; pure (.vec (M.ents.map Prod.snd))
  | .e2vSrc sc => do let M ← getH sc; pure (.idx (M.ents.map fun e => e.1.2))
  | .e2vDst sc => do let M ← getH sc; pure (.idx (M.ents.map fun e => e.1.1))
  | .e2vWeight sc => do let M ← getH sc; pure (.vec (M.ents.map Prod.snd))
  | .Lsym sc => do let M ← getLsym sc; pure (.mat M)
  | .Lrw sc => do let M ← getLrw sc; pure (.mat M)
  | .LHGNN sc => do let M ← getLHGNN sc; pure (.mat M)
  | .smoothHGNN sc X rate keep => do let Y ← smoothHGNN sc X rate keep; pure (.feat Y)
  | .v2eAggr sc X aggr w rate keep => do let Y ← v2eAggr sc X aggr w rate keep; pure (.feat Y)
  | .v2eUpd sc X ew => do let Y ← v2eUpd sc X ew; pure (.feat Y)
  | .v2e sc X aggr w ew rate keep => do let Y ← v2e sc X aggr w ew rate keep; pure (.feat Y)
  | .e2vAggr sc X aggr w rate keep => do let Y ← e2vAggr sc X aggr w rate keep; pure (.feat Y)
  | .e2vUpd sc X => do let Y ← e2vUpd sc X; pure (.feat Y)
  | .e2v sc X aggr w rate keep => do let Y ← e2v sc X aggr w rate keep; pure (.feat Y)
  | .v2v sc X a => do let Y ← v2v sc X a; pure (.feat Y)

/-- queries about the group `g` (the `_of_group` methods, e.g. hypergraph.py:526-538) -/
def QOf (g : String) : HQuery K → Prop
  | .numE sc | .e sc | .H sc | .HT sc | .We sc | .Dv sc | .DvN1 sc | .DvN12 sc | .De sc | .DeN1 sc
  | .degV sc | .degE sc | .nbrE _ sc | .nbrV _ sc | .v2eSrc sc | .v2eDst sc | .v2eWeight sc
  | .e2vSrc sc | .e2vDst sc | .e2vWeight sc | .Lsym sc | .Lrw sc | .LHGNN sc | .smoothHGNN sc _ _ _
  | .v2eAggr sc _ _ _ _ _ | .v2eUpd sc _ _ | .v2e sc _ _ _ _ _ _ | .e2vAggr sc _ _ _ _ _
  | .e2vUpd sc _ | .e2v sc _ _ _ _ _ | .v2v sc _ _ => sc = some g
  | _ => False

/-- a history: mutations and reads in any order
(a caller of the methods in hypergraph.py; no line of its own) -/
inductive Step (K : Type)
  | op (o : HOp K)
  | read (q : HQuery K)

/-- state after one step (calls that raise included: the state is what they left behind)
(a caller of the methods in hypergraph.py; no line of its own) -/
def step [PyReal K] (s : HSt K) : Step K → HSt K
  | .op o => (apply o s).2
  | .read q => (ask q s).2

/-- state after a history (a caller of the methods in hypergraph.py; no line of its own) -/
def run [PyReal K] (s : HSt K) (h : List (Step K)) : HSt K := h.foldl step s

/-- calls that do not combine an unknown `merge_op` with hyperedges to be merged
(`merge_op`, structure/base.py:471) -/
def GoodOp : HOp K → Prop
  | .addHyperedges _ _ op _ => op ≠ .other
  | _ => True

/-- a history in which every call with an unknown `merge_op` returns normally (it does unless some
hyperedge is already present) (`merge_op`, structure/base.py:471) -/
def GoodRun [PyReal K] : HSt K → List (Step K) → Prop
  | _, [] => True
  | s, .op o :: h => (GoodOp o ∨ (apply o s).1 = .ok ()) ∧ GoodRun (apply o s).2 h
  | s, .read q :: h => GoodRun (ask q s).2 h

/-- Objects obtainable through the public interface, with hyperedge arguments satisfying `P` (given
the number of vertices): any calls, including failing ones, except failing calls with an unknown `merge_op` (see `C19`, `C30` for
what these do).  The flag is `false` for objects that descend by `clone` from an object with vertex
weights other than the default ones; their `W_v` may be wrong.
(hypergraph.py:30-48, 143-177, 318-498, 501-1699) -/
inductive Built [PyReal K] (P : Nat → HArg → Prop) : Bool → HSt K → Prop
  | new {n : Int} {arg ew vw op s} (h : Hyper.new n arg ew vw op = .ok s)
      (hP : ∀ a, arg = some a → P n.toNat a) : Built P true s
  | op {b s} (o : HOp K) (hs : Built P b s) (hg : GoodOp o ∨ (apply o s).1 = .ok ())
      (hP : ∀ a ew op g, o = .addHyperedges a ew op g → P s.raw.numV a) : Built P b (apply o s).2
  | read {b s} (q : HQuery K) (hs : Built P b s) : Built P b (ask q s).2
  | clone {b s s'} (hs : Built P b s) (h : clone s = .ok s') : Built P false s'
  | cloneDefault {b s s'} (hs : Built P b s)
      (hw : s.raw.vWeight = some (List.replicate s.raw.numV 1)) (h : clone s = .ok s') :
      Built P b s'
  | state {b s s'} (hs : Built P b s) (h : fromStateDict (stateDict s) = .ok s') : Built P true s'
  | drop {b s s' rate uniform rnd} (hs : Built P b s)
      (h : dropHyperedges rate uniform rnd s = .ok s') : Built P true s'
  | dropGroup {b s s' g rate uniform rnd} (hs : Built P b s)
      (h : dropHyperedgesOfGroup g rate uniform rnd s = .ok s') : Built P true s'
  | sub {b s s' vl keepOne} (hs : Built P b s) (h : subgraph vl keepOne s = .ok s') :
      Built P true s'

/-- no restriction on the arguments (a condition on callers; no line of its own) -/
def AnyH (_ : Nat) (_ : HArg) : Prop := True

/-- the hyperedges written in an argument (e.g. hypergraph.py:320) -/
def argEdges : HArg → List (List Int)
  | .one _ [] => []
  | .one _ vs => [vs]
  | .many _ es => es.map PySeq.items
  | .other => []

/-- hyperedges list distinct vertices of `0..n-1` (the documented use)
(a condition on callers; no line of its own) -/
def Proper (n : Nat) (a : HArg) : Prop :=
  ∀ e ∈ argEdges a, e.Nodup ∧ ∀ v ∈ e, 0 ≤ v ∧ v < (n : Int)

end Hyper
end DHG
