import Verif.Heap
import Verif.Convert

/-!
# Lists of hyperedges that the caller keeps and passes again

`_format_e_list` overwrites the elements of the list it is given (structure/base.py:502-503).  Here the arguments
are objects in a memory, the calls are given references to them, and the loops write to the memory.  The second half
has the calls that are given the list which another object keeps in its cache (`Hypergraph(n, g.e[0])`).

Simplified: the sequences inside a list are values, because no call writes to them.
-/

set_option linter.unusedSectionVars false
set_option autoImplicit false

namespace DHG
namespace Args

variable {K : Type} [Field K] [LinearOrder K]

/-- the objects that were made by the caller, by reference (a caller of hypergraph.py; no line of its own) -/
abbrev Mem := Nat → HArg

/-- `e_list[_idx] = tuple(sorted(e_list[_idx]))` for `_idx` in `i, ..., i + n - 1` (structure/base.py:502-503) -/
def overwrite (es : List PySeq) (i : Nat) : Nat → List PySeq
  | 0 => es
  | n + 1 => overwrite (es.set i ⟨true, sortV (es.getD i ⟨true, []⟩).items⟩) (i + 1) n

/-- `_format_e_list` (structure/base.py:488-504): the object number `r` is the argument.  A tuple is copied into a new
list first (line 497). -/
def format (r : Nat) : PyM Mem (List (List Int)) := fun m =>
  match m r with
  | .one _ (v :: vs) => (.ok [sortV (v :: vs)], m)
  | .one _ [] => (.ok [], m)
  | .many true es => (.ok ((overwrite es 0 es.length).map PySeq.items), m)
  | .many false es =>
    (.ok ((overwrite es 0 es.length).map PySeq.items),
      Function.update m r (.many false (overwrite es 0 es.length)))
  | .other => (.error .type, m)

/-- `Hypergraph.add_hyperedges` (hypergraph.py:319-350), `e_list` is the object number `r` -/
def addHyperedges (r : Nat) (ew : HW K) (op : MergeOp) (g : String) : PyM (HSt K × Mem) Unit := do
  let es ← PyM.snd (format r)
  let ws ← PyM.lift (ew.expand es.length)
  PyM.assert (decide (es.length = ws.length))
  PyM.fst (PyM.forM (es.zip ws) fun p => Hyper.addHyperedge p.1 p.2 op g)
  PyM.fst (Hyper.clearCacheH (some g))

/-- `Hypergraph.remove_hyperedges` (hypergraph.py:417-440), `e_list` is the object number `r` -/
def removeHyperedges (r : Nat) (g : Option String) : PyM (HSt K × Mem) Unit := do
  let x ← PyM.fst (readRaw id)
  PyM.assert (Hyper.knownGroup g x)
  let es ← PyM.snd (format r)
  PyM.fst (PyM.forM es (Hyper.removeOne g))
  PyM.fst (Hyper.clearCacheH g)

/-- `Hypergraph.__init__` (hypergraph.py:30-48), `e_list` is the object number `r`, or `None` -/
def new (numV : Int) (r : Option Nat) (ew : HW K) (vw : Option (List K)) (op : MergeOp) : PyM Mem (HSt K) := fun m =>
  match Hyper.initRaw numV vw with
  | .error e => (.error e, m)
  | .ok x =>
    match r with
    | none => (.ok { raw := x, cache := [] }, m)
    | some r =>
      match addHyperedges r ew op "main" ({ raw := x, cache := [] }, m) with
      | (.ok _, (s, m')) => (.ok s, m')
      | (.error e, (_, m')) => (.error e, m')

/-! ## programs -/

/-- what the caller does to a list (a caller of hypergraph.py; no line of its own) -/
inductive Edit (α : Type)
  | append (x : α)
  | insert (j : Nat) (x : α)
  | set (j : Nat) (x : α)
  | del (j : Nat)
  | reverse
  | clear

/-- (a caller of hypergraph.py; no line of its own) -/
def Edit.run {α : Type} : Edit α → List α → List α
  | .append x, l => l ++ [x]
  | .insert j x, l => l.take j ++ x :: l.drop j
  | .set j x, l => l.set j x
  | .del j, l => l.eraseIdx j
  | .reverse, l => l.reverse
  | .clear, _ => []

/-- the caller changes a list of hyperedges; tuples cannot be changed.  Simplified: the caller does not put a
sequence into a list of vertices (a caller of hypergraph.py; no line of its own) -/
def editSeqs (d : Edit PySeq) : HArg → HArg
  | .many false es => .many false (d.run es)
  | a => a

/-- the caller changes a list of vertices; tuples cannot be changed.  Simplified: the caller does not put a vertex
into a list of sequences (a caller of hypergraph.py; no line of its own) -/
def editVerts (d : Edit Int) : HArg → HArg
  | .one false vs => .one false (d.run vs)
  | a => a

/-- a kept object, or a copy made for the call (`e_list` or `copy.copy(e_list)`)
(a caller of hypergraph.py; no line of its own) -/
structure Pass where
  obj : Nat
  copied : Bool

/-- commands of a program.  Arguments and hypergraphs are numbered in the order of the commands that make them
(a caller of hypergraph.py; no line of its own) -/
inductive Cmd (K : Type)
  /-- an object made by the caller -/
  | arg (a : HArg)
  | make (numV : Int) (a : Option Pass) (ew : HW K) (vw : Option (List K)) (op : MergeOp)
  | add (i : Nat) (a : Pass) (ew : HW K) (op : MergeOp) (g : String)
  | remove (i : Nat) (a : Pass) (g : Option String)
  /-- any other call that changes hypergraph number `i`, with an argument that is not kept -/
  | call (i : Nat) (o : HOp K)
  | read (i : Nat) (q : HQuery K)
  | clone (i : Nat)
  | derive (i : Nat) (d : Heap.DerH K)
  | editSeqs (h : Nat) (d : Edit PySeq)
  | editVerts (h : Nat) (d : Edit Int)

/-- the arguments and hypergraphs of a program; `none` stands for a constructor that raised
(a caller of hypergraph.py; no line of its own) -/
structure World (K : Type) where
  mem : Mem
  args : Nat
  objs : List (Option (HSt K))

/-- the beginning of a program (a caller of hypergraph.py; no line of its own) -/
def World.empty : World K := { mem := fun _ => .other, args := 0, objs := [] }

/-- run a call that is given the object of `p`, or a copy of it, which only this call knows
(a caller of hypergraph.py; no line of its own) -/
def passing {α : Type} (w : World K) (p : Pass) (f : Nat → PyM (HSt K × Mem) α) (s : HSt K) : HSt K × Mem :=
  if p.copied then ((f w.args (s, Function.update w.mem w.args (w.mem p.obj))).2.1, w.mem)
  else (f p.obj (s, w.mem)).2

/-- a call on hypergraph number `i` (a caller of hypergraph.py; no line of its own) -/
def on (w : World K) (i : Nat) (f : HSt K → HSt K × Mem) : World K :=
  match w.objs[i]?.join with
  | none => w
  | some s => { w with mem := (f s).2, objs := w.objs.set i (some (f s).1) }

/-- a new hypergraph, if no exception is raised (a caller of hypergraph.py; no line of its own) -/
def push (w : World K) (m : Mem) (x : Except Err (HSt K)) : World K :=
  { w with mem := m, objs := w.objs ++ [x.toOption] }

/-- a new hypergraph made of hypergraph number `i` (a caller of hypergraph.py; no line of its own) -/
def pushOf (w : World K) (i : Nat) (f : HSt K → Except Err (HSt K)) : World K :=
  match w.objs[i]?.join with
  | none => { w with objs := w.objs ++ [none] }
  | some s => push w w.mem (f s)

/-- calls that return a new hypergraph (hypergraph.py:451-497, structure/base.py:736-772) -/
def derived : Heap.DerH K → HSt K → Except Err (HSt K)
  | .drop d => Hyper.dropHyperedges d.rate d.uniform d.rnd
  | .dropGroup g d => Hyper.dropHyperedgesOfGroup g d.rate d.uniform d.rnd
  | .sub vs k => Hyper.subgraph vs k

/-- execute one command; calls on hypergraphs and arguments that do not exist do nothing
(a caller of hypergraph.py; no line of its own) -/
def exec [PyReal K] (w : World K) : Cmd K → World K
  | .arg a => { w with mem := Function.update w.mem w.args a, args := w.args + 1 }
  | .make n none ew vw op => push w w.mem (new n none ew vw op w.mem).1
  | .make n (some p) ew vw op =>
    if w.args ≤ p.obj then w
    else if p.copied then
      push w w.mem (new n (some w.args) ew vw op (Function.update w.mem w.args (w.mem p.obj))).1
    else push w (new n (some p.obj) ew vw op w.mem).2 (new n (some p.obj) ew vw op w.mem).1
  | .add i p ew op g =>
    if w.args ≤ p.obj then w else on w i (passing w p fun r => addHyperedges r ew op g)
  | .remove i p g =>
    if w.args ≤ p.obj then w else on w i (passing w p fun r => removeHyperedges r g)
  | .call i o => on w i fun s => ((Hyper.apply o s).2, w.mem)
  | .read i q => on w i fun s => ((Hyper.ask q s).2, w.mem)
  | .clone i => pushOf w i Hyper.clone
  | .derive i d => pushOf w i (derived d)
  | .editSeqs h d => if w.args ≤ h then w else { w with mem := Function.update w.mem h (editSeqs d (w.mem h)) }
  | .editVerts h d => if w.args ≤ h then w else { w with mem := Function.update w.mem h (editVerts d (w.mem h)) }

/-- execute a program (a caller of hypergraph.py; no line of its own) -/
def execAll [PyReal K] (w : World K) (p : List (Cmd K)) : World K := p.foldl exec w

/-- the answer of a reading call on the `i`-th hypergraph (a caller of the reading methods, hypergraph.py:501-1699) -/
def answer [PyReal K] (w : World K) (i : Nat) (q : HQuery K) : Option (Except Err (HAns K)) :=
  (w.objs[i]?.join).map fun s => (Hyper.ask q s).1

/-! ## lists that are kept in a cache -/

/-- a list of pairs as an object (structure/base.py:283-285) -/
def ofPairs (es : List (Int × Int)) : HArg := .many false (es.map fun p => ⟨true, [p.1, p.2]⟩)

/-- the pairs of such an object (structure/base.py:283-285) -/
def toPairs : HArg → List (Int × Int)
  | .many _ es => es.map fun s => (s.items.getD 0 0, s.items.getD 1 0)
  | _ => []

/-- the hyperedges of a hypergraph as an object (hypergraph.py:513-537) -/
def ofTuples (es : List (List Int)) : HArg := .many false (es.map fun e => ⟨true, e⟩)

/-- the hyperedges of such an object (hypergraph.py:513-537) -/
def toTuples : HArg → List (List Int)
  | .many _ es => es.map PySeq.items
  | _ => []

/-- `Hypergraph(numV, l, e_weight, v_weight, merge_op)` where `l` is an object that is at the same time kept in
another place; the second component is `l` afterwards (hypergraph.py:30-48) -/
def newFrom (numV : Int) (l : HArg) (ew : HW K) (vw : Option (List K)) (op : MergeOp) : Except Err (HSt K) × HArg :=
  ((new numV (some 0) ew vw op fun _ => l).1, (new numV (some 0) ew vw op fun _ => l).2 0)

/-- `Hypergraph(numV, graph.e[0], ...)` for a `Graph`: the list is the one in `graph.cache["e"]`
(structure/base.py:279-291) -/
def ofGraph (numV : Int) (ew : HW K) (vw : Option (List K)) (op : MergeOp) : PyM (GSt K) (HSt K) := do
  let p ← Graph.getE
  PyM.modify fun s => { s with
    cache := s.cache.set .e (.edges (toPairs (newFrom numV (ofPairs p.1) ew vw op).2) p.2) }
  PyM.lift (newFrom numV (ofPairs p.1) ew vw op).1

/-- `Hypergraph(numV, graph.e[0], ...)` for a `DiGraph` or a `BiGraph`: the list is the one in `graph.cache["e"]`
(structure/base.py:279-291) -/
def ofOrdered (numV : Int) (ew : HW K) (vw : Option (List K)) (op : MergeOp) : PyM (OSt K) (HSt K) := do
  let p ← Ord.getE
  PyM.modify fun s => { s with
    cache := s.cache.set .e (.edges (toPairs (newFrom numV (ofPairs p.1) ew vw op).2) p.2) }
  PyM.lift (newFrom numV (ofPairs p.1) ew vw op).1

/-- `Hypergraph(numV, hypergraph.e[0], ...)` and `Hypergraph(numV, hypergraph.e_of_group(g)[0], ...)`: the list is
the one in the cache (hypergraph.py:513-537) -/
def ofHyper (sc : Option String) (numV : Int) (ew : HW K) (vw : Option (List K)) (op : MergeOp) :
    PyM (HSt K) (HSt K) := do
  let p ← Hyper.getE sc
  PyM.modify fun s => { s with
    cache := s.cache.set (sc, .e) (.edges (toTuples (newFrom numV (ofTuples p.1) ew vw op).2) p.2) }
  PyM.lift (newFrom numV (ofTuples p.1) ew vw op).1

end Args
end DHG
