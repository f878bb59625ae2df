import Verif.Heap

/-!
# Hypergraphs that share their list of vertex weights with the caller

`Hypergraph(num_v, ..., v_weight=l)` keeps the list `l` itself (hypergraph.py:43-45) and the property `v_weight`
returns it (507-511).  Here the lists of vertex weights are cells of a heap.  The other data and the cached results
are not shared in this machine (`Heap.lean` and `Live.lean` are about these).

Simplified: the caller changes a list by assignments `l[j] = x` only, so that its length stays the same.
-/

set_option linter.unusedSectionVars false
set_option autoImplicit false

namespace DHG
namespace Shared

variable {K : Type} [Field K] [LinearOrder K]

/-- a hypergraph: `ref` is its list of vertex weights, `none` after `clear` (structure/base.py:430); the field
`vWeight` of `base` is not used (hypergraph.py:41-45) -/
structure Obj (K : Type) where
  base : HSt K
  ref : Option Nat

/-- a program's weight lists, hypergraphs and kept lists; an entry `none` stands for a call that raised, or a
property that returned `None` (a caller of hypergraph.py; no line of its own) -/
structure World (K : Type) where
  heap : Nat → List K
  next : Nat
  objs : List (Option (Obj K))
  held : List (Option Nat)

/-- commands of a program; hypergraphs and kept lists are numbered in the order of the commands that ask for them
(a caller of hypergraph.py; no line of its own) -/
inductive Cmd (K : Type)
  /-- a list made by the caller -/
  | list (l : List K)
  /-- `Hypergraph(numV, arg, ew, v_weight=l, merge_op=op)` with the kept list `l` number `h` -/
  | make (numV : Int) (arg : Option HArg) (ew : HW K) (op : MergeOp) (h : Option Nat)
  | call (i : Nat) (o : HOp K)
  | read (i : Nat) (q : HQuery K)
  | clone (i : Nat)
  | derive (i : Nat) (d : Heap.DerH K)
  /-- keep the list returned by `v_weight` -/
  | weights (i : Nat)
  /-- `l[j] = x` for the kept list number `h` -/
  | set (h j : Nat) (x : K)

/-- the beginning of a program (a caller of hypergraph.py; no line of its own) -/
def World.empty : World K := { heap := fun _ => [], next := 0, objs := [], held := [] }

/-- a hypergraph with the present contents of its weight list (hypergraph.py:511) -/
def Obj.view (h : Nat → List K) (o : Obj K) : HSt K :=
  { o.base with raw := { o.base.raw with vWeight := o.ref.map h } }

/-- the `i`-th hypergraph with the present contents of its weight list (hypergraph.py:511) -/
def view (w : World K) (i : Nat) : Option (HSt K) := (w.objs[i]?.join).map (·.view w.heap)

/-- a new hypergraph with a list of its own (hypergraph.py:42, structure/base.py:770) -/
def fresh (w : World K) : Except Err (HSt K) → World K
  | .error _ => { w with next := w.next + 1, objs := w.objs ++ [none] }
  | .ok s => match s.raw.vWeight with
    | none => { w with next := w.next + 1, objs := w.objs ++ [some ⟨s, none⟩] }
    | some l => { w with
        heap := Function.update w.heap w.next l
        next := w.next + 1
        objs := w.objs ++ [some ⟨s, some w.next⟩] }

/-- a new hypergraph with the list it was given (hypergraph.py:45) -/
def given (w : World K) (r : Nat) : Except Err (HSt K) → World K
  | .error _ => { w with next := w.next + 1, objs := w.objs ++ [none] }
  | .ok s => { w with next := w.next + 1, objs := w.objs ++ [some ⟨s, some r⟩] }

/-- the `i`-th hypergraph after a call: it keeps its list, unless the call has set the weights to `None`
(structure/base.py:430) -/
def write (w : World K) (i : Nat) (o : Obj K) (s : HSt K) : World K :=
  { w with
    next := w.next + 1
    objs := w.objs.set i (some ⟨s, match s.raw.vWeight with
      | none => none
      | some _ => o.ref⟩) }

/-- nothing happens (a caller of hypergraph.py; no line of its own) -/
def skip (w : World K) : World K := { w with next := w.next + 1 }

/-- calls that return a new hypergraph (hypergraph.py:451-497, structure/base.py:736-772) -/
def derived : Heap.DerH K → HSt K → Except Err (HSt K)
  | .drop d => Hyper.dropHyperedges d.rate d.uniform d.rnd
  | .dropGroup g d => Hyper.dropHyperedgesOfGroup g d.rate d.uniform d.rnd
  | .sub vs k => Hyper.subgraph vs k

/-- execute one command; calls on hypergraphs that do not exist do nothing
(a caller of hypergraph.py; no line of its own) -/
def exec [PyReal K] (w : World K) : Cmd K → World K
  | .list l => { w with heap := Function.update w.heap w.next l, next := w.next + 1, held := w.held ++ [some w.next] }
  | .make n arg ew op none => fresh w (Hyper.new n arg ew none op)
  | .make n arg ew op (some h) => match w.held[h]?.join with
    | none => { w with next := w.next + 1, objs := w.objs ++ [none] }
    | some r => given w r (Hyper.new n arg ew (some (w.heap r)) op)
  | .call i o => match w.objs[i]?.join with
    | none => skip w
    | some x => write w i x (Hyper.apply o (x.view w.heap)).2
  | .read i q => match w.objs[i]?.join with
    | none => skip w
    | some x => write w i x (Hyper.ask q (x.view w.heap)).2
  | .clone i => match w.objs[i]?.join with
    | none => { w with next := w.next + 1, objs := w.objs ++ [none] }
    | some x => fresh w (Hyper.clone (x.view w.heap))
  | .derive i d => match w.objs[i]?.join with
    | none => { w with next := w.next + 1, objs := w.objs ++ [none] }
    | some x => fresh w (derived d (x.view w.heap))
  | .weights i => { w with next := w.next + 1, held := w.held ++ [w.objs[i]?.join.bind (·.ref)] }
  | .set h j x => match w.held[h]?.join with
    | none => w
    | some r => { w with heap := Function.update w.heap r ((w.heap r).set j x) }

/-- execute a program (a caller of hypergraph.py; no line of its own) -/
def execAll [PyReal K] (w : World K) (p : List (Cmd K)) : World K := p.foldl exec w

/-- the answer of a reading call on the `i`-th hypergraph (a caller of the reading methods, hypergraph.py:501-1699) -/
def answer [PyReal K] (w : World K) (i : Nat) (q : HQuery K) : Option (Except Err (HAns K)) :=
  (view w i).map fun s => (Hyper.ask q s).1

end Shared
end DHG
