import Verif.GraphApi
import Verif.DiGraph
import Verif.BiGraph
import Verif.HyperApi

/-!
# Objects, state dictionaries and files that may share dictionaries

In the other modules an object is a value.  Here the dictionaries `_raw_e_dict`, `_raw_selfloop_dict` and
`_raw_groups` are cells of a heap, an object holds references to them, and so does a state dictionary, which is
returned without copying.  The machine is the same for the four classes; what differs is collected in `Klass`.

Simplified: a dictionary of dictionaries (`_raw_groups`) is one cell; references to the inner dictionaries never
leave the object.  Cached values are part of the object.
-/

set_option linter.unusedSectionVars false
set_option autoImplicit false

namespace DHG
namespace Heap

/-- What the machine uses of a class.  `σ` are its objects as values, `A` and `B` the contents of its two
dictionaries, `D` the entries of its state dictionary that are not dictionaries.
(the classes Graph, DiGraph, BiGraph, Hypergraph of graph.py, directed_graph.py, bipartite_graph.py,
hypergraph.py) -/
structure Klass (σ A B D : Type) (Op Q Ans New Der : Type) where
  /-- contents of the dictionaries of an object -/
  cells : σ → A × B
  /-- replace the contents -/
  store : σ → A × B → σ
  store_cells : ∀ s, store s (cells s) = s
  /-- mutating calls -/
  call : Op → σ → Except Err Unit × σ
  /-- does the call bind the attributes to new dictionaries, instead of changing the old ones in place? -/
  rebinds : Op → Bool × Bool
  /-- reading calls -/
  read : Q → σ → Except Err Ans × σ
  /-- constructors -/
  make : New → Except Err σ
  /-- calls that return a new object of the class, made from fresh dictionaries -/
  derive : Der → σ → Except Err σ
  /-- `clone` -/
  clone : σ → Except Err σ
  /-- the entries of `state_dict` that are not dictionaries -/
  entries : σ → D
  /-- `from_state_dict` -/
  load : D → A × B → Except Err σ

variable {σ A B D Op Q Ans New Der : Type}

/-- an object: its other attributes and the references to its dictionaries
(`self._raw_e_dict`, `self._raw_selfloop_dict`, structure/base.py:89-90) -/
structure Obj (σ : Type) where
  self : σ
  a : Nat
  b : Nat

/-- the dictionaries, the objects and the state dictionaries of a program
(a program using the structures; the aliasing comes from `state_dict`, e.g. graph.py:48-56) -/
structure World (σ A B D : Type) where
  ha : Nat → A
  hb : Nat → B
  next : Nat
  objs : List (Obj σ)
  dicts : List (D × Nat × Nat)

/-- commands of a program; `i` numbers the objects, `j` the state dictionaries, in the order of creation
(a caller of the methods in graph.py and the other structure files; no line of its own) -/
inductive Cmd (Op Q New Der : Type)
  | make (x : New)
  | call (i : Nat) (o : Op)
  | read (i : Nat) (q : Q)
  | clone (i : Nat)
  | derive (i : Nat) (d : Der)
  | stateDict (i : Nat)
  | fromStateDict (j : Nat)

/-- the beginning of a program
(a caller of the methods in graph.py and the other structure files; no line of its own) -/
def World.empty [Inhabited A] [Inhabited B] : World σ A B D :=
  { ha := fun _ => default, hb := fun _ => default, next := 0, objs := [], dicts := [] }

/-- an object read through its references (e.g. `self._raw_e_dict`, structure/base.py:283) -/
def Obj.view (C : Klass σ A B D Op Q Ans New Der) (w : World σ A B D) (o : Obj σ) : σ := C.store o.self (w.ha o.a, w.hb o.b)

/-- the `i`-th object read through its references
(e.g. `self._raw_e_dict`, structure/base.py:283) -/
def view (C : Klass σ A B D Op Q Ans New Der) (w : World σ A B D) (i : Nat) : Option σ := (w.objs[i]?).map (·.view C w)

/-- the contents of the `j`-th state dictionary (e.g. graph.py:48-56) -/
def dictView (w : World σ A B D) (j : Nat) : Option (D × A × B) := (w.dicts[j]?).map fun d => (d.1, w.ha d.2.1, w.hb d.2.2)

/-- a new object with dictionaries of its own: `clone` (graph.py:145-154, directed_graph.py:138-147,
bipartite_graph.py:162-169, hypergraph.py:148-155), `from_state_dict` (graph.py:168-177,
directed_graph.py:160-169, bipartite_graph.py:210-218, hypergraph.py:168-176) and the constructors (base.py:48-49,
423-431) either copy dictionaries with `deepcopy` or begin with empty ones -/
def alloc (C : Klass σ A B D Op Q Ans New Der) (w : World σ A B D) : Except Err σ → World σ A B D
  | .error _ => w
  | .ok s =>
    { w with
      ha := Function.update w.ha w.next (C.cells s).1
      hb := Function.update w.hb w.next (C.cells s).2
      next := w.next + 1
      objs := w.objs ++ [⟨s, w.next, w.next⟩] }

/-- the object after a call: dictionaries changed in place keep their references, dictionaries bound anew
get fresh ones (e.g. structure/base.py:89-90, 213, 218) -/
def write (C : Klass σ A B D Op Q Ans New Der) (w : World σ A B D) (i : Nat) (o : Obj σ) (s : σ) (re : Bool × Bool) : World σ A B D :=
  let a := if re.1 then w.next else o.a
  let b := if re.2 then w.next else o.b
  { w with
    ha := Function.update w.ha a (C.cells s).1
    hb := Function.update w.hb b (C.cells s).2
    next := w.next + 1
    objs := w.objs.set i ⟨s, a, b⟩ }

/-- execute one command; commands naming objects that do not exist do nothing
(a caller of the methods in graph.py and the other structure files; no line of its own) -/
def exec (C : Klass σ A B D Op Q Ans New Der) (w : World σ A B D) : Cmd Op Q New Der → World σ A B D
  | .make x => alloc C w (C.make x)
  | .call i o => match w.objs[i]? with
    | none => w
    | some x => write C w i x (C.call o (x.view C w)).2 (C.rebinds o)
  | .read i q => match w.objs[i]? with
    | none => w
    | some x => write C w i x (C.read q (x.view C w)).2 (false, false)
  | .clone i => match w.objs[i]? with
    | none => w
    | some x => alloc C w (C.clone (x.view C w))
  | .derive i d => match w.objs[i]? with
    | none => w
    | some x => alloc C w (C.derive d (x.view C w))
  | .stateDict i => match w.objs[i]? with
    | none => w
    -- the dictionaries themselves, not copies (graph.py:48-56, directed_graph.py:47-55,
    -- bipartite_graph.py:48-55, hypergraph.py:55-59)
    | some x => { w with dicts := w.dicts ++ [(C.entries (x.view C w), x.a, x.b)] }
  | .fromStateDict j => match w.dicts[j]? with
    | none => w
    | some d => alloc C w (C.load d.1 (w.ha d.2.1, w.hb d.2.2))

/-- execute a program
(a caller of the methods in graph.py and the other structure files; no line of its own) -/
def execAll (C : Klass σ A B D Op Q Ans New Der) (w : World σ A B D) (cs : List (Cmd Op Q New Der)) : World σ A B D :=
  cs.foldl (exec C) w

/-- the user assigns to the two dictionaries found in the `j`-th state dictionary, in place
(a caller writing to what `state_dict` returned, graph.py:48-56) -/
def edit (w : World σ A B D) (j : Nat) (c : A × B) : World σ A B D :=
  match w.dicts[j]? with
  | none => w
  | some d => { w with ha := Function.update w.ha d.2.1 c.1, hb := Function.update w.hb d.2.2 c.2 }

/-- the answer of a reading call on the `i`-th object
(a caller of the reading methods, e.g. graph.py:381-704) -/
def answer (C : Klass σ A B D Op Q Ans New Der) (w : World σ A B D) (i : Nat) (q : Q) : Option (Except Err Ans) :=
  (view C w i).map fun s => (C.read q s).1

variable {K : Type} [Field K] [LinearOrder K] [PyReal K]

/-- replace the two dictionaries of a graph (structure/base.py:89-90) -/
def storeG {κ ν : Type} (s : Cached (GRaw K) κ ν) (c : Dict (Int × Int) K × Dict Int K) : Cached (GRaw K) κ ν :=
  { s with raw := { s.raw with eDict := c.1, loops := c.2 } }

/-- constructor calls of `Graph` and `DiGraph` (graph.py:29-40, directed_graph.py:28-39) -/
structure NewG (K : Type) where
  numV : Int
  arg : Option (EArg K)
  extra : Bool
  op : MergeOp

/-- arguments of `drop_edges` (graph.py:356) -/
structure Drop (K : Type) where
  rate : K
  uniform : Bool
  rnd : Nat → K

/-- `Graph`: all mutating calls change the dictionaries in place (base.py:210-218, 236-239, 257), except
`clear`, which binds new ones (base.py:89-90) -/
def graph : Klass (GSt K) (Dict (Int × Int) K) (Dict Int K) (Nat × Bool) (GOp K) (GQuery K) (GAns K) (NewG K) (Drop K) where
  cells s := (s.raw.eDict, s.raw.loops)
  store := storeG
  store_cells _ := rfl
  call := Graph.apply
  rebinds
    | .clear => (true, true)
    | _ => (false, false)
  read := Graph.ask
  make x := Graph.new x.numV x.arg x.extra x.op
  derive d := Graph.dropEdges d.rate d.uniform d.rnd
  clone s := .ok (Graph.clone s)
  entries s := (s.raw.numV, s.raw.extra)
  load d c := Graph.fromStateDict { numV := d.1, extra := d.2, eDict := c.1, loops := c.2 }

/-- `DiGraph`: as for `Graph`; `reverse_direction` binds a new `_raw_e_dict` (directed_graph.py:300) -/
def digraph : Klass (DSt K) (Dict (Int × Int) K) (Dict Int K) (Nat × Bool) (DOp K) (DQuery K) (GAns K) (NewG K) (Drop K) where
  cells s := (s.raw.eDict, s.raw.loops)
  store := storeG
  store_cells _ := rfl
  call := DiGraph.apply
  rebinds
    | .clear => (true, true)
    | .reverseDirection => (true, false)
    | _ => (false, false)
  read := DiGraph.ask
  make x := DiGraph.new x.numV x.arg x.extra x.op
  derive d := DiGraph.dropEdges d.rate d.uniform d.rnd
  clone s := .ok (DiGraph.clone s)
  entries s := (s.raw.numV, s.raw.extra)
  load d c := DiGraph.fromStateDict { numV := d.1, extra := d.2, eDict := c.1, loops := c.2 }

/-- constructor calls of `BiGraph` (bipartite_graph.py:28-40) -/
structure NewB (K : Type) where
  numU : Nat
  numV : Int
  arg : Option (EArg K)
  op : MergeOp

/-- calls of `BiGraph` that return a new one: `drop_edges` (bipartite_graph.py:345-363) and `switch_uv`
(336-343), which builds its dictionary by a comprehension -/
inductive DerB (K : Type)
  | drop (d : Drop K)
  | switch

/-- `BiGraph`: as for `Graph` (bipartite_graph.py:319-322); the state dictionary has no self loops -/
def bigraph : Klass (BSt K) (Dict (Int × Int) K) (Dict Int K) (Nat × Nat) (BOp K) (BQuery K) (GAns K) (NewB K) (DerB K) where
  cells s := (s.raw.eDict, s.raw.loops)
  store := storeG
  store_cells _ := rfl
  call := BiGraph.apply
  rebinds
    | .clear => (true, true)
    | _ => (false, false)
  read := BiGraph.ask
  make x := BiGraph.new x.numU x.numV x.arg x.op
  derive
    | .drop d => BiGraph.dropEdges d.rate d.uniform d.rnd
    | .switch => BiGraph.switchUv
  clone := BiGraph.clone
  entries s := (s.raw.numU, s.raw.numV)
  load d c := BiGraph.fromStateDict { numU := d.1, numV := d.2, eDict := c.1 }

/-- constructor calls of `Hypergraph` (hypergraph.py:30-48) -/
structure NewH (K : Type) where
  numV : Int
  arg : Option HArg
  ew : HW K
  vw : Option (List K)
  op : MergeOp

/-- calls of `Hypergraph` that return a new one (hypergraph.py:451-497, base.py:736-772); they end with
`from_state_dict`, which copies -/
inductive DerH (K : Type)
  | drop (d : Drop K)
  | dropGroup (g : String) (d : Drop K)
  | sub (vs : List Int) (keepOne : Bool)

/-- `Hypergraph`: the groups are changed in place (base.py:656-692, hypergraph.py:435-448), except by `clear`
(base.py:429-431); the second cell is not used -/
def hypergraph : Klass (HSt K) (Dict String (HGroup K)) Unit Nat (HOp K) (HQuery K) (HAns K) (NewH K) (DerH K) where
  cells s := (s.raw.groups, ())
  store s c := { s with raw := { s.raw with groups := c.1 } }
  store_cells _ := rfl
  call := Hyper.apply
  rebinds
    | .clear => (true, true)
    | _ => (false, false)
  read := Hyper.ask
  make x := Hyper.new x.numV x.arg x.ew x.vw x.op
  derive
    | .drop d => Hyper.dropHyperedges d.rate d.uniform d.rnd
    | .dropGroup g d => Hyper.dropHyperedgesOfGroup g d.rate d.uniform d.rnd
    | .sub vs k => Hyper.subgraph vs k
  clone := Hyper.clone
  entries s := s.raw.numV
  load d c := Hyper.fromStateDict { numV := d, groups := c.1 }

end Heap

/-! ### Files -/

namespace Files

variable {K : Type} [Field K] [LinearOrder K]

/-- what `pickle` writes to a file: the value of `"class"` and that of `"state_dict"`.  `pickle.load` is
assumed to return what `pickle.dump` was given, as fresh objects. (e.g. graph.py:58-71) -/
inductive Saved (K : Type)
  | graph (d : Graph.StateDict K)
  | digraph (d : DiGraph.StateDict K)
  | bigraph (d : BiGraph.StateDict K)
  | hypergraph (d : Hyper.StateDict K)

/-- the value of `"class"` written by `save` (graph.py:66, directed_graph.py:65, bipartite_graph.py:66,
hypergraph.py:69) -/
def Saved.cls : Saved K → String
  | .graph _ => "Graph"
  | .digraph _ => "DiGraph"
  | .bigraph _ => "BiGraph"
  | .hypergraph _ => "Hypergraph"

/-- files by path (e.g. graph.py:70) -/
abbrev Disk (K : Type) := Dict String (Saved K)

/-- structures of any class (structure/base.py:23-26) -/
inductive Structure (K : Type)
  | graph (g : GSt K)
  | digraph (g : DSt K)
  | bigraph (g : BSt K)
  | hypergraph (g : HSt K)

/-- what `save` of the class of a structure writes
(graph.py:58-71, directed_graph.py:57-67, bipartite_graph.py:57-70, hypergraph.py:61-74) -/
def saved : Structure K → Saved K
  | .graph g => .graph (Graph.stateDict g)
  | .digraph g => .digraph (DiGraph.stateDict g)
  | .bigraph g => .bigraph (BiGraph.stateDict g)
  | .hypergraph g => .hypergraph (Hyper.stateDict g)

/-- `save` (graph.py:58-71, directed_graph.py:57-69, bipartite_graph.py:57-71, hypergraph.py:61-74); `dir` tells
whether the directory of the path exists -/
def save (s : Structure K) (path : String) (dir : Bool) : PyM (Disk K) Unit := do
  PyM.assert dir
  PyM.modify fun d => d.set path (saved s)

/-- `Graph.load` (graph.py:73-85) -/
def loadGraph (path : String) (disk : Disk K) : Except Err (GSt K) :=
  match disk.get? path with
  | none => .error .assertion
  | some f => match f with
    | .graph d => Graph.fromStateDict d
    | _ => .error .assertion

/-- `DiGraph.load` (directed_graph.py:69-81) -/
def loadDiGraph (path : String) (disk : Disk K) : Except Err (DSt K) :=
  match disk.get? path with
  | none => .error .assertion
  | some f => match f with
    | .digraph d => DiGraph.fromStateDict d
    | _ => .error .assertion

/-- `BiGraph.load` (bipartite_graph.py:73-85) -/
def loadBiGraph (path : String) (disk : Disk K) : Except Err (BSt K) :=
  match disk.get? path with
  | none => .error .assertion
  | some f => match f with
    | .bigraph d => BiGraph.fromStateDict d
    | _ => .error .assertion

/-- `Hypergraph.load` (hypergraph.py:76-88) -/
def loadHypergraph (path : String) (disk : Disk K) : Except Err (HSt K) :=
  match disk.get? path with
  | none => .error .assertion
  | some f => match f with
    | .hypergraph d => Hyper.fromStateDict d
    | _ => .error .assertion

/-- `load_structure` (base.py:10-26) -/
def loadStructure (path : String) (disk : Disk K) : Except Err (Structure K) :=
  match disk.get? path with
  | none => .error .assertion
  | some f => match f with
    | .graph d => (Graph.fromStateDict d).map .graph
    | .digraph d => (DiGraph.fromStateDict d).map .digraph
    | .bigraph d => (BiGraph.fromStateDict d).map .bigraph
    | .hypergraph d => (Hyper.fromStateDict d).map .hypergraph

end Files
end DHG
