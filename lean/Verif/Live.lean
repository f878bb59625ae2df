import Verif.Heap

/-!
# Returned lists and matrices that the caller changes in place

Every cached property returns the object stored in the cache (`return self.cache["e"]`, structure/base.py:291).
Here the cached lists and matrices are cells of a heap: an object holds its raw attributes and, per cache key, a
reference; the caller may keep such a reference and write to it.  The dictionaries of the structures are not shared
in this machine (`Heap.lean` is about these); the calls are those of `Heap.Klass`.

Simplified: an edit changes the entry of one key.  Two keys of one structure may hold the same matrix (`H` and
`H_v2e` on one device, hypergraph.py:775); entries of different structures are never shared.
-/

set_option linter.unusedSectionVars false
set_option autoImplicit false

namespace DHG
namespace Live

variable {R κ V A B D Op Q Ans New Der : Type} [DecidableEq κ]

/-- an object: its raw attributes and the references stored in its cache
(`self.cache`, structure/base.py:97; `self.cache`, `self.group_cache`, 434-438) -/
structure Obj (R κ : Type) where
  raw : R
  refs : Dict κ Nat

/-- a program's lists and matrices, objects and kept results; an entry `none` stands for a call that raised
(a caller of the methods in graph.py and the other structure files; no line of its own) -/
structure World (R κ V : Type) where
  heap : Nat → V
  next : Nat
  objs : List (Option (Obj R κ))
  held : List (Option Nat)

/-- commands of a program; objects and kept results are numbered in the order of the commands that ask for them
(a caller of the methods in graph.py and the other structure files; no line of its own) -/
inductive Cmd (κ V Op Q New Der : Type)
  | make (x : New)
  | call (i : Nat) (o : Op)
  | read (i : Nat) (q : Q)
  | clone (i : Nat)
  | derive (i : Nat) (d : Der)
  | keep (i : Nat) (k : κ)
  | edit (h : Nat) (v : V)

/-- the beginning of a program
(a caller of the methods in graph.py and the other structure files; no line of its own) -/
def World.empty [Inhabited V] : World R κ V := { heap := fun _ => default, next := 0, objs := [], held := [] }

/-- an object read through its references (`self.cache["e"]`, structure/base.py:291) -/
def Obj.view (h : Nat → V) (o : Obj R κ) : Cached R κ V :=
  { raw := o.raw, cache := o.refs.map fun p => (p.1, h p.2) }

/-- the `i`-th object read through its references (`self.cache["e"]`, structure/base.py:291) -/
def view (w : World R κ V) (i : Nat) : Option (Cached R κ V) := (w.objs[i]?.join).map (·.view w.heap)

/-- References for the cache `c`: keys that were cached before keep their object, the others get fresh ones.
A key is only assigned when it is missing (`if self.cache.get("e", None) is None`, structure/base.py:283) -/
def place (old : Dict κ Nat) : (Nat → V) → Nat → Dict κ V → Dict κ Nat × (Nat → V) × Nat
  | h, n, [] => ([], h, n)
  | h, n, (k, v) :: c =>
    match old.get? k with
    | some r => let p := place old h n c; ((k, r) :: p.1, p.2)
    | none => let p := place old (Function.update h n v) (n + 1) c; ((k, n) :: p.1, p.2)

/-- the `i`-th object after a call (e.g. structure/base.py:97, 283-291) -/
def write (w : World R κ V) (i : Nat) (o : Obj R κ) (s : Cached R κ V) : World R κ V :=
  let p := place o.refs w.heap w.next s.cache
  { w with heap := p.2.1, next := p.2.2, objs := w.objs.set i (some ⟨s.raw, p.1⟩) }

/-- a new object; the cache of a copy is copied with `deepcopy` (graph.py:153, directed_graph.py:146,
bipartite_graph.py:168, hypergraph.py:153-154), that of other new objects is empty (`self.clear()`, structure/base.py:49, 379) -/
def alloc (w : World R κ V) : Except Err (Cached R κ V) → World R κ V
  | .error _ => { w with objs := w.objs ++ [none] }
  | .ok s =>
    let p := place [] w.heap w.next s.cache
    { w with heap := p.2.1, next := p.2.2, objs := w.objs ++ [some ⟨s.raw, p.1⟩] }

/-- execute one command; calls on objects that do not exist do nothing
(a caller of the methods in graph.py and the other structure files; no line of its own) -/
def exec (C : Heap.Klass (Cached R κ V) A B D Op Q Ans New Der) (w : World R κ V) :
    Cmd κ V Op Q New Der → World R κ V
  | .make x => alloc w (C.make x)
  | .call i o => match w.objs[i]?.join with
    | none => w
    | some x => write w i x (C.call o (x.view w.heap)).2
  | .read i q => match w.objs[i]?.join with
    | none => w
    | some x => write w i x (C.read q (x.view w.heap)).2
  | .clone i => match w.objs[i]?.join with
    | none => { w with objs := w.objs ++ [none] }
    | some x => alloc w (C.clone (x.view w.heap))
  | .derive i d => match w.objs[i]?.join with
    | none => { w with objs := w.objs ++ [none] }
    | some x => alloc w (C.derive d (x.view w.heap))
  | .keep i k => { w with held := w.held ++ [w.objs[i]?.join.bind (·.refs.get? k)] }
  | .edit h v => match w.held[h]?.join with
    | none => w
    | some r => { w with heap := Function.update w.heap r v }

/-- execute a program
(a caller of the methods in graph.py and the other structure files; no line of its own) -/
def execAll (C : Heap.Klass (Cached R κ V) A B D Op Q Ans New Der) (w : World R κ V)
    (p : List (Cmd κ V Op Q New Der)) : World R κ V := p.foldl (exec C) w

/-- the answer of a reading call on the `i`-th object
(a caller of the reading methods, e.g. graph.py:381-704) -/
def answer (C : Heap.Klass (Cached R κ V) A B D Op Q Ans New Der) (w : World R κ V) (i : Nat) (q : Q) :
    Option (Except Err Ans) := (view w i).map fun s => (C.read q s).1

end Live
end DHG
