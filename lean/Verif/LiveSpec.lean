import Verif.Live

/-!
# Which objects can be affected by edits of returned lists and matrices

A bookkeeping of a program that does not look at any list or matrix: of which object each kept result is a live
part, and which objects have had a live part edited.
-/

set_option linter.unusedSectionVars false
set_option autoImplicit false

namespace DHG
namespace Spec

open Live

variable {R κ V A B D Op Q Ans New Der : Type} [DecidableEq κ]

/-- `owner[h]` is the object of which the kept result `h` is still a part, if there is one; `touched[i]` tells
whether a part of object `i` was edited -/
structure Marks where
  owner : List (Option Nat)
  touched : List Bool

/-- the program with all edits left out -/
def noEdits (p : List (Cmd κ V Op Q New Der)) : List (Cmd κ V Op Q New Der) :=
  p.filter fun c => match c with
    | .edit _ _ => false
    | _ => true

/-- the call `o` on object `i` succeeds and makes the object forget its computed results -/
def renews (C : Heap.Klass (Cached R κ V) A B D Op Q Ans New Der) (refresh : R → Op → Bool) (w : World R κ V) (i : Nat)
    (o : Op) : Bool :=
  match view w i with
  | none => false
  | some s => refresh s.raw o && match (C.call o s).1 with
    | .ok _ => true
    | .error _ => false

/-- One command.  `refresh r` are the calls that, when they succeed on an object holding `r`, make it forget its
computed results: afterwards nothing kept before is a part of it, and it counts as untouched.  A clone of a touched object is touched;
an object derived otherwise is not. -/
def mark (C : Heap.Klass (Cached R κ V) A B D Op Q Ans New Der) (refresh : R → Op → Bool) (w : World R κ V) (m : Marks) :
    Cmd κ V Op Q New Der → Marks
  | .make _ => { m with touched := m.touched ++ [false] }
  | .derive _ _ => { m with touched := m.touched ++ [false] }
  | .clone i => { m with touched := m.touched ++ [m.touched[i]?.getD false] }
  | .call i o =>
    if renews C refresh w i o then
      { owner := m.owner.map fun x => if x = some i then none else x, touched := m.touched.set i false }
    else m
  | .read _ _ => m
  | .keep i _ => { m with owner := m.owner ++ [some i] }
  | .edit h _ => match m.owner[h]?.join with
    | none => m
    | some i => { m with touched := m.touched.set i true }

/-- the marks after a program -/
def marksFrom (C : Heap.Klass (Cached R κ V) A B D Op Q Ans New Der) (refresh : R → Op → Bool) :
    World R κ V → Marks → List (Cmd κ V Op Q New Der) → Marks
  | _, m, [] => m
  | w, m, c :: p => marksFrom C refresh (exec C w c) (mark C refresh w m c) p

/-- has a part of object `i` been edited since it was made, cloned from an untouched object, or last refreshed? -/
def Touched [Inhabited V] (C : Heap.Klass (Cached R κ V) A B D Op Q Ans New Der) (refresh : R → Op → Bool)
    (p : List (Cmd κ V Op Q New Der)) (i : Nat) : Prop :=
  (marksFrom C refresh .empty ⟨[], []⟩ p).touched[i]? = some true

variable [Inhabited V]

/-- the world after a program -/
def world (C : Heap.Klass (Cached R κ V) A B D Op Q Ans New Der) (p : List (Cmd κ V Op Q New Der)) : World R κ V :=
  execAll C .empty p

/-- Whatever the caller writes into returned lists and matrices, every object holds the same data (vertices, edges,
weights, flag) as without the writes. -/
def DataKept (C : Heap.Klass (Cached R κ V) A B D Op Q Ans New Der) : Prop :=
  ∀ (p : List (Cmd κ V Op Q New Der)) (i : Nat),
    (view (world C p) i).map (·.raw) = (view (world C (noEdits p)) i).map (·.raw)

/-- An object that is not touched by a write is the same, and gives the same answers, as without any of the
writes. -/
def UntouchedSame (C : Heap.Klass (Cached R κ V) A B D Op Q Ans New Der) (refresh : R → Op → Bool) : Prop :=
  ∀ (p : List (Cmd κ V Op Q New Der)) (i : Nat), ¬ Touched C refresh p i →
    view (world C p) i = view (world C (noEdits p)) i ∧
      ∀ q, answer C (world C p) i q = answer C (world C (noEdits p)) i q

/-- After a successful refreshing call an object gives the same answers as without any of the writes, although it
was touched before. -/
def RefreshedSame (C : Heap.Klass (Cached R κ V) A B D Op Q Ans New Der) (refresh : R → Op → Bool) : Prop :=
  ∀ (p : List (Cmd κ V Op Q New Der)) (i : Nat) (s : Cached R κ V) (o : Op), view (world C p) i = some s →
    refresh s.raw o = true → (C.call o s).1 = .ok () →
    ∀ q, answer C (world C (p ++ [.call i o])) i q = answer C (world C (noEdits p ++ [.call i o])) i q

/-- calls on a `Graph` that make it forget its computed results: all, except adding an empty list of edges -/
def renewG {K : Type} (_ : GRaw K) : GOp K → Bool
  | .addEdges arg _ => !arg.isEmpty
  | _ => true

/-- calls on a `DiGraph` that make it forget its computed results: all, except adding an empty list of edges and
`reverse_direction` -/
def renewD {K : Type} (_ : GRaw K) : DOp K → Bool
  | .addEdges arg _ => !arg.isEmpty
  | .reverseDirection => false
  | _ => true

/-- calls on a `BiGraph` that make it forget its computed results: all, except adding an empty list of edges -/
def renewB {K : Type} (_ : GRaw K) : BOp K → Bool
  | .addEdges arg _ => !arg.isEmpty
  | _ => true

/-- calls on a `Hypergraph` that make it forget all its computed results: `clear`, removing hyperedges from all
groups, and calls on the only group -/
def renewH {K : Type} (r : HRaw K) : HOp K → Bool
  | .clear => true
  | .removeHyperedges _ none => true
  | .removeHyperedges _ (some g) => r.groups.keys.all (· = g)
  | .addHyperedges _ _ _ g => r.groups.keys.all (· = g)
  | .removeGroup g => r.groups.keys.all (· = g)
  | .setVWeight _ => false

end Spec
end DHG
