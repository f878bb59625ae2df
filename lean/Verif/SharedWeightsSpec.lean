import Verif.SharedWeights

/-!
# Which hypergraphs can be affected by assignments to weight lists

A bookkeeping by the text of the program alone.
-/

set_option linter.unusedSectionVars false
set_option autoImplicit false

namespace DHG
namespace Spec

open Shared

variable {K : Type} [Field K] [LinearOrder K]

/-- Lists are numbered by the command that makes them.  `kept[h]` is the list kept under number `h`, `used[i]` the
weight list of hypergraph `i`; `changed` are the lists that were assigned to, and the lists computed from those. -/
structure ListMarks where
  count : Nat
  kept : List Nat
  used : List Nat
  changed : List Nat

/-- the program with all assignments to lists left out -/
def noSets (p : List (Cmd K)) : List (Cmd K) :=
  p.filter fun c => match c with
    | .set _ _ _ => false
    | _ => true

/-- One command.  A hypergraph made with a list uses that list, one made without uses a new list; a clone (whose
computed `W_v` is copied) and a subgraph have new lists, which count as changed if that of the original does; other
derived hypergraphs have new lists of ones. -/
def listMark (m : ListMarks) : Cmd K → ListMarks
  | .list _ => { m with count := m.count + 1, kept := m.kept ++ [m.count] }
  | .make _ _ _ _ none => { m with count := m.count + 1, used := m.used ++ [m.count] }
  | .make _ _ _ _ (some h) => { m with count := m.count + 1, used := m.used ++ [m.kept.getD h m.count] }
  | .call _ _ => { m with count := m.count + 1 }
  | .read _ _ => { m with count := m.count + 1 }
  | .clone i => { m with
      count := m.count + 1
      used := m.used ++ [m.count]
      changed := if m.used.getD i m.count ∈ m.changed then m.count :: m.changed else m.changed }
  | .derive i (.sub _ _) => { m with
      count := m.count + 1
      used := m.used ++ [m.count]
      changed := if m.used.getD i m.count ∈ m.changed then m.count :: m.changed else m.changed }
  | .derive _ _ => { m with count := m.count + 1, used := m.used ++ [m.count] }
  | .weights i => { m with count := m.count + 1, kept := m.kept ++ [m.used.getD i m.count] }
  | .set h _ _ => match m.kept[h]? with
    | none => m
    | some l => { m with changed := l :: m.changed }

/-- the marks after a program -/
def listMarks (p : List (Cmd K)) : ListMarks := p.foldl listMark ⟨0, [], [], []⟩

/-- does hypergraph `i` use a list that was assigned to, or was it computed from one that does? -/
def UsesChanged (p : List (Cmd K)) (i : Nat) : Prop := ∃ l, (listMarks p).used[i]? = some l ∧ l ∈ (listMarks p).changed

end Spec
end DHG
