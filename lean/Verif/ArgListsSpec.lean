import Verif.ArgLists

/-!
# What a program that keeps its arguments should do

`Spec.copies p` is the program `p` in which every call is given a copy of the kept object.  `Spec.written p` are the
objects as the caller wrote them: only the commands that make and change them are looked at.
-/

set_option linter.unusedSectionVars false
set_option autoImplicit false

namespace DHG
namespace Spec

open Args

variable {K : Type}

/-- the command with a copy of its argument -/
def copied : Cmd K → Cmd K
  | .make n (some p) ew vw op => .make n (some ⟨p.obj, true⟩) ew vw op
  | .add i p ew op g => .add i ⟨p.obj, true⟩ ew op g
  | .remove i p g => .remove i ⟨p.obj, true⟩ g
  | c => c

/-- the program with copies of the arguments -/
def copies (p : List (Cmd K)) : List (Cmd K) := p.map copied

/-- the effect of a command on the caller's objects, if the called methods leave them alone -/
def writes (l : List HArg) : Cmd K → List HArg
  | .arg a => l ++ [a]
  | .editSeqs h d => l.modify h (editSeqs d)
  | .editVerts h d => l.modify h (editVerts d)
  | _ => l

/-- the caller's objects, if the called methods leave them alone -/
def written (p : List (Cmd K)) : List HArg := p.foldl writes []

/-- a sequence of vertices, or the sorted tuple of its vertices -/
def OrSorted (s s' : PySeq) : Prop := s' = s ∨ (s'.tup = true ∧ s'.items.Perm s.items ∧ s'.items.Pairwise (· ≤ ·))

/-- the same, up to sorting the hyperedges in a list -/
def SameHyperedges : HArg → HArg → Prop
  | .many false es, .many false es' => List.Forall₂ OrSorted es es'
  | a, a' => a = a'

end Spec
end DHG
