import Mathlib.Data.List.Basic
import Mathlib.Data.List.Nodup
import Mathlib.Data.List.Perm.Basic
import Verif.Py

/-!
# Python's `random` module

Randomness is an explicit stream of raw draws; every function consumes a prefix and returns the
rest.  A theorem that holds for all streams holds for every outcome of the generator.
-/

set_option linter.unusedSectionVars false
set_option autoImplicit false

namespace DHG

/-- the raw draws the generator will produce (Python's `random`, e.g. random/graphs/graph.py:83) -/
abbrev Draws : Type := Nat → Nat

/-- the stream after one draw (Python's `random`, e.g. random/graphs/graph.py:83) -/
def Draws.tail (ω : Draws) : Draws := fun i => ω (i + 1)

/-- `random._randbelow(n)` for `n > 0`: some number below `n`.  Reduction modulo `n` only makes the
function total; a stream whose draws are below the bound yields its draws themselves.
(inside `random.choice`, random/graphs/graph.py:83) -/
def randbelow (n : Nat) (ω : Draws) : Nat × Draws := (ω 0 % n, ω.tail)

/-- `x[i], x[j] = x[j], x[i]` (inside `random.shuffle`, utils/dataset_split.py:71) -/
def swapAt {α : Type} (l : List α) (i j : Nat) : List α :=
  match l[i]?, l[j]? with
  | some a, some b => (l.set i b).set j a
  | _, _ => l

/-- the loop of `random.shuffle` (CPython `random.py`: `for i in reversed(range(1, len(x)))`) -/
def shuffleAux {α : Type} : Nat → List α → Draws → List α × Draws
  | 0, l, ω => (l, ω)
  | i + 1, l, ω => shuffleAux i (swapAt l (i + 1) (randbelow (i + 2) ω).1) (randbelow (i + 2) ω).2

/-- `random.shuffle(l)` (utils/dataset_split.py:71) -/
def shuffle {α : Type} (l : List α) (ω : Draws) : List α × Draws := shuffleAux (l.length - 1) l ω

/-- `random.randrange(n)`; `ValueError` for an empty range (utils/dataset_wrapers.py:47, 59-61) -/
def randrange (n : Int) (ω : Draws) : Except Err (Nat × Draws) :=
  if 0 < n then .ok (randbelow n.toNat ω) else .error .value

/-- `random.choice(l)`; `IndexError` for an empty sequence (utils/dataset_wrapers.py:49) -/
def choice {α : Type} (l : List α) (ω : Draws) : Except Err (α × Draws) :=
  match l[(randbelow l.length ω).1]? with
  | some a => .ok (a, (randbelow l.length ω).2)
  | none => .error .index

theorem swapAt_perm {α : Type} (l : List α) (i j : Nat) : (swapAt l i j).Perm l := by
  unfold swapAt
  rcases hi : l[i]? with _ | a
  · exact List.Perm.refl _
  · rcases hj : l[j]? with _ | b
    · exact List.Perm.refl _
    · obtain ⟨h1, rfl⟩ := List.getElem?_eq_some_iff.1 hi
      obtain ⟨h2, rfl⟩ := List.getElem?_eq_some_iff.1 hj
      exact List.set_set_perm h1 h2

theorem shuffleAux_perm {α : Type} (n : Nat) : ∀ (l : List α) (ω : Draws), (shuffleAux n l ω).1.Perm l := by
  induction n with
  | zero => intro l ω; exact List.Perm.refl _
  | succ n ih => intro l ω; exact (ih _ _).trans (swapAt_perm _ _ _)

theorem shuffle_perm {α : Type} (l : List α) (ω : Draws) : (shuffle l ω).1.Perm l := shuffleAux_perm _ _ _

theorem randrange_lt {n : Int} {ω : Draws} {p : Nat × Draws} (h : randrange n ω = .ok p) :
    (p.1 : Int) < n := by
  unfold randrange at h
  by_cases hn : 0 < n
  · rw [if_pos hn] at h
    cases h
    have : ω 0 % n.toNat < n.toNat := Nat.mod_lt _ (by omega)
    simp only [randbelow]; omega
  · rw [if_neg hn] at h; cases h

theorem choice_mem {α : Type} {l : List α} {ω : Draws} {p : α × Draws} (h : choice l ω = .ok p) :
    p.1 ∈ l := by
  unfold choice at h
  rcases hx : l[(randbelow l.length ω).1]? with _ | a
  · rw [hx] at h; cases h
  · rw [hx] at h; cases h
    exact List.mem_of_getElem? hx

end DHG
