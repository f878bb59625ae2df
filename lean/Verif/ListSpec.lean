import Verif.Sparse

/-!
# Quantities read off a weighted edge listing

A listing is what reading `e` returns: pairs of vertices with weights.
-/

set_option autoImplicit false

namespace DHG
namespace Spec

section
variable {K : Type} [Field K]

/-- total weight listed for the unordered pair `{i,j}` -/
def wt (l : List ((Int × Int) × K)) (i j : Int) : K :=
  (l.map fun e => if e.1 = (i, j) ∨ e.1 = (j, i) then e.2 else 0).sum

/-- total weight of listed edges incident to `i` (a loop counts once) -/
def deg (l : List ((Int × Int) × K)) (i : Int) : K :=
  (l.map fun e => if e.1.1 = i ∨ e.1.2 = i then e.2 else 0).sum

/-- listed edges with different endpoints -/
def proper (l : List ((Int × Int) × K)) : List ((Int × Int) × K) := l.filter fun e => e.1.1 ≠ e.1.2

/-- some edge between `i` and `j` is listed -/
def Adj (l : List ((Int × Int) × K)) (i j : Nat) : Prop :=
  ∃ e ∈ l, e.1 = ((i : Int), (j : Int)) ∨ e.1 = ((j : Int), (i : Int))

/-- `M` is an `r × c` matrix with the entries `f` -/
structure IsMat (r c : Nat) (f : Nat → Nat → K) (M : Sp K) : Prop where
  rows : M.rows = r
  cols : M.cols = c
  wf : M.WF
  get : ∀ i j, i < r → j < c → M.get i j = f i j

/-- sum of the messages arriving at `i`: the `k`-th message goes from `src[k]` to `dst[k]` and is
multiplied by `w[k]` -/
def incoming : List Nat → List Nat → List K → (Nat → K) → Nat → K
  | s :: src, d :: dst, w :: ws, x, i => (if d = i then w * x s else 0) + incoming src dst ws x i
  | _, _, _, _, _ => 0

/-- `L` with one unit self loop at every vertex `0..n-1` added -/
def withUnitLoops (n : Nat) (l : List ((Int × Int) × K)) : List ((Int × Int) × K) :=
  l ++ (List.range n).map fun v : Nat => (((v : Int), (v : Int)), 1)

/-- walks of exactly `k` edges -/
inductive Walk (R : Nat → Nat → Prop) : Nat → Nat → Nat → Prop
  | one {i j} : R i j → Walk R 1 i j
  | step {k i j l} : Walk R k i j → R j l → Walk R (k + 1) i l

end

section
variable {K : Type} [Field K] [LinearOrder K]

/-- all listed weights are non-negative -/
def NonnegWeights (l : List ((Int × Int) × K)) : Prop := ∀ e ∈ l, 0 ≤ e.2

/-- `s` is the inverse square root of `d`, read as 0 at 0 -/
def InvSqrt (d s : K) : Prop := (d = 0 → s = 0) ∧ (d ≠ 0 → 0 < s ∧ s * s * d = 1)

end

end Spec
end DHG
