import Mathlib.Algebra.BigOperators.Group.Finset.Basic
import Mathlib.Algebra.BigOperators.Ring.Finset
import Mathlib.Algebra.BigOperators.Intervals
import Mathlib.Algebra.Order.Field.Basic
import Mathlib.Algebra.Order.BigOperators.Group.Finset
import Mathlib.Analysis.SpecialFunctions.Exp
import Mathlib.Analysis.SpecialFunctions.Log.Basic
import Mathlib.Analysis.SpecialFunctions.Sqrt
import Mathlib.Tactic.Ring
import Mathlib.Tactic.Linarith
import Mathlib.Tactic.NormNum
import Verif.Py

/-!
# torch sparse COO tensors

Only the operations used by `dhg/structure`.  A tensor is a shape and a list of entries in storage
order.  Values are exact field elements (no floating point).
-/

set_option linter.unusedSectionVars false
set_option autoImplicit false

namespace DHG

open Finset

/-- real functions used by the code on top of field arithmetic: `x ** -0.5`, `exp`.
(e.g. graph.py:518, and `torch.sparse.softmax`, graph.py:701) -/
class PyReal (K : Type) [Field K] [LinearOrder K] where
  /-- `x ** -0.5` for positive `x` -/
  rsqrt : K → K
  /-- `exp` -/
  exp : K → K
  rsqrt_pos : ∀ x, 0 < x → 0 < rsqrt x
  rsqrt_sq : ∀ x, 0 < x → rsqrt x * rsqrt x = x⁻¹
  exp_pos : ∀ x, 0 < exp x
  exp_add : ∀ x y, exp (x + y) = exp x * exp y
  exp_mono : ∀ x y, x < y → exp x < exp y

/-- the case of real numbers; floating point rounding is not modelled -/
noncomputable instance : PyReal ℝ where
  rsqrt x := (Real.sqrt x)⁻¹
  exp := Real.exp
  rsqrt_pos x h := by simpa using h
  rsqrt_sq x h := by rw [← mul_inv, Real.mul_self_sqrt h.le]
  exp_pos := Real.exp_pos
  exp_add := Real.exp_add
  exp_mono x y h := Real.exp_lt_exp.2 h

/-- entries `((row, col), value)` in storage order
(`_indices()`, `_values()`, e.g. graph.py:550, 562) -/
abbrev Ents (K : Type) : Type := List ((Nat × Nat) × K)

/-- a 2-D `torch.sparse_coo_tensor` (e.g. graph.py:477-482) -/
structure Sp (K : Type) where
  rows : Nat
  cols : Nat
  ents : Ents K
  deriving DecidableEq, Repr

/-- a dense feature matrix (`torch.Tensor` of shape `rows × cols`)
(e.g. the argument `X` of `v2v`, graph.py:654-658) -/
structure Dense (K : Type) where
  rows : Nat
  cols : Nat
  at_ : Nat → Nat → K

/-- lexicographic order of indices, the order produced by `coalesce`
(torch, used through `coalesce()`, e.g. graph.py:482) -/
def lexLt (a b : Nat × Nat) : Prop := a.1 < b.1 ∨ (a.1 = b.1 ∧ a.2 < b.2)

/-- decidability of the order above -/
instance (a b : Nat × Nat) : Decidable (lexLt a b) := by unfold lexLt; infer_instance

section Defs
variable {K : Type} [Field K]

/-- value at an index: duplicates add up
(torch semantics of uncoalesced tensors; `coalesce()` e.g. graph.py:482) -/
def Ents.get (l : Ents K) (i j : Nat) : K :=
  (l.map fun e => if e.1 = (i, j) then e.2 else 0).sum

/-- dense value of the tensor at `(i,j)`
(torch semantics of sparse tensors, e.g. structure/base.py:335) -/
def Sp.get (M : Sp K) (i j : Nat) : K := M.ents.get i j

/-- indices are inside the shape (checked by the constructor, e.g. graph.py:477-482) -/
def Sp.WF (M : Sp K) : Prop := ∀ e ∈ M.ents, e.1.1 < M.rows ∧ e.1.2 < M.cols

/-- insertion of one entry in a coalesced list (inside `coalesce()`, e.g. graph.py:482) -/
def insertEnt (ij : Nat × Nat) (x : K) : Ents K → Ents K
  | [] => [(ij, x)]
  | (kl, y) :: t =>
    if ij = kl then (kl, y + x) :: t
    else if lexLt ij kl then (ij, x) :: (kl, y) :: t
    else (kl, y) :: insertEnt ij x t

/-- entries sorted by index with duplicates added (inside `coalesce()`, e.g. graph.py:482) -/
def Ents.coalesce (l : Ents K) : Ents K := l.foldl (fun acc e => insertEnt e.1 e.2 acc) []

/-- `tensor.coalesce()` (e.g. graph.py:482) -/
def Sp.coalesce (M : Sp K) : Sp K := { M with ents := M.ents.coalesce }

/-- one index pair as accepted by the constructor
(inside `torch.sparse_coo_tensor`, e.g. graph.py:477-482) -/
def toIdx (rows cols : Nat) (ij : Int × Int) : Except Err (Nat × Nat) :=
  if 0 ≤ ij.1 ∧ ij.1 < rows ∧ 0 ≤ ij.2 ∧ ij.2 < cols then .ok (ij.1.toNat, ij.2.toNat)
  else .error .runtime

/-- `torch.sparse_coo_tensor(indices, values, size)`: negative or too large indices and a
different number of indices and values raise `RuntimeError`. (e.g. graph.py:477-482) -/
def Sp.build (rows cols : Nat) (idx : List (Int × Int)) (vals : List K) : Except Err (Sp K) :=
  if idx.length = vals.length then do
    let is ← idx.mapM (toIdx rows cols)
    .ok { rows, cols, ents := is.zip vals }
  else .error .runtime

/-- `torch.sparse_coo_tensor(size=(rows, cols))` (e.g. graph.py:474, bipartite_graph.py:486) -/
def Sp.empty (rows cols : Nat) : Sp K := { rows, cols, ents := [] }

/-- `M.t()` swaps the index rows; the storage order stays (no `coalesce`).
(e.g. directed_graph.py:436, bipartite_graph.py:502) -/
def Sp.t (M : Sp K) : Sp K :=
  { rows := M.cols, cols := M.rows, ents := M.ents.map fun e => ((e.1.2, e.1.1), e.2) }

/-- `torch.sparse.sum(M, dim=1).to_dense()` (e.g. graph.py:490) -/
def Sp.rowSum (M : Sp K) : List K :=
  (List.range M.rows).map fun i => (M.ents.map fun e => if e.1.1 = i then e.2 else 0).sum

/-- `torch.sparse_coo_tensor(arange(n).view(1,-1).repeat(2,1), v, (n,n)).coalesce()`
(e.g. graph.py:491-496) -/
def Sp.diag (v : List K) : Sp K :=
  { rows := v.length, cols := v.length, ents := (List.range v.length).zipWith (fun i x => ((i, i), x)) v }

/-- replace the stored values, same indices:
`torch.sparse_coo_tensor(M._indices(), f(M._values()), M.size())` (e.g. graph.py:504-509) -/
def Sp.mapVals (f : K → K) (M : Sp K) : Sp K :=
  { M with ents := M.ents.map fun e => (e.1, f e.2) }

/-- all pairwise products of entries sharing the inner index (inside `mm`, e.g. graph.py:593) -/
def prodEnts (l₁ l₂ : Ents K) : Ents K :=
  l₁.flatMap fun a => (l₂.filter fun b => b.1.1 = a.1.2).map fun b => ((a.1.1, b.1.2), a.2 * b.2)

/-- sparse × sparse `mm`.  The pattern is the structural one (no numerical pruning).  The result
is taken in sorted order; torch leaves the order inside a row unspecified.
(e.g. graph.py:593, 633) -/
def Sp.mm (P Q : Sp K) : Except Err (Sp K) :=
  if P.cols = Q.rows then
    .ok { rows := P.rows, cols := Q.cols, ents := Ents.coalesce (prodEnts P.ents Q.ents) }
  else .error .runtime

/-- sparse × dense `torch.sparse.mm(P, X)` (e.g. graph.py:675, structure/base.py:335) -/
def Sp.mmD (P : Sp K) (X : Dense K) : Except Err (Dense K) :=
  if P.cols = X.rows then
    .ok { rows := P.rows, cols := X.cols
          at_ := fun i c => (P.ents.map fun e => if e.1.1 = i then e.2 * X.at_ e.1.2 c else 0).sum }
  else .error .runtime

/-- sparse difference (`self.D_v - self.A`, graph.py:580) -/
def Sp.sub (P Q : Sp K) : Except Err (Sp K) :=
  if P.rows = Q.rows ∧ P.cols = Q.cols then
    .ok { P with ents := Ents.coalesce (P.ents ++ Q.ents.map fun e => (e.1, -e.2)) }
  else .error .runtime

/-- sparse sum (hypergraph.py:247) -/
def Sp.add (P Q : Sp K) : Except Err (Sp K) :=
  if P.rows = Q.rows ∧ P.cols = Q.cols then
    .ok { P with ents := Ents.coalesce (P.ents ++ Q.ents) }
  else .error .runtime

/-- `torch.sparse_coo_tensor(hstack([arange, L._indices()]), hstack([ones, -L._values()]),
(n,n)).coalesce()`, i.e. identity minus `L` (graph.py:594-599) -/
def Sp.eyeMinus (n : Nat) (L : Sp K) : Sp K :=
  { rows := n, cols := n
    ents := Ents.coalesce ((List.range n).map (fun i => ((i, i), (1 : K))) ++
      L.ents.map fun e => (e.1, -e.2)) }

/-- `M[i]._indices()[0]`: the stored columns of row `i`; negative `i` counts from the end, an
index outside the shape raises `IndexError`. (graph.py:543, directed_graph.py:499, 508) -/
def Sp.rowIdx (M : Sp K) (i : Int) : Except Err (List Nat) :=
  if -(M.rows : Int) ≤ i ∧ i < M.rows then
    let r := if 0 ≤ i then i.toNat else (i + M.rows).toNat
    .ok ((M.ents.filter fun e => e.1.1 = r).map fun e => e.1.2)
  else .error .index

/-- `torch.cat([P, Q], dim=1)` for sparse tensors: entries are concatenated, not sorted.
(`torch.hstack`, bipartite_graph.py:475-476) -/
def Sp.hcat (P Q : Sp K) : Except Err (Sp K) :=
  if P.rows = Q.rows then
    .ok { rows := P.rows, cols := P.cols + Q.cols
          ents := P.ents ++ Q.ents.map fun e => ((e.1.1, e.1.2 + P.cols), e.2) }
  else .error .runtime

/-- values with the indices of an existing tensor:
`torch.sparse_coo_tensor(M._indices(), w, M.shape)` (e.g. graph.py:689) -/
def Sp.withVals (M : Sp K) (w : List K) : Except Err (Sp K) :=
  if M.ents.length = w.length then
    .ok { M with ents := (M.ents.map Prod.fst).zip w }
  else .error .runtime

/-- `1 / x` with `inf` replaced by 0 (`_val ** -1; _val[isinf] = 0`); in a field `0⁻¹ = 0`.
(e.g. graph.py:505-506) -/
def Sp.inv (M : Sp K) : Sp K := M.mapVals fun x => x⁻¹

end Defs

section RealDefs
variable {K : Type} [Field K] [LinearOrder K] [PyReal K]

/-- `x ** -0.5` with `inf` replaced by 0; `none` is NaN (negative argument)
(e.g. graph.py:518-519) -/
def rsqrt0 (x : K) : Option K :=
  if x < 0 then none else if x = 0 then some 0 else some (PyReal.rsqrt x)

/-- one stored value (e.g. graph.py:518-519) -/
def rsqrtEnt (e : (Nat × Nat) × K) : Except Err ((Nat × Nat) × K) :=
  match rsqrt0 e.2 with
  | some y => .ok (e.1, y)
  | none => .error .nan

/-- `_val ** -0.5; _val[isinf] = 0` on the stored values.  torch yields NaN entries for negative
values; the model reports `Err.nan` instead of a tensor containing NaN. (e.g. graph.py:518-519) -/
def Sp.rsqrt (M : Sp K) : Except Err (Sp K) := do
  let es ← M.ents.mapM rsqrtEnt
  .ok { M with ents := es }

/-- `torch.sparse.softmax(M, dim=1)`: softmax over the stored entries of each row of the
(coalesced) tensor. (e.g. graph.py:701) -/
def Sp.softmax (M : Sp K) : Sp K :=
  let c := M.coalesce
  { c with ents := c.ents.map fun e =>
      (e.1, PyReal.exp e.2 / (c.ents.map fun e' => if e'.1.1 = e.1.1 then PyReal.exp e'.2 else 0).sum) }

end RealDefs

end DHG
