import Mathlib.Data.Set.Function
import Mathlib.Analysis.SpecialFunctions.Log.Basic
import Verif.GraphSpec
import Verif.OrderedSpec
import Verif.HyperSpec

/-!
# Specification vocabulary for the random generators

The generated structures are observed through `num_v`, `num_e` and `e`.
-/

set_option linter.unusedSectionVars false
set_option autoImplicit false

namespace DHG
namespace Spec

variable {K : Type} [Field K] [LinearOrder K] [PyReal K]

/-- answers to `num_v` and `num_e` and a listing that shows `n` vertices and exactly the pairs
satisfying `E`, each once, with weight one -/
structure ShowsEdges (numV numE : Except Err (GAns K)) (l : List ((Int × Int) × K)) (n : Int)
    (E : Int × Int → Prop) : Prop where
  numV : numV = .ok (.num n.toNat)
  numE : numE = .ok (.num l.length)
  once : (l.map Prod.fst).Nodup
  edges : ∀ p w, (p, w) ∈ l ↔ E p ∧ w = 1

/-- the undirected graph `g` has `n` vertices and exactly the edges `E` (written with the smaller
vertex first), each once, with weight one -/
def GraphIs (g : GSt K) (n : Int) (E : Int × Int → Prop) : Prop :=
  ShowsEdges (Graph.ask .numV g).1 (Graph.ask .numE g).1 (listing g) n E

/-- the directed graph `g` has `n` vertices and exactly the arcs `E`, each once, with weight one -/
def DigraphIs (g : DSt K) (n : Int) (E : Int × Int → Prop) : Prop :=
  ShowsEdges (DiGraph.ask .numV g).1 (DiGraph.ask .numE g).1 (listingD g) n E

/-- the bipartite graph `g` has `m` and `n` vertices and exactly the edges `E`, each once, with
weight one -/
def BigraphIs (g : BSt K) (m n : Int) (E : Int × Int → Prop) : Prop :=
  (BiGraph.ask .numU g).1 = .ok (.num m.toNat) ∧
    ShowsEdges (BiGraph.ask .numV g).1 (BiGraph.ask .numE g).1 (listingB g) n E

/-- the hypergraph `s` has `n` vertices and exactly the hyperedges `E`, each once, with weight one -/
structure HypergraphIs (s : HSt K) (n : Int) (E : Multiset Int → Prop) : Prop where
  numV : (Hyper.ask .numV s).1 = .ok (.num n.toNat)
  numE : (Hyper.ask (.numE none) s).1 = .ok (.num (hListing s none).length)
  once : ((hListing s none).map fun p => (p.1 : Multiset Int)).Nodup
  edges : ∀ e w, (∃ l : List Int, (l : Multiset Int) = e ∧ (l, w) ∈ hListing s none) ↔ E e ∧ w = 1

/-- a set of `k` distinct vertices among `0, …, n-1` -/
def IsSubset (n k : Int) (e : Multiset Int) : Prop :=
  e.Nodup ∧ (e.card : Int) = k ∧ ∀ v ∈ e, 0 ≤ v ∧ v < n

/-- the raw draws, taken two at a time, run through every pair of residues again and again -/
def Fair (m n : Nat) (ω : Nat → Nat) : Prop :=
  ∀ a < m, ∀ b < n, ∀ k, ∃ j, k ≤ j ∧ ω (2 * j) % m = a ∧ ω (2 * j + 1) % n = b

/-- position of the pair `a < b` in the enumeration `(0,1), (0,2), (1,2), (0,3), …` -/
def position (p : Int × Int) : Int := p.2 * (p.2 - 1) / 2 + p.1

/-- the candidate reached by draw number `k` when draw `j` skips
`⌊log (1 - ρ j) / log (1 - prob)⌋` candidates and takes the next one -/
noncomputable def landing (prob : ℝ) (ρ : Nat → ℝ) (k : Nat) : Int :=
  ((List.range (k + 1)).map fun j => 1 + ⌊Real.log (1 - ρ j) / Real.log (1 - prob)⌋).sum - 1

end Spec
end DHG
