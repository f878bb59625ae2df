import Verif.Convert
import Verif.BiGraph
import Verif.DiGraph
import Verif.UtilsMath
import Verif.Rand

/-!
# The random structure generators (`dhg/random/graphs/*.py`, `dhg/random/hypergraphs/hypergraph.py`)

`random.random()` reads a stream of numbers `ρ : Nat → K` (theorems assume `0 ≤ ρ i < 1` where they
need it); `random.choice` and `random.sample` read a stream of raw integer draws (`Rand.lean`).
The rejection loops need not end: they take a bound on the number of rounds and answer `none` when
it is exhausted.  `list(e_set)` enumerates a Python set in an order that depends on hashing; the
enumeration is a parameter `ord`, of which theorems assume only that it is a permutation.
-/

set_option linter.unusedSectionVars false
set_option autoImplicit false

namespace DHG
namespace RandGen

/-! ### Enumerations -/

/-- `list(range(n))` (random/graphs/graph.py:80) -/
def rangeI (n : Nat) : List Int := (List.range n).map Int.ofNat

/-- `itertools.permutations(range(n), 2)` (random/graphs/graph.py:24) -/
def perms2 (n : Nat) : List (Int × Int) :=
  (rangeI n).flatMap fun a => ((rangeI n).filter fun b => decide (a ≠ b)).map fun b => (a, b)

/-- `itertools.product(range(m), range(n))` (random/graphs/bipartite_graph.py:26) -/
def product (m n : Nat) : List (Int × Int) :=
  (rangeI m).flatMap fun a => (rangeI n).map fun b => (a, b)

/-- `itertools.combinations(l, k)` (random/hypergraphs/hypergraph.py:29) -/
def combinations : Nat → List Int → List (List Int)
  | 0, _ => [[]]
  | _ + 1, [] => []
  | k + 1, x :: xs => (combinations k xs).map (x :: ·) ++ combinations (k + 1) xs

section Gnp
variable {K : Type} [Field K] [LinearOrder K]

/-- `[e for e in l if random.random() < prob and p(e)]`: one draw per candidate, the first being
number `i` (random/graphs/graph.py:25, random/hypergraphs/hypergraph.py:30) -/
def keepDraws {α : Type} (prob : K) (p : α → Bool) (ρ : Nat → K) : Nat → List α → List α
  | _, [] => []
  | i, x :: xs =>
    if ρ i < prob ∧ p x = true then x :: keepDraws prob p ρ (i + 1) xs
    else keepDraws prob p ρ (i + 1) xs

/-- `graph_Gnp` (graph.py:8-27) -/
def graphGnp (n : Int) (prob : K) (ρ : Nat → K) : Except Err (GSt K) :=
  if ¬ 1 < n then .error .assertion
  else if ¬ (0 ≤ prob ∧ prob ≤ 1) then .error .assertion
  else Graph.new n
    (some (.many (keepDraws prob (fun e : Int × Int => decide (e.1 < e.2)) ρ 0 (perms2 n.toNat)) .none))
    false .mean

/-- `digraph_Gnp` (directed_graph.py:8-27) -/
def digraphGnp (n : Int) (prob : K) (ρ : Nat → K) : Except Err (DSt K) :=
  if ¬ 1 < n then .error .assertion
  else if ¬ (0 ≤ prob ∧ prob ≤ 1) then .error .assertion
  else DiGraph.new n (some (.many (keepDraws prob (fun _ => true) ρ 0 (perms2 n.toNat)) .none))
    false .mean

/-- `bigraph_Gnp` (bipartite_graph.py:8-29) -/
def bigraphGnp (m n : Int) (prob : K) (ρ : Nat → K) : Except Err (BSt K) :=
  if ¬ 1 < n then .error .assertion
  else if ¬ 1 < m then .error .assertion
  else if ¬ (0 ≤ prob ∧ prob ≤ 1) then .error .assertion
  else BiGraph.new m.toNat n
    (some (.many (keepDraws prob (fun _ => true) ρ 0 (product m.toNat n.toNat)) .none)) .mean

/-- `uniform_hypergraph_Gnp` (hypergraph.py:9-32) -/
def uniformGnp (k n : Int) (prob : K) (ρ : Nat → K) : Except Err (HSt K) :=
  if ¬ 1 < n then .error .assertion
  else if ¬ 1 < k then .error .assertion
  else if ¬ (0 ≤ prob ∧ prob ≤ 1) then .error .assertion
  else Hyper.new n
    (some (Hyper.listArg (keepDraws prob (fun _ => true) ρ 0 (combinations k.toNat (rangeI n.toNat)))))
    .none none .mean

end Gnp

/-! ### Rejection loops -/

/-- `while len(e_set) < m: e = …; if …: continue; e_set.add(e)`.  `pick` is the body up to the
membership test: it may raise, or reject its own draw (`none`, a self loop).  The set is listed in
order of insertion. (random/graphs/graph.py:82-90) -/
def fill {σ α : Type} [DecidableEq α] (pick : σ → Except Err (Option α × σ)) (m : Int) :
    Nat → List α → σ → Option (Except Err (List α))
  | 0, acc, _ => if (acc.length : Int) < m then none else some (.ok acc)
  | fuel + 1, acc, s =>
    if (acc.length : Int) < m then
      match pick s with
      | .error e => some (.error e)
      | .ok (none, s') => fill pick m fuel acc s'
      | .ok (some x, s') => if x ∈ acc then fill pick m fuel acc s' else fill pick m fuel (acc ++ [x]) s'
    else some (.ok acc)

/-- two calls of `random.choice(v_list)` (random/graphs/graph.py:83-84) -/
def choice2 (m n : Nat) (ω : Draws) : Except Err ((Int × Int) × Draws) := do
  let a ← choice (rangeI m) ω
  let b ← choice (rangeI n) a.2
  .ok ((a.1, b.1), b.2)

/-- the body of `graph_Gnm` (graph.py:83-88): the endpoints are swapped into ascending order,
self loops are rejected -/
def pickGraph (n : Nat) (ω : Draws) : Except Err (Option (Int × Int) × Draws) := do
  let p ← choice2 n n ω
  let e := if p.1.1 > p.1.2 then (p.1.2, p.1.1) else p.1
  .ok (if e.1 = e.2 then none else some e, p.2)

/-- the body of `digraph_Gnm` (directed_graph.py:94-98) -/
def pickDigraph (n : Nat) (ω : Draws) : Except Err (Option (Int × Int) × Draws) := do
  let p ← choice2 n n ω
  .ok (if p.1.1 = p.1.2 then none else some p.1, p.2)

/-- the body of `bigraph_Gnm` (bipartite_graph.py:81-84) -/
def pickBigraph (m n : Nat) (ω : Draws) : Except Err (Option (Int × Int) × Draws) := do
  let p ← choice2 m n ω
  .ok (some p.1, p.2)

section Gnm
variable {K : Type} [Field K] [LinearOrder K]

/-- the constructor call after the loop (random/graphs/graph.py:91-92) -/
def finish {α β : Type} (mk : List α → Except Err β) (r : Option (Except Err (List α))) :
    Option (Except Err β) :=
  r.map fun x => x.bind mk

/-- `graph_Gnm` (graph.py:62-92); the bound is strict -/
def graphGnm (n m : Int) (ord : List (Int × Int) → List (Int × Int)) (ω : Draws) (fuel : Nat) :
    Option (Except Err (GSt K)) :=
  if ¬ 1 < n then some (.error .assertion)
  else if ¬ m < n * (n - 1) / 2 then some (.error .assertion)
  else finish (fun es => Graph.new n (some (.many (ord es) .none)) false .mean)
    (fill (pickGraph n.toNat) m fuel [] ω)

/-- `digraph_Gnm` (directed_graph.py:72-101); the bound is strict -/
def digraphGnm (n m : Int) (ord : List (Int × Int) → List (Int × Int)) (ω : Draws) (fuel : Nat) :
    Option (Except Err (DSt K)) :=
  if ¬ 1 < n then some (.error .assertion)
  else if ¬ m < n * (n - 1) then some (.error .assertion)
  else finish (fun es => DiGraph.new n (some (.many (ord es) .none)) false .mean)
    (fill (pickDigraph n.toNat) m fuel [] ω)

/-- `bigraph_Gnm` (bipartite_graph.py:57-88) -/
def bigraphGnm (m n e : Int) (ord : List (Int × Int) → List (Int × Int)) (ω : Draws) (fuel : Nat) :
    Option (Except Err (BSt K)) :=
  if ¬ 1 < m then some (.error .assertion)
  else if ¬ 1 < n then some (.error .assertion)
  else if ¬ e ≤ n * m then some (.error .assertion)
  else finish (fun es => BiGraph.new m.toNat n (some (.many (ord es) .none)) .mean)
    (fill (pickBigraph m.toNat n.toNat) e fuel [] ω)

end Gnm

/-- the loop of `random.sample` (CPython: `j = randbelow(n-i); result[i] = pool[j];
pool[j] = pool[n-i-1]`), `k` rounds.  For large populations CPython rejects repeated indices
instead; the outcomes are the same lists of distinct elements, the draws consumed are not.
(inside `random.sample`, random/hypergraphs/hypergraph.py:57) -/
def sampleAux : Nat → List Int → Draws → List Int × Draws
  | 0, _, ω => ([], ω)
  | k + 1, pool, ω =>
    let q := swapAt pool (randbelow pool.length ω).1 (pool.length - 1)
    let r := sampleAux k q.dropLast (randbelow pool.length ω).2
    (q.getLast?.toList ++ r.1, r.2)

/-- `random.sample(range(n), k)`; `ValueError` unless `0 ≤ k ≤ n`
(random/hypergraphs/hypergraph.py:57) -/
def sample (n : Nat) (k : Int) (ω : Draws) : Except Err (List Int × Draws) :=
  if 0 ≤ k ∧ k ≤ n then .ok (sampleAux k.toNat (rangeI n) ω) else .error .value

/-- the body of `uniform_hypergraph_Gnm` (hypergraph.py:57-58) -/
def pickUniform (k : Int) (n : Nat) (ω : Draws) : Except Err (Option (List Int) × Draws) := do
  let s ← sample n k ω
  .ok (some (sortV s.1), s.2)

/-- `uniform_hypergraph_Gnm` (hypergraph.py:35-62) -/
def uniformGnm {K : Type} [Field K] [LinearOrder K] (k n m : Int)
    (ord : List (List Int) → List (List Int)) (ω : Draws) (fuel : Nat) :
    Option (Except Err (HSt K)) :=
  if ¬ 1 < k then some (.error .assertion)
  else if ¬ 1 < n then some (.error .assertion)
  else if ¬ 0 < m then some (.error .assertion)
  else finish (fun es => Hyper.new n (some (Hyper.listArg (ord es))) .none none .mean)
    (fill (pickUniform k n.toNat) m fuel [] ω)

/-! ### Weighted hyperedge sizes -/

section Choices
variable {K : Type} [Field K] [LinearOrder K]

/-- `bisect.bisect_right(a, x, lo, hi)` (CPython), at most `fuel` halvings
(inside `random.choices`, random/hypergraphs/hypergraph.py:113) -/
def bisect (a : List K) (x : K) : Nat → Nat → Nat → Nat
  | 0, lo, _ => lo
  | fuel + 1, lo, hi =>
    if lo < hi then
      if x < a.getD ((lo + hi) / 2) 0 then bisect a x fuel lo ((lo + hi) / 2)
      else bisect a x fuel ((lo + hi) / 2 + 1) hi
    else lo

/-- `itertools.accumulate(ws)` (inside `random.choices`, random/hypergraphs/hypergraph.py:113) -/
def accumulate (acc : K) : List K → List K
  | [] => []
  | w :: ws => (acc + w) :: accumulate (acc + w) ws

/-- the index drawn by `random.choices(l, weights=ws)` (CPython): `ValueError` when the total weight
is not positive; otherwise the cumulative weights are searched for `random() * total`
(random/hypergraphs/hypergraph.py:113) -/
def choicesIdx (ws : List K) (r : K) : Except Err Nat :=
  match (accumulate 0 ws).getLast? with
  | none => .error .index
  | some total =>
    if total ≤ 0 then .error .value
    else .ok (bisect (accumulate 0 ws) (r * total) ws.length 0 (ws.length - 1))

end Choices

/-- the `method` argument of `hypergraph_Gnm` (random/hypergraphs/hypergraph.py:65, 91) -/
inductive Method
  | uniform | lowOrderFirst | highOrderFirst | custom | other
  deriving DecidableEq, Repr

/-- `[p / s for p in ps]` for `s = sum(ps)`; `ZeroDivisionError` when the sum is zero
(random/hypergraphs/hypergraph.py:97-98) -/
noncomputable def normWts (ps : List ℝ) : Except Err (List ℝ) :=
  if ps.sum = 0 ∧ ps ≠ [] then .error .zeroDiv else .ok (ps.map fun p => p / ps.sum)

/-- `[3 ** (-k) for k in range(len(deg_e_list))]` (hypergraph.py:96, 100) -/
noncomputable def geomWts (len : Nat) : List ℝ := (List.range len).map fun k => ((3 : ℝ) ^ k)⁻¹

/-- `[C(num_v, k) / (2 ** num_v - 1) for k in deg_e_list]` (hypergraph.py:94) -/
noncomputable def uniformWts (n : Nat) : Except Err (List ℝ) :=
  collectE (List.range (n - 1)) fun i => do
    let c ← Utils.binom n (i + 2 : Nat)
    .ok ((c : ℝ) / (2 ^ n - 1))

/-- the weights of the sizes `2, …, num_v` (hypergraph.py:92-109) -/
noncomputable def sizeWts (n : Nat) (method : Method) (prob : Option (List ℝ)) : Except Err (List ℝ) :=
  match method with
  | .uniform => uniformWts n
  | .lowOrderFirst => normWts (geomWts (n - 1))
  | .highOrderFirst => normWts (geomWts (n - 1)).reverse
  | .custom =>
    match prob with
    | none => .error .assertion
    | some ps => if ps.length = n - 1 then normWts ps else .error .assertion
  | .other => .error .value

/-- the body of `hypergraph_Gnm` (hypergraph.py:113-115): the size is drawn by `random.choices` from
`deg_e_list = list(range(2, num_v + 1))` -/
noncomputable def pickSized (ws : List ℝ) (n : Nat) (s : (Nat → ℝ) × Draws) :
    Except Err (Option (List Int) × (Nat → ℝ) × Draws) := do
  let i ← choicesIdx ws (s.1 0)
  let l ← sample n (i + 2 : Nat) s.2
  .ok (some (sortV l.1), (fun j => s.1 (j + 1)), l.2)

/-- `hypergraph_Gnm` (hypergraph.py:65-119) -/
noncomputable def hypergraphGnm (n m : Int) (method : Method) (prob : Option (List ℝ))
    (ord : List (List Int) → List (List Int)) (ρ : Nat → ℝ) (ω : Draws) (fuel : Nat) :
    Option (Except Err (HSt ℝ)) :=
  if ¬ 1 < n then some (.error .assertion)
  else if ¬ 0 < m then some (.error .assertion)
  else if method = .other then some (.error .assertion)
  else
    match sizeWts n.toNat method prob with
    | .error e => some (.error e)
    | .ok ws => finish (fun es => Hyper.new n (some (Hyper.listArg (ord es))) .none none .mean)
        (fill (pickSized ws n.toNat) m fuel [] (ρ, ω))

/-! ### Geometric skipping -/

/-- `while w >= v and v < num_v: w = w - v; v = v + 1` (graph.py:53-55).  The loop raises `v`, so
`num_v - v` rounds are enough (`skipRows_done`). -/
def skipRows (n : Int) : Nat → Int → Int → Int × Int
  | 0, v, w => (v, w)
  | fuel + 1, v, w => if v ≤ w ∧ v < n then skipRows n fuel (v + 1) (w - v) else (v, w)

/-- `int(x)`: towards zero (random/graphs/graph.py:52) -/
noncomputable def pyInt (x : ℝ) : Int := if 0 ≤ x then ⌊x⌋ else ⌈x⌉

/-- `lr = math.log(1.0 - r); int(lr / lp)` (graph.py:51-52) -/
noncomputable def skipOf (lp r : ℝ) : Except Err Int := do
  let lr ← Utils.mathLog (1 - r)
  if lp = 0 then .error .zeroDiv else .ok (pyInt (lr / lp))

/-- the outer loop (graph.py:50-57, directed_graph.py:50-57, 60-67): the pairs `(v, w)` appended,
and the number of draws consumed so far; `none` when the rounds are exhausted -/
noncomputable def fastLoop (n : Int) (lp : ℝ) (ρ : Nat → ℝ) :
    Nat → Nat → Int → Int → Option (Except Err (List (Int × Int) × Nat))
  | 0, i, v, _ => if v < n then none else some (.ok ([], i))
  | fuel + 1, i, v, w =>
    if v < n then
      match skipOf lp (ρ i) with
      | .error e => some (.error e)
      | .ok s =>
        let q := skipRows n (n - v).toNat v (w + 1 + s)
        (fastLoop n lp ρ fuel (i + 1) q.1 q.2).map fun x => x.map fun r =>
          (if q.1 < n then q :: r.1 else r.1, r.2)
    else some (.ok ([], i))

/-- `graph_Gnp_fast` (graph.py:30-59) -/
noncomputable def graphGnpFast (n : Int) (prob : ℝ) (ρ : Nat → ℝ) (fuel : Nat) :
    Option (Except Err (GSt ℝ)) :=
  if ¬ 1 < n then some (.error .assertion)
  else if ¬ (0 ≤ prob ∧ prob ≤ 1) then some (.error .assertion)
  else
    match Utils.mathLog (1 - prob) with
    | .error e => some (.error e)
    | .ok lp =>
      (fastLoop n lp ρ fuel 0 1 (-1)).map fun x => x.bind fun r =>
        Graph.new n (some (.many r.1 .none)) false .mean

/-- `digraph_Gnp_fast` (directed_graph.py:30-69): a second pass with the pairs turned around -/
noncomputable def digraphGnpFast (n : Int) (prob : ℝ) (ρ : Nat → ℝ) (fuel : Nat) :
    Option (Except Err (DSt ℝ)) :=
  if ¬ 1 < n then some (.error .assertion)
  else if ¬ (0 ≤ prob ∧ prob ≤ 1) then some (.error .assertion)
  else
    match Utils.mathLog (1 - prob) with
    | .error e => some (.error e)
    | .ok lp =>
      match fastLoop n lp ρ fuel 0 1 (-1) with
      | none => none
      | some (.error e) => some (.error e)
      | some (.ok r) =>
        (fastLoop n lp ρ fuel r.2 1 (-1)).map fun x => x.bind fun r' =>
          DiGraph.new n (some (.many ((r.1.map fun e => (e.2, e.1)) ++ r'.1) .none)) false .mean

end RandGen
end DHG
