import Mathlib.Data.String.Basic
import Mathlib.Data.List.Sort
import Verif.PyOn
import Verif.BiGraph
import Verif.Rand

/-!
# `dhg/utils`

`structure.py`, `dataset_split.py`, `dataset_wrapers.py`, `sparse.py`; `math.py` is in `UtilsMath`.
-/

set_option linter.unusedSectionVars false
set_option autoImplicit false

namespace DHG
namespace Utils

/-! ### structure.py -/

/-- `adj_dict[src].append(dst)` on a `defaultdict(list)` (structure.py:31-32) -/
def adjPush (d : Dict Int (List Int)) (e : Int × Int) : Dict Int (List Int) :=
  d.set e.1 (((d.get? e.1).getD []) ++ [e.2])

/-- `edge_list_to_adj_dict` (structure.py:21-33) -/
def edgeListToAdjDict (es : List (Int × Int)) : Dict Int (List Int) := es.foldl adjPush []

/-- `edge_list_to_adj_list` (structure.py:5-18) -/
def edgeListToAdjList (es : List (Int × Int)) : List (List Int) :=
  (edgeListToAdjDict es).map fun p => p.1 :: p.2

/-- `adj_list_to_edge_list` (structure.py:36-52) -/
def adjListToEdgeList (adj : List (List Int)) : List (Int × Int) :=
  adj.flatMap fun line =>
    match line with
    | [] => []
    | src :: dsts => dsts.map fun d => (src, d)

/-- `s.add(x)` for a `set`; the iteration order of the set never matters because it is sorted
(e.g. utils/structure.py:72-73) -/
def setAdd (s : List String) (x : String) : List String := if x ∈ s then s else s ++ [x]

/-- `set()` filled in a loop, then `sorted(...)` (structure.py:71-75, 85-89) -/
def sortedSet (xs : List String) : List String := (xs.foldl setAdd []).insertionSort (· ≤ ·)

/-- `{raw: new for new, raw in enumerate(l)}` (structure.py:76-79, 90) -/
def enumMap (l : List String) : Dict String Nat :=
  l.zipIdx.foldl (fun d p => d.set p.1 p.2) []

/-- `m[x]`, `KeyError` if absent (e.g. utils/structure.py:171) -/
def mapAt (m : Dict String Nat) (x : String) : Except Err Nat :=
  match m.get? x with
  | some i => .ok i
  | none => .error .key

/-- `u, v = e`, `ValueError` unless there are two components (e.g. utils/structure.py:71) -/
def unpack2 (e : List String) : Except Err (String × String) :=
  match e with
  | [u, v] => .ok (u, v)
  | _ => .error .value

section Remap
variable {M : Type} (str : M → String)

/-- `[tuple([v_map[v] for v in e]) for e in e_list]` (structure.py:91) -/
def mapEdges (m : Dict String Nat) (es : List (List String)) : Except Err (List (List Nat)) :=
  collectE es fun e => collectE e (mapAt m)

/-- `[(u_map[u], v_map[v]) for u, v in e_list]` (structure.py:80) -/
def mapPairs (mu mv : Dict String Nat) (es : List (List String)) : Except Err (List (List Nat)) :=
  collectE es fun e => do
    let p ← unpack2 e
    let a ← mapAt mu p.1
    let b ← mapAt mv p.2
    .ok [a, b]

/-- `remap_edge_list(e_list, False, ret_map=True)` (structure.py:68, 84-93).  Markers are values of
any type `M`, `str` is Python's `str`. -/
def remapEdgeList (es : List (List M)) : Except Err (List (List Nat) × Dict String Nat) := do
  let es := es.map fun e => e.map str
  let m := enumMap (sortedSet es.flatten)
  let r ← mapEdges m es
  .ok (r, m)

/-- `remap_edge_list(e_list, True, ret_map=True)` (structure.py:68-81) -/
def remapEdgeListBi (es : List (List M)) :
    Except Err (List (List Nat) × Dict String Nat × Dict String Nat) := do
  let es := es.map fun e => e.map str
  let ps ← collectE es unpack2
  let mu := enumMap (sortedSet (ps.map Prod.fst))
  let mv := enumMap (sortedSet (ps.map Prod.snd))
  let r ← mapPairs mu mv es
  .ok (r, mu, mv)

/-- `remap_edge_lists(*e_lists, bipartite_graph=False, ret_map=True)` (structure.py:112, 128-140) -/
def remapEdgeLists (ess : List (List (List M))) : Except Err (List (List (List Nat)) × Dict String Nat) := do
  let ess := ess.map fun es => es.map fun e => e.map str
  let m := enumMap (sortedSet ess.flatten.flatten)
  let r ← collectE ess (mapEdges m)
  .ok (r, m)

/-- `remap_edge_lists(*e_lists, bipartite_graph=True, ret_map=True)` (structure.py:112-126) -/
def remapEdgeListsBi (ess : List (List (List M))) :
    Except Err (List (List (List Nat)) × Dict String Nat × Dict String Nat) := do
  let ess := ess.map fun es => es.map fun e => e.map str
  let ps ← collectE ess.flatten unpack2
  let mu := enumMap (sortedSet (ps.map Prod.fst))
  let mv := enumMap (sortedSet (ps.map Prod.snd))
  let r ← collectE ess (mapPairs mu mv)
  .ok (r, mu, mv)

/-- the lines that are not skipped by `if len(line) <= 1: continue` (structure.py:159-160, 178-179) -/
def longLines (adj : List (List String)) : List (List String) := adj.filter fun l => decide (1 < l.length)

/-- `[u_map[line[0]]] + [v_map[v] for v in line[1:]]` (structure.py:169-171) -/
def mapLine (mu mv : Dict String Nat) (line : List String) : Except Err (List Nat) :=
  match line with
  | [] => .error .index
  | u :: vs => do
    let a ← mapAt mu u
    let bs ← collectE vs (mapAt mv)
    .ok (a :: bs)

/-- `remap_adj_list(adj_list, False, ret_map=True)` (structure.py:156, 175-190) -/
def remapAdjList (adj : List (List M)) : Except Err (List (List Nat) × Dict String Nat) := do
  let adj := adj.map fun l => l.map str
  let m := enumMap (sortedSet (longLines adj).flatten)
  let r ← mapEdges m adj
  .ok (r, m)

/-- `remap_adj_list(adj_list, True, ret_map=True)` (structure.py:156-174) -/
def remapAdjListBi (adj : List (List M)) :
    Except Err (List (List Nat) × Dict String Nat × Dict String Nat) := do
  let adj := adj.map fun l => l.map str
  let mu := enumMap (sortedSet ((longLines adj).flatMap fun l => l.take 1))
  let mv := enumMap (sortedSet ((longLines adj).flatMap fun l => l.drop 1))
  let r ← collectE adj (mapLine mu mv)
  .ok (r, mu, mv)

/-- `remap_adj_lists(*adj_lists, bipartite_graph=False, ret_map=True)` (structure.py:209, 230-247) -/
def remapAdjLists (adjs : List (List (List M))) : Except Err (List (List (List Nat)) × Dict String Nat) := do
  let adjs := adjs.map fun adj => adj.map fun l => l.map str
  let m := enumMap (sortedSet (longLines adjs.flatten).flatten)
  let r ← collectE adjs (mapEdges m)
  .ok (r, m)

/-- `remap_adj_lists(*adj_lists, bipartite_graph=True, ret_map=True)` (structure.py:209-229) -/
def remapAdjListsBi (adjs : List (List (List M))) :
    Except Err (List (List (List Nat)) × Dict String Nat × Dict String Nat) := do
  let adjs := adjs.map fun adj => adj.map fun l => l.map str
  let mu := enumMap (sortedSet ((longLines adjs.flatten).flatMap fun l => l.take 1))
  let mv := enumMap (sortedSet ((longLines adjs.flatten).flatMap fun l => l.drop 1))
  let r ← collectE adjs fun adj => collectE adj (mapLine mu mv)
  .ok (r, mu, mv)

end Remap

/-! ### dataset_split.py -/

/-- position of a slice bound: negative bounds count from the end, all are clipped
(e.g. utils/dataset_split.py:72-78) -/
def sliceBound (n : Nat) (i : Int) : Nat := if i < 0 then (i + n).toNat else min i.toNat n

/-- `l[a:b]` (e.g. utils/dataset_split.py:74) -/
def slice {α : Type} (l : List α) (a b : Int) : List α :=
  (l.take (sliceBound l.length b)).drop (sliceBound l.length a)

/-- `l[a:]` (e.g. utils/dataset_split.py:78) -/
def sliceFrom {α : Type} (l : List α) (a : Int) : List α := l.drop (sliceBound l.length a)

/-- lines dataset_split.py:50-58 and 110-118: `squeeze().astype(int)`, the assertion on the
dimension (a single label is squeezed to dimension 0), `min()` of nothing raises, labels starting
at 1 are shifted.  `astype` copies, so the caller's labels are not changed. -/
def prepLabels (l : List Int) : Except Err (List Int) :=
  if l.length = 1 then .error .assertion
  else match l.min? with
    | none => .error .value
    | some m => .ok (if m = 1 then l.map (· - 1) else l)

/-- `np.unique(v_label).shape[0]` (utils/dataset_split.py:60) -/
def numClasses (l : List Int) : Nat := l.dedup.length

/-- `np.where(v_label == c)[0]` (utils/dataset_split.py:70) -/
def whereEq (l : List Int) (c : Int) : List Nat := (List.range l.length).filter fun v => l[v]? == some c

/-- the two or three masks returned by `_idx2mask` (utils/dataset_split.py:10-19) -/
inductive Masks
  | two (train test : List Bool)
  | three (train val test : List Bool)
  deriving DecidableEq, Repr

/-- `mask = torch.zeros(num_v, dtype=bool); mask[idx] = True` (utils/dataset_split.py:11-13) -/
def maskOf (n : Nat) (idx : List Nat) : Except Err (List Bool) :=
  if ∀ i ∈ idx, i < n then .ok ((List.range n).map fun v => decide (v ∈ idx)) else .error .index

/-- `_idx2mask` (dataset_split.py:10-19) -/
def idx2mask (n : Nat) (train test : List Nat) (val : Option (List Nat)) : Except Err Masks := do
  let a ← maskOf n train
  let b ← maskOf n test
  match val with
  | some vs => do
    let c ← maskOf n vs
    .ok (.three a c b)
  | none => .ok (.two a b)

/-- how many vertices of a class go where (utils/dataset_split.py:72-78, 139-148) -/
structure Cuts where
  train : Int
  val : Int
  test : Option Int

/-- the loop over the classes (dataset_split.py:67-78 and 133-148): shuffle the vertices of the
class, then slice.  Returns the training, validation and test lists. -/
def splitLoop (cuts : Nat → Cuts) (l : List Int) :
    List Nat → Draws → (List Nat × List Nat × List Nat)
  | [], _ => ([], [], [])
  | c :: cs, ω =>
    let p := shuffle (whereEq l c) ω
    let k := cuts p.1.length
    let r := splitLoop cuts l cs p.2
    (slice p.1 0 k.train ++ r.1, slice p.1 k.train (k.train + k.val) ++ r.2.1,
      (match k.test with
        | some t => slice p.1 (k.train + k.val) (k.train + k.val + t)
        | none => sliceFrom p.1 (k.train + k.val)) ++ r.2.2)

/-- `split_by_num` (dataset_split.py:22-80).  `valNum = none` and `0` both mean no validation set. -/
def splitByNum (n : Nat) (labels : List Int) (train : Int) (valNum testNum : Option Int) (ω : Draws) :
    Except Err Masks := do
  let l ← prepLabels labels
  let val := valNum.getD 0
  let r := splitLoop (fun _ => { train, val, test := testNum }) l (List.range (numClasses l)) ω
  idx2mask n r.1 r.2.2 (if val ≠ 0 then some r.2.1 else none)

section Ratio
variable {K : Type} [Field K] [LinearOrder K] [FloorRing K]

/-- `int(x)`: truncation towards zero.  Products are exact, floating point rounding is not modelled.
(utils/dataset_split.py:139-140) -/
def truncInt (x : K) : Int := if 0 ≤ x then ⌊x⌋ else ⌈x⌉

/-- the assertion on the ratios (dataset_split.py:121-124) -/
def ratiosOk (train val : K) (test : Option K) : Bool :=
  match test with
  | some t => decide (train + val + t ≤ 1)
  | none => decide (train + val < 1)

/-- `split_by_ratio` (dataset_split.py:83-150) -/
def splitByRatio (n : Nat) (labels : List Int) (train : K) (valRatio testRatio : Option K) (ω : Draws) :
    Except Err Masks := do
  let l ← prepLabels labels
  let val := valRatio.getD 0
  if ratiosOk train val testRatio then
    let r := splitLoop (fun m => { train := truncInt ((m : K) * train), val := truncInt ((m : K) * val),
                                   test := testRatio.map fun t => truncInt ((m : K) * t) })
      l (List.range (numClasses l)) ω
    idx2mask n r.1 r.2.2 (if val ≠ 0 then some r.2.1 else none)
  else .error .assertion

end Ratio

section UI
variable {K : Type} [Field K] [LinearOrder K]

/-- adjacency list with the user first on each line (utils/dataset_split.py:171-186) -/
abbrev AdjList : Type := List (List Nat)

/-- the loop of `split_by_num_for_UI_bigraph` (dataset_split.py:174-188) -/
def uiNumLoop (t : Int) : List Nat → Draws → PyM (BSt K) (AdjList × AdjList)
  | [], _ => PyM.pure ([], [])
  | u :: us, ω => do
    let nb ← Ord.getNr .bi u
    let r ← uiNumLoop t us (shuffle nb ω).2
    pure (if nb.length = 0 then r
      else if (nb.length : Int) ≤ t then ((u :: (shuffle nb ω).1) :: r.1, r.2)
      else ((u :: slice (shuffle nb ω).1 0 t) :: r.1, (u :: sliceFrom (shuffle nb ω).1 t) :: r.2))

/-- `split_by_num_for_UI_bigraph` (dataset_split.py:153-189) -/
def splitByNumUI (t : Int) (ω : Draws) : PyM (BSt K) (AdjList × AdjList) := do
  let n ← readRaw GRaw.numU
  uiNumLoop t (List.range n) ω

variable [FloorRing K]

/-- the loop of `split_by_ratio_for_UI_bigraph` (dataset_split.py:212-225) -/
def uiRatioLoop (t : K) : List Nat → Draws → PyM (BSt K) (AdjList × AdjList)
  | [], _ => PyM.pure ([], [])
  | u :: us, ω => do
    let nb ← Ord.getNr .bi u
    let r ← uiRatioLoop t us (shuffle nb ω).2
    pure (if nb.length = 0 then r
      else ((u :: slice (shuffle nb ω).1 0 (truncInt ((nb.length : K) * t))) :: r.1,
        (u :: sliceFrom (shuffle nb ω).1 (truncInt ((nb.length : K) * t))) :: r.2))

/-- `split_by_ratio_for_UI_bigraph` (dataset_split.py:192-226) -/
def splitByRatioUI (t : K) (ω : Draws) : PyM (BSt K) (AdjList × AdjList) := do
  let n ← readRaw GRaw.numU
  uiRatioLoop t (List.range n) ω

end UI

/-! ### dataset_wrapers.py -/

/-- `UserItemDataset` (dataset_wrapers.py:10-42).  `trainAdj` exists only in the test phase.
Reading a missing user of the `defaultdict` inserts an empty list; this changes no later lookup
and is not modelled. -/
structure UIData where
  train : Bool
  numUsers : Int
  numItems : Int
  pairs : List (Int × Int)
  adj : Dict Int (List Int)
  trainAdj : Dict Int (List Int)
  strict : Bool

/-- `__init__` (dataset_wrapers.py:22-42) -/
def UIData.new (numUsers numItems : Int) (pairs : List (Int × Int)) (trainPairs : Option (List (Int × Int)))
    (strict : Bool) (phase : String) : Except Err UIData :=
  if phase = "train" ∨ phase = "test" then
    if phase = "train" then
      .ok ⟨true, numUsers, numItems, pairs, edgeListToAdjDict pairs, [], strict⟩
    else match trainPairs with
      | some tp => .ok ⟨false, numUsers, numItems, pairs, edgeListToAdjDict pairs, edgeListToAdjDict tp, strict⟩
      | none => .error .assertion
  else .error .assertion

/-- `self.adj_dict[user]` (utils/dataset_wrapers.py:36, 48) -/
def UIData.items (d : UIData) (u : Int) : List Int := (d.adj.get? u).getD []

/-- `self.train_adj_dict[user]` (utils/dataset_wrapers.py:42, 82) -/
def UIData.trainItems (d : UIData) (u : Int) : List Int := (d.trainAdj.get? u).getD []

/-- `sample_neg_item` (dataset_wrapers.py:53-62) limited to `fuel` draws: `none` means that the loop
is still running after that many draws. -/
def UIData.sampleNeg (d : UIData) (u : Int) : Nat → Draws → Option (Except Err (Nat × Draws))
  | 0, _ => none
  | fuel + 1, ω =>
    match randrange d.numItems ω with
    | .error e => some (.error e)
    | .ok p => if (p.1 : Int) ∈ d.items u then d.sampleNeg u fuel p.2 else some (.ok p)

/-- `sample_triplet` (dataset_wrapers.py:44-51) -/
def UIData.sampleTriplet (d : UIData) (fuel : Nat) (ω : Draws) : Option (Except Err (Int × Int × Int)) :=
  match randrange d.numUsers ω with
  | .error e => some (.error e)
  | .ok p =>
    if (d.items p.1).length > 0 then
      match choice (d.items p.1) p.2 with
      | .error e => some (.error e)
      | .ok q => (d.sampleNeg p.1 fuel q.2).map fun r => r.map fun s => ((p.1 : Int), q.1, (s.1 : Int))
    else some (.error .assertion)

/-- `l[i]`, negative positions count from the end (utils/dataset_wrapers.py:72) -/
def pyAt {α : Type} (l : List α) (i : Int) : Except Err α :=
  match l[(if i < 0 then i + l.length else i).toNat]? with
  | some a => if i < -(l.length : Int) then .error .index else .ok a
  | none => .error .index

/-- `__getitem__` in the training phase (dataset_wrapers.py:70-76) -/
def UIData.getTrain (d : UIData) (i : Int) (fuel : Nat) (ω : Draws) : Option (Except Err (Int × Int × Int)) :=
  if d.strict then
    match pyAt d.pairs i with
    | .error e => some (.error e)
    | .ok p => (d.sampleNeg p.1 fuel ω).map fun r => r.map fun s => (p.1, p.2, (s.1 : Int))
  else d.sampleTriplet fuel ω

/-- `t = torch.zeros(n); t[idx] = x` for a vector: negative positions count from the end
(utils/dataset_wrapers.py:77-84) -/
def fillAt {α : Type} (n : Int) (zero x : α) (idx : List Int) : Except Err (List α) :=
  if n < 0 then .error .runtime
  else if ∀ i ∈ idx, -n ≤ i ∧ i < n then
    .ok ((List.range n.toNat).map fun v : Nat => if (v : Int) ∈ idx ∨ (v : Int) - n ∈ idx then x else zero)
  else .error .index

/-- `__getitem__` in the test phase (dataset_wrapers.py:77-85); `⊥` is `float("-inf")` -/
def UIData.getTest {K : Type} [Field K] (d : UIData) (i : Int) :
    Except Err (Int × List (WithBot K) × List K) := do
  let m ← fillAt d.numItems (0 : WithBot K) ⊥ (d.trainItems i)
  let r ← fillAt d.numItems (0 : K) 1 (d.items i)
  .ok (i, m, r)

/-- `__len__` (dataset_wrapers.py:87-93) -/
def UIData.len (d : UIData) : Int := if d.train then d.pairs.length else d.numUsers

/-! ### sparse.py -/

section Dropout
variable {K : Type} [Field K] [LinearOrder K]

/-- `sparse_dropout` (sparse.py:4-27).  `torch.bernoulli(1 - p)` is 1 where a uniform draw of `[0,1)`
is below `1 - p`; `us` lists these draws for the stored entries.  `sparseDropout` (BaseGraph) is the
same function with the Boolean mask as argument, see `dropoutWith_eq`. -/
def dropoutWith (M : Sp K) (p fill : K) (us : Nat → K) : Except Err (Sp K) :=
  let M := M.coalesce
  if 0 ≤ p ∧ p ≤ 1 then
    if p = 0 then .ok M
    else .ok { M with ents := M.ents.zipIdx.map fun e =>
                (e.1.1, e.1.2 * (if us e.2 < 1 - p then 1 else 0) + (if us e.2 < 1 - p then 0 else 1) * fill) }
  else .error .assertion

end Dropout

end Utils
end DHG
