import Mathlib.Data.List.Sort
import Mathlib.Data.List.Dedup
import Verif.PyOn
import Verif.Ordered

/-!
# `Hypergraph` (dhg/structure/base.py:349-1010, dhg/structure/hypergraphs/hypergraph.py)

Most methods exist twice in the source, once for the whole hypergraph (`self.cache`) and once per
hyperedge group (`self.group_cache[name]`, suffix `_of_group`).  Both are modelled by one function
with a scope argument `sc : Option String`: `none` is the whole hypergraph, `some g` the group `g`;
they are separate branches wherever the two sources differ.  Devices are not modelled.
-/

set_option linter.unusedSectionVars false
set_option autoImplicit false

namespace DHG

variable {K : Type} [Field K] [LinearOrder K]

/-- one hyperedge group: `{hyperedge code: {"w_e": weight}}` (base.py:644-664).  In class
`Hypergraph` the code is `(e, e)` with `e` the sorted tuple of vertices (hypergraph.py:345-349), so
only `e` is kept here, and the content holds the weight only. -/
abbrev HGroup (K : Type) := Dict (List Int) K

/-- raw attributes (base.py:367-381, 429-431); `_v_weight` is `None` after `clear()` -/
structure HRaw (K : Type) where
  numV : Nat
  vWeight : Option (List K)
  groups : Dict String (HGroup K)
  deriving DecidableEq, Repr

/-- names under which values are cached, `"v"`, `"e"`, `"H_v2e"`, `"H"`, `"H_T"`, `"W_v"`, `"W_e"`,
`"D_v"`, `"D_v_neg_1"`, `"D_v_neg_1_2"`, `"D_e"`, `"D_e_neg_1"`, `"L_sym"`, `"L_rw"`, `"L_HGNN"`
(hypergraph.py:504-1180 and structure/base.py:798, 922) -/
inductive HName
  | v | e | Hv2e | H | HT | Wv | We | Dv | DvN1 | DvN12 | De | DeN1 | Lsym | Lrw | LHGNN
  deriving DecidableEq, Repr

/-- `(none, k)` stands for `self.cache[k]`, `(some g, k)` for `self.group_cache[g][k]`
(e.g. structure/base.py:922-936) -/
abbrev HKey := Option String × HName

/-- cached values (e.g. hypergraph.py:514-524, structure/base.py:798-800) -/
inductive HVal (K : Type)
  | verts (l : List Nat)
  | edges (es : List (List Int)) (ws : List K)
  | mat (M : Sp K)

/-- a `Hypergraph` object: raw attributes, and `cache` together with `group_cache`
(hypergraph.py:30-48, structure/base.py:378-381) -/
abbrev HSt (K : Type) := Cached (HRaw K) HKey (HVal K)

/-- a sequence of vertices written by the caller, as a tuple or as a list (e.g. hypergraph.py:33) -/
structure PySeq where
  tup : Bool
  items : List Int
  deriving DecidableEq, Repr

/-- the `e_list` argument: a flat sequence of vertices, a tuple or list of sequences, or something
else (base.py:495-501; elements of mixed types are not modelled) -/
inductive HArg
  | one (tup : Bool) (vs : List Int)
  | many (tup : Bool) (es : List PySeq)
  | other
  deriving DecidableEq, Repr

/-- the `e_weight` argument of `add_hyperedges` (hypergraph.py:335-342) -/
inductive HW (K : Type)
  | none
  | scalar (w : K)
  | list (ws : List K)
  | other
  deriving DecidableEq, Repr

/-- `sorted(vs)` (structure/base.py:495, 503) -/
def sortV (vs : List Int) : List Int := vs.insertionSort (· ≤ ·)

/-- `BaseHypergraph._format_e_list` (base.py:488-504), the returned list.  A flat empty list takes
the branch of a list of hyperedges. -/
def HArg.format : HArg → Except Err (List (List Int))
  | .one _ [] => .ok []
  | .one _ vs => .ok [sortV vs]
  | .many _ es => .ok (es.map fun s => sortV s.items)
  | .other => .error .type

/-- the caller's object after `_format_e_list` (base.py:502-503): the elements of a list are
overwritten in place by sorted tuples; a tuple is copied first -/
def HArg.after : HArg → HArg
  | .many false es => .many false (es.map fun s => ⟨true, sortV s.items⟩)
  | a => a

/-- hypergraph.py:335-342 -/
def HW.expand (n : Nat) : HW K → Except Err (List K)
  | .none => .ok (List.replicate n 1)
  | .scalar w => .ok (List.replicate n w)
  | .list ws => .ok ws
  | .other => .error .type

/-- `_merge_hyperedges` (base.py:470-485): unknown names fail an assertion -/
def hMerge : MergeOp → Except Err (K → K → K)
  | .mean => .ok fun x y => (x + y) / 2
  | .sum => .ok fun x y => x + y
  | .max => .ok fun x y => Max.max x y
  | .other => .error .assertion

/-- `torch.cat(Ms, dim=1)` of sparse tensors; an empty list raises `RuntimeError`
(structure/base.py:924) -/
def Sp.catCols : List (Sp K) → Except Err (Sp K)
  | [] => .error .runtime
  | [M] => .ok M
  | M :: Ms => do
    let R ← Sp.catCols Ms
    M.hcat R

/-- `torch.sparse_coo_tensor(H._indices(), w[H._indices()[1]] * H._values(), H.shape)`
(hypergraph.py:882-884) -/
def Sp.scaleCols (w : List K) (M : Sp K) : Sp K :=
  { M with ents := M.ents.map fun e => (e.1, w.getD e.1.2 0 * e.2) }

/-- `w.view(-1, 1) * X` with torch broadcasting (hypergraph.py:1375-1377, 1394-1397) -/
def Dense.mulCol (w : List K) (X : Dense K) : Except Err (Dense K) :=
  if w.length = X.rows then .ok { X with at_ := fun i c => w.getD i 0 * X.at_ i c }
  else if X.rows = 1 then
    .ok { rows := w.length, cols := X.cols, at_ := fun i c => w.getD i 0 * X.at_ 0 c }
  else if w.length = 1 then .ok { X with at_ := fun i c => w.getD 0 0 * X.at_ i c }
  else .error .runtime

namespace Hyper

/-! ### Construction and modification -/

/-- `_clear_cache` (base.py:433-438): the global cache, and the cache of one group or of all -/
def clearCacheH : Option String → PyM (HSt K) Unit
  | none => PyM.modify fun s => { s with cache := [] }
  | some g => PyM.modify fun s =>
      { s with cache := s.cache.filter fun p => decide (p.1.1 ≠ none ∧ p.1.1 ≠ some g) }

/-- assignment to raw attributes (e.g. structure/base.py:429-431) -/
def setRawH (f : HRaw K → HRaw K) : PyM (HSt K) Unit :=
  PyM.modify fun s => { s with raw := f s.raw }

/-- `BaseHypergraph.__init__` followed by the vertex weight part of `Hypergraph.__init__`
(base.py:367-381, hypergraph.py:38-45) -/
def initRaw (numV : Int) (vw : Option (List K)) : Except Err (HRaw K) :=
  if 0 < numV then
    match vw with
    | none => .ok { numV := numV.toNat, vWeight := some (List.replicate numV.toNat 1), groups := [] }
    | some w =>
      if w.length = numV.toNat then .ok { numV := numV.toNat, vWeight := some w, groups := [] }
      else .error .assertion
  else .error .assertion

/-- `_add_hyperedge` (base.py:644-664) -/
def addHyperedge (e : List Int) (w : K) (op : MergeOp) (g : String) : PyM (HSt K) Unit := do
  let r ← readRaw id
  match r.groups.get? g with
  | none => setRawH fun r => { r with groups := r.groups.set g [(e, w)] }
  | some d =>
    match d.get? e with
    | none => setRawH fun r => { r with groups := r.groups.set g (d.set e w) }
    | some o => do
      let f ← PyM.lift (hMerge op)
      setRawH fun r => { r with groups := r.groups.set g (d.set e (f o w)) }

/-- `Hypergraph.add_hyperedges` (hypergraph.py:319-350) -/
def addHyperedges (arg : HArg) (ew : HW K) (op : MergeOp) (g : String) : PyM (HSt K) Unit := do
  let es ← PyM.lift arg.format
  let ws ← PyM.lift (ew.expand es.length)
  PyM.assert (decide (es.length = ws.length))
  PyM.forM (es.zip ws) fun p => addHyperedge p.1 p.2 op g
  clearCacheH (some g)

/-- `for name in self.group_names: self._raw_groups[name].pop(e_code, None)`
(hypergraph.py:434-435) -/
def popAll (e : List Int) (gs : Dict String (HGroup K)) : Dict String (HGroup K) :=
  gs.map fun p => (p.1, p.2.del e)

/-- `self._raw_groups[group_name].pop(e_code, None)` (hypergraph.py:439) -/
def popOne (g : String) (e : List Int) (gs : Dict String (HGroup K)) : Dict String (HGroup K) :=
  match gs.get? g with
  | none => gs
  | some d => gs.set g (d.del e)

/-- `group_name is None or group_name in self.group_names` (hypergraph.py:426) -/
def knownGroup (g : Option String) (r : HRaw K) : Bool :=
  match g with
  | none => true
  | some g => r.groups.has g

/-- body of the loops of `remove_hyperedges` (hypergraph.py:431-439) -/
def removeOne (g : Option String) (e : List Int) : PyM (HSt K) Unit :=
  match g with
  | none => setRawH fun r => { r with groups := popAll e r.groups }
  | some g => setRawH fun r => { r with groups := popOne g e r.groups }

/-- `Hypergraph.remove_hyperedges` (hypergraph.py:417-440) -/
def removeHyperedges (arg : HArg) (g : Option String) : PyM (HSt K) Unit := do
  let r ← readRaw id
  PyM.assert (knownGroup g r)
  let es ← PyM.lift arg.format
  PyM.forM es (removeOne g)
  clearCacheH g

/-- `Hypergraph.remove_group` (hypergraph.py:442-449) -/
def removeGroup (g : String) : PyM (HSt K) Unit := do
  setRawH fun r => { r with groups := r.groups.del g }
  clearCacheH (some g)

/-- `Hypergraph.clear` (hypergraph.py:143-146, base.py:423-431) -/
def clear : PyM (HSt K) Unit := do
  setRawH fun r => { r with vWeight := none, groups := [] }
  clearCacheH none

/-- `hg.v_weight = w`: the property `v_weight` of `Hypergraph` (hypergraph.py:507-511) hides the one
of the base class and has no setter, so the assignment raises `AttributeError` -/
def setVWeight (_w : List K) : PyM (HSt K) Unit := PyM.raise .attribute

/-- `Hypergraph.__init__` (hypergraph.py:30-48) -/
def new (numV : Int) (arg : Option HArg) (ew : HW K) (vw : Option (List K)) (op : MergeOp) :
    Except Err (HSt K) := do
  let r ← initRaw numV vw
  match arg with
  | none => .ok { raw := r, cache := [] }
  | some a =>
    match addHyperedges a ew op "main" { raw := r, cache := [] } with
    | (.ok _, s) => .ok s
    | (.error e, _) => .error e

/-- `Hypergraph.state_dict` (hypergraph.py:55-59) as values; sharing is modelled in `Heap.lean` -/
structure StateDict (K : Type) where
  numV : Nat
  groups : Dict String (HGroup K)
  deriving DecidableEq, Repr

/-- `Hypergraph.state_dict` (hypergraph.py:55-59) -/
def stateDict (s : HSt K) : StateDict K := { numV := s.raw.numV, groups := s.raw.groups }

/-- `Hypergraph.from_state_dict` (hypergraph.py:167-176) -/
def fromStateDict (d : StateDict K) : Except Err (HSt K) := do
  let r ← initRaw (K := K) d.numV none
  .ok { raw := { r with groups := d.groups }, cache := [] }

/-- `Hypergraph.clone` (hypergraph.py:148-155): vertex weights are not copied, caches are -/
def clone (s : HSt K) : Except Err (HSt K) := do
  let r ← initRaw (K := K) s.raw.numV none
  .ok { raw := { r with groups := s.raw.groups }, cache := s.cache }

/-- `{k: v for k, v in items if random.random() > rate}` for all groups in turn; the draws are
consumed in order (hypergraph.py:459-461) -/
def dropAll (rate : K) (rnd : Nat → K) : Nat → Dict String (HGroup K) → Dict String (HGroup K)
  | _, [] => []
  | i, (g, d) :: gs => (g, Graph.dropFilter rate rnd i d) :: dropAll rate rnd (i + d.length) gs

/-- `Hypergraph.drop_hyperedges` (hypergraph.py:451-470); `uniform` tells whether
`ord == "uniform"` -/
def dropHyperedges (rate : K) (uniform : Bool) (rnd : Nat → K) (s : HSt K) : Except Err (HSt K) :=
  if uniform then fromStateDict { numV := s.raw.numV, groups := dropAll rate rnd 0 s.raw.groups }
  else .error .value

/-- `Hypergraph.drop_hyperedges_of_group` (hypergraph.py:472-497) -/
def dropHyperedgesOfGroup (g : String) (rate : K) (uniform : Bool) (rnd : Nat → K) (s : HSt K) :
    Except Err (HSt K) :=
  if uniform then fromStateDict
    { numV := s.raw.numV
      groups := s.raw.groups.map fun p =>
        if p.1 = g then (p.1, Graph.dropFilter rate rnd 0 p.2) else p }
  else .error .value

/-- `sorted(set(v_list))` (structure/base.py:752) -/
def sortedSet (vs : List Int) : List Int := sortV vs.dedup

/-- `_subgraph_filter_hyperedge` (base.py:695-734) with `v_map` the positions in `vs`; the vertex
tuple of the result, if the hyperedge is kept -/
def subEdge (vs : List Int) (keepOne : Bool) (e : List Int) : Option (List Int) :=
  if (e.dedup.filter fun v => decide (v ∈ vs)).length < (if keepOne then 1 else 2) then none
  else some (sortV ((e.filter fun v => decide (v ∈ vs)).map fun v => (vs.idxOf v : Int)))

/-- the loop over the hyperedges of one group (base.py:760-766): later hyperedges with the same
restriction overwrite earlier ones -/
def subGroup (vs : List Int) (keepOne : Bool) (d : HGroup K) : HGroup K :=
  d.foldl (fun acc p => match subEdge vs keepOne p.1 with
    | none => acc
    | some e => acc.set e p.2) []

/-- `self._v_weight[v]` for the chosen vertices (base.py:769-770) -/
def subWeights (vs : List Int) (w : List K) : List K := vs.map fun v => w.getD v.toNat 0

/-- `BaseHypergraph.subgraph` (base.py:736-772) -/
def subgraph (vl : List Int) (keepOne : Bool) (s : HSt K) : Except Err (HSt K) :=
  let vs := sortedSet vl
  if vs ≠ [] then
    if ∀ v ∈ vs, 0 ≤ v ∧ v < (s.raw.numV : Int) then do
      let h ← fromStateDict
        { numV := vs.length
          groups := s.raw.groups.map fun p => (p.1, subGroup vs keepOne p.2) }
      match s.raw.vWeight with
      | none => .ok h
      | some w => .ok { h with raw := { h.raw with vWeight := some (subWeights vs w) } }
    else .error .assertion
  else .error .assertion

/-! ### Reads -/

/-- `assert group_name in self.group_names` of the `_of_group` methods
(e.g. hypergraph.py:532, structure/base.py:933) -/
def check : Option String → PyM (HSt K) Unit
  | none => pure ()
  | some g => do
    let r ← readRaw id
    PyM.assert (r.groups.has g)

/-- a cached value used as a matrix (e.g. structure/base.py:936) -/
def asMat : HVal K → PyM (HSt K) (Sp K)
  | .mat M => pure M
  | _ => PyM.raise .type

/-- a cached value used as a pair of lists (e.g. hypergraph.py:524) -/
def asEdges : HVal K → PyM (HSt K) (List (List Int) × List K)
  | .edges es ws => pure (es, ws)
  | _ => PyM.raise .type

/-- a cached value used as a vertex list (structure/base.py:800) -/
def asVerts : HVal K → PyM (HSt K) (List Nat)
  | .verts l => pure l
  | _ => PyM.raise .type

/-- `self.group_names` (base.py:863-866) -/
def names : PyM (HSt K) (List String) := readRaw fun r => r.groups.keys

/-- `self._raw_groups[group_name]`; always preceded by the assertion that the group exists, which
is repeated here to keep the function total (e.g. structure/base.py:556) -/
def groupOf (g : String) : PyM (HSt K) (HGroup K) := do
  let r ← readRaw id
  match r.groups.get? g with
  | none => PyM.raise .assertion
  | some d => pure d

/-- `v` (hypergraph.py:501-505, base.py:795-801) -/
def getV : PyM (HSt K) (List Nat) := do
  let x ← memo (none, .v) (readRaw fun r => .verts (List.range r.numV))
  asVerts x

/-- `e_of_group` (hypergraph.py:526-537) -/
def getEOf (g : String) : PyM (HSt K) (List (List Int) × List K) := do
  check (some g)
  let x ← memo (some g, .e) do
    let d ← groupOf g
    pure (.edges d.keys d.vals)
  asEdges x

/-- `e` (hypergraph.py:513-524) and `e_of_group` (526-537) -/
def getE : Option String → PyM (HSt K) (List (List Int) × List K)
  | none => do
    let x ← memo (none, .e) do
      let ns ← names
      let l ← PyM.collect ns getEOf
      pure (.edges (l.flatMap Prod.fst) (l.flatMap Prod.snd))
    asEdges x
  | some g => getEOf g

/-- `num_e` (base.py:838-845) and `num_e_of_group` (847-854) -/
def getNumE : Option String → PyM (HSt K) Nat
  | none => readRaw fun r => (r.groups.map fun p => p.2.length).sum
  | some g => do
    let d ← groupOf g
    pure d.length

/-- `_fetch_H_of_group` (base.py:542-566) on the hyperedges of a group -/
def fetchH (n : Nat) (d : HGroup K) : Except Err (Sp K) := do
  let idx := d.keys.zipIdx.flatMap fun p => p.1.map fun v => (v, (p.2 : Int))
  let M ← Sp.build n d.length idx (List.replicate idx.length 1)
  .ok M.coalesce

/-- `H_v2e_of_group` (base.py:927-936) -/
def getHv2eOf (g : String) : PyM (HSt K) (Sp K) := do
  check (some g)
  let x ← memo (some g, .Hv2e) do
    let d ← groupOf g
    let n ← readRaw HRaw.numV
    let M ← PyM.lift (fetchH n d)
    pure (HVal.mat M)
  asMat x

/-- `H_v2e` (base.py:918-926) and `H_v2e_of_group` (928-938) -/
def getHv2e : Option String → PyM (HSt K) (Sp K)
  | none => do
    let x ← memo (none, .Hv2e) do
      let ns ← names
      let Ms ← PyM.collect ns getHv2eOf
      let M ← PyM.lift (Sp.catCols Ms)
      pure (HVal.mat M)
    asMat x
  | some g => getHv2eOf g

/-- `H` (hypergraph.py:770-776) and `H_of_group` (778-787) -/
def getH (sc : Option String) : PyM (HSt K) (Sp K) := do
  check sc
  let x ← memo (sc, .H) do
    let M ← getHv2e sc
    pure (HVal.mat M)
  asMat x

/-- `H_T` (hypergraph.py:789-795) and `H_T_of_group` (797-806) -/
def getHT (sc : Option String) : PyM (HSt K) (Sp K) := do
  check sc
  let x ← memo (sc, .HT) do
    let M ← getH sc
    pure (HVal.mat M.t)
  asMat x

/-- `W_v` (hypergraph.py:808-821): `torch.Tensor(None)` raises `TypeError` -/
def computeWv : PyM (HSt K) (HVal K) := do
  let r ← readRaw id
  match r.vWeight with
  | none => PyM.raise .type
  | some w => pure (HVal.mat (Sp.diag w))

/-- `W_v`, read through the cache (hypergraph.py:808-821) -/
def getWv : PyM (HSt K) (Sp K) := do
  let x ← memo (none, .Wv) computeWv
  asMat x

/-- `W_e_of_group` (hypergraph.py:838-855, base.py:593-602) -/
def getWeOf (g : String) : PyM (HSt K) (Sp K) := do
  check (some g)
  let x ← memo (some g, .We) do
    let d ← groupOf g
    pure (HVal.mat (Sp.diag d.vals))
  asMat x

/-- `torch.cat(_tmp, dim=0)` of the diagonals; an empty list raises `RuntimeError`
(hypergraph.py:829-836, 958-964) -/
def catDiag (Ms : List (Sp K)) : Except Err (Sp K) :=
  if Ms = [] then .error .runtime
  else .ok (Sp.diag (Ms.flatMap fun M => M.ents.map Prod.snd))

/-- `W_e` (hypergraph.py:823-836) and `W_e_of_group` (838-855) -/
def getWe : Option String → PyM (HSt K) (Sp K)
  | none => do
    let x ← memo (none, .We) do
      let ns ← names
      let Ms ← PyM.collect ns getWeOf
      let M ← PyM.lift (catDiag Ms)
      pure (HVal.mat M)
    asMat x
  | some g => getWeOf g

/-- `D_v_of_group` (hypergraph.py:871-892) -/
def getDvOf (g : String) : PyM (HSt K) (Sp K) := do
  check (some g)
  let x ← memo (some g, .Dv) do
    let H ← getH (some g)
    let W ← getWe (some g)
    pure (HVal.mat (Sp.diag (Sp.coalesce (Sp.scaleCols (W.ents.map Prod.snd) H)).rowSum))
  asMat x

/-- `torch.vstack(_tmp).sum(dim=0)` of the diagonals (hypergraph.py:862-863) -/
def sumDiag (n : Nat) (Ms : List (Sp K)) : Except Err (Sp K) :=
  if Ms = [] then .error .runtime
  else .ok (Sp.diag ((List.range n).map fun i : Nat =>
    (Ms.map fun M => (M.ents.map Prod.snd).getD i 0).sum))

/-- `D_v` (hypergraph.py:857-869) and `D_v_of_group` (871-892) -/
def getDv : Option String → PyM (HSt K) (Sp K)
  | none => do
    let x ← memo (none, .Dv) do
      let ns ← names
      let Ms ← PyM.collect ns getDvOf
      let n ← readRaw HRaw.numV
      let M ← PyM.lift (sumDiag n Ms)
      pure (HVal.mat M)
    asMat x
  | some g => getDvOf g

/-- `D_v_neg_1` (hypergraph.py:894-904) and `D_v_neg_1_of_group` (906-920) -/
def getDvN1 (sc : Option String) : PyM (HSt K) (Sp K) := do
  check sc
  let x ← memo (sc, .DvN1) do
    let D ← getDv sc
    pure (HVal.mat D.inv)
  asMat x

/-- `D_e_of_group` (hypergraph.py:968-984) -/
def getDeOf (g : String) : PyM (HSt K) (Sp K) := do
  check (some g)
  let x ← memo (some g, .De) do
    let H ← getHT (some g)
    pure (HVal.mat (Sp.diag H.rowSum))
  asMat x

/-- `D_e` (hypergraph.py:952-966) and `D_e_of_group` (968-984) -/
def getDe : Option String → PyM (HSt K) (Sp K)
  | none => do
    let x ← memo (none, .De) do
      let ns ← names
      let Ms ← PyM.collect ns getDeOf
      let M ← PyM.lift (catDiag Ms)
      pure (HVal.mat M)
    asMat x
  | some g => getDeOf g

/-- `D_e_neg_1` (hypergraph.py:986-997) and `D_e_neg_1_of_group` (999-1013) -/
def getDeN1 (sc : Option String) : PyM (HSt K) (Sp K) := do
  check sc
  let x ← memo (sc, .DeN1) do
    let D ← getDe sc
    pure (HVal.mat D.inv)
  asMat x

/-- `N_e_of_group` (hypergraph.py:1031-1044) -/
def getNeOf (v : Int) (g : String) : PyM (HSt K) (List Nat) := do
  check (some g)
  let n ← readRaw HRaw.numV
  PyM.assert (decide (v < (n : Int)))
  let H ← getH (some g)
  PyM.lift (H.rowIdx v)

/-- `_tmp.append(... + e_bias); e_bias += ...` (hypergraph.py:1024-1028) -/
def shiftCat : Nat → List (List Nat × Nat) → List Nat
  | _, [] => []
  | b, (l, n) :: t => l.map (· + b) ++ shiftCat (b + n) t

/-- `N_e` (hypergraph.py:1015-1029) and `N_e_of_group` (1031-1044) -/
def getNe (v : Int) : Option String → PyM (HSt K) (List Nat)
  | none => do
    let n ← readRaw HRaw.numV
    PyM.assert (decide (v < (n : Int)))
    let ns ← names
    let l ← PyM.collect ns fun g => do
      let l ← getNeOf v g
      let n ← getNumE (some g)
      pure (l, n)
    if l = [] then PyM.raise .runtime else pure (shiftCat 0 l)
  | some g => getNeOf v g

/-- `N_v_of_group` (hypergraph.py:1063-1075) -/
def getNvOf (e : Int) (g : String) : PyM (HSt K) (List Nat) := do
  check (some g)
  let n ← getNumE (some g)
  PyM.assert (decide (e < (n : Int)))
  let H ← getHT (some g)
  PyM.lift (H.rowIdx e)

/-- the loop of `N_v` (hypergraph.py:1056-1060); falling through returns `None`, on which the
callers raise `AttributeError` -/
def findNv (e : Int) : List String → PyM (HSt K) (List Nat)
  | [] => PyM.raise .attribute
  | g :: gs => do
    let n ← getNumE (some g)
    if e < (n : Int) then getNvOf e g else findNv (e - n) gs

/-- `N_v` (hypergraph.py:1046-1060) and `N_v_of_group` (1063-1075) -/
def getNv (e : Int) : Option String → PyM (HSt K) (List Nat)
  | none => do
    let n ← getNumE none
    PyM.assert (decide (e < (n : Int)))
    let ns ← names
    findNv e ns
  | some g => getNvOf e g

section Real
variable [PyReal K]

/-- `D_v_neg_1_2` (hypergraph.py:922-932) and `D_v_neg_1_2_of_group` (934-948) -/
def getDvN12 (sc : Option String) : PyM (HSt K) (Sp K) := do
  check sc
  let x ← memo (sc, .DvN12) do
    let D ← getDv sc
    let N ← PyM.lift D.rsqrt
    pure (HVal.mat N)
  asMat x

/-- `A.mm(B).mm(C)...` (e.g. hypergraph.py:1178, 1195) -/
def mmChain (A : Sp K) : List (Sp K) → Except Err (Sp K)
  | [] => .ok A
  | B :: Bs => do
    let C ← A.mm B
    mmChain C Bs

/-- `L_HGNN` (hypergraph.py:1171-1181) and `L_HGNN_of_group` (1183-1203) -/
def getLHGNN (sc : Option String) : PyM (HSt K) (Sp K) := do
  check sc
  let x ← memo (sc, .LHGNN) do
    let D ← getDvN12 sc
    let H ← getH sc
    let W ← getWe sc
    let E ← getDeN1 sc
    let T ← getHT sc
    let L ← PyM.lift (mmChain D [H, W, E, T, D])
    pure (HVal.mat L.coalesce)
  asMat x

/-- `L_sym` (hypergraph.py:1082-1097) and `L_sym_of_group` (1099-1117) -/
def getLsym (sc : Option String) : PyM (HSt K) (Sp K) := do
  check sc
  let x ← memo (sc, .Lsym) do
    let L ← getLHGNN sc
    let n ← readRaw HRaw.numV
    pure (HVal.mat (Sp.eyeMinus n L))
  asMat x

/-- `L_rw` (hypergraph.py:1119-1139) and `L_rw_of_group` (1141-1168) -/
def getLrw (sc : Option String) : PyM (HSt K) (Sp K) := do
  check sc
  let x ← memo (sc, .Lrw) do
    let D ← getDvN1 sc
    let H ← getH sc
    let W ← getWe sc
    let E ← getDeN1 sc
    let T ← getHT sc
    let L ← PyM.lift (mmChain D [H, W, E, T])
    let n ← readRaw HRaw.numV
    pure (HVal.mat (Sp.eyeMinus n L))
  asMat x

/-- `smoothing_with_HGNN` (hypergraph.py:1205-1221) and `smoothing_with_HGNN_of_group`
(1223-1241); `keep` are the dropout draws -/
def smoothHGNN (sc : Option String) (X : Dense K) (rate : K) (keep : Nat → Bool) :
    PyM (HSt K) (Dense K) := do
  check sc
  let L ← getLHGNN sc
  let L ← Graph.dropMaybe L rate keep
  PyM.lift (L.mmD X)

/-- the common text of `v2e_aggregation`, `v2e_aggregation_of_group`, `e2v_aggregation` and
`e2v_aggregation_of_group` (hypergraph.py:1246-1360, 1445-1559): `getP` is `H_T` (resp. `H`), `getD`
is `D_e_neg_1` (resp. `D_v_neg_1`).  With explicit weights "mean" multiplies by the row sums (lines
1284-1288, 1348-1352, 1483-1487, 1547-1551). -/
def aggregate (getP getD : PyM (HSt K) (Sp K)) (X : Dense K) (aggr : Aggr) (w : Option (List K))
    (rate : K) (keep : Nat → Bool) : PyM (HSt K) (Dense K) := do
  PyM.assert (decide (aggr ≠ .other))
  match w with
  | none => do
    let P ← getP
    let P ← Graph.dropMaybe P rate keep
    match aggr with
    | .mean => do
      let Y ← PyM.lift (P.mmD X)
      let D ← getD
      PyM.lift (D.mmD Y)
    | .sum => PyM.lift (P.mmD X)
    | .softmax => PyM.lift (P.softmax.mmD X)
    | .other => PyM.raise .value
  | some w => do
    let P ← getP
    PyM.assert (decide (w.length = P.ents.length))
    let P ← PyM.lift (P.withVals w)
    let P ← Graph.dropMaybe P rate keep
    match aggr with
    | .mean => do
      let Y ← PyM.lift (P.mmD X)
      pure (Y.scaleRows P.rowSum)
    | .sum => PyM.lift (P.mmD X)
    | .softmax => PyM.lift (P.softmax.mmD X)
    | .other => PyM.raise .value

/-- `v2e_aggregation` (hypergraph.py:1246-1297) and `v2e_aggregation_of_group` (1299-1360) -/
def v2eAggr (sc : Option String) (X : Dense K) (aggr : Aggr) (w : Option (List K)) (rate : K)
    (keep : Nat → Bool) : PyM (HSt K) (Dense K) := do
  check sc
  aggregate (getHT sc) (getDeN1 sc) X aggr w rate keep

/-- `v2e_update` (hypergraph.py:1362-1378) and `v2e_update_of_group` (1380-1398) -/
def v2eUpd (sc : Option String) (X : Dense K) (ew : Option (List K)) : PyM (HSt K) (Dense K) := do
  check sc
  match ew with
  | none => do
    let W ← getWe sc
    PyM.lift (W.mmD X)
  | some w => do
    let n ← getNumE sc
    PyM.assert (decide (w.length = n))
    PyM.lift (X.mulCol w)

/-- `v2e` (hypergraph.py:1400-1420) and `v2e_of_group` (1422-1443) -/
def v2e (sc : Option String) (X : Dense K) (aggr : Aggr) (w ew : Option (List K)) (rate : K)
    (keep : Nat → Bool) : PyM (HSt K) (Dense K) := do
  check sc
  let Y ← v2eAggr sc X aggr w rate keep
  v2eUpd sc Y ew

/-- `e2v_aggregation` (hypergraph.py:1445-1496) and `e2v_aggregation_of_group` (1498-1559) -/
def e2vAggr (sc : Option String) (X : Dense K) (aggr : Aggr) (w : Option (List K)) (rate : K)
    (keep : Nat → Bool) : PyM (HSt K) (Dense K) := do
  check sc
  aggregate (getH sc) (getDvN1 sc) X aggr w rate keep

/-- `e2v_update` (hypergraph.py:1561-1569) and `e2v_update_of_group` (1571-1581) -/
def e2vUpd (sc : Option String) (X : Dense K) : PyM (HSt K) (Dense K) := do
  check sc
  pure X

/-- `e2v` (hypergraph.py:1583-1597) and `e2v_of_group` (1599-1618) -/
def e2v (sc : Option String) (X : Dense K) (aggr : Aggr) (w : Option (List K)) (rate : K)
    (keep : Nat → Bool) : PyM (HSt K) (Dense K) := do
  check sc
  let Y ← e2vAggr sc X aggr w rate keep
  e2vUpd sc Y

/-- arguments of `v2v` besides the scope and the features (hypergraph.py:1620-1633, 1659-1672);
`keep1`, `keep2` are the dropout draws of the two steps -/
structure V2VArgs (K : Type) where
  aggr : Aggr
  rate : K
  v2eAggr : Option Aggr := none
  v2eWeight : Option (List K) := none
  v2eRate : Option K := none
  eWeight : Option (List K) := none
  e2vAggr : Option Aggr := none
  e2vWeight : Option (List K) := none
  e2vRate : Option K := none
  keep1 : Nat → Bool := fun _ => true
  keep2 : Nat → Bool := fun _ => true

/-- `v2v` (hypergraph.py:1620-1657) and `v2v_of_group` (1659-1699) -/
def v2v (sc : Option String) (X : Dense K) (a : V2VArgs K) : PyM (HSt K) (Dense K) := do
  check sc
  let Y ← v2e sc X (a.v2eAggr.getD a.aggr) a.v2eWeight a.eWeight (a.v2eRate.getD a.rate) a.keep1
  e2v sc Y (a.e2vAggr.getD a.aggr) a.e2vWeight (a.e2vRate.getD a.rate) a.keep2

end Real

end Hyper
end DHG
