import Verif.Hypergraph

/-!
# Directed hyperedges of `BaseHypergraph` (dhg/structure/base.py:351-1010)

`BaseHypergraph` is exported by the package and is not an abstract class for Python (it has no
`ABCMeta`), so objects of the class can be made and used.  Its own `add_hyperedges`,
`remove_hyperedges`, `H_v2e`, `H_e2v`, `R_v2e`, ... work on hyperedges with a set of source vertices
(`v2e`) and a set of target vertices (`e2v`) and a weight on every connection; class `Hypergraph`
(modelled in `Hypergraph.lean`) replaces the first two by versions without directions.  Devices are
not modelled.
-/

set_option linter.unusedSectionVars false
set_option autoImplicit false

namespace DHG

variable {K : Type} [Field K] [LinearOrder K]

/-- what is stored under `"w_v2e"` or `"w_e2v"`: a list of numbers (base.py:638), or a single number,
which is what `_merge_hyperedges` leaves (base.py:478-483) -/
inductive ConnW (K : Type)
  | list (ws : List K)
  | scalar (w : K)
  deriving DecidableEq, Repr

/-- the content of a hyperedge (base.py:638); `none`: the key is missing, which is what
`_merge_hyperedges` leaves for an empty side (base.py:477-483) -/
structure DContent (K : Type) where
  v2e : Option (ConnW K)
  e2v : Option (ConnW K)
  we : K
  deriving DecidableEq, Repr

/-- the `direction` argument, `"v2e"` or `"e2v"` (base.py:541-554) -/
inductive Side
  | v2e | e2v
  deriving DecidableEq, Repr

/-- a group: `{(source tuple, target tuple): content}` (base.py:461-468, 644-664) -/
abbrev DGroup (K : Type) := Dict (List Int × List Int) (DContent K)

/-- raw attributes (base.py:367-381, 429-431) -/
structure DHRaw (K : Type) where
  numV : Nat
  vWeight : Option (List K)
  groups : Dict String (DGroup K)
  deriving DecidableEq, Repr

/-- names under which values are cached (base.py:798, 879, 887, 922, 942, 962, 982) -/
inductive DHName
  | v | H (d : Side) | R (d : Side) | Wv | We
  deriving DecidableEq, Repr

/-- `(none, k)` is `self.cache[k]`, `(some g, k)` is `self.group_cache[g][k]` (base.py:922-936) -/
abbrev DHKey := Option String × DHName

/-- cached values (base.py:799, 924, 935) -/
inductive DHVal (K : Type)
  | verts (l : List Nat)
  | mat (M : Sp K)

/-- a `BaseHypergraph` object (base.py:367-381) -/
abbrev DHSt (K : Type) := Cached (DHRaw K) DHKey (DHVal K)

/-- the pair of an `e_list` and a `w_list` argument of `add_hyperedges` (base.py:606-609): one
hyperedge side as a flat sequence, or a sequence of them.  Whether the outer sequence is a tuple
does not matter (base.py:519-522).  A flat `e_list` with a nested `w_list` and the reverse are not
modelled. -/
inductive DArg (K : Type)
  | one (vs : List Int) (ws : Option (List K))
  | many (es : List PySeq) (ws : Option (List (List K)))
  deriving DecidableEq, Repr

namespace DirH

/-- `sorted_idx = np.argsort(cur_e)` and both arrays in this order (base.py:535-538).  Among equal
vertices `np.argsort` may choose any order; here it is a fixed one. -/
def sortConn (vs : List Int) (ws : List K) : List Int × List K :=
  let l := (vs.zip ws).insertionSort fun a b => a.1 ≤ b.1
  (l.map Prod.fst, l.map Prod.snd)

/-- the loop over hyperedges and weights with its assertion (base.py:533-538) -/
def formatAll : List (List Int × List K) → Except Err (List (List Int × List K))
  | [] => .ok []
  | p :: l =>
    if p.1.length = p.2.length then do
      let r ← formatAll l
      .ok (sortConn p.1 p.2 :: r)
    else .error .assertion

/-- `_format_e_list_and_w_on_them` (base.py:506-539), the returned lists, paired.  `e_list[0]` of an
empty sequence raises `IndexError`.  A sequence of tuples without weights keeps `w_list = None`,
and `len(None)` raises `TypeError`: only lists are recognised (base.py:529-531). -/
def formatArg : DArg K → Except Err (List (List Int × List K))
  | .one [] _ => .error .index
  | .one vs none => formatAll [(vs, List.replicate vs.length 1)]
  | .one vs (some ws) =>
    if vs.length = ws.length then formatAll [(vs, ws)] else .error .assertion
  | .many [] _ => .error .index
  | .many (e :: es) none =>
    if e.tup then .error .type
    else formatAll ((e :: es).map fun s => (s.items, List.replicate s.items.length 1))
  | .many es (some wss) =>
    if es.length = wss.length then formatAll ((es.map PySeq.items).zip wss) else .error .assertion

/-- the caller's list of hyperedges after `_format_e_list_and_w_on_them`: the elements of a list are
overwritten in place by sorted tuples (base.py:537); used only for an outer list, and after a call
without exception -/
def argAfter : DArg K → DArg K
  | .one vs ws => .one vs ws
  | .many es ws => .many (es.map fun s => ⟨true, sortV s.items⟩) ws

/-- `e_weight` (base.py:631-633): `len` of a number raises `TypeError` -/
def weights (n : Nat) : HW K → Except Err (List K)
  | .none => .ok (List.replicate n 1)
  | .scalar _ => .error .type
  | .list ws => .ok ws
  | .other => .error .type

/-- the loops over connection weights of `_merge_hyperedges` (base.py:478-480, 481-483):
`_e["w_v2e"] = ...` is executed once for every index, so the last value remains, and no value for an
empty list.  `len` of a number and indexing a number raise `TypeError`. -/
def mergeConn (f : K → K → K) : Option (ConnW K) → Option (ConnW K) → Except Err (Option (ConnW K))
  | some (.list xs), some (.list ys) =>
    if xs.length ≤ ys.length then .ok ((List.zipWith f xs ys).getLast?.map ConnW.scalar)
    else .error .index
  | some (.list []), some (.scalar _) => .ok none
  | some (.list _), some (.scalar _) => .error .type
  | some (.scalar _), some _ => .error .type
  | _, _ => .ok none

/-- `_merge_hyperedges` (base.py:470-485) -/
def mergeContent (op : MergeOp) (a b : DContent K) : Except Err (DContent K) := do
  let f ← hMerge op
  let v ← mergeConn f a.v2e b.v2e
  let e ← mergeConn f a.e2v b.e2v
  .ok { v2e := v, e2v := e, we := f a.we b.we }

/-- `_clear_cache` (base.py:433-438) -/
def clearCache : Option String → PyM (DHSt K) Unit
  | none => PyM.modify fun s => { s with cache := [] }
  | some g => PyM.modify fun s =>
      { s with cache := s.cache.filter fun p => decide (p.1.1 ≠ none ∧ p.1.1 ≠ some g) }

/-- assignment to raw attributes (e.g. base.py:429-431) -/
def setRaw (f : DHRaw K → DHRaw K) : PyM (DHSt K) Unit :=
  PyM.modify fun s => { s with raw := f s.raw }

/-- `BaseHypergraph.__init__` (base.py:367-381): the arguments after `num_v` are ignored -/
def new (numV : Int) : Except Err (DHSt K) :=
  if 0 < numV then .ok { raw := { numV := numV.toNat, vWeight := none, groups := [] }, cache := [] }
  else .error .assertion

/-- `_add_hyperedge` (base.py:644-664) -/
def addHyperedge (c : List Int × List Int) (x : DContent K) (op : MergeOp) (g : String) :
    PyM (DHSt K) Unit := do
  let r ← readRaw id
  match r.groups.get? g with
  | none => setRaw fun r => { r with groups := r.groups.set g [(c, x)] }
  | some d =>
    match d.get? c with
    | none => setRaw fun r => { r with groups := r.groups.set g (d.set c x) }
    | some o => do
      let y ← PyM.lift (mergeContent op o x)
      setRaw fun r => { r with groups := r.groups.set g (d.set c y) }

/-- the code and the content of one hyperedge in the loop of `add_hyperedges` (base.py:636-639) -/
def entry (p : ((List Int × List K) × (List Int × List K)) × K) :
    (List Int × List Int) × DContent K :=
  ((p.1.1.1, p.1.2.1),
    { v2e := some (.list p.1.1.2), e2v := some (.list p.1.2.2), we := p.2 })

/-- `add_hyperedges` (base.py:605-642) -/
def addHyperedges (src dst : DArg K) (ew : HW K) (op : MergeOp) (g : String) :
    PyM (DHSt K) Unit := do
  let ss ← PyM.lift (formatArg src)
  let ds ← PyM.lift (formatArg dst)
  let ws ← PyM.lift (weights ss.length ew)
  PyM.assert (decide (ss.length = ws.length))
  PyM.assert (decide (ss.length = ds.length))
  PyM.forM ((ss.zip ds).zip ws) fun p => addHyperedge (entry p).1 (entry p).2 op g
  clearCache (some g)

/-- `len(e_list)`; for a flat list this is the number of vertices (base.py:681).  Objects that are
neither lists nor tuples are taken to have no length. -/
def argLen : HArg → Except Err Nat
  | .one _ vs => .ok vs.length
  | .many _ es => .ok es.length
  | .other => .error .type

/-- body of the second loop of `remove_hyperedges` (base.py:690-692): `e_list_e2v[_idx]` raises
`IndexError` if there is no such element -/
def removeOne (g : String) (ds : List (List Int)) (p : List Int × Nat) : PyM (DHSt K) Unit :=
  match ds[p.2]? with
  | none => PyM.raise .index
  | some t => setRaw fun r =>
      { r with groups := match r.groups.get? g with
          | none => r.groups
          | some d => r.groups.set g (d.del (p.1, t)) }

/-- `remove_hyperedges` (base.py:666-693): `None in self.group_names` is false, so the branch
`group_name is None` (base.py:684-688) is never reached -/
def removeHyperedges (src dst : HArg) (g : Option String) : PyM (DHSt K) Unit := do
  let r ← readRaw id
  match g with
  | none => PyM.raise .assertion
  | some g => do
    PyM.assert (r.groups.has g)
    let n ← PyM.lift (argLen src)
    let m ← PyM.lift (argLen dst)
    PyM.assert (decide (n = m))
    let ss ← PyM.lift src.format
    let ds ← PyM.lift dst.format
    PyM.forM ss.zipIdx (removeOne g ds)
    clearCache (some g)

/-- `clear` (base.py:423-431) -/
def clear : PyM (DHSt K) Unit := do
  setRaw fun r => { r with vWeight := none, groups := [] }
  clearCache none

/-- the setter of `v_weight` (base.py:810-816) -/
def setVWeight (w : List K) : PyM (DHSt K) Unit := do
  let r ← readRaw id
  PyM.assert (decide (w.length = r.numV))
  setRaw fun r => { r with vWeight := some w }
  clearCache none

/-! ### Reads -/

/-- a cached value used as a matrix (e.g. base.py:936) -/
def asMat : DHVal K → PyM (DHSt K) (Sp K)
  | .mat M => pure M
  | _ => PyM.raise .type

/-- a cached value used as a vertex list (base.py:800) -/
def asVerts : DHVal K → PyM (DHSt K) (List Nat)
  | .verts l => pure l
  | _ => PyM.raise .type

/-- `assert group_name in self.group_names` of the `_of_group` methods (e.g. base.py:933) -/
def check (g : String) : PyM (DHSt K) Unit := do
  let r ← readRaw id
  PyM.assert (r.groups.has g)

/-- `assert group_name in self.group_names`, and the group (e.g. base.py:548, 554-556) -/
def groupOf (g : String) : PyM (DHSt K) (DGroup K) := do
  let r ← readRaw id
  match r.groups.get? g with
  | none => PyM.raise .assertion
  | some d => pure d

/-- `e[select_idx]` (base.py:550-553, 558) -/
def Side.sub : Side → List Int × List Int → List Int
  | .v2e, c => c.1
  | .e2v, c => c.2

/-- `content[f"w_{direction}"]` (base.py:587) -/
def Side.conn : Side → DContent K → Option (ConnW K)
  | .v2e, x => x.v2e
  | .e2v, x => x.e2v

/-- `_fetch_H_of_group` (base.py:541-566) on the hyperedges of a group -/
def fetchH (sd : Side) (n : Nat) (d : DGroup K) : Except Err (Sp K) := do
  let idx := d.keys.zipIdx.flatMap fun p => (Side.sub sd p.1).map fun v => (v, (p.2 : Int))
  let M ← Sp.build n d.length idx (List.replicate idx.length 1)
  .ok M.coalesce

/-- `w_list.extend(content["w_..."])` (base.py:587): a missing key raises `KeyError`, a number is not
iterable -/
def connList (sd : Side) (x : DContent K) : Except Err (List K) :=
  match Side.conn sd x with
  | none => .error .key
  | some (.scalar _) => .error .type
  | some (.list ws) => .ok ws

/-- `_fetch_R_of_group` (base.py:568-591): after the loop, `torch.vstack` is called with two Python
lists, which raises `TypeError` -/
def fetchR (sd : Side) (d : DGroup K) : Except Err (Sp K) := do
  let _ ← collectE d.vals (connList sd)
  .error .type

/-- `v` (base.py:794-800) -/
def getV : PyM (DHSt K) (List Nat) := do
  let x ← memo (none, .v) (readRaw fun r => .verts (List.range r.numV))
  asVerts x

/-- the getter of `v_weight` (base.py:802-808): fills in ones -/
def getVWeight : PyM (DHSt K) (List K) := do
  let r ← readRaw id
  match r.vWeight with
  | some w => pure w
  | none => do
    setRaw fun r => { r with vWeight := some (List.replicate r.numV 1) }
    pure (List.replicate r.numV 1)

/-- `num_e` (base.py:838-845) and `num_e_of_group` (847-854) -/
def getNumE : Option String → PyM (DHSt K) Nat
  | none => readRaw fun r => (r.groups.map fun p => p.2.length).sum
  | some g => do
    let d ← groupOf g
    pure d.length

/-- `H_v2e_of_group` (base.py:927-936), `H_e2v_of_group` (947-956) -/
def getHOf (sd : Side) (g : String) : PyM (DHSt K) (Sp K) := do
  check g
  let x ← memo (some g, .H sd) do
    let d ← groupOf g
    let n ← readRaw DHRaw.numV
    let M ← PyM.lift (fetchH sd n d)
    pure (DHVal.mat M)
  asMat x

/-- `H_v2e` (base.py:918-925), `H_e2v` (938-945) and the methods of groups -/
def getH (sd : Side) : Option String → PyM (DHSt K) (Sp K)
  | none => do
    let x ← memo (none, .H sd) do
      let ns ← readRaw fun r => r.groups.keys
      let Ms ← PyM.collect ns (getHOf sd)
      let M ← PyM.lift (Sp.catCols Ms)
      pure (DHVal.mat M)
    asMat x
  | some g => getHOf sd g

/-- `R_v2e_of_group` (base.py:967-976), `R_e2v_of_group` (987-996) -/
def getROf (sd : Side) (g : String) : PyM (DHSt K) (Sp K) := do
  check g
  let x ← memo (some g, .R sd) do
    let d ← groupOf g
    let M ← PyM.lift (fetchR sd d)
    pure (DHVal.mat M)
  asMat x

/-- `R_v2e` (base.py:958-965), `R_e2v` (978-985) and the methods of groups -/
def getR (sd : Side) : Option String → PyM (DHSt K) (Sp K)
  | none => do
    let x ← memo (none, .R sd) do
      let ns ← readRaw fun r => r.groups.keys
      let Ms ← PyM.collect ns (getROf sd)
      let M ← PyM.lift (Sp.catCols Ms)
      pure (DHVal.mat M)
    asMat x
  | some g => getROf sd g

/-- `self.cache[k]`: a missing key raises `KeyError` (base.py:879, 887, 899) -/
def cached (k : DHKey) : PyM (DHSt K) (DHVal K) := do
  let s ← PyM.get
  match s.cache.get? k with
  | none => PyM.raise .key
  | some x => pure x

/-- `W_v` (base.py:875-881): `self.cache["W_v"]` is read before it is written -/
def getWv : PyM (DHSt K) (Sp K) := do
  let x ← cached (none, .Wv)
  asMat x

/-- `W_e` (base.py:883-890) and `W_e_of_group` (892-901): likewise -/
def getWe : Option String → PyM (DHSt K) (Sp K)
  | none => do
    let x ← cached (none, .We)
    asMat x
  | some g => do
    check g
    let x ← cached (some g, .We)
    asMat x

end DirH

/-- mutating calls on a `BaseHypergraph` (base.py:423-431, 605-693, 810-816) -/
inductive DHOp (K : Type)
  | add (src dst : DArg K) (ew : HW K) (op : MergeOp) (g : String)
  | remove (src dst : HArg) (g : Option String)
  | clear
  | setVWeight (w : List K)

/-- reading calls on a `BaseHypergraph` (base.py:794-996) -/
inductive DHQuery
  | numV | numE (sc : Option String) | numGroups | groupNames | v | vWeight
  | H (sd : Side) (sc : Option String) | R (sd : Side) (sc : Option String)
  | Wv | We (sc : Option String)

/-- answers to reading calls (return values of base.py:794-996) -/
inductive DHAns (K : Type)
  | num (n : Nat)
  | names (l : List String)
  | idx (l : List Nat)
  | vec (l : List K)
  | mat (M : Sp K)

namespace DirH

/-- execute one mutating call (base.py:423-431, 605-693, 810-816) -/
def apply : DHOp K → PyM (DHSt K) Unit
  | .add src dst ew op g => addHyperedges src dst ew op g
  | .remove src dst g => removeHyperedges src dst g
  | .clear => clear
  | .setVWeight w => setVWeight w

/-- execute one reading call (base.py:794-996) -/
def ask : DHQuery → PyM (DHSt K) (DHAns K)
  | .numV => do let n ← readRaw DHRaw.numV; pure (.num n)
  | .numE sc => do let n ← getNumE sc; pure (.num n)
  | .numGroups => do let n ← readRaw fun r => r.groups.length; pure (.num n)
  | .groupNames => do let l ← readRaw fun r => r.groups.keys; pure (.names l)
  | .v => do let l ← getV; pure (.idx l)
  | .vWeight => do let l ← getVWeight; pure (.vec l)
  | .H sd sc => do let M ← getH sd sc; pure (.mat M)
  | .R sd sc => do let M ← getR sd sc; pure (.mat M)
  | .Wv => do let M ← getWv; pure (.mat M)
  | .We sc => do let M ← getWe sc; pure (.mat M)

end DirH
end DHG
