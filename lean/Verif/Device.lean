import Verif.PyOn
import Verif.BaseGraph

/-!
# On which device the tensors of a structure live

`structure.to(device)` and the `self.to(X.device)` calls inside the message passing functions.
Only the device of every tensor is modelled here; the numbers are modelled in `Graph.lean`,
`DiGraph.lean`, `BiGraph.lean` and `Hypergraph.lean`.  Assertions on sizes are dropped.

Behaviour of torch that is assumed:
* a tensor made with `device=d` is on `d`, whatever the devices of the tensors it is made from;
* a tensor made without `device=` from no tensor is on the CPU;
* an operation on tensors of different devices raises `RuntimeError`; so does concatenating an
  empty list; otherwise the result is on the common device;
* `a[i]` with an index tensor `i` needs `i` on the CPU or on the device of `a`, and the result is
  on the device of `a`.
-/

set_option linter.unusedSectionVars false
set_option autoImplicit false

namespace DHG
namespace Device

/-- a `torch.device` (the `device` arguments, e.g. structure/base.py:46) -/
abbrev Dev := Nat

/-- `torch.device("cpu")` (structure/base.py:46) -/
def cpu : Dev := 0

/-- the attributes that decide where tensors are made: `self.device`, whether `num_e == 0`, and
`self.group_names` (hypergraphs only) (structure/base.py:50, graph.py:473, hypergraph.py:632-634) -/
structure Raw where
  device : Dev
  empty : Bool
  groups : List String

/-- `self.cache` holds the names of the cached tensors with the device each one is on; an entry
`(some g, k)` is `self.group_cache[g][k]`, an entry `(none, k)` is `self.cache[k]`
(e.g. structure/base.py:97, 922-936) -/
abbrev St := Cached Raw (Option String × String) Dev

/-- `self.device` (structure/base.py:50) -/
def here : PyM St Dev := readRaw Raw.device

/-- the device of the result of an operation on tensors of the given devices
(torch semantics: tensors of one operation must be on one device, e.g. graph.py:593) -/
def joined : List Dev → PyM St Dev
  | [] => PyM.raise .runtime
  | d :: ds => if ds.all (· == d) then pure d else PyM.raise .runtime

/-- the device of `a[i]` for an index tensor `i`
(torch semantics of indexing, e.g. hypergraph.py:882-884) -/
def pick (a i : Dev) : PyM St Dev :=
  if i = cpu ∨ i = a then pure a else PyM.raise .runtime

/-- one step of the loop of `to`: `if self.cache.get(v) is not None: self.cache[v] = self.cache[v].to(d)`
(structure/base.py:111-113) -/
def moveKey (d : Dev) (c : Dict (Option String × String) Dev) (k : Option String × String) :
    Dict (Option String × String) Dev :=
  match c.get? k with
  | some _ => c.set k d
  | none => c

/-- `BaseGraph.to` (base.py:104-114) -/
def toGraph (vars : List String) (d : Dev) : PyM St Unit := PyM.modify fun s =>
  { raw := { s.raw with device := d }, cache := (vars.map (Prod.mk none)).foldl (moveKey d) s.cache }

/-- `BaseHypergraph.to` (base.py:445-458) -/
def toHyper (vars : List String) (d : Dev) : PyM St Unit := PyM.modify fun s =>
  { raw := { s.raw with device := d }
    cache := (vars.flatMap fun v => (none, v) :: s.raw.groups.map fun g => (some g, v)).foldl
      (moveKey d) s.cache }

/-- `self.cache = {}` (base.py:94-97) after a call that changed the edges -/
def edited (empty : Bool) : PyM St Unit := PyM.modify fun s =>
  { raw := { s.raw with empty := empty }, cache := [] }

/-! ### graph.py -/

namespace Graph

/-- `vars_for_DL` (graph.py:436-466) -/
def vars : List String :=
  ["A", "L", "L_sym", "L_rw", "L_GCN", "D_v", "D_v_neg_1", "D_v_neg_1_2", "e_src", "e_dst", "e_weight"]

/-- `to` (graph.py:156-162) -/
def moveTo : Dev → PyM St Unit := toGraph vars

/-- `A` (graph.py:469-483); both branches pass `device=self.device` -/
def A : PyM St Dev := memo (none, "A") here

/-- `D_v` (graph.py:486-497) -/
def Dv : PyM St Dev := memo (none, "D_v") do let _ ← A; here

/-- `D_v_neg_1` (graph.py:500-510) -/
def DvNeg1 : PyM St Dev := memo (none, "D_v_neg_1") do let _ ← Dv; here

/-- `D_v_neg_1_2` (graph.py:513-523) -/
def DvNeg12 : PyM St Dev := memo (none, "D_v_neg_1_2") do let _ ← Dv; here

/-- `N_v` (graph.py:525-544): the index tensor is on the device of `A_k` -/
def Nv (hop : Nat) : PyM St Dev :=
  if hop = 0 then PyM.raise .assertion
  else if hop = 1 then A
  else memo (none, "A_" ++ toString hop) A

/-- `e_src`, `e_dst`, `e_weight` (graph.py:546-562) -/
def eVec : PyM St Dev := A

/-- `_tmp_g = self.clone(); _tmp_g.remove_selfloop()` or `_tmp_g.add_extra_selfloop()`: a graph on
the same device with an empty cache (graph.py:145-154, base.py:236-252) -/
def onTmp (m : PyM St Dev) : PyM St Dev := onClone (PyM.modify fun s => { s with cache := [] }) m

/-- `L` (graph.py:570-581) -/
def L : PyM St Dev := memo (none, "L") (onTmp do
  let d ← Dv
  let a ← A
  joined [d, a])

/-- `L_sym` (graph.py:583-600) -/
def Lsym : PyM St Dev := memo (none, "L_sym") do
  let l ← onTmp do
    let d ← DvNeg12
    let a ← A
    joined [d, a]
  let h ← here
  joined [h, l]

/-- `L_rw` (graph.py:602-619) -/
def Lrw : PyM St Dev := memo (none, "L_rw") do
  let l ← onTmp do
    let d ← DvNeg1
    let a ← A
    joined [d, a]
  let h ← here
  joined [h, l]

/-- `L_GCN` (graph.py:622-634) -/
def LGCN : PyM St Dev := memo (none, "L_GCN") (onTmp do
  let d ← DvNeg12
  let a ← A
  joined [d, a])

/-- `if self.device != X.device: self.to(X.device)` (graph.py:643-644, 666-667) -/
def follow (x : Dev) : PyM St Unit := do
  let h ← here
  if h = x then pure () else moveTo x

/-- `smoothing_with_GCN` (graph.py:636-649); dropout keeps the device (utils/sparse.py:13-27) -/
def smoothGCN (x : Dev) : PyM St Dev := do
  follow x
  let l ← LGCN
  joined [l, x]

/-- `v2v` (graph.py:654-704); `ew` is the device of `e_weight` if one is given -/
def v2v (x : Dev) (aggr : Aggr) (ew : Option Dev) : PyM St Dev :=
  match aggr, ew with
  | .other, _ => PyM.raise .assertion
  | .mean, none => do
    follow x
    let p ← A
    let y ← joined [p, x]
    let d ← DvNeg1
    joined [d, y]
  | .sum, none => do
    follow x
    let p ← A
    joined [p, x]
  | .softmax, none => do
    follow x
    let _ ← A
    PyM.raise .type
  | _, some _ => do
    follow x
    let _ ← A
    let p ← here
    joined [p, x]

/-- the tensors a user can read (graph.py:419-704) -/
inductive Q
  | A | Dv | DvNeg1 | DvNeg12 | eSrc | eDst | eWeight | L | Lsym | Lrw | LGCN
  | Nv (hop : Nat)
  | smoothGCN (x : Dev)
  | v2v (x : Dev) (aggr : Aggr) (ew : Option Dev)

/-- reading one of them (graph.py:419-704) -/
def read : Q → PyM St Dev
  | .A => Graph.A
  | .Dv => Graph.Dv
  | .DvNeg1 => Graph.DvNeg1
  | .DvNeg12 => Graph.DvNeg12
  | .eSrc => eVec
  | .eDst => eVec
  | .eWeight => eVec
  | .L => Graph.L
  | .Lsym => Graph.Lsym
  | .Lrw => Graph.Lrw
  | .LGCN => Graph.LGCN
  | .Nv hop => Graph.Nv hop
  | .smoothGCN x => Graph.smoothGCN x
  | .v2v x aggr ew => Graph.v2v x aggr ew

/-- calls of a user: reading a tensor, changing the edges (afterwards `num_e == 0` or not), moving
(a caller of the methods in graph.py; no line of its own) -/
inductive Cmd
  | read (q : Q)
  | edit (empty : Bool)
  | move (d : Dev)

/-- a call; an exception is caught by the user
(a caller of the methods in graph.py; no line of its own) -/
def step : Cmd → St → St
  | .read q, s => (Graph.read q s).2
  | .edit e, s => (edited e s).2
  | .move d, s => (Graph.moveTo d s).2

end Graph

/-! ### directed_graph.py -/

namespace DiGraph

/-- `vars_for_DL` (directed_graph.py:384-412) -/
def vars : List String :=
  ["A", "A_T", "D_v_in", "D_v_out", "D_v_in_neg_1", "D_v_out_neg_1", "e_src", "e_dst", "e_weight"]

/-- `to` (directed_graph.py:149-155) -/
def moveTo : Dev → PyM St Unit := toGraph vars

/-- `A` (directed_graph.py:414-429); the tensor of a graph without edges is made without `device=` -/
def A : PyM St Dev := memo (none, "A") do
  let e ← readRaw Raw.empty
  if e then pure cpu else here

/-- `A_T` (directed_graph.py:431-437) -/
def AT : PyM St Dev := memo (none, "A_T") A

/-- `D_v_in` (directed_graph.py:439-451) -/
def DvIn : PyM St Dev := memo (none, "D_v_in") do let _ ← AT; here

/-- `D_v_out` (directed_graph.py:453-465) -/
def DvOut : PyM St Dev := memo (none, "D_v_out") do let _ ← A; here

/-- `D_v_in_neg_1` (directed_graph.py:467-478) -/
def DvInNeg1 : PyM St Dev := memo (none, "D_v_in_neg_1") do let _ ← DvIn; here

/-- `D_v_out_neg_1` (directed_graph.py:480-491) -/
def DvOutNeg1 : PyM St Dev := memo (none, "D_v_out_neg_1") do let _ ← DvOut; here

/-- `N_v_in` (directed_graph.py:493-500) -/
def NvIn : PyM St Dev := AT

/-- `N_v_out`, `e_src`, `e_dst`, `e_weight` (directed_graph.py:502-527) -/
def NvOut : PyM St Dev := A

/-- `if self.device != X.device: self.to(X.device)` (directed_graph.py:557-558) -/
def follow (x : Dev) : PyM St Unit := do
  let h ← here
  if h = x then pure () else moveTo x

/-- the adjacency matrix used in each direction (directed_graph.py:556-561, 601-606) -/
def along (src2dst : Bool) : PyM St Dev := if src2dst then AT else A

/-- the degree matrix used in each direction (directed_graph.py:566, 611) -/
def degInv (src2dst : Bool) : PyM St Dev := if src2dst then DvInNeg1 else DvOutNeg1

/-- `v2v` (directed_graph.py:537-640); `src2dst` says which direction -/
def v2v (x : Dev) (aggr : Aggr) (ew : Option Dev) (src2dst : Bool) : PyM St Dev :=
  match aggr, ew with
  | .other, _ => PyM.raise .assertion
  | .mean, none => do
    follow x
    let p ← along src2dst
    let y ← joined [p, x]
    let d ← degInv src2dst
    joined [d, y]
  | _, none => do
    follow x
    let p ← along src2dst
    joined [p, x]
  | _, some _ => do
    follow x
    let _ ← A
    let p ← here
    joined [p, x]

/-- the tensors a user can read (directed_graph.py:354-639) -/
inductive Q
  | A | AT | DvIn | DvOut | DvInNeg1 | DvOutNeg1 | eSrc | eDst | eWeight | NvIn | NvOut
  | v2v (x : Dev) (aggr : Aggr) (ew : Option Dev) (src2dst : Bool)

/-- reading one of them (directed_graph.py:354-639) -/
def read : Q → PyM St Dev
  | .A => DiGraph.A
  | .AT => DiGraph.AT
  | .DvIn => DiGraph.DvIn
  | .DvOut => DiGraph.DvOut
  | .DvInNeg1 => DiGraph.DvInNeg1
  | .DvOutNeg1 => DiGraph.DvOutNeg1
  | .eSrc => DiGraph.A
  | .eDst => DiGraph.A
  | .eWeight => DiGraph.A
  | .NvIn => DiGraph.NvIn
  | .NvOut => DiGraph.NvOut
  | .v2v x aggr ew b => DiGraph.v2v x aggr ew b

/-- calls of a user (a caller of the methods in directed_graph.py; no line of its own) -/
inductive Cmd
  | read (q : Q)
  | edit (empty : Bool)
  | move (d : Dev)

/-- a call; an exception is caught by the user
(a caller of the methods in directed_graph.py; no line of its own) -/
def step : Cmd → St → St
  | .read q, s => (DiGraph.read q s).2
  | .edit e, s => (edited e s).2
  | .move d, s => (DiGraph.moveTo d s).2

end DiGraph

/-! ### bipartite_graph.py -/

namespace BiGraph

/-- `vars_for_DL` (bipartite_graph.py:437-466) -/
def vars : List String :=
  ["A", "B", "B_T", "D_u", "D_v", "D_u_neg_1", "D_v_neg_1", "e_u", "e_v", "e_weight"]

/-- `to` (bipartite_graph.py:171-177) -/
def moveTo : Dev → PyM St Unit := toGraph vars

/-- `B` (bipartite_graph.py:480-495); the tensor of a graph without edges is made without `device=` -/
def B : PyM St Dev := memo (none, "B") do
  let e ← readRaw Raw.empty
  if e then pure cpu else here

/-- `B_T` (bipartite_graph.py:497-503) -/
def BT : PyM St Dev := memo (none, "B_T") B

/-- `A` (bipartite_graph.py:468-478): `UU` and `VV` are made on `self.device` -/
def A : PyM St Dev := memo (none, "A") do
  let h ← here
  let b ← B
  let up ← joined [h, b]
  let bt ← BT
  let down ← joined [bt, h]
  joined [up, down]

/-- `D_u` (bipartite_graph.py:505-517) -/
def Du : PyM St Dev := memo (none, "D_u") do let _ ← B; here

/-- `D_v` (bipartite_graph.py:519-531) -/
def Dv : PyM St Dev := memo (none, "D_v") do let _ ← BT; here

/-- `D_u_neg_1` (bipartite_graph.py:533-544) -/
def DuNeg1 : PyM St Dev := memo (none, "D_u_neg_1") do let _ ← Du; here

/-- `D_v_neg_1` (bipartite_graph.py:546-557) -/
def DvNeg1 : PyM St Dev := memo (none, "D_v_neg_1") do let _ ← Dv; here

/-- `L_GCN` (bipartite_graph.py:601-623): `self.A` is copied to the CPU first, `A_` and
`D_v_neg_1_2` are made on `self.device` -/
def LGCN : PyM St Dev := memo (none, "L_GCN") do
  let _ ← A
  let a ← here
  let d ← here
  joined [d, a]

/-- `if self.device != X.device: self.to(X.device)`
(bipartite_graph.py:655-656, 708-709; lines 632-633 move the features instead) -/
def follow (x : Dev) : PyM St Unit := do
  let h ← here
  if h = x then pure () else moveTo x

/-- `smoothing_with_GCN` (bipartite_graph.py:625-638): here `X` is moved, not the graph -/
def smoothGCN (_x : Dev) : PyM St Dev := do
  let x' ← here
  let l ← LGCN
  joined [l, x']

/-- `u2v` (bipartite_graph.py:643-694) -/
def u2v (x : Dev) (aggr : Aggr) (ew : Option Dev) : PyM St Dev :=
  match aggr, ew with
  | .other, _ => PyM.raise .assertion
  | .mean, none => do
    follow x
    let p ← BT
    let y ← joined [p, x]
    let d ← DvNeg1
    joined [d, y]
  | _, none => do
    follow x
    let p ← BT
    joined [p, x]
  | _, some _ => do
    follow x
    let _ ← B
    let p ← here
    joined [p, x]

/-- `v2u` (bipartite_graph.py:696-747) -/
def v2u (x : Dev) (aggr : Aggr) (ew : Option Dev) : PyM St Dev :=
  match aggr, ew with
  | .other, _ => PyM.raise .assertion
  | .mean, none => do
    follow x
    let p ← B
    let y ← joined [p, x]
    let d ← DuNeg1
    joined [d, y]
  | _, none => do
    follow x
    let p ← B
    joined [p, x]
  | _, some _ => do
    follow x
    let _ ← B
    let p ← here
    joined [p, x]

/-- the tensors a user can read; `N_v`, `N_u`, `e_u`, `e_v`, `e_weight` (bipartite_graph.py:559-593) -/
inductive Q
  | A | B | BT | Du | Dv | DuNeg1 | DvNeg1 | eU | eV | eWeight | Nv | Nu | LGCN
  | smoothGCN (x : Dev)
  | u2v (x : Dev) (aggr : Aggr) (ew : Option Dev)
  | v2u (x : Dev) (aggr : Aggr) (ew : Option Dev)

/-- reading one of them (bipartite_graph.py:407-747) -/
def read : Q → PyM St Dev
  | .A => BiGraph.A
  | .B => BiGraph.B
  | .BT => BiGraph.BT
  | .Du => BiGraph.Du
  | .Dv => BiGraph.Dv
  | .DuNeg1 => BiGraph.DuNeg1
  | .DvNeg1 => BiGraph.DvNeg1
  | .eU => BiGraph.B
  | .eV => BiGraph.B
  | .eWeight => BiGraph.B
  | .Nv => BiGraph.B
  | .Nu => BiGraph.BT
  | .LGCN => BiGraph.LGCN
  | .smoothGCN x => BiGraph.smoothGCN x
  | .u2v x aggr ew => BiGraph.u2v x aggr ew
  | .v2u x aggr ew => BiGraph.v2u x aggr ew

/-- calls of a user (a caller of the methods in bipartite_graph.py; no line of its own) -/
inductive Cmd
  | read (q : Q)
  | edit (empty : Bool)
  | move (d : Dev)

/-- a call; an exception is caught by the user
(a caller of the methods in bipartite_graph.py; no line of its own) -/
def step : Cmd → St → St
  | .read q, s => (BiGraph.read q s).2
  | .edit e, s => (edited e s).2
  | .move d, s => (BiGraph.moveTo d s).2

end BiGraph

/-! ### hypergraph.py -/

namespace Hypergraph

/-- `vars_for_DL` (hypergraph.py:640-678); a comma is missing after `"v2e_weight"`, so Python joins
the two neighbouring names -/
def vars : List String :=
  ["H", "H_T", "L_sym", "L_rw", "L_HGNN", "W_v", "W_e", "D_v", "D_v_neg_1", "D_v_neg_1_2", "D_e",
   "D_e_neg_1", "v2e_src", "v2e_dst", "v2e_weight" ++ "e2v_src", "e2v_dst", "e2v_weight"]

/-- `to` (hypergraph.py:157-163) -/
def moveTo : Dev → PyM St Unit := toHyper vars

/-- `assert group_name in self.group_names` (e.g. hypergraph.py:785) -/
def need (g : String) : PyM St Unit := do
  let gs ← readRaw Raw.groups
  PyM.assert (gs.contains g)

/-- `[m(name) for name in self.group_names]` (e.g. structure/base.py:923) -/
def each (m : String → PyM St Dev) : PyM St (List Dev) := do
  let gs ← readRaw Raw.groups
  PyM.collect gs m

/-- `H_v2e_of_group` (base.py:927-936, 540-566) -/
def Hv2eG (g : String) : PyM St Dev := do
  need g
  memo (some g, "H_v2e") do
    need g
    here

/-- `H_v2e` (base.py:918-925) -/
def Hv2e : PyM St Dev := memo (none, "H_v2e") do
  let ds ← each Hv2eG
  joined ds

/-- `H_e2v_of_group` (base.py:947-956) -/
def He2vG (g : String) : PyM St Dev := do
  need g
  memo (some g, "H_e2v") do
    need g
    here

/-- `H_e2v` (base.py:938-945) -/
def He2v : PyM St Dev := memo (none, "H_e2v") do
  let ds ← each He2vG
  joined ds

/-- `H` (hypergraph.py:770-776) -/
def H : PyM St Dev := memo (none, "H") do
  let _ ← Hv2e
  here

/-- `H_of_group` (hypergraph.py:778-787): no `.to(self.device)` here -/
def HG (g : String) : PyM St Dev := do
  need g
  memo (some g, "H") (Hv2eG g)

/-- `H_T` (hypergraph.py:789-795) -/
def HT : PyM St Dev := memo (none, "H_T") do
  let _ ← H
  here

/-- `H_T_of_group` (hypergraph.py:797-806) -/
def HTG (g : String) : PyM St Dev := do
  need g
  memo (some g, "H_T") (HG g)

/-- `W_v` (hypergraph.py:808-821) -/
def Wv : PyM St Dev := memo (none, "W_v") here

/-- `W_e_of_group` (hypergraph.py:839-855, base.py:593-602) -/
def WeG (g : String) : PyM St Dev := do
  need g
  memo (some g, "W_e") do
    need g
    here

/-- `W_e` (hypergraph.py:823-837) -/
def We : PyM St Dev := memo (none, "W_e") do
  let ds ← each WeG
  let _ ← joined ds
  here

/-- `D_v_of_group` (hypergraph.py:872-892) -/
def DvG (g : String) : PyM St Dev := do
  need g
  memo (some g, "D_v") do
    let h ← HG g
    let w ← WeG g
    let v ← pick w h
    let _ ← joined [v, h]
    here

/-- `D_v` (hypergraph.py:857-870) -/
def Dv : PyM St Dev := memo (none, "D_v") do
  let ds ← each DvG
  let _ ← joined ds
  here

/-- `D_v_neg_1_of_group` (hypergraph.py:907-921) -/
def DvNeg1G (g : String) : PyM St Dev := do
  need g
  memo (some g, "D_v_neg_1") do
    let _ ← DvG g
    here

/-- `D_v_neg_1` (hypergraph.py:894-905) -/
def DvNeg1 : PyM St Dev := memo (none, "D_v_neg_1") do
  let _ ← Dv
  here

/-- `D_v_neg_1_2_of_group` (hypergraph.py:936-950) -/
def DvNeg12G (g : String) : PyM St Dev := do
  need g
  memo (some g, "D_v_neg_1_2") do
    let _ ← DvG g
    here

/-- `D_v_neg_1_2` (hypergraph.py:923-934) -/
def DvNeg12 : PyM St Dev := memo (none, "D_v_neg_1_2") do
  let _ ← Dv
  here

/-- `D_e_of_group` (hypergraph.py:968-984) -/
def DeG (g : String) : PyM St Dev := do
  need g
  memo (some g, "D_e") do
    let _ ← HTG g
    here

/-- `D_e` (hypergraph.py:952-966) -/
def De : PyM St Dev := memo (none, "D_e") do
  let ds ← each DeG
  let _ ← joined ds
  here

/-- `D_e_neg_1_of_group` (hypergraph.py:999-1013) -/
def DeNeg1G (g : String) : PyM St Dev := do
  need g
  memo (some g, "D_e_neg_1") do
    let _ ← DeG g
    here

/-- `D_e_neg_1` (hypergraph.py:986-997) -/
def DeNeg1 : PyM St Dev := memo (none, "D_e_neg_1") do
  let _ ← De
  here

/-- `N_e` (hypergraph.py:1015-1030) -/
def Ne : PyM St Dev := do
  let ds ← each HG
  joined ds

/-- `L_HGNN` (hypergraph.py:1171-1181) -/
def LHGNN : PyM St Dev := memo (none, "L_HGNN") do
  let a ← DvNeg12
  let b ← H
  let c ← We
  let d ← DeNeg1
  let e ← HT
  let f ← DvNeg12
  joined [a, b, c, d, e, f]

/-- `L_HGNN_of_group` (hypergraph.py:1183-1203) -/
def LHGNNG (g : String) : PyM St Dev := do
  need g
  memo (some g, "L_HGNN") do
    let a ← DvNeg12G g
    let b ← HG g
    let c ← WeG g
    let d ← DeNeg1G g
    let e ← HTG g
    let f ← DvNeg12G g
    joined [a, b, c, d, e, f]

/-- `L_sym` (hypergraph.py:1082-1097) -/
def Lsym : PyM St Dev := memo (none, "L_sym") do
  let l ← LHGNN
  let h ← here
  joined [h, l]

/-- `L_sym_of_group` (hypergraph.py:1099-1117) -/
def LsymG (g : String) : PyM St Dev := do
  need g
  memo (some g, "L_sym") do
    let l ← LHGNNG g
    let h ← here
    joined [h, l]

/-- `L_rw` (hypergraph.py:1119-1138) -/
def Lrw : PyM St Dev := memo (none, "L_rw") do
  let a ← DvNeg1
  let b ← H
  let c ← We
  let d ← DeNeg1
  let e ← HT
  let l ← joined [a, b, c, d, e]
  let h ← here
  joined [h, l]

/-- `L_rw_of_group` (hypergraph.py:1140-1168) -/
def LrwG (g : String) : PyM St Dev := do
  need g
  memo (some g, "L_rw") do
    let a ← DvNeg1G g
    let b ← HG g
    let c ← WeG g
    let d ← DeNeg1G g
    let e ← HTG g
    let l ← joined [a, b, c, d, e]
    let h ← here
    joined [h, l]

/-- `if self.device != X.device: self.to(X.device)` (e.g. hypergraph.py:1258-1259) -/
def follow (x : Dev) : PyM St Unit := do
  let h ← here
  if h = x then pure () else moveTo x

/-- `smoothing_with_HGNN` (hypergraph.py:1205-1221): here `X` is moved, not the hypergraph -/
def smoothHGNN (_x : Dev) : PyM St Dev := do
  let x' ← here
  let l ← LHGNN
  joined [l, x']

/-- `smoothing_with_HGNN_of_group` (hypergraph.py:1223-1241) -/
def smoothHGNNG (g : String) (_x : Dev) : PyM St Dev := do
  need g
  let x' ← here
  let l ← LHGNNG g
  joined [l, x']

/-- `v2e_aggregation` (hypergraph.py:1246-1296) -/
def v2eAggr (x : Dev) (aggr : Aggr) (w : Option Dev) : PyM St Dev :=
  match aggr, w with
  | .other, _ => PyM.raise .assertion
  | .mean, none => do
    follow x
    let p ← HT
    let y ← joined [p, x]
    let d ← DeNeg1
    joined [d, y]
  | _, none => do
    follow x
    let p ← HT
    joined [p, x]
  | _, some _ => do
    follow x
    let _ ← HT
    let p ← here
    joined [p, x]

/-- `v2e_update` (hypergraph.py:1362-1377) -/
def v2eUpdate (x : Dev) (ew : Option Dev) : PyM St Dev := do
  follow x
  match ew with
  | none => do
    let w ← We
    joined [w, x]
  | some w => joined [w, x]

/-- `v2e` (hypergraph.py:1401-1420) -/
def v2e (x : Dev) (aggr : Aggr) (w ew : Option Dev) : PyM St Dev := do
  let y ← v2eAggr x aggr w
  v2eUpdate y ew

/-- `e2v_aggregation` (hypergraph.py:1445-1495) -/
def e2vAggr (x : Dev) (aggr : Aggr) (w : Option Dev) : PyM St Dev :=
  match aggr, w with
  | .other, _ => PyM.raise .assertion
  | .mean, none => do
    follow x
    let p ← H
    let y ← joined [p, x]
    let d ← DvNeg1
    joined [d, y]
  | _, none => do
    follow x
    let p ← H
    joined [p, x]
  | _, some _ => do
    follow x
    let _ ← H
    let p ← here
    joined [p, x]

/-- `e2v` (hypergraph.py:1583-1596, with `e2v_update` 1561-1569) -/
def e2v (x : Dev) (aggr : Aggr) (w : Option Dev) : PyM St Dev := do
  let y ← e2vAggr x aggr w
  follow y
  pure y

/-- `v2v` (hypergraph.py:1620-1657) with the same `aggr` for both halves -/
def v2v (x : Dev) (aggr : Aggr) (w ew w' : Option Dev) : PyM St Dev := do
  let y ← v2e x aggr w ew
  e2v y aggr w'

/-- the tensors a user can read (hypergraph.py:680-1657) -/
inductive Q
  | H | HT | Wv | We | Dv | DvNeg1 | DvNeg12 | De | DeNeg1 | Lsym | Lrw | LHGNN
  | v2eVec | e2vVec | Hv2e | He2v | Ne
  | HG (g : String) | HTG (g : String) | WeG (g : String) | DvG (g : String) | DvNeg1G (g : String)
  | DvNeg12G (g : String) | DeG (g : String) | DeNeg1G (g : String) | LsymG (g : String)
  | LrwG (g : String) | LHGNNG (g : String) | Hv2eG (g : String) | He2vG (g : String)
  | smoothHGNN (x : Dev)
  | smoothHGNNG (g : String) (x : Dev)
  | v2e (x : Dev) (aggr : Aggr) (w ew : Option Dev)
  | e2v (x : Dev) (aggr : Aggr) (w : Option Dev)
  | v2v (x : Dev) (aggr : Aggr) (w ew w' : Option Dev)

/-- reading one of them; `v2e_src`, `v2e_dst`, `v2e_weight` come from `H_T`, `e2v_*` from `H`
(hypergraph.py:680-768) -/
def read : Q → PyM St Dev
  | .H => Hypergraph.H
  | .HT => Hypergraph.HT
  | .Wv => Hypergraph.Wv
  | .We => Hypergraph.We
  | .Dv => Hypergraph.Dv
  | .DvNeg1 => Hypergraph.DvNeg1
  | .DvNeg12 => Hypergraph.DvNeg12
  | .De => Hypergraph.De
  | .DeNeg1 => Hypergraph.DeNeg1
  | .Lsym => Hypergraph.Lsym
  | .Lrw => Hypergraph.Lrw
  | .LHGNN => Hypergraph.LHGNN
  | .v2eVec => Hypergraph.HT
  | .e2vVec => Hypergraph.H
  | .Hv2e => Hypergraph.Hv2e
  | .He2v => Hypergraph.He2v
  | .Ne => Hypergraph.Ne
  | .HG g => Hypergraph.HG g
  | .HTG g => Hypergraph.HTG g
  | .WeG g => Hypergraph.WeG g
  | .DvG g => Hypergraph.DvG g
  | .DvNeg1G g => Hypergraph.DvNeg1G g
  | .DvNeg12G g => Hypergraph.DvNeg12G g
  | .DeG g => Hypergraph.DeG g
  | .DeNeg1G g => Hypergraph.DeNeg1G g
  | .LsymG g => Hypergraph.LsymG g
  | .LrwG g => Hypergraph.LrwG g
  | .LHGNNG g => Hypergraph.LHGNNG g
  | .Hv2eG g => Hypergraph.Hv2eG g
  | .He2vG g => Hypergraph.He2vG g
  | .smoothHGNN x => Hypergraph.smoothHGNN x
  | .smoothHGNNG g x => Hypergraph.smoothHGNNG g x
  | .v2e x aggr w ew => Hypergraph.v2e x aggr w ew
  | .e2v x aggr w => Hypergraph.e2v x aggr w
  | .v2v x aggr w ew w' => Hypergraph.v2v x aggr w ew w'

/-- `_clear_cache(group_name)` (base.py:433-438) -/
def clearCache (g : Option String) : PyM St Unit := PyM.modify fun s =>
  { s with cache := match g with
      | none => []
      | some g => s.cache.filter fun e => e.1.1 != none && e.1.1 != some g }

/-- calls of a user: reading, `add_hyperedges` of at least one hyperedge (hypergraph.py:317-350),
`remove_hyperedges` (hypergraph.py:416-440), `remove_group` (hypergraph.py:442-449), `clear`
(base.py:423-431 with `_clear_raw`), moving -/
inductive Cmd
  | read (q : Q)
  | add (g : String)
  | remove (g : Option String)
  | removeGroup (g : String)
  | clear
  | move (d : Dev)

/-- a call; an exception is caught by the user
(a caller of the methods in hypergraph.py; no line of its own) -/
def step : Cmd → St → St
  | .read q, s => (Hypergraph.read q s).2
  | .add g, s =>
    let s := { s with raw := { s.raw with
      groups := if s.raw.groups.contains g then s.raw.groups else s.raw.groups ++ [g] } }
    (clearCache (some g) s).2
  | .remove g, s => (clearCache g s).2
  | .removeGroup g, s =>
    let s := { s with raw := { s.raw with groups := s.raw.groups.filter (· != g) } }
    (clearCache (some g) s).2
  | .clear, s => (clearCache none { s with raw := { s.raw with groups := [] } }).2
  | .move d, s => (Hypergraph.moveTo d s).2

end Hypergraph

/-- a structure just made on device `d` (structure/base.py:48-52, 378-381) -/
def fresh (d : Dev) (empty : Bool) (groups : List String) : St :=
  { raw := { device := d, empty := empty, groups := groups }, cache := [] }

end Device
end DHG
