import Verif.DiGraph
import Verif.BiGraph
import Verif.GraphReads

/-!
# Cache-free readers for `DiGraph` and `BiGraph` and agreement of the cached ones with them
-/

set_option linter.unusedSectionVars false
set_option autoImplicit false

namespace DHG
namespace Ord

variable {K : Type} [Field K] [LinearOrder K]

/-- `A`/`B` from raw fields -/
def evM (c : Cls) (r : GRaw K) : Except Err (Sp K) :=
  if r.numE = 0 then .ok (Sp.empty (rows c r) r.numV)
  else do
    let M ← Sp.build (rows c r) r.numV r.edgeList r.edgeWts
    .ok M.coalesce

/-- `A_T`/`B_T` from raw fields -/
def evMT (c : Cls) (r : GRaw K) : Except Err (Sp K) := do
  let M ← evM c r
  .ok M.t.coalesce

/-- diagonal of the row sums -/
def evDr (c : Cls) (r : GRaw K) : Except Err (Sp K) := do
  let M ← evM c r
  .ok (Sp.diag M.rowSum)

/-- diagonal of the column sums -/
def evDc (c : Cls) (r : GRaw K) : Except Err (Sp K) := do
  let M ← evMT c r
  .ok (Sp.diag M.rowSum)

/-- inverse of `evDr` -/
def evDrN1 (c : Cls) (r : GRaw K) : Except Err (Sp K) := do
  let D ← evDr c r
  .ok D.inv

/-- inverse of `evDc` -/
def evDcN1 (c : Cls) (r : GRaw K) : Except Err (Sp K) := do
  let D ← evDc c r
  .ok D.inv

/-- `BiGraph.A` from raw fields -/
def evA (r : GRaw K) : Except Err (Sp K) := do
  let B ← evM .bi r
  let up ← (Sp.empty r.numU r.numU).hcat B
  let BT ← evMT .bi r
  let down ← BT.hcat (Sp.empty r.numV r.numV)
  let A ← Sp.vcat up down
  .ok A.coalesce

variable [PyReal K]

/-- `BiGraph.L_GCN` from raw fields -/
def evLGCN (r : GRaw K) : Except Err (Sp K) := do
  let A ← evA r
  BiGraph.gcnOf (r.numU + r.numV) A

/-- value belonging to each cache key -/
def evKey (c : Cls) : OKey → GRaw K → Except Err (GVal K)
  | .e, r => .ok (.edges r.edgeList r.edgeWts)
  | .M, r => (evM c r).map .mat
  | .MT, r => (evMT c r).map .mat
  | .Dr, r => (evDr c r).map .mat
  | .Dc, r => (evDc c r).map .mat
  | .DrN1, r => (evDrN1 c r).map .mat
  | .DcN1, r => (evDcN1 c r).map .mat
  | .A, r => (evA r).map .mat
  | .LGCN, r => (evLGCN r).map .mat

/-- the agreement relation -/
abbrev OReads (c : Cls) {α : Type} (m : PyM (OSt K) α) (p : GRaw K → Except Err α) : Prop :=
  Reads (evKey c) m p

variable {c : Cls}

theorem reads_asMat (k : OKey) (m : PyM (OSt K) (GVal K)) (p : GRaw K → Except Err (Sp K))
    (hk : ∀ r, evKey c k r = (p r).map .mat) (hm : OReads c m (fun r => (p r).map .mat)) :
    OReads c (memo k m >>= asMat) p := by
  have h1 : OReads c (memo k m) (evKey c k) := Reads.memo (hm.congr fun r => (hk r).symm)
  refine (Reads.bind h1 (q := fun v _ => match v with | .mat M => .ok M | .edges _ _ => .error .type)
    ?_).congr ?_
  · intro v; cases v
    · exact Reads.raise _
    · exact Reads.pure _
  · intro r; rw [hk]; cases p r <;> rfl

theorem reads_getE : OReads (K := K) c getE (fun r => .ok (r.edgeList, r.edgeWts)) := by
  have h1 : OReads (K := K) c (memo .e (readRaw fun r => GVal.edges r.edgeList r.edgeWts))
      (evKey c .e) := Reads.memo ((Reads.readRaw _).congr fun r => rfl)
  refine (Reads.bind h1
    (q := fun v _ => match v with | .mat _ => .error .type | .edges a b => .ok (a, b)) ?_).congr ?_
  · intro v; cases v
    · exact Reads.pure _
    · exact Reads.raise _
  · intro r; rfl

theorem reads_getM : OReads (K := K) c (getM c) (evM c) := by
  refine reads_asMat .M _ (evM c) (fun _ => rfl) ?_
  refine (Reads.bind (Reads.readRaw _) fun ne => Reads.bind (Reads.readRaw _) fun m =>
    Reads.bind (Reads.readRaw _) fun n =>
    Reads.ite (Reads.pure _) (Reads.bind reads_getE fun p =>
      Reads.bind (Reads.lift _) fun M => Reads.pure _)).congr ?_
  intro r
  simp only [evM]
  show (if r.numE = 0 then _ else _) = _
  split
  · rfl
  · simp only [bind, Except.bind]
    cases Sp.build (rows c r) r.numV _ _ <;> rfl

theorem reads_getMT : OReads (K := K) c (getMT c) (evMT c) := by
  refine reads_asMat .MT _ (evMT c) (fun _ => rfl) ?_
  refine (Reads.bind reads_getM fun A => Reads.pure _).congr ?_
  intro r; unfold evMT; cases evM c r <;> rfl

theorem reads_getDr : OReads (K := K) c (getDr c) (evDr c) := by
  refine reads_asMat .Dr _ (evDr c) (fun _ => rfl) ?_
  refine (Reads.bind reads_getM fun A => Reads.pure _).congr ?_
  intro r; unfold evDr; cases evM c r <;> rfl

theorem reads_getDc : OReads (K := K) c (getDc c) (evDc c) := by
  refine reads_asMat .Dc _ (evDc c) (fun _ => rfl) ?_
  refine (Reads.bind reads_getMT fun A => Reads.pure _).congr ?_
  intro r; unfold evDc; cases evMT c r <;> rfl

theorem reads_getDrN1 : OReads (K := K) c (getDrN1 c) (evDrN1 c) := by
  refine reads_asMat .DrN1 _ (evDrN1 c) (fun _ => rfl) ?_
  refine (Reads.bind reads_getDr fun A => Reads.pure _).congr ?_
  intro r; unfold evDrN1; cases evDr c r <;> rfl

theorem reads_getDcN1 : OReads (K := K) c (getDcN1 c) (evDcN1 c) := by
  refine reads_asMat .DcN1 _ (evDcN1 c) (fun _ => rfl) ?_
  refine (Reads.bind reads_getDc fun A => Reads.pure _).congr ?_
  intro r; unfold evDcN1; cases evDc c r <;> rfl

/-- row index queries -/
def evNr (c : Cls) (i : Int) (r : GRaw K) : Except Err (List Nat) := do
  let M ← evM c r
  M.rowIdx i

/-- column index queries -/
def evNc (c : Cls) (i : Int) (r : GRaw K) : Except Err (List Nat) := do
  let M ← evMT c r
  M.rowIdx i

theorem reads_getNr (i : Int) : OReads (K := K) c (getNr c i) (evNr c i) :=
  (Reads.bind reads_getM fun _ => Reads.lift _).congr fun _ => rfl

theorem reads_getNc (i : Int) : OReads (K := K) c (getNc c i) (evNc c i) :=
  (Reads.bind reads_getMT fun _ => Reads.lift _).congr fun _ => rfl

theorem reads_map' {α β : Type} {m : PyM (OSt K) α} {p : GRaw K → Except Err α} (h : OReads c m p)
    (f : α → β) : OReads c (m >>= fun x => pure (f x)) (fun r => (p r).map f) := by
  refine (Reads.bind h fun x => Reads.pure _).congr ?_
  intro r; cases p r <;> rfl

theorem reads_assert (b : Bool) : OReads (K := K) c (PyM.assert b)
    (fun _ => if b then .ok () else .error .assertion) := by
  unfold PyM.assert; cases b
  · exact Reads.raise _
  · exact Reads.pure _

theorem reads_drop (M : Sp K) (p : K) (keep : Nat → Bool) :
    OReads (K := K) c (Graph.dropMaybe M p keep) (fun _ => Graph.evDrop M p keep) :=
  (Reads.ite (Reads.lift _) (Reads.pure _)).congr fun r => rfl

/-- default-weight message passing from raw fields -/
def evPass (evP evD : GRaw K → Except Err (Sp K)) (X : Dense K) (aggr : Aggr) (p : K)
    (keep : Nat → Bool) (r : GRaw K) : Except Err (Dense K) := do
  let M ← evP r
  let P ← Graph.evDrop M p keep
  match aggr with
  | .mean => do
    let Y ← P.mmD X
    let D ← evD r
    D.mmD Y
  | .sum => P.mmD X
  | .softmax => P.softmax.mmD X
  | .other => .ok X

theorem reads_passDefault {getP getD : PyM (OSt K) (Sp K)} {evP evD : GRaw K → Except Err (Sp K)}
    (hP : OReads c getP evP) (hD : OReads c getD evD) (X : Dense K) (aggr : Aggr) (p : K)
    (keep : Nat → Bool) :
    OReads c (passDefault getP getD X aggr p keep) (evPass evP evD X aggr p keep) := by
  refine (Reads.bind hP fun A => Reads.bind (reads_drop A p keep)
    (q := fun P r => match aggr with
        | .mean => do
          let Y ← P.mmD X
          let D ← evD r
          D.mmD Y
        | .sum => P.mmD X
        | .softmax => P.softmax.mmD X
        | .other => .ok X) fun P => ?_).congr ?_
  · cases aggr
    · exact (Reads.bind (Reads.lift _) fun Y => Reads.bind hD fun D =>
          Reads.lift _).congr fun r => rfl
    · exact Reads.lift _
    · exact Reads.lift _
    · exact Reads.pure _
  · intro r; cases aggr <;> rfl

/-- explicit-weight message passing from raw fields -/
def evPassW (c : Cls) (tr : Bool) (w : List K) (X : Dense K) (aggr : Aggr) (p : K)
    (keep : Nat → Bool) (r : GRaw K) : Except Err (Dense K) := do
  let A ← evM c r
  if w.length = A.ents.length then do
    let P ← A.withVals w
    let P ← Graph.evDrop (if tr then P.t.coalesce else P.coalesce) p keep
    match aggr with
    | .mean => do
      let Y ← P.mmD X
      .ok (Y.scaleRows P.rowSum)
    | .sum => P.mmD X
    | .softmax => P.softmax.mmD X
    | .other => .ok X
  else .error .assertion

theorem reads_getEWeight : OReads (K := K) c (getEWeight c)
    (fun r => (evM c r).map fun A => A.ents.map Prod.snd) := reads_map' reads_getM _

theorem reads_passWeighted (tr : Bool) (w : List K) (X : Dense K) (aggr : Aggr) (p : K)
    (keep : Nat → Bool) :
    OReads c (passWeighted c tr w X aggr p keep) (evPassW c tr w X aggr p keep) := by
  refine (Reads.bind reads_getEWeight fun ws =>
      Reads.bind (reads_assert _) fun _ => Reads.bind reads_getM fun A =>
      Reads.bind (Reads.lift _) fun P0 => Reads.bind (reads_drop _ p keep)
      (q := fun P r => match aggr with
        | .mean => do
          let Y ← P.mmD X
          .ok (Y.scaleRows P.rowSum)
        | .sum => P.mmD X
        | .softmax => P.softmax.mmD X
        | .other => .ok X) fun P => ?_).congr ?_
  · cases aggr
    · exact (Reads.bind (Reads.lift _) fun Y => Reads.pure _).congr fun r => rfl
    · exact Reads.lift _
    · exact Reads.lift _
    · exact Reads.pure _
  · intro r
    unfold evPassW
    cases h : evM c r with
    | error e => simp [Except.map]; rfl
    | ok A =>
      by_cases hl : w.length = A.ents.length
      · simp only [Except.map, bind, Except.bind, List.length_map, hl, decide_true, if_true]
      · simp only [Except.map, bind, Except.bind, List.length_map, hl, decide_false, if_false]
        rfl

/-- messages to the row vertices from raw fields -/
def evToRows (c : Cls) (X : Dense K) (aggr : Aggr) (ew : Option (List K)) (p : K)
    (keep : Nat → Bool) (r : GRaw K) : Except Err (Dense K) :=
  match ew with
  | none => evPass (evM c) (evDrN1 c) X aggr p keep r
  | some w => evPassW c false w X aggr p keep r

/-- messages to the column vertices from raw fields -/
def evToCols (c : Cls) (X : Dense K) (aggr : Aggr) (ew : Option (List K)) (p : K)
    (keep : Nat → Bool) (r : GRaw K) : Except Err (Dense K) :=
  match ew with
  | none => evPass (evMT c) (evDcN1 c) X aggr p keep r
  | some w => evPassW c true w X aggr p keep r

theorem reads_toRows (X : Dense K) (aggr : Aggr) (ew : Option (List K)) (p : K)
    (keep : Nat → Bool) : OReads c (toRows c X aggr ew p keep) (evToRows c X aggr ew p keep) := by
  cases ew with
  | none => exact reads_passDefault reads_getM reads_getDrN1 X aggr p keep
  | some w => exact reads_passWeighted false w X aggr p keep

theorem reads_toCols (X : Dense K) (aggr : Aggr) (ew : Option (List K)) (p : K)
    (keep : Nat → Bool) : OReads c (toCols c X aggr ew p keep) (evToCols c X aggr ew p keep) := by
  cases ew with
  | none => exact reads_passDefault reads_getMT reads_getDcN1 X aggr p keep
  | some w => exact reads_passWeighted true w X aggr p keep

end Ord

namespace DiGraph
variable {K : Type} [Field K] [LinearOrder K] [PyReal K]
open Ord

/-- `v2v` from raw fields -/
def evV2v (X : Dense K) (aggr : Aggr) (ew : Option (List K)) (dir : Dir) (p : K)
    (keep : Nat → Bool) (r : GRaw K) : Except Err (Dense K) :=
  if aggr = .other then .error .assertion
  else match dir with
  | .dst2src => evToRows .di X aggr ew p keep r
  | .src2dst => evToCols .di X aggr ew p keep r
  | .other => .error .assertion

/-- answers from raw fields -/
def evAsk : DQuery K → GRaw K → Except Err (GAns K)
  | .e, r => .ok (.edges r.edgeList r.edgeWts)
  | .numV, r => .ok (.num r.numV)
  | .numE, r => .ok (.num r.numE)
  | .A, r => (evM .di r).map .mat
  | .AT, r => (evMT .di r).map .mat
  | .DvOut, r => (evDr .di r).map .mat
  | .DvIn, r => (evDc .di r).map .mat
  | .DvOutN1, r => (evDrN1 .di r).map .mat
  | .DvInN1, r => (evDcN1 .di r).map .mat
  | .Nout v, r => (evNr .di v r).map .idx
  | .Nin v, r => (evNc .di v r).map .idx
  | .degOut, r => (evDr .di r).map fun M => .vec (M.ents.map Prod.snd)
  | .degIn, r => (evDc .di r).map fun M => .vec (M.ents.map Prod.snd)
  | .eSrc, r => (evM .di r).map fun M => .idx (M.ents.map fun e => e.1.1)
  | .eDst, r => (evM .di r).map fun M => .idx (M.ents.map fun e => e.1.2)
  | .eWeight, r => (evM .di r).map fun M => .vec (M.ents.map Prod.snd)
  | .v2v X aggr ew dir p keep, r => (evV2v X aggr ew dir p keep r).map .feat

theorem reads_v2v (X : Dense K) (aggr : Aggr) (ew : Option (List K)) (dir : Dir) (p : K)
    (keep : Nat → Bool) : OReads .di (v2v X aggr ew dir p keep) (evV2v X aggr ew dir p keep) := by
  refine (Reads.bind (reads_assert _) (q := fun _ r => match dir with
    | .dst2src => evToRows .di X aggr ew p keep r
    | .src2dst => evToCols .di X aggr ew p keep r
    | .other => .error .assertion) fun _ => ?_).congr ?_
  · cases dir
    · exact reads_toRows X aggr ew p keep
    · exact reads_toCols X aggr ew p keep
    · exact Reads.raise _
  · intro r; unfold evV2v
    by_cases h : aggr = .other <;> simp [h] <;> rfl

theorem reads_ask (q : DQuery K) : OReads .di (ask q) (evAsk q) := by
  cases q with
  | e => exact (reads_map' reads_getE _)
  | numV => exact (reads_map' (Reads.readRaw _) _)
  | numE => exact (reads_map' (Reads.readRaw _) _)
  | A => exact reads_map' reads_getM _
  | AT => exact reads_map' reads_getMT _
  | DvOut => exact reads_map' reads_getDr _
  | DvIn => exact reads_map' reads_getDc _
  | DvOutN1 => exact reads_map' reads_getDrN1 _
  | DvInN1 => exact reads_map' reads_getDcN1 _
  | Nout v => exact reads_map' (reads_getNr v) _
  | Nin v => exact reads_map' (reads_getNc v) _
  | degOut => exact reads_map' reads_getDr _
  | degIn => exact reads_map' reads_getDc _
  | eSrc =>
    refine (reads_map' (reads_map' reads_getM _) _).congr fun r => ?_
    simp only [evAsk]; cases evM Cls.di r <;> rfl
  | eDst =>
    refine (reads_map' (reads_map' reads_getM _) _).congr fun r => ?_
    simp only [evAsk]; cases evM Cls.di r <;> rfl
  | eWeight =>
    refine (reads_map' (reads_map' reads_getM _) _).congr fun r => ?_
    simp only [evAsk]; cases evM Cls.di r <;> rfl
  | v2v X aggr ew dir p keep => exact reads_map' (reads_v2v X aggr ew dir p keep) _

end DiGraph

namespace BiGraph
variable {K : Type} [Field K] [LinearOrder K] [PyReal K]
open Ord

theorem reads_getA : OReads (K := K) .bi getA evA := by
  refine reads_asMat .A _ evA (fun _ => rfl) ?_
  refine (Reads.bind (Reads.readRaw _) fun nu => Reads.bind (Reads.readRaw _) fun nv =>
    Reads.bind reads_getM fun B => Reads.bind (Reads.lift _) fun up =>
    Reads.bind reads_getMT fun BT => Reads.bind (Reads.lift _) fun down =>
    Reads.bind (Reads.lift _) fun A => Reads.pure _).congr ?_
  intro r; unfold evA
  cases evM .bi r with
  | error e => rfl
  | ok B =>
    simp only [bind, Except.bind]
    cases (Sp.empty r.numU r.numU).hcat B with
    | error e => rfl
    | ok up =>
      simp only []
      cases evMT .bi r with
      | error e => rfl
      | ok BT =>
        simp only []
        cases BT.hcat (Sp.empty r.numV r.numV) with
        | error e => rfl
        | ok down => simp only []; cases up.vcat down <;> rfl

theorem reads_getLGCN : OReads (K := K) .bi getLGCN evLGCN := by
  refine reads_asMat .LGCN _ evLGCN (fun _ => rfl) ?_
  refine (Reads.bind (Reads.readRaw _) fun nu => Reads.bind (Reads.readRaw _) fun nv =>
    Reads.bind reads_getA fun A => Reads.bind (Reads.lift _) fun L => Reads.pure _).congr ?_
  intro r; unfold evLGCN
  cases evA r with
  | error e => rfl
  | ok A => simp only [bind, Except.bind]; cases gcnOf (r.numU + r.numV) A <;> rfl

/-- `smoothing_with_GCN` from raw fields -/
def evSmoothGCN (X : Dense K) (p : K) (keep : Nat → Bool) (r : GRaw K) : Except Err (Dense K) := do
  let L ← evLGCN r
  let L ← Graph.evDrop L p keep
  L.mmD X

theorem reads_smoothGCN (X : Dense K) (p : K) (keep : Nat → Bool) :
    OReads (K := K) .bi (smoothGCN X p keep) (evSmoothGCN X p keep) :=
  (Reads.bind reads_getLGCN fun L => Reads.bind (reads_drop L p keep) fun L' =>
    Reads.lift _).congr fun r => rfl

/-- `u2v` from raw fields -/
def evU2v (X : Dense K) (aggr : Aggr) (ew : Option (List K)) (p : K)
    (keep : Nat → Bool) (r : GRaw K) : Except Err (Dense K) :=
  if aggr = .other then .error .assertion else evToCols .bi X aggr ew p keep r

/-- `v2u` from raw fields -/
def evV2u (X : Dense K) (aggr : Aggr) (ew : Option (List K)) (p : K)
    (keep : Nat → Bool) (r : GRaw K) : Except Err (Dense K) :=
  if aggr = .other then .error .assertion else evToRows .bi X aggr ew p keep r

theorem reads_u2v (X : Dense K) (aggr : Aggr) (ew : Option (List K)) (p : K)
    (keep : Nat → Bool) : OReads .bi (u2v X aggr ew p keep) (evU2v X aggr ew p keep) := by
  refine (Reads.bind (reads_assert _) fun _ => reads_toCols X aggr ew p keep).congr ?_
  intro r; unfold evU2v
  by_cases h : aggr = .other <;> simp [h] <;> rfl

theorem reads_v2u (X : Dense K) (aggr : Aggr) (ew : Option (List K)) (p : K)
    (keep : Nat → Bool) : OReads .bi (v2u X aggr ew p keep) (evV2u X aggr ew p keep) := by
  refine (Reads.bind (reads_assert _) fun _ => reads_toRows X aggr ew p keep).congr ?_
  intro r; unfold evV2u
  by_cases h : aggr = .other <;> simp [h] <;> rfl

/-- answers from raw fields -/
def evAsk : BQuery K → GRaw K → Except Err (GAns K)
  | .e, r => .ok (.edges r.edgeList r.edgeWts)
  | .numU, r => .ok (.num r.numU)
  | .numV, r => .ok (.num r.numV)
  | .numE, r => .ok (.num r.numE)
  | .A, r => (evA r).map .mat
  | .B, r => (evM .bi r).map .mat
  | .BT, r => (evMT .bi r).map .mat
  | .Du, r => (evDr .bi r).map .mat
  | .Dv, r => (evDc .bi r).map .mat
  | .DuN1, r => (evDrN1 .bi r).map .mat
  | .DvN1, r => (evDcN1 .bi r).map .mat
  | .Nv v, r => (evNr .bi v r).map .idx
  | .Nu v, r => (evNc .bi v r).map .idx
  | .degU, r => (evDr .bi r).map fun M => .vec (M.ents.map Prod.snd)
  | .degV, r => (evDc .bi r).map fun M => .vec (M.ents.map Prod.snd)
  | .eU, r => (evM .bi r).map fun M => .idx (M.ents.map fun e => e.1.1)
  | .eV, r => (evM .bi r).map fun M => .idx (M.ents.map fun e => e.1.2)
  | .eWeight, r => (evM .bi r).map fun M => .vec (M.ents.map Prod.snd)
  | .LGCN, r => (evLGCN r).map .mat
  | .smoothGCN X p keep, r => (evSmoothGCN X p keep r).map .feat
  | .u2v X aggr ew p keep, r => (evU2v X aggr ew p keep r).map .feat
  | .v2u X aggr ew p keep, r => (evV2u X aggr ew p keep r).map .feat

theorem reads_ask (q : BQuery K) : OReads .bi (ask q) (evAsk q) := by
  cases q with
  | e => exact (reads_map' reads_getE _)
  | numU => exact (reads_map' (Reads.readRaw _) _)
  | numV => exact (reads_map' (Reads.readRaw _) _)
  | numE => exact (reads_map' (Reads.readRaw _) _)
  | A => exact reads_map' reads_getA _
  | B => exact reads_map' reads_getM _
  | BT => exact reads_map' reads_getMT _
  | Du => exact reads_map' reads_getDr _
  | Dv => exact reads_map' reads_getDc _
  | DuN1 => exact reads_map' reads_getDrN1 _
  | DvN1 => exact reads_map' reads_getDcN1 _
  | Nv v => exact reads_map' (reads_getNr v) _
  | Nu v => exact reads_map' (reads_getNc v) _
  | degU => exact reads_map' reads_getDr _
  | degV => exact reads_map' reads_getDc _
  | eU =>
    refine (reads_map' (reads_map' reads_getM _) _).congr fun r => ?_
    simp only [evAsk]; cases evM Cls.bi r <;> rfl
  | eV =>
    refine (reads_map' (reads_map' reads_getM _) _).congr fun r => ?_
    simp only [evAsk]; cases evM Cls.bi r <;> rfl
  | eWeight =>
    refine (reads_map' (reads_map' reads_getM _) _).congr fun r => ?_
    simp only [evAsk]; cases evM Cls.bi r <;> rfl
  | LGCN => exact reads_map' reads_getLGCN _
  | smoothGCN X p keep => exact reads_map' (reads_smoothGCN X p keep) _
  | u2v X aggr ew p keep => exact reads_map' (reads_u2v X aggr ew p keep) _
  | v2u X aggr ew p keep => exact reads_map' (reads_v2u X aggr ew p keep) _

end BiGraph
end DHG
