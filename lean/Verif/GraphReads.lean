import Verif.Graph

/-!
# Cache-free readers for `Graph` and the proof that cached reads agree with them
-/

set_option linter.unusedSectionVars false
set_option autoImplicit false

namespace DHG
namespace Graph

variable {K : Type} [Field K] [LinearOrder K]

/-- `A` computed from raw fields -/
def evA (r : GRaw K) : Except Err (Sp K) :=
  if r.numE = 0 then .ok (Sp.empty r.numV r.numV)
  else do
    let M ← Sp.build r.numV r.numV (r.edgeList ++ r.eDict.keys.map fun q => (q.2, q.1))
      (r.edgeWts ++ r.eDict.vals)
    .ok M.coalesce

/-- degree matrix from raw fields -/
def evDv (r : GRaw K) : Except Err (Sp K) := do
  let A ← evA r
  .ok (Sp.diag A.rowSum)

/-- inverse degree matrix from raw fields -/
def evDvN1 (r : GRaw K) : Except Err (Sp K) := do
  let D ← evDv r
  .ok D.inv

/-- power of `A` from raw fields -/
def evApow (hop : Nat) (r : GRaw K) : Except Err (Sp K) := do
  let A ← evA r
  powLoop (hop - 1) A A

/-- raw fields after `remove_selfloop` -/
def noLoops (r : GRaw K) : GRaw K := { r with loops := [], extra := false }
/-- raw fields after `add_extra_selfloop` -/
def withExtra (r : GRaw K) : GRaw K := { r with extra := true }

/-- Laplacian from raw fields -/
def evL (r : GRaw K) : Except Err (Sp K) := do
  let D ← evDv (noLoops r)
  let A ← evA (noLoops r)
  D.sub A

/-- random walk Laplacian from raw fields -/
def evLrw (r : GRaw K) : Except Err (Sp K) := do
  let D ← evDvN1 (noLoops r)
  let A ← evA (noLoops r)
  let L ← D.mm A
  .ok (Sp.eyeMinus r.numV L)

variable [PyReal K]

/-- `D^{-1/2}` from raw fields -/
def evDvN12 (r : GRaw K) : Except Err (Sp K) := do
  let D ← evDv r
  D.rsqrt

/-- `D^{-1/2} A D^{-1/2}` from raw fields -/
def evNormA (r : GRaw K) : Except Err (Sp K) := do
  let D ← evDvN12 r
  let A ← evA r
  let M ← D.mm A
  M.mm D

/-- symmetric Laplacian from raw fields -/
def evLsym (r : GRaw K) : Except Err (Sp K) := do
  let L ← evNormA (noLoops r)
  .ok (Sp.eyeMinus r.numV L)

/-- GCN Laplacian from raw fields -/
def evLGCN (r : GRaw K) : Except Err (Sp K) := do
  let L ← evNormA (withExtra r)
  .ok L.coalesce

/-- value belonging to each cache key -/
def evKey : GKey → GRaw K → Except Err (GVal K)
  | .e, r => .ok (.edges r.edgeList r.edgeWts)
  | .eBoth, r => .ok (.edges (r.edgeList ++ r.eDict.keys.map fun q => (q.2, q.1))
      (r.edgeWts ++ r.eDict.vals))
  | .A, r => (evA r).map .mat
  | .Apow hop, r => (evApow hop r).map .mat
  | .Dv, r => (evDv r).map .mat
  | .DvN1, r => (evDvN1 r).map .mat
  | .DvN12, r => (evDvN12 r).map .mat
  | .L, r => (evL r).map .mat
  | .Lsym, r => (evLsym r).map .mat
  | .Lrw, r => (evLrw r).map .mat
  | .LGCN, r => (evLGCN r).map .mat

/-- the agreement relation for `Graph` -/
abbrev GReads {α : Type} (m : PyM (GSt K) α) (p : GRaw K → Except Err α) : Prop :=
  Reads evKey m p

theorem reads_asMat (k : GKey) (m : PyM (GSt K) (GVal K)) (p : GRaw K → Except Err (Sp K))
    (hk : ∀ r, evKey k r = (p r).map .mat) (hm : GReads m (fun r => (p r).map .mat)) :
    GReads (memo k m >>= asMat) p := by
  have h1 : GReads (memo k m) (evKey k) := Reads.memo (hm.congr fun r => (hk r).symm)
  refine (Reads.bind h1 (q := fun v _ => match v with | .mat M => .ok M | .edges _ _ => .error .type)
    ?_).congr ?_
  · intro v; cases v
    · exact Reads.raise _
    · exact Reads.pure _
  · intro r; rw [hk]; cases p r <;> rfl

theorem reads_asEdges (k : GKey) (m : PyM (GSt K) (GVal K))
    (p : GRaw K → List (Int × Int) × List K)
    (hk : ∀ r, evKey k r = .ok (.edges (p r).1 (p r).2))
    (hm : GReads m (fun r => .ok (.edges (p r).1 (p r).2))) :
    GReads (memo k m >>= asEdges) (fun r => .ok (p r)) := by
  have h1 : GReads (memo k m) (evKey k) := Reads.memo (hm.congr fun r => (hk r).symm)
  refine (Reads.bind h1
    (q := fun v _ => match v with | .mat _ => .error .type | .edges a b => .ok (a, b)) ?_).congr ?_
  · intro v; cases v
    · exact Reads.pure _
    · exact Reads.raise _
  · intro r; rw [hk]; rfl

theorem reads_getE : GReads (K := K) getE (fun r => .ok (r.edgeList, r.edgeWts)) :=
  reads_asEdges .e _ (fun r => (r.edgeList, r.edgeWts)) (fun _ => rfl) (Reads.readRaw _)

theorem reads_getEBoth : GReads (K := K) getEBoth
    (fun r => .ok (r.edgeList ++ r.eDict.keys.map fun q => (q.2, q.1),
      r.edgeWts ++ r.eDict.vals)) := by
  refine reads_asEdges .eBoth _ (fun r => (r.edgeList ++ r.eDict.keys.map fun q => (q.2, q.1),
      r.edgeWts ++ r.eDict.vals)) (fun _ => rfl) ?_
  exact (Reads.bind reads_getE fun p => Reads.readRaw _).congr fun r => rfl

theorem reads_getNumE : GReads (K := K) getNumE (fun r => .ok r.numE) := Reads.readRaw _

theorem reads_getA : GReads (K := K) getA evA := by
  refine reads_asMat .A _ evA (fun _ => rfl) ?_
  refine (Reads.bind reads_getNumE fun ne => Reads.bind (Reads.readRaw _) fun n =>
    Reads.ite (Reads.pure _) (Reads.bind reads_getEBoth fun p =>
      Reads.bind (Reads.lift _) fun M => Reads.pure _)).congr ?_
  intro r
  simp only [evA]
  show (if r.numE = 0 then _ else _) = _
  split
  · rfl
  · simp only [bind, Except.bind]
    cases Sp.build r.numV r.numV _ _ <;> rfl

theorem reads_getDv : GReads (K := K) getDv evDv := by
  refine reads_asMat .Dv _ evDv (fun _ => rfl) ?_
  refine (Reads.bind reads_getA fun A => Reads.pure _).congr ?_
  intro r; unfold evDv; cases evA r <;> rfl

theorem reads_getDvN1 : GReads (K := K) getDvN1 evDvN1 := by
  refine reads_asMat .DvN1 _ evDvN1 (fun _ => rfl) ?_
  refine (Reads.bind reads_getDv fun A => Reads.pure _).congr ?_
  intro r; unfold evDvN1; cases evDv r <;> rfl

theorem reads_getDvN12 : GReads (K := K) getDvN12 evDvN12 := by
  refine reads_asMat .DvN12 _ evDvN12 (fun _ => rfl) ?_
  refine (Reads.bind reads_getDv fun A => Reads.bind (Reads.lift _) fun _ => Reads.pure _).congr ?_
  intro r; unfold evDvN12
  cases evDv r with
  | error e => rfl
  | ok D => simp only [bind, Except.bind]; cases D.rsqrt <;> rfl

theorem reads_getDegV : GReads (K := K) getDegV
    (fun r => (evDv r).map fun D => D.ents.map Prod.snd) := by
  refine (Reads.bind reads_getDv fun A => Reads.pure _).congr ?_
  intro r; cases evDv r <;> rfl

theorem evApow_one (r : GRaw K) : evApow 1 r = evA r := by
  unfold evApow; cases evA r <;> rfl

theorem reads_getApow (hop : Nat) : GReads (K := K) (getApow hop) (evApow hop) := by
  unfold getApow
  split
  · subst_vars; exact reads_getA.congr fun r => (evApow_one r).symm
  · refine reads_asMat (.Apow hop) _ (evApow hop) (fun _ => rfl) ?_
    refine (Reads.bind reads_getA fun A => Reads.bind (Reads.lift _) fun _ => Reads.pure _).congr ?_
    intro r; unfold evApow
    cases evA r with
    | error e => rfl
    | ok D => simp only [bind, Except.bind]; cases powLoop (hop - 1) D D <;> rfl

theorem reads_assert (b : Bool) : GReads (K := K) (PyM.assert b)
    (fun _ => if b then .ok () else .error .assertion) := by
  unfold PyM.assert; cases b
  · exact Reads.raise _
  · exact Reads.pure _

/-- `N_v` from raw fields -/
def evNv (v hop : Int) (r : GRaw K) : Except Err (List Nat) :=
  if 1 ≤ hop then do
    let M ← evApow hop.toNat r
    M.rowIdx v
  else .error .assertion

theorem reads_getNv (v hop : Int) : GReads (K := K) (getNv v hop) (evNv v hop) := by
  refine (Reads.bind (reads_assert _) fun _ => Reads.bind (reads_getApow _) fun M =>
    Reads.lift _).congr ?_
  intro r; unfold evNv
  by_cases h : 1 ≤ hop <;> simp [h] <;> rfl

theorem reads_getESrc : GReads (K := K) getESrc
    (fun r => (evA r).map fun A => A.ents.map fun e => e.1.2) := by
  refine (Reads.bind reads_getA fun A => Reads.pure _).congr ?_
  intro r; cases evA r <;> rfl
theorem reads_getEDst : GReads (K := K) getEDst
    (fun r => (evA r).map fun A => A.ents.map fun e => e.1.1) := by
  refine (Reads.bind reads_getA fun A => Reads.pure _).congr ?_
  intro r; cases evA r <;> rfl
theorem reads_getEWeight : GReads (K := K) getEWeight
    (fun r => (evA r).map fun A => A.ents.map Prod.snd) := by
  refine (Reads.bind reads_getA fun A => Reads.pure _).congr ?_
  intro r; cases evA r <;> rfl

theorem prep_removeSelfloop (s : GSt K) (_ : Coherent evKey s) :
    ∃ s', removeSelfloop s = (.ok (), s') ∧ s'.raw = noLoops s.raw ∧ Coherent evKey s' :=
  ⟨_, rfl, rfl, coherent_nil _⟩

theorem prep_addExtra (s : GSt K) (_ : Coherent evKey s) :
    ∃ s', addExtraSelfloop s = (.ok (), s') ∧ s'.raw = withExtra s.raw ∧ Coherent evKey s' :=
  ⟨_, rfl, rfl, coherent_nil _⟩

theorem reads_getL : GReads (K := K) getL evL := by
  refine reads_asMat .L _ evL (fun _ => rfl) ?_
  refine (Reads.bind (Reads.onClone noLoops prep_removeSelfloop
    (Reads.bind reads_getDv fun D => Reads.bind reads_getA fun A => Reads.lift _))
    fun M => Reads.pure _).congr ?_
  intro r; unfold evL
  cases evDv (noLoops r) with
  | error e => rfl
  | ok D =>
    cases evA (noLoops r) with
    | error e => rfl
    | ok A => simp only [bind, Except.bind]; cases D.sub A <;> rfl

theorem reads_getLrw : GReads (K := K) getLrw evLrw := by
  refine reads_asMat .Lrw _ evLrw (fun _ => rfl) ?_
  refine (Reads.bind (Reads.onClone noLoops prep_removeSelfloop
    (Reads.bind reads_getDvN1 fun D => Reads.bind reads_getA fun A => Reads.lift _))
    fun M => Reads.bind (Reads.readRaw _) fun n => Reads.pure _).congr ?_
  intro r; unfold evLrw
  cases evDvN1 (noLoops r) with
  | error e => rfl
  | ok D =>
    cases evA (noLoops r) with
    | error e => rfl
    | ok A => simp only [bind, Except.bind]; cases D.mm A <;> rfl

theorem reads_normA : GReads (K := K) normA evNormA := by
  refine (Reads.bind reads_getDvN12 fun D => Reads.bind reads_getA fun A =>
    Reads.bind (Reads.lift _) fun M => Reads.bind reads_getDvN12 fun D' => Reads.lift _).congr ?_
  intro r; unfold evNormA
  cases h : evDvN12 r with
  | error e => rfl
  | ok D => rfl

theorem reads_getLsym : GReads (K := K) getLsym evLsym := by
  refine reads_asMat .Lsym _ evLsym (fun _ => rfl) ?_
  refine (Reads.bind (Reads.onClone noLoops prep_removeSelfloop reads_normA)
    fun M => Reads.bind (Reads.readRaw _) fun n => Reads.pure _).congr ?_
  intro r; unfold evLsym
  cases evNormA (noLoops r) <;> rfl

theorem reads_getLGCN : GReads (K := K) getLGCN evLGCN := by
  refine reads_asMat .LGCN _ evLGCN (fun _ => rfl) ?_
  refine (Reads.bind (Reads.onClone withExtra prep_addExtra reads_normA)
    fun M => Reads.pure _).congr ?_
  intro r; unfold evLGCN
  cases evNormA (withExtra r) <;> rfl

/-- optional dropout -/
def evDrop (M : Sp K) (p : K) (keep : Nat → Bool) : Except Err (Sp K) :=
  if 0 < p then sparseDropout M p 0 keep else .ok M

theorem reads_drop (M : Sp K) (p : K) (keep : Nat → Bool) :
    GReads (K := K) (dropMaybe M p keep)
      (fun _ => evDrop M p keep) :=
  (Reads.ite (Reads.lift _) (Reads.pure _)).congr fun r => rfl

/-- `smoothing_with_GCN` from raw fields -/
def evSmoothGCN (X : Dense K) (p : K) (keep : Nat → Bool) (r : GRaw K) : Except Err (Dense K) := do
  let L ← evLGCN r
  let L ← evDrop L p keep
  L.mmD X

theorem reads_smoothGCN (X : Dense K) (p : K) (keep : Nat → Bool) :
    GReads (K := K) (smoothGCN X p keep) (evSmoothGCN X p keep) :=
  (Reads.bind reads_getLGCN fun L => Reads.bind (reads_drop L p keep) fun L' =>
    Reads.lift _).congr fun r => rfl

/-- `v2v` from raw fields -/
def evV2v (X : Dense K) (aggr : Aggr) (ew : Option (List K)) (p : K) (keep : Nat → Bool)
    (r : GRaw K) : Except Err (Dense K) :=
  if aggr = .other then .error .assertion
  else match ew with
  | none => do
    let A ← evA r
    let P ← evDrop A p keep
    match aggr with
    | .mean => do
      let Y ← P.mmD X
      let D ← evDvN1 r
      D.mmD Y
    | .sum => P.mmD X
    | .softmax => .error .type
    | .other => .ok X
  | some w => do
    let A ← evA r
    if w.length = A.ents.length then do
      let P ← A.withVals w
      let P ← evDrop P.coalesce p keep
      match aggr with
      | .mean => do
        let Y ← P.mmD X
        .ok (Y.scaleRows P.rowSum)
      | .sum => P.mmD X
      | .softmax => P.softmax.mmD X
      | .other => .ok X
    else .error .assertion

theorem reads_v2v (X : Dense K) (aggr : Aggr) (ew : Option (List K)) (p : K) (keep : Nat → Bool) :
    GReads (K := K) (v2v X aggr ew p keep) (evV2v X aggr ew p keep) := by
  cases ew with
  | none =>
    refine (Reads.bind (reads_assert _) fun _ => Reads.bind reads_getA fun A =>
      Reads.bind (reads_drop A p keep)
      (q := fun P r => match aggr with
        | .mean => do
          let Y ← P.mmD X
          let D ← evDvN1 r
          D.mmD Y
        | .sum => P.mmD X
        | .softmax => .error .type
        | .other => .ok X) fun P => ?_).congr ?_
    · cases aggr
      · exact (Reads.bind (Reads.lift _) fun Y => Reads.bind reads_getDvN1 fun D =>
          Reads.lift _).congr fun r => rfl
      · exact Reads.lift _
      · exact Reads.raise _
      · exact Reads.pure _
    · intro r; cases aggr <;> rfl
  | some w =>
    refine (Reads.bind (reads_assert _) fun _ => Reads.bind reads_getEWeight fun ws =>
      Reads.bind (reads_assert _) fun _ => Reads.bind reads_getA fun A =>
      Reads.bind (Reads.lift _) fun P0 => Reads.bind (reads_drop _ p keep)
      (q := fun P r => match aggr with
        | .mean => do
          let Y ← P.mmD X
          .ok (Y.scaleRows P.rowSum)
        | .sum => P.mmD X
        | .softmax => P.softmax.mmD X
        | .other => .ok X) fun P => ?_).congr ?_
    · cases aggr
      · exact (Reads.bind (Reads.lift _) fun Y => Reads.pure _).congr fun r => rfl
      · exact Reads.lift _
      · exact Reads.lift _
      · exact Reads.pure _
    · intro r
      unfold evV2v
      by_cases ha : aggr = .other
      · subst ha; rfl
      · simp only [ne_eq, ha, not_false_eq_true, decide_true, if_true, if_false]
        cases h : evA r with
        | error e => simp [Except.map]; rfl
        | ok A =>
          by_cases hl : w.length = A.ents.length
          · simp only [Except.map, bind, Except.bind, List.length_map, hl, decide_true, if_true]
          · simp only [Except.map, bind, Except.bind, List.length_map, hl, decide_false, if_false]
            rfl

end Graph
end DHG
