import Verif.HyperApi
import Verif.GraphReads

/-!
# Cache-free readers for `Hypergraph` and agreement of the cached ones with them
-/

set_option linter.unusedSectionVars false
set_option autoImplicit false

namespace DHG
namespace Hyper

variable {K : Type} [Field K] [LinearOrder K]

/-- the assertion of the `_of_group` methods -/
def chk (sc : Option String) (r : HRaw K) : Except Err Unit :=
  match sc with
  | none => .ok ()
  | some g => if r.groups.has g then .ok () else .error .assertion

/-- one group -/
def evGroup (r : HRaw K) (g : String) : Except Err (HGroup K) :=
  match r.groups.get? g with
  | none => .error .assertion
  | some d => .ok d

/-- `e_of_group` -/
def evEOf (r : HRaw K) (g : String) : Except Err (List (List Int) × List K) := do
  let d ← evGroup r g
  .ok (d.keys, d.vals)

/-- `e` -/
def evE (sc : Option String) (r : HRaw K) : Except Err (List (List Int) × List K) :=
  match sc with
  | none => do
    let l ← collectE r.groups.keys (evEOf r)
    .ok (l.flatMap Prod.fst, l.flatMap Prod.snd)
  | some g => evEOf r g

/-- `num_e` -/
def evNumE (sc : Option String) (r : HRaw K) : Except Err Nat :=
  match sc with
  | none => .ok (r.groups.map fun p => p.2.length).sum
  | some g => do
    let d ← evGroup r g
    .ok d.length

/-- `H_of_group` -/
def evHOf (r : HRaw K) (g : String) : Except Err (Sp K) := do
  let d ← evGroup r g
  fetchH r.numV d

/-- `H` -/
def evH (sc : Option String) (r : HRaw K) : Except Err (Sp K) :=
  match sc with
  | none => do
    let l ← collectE r.groups.keys (evHOf r)
    Sp.catCols l
  | some g => evHOf r g

/-- `H_T` -/
def evHT (sc : Option String) (r : HRaw K) : Except Err (Sp K) := do
  let M ← evH sc r
  .ok M.t

/-- `W_v` -/
def evWv (r : HRaw K) : Except Err (Sp K) :=
  match r.vWeight with
  | none => .error .type
  | some w => .ok (Sp.diag w)

/-- `W_e_of_group` -/
def evWeOf (r : HRaw K) (g : String) : Except Err (Sp K) := do
  let d ← evGroup r g
  .ok (Sp.diag d.vals)

/-- `W_e` -/
def evWe (sc : Option String) (r : HRaw K) : Except Err (Sp K) :=
  match sc with
  | none => do
    let l ← collectE r.groups.keys (evWeOf r)
    catDiag l
  | some g => evWeOf r g

/-- `D_v_of_group` -/
def evDvOf (r : HRaw K) (g : String) : Except Err (Sp K) := do
  let H ← evHOf r g
  let W ← evWeOf r g
  .ok (Sp.diag (Sp.coalesce (Sp.scaleCols (W.ents.map Prod.snd) H)).rowSum)

/-- `D_v` -/
def evDv (sc : Option String) (r : HRaw K) : Except Err (Sp K) :=
  match sc with
  | none => do
    let l ← collectE r.groups.keys (evDvOf r)
    sumDiag r.numV l
  | some g => evDvOf r g

/-- `D_v_neg_1` -/
def evDvN1 (sc : Option String) (r : HRaw K) : Except Err (Sp K) := do
  let D ← evDv sc r
  .ok D.inv

/-- `D_e_of_group` -/
def evDeOf (r : HRaw K) (g : String) : Except Err (Sp K) := do
  let H ← evHOf r g
  .ok (Sp.diag H.t.rowSum)

/-- `D_e` -/
def evDe (sc : Option String) (r : HRaw K) : Except Err (Sp K) :=
  match sc with
  | none => do
    let l ← collectE r.groups.keys (evDeOf r)
    catDiag l
  | some g => evDeOf r g

/-- `D_e_neg_1` -/
def evDeN1 (sc : Option String) (r : HRaw K) : Except Err (Sp K) := do
  let D ← evDe sc r
  .ok D.inv

/-- `N_e_of_group` -/
def evNeOf (v : Int) (r : HRaw K) (g : String) : Except Err (List Nat) := do
  let _ ← chk (some g) r
  if v < (r.numV : Int) then do
    let H ← evHOf r g
    H.rowIdx v
  else .error .assertion

/-- `N_e` -/
def evNe (v : Int) (sc : Option String) (r : HRaw K) : Except Err (List Nat) :=
  match sc with
  | none =>
    if v < (r.numV : Int) then do
      let l ← collectE r.groups.keys fun g => do
        let l ← evNeOf v r g
        let n ← evNumE (some g) r
        .ok (l, n)
      if l = [] then .error .runtime else .ok (shiftCat 0 l)
    else .error .assertion
  | some g => evNeOf v r g

/-- `N_v_of_group` -/
def evNvOf (e : Int) (r : HRaw K) (g : String) : Except Err (List Nat) := do
  let d ← evGroup r g
  if e < (d.length : Int) then do
    let H ← evHT (some g) r
    H.rowIdx e
  else .error .assertion

/-- the loop of `N_v` -/
def evFindNv (r : HRaw K) (e : Int) : List String → Except Err (List Nat)
  | [] => .error .attribute
  | g :: gs => do
    let n ← evNumE (some g) r
    if e < (n : Int) then evNvOf e r g else evFindNv r (e - n) gs

/-- `N_v` -/
def evNv (e : Int) (sc : Option String) (r : HRaw K) : Except Err (List Nat) :=
  match sc with
  | none => do
    let n ← evNumE none r
    if e < (n : Int) then evFindNv r e r.groups.keys else .error .assertion
  | some g => evNvOf e r g

variable [PyReal K]

/-- `D_v_neg_1_2` -/
def evDvN12 (sc : Option String) (r : HRaw K) : Except Err (Sp K) := do
  let D ← evDv sc r
  D.rsqrt

/-- `L_HGNN` -/
def evLHGNN (sc : Option String) (r : HRaw K) : Except Err (Sp K) := do
  let D ← evDvN12 sc r
  let H ← evH sc r
  let W ← evWe sc r
  let E ← evDeN1 sc r
  let T ← evHT sc r
  let L ← mmChain D [H, W, E, T, D]
  .ok L.coalesce

/-- `L_sym` -/
def evLsym (sc : Option String) (r : HRaw K) : Except Err (Sp K) := do
  let L ← evLHGNN sc r
  .ok (Sp.eyeMinus r.numV L)

/-- `L_rw` -/
def evLrw (sc : Option String) (r : HRaw K) : Except Err (Sp K) := do
  let D ← evDvN1 sc r
  let H ← evH sc r
  let W ← evWe sc r
  let E ← evDeN1 sc r
  let T ← evHT sc r
  let L ← mmChain D [H, W, E, T]
  .ok (Sp.eyeMinus r.numV L)

/-- value belonging to each cache key -/
def evKey : HKey → HRaw K → Except Err (HVal K)
  | (none, .v), r => .ok (.verts (List.range r.numV))
  | (some _, .v), _ => .error .type
  | (sc, .e), r => (evE sc r).map fun p => .edges p.1 p.2
  | (sc, .Hv2e), r => (evH sc r).map .mat
  | (sc, .H), r => (evH sc r).map .mat
  | (sc, .HT), r => (evHT sc r).map .mat
  | (none, .Wv), r => (evWv r).map .mat
  | (some _, .Wv), _ => .error .type
  | (sc, .We), r => (evWe sc r).map .mat
  | (sc, .Dv), r => (evDv sc r).map .mat
  | (sc, .DvN1), r => (evDvN1 sc r).map .mat
  | (sc, .DvN12), r => (evDvN12 sc r).map .mat
  | (sc, .De), r => (evDe sc r).map .mat
  | (sc, .DeN1), r => (evDeN1 sc r).map .mat
  | (sc, .Lsym), r => (evLsym sc r).map .mat
  | (sc, .Lrw), r => (evLrw sc r).map .mat
  | (sc, .LHGNN), r => (evLHGNN sc r).map .mat

/-- tracked keys: all, or all but `W_v` -/
def Tr (b : Bool) (k : HKey) : Prop := b = true ∨ k.2 ≠ .Wv

/-- cache coherence -/
abbrev Coh (b : Bool) (s : HSt K) : Prop := CoherentOn (Tr b) evKey s

/-- the agreement relation -/
abbrev HReads (b : Bool) {α : Type} (m : PyM (HSt K) α) (p : HRaw K → Except Err α) : Prop :=
  ReadsOn (Tr b) evKey m p

variable {b : Bool}

theorem reads_check (sc : Option String) : HReads (K := K) b (check sc) (chk sc) := by
  cases sc with
  | none => exact ReadsOn.pure _
  | some g =>
    refine (ReadsOn.bindRaw (p := fun r _ => chk (some g) r) fun r => ?_).congr fun r => rfl
    simp only [chk, id]
    intro s hs
    unfold PyM.assert
    cases r.groups.has g <;> exact ⟨rfl, rfl, hs⟩

theorem reads_assert (c : Bool) :
    HReads (K := K) b (PyM.assert c) (fun _ => if c then .ok () else .error .assertion) := by
  intro s hs; unfold PyM.assert; cases c <;> exact ⟨rfl, rfl, hs⟩

theorem chk_bind {α : Type} (sc : Option String) (r : HRaw K) (x : Except Err α)
    (hx : chk sc r = .error .assertion → x = .error .assertion) :
    (chk sc r >>= fun _ => x) = x := by
  cases hc : chk sc r with
  | ok u => rfl
  | error e =>
    have he : e = .assertion := by
      cases sc with
      | none => cases hc
      | some g =>
        simp only [chk] at hc
        split at hc
        · cases hc
        · cases hc; rfl
    subst he
    rw [hx hc]; rfl

theorem chk_error {g : String} {r : HRaw K} (h : chk (some g) r = .error .assertion) :
    r.groups.get? g = none := by
  simp only [chk] at h
  split at h
  · cases h
  · rename_i h'
    rw [Dict.has] at h'
    cases hg : r.groups.get? g with
    | none => rfl
    | some d => rw [hg] at h'; exact absurd rfl h'

theorem evGroup_none {g : String} {r : HRaw K} (h : r.groups.get? g = none) :
    evGroup r g = .error .assertion := by simp [evGroup, h]

/-- readers that fail on unknown groups -/
def Strict {α : Type} (p : Option String → HRaw K → Except Err α) : Prop :=
  ∀ g r, r.groups.get? g = none → p (some g) r = .error .assertion

theorem Strict.chk {α : Type} {p : Option String → HRaw K → Except Err α} (h : Strict p)
    (sc : Option String) (r : HRaw K) :
    (Hyper.chk sc r >>= fun _ => p sc r) = p sc r := by
  apply chk_bind
  intro hc
  cases sc with
  | none => cases hc
  | some g => exact h g r (chk_error hc)

theorem strict_E : Strict (K := K) evE := fun g r h => by simp [evE, evEOf, evGroup_none h]; rfl
theorem strict_NumE : Strict (K := K) evNumE := fun g r h => by simp [evNumE, evGroup_none h]; rfl
theorem strict_H : Strict (K := K) evH := fun g r h => by simp [evH, evHOf, evGroup_none h]; rfl
theorem strict_HT : Strict (K := K) evHT := fun g r h => by
  simp only [evHT, strict_H g r h]; rfl
theorem strict_We : Strict (K := K) evWe := fun g r h => by simp [evWe, evWeOf, evGroup_none h]; rfl
theorem strict_Dv : Strict (K := K) evDv := fun g r h => by
  simp [evDv, evDvOf, evHOf, evGroup_none h]; rfl
theorem strict_DvN1 : Strict (K := K) evDvN1 := fun g r h => by
  simp only [evDvN1, strict_Dv g r h]; rfl
theorem strict_DvN12 : Strict (K := K) evDvN12 := fun g r h => by
  simp only [evDvN12, strict_Dv g r h]; rfl
theorem strict_De : Strict (K := K) evDe := fun g r h => by
  simp [evDe, evDeOf, evHOf, evGroup_none h]; rfl
theorem strict_DeN1 : Strict (K := K) evDeN1 := fun g r h => by
  simp only [evDeN1, strict_De g r h]; rfl
theorem strict_LHGNN : Strict (K := K) evLHGNN := fun g r h => by
  simp only [evLHGNN, strict_DvN12 g r h]; rfl
theorem strict_Lsym : Strict (K := K) evLsym := fun g r h => by
  simp only [evLsym, strict_LHGNN g r h]; rfl
theorem strict_Lrw : Strict (K := K) evLrw := fun g r h => by
  simp only [evLrw, strict_DvN1 g r h]; rfl

theorem reads_memoMat (k : HKey) (hk : Tr b k) (m : PyM (HSt K) (HVal K))
    (p : HRaw K → Except Err (Sp K))
    (he : ∀ r, evKey k r = (p r).map .mat) (hm : HReads b m (fun r => (p r).map .mat)) :
    HReads b (memo k m >>= asMat) p := by
  have h1 : HReads b (memo k m) (evKey k) := ReadsOn.memo hk (hm.congr fun r => (he r).symm)
  refine (ReadsOn.bind h1 (q := fun v _ => match v with | .mat M => .ok M | _ => .error .type)
    ?_).congr ?_
  · intro v; cases v
    · exact ReadsOn.raise _
    · exact ReadsOn.raise _
    · exact ReadsOn.pure _
  · intro r; rw [he]; cases p r <;> rfl

theorem reads_memoEdges (k : HKey) (hk : Tr b k) (m : PyM (HSt K) (HVal K))
    (p : HRaw K → Except Err (List (List Int) × List K))
    (he : ∀ r, evKey k r = (p r).map fun x => .edges x.1 x.2)
    (hm : HReads b m (fun r => (p r).map fun x => .edges x.1 x.2)) :
    HReads b (memo k m >>= asEdges) p := by
  have h1 : HReads b (memo k m) (evKey k) := ReadsOn.memo hk (hm.congr fun r => (he r).symm)
  refine (ReadsOn.bind h1
    (q := fun v _ => match v with | .edges a c => .ok (a, c) | _ => .error .type) ?_).congr ?_
  · intro v; cases v
    · exact ReadsOn.raise _
    · exact ReadsOn.pure _
    · exact ReadsOn.raise _
  · intro r; rw [he]; cases p r <;> rfl

theorem tr_of {n : HName} (sc : Option String) (h : n ≠ .Wv) : Tr b (sc, n) := Or.inr h

/-- a `_of_group`-style reader: check, then a memoised value -/
theorem reads_sc {α : Type} {m : PyM (HSt K) α} {p : Option String → HRaw K → Except Err α}
    (sc : Option String) (hs : Strict p) (hm : HReads b m (p sc)) :
    HReads b (check sc >>= fun _ => m) (p sc) :=
  (ReadsOn.bind (reads_check sc) fun _ => hm).congr fun r => hs.chk sc r

theorem reads_guard {α : Type} (c : Prop) [Decidable c] {m : PyM (HSt K) α}
    {p : HRaw K → Except Err α} (h : HReads b m p) :
    HReads b (PyM.assert (decide c) >>= fun _ => m) (fun r => if c then p r else .error .assertion) := by
  by_cases hc : c
  · simp only [hc, if_true, decide_true]; exact h
  · simp only [hc, if_false, decide_false]; exact ReadsOn.raise _

theorem reads_groupOf (g : String) : HReads (K := K) b (groupOf g) (fun r => evGroup r g) := by
  refine (ReadsOn.bindRaw (p := fun r _ => evGroup r g) fun r => ?_).congr fun r => rfl
  simp only [evGroup, id]
  cases r.groups.get? g with
  | none => exact ReadsOn.raise _
  | some d => exact ReadsOn.pure _

theorem reads_names : HReads (K := K) b names (fun r => .ok r.groups.keys) := ReadsOn.readRaw _

/-- `[f(name) for name in self.group_names]` -/
theorem reads_collect {α : Type} {f : String → PyM (HSt K) α}
    {p : HRaw K → String → Except Err α} (h : ∀ g, HReads b (f g) (fun r => p r g)) :
    HReads b (names >>= fun ns => PyM.collect ns f) (fun r => collectE r.groups.keys (p r)) :=
  (ReadsOn.bind reads_names fun ns => ReadsOn.collect (q := fun g r => p r g) h).congr fun r => rfl

theorem collectE_bind_map {α β : Type} (x : Except Err α) (f : α → Except Err (Sp K))  :
    (x >>= fun a => f a >>= fun M => (.ok (HVal.mat M) : Except Err (HVal K))) =
      (x >>= f).map HVal.mat := by
  cases x with
  | error e => rfl
  | ok a => simp only [bind, Except.bind]; cases f a <;> rfl

theorem bind_map {α : Type} (x : Except Err α) (f : α → Sp K)  :
    (x >>= fun a => (.ok (HVal.mat (f a)) : Except Err (HVal K))) =
      (x >>= fun a => .ok (f a)).map HVal.mat := by
  cases x <;> rfl

theorem reads_getV : HReads (K := K) b getV (fun r => .ok (List.range r.numV)) := by
  have h1 : HReads (K := K) b (memo (none, .v) (readRaw fun r => .verts (List.range r.numV)))
      (evKey (none, .v)) :=
    ReadsOn.memo (tr_of _ (by decide)) ((ReadsOn.readRaw _).congr fun r => rfl)
  refine (ReadsOn.bind h1
    (q := fun v _ => match v with | .verts l => .ok l | _ => .error .type) ?_).congr ?_
  · intro v; cases v
    · exact ReadsOn.pure _
    · exact ReadsOn.raise _
    · exact ReadsOn.raise _
  · intro r; rfl

theorem reads_getEOf (g : String) : HReads (K := K) b (getEOf g) (fun r => evEOf r g) := by
  refine reads_sc (p := evE) (some g) strict_E (reads_memoEdges _ (tr_of _ (by decide)) _ _
    (fun r => rfl) ?_)
  refine (ReadsOn.bind (reads_groupOf g) fun d => ReadsOn.pure _).congr fun r => ?_
  simp only [evE, evEOf]; cases evGroup r g <;> rfl

theorem reads_getE (sc : Option String) : HReads (K := K) b (getE sc) (evE sc) := by
  cases sc with
  | none =>
    refine reads_memoEdges _ (tr_of _ (by decide)) _ _ (fun r => rfl) ?_
    refine (ReadsOn.bind reads_names fun ns => ReadsOn.bind
      (ReadsOn.collect (q := fun g r => evEOf r g) reads_getEOf) fun l => ReadsOn.pure _).congr
      fun r => ?_
    simp only [evE]
    show (collectE r.groups.keys (evEOf r) >>= _) = _
    cases collectE r.groups.keys (evEOf r) <;> rfl
  | some g => exact reads_getEOf g

theorem reads_getNumE (sc : Option String) : HReads (K := K) b (getNumE sc) (evNumE sc) := by
  cases sc with
  | none => exact (ReadsOn.readRaw _).congr fun r => rfl
  | some g => exact (ReadsOn.bind (reads_groupOf g) fun d => ReadsOn.pure _).congr fun r => rfl

theorem reads_getHv2eOf (g : String) :
    HReads (K := K) b (getHv2eOf g) (fun r => evHOf r g) := by
  refine reads_sc (p := evH) (some g) strict_H (reads_memoMat _ (tr_of _ (by decide)) _ _
    (fun r => rfl) ?_)
  refine (ReadsOn.bind (reads_groupOf g) fun d => ReadsOn.bind (ReadsOn.readRaw _) fun n =>
    ReadsOn.bind (ReadsOn.lift _) fun M => ReadsOn.pure _).congr fun r => ?_
  simp only [evH, evHOf]
  cases evGroup r g with
  | error e => rfl
  | ok d => simp only [bind, Except.bind]; cases fetchH r.numV d <;> rfl

theorem reads_getHv2e (sc : Option String) : HReads (K := K) b (getHv2e sc) (evH sc) := by
  cases sc with
  | none =>
    refine reads_memoMat _ (tr_of _ (by decide)) _ _ (fun r => rfl) ?_
    refine (ReadsOn.bind reads_names fun ns => ReadsOn.bind
      (ReadsOn.collect (q := fun g r => evHOf r g) reads_getHv2eOf) fun l =>
      ReadsOn.bind (ReadsOn.lift _) fun M => ReadsOn.pure _).congr fun r => ?_
    simp only [evH]
    show (collectE r.groups.keys (evHOf r) >>= _) = _
    cases collectE r.groups.keys (evHOf r) with
    | error e => rfl
    | ok l => simp only [bind, Except.bind]; cases Sp.catCols l <;> rfl
  | some g => exact reads_getHv2eOf g

theorem reads_getH (sc : Option String) : HReads (K := K) b (getH sc) (evH sc) := by
  refine reads_sc sc strict_H (reads_memoMat _ (tr_of _ (by decide)) _ _
    (fun r => by cases sc <;> rfl) ?_)
  refine (ReadsOn.bind (reads_getHv2e sc) fun M => ReadsOn.pure _).congr fun r => ?_
  cases evH sc r <;> rfl

theorem reads_getHT (sc : Option String) : HReads (K := K) b (getHT sc) (evHT sc) := by
  refine reads_sc sc strict_HT (reads_memoMat _ (tr_of _ (by decide)) _ _
    (fun r => by cases sc <;> rfl) ?_)
  refine (ReadsOn.bind (reads_getH sc) fun M => ReadsOn.pure _).congr fun r => ?_
  simp only [evHT]; cases evH sc r <;> rfl

theorem reads_computeWv : HReads (K := K) b computeWv (fun r => (evWv r).map .mat) := by
  refine (ReadsOn.bindRaw (p := fun r _ => (evWv r).map .mat) fun r => ?_).congr fun r => rfl
  simp only [evWv]
  cases r.vWeight with
  | none => exact ReadsOn.raise _
  | some w => exact ReadsOn.pure _

theorem reads_getWv (hb : b = true) : HReads (K := K) b getWv evWv :=
  reads_memoMat _ (Or.inl hb) _ _ (fun r => rfl) reads_computeWv

theorem getWv_untracked {s : HSt K} (hs : Coh b s) :
    (getWv s).2.raw = s.raw ∧ Coh b (getWv s).2 := by
  by_cases hb : b = true
  · exact (reads_getWv hb s hs).2
  · have hu := ReadsOn.memo_untracked (k := (none, HName.Wv)) (by
      intro h; rcases h with h | h
      · exact hb h
      · exact h rfl) (reads_computeWv (b := b)) s hs
    unfold getWv
    simp only [PyM.bind_apply]
    rcases hm : memo (none, HName.Wv) computeWv s with ⟨_ | v, s'⟩
    · rw [hm] at hu; exact hu
    · rw [hm] at hu; cases v <;> exact hu

theorem reads_getWeOf (g : String) : HReads (K := K) b (getWeOf g) (fun r => evWeOf r g) := by
  refine reads_sc (p := evWe) (some g) strict_We (reads_memoMat _ (tr_of _ (by decide)) _ _
    (fun r => rfl) ?_)
  refine (ReadsOn.bind (reads_groupOf g) fun d => ReadsOn.pure _).congr fun r => ?_
  simp only [evWe, evWeOf]; cases evGroup r g <;> rfl

theorem reads_getWe (sc : Option String) : HReads (K := K) b (getWe sc) (evWe sc) := by
  cases sc with
  | none =>
    refine reads_memoMat _ (tr_of _ (by decide)) _ _ (fun r => rfl) ?_
    refine (ReadsOn.bind reads_names fun ns => ReadsOn.bind
      (ReadsOn.collect (q := fun g r => evWeOf r g) reads_getWeOf) fun l =>
      ReadsOn.bind (ReadsOn.lift _) fun M => ReadsOn.pure _).congr fun r => ?_
    simp only [evWe]
    show (collectE r.groups.keys (evWeOf r) >>= _) = _
    cases collectE r.groups.keys (evWeOf r) with
    | error e => rfl
    | ok l => simp only [bind, Except.bind]; cases catDiag l <;> rfl
  | some g => exact reads_getWeOf g

theorem reads_getDvOf (g : String) : HReads (K := K) b (getDvOf g) (fun r => evDvOf r g) := by
  refine reads_sc (p := evDv) (some g) strict_Dv (reads_memoMat _ (tr_of _ (by decide)) _ _
    (fun r => rfl) ?_)
  refine (ReadsOn.bind (reads_getH (some g)) fun H => ReadsOn.bind (reads_getWe (some g)) fun W =>
    ReadsOn.pure _).congr fun r => ?_
  simp only [evDv, evDvOf, evH, evWe]
  cases evHOf r g with
  | error e => rfl
  | ok H => simp only [bind, Except.bind]; cases evWeOf r g <;> rfl

theorem reads_getDv (sc : Option String) : HReads (K := K) b (getDv sc) (evDv sc) := by
  cases sc with
  | none =>
    refine reads_memoMat _ (tr_of _ (by decide)) _ _ (fun r => rfl) ?_
    refine (ReadsOn.bind reads_names fun ns => ReadsOn.bind
      (ReadsOn.collect (q := fun g r => evDvOf r g) reads_getDvOf) fun l =>
      ReadsOn.bind (ReadsOn.readRaw _) fun n =>
      ReadsOn.bind (ReadsOn.lift _) fun M => ReadsOn.pure _).congr fun r => ?_
    simp only [evDv]
    show (collectE r.groups.keys (evDvOf r) >>= _) = _
    cases collectE r.groups.keys (evDvOf r) with
    | error e => rfl
    | ok l => simp only [bind, Except.bind]; cases sumDiag r.numV l <;> rfl
  | some g => exact reads_getDvOf g

theorem reads_getDvN1 (sc : Option String) : HReads (K := K) b (getDvN1 sc) (evDvN1 sc) := by
  refine reads_sc sc strict_DvN1 (reads_memoMat _ (tr_of _ (by decide)) _ _
    (fun r => by cases sc <;> rfl) ?_)
  refine (ReadsOn.bind (reads_getDv sc) fun M => ReadsOn.pure _).congr fun r => ?_
  simp only [evDvN1]; cases evDv sc r <;> rfl

theorem reads_getDvN12 (sc : Option String) : HReads (K := K) b (getDvN12 sc) (evDvN12 sc) := by
  refine reads_sc sc strict_DvN12 (reads_memoMat _ (tr_of _ (by decide)) _ _
    (fun r => by cases sc <;> rfl) ?_)
  refine (ReadsOn.bind (reads_getDv sc) fun M => ReadsOn.bind (ReadsOn.lift _) fun N =>
    ReadsOn.pure _).congr fun r => ?_
  simp only [evDvN12]
  cases evDv sc r with
  | error e => rfl
  | ok D => simp only [bind, Except.bind]; cases D.rsqrt <;> rfl

theorem reads_getDeOf (g : String) : HReads (K := K) b (getDeOf g) (fun r => evDeOf r g) := by
  refine reads_sc (p := evDe) (some g) strict_De (reads_memoMat _ (tr_of _ (by decide)) _ _
    (fun r => rfl) ?_)
  refine (ReadsOn.bind (reads_getHT (some g)) fun H => ReadsOn.pure _).congr fun r => ?_
  simp only [evDe, evDeOf, evHT, evH]
  cases evHOf r g <;> rfl

theorem reads_getDe (sc : Option String) : HReads (K := K) b (getDe sc) (evDe sc) := by
  cases sc with
  | none =>
    refine reads_memoMat _ (tr_of _ (by decide)) _ _ (fun r => rfl) ?_
    refine (ReadsOn.bind reads_names fun ns => ReadsOn.bind
      (ReadsOn.collect (q := fun g r => evDeOf r g) reads_getDeOf) fun l =>
      ReadsOn.bind (ReadsOn.lift _) fun M => ReadsOn.pure _).congr fun r => ?_
    simp only [evDe]
    show (collectE r.groups.keys (evDeOf r) >>= _) = _
    cases collectE r.groups.keys (evDeOf r) with
    | error e => rfl
    | ok l => simp only [bind, Except.bind]; cases catDiag l <;> rfl
  | some g => exact reads_getDeOf g

theorem reads_getDeN1 (sc : Option String) : HReads (K := K) b (getDeN1 sc) (evDeN1 sc) := by
  refine reads_sc sc strict_DeN1 (reads_memoMat _ (tr_of _ (by decide)) _ _
    (fun r => by cases sc <;> rfl) ?_)
  refine (ReadsOn.bind (reads_getDe sc) fun M => ReadsOn.pure _).congr fun r => ?_
  simp only [evDeN1]; cases evDe sc r <;> rfl

theorem reads_getNeOf (v : Int) (g : String) :
    HReads (K := K) b (getNeOf v g) (fun r => evNeOf v r g) := by
  refine (ReadsOn.bind (reads_check (some g)) fun _ => ReadsOn.bind (ReadsOn.readRaw _) fun n =>
    reads_guard _ (ReadsOn.bind (reads_getH (some g)) fun H =>
    ReadsOn.lift _)).congr fun r => ?_
  simp only [evNeOf, evH]
  cases chk (some g) r <;> rfl

theorem reads_getNe (v : Int) (sc : Option String) :
    HReads (K := K) b (getNe v sc) (evNe v sc) := by
  cases sc with
  | none =>
    refine (ReadsOn.bind (ReadsOn.readRaw _) fun n => reads_guard _ (
      ReadsOn.bind reads_names fun ns => ReadsOn.bind
      (ReadsOn.collect (q := fun g r => evNeOf v r g >>= fun l => evNumE (some g) r >>= fun n =>
        .ok (l, n)) fun g => ReadsOn.bind (reads_getNeOf v g) fun l =>
          ReadsOn.bind (reads_getNumE (some g)) fun n => ReadsOn.pure _) fun l =>
      ReadsOn.ite (ReadsOn.raise _) (ReadsOn.pure _))).congr fun r => rfl
  | some g => exact reads_getNeOf v g

theorem reads_getNvOf (e : Int) (g : String) :
    HReads (K := K) b (getNvOf e g) (fun r => evNvOf e r g) := by
  refine reads_sc (p := fun sc r => match sc with | none => .error .type | some g => evNvOf e r g)
    (some g) ?_ ?_
  · intro g r h; simp only [evNvOf, evGroup_none h]; rfl
  · refine (ReadsOn.bind (reads_getNumE (some g)) fun n => reads_guard _ (
      ReadsOn.bind (reads_getHT (some g)) fun H => ReadsOn.lift _)).congr fun r => ?_
    simp only [evNvOf, evNumE]
    cases evGroup r g <;> rfl

theorem reads_findNv (e : Int) (gs : List String) :
    HReads (K := K) b (findNv e gs) (fun r => evFindNv r e gs) := by
  induction gs generalizing e with
  | nil => exact ReadsOn.raise _
  | cons g gs ih =>
    exact (ReadsOn.bind (reads_getNumE (some g)) fun n =>
      ReadsOn.ite (reads_getNvOf e g) (ih (e - n))).congr fun r => rfl

theorem reads_getNv (e : Int) (sc : Option String) :
    HReads (K := K) b (getNv e sc) (evNv e sc) := by
  cases sc with
  | none =>
    refine (ReadsOn.bind (reads_getNumE none) fun n => reads_guard _ (
      ReadsOn.bind reads_names fun ns => reads_findNv e ns)).congr fun r => rfl
  | some g => exact reads_getNvOf e g

theorem reads_getLHGNN (sc : Option String) : HReads (K := K) b (getLHGNN sc) (evLHGNN sc) := by
  refine reads_sc sc strict_LHGNN (reads_memoMat _ (tr_of _ (by decide)) _ _
    (fun r => by cases sc <;> rfl) ?_)
  refine (ReadsOn.bind (reads_getDvN12 sc) fun D => ReadsOn.bind (reads_getH sc) fun H =>
    ReadsOn.bind (reads_getWe sc) fun W => ReadsOn.bind (reads_getDeN1 sc) fun E =>
    ReadsOn.bind (reads_getHT sc) fun T => ReadsOn.bind (ReadsOn.lift _) fun L =>
    ReadsOn.pure _).congr fun r => ?_
  simp only [evLHGNN]
  cases evDvN12 sc r with
  | error e => rfl
  | ok D =>
    cases evH sc r with
    | error e => rfl
    | ok H =>
      cases evWe sc r with
      | error e => rfl
      | ok W =>
        cases evDeN1 sc r with
        | error e => rfl
        | ok E =>
          cases evHT sc r with
          | error e => rfl
          | ok T => simp only [bind, Except.bind]; cases mmChain D [H, W, E, T, D] <;> rfl

theorem reads_getLsym (sc : Option String) : HReads (K := K) b (getLsym sc) (evLsym sc) := by
  refine reads_sc sc strict_Lsym (reads_memoMat _ (tr_of _ (by decide)) _ _
    (fun r => by cases sc <;> rfl) ?_)
  refine (ReadsOn.bind (reads_getLHGNN sc) fun D => ReadsOn.bind (ReadsOn.readRaw _) fun n =>
    ReadsOn.pure _).congr fun r => ?_
  simp only [evLsym]; cases evLHGNN sc r <;> rfl

theorem reads_getLrw (sc : Option String) : HReads (K := K) b (getLrw sc) (evLrw sc) := by
  refine reads_sc sc strict_Lrw (reads_memoMat _ (tr_of _ (by decide)) _ _
    (fun r => by cases sc <;> rfl) ?_)
  refine (ReadsOn.bind (reads_getDvN1 sc) fun D => ReadsOn.bind (reads_getH sc) fun H =>
    ReadsOn.bind (reads_getWe sc) fun W => ReadsOn.bind (reads_getDeN1 sc) fun E =>
    ReadsOn.bind (reads_getHT sc) fun T => ReadsOn.bind (ReadsOn.lift _) fun L =>
    ReadsOn.bind (ReadsOn.readRaw _) fun n => ReadsOn.pure _).congr fun r => ?_
  simp only [evLrw]
  cases evDvN1 sc r with
  | error e => rfl
  | ok D =>
    cases evH sc r with
    | error e => rfl
    | ok H =>
      cases evWe sc r with
      | error e => rfl
      | ok W =>
        cases evDeN1 sc r with
        | error e => rfl
        | ok E =>
          cases evHT sc r with
          | error e => rfl
          | ok T => simp only [bind, Except.bind]; cases mmChain D [H, W, E, T] <;> rfl

/-- `sparse_dropout` guarded by `drop_rate > 0` -/
theorem reads_dropMaybe (M : Sp K) (rate : K) (keep : Nat → Bool) :
    HReads (K := K) b (Graph.dropMaybe M rate keep) (fun _ => Graph.evDrop M rate keep) := by
  unfold Graph.dropMaybe Graph.evDrop
  split
  · exact ReadsOn.lift _
  · exact ReadsOn.pure _

/-- `smoothing_with_HGNN` -/
def evSmooth (sc : Option String) (X : Dense K) (rate : K) (keep : Nat → Bool) (r : HRaw K) :
    Except Err (Dense K) := do
  let L ← evLHGNN sc r
  let L ← Graph.evDrop L rate keep
  L.mmD X

theorem reads_smooth (sc : Option String) (X : Dense K) (rate : K) (keep : Nat → Bool) :
    HReads b (smoothHGNN sc X rate keep) (evSmooth sc X rate keep) := by
  refine reads_sc (p := fun sc => evSmooth sc X rate keep) sc
    (fun g r h => by simp only [evSmooth, strict_LHGNN g r h]; rfl) ?_
  exact (ReadsOn.bind (reads_getLHGNN sc) fun L => ReadsOn.bind (reads_dropMaybe _ _ _) fun L =>
    ReadsOn.lift _).congr fun r => rfl

theorem HReads.start {α : Type} {m : PyM (HSt K) α} {p : HRaw K → Except Err α}
    (h : HReads b m p) : HReads b (PyM.assert true >>= fun _ => m) p := h

/-- `aggregate` from raw fields -/
def evAgg (evP evD : HRaw K → Except Err (Sp K)) (X : Dense K) (aggr : Aggr)
    (w : Option (List K)) (rate : K) (keep : Nat → Bool) (r : HRaw K) : Except Err (Dense K) :=
  if aggr = .other then .error .assertion
  else match w with
  | none => do
    let P ← evP r
    let P ← Graph.evDrop P rate keep
    match aggr with
    | .mean => do
      let Y ← P.mmD X
      let D ← evD r
      D.mmD Y
    | .sum => P.mmD X
    | .softmax => P.softmax.mmD X
    | .other => .error .value
  | some w => do
    let P ← evP r
    if w.length = P.ents.length then do
      let P ← P.withVals w
      let P ← Graph.evDrop P rate keep
      match aggr with
      | .mean => do
        let Y ← P.mmD X
        .ok (Y.scaleRows P.rowSum)
      | .sum => P.mmD X
      | .softmax => P.softmax.mmD X
      | .other => .error .value
    else .error .assertion

theorem reads_aggregate {getP getD : PyM (HSt K) (Sp K)} {evP evD : HRaw K → Except Err (Sp K)}
    (hP : HReads b getP evP) (hD : HReads b getD evD) (X : Dense K) (aggr : Aggr)
    (w : Option (List K)) (rate : K) (keep : Nat → Bool) :
    HReads b (aggregate getP getD X aggr w rate keep) (evAgg evP evD X aggr w rate keep) := by
  by_cases ha : aggr = .other
  · subst ha
    exact (ReadsOn.raise Err.assertion).congr fun r => rfl
  have hc : (decide (aggr ≠ .other)) = true := decide_eq_true ha
  unfold aggregate
  rw [hc]
  cases w with
  | none =>
    refine HReads.start ((ReadsOn.bind hP fun P => ReadsOn.bind (reads_dropMaybe _ _ _)
      (q := fun P r => match aggr with
        | .mean => do
          let Y ← P.mmD X
          let D ← evD r
          D.mmD Y
        | .sum => P.mmD X
        | .softmax => P.softmax.mmD X
        | .other => .error .value) fun P => ?_).congr fun r => ?_)
    · cases aggr with
      | mean => exact ReadsOn.bind (ReadsOn.lift _) fun Y => ReadsOn.bind hD fun D => ReadsOn.lift _
      | sum => exact ReadsOn.lift _
      | softmax => exact ReadsOn.lift _
      | other => exact ReadsOn.raise _
    · unfold evAgg; rw [if_neg ha]
  | some w =>
    refine HReads.start ((ReadsOn.bind hP fun P => reads_guard _ (ReadsOn.bind (ReadsOn.lift _)
      fun P => ReadsOn.bind (reads_dropMaybe _ _ _)
      (q := fun P _ => match aggr with
        | .mean => do
          let Y ← P.mmD X
          .ok (Y.scaleRows P.rowSum)
        | .sum => P.mmD X
        | .softmax => P.softmax.mmD X
        | .other => .error .value) fun P => ?_)).congr fun r => ?_)
    · cases aggr with
      | mean => exact ReadsOn.bind (ReadsOn.lift _) fun Y => ReadsOn.pure _
      | sum => exact ReadsOn.lift _
      | softmax => exact ReadsOn.lift _
      | other => exact ReadsOn.raise _
    · unfold evAgg; rw [if_neg ha]

def evV2eAggr (sc : Option String) (X : Dense K) (aggr : Aggr) (w : Option (List K)) (rate : K)
    (keep : Nat → Bool) (r : HRaw K) : Except Err (Dense K) := do
  let _ ← chk sc r
  evAgg (evHT sc) (evDeN1 sc) X aggr w rate keep r

theorem reads_v2eAggr (sc : Option String) (X : Dense K) (aggr : Aggr) (w : Option (List K))
    (rate : K) (keep : Nat → Bool) :
    HReads b (v2eAggr sc X aggr w rate keep) (evV2eAggr sc X aggr w rate keep) :=
  ReadsOn.bind (reads_check sc) fun _ => reads_aggregate (reads_getHT sc) (reads_getDeN1 sc) _ _ _ _ _

def evV2eUpd (sc : Option String) (X : Dense K) (ew : Option (List K)) (r : HRaw K) :
    Except Err (Dense K) := do
  let _ ← chk sc r
  match ew with
  | none => do
    let W ← evWe sc r
    W.mmD X
  | some w => do
    let n ← evNumE sc r
    if w.length = n then X.mulCol w else .error .assertion

theorem reads_v2eUpd (sc : Option String) (X : Dense K) (ew : Option (List K)) :
    HReads b (v2eUpd sc X ew) (evV2eUpd sc X ew) := by
  cases ew with
  | none => exact ReadsOn.bind (reads_check sc) fun _ => ReadsOn.bind (reads_getWe sc) fun W =>
      ReadsOn.lift _
  | some w => exact ReadsOn.bind (reads_check sc) fun _ => ReadsOn.bind (reads_getNumE sc) fun n =>
      reads_guard _ (ReadsOn.lift _)

def evV2e (sc : Option String) (X : Dense K) (aggr : Aggr) (w ew : Option (List K)) (rate : K)
    (keep : Nat → Bool) (r : HRaw K) : Except Err (Dense K) := do
  let _ ← chk sc r
  let Y ← evV2eAggr sc X aggr w rate keep r
  evV2eUpd sc Y ew r

theorem reads_v2e (sc : Option String) (X : Dense K) (aggr : Aggr) (w ew : Option (List K))
    (rate : K) (keep : Nat → Bool) :
    HReads b (v2e sc X aggr w ew rate keep) (evV2e sc X aggr w ew rate keep) :=
  ReadsOn.bind (reads_check sc) fun _ => ReadsOn.bind (reads_v2eAggr sc X aggr w rate keep)
    fun Y => reads_v2eUpd sc Y ew

def evE2vAggr (sc : Option String) (X : Dense K) (aggr : Aggr) (w : Option (List K)) (rate : K)
    (keep : Nat → Bool) (r : HRaw K) : Except Err (Dense K) := do
  let _ ← chk sc r
  evAgg (evH sc) (evDvN1 sc) X aggr w rate keep r

theorem reads_e2vAggr (sc : Option String) (X : Dense K) (aggr : Aggr) (w : Option (List K))
    (rate : K) (keep : Nat → Bool) :
    HReads b (e2vAggr sc X aggr w rate keep) (evE2vAggr sc X aggr w rate keep) :=
  ReadsOn.bind (reads_check sc) fun _ => reads_aggregate (reads_getH sc) (reads_getDvN1 sc) _ _ _ _ _

def evE2vUpd (sc : Option String) (X : Dense K) (r : HRaw K) : Except Err (Dense K) := do
  let _ ← chk sc r
  .ok X

theorem reads_e2vUpd (sc : Option String) (X : Dense K) :
    HReads b (e2vUpd sc X) (evE2vUpd sc X) :=
  ReadsOn.bind (reads_check sc) fun _ => ReadsOn.pure _

def evE2v (sc : Option String) (X : Dense K) (aggr : Aggr) (w : Option (List K)) (rate : K)
    (keep : Nat → Bool) (r : HRaw K) : Except Err (Dense K) := do
  let _ ← chk sc r
  let Y ← evE2vAggr sc X aggr w rate keep r
  evE2vUpd sc Y r

theorem reads_e2v (sc : Option String) (X : Dense K) (aggr : Aggr) (w : Option (List K))
    (rate : K) (keep : Nat → Bool) :
    HReads b (e2v sc X aggr w rate keep) (evE2v sc X aggr w rate keep) :=
  ReadsOn.bind (reads_check sc) fun _ => ReadsOn.bind (reads_e2vAggr sc X aggr w rate keep)
    fun Y => reads_e2vUpd sc Y

def evV2v (sc : Option String) (X : Dense K) (a : V2VArgs K) (r : HRaw K) :
    Except Err (Dense K) := do
  let _ ← chk sc r
  let Y ← evV2e sc X (a.v2eAggr.getD a.aggr) a.v2eWeight a.eWeight (a.v2eRate.getD a.rate) a.keep1 r
  evE2v sc Y (a.e2vAggr.getD a.aggr) a.e2vWeight (a.e2vRate.getD a.rate) a.keep2 r

theorem reads_v2v (sc : Option String) (X : Dense K) (a : V2VArgs K) :
    HReads b (v2v sc X a) (evV2v sc X a) :=
  ReadsOn.bind (reads_check sc) fun _ => ReadsOn.bind (reads_v2e sc _ _ _ _ _ _)
    fun Y => reads_e2v sc _ _ _ _ _

/-- what a query answers, computed from the raw attributes only -/
def evAsk : HQuery K → HRaw K → Except Err (HAns K)
  | .numV, r => .ok (.num r.numV)
  | .numE sc, r => do let n ← evNumE sc r; .ok (.num n)
  | .numGroups, r => .ok (.num r.groups.length)
  | .groupNames, r => .ok (.names r.groups.keys)
  | .v, r => .ok (.idx (List.range r.numV))
  | .vWeight, r => .ok (.optVec r.vWeight)
  | .e sc, r => do let p ← evE sc r; .ok (.edges p.1 p.2)
  | .H sc, r => do let M ← evH sc r; .ok (.mat M)
  | .HT sc, r => do let M ← evHT sc r; .ok (.mat M)
  | .Wv, r => do let M ← evWv r; .ok (.mat M)
  | .We sc, r => do let M ← evWe sc r; .ok (.mat M)
  | .Dv sc, r => do let M ← evDv sc r; .ok (.mat M)
  | .DvN1 sc, r => do let M ← evDvN1 sc r; .ok (.mat M)
  | .DvN12 sc, r => do let M ← evDvN12 sc r; .ok (.mat M)
  | .De sc, r => do let M ← evDe sc r; .ok (.mat M)
  | .DeN1 sc, r => do let M ← evDeN1 sc r; .ok (.mat M)
  | .degV sc, r => do let M ← evDv sc r; .ok (.vec (M.ents.map Prod.snd))
  | .degE sc, r => do let M ← evDe sc r; .ok (.vec (M.ents.map Prod.snd))
  | .nbrE v sc, r => do let l ← evNe v sc r; .ok (.idx l)
  | .nbrV e sc, r => do let l ← evNv e sc r; .ok (.idx l)
  | .v2eSrc sc, r => do let M ← evHT sc r; .ok (.idx (M.ents.map fun e => e.1.2))
  | .v2eDst sc, r => do let M ← evHT sc r; .ok (.idx (M.ents.map fun e => e.1.1))
  | .v2eWeight sc, r => do let M ← evHT sc r; .ok (.vec (M.ents.map Prod.snd))
  | .e2vSrc sc, r => do let M ← evH sc r; .ok (.idx (M.ents.map fun e => e.1.2))
  | .e2vDst sc, r => do let M ← evH sc r; .ok (.idx (M.ents.map fun e => e.1.1))
  | .e2vWeight sc, r => do let M ← evH sc r; .ok (.vec (M.ents.map Prod.snd))
  | .Lsym sc, r => do let M ← evLsym sc r; .ok (.mat M)
  | .Lrw sc, r => do let M ← evLrw sc r; .ok (.mat M)
  | .LHGNN sc, r => do let M ← evLHGNN sc r; .ok (.mat M)
  | .smoothHGNN sc X rate keep, r => do let Y ← evSmooth sc X rate keep r; .ok (.feat Y)
  | .v2eAggr sc X aggr w rate keep, r => do let Y ← evV2eAggr sc X aggr w rate keep r; .ok (.feat Y)
  | .v2eUpd sc X ew, r => do let Y ← evV2eUpd sc X ew r; .ok (.feat Y)
  | .v2e sc X aggr w ew rate keep, r => do let Y ← evV2e sc X aggr w ew rate keep r; .ok (.feat Y)
  | .e2vAggr sc X aggr w rate keep, r => do let Y ← evE2vAggr sc X aggr w rate keep r; .ok (.feat Y)
  | .e2vUpd sc X, r => do let Y ← evE2vUpd sc X r; .ok (.feat Y)
  | .e2v sc X aggr w rate keep, r => do let Y ← evE2v sc X aggr w rate keep r; .ok (.feat Y)
  | .v2v sc X a, r => do let Y ← evV2v sc X a r; .ok (.feat Y)

theorem reads_then {α β : Type} {m : PyM (HSt K) α} {p : HRaw K → Except Err α} (f : α → β)
    (h : HReads b m p) :
    HReads b (m >>= fun a => pure (f a)) (fun r => p r >>= fun a => .ok (f a)) :=
  ReadsOn.bind h fun _ => ReadsOn.pure _

/-- reads of `W_v` are right on objects whose `W_v` entry is tracked -/
def Fine (b : Bool) (q : HQuery K) : Prop := b = true ∨ q ≠ .Wv

theorem reads_ask (q : HQuery K) (hq : Fine b q) : HReads b (ask q) (evAsk q) := by
  cases q with
  | numV => exact (ReadsOn.readRaw (fun r : HRaw K => HAns.num r.numV))
  | numE sc => exact reads_then _ (reads_getNumE sc)
  | numGroups => exact (ReadsOn.readRaw (fun r : HRaw K => HAns.num r.groups.length))
  | groupNames => exact reads_then _ reads_names
  | v => exact reads_then _ reads_getV
  | vWeight => exact (ReadsOn.readRaw (fun r : HRaw K => HAns.optVec r.vWeight))
  | e sc => exact reads_then _ (reads_getE sc)
  | H sc => exact reads_then _ (reads_getH sc)
  | HT sc => exact reads_then _ (reads_getHT sc)
  | Wv => exact reads_then _ (reads_getWv (hq.resolve_right fun h => h rfl))
  | We sc => exact reads_then _ (reads_getWe sc)
  | Dv sc => exact reads_then _ (reads_getDv sc)
  | DvN1 sc => exact reads_then _ (reads_getDvN1 sc)
  | DvN12 sc => exact reads_then _ (reads_getDvN12 sc)
  | De sc => exact reads_then _ (reads_getDe sc)
  | DeN1 sc => exact reads_then _ (reads_getDeN1 sc)
  | degV sc => exact reads_then _ (reads_getDv sc)
  | degE sc => exact reads_then _ (reads_getDe sc)
  | nbrE v sc => exact reads_then _ (reads_getNe v sc)
  | nbrV e sc => exact reads_then _ (reads_getNv e sc)
  | v2eSrc sc => exact reads_then _ (reads_getHT sc)
  | v2eDst sc => exact reads_then _ (reads_getHT sc)
  | v2eWeight sc => exact reads_then _ (reads_getHT sc)
  | e2vSrc sc => exact reads_then _ (reads_getH sc)
  | e2vDst sc => exact reads_then _ (reads_getH sc)
  | e2vWeight sc => exact reads_then _ (reads_getH sc)
  | Lsym sc => exact reads_then _ (reads_getLsym sc)
  | Lrw sc => exact reads_then _ (reads_getLrw sc)
  | LHGNN sc => exact reads_then _ (reads_getLHGNN sc)
  | smoothHGNN sc X rate keep => exact reads_then _ (reads_smooth sc X rate keep)
  | v2eAggr sc X aggr w rate keep => exact reads_then _ (reads_v2eAggr sc X aggr w rate keep)
  | v2eUpd sc X ew => exact reads_then _ (reads_v2eUpd sc X ew)
  | v2e sc X aggr w ew rate keep => exact reads_then _ (reads_v2e sc X aggr w ew rate keep)
  | e2vAggr sc X aggr w rate keep => exact reads_then _ (reads_e2vAggr sc X aggr w rate keep)
  | e2vUpd sc X => exact reads_then _ (reads_e2vUpd sc X)
  | e2v sc X aggr w rate keep => exact reads_then _ (reads_e2v sc X aggr w rate keep)
  | v2v sc X a => exact reads_then _ (reads_v2v sc X a)

/-- reads change no raw attribute and leave tracked cache entries right -/
theorem ask_keeps (q : HQuery K) {s : HSt K} (hs : Coh b s) :
    (ask q s).2.raw = s.raw ∧ Coh b (ask q s).2 := by
  by_cases hq : q = .Wv
  · subst hq
    have := getWv_untracked hs
    simp only [ask, PyM.bind_apply]
    rcases hm : getWv s with ⟨_ | M, s'⟩ <;> rw [hm] at this <;> exact this
  · exact (reads_ask q (Or.inr hq) s hs).2

theorem ask_eq (q : HQuery K) {s : HSt K} (hs : Coh b s) (hq : Fine b q) :
    (ask q s).1 = evAsk q s.raw := (reads_ask q hq s hs).1

end Hyper
end DHG
