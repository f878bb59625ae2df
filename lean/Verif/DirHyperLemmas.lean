import Verif.DirHyper
import Verif.HyperLemmas
import Verif.ConvertLemmas
import Verif.ListSpec

/-!
# Directed hyperedges: reads, caches and the effect of the calls
-/

set_option linter.unusedSectionVars false
set_option autoImplicit false

namespace DHG
namespace DirH

variable {K : Type} [Field K] [LinearOrder K]

/-! ### Reads without the cache -/

/-- the group, or `AssertionError` -/
def evGroup (r : DHRaw K) (g : String) : Except Err (DGroup K) :=
  match r.groups.get? g with
  | none => .error .assertion
  | some d => .ok d

/-- `getHOf` without the cache -/
def evHOf (sd : Side) (r : DHRaw K) (g : String) : Except Err (Sp K) := do
  let d ← evGroup r g
  fetchH sd r.numV d

/-- `getH` without the cache -/
def evH (sd : Side) : Option String → DHRaw K → Except Err (Sp K)
  | none, r => do
    let Ms ← collectE r.groups.keys (evHOf sd r)
    Sp.catCols Ms
  | some g, r => evHOf sd r g

/-- `getROf` without the cache -/
def evROf (sd : Side) (r : DHRaw K) (g : String) : Except Err (Sp K) := do
  let d ← evGroup r g
  fetchR sd d

/-- `getR` without the cache -/
def evR (sd : Side) : Option String → DHRaw K → Except Err (Sp K)
  | none, r => do
    let Ms ← collectE r.groups.keys (evROf sd r)
    Sp.catCols Ms
  | some g, r => evROf sd r g

/-- what belongs in the cache -/
def evKey : DHKey → DHRaw K → Except Err (DHVal K)
  | (none, .v), r => .ok (.verts (List.range r.numV))
  | (some _, .v), _ => .error .key
  | (sc, .H sd), r => (evH sd sc r).map .mat
  | (sc, .R sd), r => (evR sd sc r).map .mat
  | (_, .Wv), _ => .error .key
  | (_, .We), _ => .error .key

/-- reads of coherent objects -/
abbrev DReads {α : Type} (m : PyM (DHSt K) α) (p : DHRaw K → Except Err α) : Prop :=
  Reads evKey m p

theorem reads_check (g : String) :
    DReads (K := K) (check g) (fun r => (evGroup r g).map fun _ => ()) := by
  intro s hs
  unfold check Dict.has evGroup
  simp only [PyM.bind_apply, readRaw, id]
  cases s.raw.groups.get? g <;> exact ⟨rfl, rfl, hs⟩

theorem reads_groupOf (g : String) : DReads (K := K) (groupOf g) (fun r => evGroup r g) := by
  intro s hs
  unfold groupOf evGroup
  simp only [PyM.bind_apply, readRaw, id]
  cases s.raw.groups.get? g <;> exact ⟨rfl, rfl, hs⟩

theorem reads_asMat {k : DHKey} {m : PyM (DHSt K) (DHVal K)} {p : DHRaw K → Except Err (Sp K)}
    (hk : ∀ r, evKey k r = (p r).map .mat) (h : DReads m (fun r => (p r).map .mat)) :
    DReads (memo k m >>= asMat) p := by
  have h1 : DReads (memo k m) (evKey k) := Reads.memo (h.congr fun r => (hk r).symm)
  intro s hs
  obtain ⟨a1, a2, a3⟩ := h1 s hs
  rw [hk] at a1
  simp only [PyM.bind_apply]
  rcases hx : memo k m s with ⟨_ | x, s'⟩
  · rw [hx] at a1 a2 a3
    simp only at a1 a2 a3 ⊢
    cases hp : p s.raw with
    | error e => rw [hp] at a1; cases a1; exact ⟨rfl, a2, a3⟩
    | ok M => rw [hp] at a1; cases a1
  · rw [hx] at a1 a2 a3
    simp only at a1 a2 a3 ⊢
    cases hp : p s.raw with
    | error e => rw [hp] at a1; cases a1
    | ok M =>
      rw [hp] at a1
      cases a1
      exact ⟨rfl, a2, a3⟩

theorem reads_scoped {g : String} {m : PyM (DHSt K) (Sp K)} {q : DGroup K → DHRaw K → Except Err (Sp K)}
    (h : DReads m (fun r => evGroup r g >>= fun d => q d r)) :
    DReads (check g >>= fun _ => m) (fun r => evGroup r g >>= fun d => q d r) := by
  refine (Reads.bind (reads_check g) fun _ => h).congr fun r => ?_
  cases evGroup r g <;> rfl

theorem reads_getHOf (sd : Side) (g : String) :
    DReads (K := K) (getHOf sd g) (fun r => evHOf sd r g) := by
  refine reads_scoped (q := fun d r => fetchH sd r.numV d) (reads_asMat (fun r => rfl) ?_)
  refine (Reads.bind (reads_groupOf g) fun d => Reads.bind (Reads.readRaw _) fun n =>
    Reads.bind (Reads.lift _) fun M => Reads.pure _).congr fun r => ?_
  cases evGroup r g with
  | error e => rfl
  | ok d => simp only [bind, Except.bind]; cases fetchH sd r.numV d <;> rfl

theorem reads_getH (sd : Side) (sc : Option String) : DReads (K := K) (getH sd sc) (evH sd sc) := by
  cases sc with
  | none =>
    refine reads_asMat (fun r => rfl) ?_
    refine (Reads.bind (Reads.readRaw _) fun ns => Reads.bind
      (Reads.collect (q := fun g r => evHOf sd r g) (reads_getHOf sd)) fun l =>
      Reads.bind (Reads.lift _) fun M => Reads.pure _).congr fun r => ?_
    show (collectE r.groups.keys (evHOf sd r) >>= _) = _
    simp only [evH]
    cases collectE r.groups.keys (evHOf sd r) with
    | error e => rfl
    | ok l => simp only [bind, Except.bind]; cases Sp.catCols l <;> rfl
  | some g => exact reads_getHOf sd g

theorem reads_getROf (sd : Side) (g : String) :
    DReads (K := K) (getROf sd g) (fun r => evROf sd r g) := by
  refine reads_scoped (q := fun d r => fetchR sd d) (reads_asMat (fun r => rfl) ?_)
  refine (Reads.bind (reads_groupOf g) fun d =>
    Reads.bind (Reads.lift _) fun M => Reads.pure _).congr fun r => ?_
  cases evGroup r g with
  | error e => rfl
  | ok d => simp only [bind, Except.bind]; cases fetchR sd d <;> rfl

theorem reads_getR (sd : Side) (sc : Option String) : DReads (K := K) (getR sd sc) (evR sd sc) := by
  cases sc with
  | none =>
    refine reads_asMat (fun r => rfl) ?_
    refine (Reads.bind (Reads.readRaw _) fun ns => Reads.bind
      (Reads.collect (q := fun g r => evROf sd r g) (reads_getROf sd)) fun l =>
      Reads.bind (Reads.lift _) fun M => Reads.pure _).congr fun r => ?_
    show (collectE r.groups.keys (evROf sd r) >>= _) = _
    simp only [evR]
    cases collectE r.groups.keys (evROf sd r) with
    | error e => rfl
    | ok l => simp only [bind, Except.bind]; cases Sp.catCols l <;> rfl
  | some g => exact reads_getROf sd g

theorem reads_getV : DReads (K := K) getV (fun r => .ok (List.range r.numV)) := by
  refine (Reads.bind (q := fun (x : DHVal K) _ => match x with
      | .verts l => .ok l
      | _ => .error .type) (Reads.memo (k := (none, DHName.v)) ?_) fun x => ?_).congr fun r => rfl
  · exact (Reads.readRaw _).congr fun r => rfl
  · cases x with
    | verts l => exact Reads.pure _
    | mat M => exact Reads.raise _

theorem reads_cached {k : DHKey} (hk : ∀ r : DHRaw K, evKey k r = .error .key) :
    DReads (K := K) (cached k >>= asMat) (fun _ => .error .key) := by
  intro s hs
  unfold cached
  simp only [PyM.bind_apply, PyM.get_apply]
  cases hc : s.cache.get? k with
  | none => exact ⟨rfl, rfl, hs⟩
  | some x =>
    have := hs k x hc
    rw [hk] at this
    cases this

theorem reads_getNumE (sc : Option String) : DReads (K := K) (getNumE sc) (fun r => match sc with
    | none => .ok ((r.groups.map fun p => p.2.length).sum)
    | some g => (evGroup r g).map List.length) := by
  cases sc with
  | none => exact (Reads.readRaw _).congr fun r => rfl
  | some g =>
    refine (Reads.bind (reads_groupOf g) fun d => Reads.pure _).congr fun r => ?_
    simp only
    cases evGroup r g <;> rfl

/-- `ask` without the cache; the vertex weights are treated apart -/
def evAsk : DHQuery → DHRaw K → Except Err (DHAns K)
  | .numV, r => .ok (.num r.numV)
  | .numE none, r => .ok (.num (r.groups.map fun p => p.2.length).sum)
  | .numE (some g), r => (evGroup r g).map fun d => .num d.length
  | .numGroups, r => .ok (.num r.groups.length)
  | .groupNames, r => .ok (.names r.groups.keys)
  | .v, r => .ok (.idx (List.range r.numV))
  | .vWeight, r => .ok (.vec (r.vWeight.getD (List.replicate r.numV 1)))
  | .H sd sc, r => (evH sd sc r).map .mat
  | .R sd sc, r => (evR sd sc r).map .mat
  | .Wv, _ => .error .key
  | .We none, _ => .error .key
  | .We (some g), r => (evGroup r g).bind fun _ => .error .key

theorem reads_ask {q : DHQuery} (hq : q ≠ .vWeight) : DReads (K := K) (ask q) (evAsk q) := by
  cases q with
  | vWeight => exact absurd rfl hq
  | numV => exact (Reads.bind (Reads.readRaw _) fun n => Reads.pure _).congr fun r => rfl
  | numGroups => exact (Reads.bind (Reads.readRaw _) fun n => Reads.pure _).congr fun r => rfl
  | groupNames => exact (Reads.bind (Reads.readRaw _) fun n => Reads.pure _).congr fun r => rfl
  | v => exact (Reads.bind reads_getV fun n => Reads.pure _).congr fun r => rfl
  | numE sc =>
    refine (Reads.bind (reads_getNumE sc) fun n => Reads.pure _).congr fun r => ?_
    cases sc with
    | none => rfl
    | some g => simp only [evAsk]; cases evGroup r g <;> rfl
  | H sd sc =>
    refine (Reads.bind (reads_getH sd sc) fun n => Reads.pure _).congr fun r => ?_
    simp only [evAsk]; cases evH sd sc r <;> rfl
  | R sd sc =>
    refine (Reads.bind (reads_getR sd sc) fun n => Reads.pure _).congr fun r => ?_
    simp only [evAsk]; cases evR sd sc r <;> rfl
  | Wv => exact (Reads.bind (reads_cached fun r => rfl) fun n => Reads.pure _).congr fun r => rfl
  | We sc =>
    cases sc with
    | none => exact (Reads.bind (reads_cached fun r => rfl) fun n => Reads.pure _).congr fun r => rfl
    | some g =>
      refine (Reads.bind (Reads.bind (reads_check g) fun _ => reads_cached fun r => rfl)
        fun n => Reads.pure _).congr fun r => ?_
      simp only [evAsk]; cases evGroup r g <;> rfl

theorem ask_vWeight (s : DHSt K) : (ask .vWeight s).1 = evAsk .vWeight s.raw ∧
    (ask .vWeight s).2 = { s with raw := { s.raw with
      vWeight := some (s.raw.vWeight.getD (List.replicate s.raw.numV 1)) } } := by
  unfold ask getVWeight
  simp only [PyM.bind_apply, readRaw, id, evAsk]
  obtain ⟨⟨n, w, gs⟩, c⟩ := s
  cases w <;> exact ⟨rfl, rfl⟩

/-! ### The cache after the calls -/

theorem evKey_congr {k : DHKey} {r r' : DHRaw K} (h1 : r.numV = r'.numV)
    (h2 : r.groups = r'.groups) : evKey k r = evKey k r' := by
  obtain ⟨n, w, gs⟩ := r
  obtain ⟨n', w', gs'⟩ := r'
  simp only at h1 h2
  subst h1; subst h2
  obtain ⟨_ | g, nm⟩ := k <;> cases nm <;> rfl

theorem evKey_local {g : String} {nm : DHName} {r r' : DHRaw K} (h1 : r.numV = r'.numV)
    (h2 : r.groups.get? g = r'.groups.get? g) : evKey (some g, nm) r = evKey (some g, nm) r' := by
  cases nm <;> simp only [evKey, evH, evHOf, evR, evROf, evGroup, h1, h2]

/-- coherent -/
abbrev Coh (s : DHSt K) : Prop := Coherent evKey s

theorem Coh.ask {s : DHSt K} (hs : Coh s) (q : DHQuery) : (ask q s).1 = evAsk q s.raw ∧
    (DirH.ask q s).2.raw.numV = s.raw.numV ∧ (DirH.ask q s).2.raw.groups = s.raw.groups ∧
    Coh (DirH.ask q s).2 := by
  by_cases hq : q = .vWeight
  · subst hq
    obtain ⟨h1, h2⟩ := ask_vWeight s
    refine ⟨h1, by rw [h2], by rw [h2], ?_⟩
    rw [h2]
    intro k v hv
    rw [← hs k v hv]
    exact evKey_congr rfl rfl
  · obtain ⟨h1, h2, h3⟩ := reads_ask hq s hs
    exact ⟨h1, by rw [h2], by rw [h2], h3⟩

theorem coh_filter {s : DHSt K} (hs : Coh s) {r' : DHRaw K} {g : String} (hn : r'.numV = s.raw.numV)
    (hg : ∀ g', g' ≠ g → r'.groups.get? g' = s.raw.groups.get? g') :
    Coh { raw := r', cache := s.cache.filter fun p => decide (p.1.1 ≠ none ∧ p.1.1 ≠ some g) } := by
  intro k v hv
  rw [Dict.get?_filter_key s.cache fun k => decide (k.1 ≠ none ∧ k.1 ≠ some g)] at hv
  split at hv
  · rename_i hk
    simp only [decide_eq_true_eq] at hk
    obtain ⟨sc, nm⟩ := k
    cases sc with
    | none => exact absurd rfl hk.1
    | some g' =>
      rw [← hs _ _ hv]
      exact evKey_local hn (hg g' fun h => hk.2 (by rw [h]))
  · cases hv

/-! ### The calls -/

/-- effect of `addHyperedge` on the groups -/
def addG (g : String) (op : MergeOp) (c : List Int × List Int) (x : DContent K)
    (gs : Dict String (DGroup K)) : Except Err (Dict String (DGroup K)) :=
  match gs.get? g with
  | none => .ok (gs.set g [(c, x)])
  | some d =>
    match d.get? c with
    | none => .ok (gs.set g (d.set c x))
    | some o => do
      let y ← mergeContent op o x
      .ok (gs.set g (d.set c y))

/-- effect of the loop of `add_hyperedges` -/
def addAllG (g : String) (op : MergeOp) :
    List ((List Int × List Int) × DContent K) → Dict String (DGroup K) →
    Except Err (Dict String (DGroup K))
  | [], gs => .ok gs
  | p :: l, gs => do
    let gs' ← addG g op p.1 p.2 gs
    addAllG g op l gs'

theorem addHyperedge_eq (c : List Int × List Int) (x : DContent K) (op : MergeOp) (g : String)
    (s : DHSt K) : addHyperedge c x op g s = match addG g op c x s.raw.groups with
      | .error e => (.error e, s)
      | .ok gs => (.ok (), { s with raw := { s.raw with groups := gs } }) := by
  unfold addHyperedge addG
  simp only [PyM.bind_apply, readRaw, id]
  cases s.raw.groups.get? g with
  | none => rfl
  | some d =>
    simp only
    cases d.get? c with
    | none => rfl
    | some o =>
      simp only [PyM.bind_apply, PyM.lift_apply]
      cases mergeContent op o x <;> rfl

theorem forM_add (g : String) (op : MergeOp) {α : Type} (f : α → (List Int × List Int) × DContent K)
    (l : List α) (s : DHSt K) {gs : Dict String (DGroup K)}
    (h : addAllG g op (l.map f) s.raw.groups = .ok gs) :
    PyM.forM l (fun p => addHyperedge (f p).1 (f p).2 op g) s =
      (.ok (), { s with raw := { s.raw with groups := gs } }) := by
  induction l generalizing s with
  | nil => cases h; rfl
  | cons p l ih =>
    rw [PyM.forM_cons, addHyperedge_eq]
    simp only [List.map_cons, addAllG] at h
    cases hg : addG g op (f p).1 (f p).2 s.raw.groups with
    | error e => rw [hg] at h; cases h
    | ok gs' =>
      rw [hg] at h
      simp only
      rw [ih { s with raw := { s.raw with groups := gs' } } h]

theorem forM_add_err (g : String) (op : MergeOp) {α : Type}
    (f : α → (List Int × List Int) × DContent K) (l : List α) (s : DHSt K) {e : Err}
    (h : addAllG g op (l.map f) s.raw.groups = .error e) :
    (PyM.forM l (fun p => addHyperedge (f p).1 (f p).2 op g) s).1 = .error e := by
  induction l generalizing s with
  | nil => cases h
  | cons p l ih =>
    rw [PyM.forM_cons, addHyperedge_eq]
    simp only [List.map_cons, addAllG] at h
    cases hg : addG g op (f p).1 (f p).2 s.raw.groups with
    | error e => rw [hg] at h; cases h; rfl
    | ok gs' =>
      rw [hg] at h
      simp only
      exact ih { s with raw := { s.raw with groups := gs' } } h

/-- the hyperedges of an `add_hyperedges` call, or the exception of the checks -/
def addList (src dst : DArg K) (ew : HW K) :
    Except Err (List ((List Int × List Int) × DContent K)) := do
  let ss ← formatArg src
  let ds ← formatArg dst
  let ws ← weights ss.length ew
  if ss.length = ws.length then
    if ss.length = ds.length then .ok (((ss.zip ds).zip ws).map entry) else .error .assertion
  else .error .assertion

theorem assert_apply (b : Bool) (s : DHSt K) :
    PyM.assert b s = if b then (.ok (), s) else (.error .assertion, s) := by
  cases b <;> rfl

theorem addHyperedges_eq (src dst : DArg K) (ew : HW K) (op : MergeOp) (g : String) (s : DHSt K) :
    ((addHyperedges src dst ew op g s).1 =
      (addList src dst ew >>= fun l => (addAllG g op l s.raw.groups).map fun _ => ())) ∧
    ∀ l gs, addList src dst ew = .ok l → addAllG g op l s.raw.groups = .ok gs →
      (addHyperedges src dst ew op g s).2 =
        { raw := { s.raw with groups := gs },
          cache := s.cache.filter fun p => decide (p.1.1 ≠ none ∧ p.1.1 ≠ some g) } := by
  unfold addHyperedges addList
  simp only [PyM.bind_apply, PyM.lift_apply, assert_apply]
  cases hs : formatArg src with
  | error e => exact ⟨rfl, fun l gs h => by cases h⟩
  | ok ss =>
    cases hd : formatArg dst with
    | error e => exact ⟨rfl, fun l gs h => by cases h⟩
    | ok ds =>
      simp only [bind, Except.bind]
      cases hw : weights ss.length ew with
      | error e => exact ⟨rfl, fun l gs h => by cases h⟩
      | ok ws =>
        simp only [decide_eq_true_eq]
        by_cases h1 : ss.length = ws.length
        · rw [if_pos h1, if_pos h1]
          simp only
          by_cases h2 : ss.length = ds.length
          · rw [if_pos h2, if_pos h2]
            simp only
            cases ha : addAllG g op (((ss.zip ds).zip ws).map entry) s.raw.groups with
            | error e =>
              have := forM_add_err g op entry ((ss.zip ds).zip ws) s ha
              refine ⟨?_, fun l gs h h' => ?_⟩
              · rcases hf : PyM.forM ((ss.zip ds).zip ws)
                  (fun p => addHyperedge (entry p).1 (entry p).2 op g) s with ⟨x, s'⟩
                rw [hf] at this
                simp only at this
                subst this
                rfl
              · cases h; rw [ha] at h'; cases h'
            | ok gs =>
              have := forM_add g op entry ((ss.zip ds).zip ws) s ha
              rw [this]
              refine ⟨rfl, fun l gs' h h' => ?_⟩
              cases h; rw [ha] at h'; cases h'
              rfl
          · rw [if_neg h2, if_neg h2]
            exact ⟨rfl, fun l gs h => by cases h⟩
        · rw [if_neg h1, if_neg h1]
          exact ⟨rfl, fun l gs h => by cases h⟩

/-- effect of one removal -/
def delG (g : String) (c : List Int × List Int) (gs : Dict String (DGroup K)) :
    Dict String (DGroup K) :=
  match gs.get? g with
  | none => gs
  | some d => gs.set g (d.del c)

theorem forM_remove (g : String) (ds : List (List Int)) (l : List (List Int × Nat))
    (hl : ∀ p ∈ l, p.2 < ds.length) (s : DHSt K) :
    PyM.forM l (removeOne g ds) s = (.ok (), { s with raw := { s.raw with
      groups := (l.map fun p => (p.1, ds.getD p.2 [])).foldl (fun gs c => delG g c gs)
        s.raw.groups } }) := by
  induction l generalizing s with
  | nil => rfl
  | cons p l ih =>
    have hp := hl p List.mem_cons_self
    rw [PyM.forM_cons]
    have : removeOne g ds p s = (.ok (), { s with raw := { s.raw with
        groups := delG g (p.1, ds.getD p.2 []) s.raw.groups } }) := by
      unfold removeOne delG
      rw [List.getElem?_eq_getElem hp, List.getD_eq_getElem?_getD, List.getElem?_eq_getElem hp]
      rfl
    rw [this]
    simp only
    rw [ih fun q hq => hl q (List.mem_cons_of_mem _ hq)]
    rfl

theorem forM_remove_err (g : String) (ds : List (List Int)) (l : List (List Int × Nat))
    (hl : ∃ p ∈ l, ds.length ≤ p.2) (s : DHSt K) :
    (PyM.forM l (removeOne (K := K) g ds) s).1 = .error .index := by
  induction l generalizing s with
  | nil => obtain ⟨p, hp, _⟩ := hl; cases hp
  | cons p l ih =>
    rw [PyM.forM_cons]
    by_cases hp : ds.length ≤ p.2
    · have : removeOne (K := K) g ds p s = (.error .index, s) := by
        unfold removeOne
        rw [List.getElem?_eq_none hp]; rfl
      rw [this]
    · have : ∃ s', removeOne (K := K) g ds p s = (.ok (), s') := by
        unfold removeOne
        rw [List.getElem?_eq_getElem (by omega)]
        exact ⟨_, rfl⟩
      obtain ⟨s', hs'⟩ := this
      rw [hs']
      simp only
      apply ih
      obtain ⟨q, hq, hq'⟩ := hl
      rcases List.mem_cons.1 hq with rfl | h
      · exact absurd hq' hp
      · exact ⟨q, h, hq'⟩

theorem zipIdx_map_getD (ss ds : List (List Int)) (h : ss.length ≤ ds.length) (k : Nat)
    (pre : List (List Int)) (hk : pre.length = k) :
    (ss.zipIdx k).map (fun p => (p.1, (pre ++ ds).getD p.2 [])) = ss.zip ds := by
  induction ss generalizing ds k pre with
  | nil => rfl
  | cons a ss ih =>
    cases ds with
    | nil => simp at h
    | cons b ds =>
      simp only [List.zipIdx_cons, List.map_cons, List.zip_cons_cons]
      congr 1
      · simp [← hk, List.getD_eq_getElem?_getD]
      · have := ih ds (by simpa using h) (k + 1) (pre ++ [b]) (by simp [hk])
        simpa using this

/-- an accepted call of `remove_hyperedges` -/
theorem removeHyperedges_ok {src dst : HArg} {g : Option String} {s : DHSt K}
    (h : (removeHyperedges src dst g s).1 = .ok ()) :
    ∃ g' ss ds, g = some g' ∧ g' ∈ s.raw.groups.keys ∧ src.format = .ok ss ∧ dst.format = .ok ds ∧
      ss.length ≤ ds.length ∧
      (removeHyperedges src dst g s).2 =
        { raw := { s.raw with groups := (ss.zip ds).foldl (fun gs c => delG g' c gs) s.raw.groups },
          cache := s.cache.filter fun p => decide (p.1.1 ≠ none ∧ p.1.1 ≠ some g') } := by
  unfold removeHyperedges at h ⊢
  simp only [PyM.bind_apply, readRaw, id] at h ⊢
  cases g with
  | none => cases h
  | some g =>
    simp only [PyM.bind_apply, PyM.lift_apply, assert_apply] at h ⊢
    by_cases hg : s.raw.groups.has g = true
    · rw [if_pos hg] at h ⊢
      simp only at h ⊢
      cases hn : argLen src with
      | error e => rw [hn] at h; cases h
      | ok n =>
        rw [hn] at h
        simp only at h ⊢
        cases hm : argLen dst with
        | error e => rw [hm] at h; cases h
        | ok m =>
          rw [hm] at h
          simp only [decide_eq_true_eq] at h ⊢
          by_cases hnm : n = m
          · rw [if_pos hnm] at h ⊢
            simp only at h ⊢
            cases hs : src.format with
            | error e => rw [hs] at h; cases h
            | ok ss =>
              rw [hs] at h
              simp only at h ⊢
              cases hd : dst.format with
              | error e => rw [hd] at h; cases h
              | ok ds =>
                rw [hd] at h
                simp only at h ⊢
                by_cases hl : ss.length ≤ ds.length
                · refine ⟨g, ss, ds, rfl, (Dict.has_iff _ _).1 hg, rfl, rfl, hl, ?_⟩
                  rw [forM_remove]
                  · have := zipIdx_map_getD ss ds hl 0 [] rfl
                    simp only [List.nil_append] at this
                    rw [this]
                    rfl
                  · intro p hp
                    have := (List.mem_zipIdx' hp).1
                    omega
                · exfalso
                  have := forM_remove_err (K := K) g ds ss.zipIdx ⟨(ss[ds.length]'(by omega), ds.length),
                    by rw [List.mem_zipIdx_iff_getElem?]; simp, le_refl _⟩ s
                  rcases hf : PyM.forM ss.zipIdx (removeOne (K := K) g ds) s with ⟨x, s'⟩
                  rw [hf] at this h
                  simp only at this
                  subst this
                  cases h
          · rw [if_neg hnm] at h; cases h
    · rw [if_neg hg] at h; cases h

end DirH
end DHG
