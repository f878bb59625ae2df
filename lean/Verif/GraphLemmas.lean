import Verif.GraphReads
import Verif.GraphApi

/-!
# Invariants of `Graph` objects
-/

set_option linter.unusedSectionVars false
set_option autoImplicit false

namespace DHG
namespace Graph

variable {K : Type} [Field K] [LinearOrder K]

/-- representation invariant of the raw fields -/
structure Inv (r : GRaw K) : Prop where
  numU : r.numU = 0
  pos : 0 < r.numV
  nodupE : r.eDict.keys.Nodup
  nodupL : r.loops.keys.Nodup
  lt : ∀ p ∈ r.eDict.keys, p.1 < p.2
  ltE : ∀ p ∈ r.eDict.keys, p.2 < (r.numV : Int)
  ltL : ∀ v ∈ r.loops.keys, v < (r.numV : Int)

/-- stored vertices are non-negative -/
structure Pos (r : GRaw K) : Prop where
  E : ∀ p ∈ r.eDict.keys, 0 ≤ p.1 ∧ 0 ≤ p.2
  L : ∀ v ∈ r.loops.keys, 0 ≤ v

/-! ### `upsert` -/

section
variable {α : Type} [DecidableEq α]

theorem keys_upsert (d : Dict α K) (k : α) (f : K → K → K) (w : K) (k' : α) :
    k' ∈ (upsert d k f w).keys ↔ k' = k ∨ k' ∈ d.keys := by
  unfold upsert; split <;> exact Dict.mem_keys_set _ _ _ _

theorem nodup_upsert (d : Dict α K) (k : α) (f : K → K → K) (w : K) (h : d.keys.Nodup) :
    (upsert d k f w).keys.Nodup := by
  unfold upsert; split <;> exact Dict.nodup_set _ _ _ h

theorem get?_upsert (d : Dict α K) (k : α) (f : K → K → K) (w : K) (k' : α) :
    (upsert d k f w).get? k' =
      if k' = k then some (match d.get? k with | some o => f o w | none => w) else d.get? k' := by
  unfold upsert
  split <;> rename_i h <;> rw [Dict.get?_set] <;> simp only [eq_comm] <;> simp [h]
end

theorem sortPair_le (e : Int × Int) : (sortPair e).1 ≤ (sortPair e).2 := by
  unfold sortPair; split
  · omega
  · simp only []; omega

theorem sortPair_lt {n : Int} {e : Int × Int} (h : e.1 < n ∧ e.2 < n) :
    (sortPair e).1 < n ∧ (sortPair e).2 < n := by
  unfold sortPair; split
  · omega
  · simp only []; omega

theorem sortPair_pos {e : Int × Int} (h : 0 ≤ e.1 ∧ 0 ≤ e.2) :
    0 ≤ (sortPair e).1 ∧ 0 ≤ (sortPair e).2 := by
  unfold sortPair; split
  · omega
  · simp only []; omega

theorem Inv.addEdge {r : GRaw K} (h : Inv r) (f : K → K → K) {a b : Int} (w : K)
    (hab : a ≤ b) (hb : b < r.numV) : Inv (r.addEdge f a b w) := by
  unfold GRaw.addEdge
  split
  · subst_vars
    exact { h with
      nodupL := nodup_upsert _ _ _ _ h.nodupL
      ltL := by
        intro v hv
        rcases (keys_upsert _ _ _ _ _).1 hv with rfl | hv
        · exact hb
        · exact h.ltL v hv }
  · exact { h with
      nodupE := nodup_upsert _ _ _ _ h.nodupE
      lt := by
        intro v hv
        rcases (keys_upsert _ _ _ _ _).1 hv with rfl | hv
        · show a < b; omega
        · exact h.lt v hv
      ltE := by
        intro v hv
        rcases (keys_upsert _ _ _ _ _).1 hv with rfl | hv
        · exact hb
        · exact h.ltE v hv }

theorem Pos.addEdge {r : GRaw K} (h : Pos r) (f : K → K → K) {a b : Int} (w : K)
    (ha : 0 ≤ a) (hb : 0 ≤ b) : Pos (r.addEdge f a b w) := by
  unfold GRaw.addEdge
  split
  · exact { h with
      L := by
        intro v hv
        rcases (keys_upsert _ _ _ _ _).1 hv with rfl | hv
        · exact ha
        · exact h.L v hv }
  · exact { h with
      E := by
        intro v hv
        rcases (keys_upsert _ _ _ _ _).1 hv with rfl | hv
        · exact ⟨ha, hb⟩
        · exact h.E v hv }

@[simp] theorem numV_addEdge (r : GRaw K) (f : K → K → K) (a b : Int) (w : K) :
    (r.addEdge f a b w).numV = r.numV := by unfold GRaw.addEdge; split <;> rfl
@[simp] theorem extra_addEdge (r : GRaw K) (f : K → K → K) (a b : Int) (w : K) :
    (r.addEdge f a b w).extra = r.extra := by unfold GRaw.addEdge; split <;> rfl
@[simp] theorem numV_removeEdge (r : GRaw K) (a b : Int) :
    (r.removeEdge a b).numV = r.numV := by
  unfold GRaw.removeEdge; split <;> [rfl; (split <;> rfl)]
@[simp] theorem extra_removeEdge (r : GRaw K) (a b : Int) :
    (r.removeEdge a b).extra = r.extra := by
  unfold GRaw.removeEdge; split <;> [rfl; (split <;> rfl)]

theorem Inv.removeEdge {r : GRaw K} (h : Inv r) (a b : Int) : Inv (r.removeEdge a b) := by
  unfold GRaw.removeEdge
  split
  · exact { h with
      nodupL := Dict.nodup_del _ _ h.nodupL
      ltL := fun v hv => h.ltL v ((Dict.keys_del_sublist _ _).subset hv) }
  · split
    · exact { h with
        nodupE := Dict.nodup_del _ _ h.nodupE
        lt := fun v hv => h.lt v ((Dict.keys_del_sublist _ _).subset hv)
        ltE := fun v hv => h.ltE v ((Dict.keys_del_sublist _ _).subset hv) }
    · exact h

theorem Pos.removeEdge {r : GRaw K} (h : Pos r) (a b : Int) : Pos (r.removeEdge a b) := by
  unfold GRaw.removeEdge
  split
  · exact { h with L := fun v hv => h.L v ((Dict.keys_del_sublist _ _).subset hv) }
  · split
    · exact { h with E := fun v hv => h.E v ((Dict.keys_del_sublist _ _).subset hv) }
    · exact h

/-! ### the mutating calls as functions of the raw fields -/

/-- edges after formatting and pairing -/
def addPairs (r : GRaw K) (f : K → K → K) (l : List ((Int × Int) × K)) : GRaw K :=
  l.foldl (fun r ew => r.addEdge f (sortPair ew.1).1 (sortPair ew.1).2 ew.2) r

/-- edges after formatting -/
def removeList (r : GRaw K) (l : List (Int × Int)) : GRaw K :=
  l.foldl (fun r e => r.removeEdge (sortPair e).1 (sortPair e).2) r

theorem addEdge_ok {op : MergeOp} {f : K → K → K} (hop : mergeFn op = .ok f) (a b : Int) (w : K)
    (s : GSt K) : addEdge op a b w s = (.ok (), { raw := s.raw.addEdge f a b w, cache := [] }) := by
  simp [addEdge, hop, setRaw, clearCache]

theorem removeEdge_ok (a b : Int) (s : GSt K) :
    removeEdge a b s = (.ok (), { raw := s.raw.removeEdge a b, cache := [] }) := by
  simp [removeEdge, setRaw, clearCache]

theorem forM_addEdge_ok {op : MergeOp} {f : K → K → K} (hop : mergeFn op = .ok f)
    (l : List ((Int × Int) × K)) (s : GSt K) :
    PyM.forM l (fun ew => addEdge op (sortPair ew.1).1 (sortPair ew.1).2 ew.2) s =
      (.ok (), { raw := addPairs s.raw f l, cache := if l = [] then s.cache else [] }) := by
  induction l generalizing s with
  | nil => rfl
  | cons e l ih =>
    rw [PyM.forM_cons, addEdge_ok hop]
    simp only
    rw [ih]
    simp [addPairs]

theorem forM_addEdge_err {op : MergeOp} {e : Err} (hop : mergeFn (K := K) op = .error e)
    (l : List ((Int × Int) × K)) (s : GSt K) :
    PyM.forM l (fun ew => addEdge op (sortPair ew.1).1 (sortPair ew.1).2 ew.2) s =
      (if l = [] then .ok () else .error e, s) := by
  cases l with
  | nil => rfl
  | cons x l =>
    rw [PyM.forM_cons]
    simp [addEdge, hop]

theorem forM_removeEdge (l : List (Int × Int)) (s : GSt K) :
    PyM.forM l (fun e => removeEdge (sortPair e).1 (sortPair e).2) s =
      (.ok (), { raw := removeList s.raw l, cache := if l = [] then s.cache else [] }) := by
  induction l generalizing s with
  | nil => rfl
  | cons e l ih =>
    rw [PyM.forM_cons, removeEdge_ok]
    simp only
    rw [ih]
    simp [removeList]

/-- `add_edges`: the three possible outcomes -/
theorem addEdges_cases (arg : EArg K) (op : MergeOp) (s : GSt K) :
    (arg.isEmpty = true ∧ addEdges arg op s = (.ok (), s)) ∨
    (∃ e, addEdges arg op s = (.error e, s)) ∨
    (∃ es ws, arg.isEmpty = false ∧ formatEdges s.raw.numV arg = .ok (es, ws) ∧
      (es.zip ws = [] ∧ addEdges arg op s = (.ok (), { s with cache := [] }) ∨
       ∃ f, mergeFn op = .ok f ∧
         addEdges arg op s = (.ok (), { raw := addPairs s.raw f (es.zip ws), cache := [] }))) := by
  unfold addEdges
  cases he : arg.isEmpty with
  | true => left; exact ⟨rfl, rfl⟩
  | false =>
    right
    simp only [Bool.false_eq_true, if_false, PyM.bind_apply, readRaw, PyM.lift_apply]
    cases hf : formatEdges s.raw.numV arg with
    | error e => left; exact ⟨e, rfl⟩
    | ok p =>
      obtain ⟨es, ws⟩ := p
      simp only
      cases hop : mergeFn (K := K) op with
      | error e =>
        rw [forM_addEdge_err hop]
        by_cases hl : es.zip ws = []
        · right
          refine ⟨es, ws, trivial, rfl, Or.inl ⟨hl, ?_⟩⟩
          simp [hl, clearCache]
        · left; refine ⟨e, ?_⟩; simp [hl]
      | ok f =>
        right
        refine ⟨es, ws, trivial, rfl, Or.inr ⟨f, rfl, ?_⟩⟩
        rw [forM_addEdge_ok hop]
        simp [clearCache]

theorem removeEdges_cases (arg : EArg K) (s : GSt K) :
    (∃ e, removeEdges arg s = (.error e, s)) ∨
    (∃ es ws, formatEdges s.raw.numV arg.noWeight = .ok (es, ws) ∧
      removeEdges arg s = (.ok (), { raw := removeList s.raw es, cache := [] })) := by
  unfold removeEdges
  simp only [PyM.bind_apply, readRaw, PyM.lift_apply]
  cases hf : formatEdges s.raw.numV arg.noWeight with
  | error e => left; exact ⟨e, rfl⟩
  | ok p =>
    obtain ⟨es, ws⟩ := p
    right
    refine ⟨es, ws, rfl, ?_⟩
    simp only
    rw [forM_removeEdge]
    simp [clearCache]

theorem formatEdges_lt {n : Nat} {arg : EArg K} {es ws} (h : formatEdges n arg = .ok (es, ws)) :
    ∀ e ∈ es, e.1 < (n : Int) ∧ e.2 < (n : Int) := by
  unfold formatEdges at h
  split at h
  · split at h
    · cases h; intro e he; simp at he; subst he; simp only [] at *; omega
    · cases h
  · cases h
  · rename_i p es' ws'
    split at h
    · rename_i hall
      cases ws' <;> cases h <;> exact hall
    · cases h

theorem formatEdges_pos {n : Nat} {arg : EArg K} {es ws} (h : formatEdges n arg = .ok (es, ws))
    (hp : NonNeg arg) : ∀ e ∈ es, 0 ≤ e.1 ∧ 0 ≤ e.2 := by
  unfold formatEdges at h
  split at h
  · split at h
    · cases h; intro e he; simp at he; subst he; exact hp
    · cases h
  · cases h
  · rename_i p es' ws'
    split at h
    · cases ws' <;> cases h <;> exact hp
    · cases h

theorem Inv.addPairs {r : GRaw K} (h : Inv r) (f : K → K → K) (l : List ((Int × Int) × K))
    (hl : ∀ e ∈ l, e.1.1 < (r.numV : Int) ∧ e.1.2 < (r.numV : Int)) : Inv (addPairs r f l) := by
  induction l generalizing r with
  | nil => exact h
  | cons e l ih =>
    have he := hl e List.mem_cons_self
    refine ih (h.addEdge f _ (sortPair_le _) (sortPair_lt he).2) ?_
    intro e' he'
    simpa using hl e' (List.mem_cons_of_mem _ he')

theorem Pos.addPairs {r : GRaw K} (h : Pos r) (f : K → K → K) (l : List ((Int × Int) × K))
    (hl : ∀ e ∈ l, 0 ≤ e.1.1 ∧ 0 ≤ e.1.2) : Pos (addPairs r f l) := by
  induction l generalizing r with
  | nil => exact h
  | cons e l ih =>
    have he := hl e List.mem_cons_self
    refine ih (h.addEdge f _ (sortPair_pos he).1 (sortPair_pos he).2) ?_
    intro e' he'
    exact hl e' (List.mem_cons_of_mem _ he')

theorem Inv.removeList {r : GRaw K} (h : Inv r) (l : List (Int × Int)) : Inv (removeList r l) := by
  induction l generalizing r with
  | nil => exact h
  | cons e l ih => exact ih (h.removeEdge _ _)

theorem Pos.removeList {r : GRaw K} (h : Pos r) (l : List (Int × Int)) : Pos (removeList r l) := by
  induction l generalizing r with
  | nil => exact h
  | cons e l ih => exact ih (h.removeEdge _ _)

theorem zip_fst_mem {α β : Type} {l : List α} {l' : List β} {e : α × β} (h : e ∈ l.zip l') :
    e.1 ∈ l := (List.of_mem_zip h).1

variable [PyReal K]

/-- every mutating call keeps the invariant and coherence -/
theorem apply_inv (o : GOp K) {s : GSt K} (h : Inv s.raw) (hc : Coherent evKey s) :
    Inv (apply o s).2.raw ∧ Coherent evKey (apply o s).2 := by
  cases o with
  | addEdges arg op =>
    show Inv (addEdges arg op s).2.raw ∧ Coherent evKey (addEdges arg op s).2
    rcases addEdges_cases arg op s with ⟨_, h1⟩ | ⟨e, h1⟩ | ⟨es, ws, _, hf, h1⟩
    · rw [h1]; exact ⟨h, hc⟩
    · rw [h1]; exact ⟨h, hc⟩
    · rcases h1 with ⟨_, h1⟩ | ⟨f, _, h1⟩
      · rw [h1]; exact ⟨h, coherent_nil _⟩
      · rw [h1]
        exact ⟨h.addPairs f _ fun e he => formatEdges_lt hf _ (zip_fst_mem he), coherent_nil _⟩
  | removeEdges arg =>
    show Inv (removeEdges arg s).2.raw ∧ Coherent evKey (removeEdges arg s).2
    rcases removeEdges_cases arg s with ⟨e, h1⟩ | ⟨es, ws, hf, h1⟩
    · rw [h1]; exact ⟨h, hc⟩
    · rw [h1]; exact ⟨h.removeList es, coherent_nil _⟩
  | addExtraSelfloop => exact ⟨{ h with }, coherent_nil _⟩
  | removeExtraSelfloop => exact ⟨{ h with }, coherent_nil _⟩
  | removeSelfloop =>
    exact ⟨{ h with nodupL := List.nodup_nil, ltL := fun v hv => by cases hv }, coherent_nil _⟩
  | clear =>
    exact ⟨{ h with nodupL := List.nodup_nil, ltL := fun v hv => by cases hv
                    nodupE := List.nodup_nil, lt := fun v hv => by cases hv
                    ltE := fun v hv => by cases hv }, coherent_nil _⟩

theorem apply_pos (o : GOp K) {s : GSt K} (h : Pos s.raw)
    (ho : ∀ a op, o = .addEdges a op → NonNeg a) : Pos (apply o s).2.raw := by
  cases o with
  | addEdges arg op =>
    show Pos (addEdges arg op s).2.raw
    rcases addEdges_cases arg op s with ⟨_, h1⟩ | ⟨e, h1⟩ | ⟨es, ws, _, hf, h1⟩
    · rw [h1]; exact h
    · rw [h1]; exact h
    · rcases h1 with ⟨_, h1⟩ | ⟨f, _, h1⟩
      · rw [h1]; exact h
      · rw [h1]
        exact h.addPairs f _ fun e he => formatEdges_pos hf (ho _ _ rfl) _ (zip_fst_mem he)
  | removeEdges arg =>
    show Pos (removeEdges arg s).2.raw
    rcases removeEdges_cases arg s with ⟨e, h1⟩ | ⟨es, ws, hf, h1⟩
    · rw [h1]; exact h
    · rw [h1]; exact h.removeList es
  | addExtraSelfloop => exact { h with }
  | removeExtraSelfloop => exact { h with }
  | removeSelfloop => exact { h with L := fun v hv => by cases hv }
  | clear => exact ⟨fun v hv => (by cases hv), fun v hv => (by cases hv)⟩

theorem init_inv {n : Int} {extra : Bool} {r : GRaw K} (h : GRaw.init n extra = .ok r) :
    Inv r ∧ Pos r := by
  unfold GRaw.init at h
  split at h
  · cases h
    refine ⟨{ numU := rfl, pos := by show 0 < n.toNat; omega, nodupE := List.nodup_nil,
              nodupL := List.nodup_nil, lt := ?_, ltE := ?_, ltL := ?_ }, ?_, ?_⟩ <;>
      (intro v hv; cases hv)
  · cases h

/-- the answers of the cache-free reader -/
def evAsk : GQuery K → GRaw K → Except Err (GAns K)
  | .e, r => .ok (.edges r.edgeList r.edgeWts)
  | .eBoth, r => .ok (.edges (r.edgeList ++ r.eDict.keys.map fun q => (q.2, q.1))
      (r.edgeWts ++ r.eDict.vals))
  | .numV, r => .ok (.num r.numV)
  | .numE, r => .ok (.num r.numE)
  | .A, r => (evA r).map .mat
  | .Dv, r => (evDv r).map .mat
  | .DvN1, r => (evDvN1 r).map .mat
  | .DvN12, r => (evDvN12 r).map .mat
  | .Nv v hop, r => (evNv v hop r).map .idx
  | .degV, r => (evDv r).map fun D => .vec (D.ents.map Prod.snd)
  | .eSrc, r => (evA r).map fun A => .idx (A.ents.map fun e => e.1.2)
  | .eDst, r => (evA r).map fun A => .idx (A.ents.map fun e => e.1.1)
  | .eWeight, r => (evA r).map fun A => .vec (A.ents.map Prod.snd)
  | .L, r => (evL r).map .mat
  | .Lsym, r => (evLsym r).map .mat
  | .Lrw, r => (evLrw r).map .mat
  | .LGCN, r => (evLGCN r).map .mat
  | .smoothGCN X p keep, r => (evSmoothGCN X p keep r).map .feat
  | .v2v X aggr ew p keep, r => (evV2v X aggr ew p keep r).map .feat

theorem reads_map {α β : Type} {m : PyM (GSt K) α} {p : GRaw K → Except Err α} (h : GReads m p)
    (g : α → β) : GReads (do let a ← m; pure (g a)) (fun r => (p r).map g) :=
  (Reads.bind h fun a => Reads.pure (g a)).congr fun r => by cases p r <;> rfl

theorem reads_ask (q : GQuery K) : GReads (ask q) (evAsk q) := by
  cases q with
  | e => exact reads_map reads_getE _
  | eBoth => exact reads_map reads_getEBoth _
  | numV => exact reads_map (Reads.readRaw _) _
  | numE => exact reads_map reads_getNumE _
  | A => exact reads_map reads_getA _
  | Dv => exact reads_map reads_getDv _
  | DvN1 => exact reads_map reads_getDvN1 _
  | DvN12 => exact reads_map reads_getDvN12 _
  | Nv v hop => exact reads_map (reads_getNv v hop) _
  | degV => exact (reads_map reads_getDegV _).congr fun r => by simp only [evAsk]; cases evDv r <;> rfl
  | eSrc => exact (reads_map reads_getESrc _).congr fun r => by simp only [evAsk]; cases evA r <;> rfl
  | eDst => exact (reads_map reads_getEDst _).congr fun r => by simp only [evAsk]; cases evA r <;> rfl
  | eWeight => exact (reads_map reads_getEWeight _).congr fun r => by simp only [evAsk]; cases evA r <;> rfl
  | L => exact reads_map reads_getL _
  | Lsym => exact reads_map reads_getLsym _
  | Lrw => exact reads_map reads_getLrw _
  | LGCN => exact reads_map reads_getLGCN _
  | smoothGCN X p keep => exact reads_map (reads_smoothGCN X p keep) _
  | v2v X aggr ew p keep => exact reads_map (reads_v2v X aggr ew p keep) _

omit [PyReal K] in
theorem dropFilter_sublist {α : Type} (rate : K) (rnd : Nat → K) (i : Nat) (l : List α) :
    (dropFilter rate rnd i l).Sublist l := by
  induction l generalizing i with
  | nil => exact List.Sublist.refl _
  | cons x l ih =>
    unfold dropFilter
    split
    · exact (ih _).cons_cons x
    · exact (ih _).cons x

theorem new_inv {n : Int} {arg : Option (EArg K)} {extra : Bool} {op : MergeOp} {g : GSt K}
    (h : Graph.new n arg extra op = .ok g) : Inv g.raw ∧ Coherent evKey g := by
  unfold Graph.new at h
  cases hi : GRaw.init (K := K) n extra with
  | error e => rw [hi] at h; cases h
  | ok r =>
    rw [hi] at h
    simp only [bind, Except.bind] at h
    have hr := (init_inv hi).1
    cases arg with
    | none => cases h; exact ⟨hr, coherent_nil _⟩
    | some a =>
      have := apply_inv (.addEdges a op) (s := { raw := r, cache := [] }) hr (coherent_nil _)
      simp only [apply] at this
      simp only at h
      split at h
      · rename_i s hs; rw [hs] at this; cases h; exact this
      · cases h

theorem new_pos {n : Int} {arg : Option (EArg K)} {extra : Bool} {op : MergeOp} {g : GSt K}
    (h : Graph.new n arg extra op = .ok g) (hP : ∀ a, arg = some a → NonNeg a) : Pos g.raw := by
  unfold Graph.new at h
  cases hi : GRaw.init (K := K) n extra with
  | error e => rw [hi] at h; cases h
  | ok r =>
    rw [hi] at h
    simp only [bind, Except.bind] at h
    have hr := (init_inv hi).2
    cases arg with
    | none => cases h; exact hr
    | some a =>
      have := apply_pos (.addEdges a op) (s := { raw := r, cache := [] }) hr
        (by intro a' op' h'; cases h'; exact hP a rfl)
      simp only [apply] at this
      simp only at h
      split at h
      · rename_i s hs; rw [hs] at this; cases h; exact this
      · cases h

theorem fromStateDict_ok {d : StateDict K} {g : GSt K} (h : fromStateDict d = .ok g) :
    g = { raw := { numV := d.numV, eDict := d.eDict, loops := d.loops, extra := d.extra }, cache := [] } ∧
      0 < d.numV := by
  unfold fromStateDict at h
  unfold GRaw.init at h
  split at h
  · simp only [bind, Except.bind] at h
    cases h
    exact ⟨rfl, by omega⟩
  · cases h

theorem fromStateDict_stateDict {g : GSt K} (h : Inv g.raw) :
    fromStateDict (stateDict g) = .ok { raw := g.raw, cache := [] } := by
  unfold fromStateDict stateDict GRaw.init
  have h0 := h.pos
  have h1 := h.numU
  have h2 : (0 : Int) < (g.raw.numV : Int) := by omega
  rw [if_pos h2]
  obtain ⟨⟨u, n, e, l, x⟩, c⟩ := g
  simp only at h1
  subst h1
  rfl

/-- the invariant and coherence hold for every object the interface can produce -/
theorem Built.inv {P : EArg K → Prop} {g : GSt K} (h : Built P g) :
    Inv g.raw ∧ Coherent evKey g := by
  induction h with
  | new h _ => exact new_inv h
  | adj h _ => exact new_inv h
  | op o _ _ ih => exact apply_inv o ih.1 ih.2
  | @read g q hg ih =>
    obtain ⟨_, h2, h3⟩ := reads_ask q g ih.2
    rw [h2]; exact ⟨ih.1, h3⟩
  | clone _ ih => exact ih
  | state _ h ih =>
    rw [fromStateDict_stateDict ih.1] at h; cases h; exact ⟨ih.1, coherent_nil _⟩
  | @drop g g' rate uniform rnd _ h ih =>
    unfold dropEdges at h
    split at h
    · obtain ⟨rfl, _⟩ := fromStateDict_ok h
      refine ⟨?_, coherent_nil _⟩
      have hE := (dropFilter_sublist rate rnd 0 g.raw.eDict).map Prod.fst
      have hL := (dropFilter_sublist rate rnd g.raw.eDict.length g.raw.loops).map Prod.fst
      exact { numU := rfl, pos := ih.1.pos, nodupE := ih.1.nodupE.sublist hE
              nodupL := ih.1.nodupL.sublist hL, lt := fun p hp => ih.1.lt p (hE.subset hp)
              ltE := fun p hp => ih.1.ltE p (hE.subset hp)
              ltL := fun p hp => ih.1.ltL p (hL.subset hp) }
    · cases h

theorem Built.pos {g : GSt K} (h : Built NonNeg g) : Pos g.raw := by
  induction h with
  | new h hP => exact new_pos h hP
  | adj h hP => exact new_pos h (by intro a ha; cases ha; exact hP)
  | op o _ ho ih => exact apply_pos o ih ho
  | @read g q hg ih =>
    obtain ⟨_, h2, _⟩ := reads_ask q g hg.inv.2
    rw [h2]; exact ih
  | clone _ ih => exact ih
  | state hg h ih =>
    rw [fromStateDict_stateDict hg.inv.1] at h; cases h; exact ih
  | @drop g g' rate uniform rnd _ h ih =>
    unfold dropEdges at h
    split at h
    · obtain ⟨rfl, _⟩ := fromStateDict_ok h
      have hE := (dropFilter_sublist rate rnd 0 g.raw.eDict).map Prod.fst
      have hL := (dropFilter_sublist rate rnd g.raw.eDict.length g.raw.loops).map Prod.fst
      exact ⟨fun p hp => ih.E p (hE.subset hp), fun p hp => ih.L p (hL.subset hp)⟩
    · cases h

/-- a history from an obtainable object gives an obtainable object -/
theorem Built.run {g : GSt K} (hg : Built AnyArg g) (h : List (Step K)) : Built AnyArg (run g h) := by
  induction h generalizing g with
  | nil => exact hg
  | cons s h ih =>
    apply ih
    cases s with
    | op o => exact .op o hg fun _ _ _ => trivial
    | read q => exact .read q hg

end Graph
end DHG
