import Verif.OrderedSpec
import Verif.OrderedReads
import Verif.GraphAbs

/-!
# Invariants of `DiGraph` and `BiGraph` objects, refinement to the ordered edge map
-/

set_option linter.unusedSectionVars false
set_option autoImplicit false

namespace DHG
namespace Ord

variable {K : Type} [Field K] [LinearOrder K]

/-- representation invariant of the raw fields -/
structure Inv (c : Cls) (r : GRaw K) : Prop where
  pos : c = .di → 0 < r.numV
  numU : c = .di → r.numU = 0
  nodupE : r.eDict.keys.Nodup
  nodupL : r.loops.keys.Nodup
  ne : c = .di → ∀ p ∈ r.eDict.keys, p.1 ≠ p.2
  noL : c = .bi → r.loops = []
  ltE : ∀ p ∈ r.eDict.keys, p.1 < (rows c r : Int) ∧ p.2 < (r.numV : Int)
  ltL : ∀ v ∈ r.loops.keys, v < (r.numV : Int)

variable {c : Cls}

@[simp] theorem numV_addE (r : GRaw K) (f : K → K → K) (a b : Int) (w : K) :
    (addE c r f a b w).numV = r.numV := by
  cases c
  · exact Graph.numV_addEdge r f a b w
  · rfl
@[simp] theorem numU_addE (r : GRaw K) (f : K → K → K) (a b : Int) (w : K) :
    (addE c r f a b w).numU = r.numU := by
  cases c
  · show (GRaw.addEdge r f a b w).numU = _
    unfold GRaw.addEdge; split <;> rfl
  · rfl
@[simp] theorem extra_addE (r : GRaw K) (f : K → K → K) (a b : Int) (w : K) :
    (addE c r f a b w).extra = r.extra := by
  cases c
  · exact Graph.extra_addEdge r f a b w
  · rfl
@[simp] theorem numU_removeEdge (r : GRaw K) (a b : Int) :
    (r.removeEdge a b).numU = r.numU := by
  unfold GRaw.removeEdge; split <;> [rfl; (split <;> rfl)]

theorem rows_eq {r r' : GRaw K} (hv : r'.numV = r.numV) (hu : r'.numU = r.numU) :
    rows c r' = rows c r := by cases c <;> simp [rows, hv, hu]

theorem Inv.addE {r : GRaw K} (h : Inv c r) (f : K → K → K) {a b : Int} (w : K)
    (ha : a < rows c r) (hb : b < r.numV) : Inv c (addE c r f a b w) := by
  cases c with
  | di =>
    show Inv .di (GRaw.addEdge r f a b w)
    unfold GRaw.addEdge
    split
    · subst_vars
      exact { h with
        noL := fun hc => by cases hc
        nodupL := Graph.nodup_upsert _ _ _ _ h.nodupL
        ltL := by
          intro v hv
          rcases (Graph.keys_upsert _ _ _ _ _).1 hv with rfl | hv
          · exact hb
          · exact h.ltL v hv }
    · exact { h with
        nodupE := Graph.nodup_upsert _ _ _ _ h.nodupE
        ne := by
          intro _ v hv
          rcases (Graph.keys_upsert _ _ _ _ _).1 hv with rfl | hv
          · assumption
          · exact h.ne rfl v hv
        ltE := by
          intro v hv
          rcases (Graph.keys_upsert _ _ _ _ _).1 hv with rfl | hv
          · exact ⟨ha, hb⟩
          · exact h.ltE v hv }
  | bi =>
    exact { h with
      ne := fun hc => by cases hc
      nodupE := Graph.nodup_upsert _ _ _ _ h.nodupE
      ltE := by
        intro v hv
        rcases (Graph.keys_upsert _ _ _ _ _).1 hv with rfl | hv
        · exact ⟨ha, hb⟩
        · exact h.ltE v hv }

theorem Pos.addE {r : GRaw K} (h : Graph.Pos r) (f : K → K → K) {a b : Int} (w : K)
    (ha : 0 ≤ a) (hb : 0 ≤ b) : Graph.Pos (addE c r f a b w) := by
  cases c with
  | di => exact h.addEdge f w ha hb
  | bi =>
    exact { h with
      E := by
        intro v hv
        rcases (Graph.keys_upsert _ _ _ _ _).1 hv with rfl | hv
        · exact ⟨ha, hb⟩
        · exact h.E v hv }

theorem Inv.removeEdge {r : GRaw K} (h : Inv c r) (a b : Int) : Inv c (r.removeEdge a b) := by
  unfold GRaw.removeEdge
  split
  · rename_i hc
    exact { h with
      noL := fun hb => by
        have := h.noL hb
        rw [this] at hc; exact absurd hc.2 (by simp [Dict.has])
      ltE := by
        have := h.ltE
        rw [← rows_eq (c := c) (r := r) (r' := { r with loops := r.loops.del a }) rfl rfl] at this
        exact this
      nodupL := Dict.nodup_del _ _ h.nodupL
      ltL := fun v hv => h.ltL v ((Dict.keys_del_sublist _ _).subset hv) }
  · split
    · exact { h with
        nodupE := Dict.nodup_del _ _ h.nodupE
        ne := fun hc v hv => h.ne hc v ((Dict.keys_del_sublist _ _).subset hv)
        ltE := by
          have := h.ltE
          rw [← rows_eq (c := c) (r := r) (r' := { r with eDict := r.eDict.del (a, b) }) rfl rfl]
            at this
          exact fun v hv => this v ((Dict.keys_del_sublist _ _).subset hv) }
    · exact h

/-- edges after formatting and pairing -/
def addPairs (c : Cls) (r : GRaw K) (f : K → K → K) (l : List ((Int × Int) × K)) : GRaw K :=
  l.foldl (fun r ew => addE c r f ew.1.1 ew.1.2 ew.2) r

/-- edges after formatting -/
def removeList (r : GRaw K) (l : List (Int × Int)) : GRaw K :=
  l.foldl (fun r e => r.removeEdge e.1 e.2) r

theorem addEdge_ok {op : MergeOp} {f : K → K → K} (hop : mergeFn op = .ok f) (a b : Int) (w : K)
    (s : OSt K) : addEdge c op a b w s = (.ok (), { raw := addE c s.raw f a b w, cache := [] }) := by
  simp [addEdge, hop, setRaw, clearCache]

theorem removeEdge_ok (a b : Int) (s : OSt K) :
    DHG.removeEdge a b s = (.ok (), { raw := s.raw.removeEdge a b, cache := [] }) := by
  simp [DHG.removeEdge, setRaw, clearCache]

theorem forM_addEdge_ok {op : MergeOp} {f : K → K → K} (hop : mergeFn op = .ok f)
    (l : List ((Int × Int) × K)) (s : OSt K) :
    PyM.forM l (fun ew => addEdge c op ew.1.1 ew.1.2 ew.2) s =
      (.ok (), { raw := addPairs c s.raw f l, cache := if l = [] then s.cache else [] }) := by
  induction l generalizing s with
  | nil => rfl
  | cons e l ih =>
    rw [PyM.forM_cons, addEdge_ok hop]
    simp only
    rw [ih]
    simp [addPairs]

theorem forM_addEdge_err {op : MergeOp} {e : Err} (hop : mergeFn (K := K) op = .error e)
    (l : List ((Int × Int) × K)) (s : OSt K) :
    PyM.forM l (fun ew => addEdge c op ew.1.1 ew.1.2 ew.2) s =
      (if l = [] then .ok () else .error e, s) := by
  cases l with
  | nil => rfl
  | cons x l =>
    rw [PyM.forM_cons]
    simp [addEdge, hop]

theorem forM_removeEdge (l : List (Int × Int)) (s : OSt K) :
    PyM.forM l (fun e => DHG.removeEdge e.1 e.2) s =
      (.ok (), { raw := removeList s.raw l, cache := if l = [] then s.cache else [] }) := by
  induction l generalizing s with
  | nil => rfl
  | cons e l ih =>
    rw [PyM.forM_cons, removeEdge_ok]
    simp only
    rw [ih]
    simp [removeList]

/-- `add_edges`: the possible outcomes -/
theorem addEdges_cases (arg : EArg K) (op : MergeOp) (s : OSt K) :
    (arg.isEmpty = true ∧ addEdges c arg op s = (.ok (), s)) ∨
    (∃ e, arg.isEmpty = false ∧ addEdges c arg op s = (.error e, s)) ∨
    (∃ es ws, arg.isEmpty = false ∧ format c s.raw arg = .ok (es, ws) ∧
      (es.zip ws = [] ∧ addEdges c arg op s = (.ok (), { s with cache := [] }) ∨
       ∃ f, mergeFn op = .ok f ∧
         addEdges c arg op s = (.ok (), { raw := addPairs c s.raw f (es.zip ws), cache := [] }))) := by
  unfold addEdges
  cases he : arg.isEmpty with
  | true => left; exact ⟨rfl, rfl⟩
  | false =>
    right
    simp only [Bool.false_eq_true, if_false, PyM.bind_apply, readRaw, PyM.lift_apply, id]
    cases hf : format c s.raw arg with
    | error e => left; exact ⟨e, trivial, rfl⟩
    | ok p =>
      obtain ⟨es, ws⟩ := p
      simp only
      cases hop : mergeFn (K := K) op with
      | error e =>
        rw [forM_addEdge_err hop]
        by_cases hl : es.zip ws = []
        · right
          refine ⟨es, ws, trivial, rfl, Or.inl ⟨hl, ?_⟩⟩
          simp [hl, clearCache]
        · left; refine ⟨e, trivial, ?_⟩; simp [hl]
      | ok f =>
        right
        refine ⟨es, ws, trivial, rfl, Or.inr ⟨f, rfl, ?_⟩⟩
        rw [forM_addEdge_ok hop]
        simp [clearCache]

theorem removeEdges_cases (arg : EArg K) (s : OSt K) :
    (∃ e, removeEdges c arg s = (.error e, s)) ∨
    (∃ es ws, format c s.raw arg.noWeight = .ok (es, ws) ∧
      removeEdges c arg s = (.ok (), { raw := removeList s.raw es, cache := [] })) := by
  unfold removeEdges
  simp only [PyM.bind_apply, readRaw, PyM.lift_apply, id]
  cases hf : format c s.raw arg.noWeight with
  | error e => left; exact ⟨e, rfl⟩
  | ok p =>
    obtain ⟨es, ws⟩ := p
    right
    refine ⟨es, ws, rfl, ?_⟩
    simp only
    rw [forM_removeEdge]
    simp [clearCache]

theorem formatEdges_bi (n : Nat) (arg : EArg K) : formatEdges n arg = formatEdgesBi n n arg := by
  cases arg with
  | single a b w =>
    simp only [formatEdges, formatEdgesBi]
    by_cases h : max a b < (n : Int)
    · rw [if_pos h, if_pos (by omega)]
    · rw [if_neg h, if_neg (by omega)]
  | many es ws => cases es <;> rfl

theorem format_bi (r : GRaw K) (arg : EArg K) :
    format c r arg = formatEdgesBi (rows c r) r.numV arg := by
  cases c
  · exact formatEdges_bi _ _
  · rfl

theorem formatBi_lt {m n : Nat} {arg : EArg K} {es ws} (h : formatEdgesBi m n arg = .ok (es, ws)) :
    ∀ e ∈ es, e.1 < (m : Int) ∧ e.2 < (n : Int) := by
  unfold formatEdgesBi at h
  split at h
  · split at h
    · cases h; intro e he; simp at he; subst he; simp only [] at *; omega
    · cases h
  · cases h
  · rename_i p es' ws'
    split at h
    · rename_i hall
      cases ws' <;> cases h <;> exact hall
    · cases h

theorem formatBi_pos {m n : Nat} {arg : EArg K} {es ws} (h : formatEdgesBi m n arg = .ok (es, ws))
    (hp : Graph.NonNeg arg) : ∀ e ∈ es, 0 ≤ e.1 ∧ 0 ≤ e.2 := by
  unfold formatEdgesBi at h
  split at h
  · split at h
    · cases h; intro e he; simp at he; subst he; exact hp
    · cases h
  · cases h
  · rename_i p es' ws'
    split at h
    · cases ws' <;> cases h <;> exact hp
    · cases h

@[simp] theorem numV_addPairs (r : GRaw K) (f : K → K → K) (l : List ((Int × Int) × K)) :
    (addPairs c r f l).numV = r.numV := by
  induction l generalizing r with
  | nil => rfl
  | cons e l ih => exact (ih _).trans (by simp)
@[simp] theorem numU_addPairs (r : GRaw K) (f : K → K → K) (l : List ((Int × Int) × K)) :
    (addPairs c r f l).numU = r.numU := by
  induction l generalizing r with
  | nil => rfl
  | cons e l ih => exact (ih _).trans (by simp)
@[simp] theorem extra_addPairs (r : GRaw K) (f : K → K → K) (l : List ((Int × Int) × K)) :
    (addPairs c r f l).extra = r.extra := by
  induction l generalizing r with
  | nil => rfl
  | cons e l ih => exact (ih _).trans (by simp)
@[simp] theorem numV_removeList (r : GRaw K) (l : List (Int × Int)) :
    (removeList r l).numV = r.numV := by
  induction l generalizing r with
  | nil => rfl
  | cons e l ih => exact (ih _).trans (by simp)
@[simp] theorem numU_removeList (r : GRaw K) (l : List (Int × Int)) :
    (removeList r l).numU = r.numU := by
  induction l generalizing r with
  | nil => rfl
  | cons e l ih => exact (ih _).trans (by simp)
@[simp] theorem extra_removeList (r : GRaw K) (l : List (Int × Int)) :
    (removeList r l).extra = r.extra := by
  induction l generalizing r with
  | nil => rfl
  | cons e l ih => exact (ih _).trans (by simp)

theorem Inv.addPairs {r : GRaw K} (h : Inv c r) (f : K → K → K) (l : List ((Int × Int) × K))
    (hl : ∀ e ∈ l, e.1.1 < (rows c r : Int) ∧ e.1.2 < (r.numV : Int)) :
    Inv c (addPairs c r f l) := by
  induction l generalizing r with
  | nil => exact h
  | cons e l ih =>
    have he := hl e List.mem_cons_self
    refine ih (h.addE f _ he.1 he.2) ?_
    intro e' he'
    rw [rows_eq (numV_addE r f _ _ _) (numU_addE r f _ _ _), numV_addE]
    exact hl e' (List.mem_cons_of_mem _ he')

theorem Pos.addPairs {r : GRaw K} (h : Graph.Pos r) (f : K → K → K) (l : List ((Int × Int) × K))
    (hl : ∀ e ∈ l, 0 ≤ e.1.1 ∧ 0 ≤ e.1.2) : Graph.Pos (addPairs c r f l) := by
  induction l generalizing r with
  | nil => exact h
  | cons e l ih =>
    have he := hl e List.mem_cons_self
    exact ih (Pos.addE h f _ he.1 he.2) fun e' he' => hl e' (List.mem_cons_of_mem _ he')

theorem Inv.removeList {r : GRaw K} (h : Inv c r) (l : List (Int × Int)) :
    Inv c (removeList r l) := by
  induction l generalizing r with
  | nil => exact h
  | cons e l ih => exact ih (h.removeEdge _ _)

theorem Pos.removeList {r : GRaw K} (h : Graph.Pos r) (l : List (Int × Int)) :
    Graph.Pos (removeList r l) := by
  induction l generalizing r with
  | nil => exact h
  | cons e l ih => exact ih (h.removeEdge _ _)

theorem addEdges_inv (arg : EArg K) (op : MergeOp) {s : OSt K} (h : Inv c s.raw) :
    Inv c (addEdges c arg op s).2.raw := by
  rcases addEdges_cases (c := c) arg op s with ⟨_, h1⟩ | ⟨e, _, h1⟩ | ⟨es, ws, _, hf, h1⟩
  · rw [h1]; exact h
  · rw [h1]; exact h
  · rcases h1 with ⟨_, h1⟩ | ⟨f, _, h1⟩
    · rw [h1]; exact h
    · rw [h1]; rw [format_bi] at hf
      exact h.addPairs f _ fun e he => formatBi_lt hf _ (Graph.zip_fst_mem he)

theorem addEdges_pos (arg : EArg K) (op : MergeOp) {s : OSt K} (h : Graph.Pos s.raw)
    (hp : Graph.NonNeg arg) : Graph.Pos (addEdges c arg op s).2.raw := by
  rcases addEdges_cases (c := c) arg op s with ⟨_, h1⟩ | ⟨e, _, h1⟩ | ⟨es, ws, _, hf, h1⟩
  · rw [h1]; exact h
  · rw [h1]; exact h
  · rcases h1 with ⟨_, h1⟩ | ⟨f, _, h1⟩
    · rw [h1]; exact h
    · rw [h1]; rw [format_bi] at hf
      exact Pos.addPairs h f _ fun e he => formatBi_pos hf hp _ (Graph.zip_fst_mem he)

/-- the cache after `add_edges` is the old one or empty -/
theorem addEdges_cache (arg : EArg K) (op : MergeOp) (s : OSt K) :
    (addEdges c arg op s).2 = s ∨ (addEdges c arg op s).2.cache = [] := by
  rcases addEdges_cases (c := c) arg op s with ⟨_, h1⟩ | ⟨e, _, h1⟩ | ⟨es, ws, _, hf, h1⟩
  · rw [h1]; exact .inl rfl
  · rw [h1]; exact .inl rfl
  · rcases h1 with ⟨_, h1⟩ | ⟨f, _, h1⟩
    · rw [h1]; exact .inr rfl
    · rw [h1]; exact .inr rfl

theorem addEdges_clears (arg : EArg K) (op : MergeOp) (s : OSt K) (he : arg.isEmpty = false)
    (hok : (addEdges c arg op s).1 = .ok ()) : (addEdges c arg op s).2.cache = [] := by
  rcases addEdges_cases (c := c) arg op s with ⟨h0, h1⟩ | ⟨e, _, h1⟩ | ⟨es, ws, _, hf, h1⟩
  · rw [he] at h0; cases h0
  · rw [h1] at hok; cases hok
  · rcases h1 with ⟨_, h1⟩ | ⟨f, _, h1⟩
    · rw [h1]
    · rw [h1]

theorem removeEdges_inv (arg : EArg K) {s : OSt K} (h : Inv c s.raw) :
    Inv c (removeEdges c arg s).2.raw := by
  rcases removeEdges_cases (c := c) arg s with ⟨e, h1⟩ | ⟨es, ws, hf, h1⟩
  · rw [h1]; exact h
  · rw [h1]; exact h.removeList es

theorem removeEdges_pos (arg : EArg K) {s : OSt K} (h : Graph.Pos s.raw) :
    Graph.Pos (removeEdges c arg s).2.raw := by
  rcases removeEdges_cases (c := c) arg s with ⟨e, h1⟩ | ⟨es, ws, hf, h1⟩
  · rw [h1]; exact h
  · rw [h1]; exact Pos.removeList h es

theorem removeEdges_cache (arg : EArg K) (s : OSt K) :
    (removeEdges c arg s).2 = s ∨ (removeEdges c arg s).2.cache = [] := by
  rcases removeEdges_cases (c := c) arg s with ⟨e, h1⟩ | ⟨es, ws, hf, h1⟩
  · rw [h1]; exact .inl rfl
  · rw [h1]; exact .inr rfl

theorem removeEdges_clears (arg : EArg K) (s : OSt K)
    (hok : (removeEdges c arg s).1 = .ok ()) : (removeEdges c arg s).2.cache = [] := by
  rcases removeEdges_cases (c := c) arg s with ⟨e, h1⟩ | ⟨es, ws, hf, h1⟩
  · rw [h1] at hok; cases hok
  · rw [h1]

/-! ### abstraction -/

/-- abstraction of the raw fields -/
def absO (r : GRaw K) : Spec.WMap K := fun a b =>
  match r.eDict.get? (a, b) with
  | some w => some w
  | none => if a = b then r.loops.get? a else none

theorem Inv.get_diag {r : GRaw K} (h : Inv .di r) (a : Int) : Dict.get? r.eDict (a, a) = none := by
  rw [Dict.get?_eq_none_iff]
  intro hm; exact h.ne rfl _ hm rfl

theorem absO_addE {r : GRaw K} (hr : Inv c r) {op : MergeOp} {f : K → K → K}
    (hf : mergeFn op = .ok f) (a b : Int) (w : K) :
    absO (addE c r f a b w) = Spec.O.put (absO r) op a b w := by
  funext x y
  cases c with
  | di =>
    show absO (GRaw.addEdge r f a b w) x y = _
    unfold GRaw.addEdge absO Spec.O.put
    by_cases h : a = b
    · subst h
      simp only [if_true, hr.get_diag]
      by_cases hxy : x = a ∧ y = a
      · obtain ⟨hx, rfl⟩ := hxy
        subst hx
        simp only [hr.get_diag, if_true, and_self]
        rw [Graph.get?_upsert]
        simp only [if_true]
        cases r.loops.get? x <;> simp [Graph.mergeFn_eq hf]
      · simp only [hxy, if_false]
        by_cases h2 : x = y
        · subst h2
          have : x ≠ a := fun h => hxy ⟨h, h⟩
          simp only [if_true]
          rw [Graph.get?_upsert, if_neg this]
        · simp only [h2, if_false]
    · simp only [if_neg h]
      rw [Graph.get?_upsert]
      by_cases hxy : x = a ∧ y = b
      · obtain ⟨rfl, rfl⟩ := hxy
        simp only [if_true, and_self]
        cases hg : Dict.get? r.eDict (x, y) <;> simp [Graph.mergeFn_eq hf, h]
      · rw [if_neg hxy, if_neg (by simpa using hxy)]
  | bi =>
    show absO (GRaw.addEdgeBi r f a b w) x y = _
    unfold GRaw.addEdgeBi absO Spec.O.put
    simp only [hr.noL rfl]
    rw [Graph.get?_upsert]
    by_cases hxy : x = a ∧ y = b
    · obtain ⟨rfl, rfl⟩ := hxy
      simp only [if_true, and_self]
      cases hg : Dict.get? r.eDict (x, y) <;> simp [Graph.mergeFn_eq hf]
    · rw [if_neg hxy, if_neg (by simpa using hxy)]

theorem absO_removeEdge {r : GRaw K} (hr : Inv c r) (a b : Int) :
    absO (r.removeEdge a b) = Spec.O.erase (absO r) a b := by
  funext x y
  unfold GRaw.removeEdge absO Spec.O.erase
  by_cases hl : a = b ∧ r.loops.has a = true
  · rw [if_pos hl]
    obtain ⟨rfl, hl⟩ := hl
    have hc : c = .di := by
      cases c
      · rfl
      · rw [hr.noL rfl] at hl; simp [Dict.has] at hl
    subst hc
    by_cases hxy : x = a ∧ y = a
    · obtain ⟨rfl, rfl⟩ := hxy
      simp only [hr.get_diag, if_true, and_self]
      rw [Dict.get?_del _ _ _ hr.nodupL]
      simp
    · rw [if_neg hxy]
      by_cases h2 : x = y
      · subst h2
        have : ¬ a = x := fun h => hxy ⟨h.symm, h.symm⟩
        simp only [if_true]
        rw [Dict.get?_del _ _ _ hr.nodupL]
        simp [this, eq_comm]
      · simp only [h2, if_false]
  · rw [if_neg hl]
    have hloop : a = b → Dict.get? r.loops a = none := by
      intro h
      have : ¬ r.loops.has a = true := fun h' => hl ⟨h, h'⟩
      unfold Dict.has at this
      simpa using this
    by_cases he : r.eDict.has (a, b) = true
    · rw [if_pos he]
      simp only
      rw [Dict.get?_del _ _ _ hr.nodupE]
      by_cases hxy : x = a ∧ y = b
      · obtain ⟨rfl, rfl⟩ := hxy
        simp only [if_true, and_self]
        by_cases h2 : x = y
        · rw [if_pos h2, hloop h2]
        · simp [h2]
      · rw [if_neg hxy]
        have : ¬ ((x, y) = (a, b)) := by simpa using hxy
        simp [this, Ne.symm this]
    · rw [if_neg he]
      by_cases hxy : x = a ∧ y = b
      · obtain ⟨rfl, rfl⟩ := hxy
        have h0 : Dict.get? r.eDict (x, y) = none := by
          unfold Dict.has at he
          simpa using he
        simp only [h0, if_true, and_self]
        by_cases h2 : x = y
        · rw [if_pos h2]; exact hloop h2
        · rw [if_neg h2]
      · rw [if_neg hxy]

theorem absO_addPairs {r : GRaw K} (hr : Inv c r) {op : MergeOp} {f : K → K → K}
    (hf : mergeFn op = .ok f) (l : List ((Int × Int) × K))
    (hl : ∀ e ∈ l, e.1.1 < (rows c r : Int) ∧ e.1.2 < (r.numV : Int)) :
    absO (addPairs c r f l) = l.foldl (fun m e => Spec.O.put m op e.1.1 e.1.2 e.2) (absO r) := by
  induction l generalizing r with
  | nil => rfl
  | cons e l ih =>
    show absO (addPairs c (addE c r f e.1.1 e.1.2 e.2) f l) = _
    have he := hl e List.mem_cons_self
    rw [ih (hr.addE f _ he.1 he.2), absO_addE hr hf]
    · rfl
    · intro e' he'
      rw [rows_eq (numV_addE r f _ _ _) (numU_addE r f _ _ _), numV_addE]
      exact hl e' (List.mem_cons_of_mem _ he')

theorem absO_removeList {r : GRaw K} (hr : Inv c r) (l : List (Int × Int)) :
    absO (removeList r l) = l.foldl (fun m e => Spec.O.erase m e.1 e.2) (absO r) := by
  induction l generalizing r with
  | nil => rfl
  | cons e l ih =>
    show absO (removeList (r.removeEdge e.1 e.2) l) = _
    rw [ih (hr.removeEdge _ _), absO_removeEdge hr]; rfl

theorem formatBi_spec (m n : Nat) (arg : EArg K) :
    (∀ es ws, formatEdgesBi m n arg = .ok (es, ws) →
      Spec.O.InB m n arg ∧ es = Spec.named arg ∧
      Spec.weighted arg = some ((es.zip ws).map fun e => (e.1.1, e.1.2, e.2))) ∧
    (∀ e, formatEdgesBi m n arg = .error e → arg.isEmpty = true ∨
      ¬ Spec.O.InB m n arg ∨ Spec.weighted arg = none) := by
  unfold Spec.O.InB
  cases arg with
  | single a b w =>
    simp only [formatEdgesBi, Spec.named, Spec.weighted]
    constructor
    · intro es ws h
      split at h
      · cases h
        refine ⟨?_, rfl, rfl⟩
        intro e he; simp at he; subst he; simp only []; omega
      · cases h
    · intro e h
      split at h
      · cases h
      · right; left
        intro hc
        have := hc _ (List.mem_singleton.2 rfl)
        simp only at this
        omega
  | many es ws =>
    cases es with
    | nil =>
      simp only [formatEdgesBi]
      constructor
      · intro _ _ h; cases h
      · intro e _; left; rfl
    | cons p es =>
      simp only [formatEdgesBi, Spec.named]
      by_cases hall : ∀ q ∈ p :: es, q.1 < (m : Int) ∧ q.2 < (n : Int)
      · simp only [if_pos hall]
        cases ws with
        | none =>
          constructor
          · intro es' ws' h; cases h
            refine ⟨hall, rfl, ?_⟩
            simp only [Spec.weighted]
            congr 1
            generalize p :: es = l
            clear hall
            induction l with
            | nil => rfl
            | cons x l ih => simp [List.replicate_succ, ih]
          · intro e h; cases h
        | scalar w =>
          constructor
          · intro es' ws' h; cases h
          · intro e h; right; right; rfl
        | list ws =>
          constructor
          · intro es' ws' h; cases h; exact ⟨hall, rfl, rfl⟩
          · intro e h; cases h
      · simp only [if_neg hall]
        constructor
        · intro es' ws' h; cases h
        · intro e h; right; left; exact hall

theorem spec_add_empty {arg : EArg K} (h : arg.isEmpty = true) (m n : Nat) (f : Spec.WMap K)
    (op : MergeOp) : Spec.O.add m n f arg op = f := by
  cases arg with
  | single => cases h
  | many es ws =>
    have : es = [] := by simpa [EArg.isEmpty] using h
    subst this
    unfold Spec.O.add
    split
    · cases ws <;> simp [Spec.weighted]
    · rfl

theorem addEdges_sizes (arg : EArg K) (op : MergeOp) (s : OSt K) :
    (addEdges c arg op s).2.raw.numV = s.raw.numV ∧
    (addEdges c arg op s).2.raw.numU = s.raw.numU ∧
    (addEdges c arg op s).2.raw.extra = s.raw.extra := by
  rcases addEdges_cases (c := c) arg op s with ⟨_, h1⟩ | ⟨e, _, h1⟩ | ⟨es, ws, _, hf, h1⟩
  · rw [h1]; exact ⟨rfl, rfl, rfl⟩
  · rw [h1]; exact ⟨rfl, rfl, rfl⟩
  · rcases h1 with ⟨_, h1⟩ | ⟨f, _, h1⟩
    · rw [h1]; exact ⟨rfl, rfl, rfl⟩
    · rw [h1]; exact ⟨by simp, by simp, by simp⟩

theorem removeEdges_sizes (arg : EArg K) (s : OSt K) :
    (removeEdges c arg s).2.raw.numV = s.raw.numV ∧
    (removeEdges c arg s).2.raw.numU = s.raw.numU ∧
    (removeEdges c arg s).2.raw.extra = s.raw.extra := by
  rcases removeEdges_cases (c := c) arg s with ⟨e, h1⟩ | ⟨es, ws, hf, h1⟩
  · rw [h1]; exact ⟨rfl, rfl, rfl⟩
  · rw [h1]; exact ⟨by simp, by simp, by simp⟩

/-- `add_edges` refines the abstract `add` -/
theorem absO_addEdges (arg : EArg K) (op : MergeOp) (s : OSt K) (hs : Inv c s.raw) :
    absO (addEdges c arg op s).2.raw =
      Spec.O.add (rows c s.raw) s.raw.numV (absO s.raw) arg op := by
  have key : ∀ e, addEdges c arg op s = (.error e, s) → arg.isEmpty = false →
      Spec.O.add (rows c s.raw) s.raw.numV (absO s.raw) arg op = absO s.raw := by
    intro e h hemp
    unfold addEdges at h
    rw [hemp] at h
    simp only [Bool.false_eq_true, if_false, PyM.bind_apply, readRaw, PyM.lift_apply, id] at h
    unfold Spec.O.add
    cases hf : format c s.raw arg with
    | error e' =>
      rw [format_bi] at hf
      rcases (formatBi_spec _ _ arg).2 e' hf with h' | h' | h'
      · rw [hemp] at h'; cases h'
      · rw [if_neg fun hc => h' hc.1]
      · split
        · rw [h']
        · rfl
    | ok p =>
      rw [hf] at h
      simp only at h
      by_cases hop : op = .other
      · rw [if_neg fun hc => hc.2 hop]
      · obtain ⟨f, hf'⟩ := (Graph.mergeFn_ok_iff (K := K) op).2 hop
        rw [forM_addEdge_ok hf'] at h
        simp [clearCache] at h
  rcases addEdges_cases (c := c) arg op s with ⟨h0, h1⟩ | ⟨e, hemp, h1⟩ | ⟨es, ws, hemp, hf, h1⟩
  · rw [h1, spec_add_empty h0]
  · rw [key e h1 hemp, h1]
  · rw [format_bi] at hf
    obtain ⟨hall, hes, hw⟩ := (formatBi_spec _ _ arg).1 es ws hf
    rcases h1 with ⟨hz, h1⟩ | ⟨f, hop, h1⟩
    · rw [h1]
      unfold Spec.O.add
      split
      · rw [hw, hz]; rfl
      · rfl
    · rw [h1]
      have hop' : op ≠ .other := (Graph.mergeFn_ok_iff (K := K) op).1 ⟨f, hop⟩
      unfold Spec.O.add
      rw [if_pos ⟨hall, hop'⟩, hw]
      simp only
      rw [List.foldl_map, absO_addPairs hs hop]
      intro e he
      exact formatBi_lt hf _ (Graph.zip_fst_mem he)

/-- `remove_edges` refines the abstract `remove` -/
theorem absO_removeEdges (arg : EArg K) (s : OSt K) (hs : Inv c s.raw) :
    absO (removeEdges c arg s).2.raw =
      Spec.O.remove (rows c s.raw) s.raw.numV (absO s.raw) arg := by
  have hn : Spec.named arg.noWeight = Spec.named arg := by cases arg <;> rfl
  have hB : Spec.O.InB (rows c s.raw) s.raw.numV arg.noWeight ↔
      Spec.O.InB (rows c s.raw) s.raw.numV arg := by unfold Spec.O.InB; rw [hn]
  have he : arg.noWeight.isEmpty = arg.isEmpty := by cases arg <;> rfl
  have hw : Spec.weighted arg.noWeight ≠ none := by
    cases arg <;> simp [EArg.noWeight, Spec.weighted]
  cases hf : format c s.raw arg.noWeight with
  | error e =>
    have h1 : removeEdges c arg s = (.error e, s) := by
      unfold removeEdges
      simp only [PyM.bind_apply, readRaw, PyM.lift_apply, id, hf]
    rw [h1]
    rw [format_bi] at hf
    rcases (formatBi_spec _ _ arg.noWeight).2 e hf with h' | h' | h'
    · rw [he] at h'
      cases arg with
      | single => cases h'
      | many es ws =>
        have : es = [] := by simpa [EArg.isEmpty] using h'
        subst this
        simp [Spec.O.remove, Spec.named]
    · rw [hB] at h'
      unfold Spec.O.remove
      rw [if_neg h']
    · exact absurd h' hw
  | ok p =>
    obtain ⟨es, ws⟩ := p
    have hf0 := hf
    rw [format_bi] at hf
    obtain ⟨hall, hes, _⟩ := (formatBi_spec _ _ arg.noWeight).1 es ws hf
    rcases removeEdges_cases (c := c) arg s with ⟨e, h1⟩ | ⟨es', ws', hf', h1⟩
    · exfalso
      unfold removeEdges at h1
      simp only [PyM.bind_apply, readRaw, PyM.lift_apply, id, hf0, forM_removeEdge] at h1
      simp [clearCache] at h1
    · rw [hf0] at hf'
      cases hf'
      rw [h1]
      rw [hB] at hall
      rw [hn] at hes
      unfold Spec.O.remove
      rw [if_pos hall, ← hes]
      exact absO_removeList hs _

/-- abstract state of an object -/
def absS (s : OSt K) : Spec.GState K := { map := absO s.raw, extra := s.raw.extra }

theorem mem_listing {r : GRaw K} (hr : Inv c r) (a b : Int) (w : K) :
    ((a, b), w) ∈ r.edgeList.zip r.edgeWts ↔
      (absO r a b = some w ∨ (r.extra = true ∧ a = b ∧ 0 ≤ a ∧ a < r.numV ∧ w = 1)) := by
  have hE : ((a, b), w) ∈ r.eDict ↔ r.eDict.get? (a, b) = some w :=
    (Dict.get?_eq_some_iff r.eDict hr.nodupE (a, b) w).symm
  have hEx : ((a, b), w) ∈ (if r.extra then (List.range r.numV).map
      fun v : Nat => (((v : Int), (v : Int)), (1 : K)) else []) ↔
      r.extra = true ∧ a = b ∧ 0 ≤ a ∧ a < r.numV ∧ w = 1 := by
    split
    · rename_i hx
      simp only [List.mem_map, List.mem_range, Prod.mk.injEq]
      constructor
      · rintro ⟨v, hv, ⟨rfl, rfl⟩, rfl⟩
        exact ⟨hx, rfl, by omega, by omega, rfl⟩
      · rintro ⟨_, rfl, h0, h1, rfl⟩
        exact ⟨a.toNat, by omega, ⟨by omega, by omega⟩, rfl⟩
    · rename_i hx
      simp [hx]
  have hL : ((a, b), w) ∈ r.loops.map (fun p => ((p.1, p.1), p.2)) ↔
      a = b ∧ r.loops.get? a = some w := by
    rw [Dict.get?_eq_some_iff r.loops hr.nodupL a w]
    simp only [List.mem_map, Prod.mk.injEq]
    constructor
    · rintro ⟨⟨p, v⟩, hp, ⟨rfl, rfl⟩, rfl⟩; exact ⟨rfl, hp⟩
    · rintro ⟨rfl, hp⟩; exact ⟨(a, w), hp, ⟨rfl, rfl⟩, rfl⟩
  rw [Graph.zip_listing]
  simp only [List.mem_append, hE, hEx, hL]
  have : (Dict.get? r.eDict (a, b) = some w ∨ a = b ∧ Dict.get? r.loops a = some w) ↔
      absO r a b = some w := by
    unfold absO
    cases hg : Dict.get? r.eDict (a, b) with
    | none =>
      by_cases h : a = b
      · simp [h]
      · simp [h]
    | some v =>
      simp only [Option.some.injEq]
      constructor
      · rintro (h | ⟨rfl, h⟩)
        · exact h
        · exfalso
          cases c with
          | di => rw [hr.get_diag] at hg; cases hg
          | bi => rw [hr.noL rfl] at h; simp at h
      · exact Or.inl
  rw [this]

/-! ### swapping the components of the stored pairs -/

/-- `{(b, a): w for (a, b), w in d.items()}` as a list -/
def swapE (d : Dict (Int × Int) K) : Dict (Int × Int) K := d.map fun p => ((p.1.2, p.1.1), p.2)

theorem ofPairs_append {κ ν : Type} [DecidableEq κ] (d : Dict κ ν) (l : List (κ × ν))
    (h : (d.keys ++ l.map Prod.fst).Nodup) :
    l.foldl (fun d p => d.set p.1 p.2) d = d ++ l := by
  induction l generalizing d with
  | nil => simp
  | cons p l ih =>
    have hp : p.1 ∉ d.keys := by
      intro hm
      rw [List.nodup_append] at h
      exact h.2.2 _ hm _ (by simp) rfl
    have hset : d.set p.1 p.2 = d ++ [p] := Dict.set_of_notMem d p.1 p.2 hp
    rw [List.foldl_cons, hset, ih]
    · simp
    · simpa [Dict.keys] using h

theorem ofPairs_nodup {κ ν : Type} [DecidableEq κ] (l : List (κ × ν)) (h : (l.map Prod.fst).Nodup) :
    Dict.ofPairs l = l := by
  unfold Dict.ofPairs
  rw [ofPairs_append [] l (by simpa [Dict.keys] using h)]
  rfl

theorem keys_swapE (d : Dict (Int × Int) K) : (swapE d).keys = d.keys.map Prod.swap := by
  simp [swapE, Dict.keys, Prod.swap, Function.comp_def]

theorem nodup_swapE {d : Dict (Int × Int) K} (h : d.keys.Nodup) : (swapE d).keys.Nodup := by
  rw [keys_swapE]
  exact h.map Prod.swap_injective

theorem ofPairs_swapE {d : Dict (Int × Int) K} (h : d.keys.Nodup) :
    Dict.ofPairs (d.map fun p => ((p.1.2, p.1.1), p.2)) = swapE d :=
  ofPairs_nodup _ (nodup_swapE h)

theorem mem_keys_swapE (d : Dict (Int × Int) K) (p : Int × Int) :
    p ∈ (swapE d).keys ↔ p.swap ∈ d.keys := by
  rw [keys_swapE]
  simp only [List.mem_map]
  constructor
  · rintro ⟨q, hq, rfl⟩; simpa using hq
  · intro h; exact ⟨p.swap, h, by simp⟩

theorem get?_swapE (d : Dict (Int × Int) K) (a b : Int) :
    Dict.get? (swapE d) (a, b) = Dict.get? d (b, a) := by
  induction d with
  | nil => rfl
  | cons p d ih =>
    show Dict.get? (((p.1.2, p.1.1), p.2) :: swapE d) (a, b) = _
    rw [Dict.get?, Dict.get?, ih]
    obtain ⟨⟨x, y⟩, w⟩ := p
    simp only [Prod.mk.injEq]
    by_cases h : y = a ∧ x = b
    · rw [if_pos h, if_pos ⟨h.2, h.1⟩]
    · rw [if_neg h, if_neg fun h' => h ⟨h'.2, h'.1⟩]

theorem swapE_swapE (d : Dict (Int × Int) K) : swapE (swapE d) = d := by
  simp [swapE, Function.comp_def]

/-! ### reads never change the raw fields, whatever the cache holds -/

/-- `m` leaves the raw fields alone -/
def Keeps {α : Type} (m : PyM (OSt K) α) : Prop := ∀ s, (m s).2.raw = s.raw

section
variable {α β : Type}

theorem Keeps.pure (a : α) : Keeps (K := K) (pure a) := fun _ => rfl
theorem Keeps.raise (e : Err) : Keeps (K := K) (PyM.raise e : PyM _ α) := fun _ => rfl
theorem Keeps.lift (x : Except Err α) : Keeps (K := K) (PyM.lift x) := fun _ => rfl
theorem Keeps.readRaw (g : GRaw K → α) : Keeps (readRaw g) := fun _ => rfl
theorem Keeps.bind {m : PyM (OSt K) α} {g : α → PyM (OSt K) β} (hm : Keeps m)
    (hg : ∀ a, Keeps (g a)) : Keeps (m >>= g) := by
  intro s
  simp only [PyM.bind_apply]
  have := hm s
  rcases hms : m s with ⟨_ | a, s'⟩
  · rw [hms] at this; exact this
  · rw [hms] at this; simp only; rw [hg a s']; exact this
theorem Keeps.map {m : PyM (OSt K) α} (hm : Keeps m) (f : α → β) :
    Keeps (m >>= fun x => Pure.pure (f x)) := hm.bind fun _ => Keeps.pure _
theorem Keeps.ite {p : Prop} [Decidable p] {m n : PyM (OSt K) α} (hm : Keeps m) (hn : Keeps n) :
    Keeps (if p then m else n) := by split <;> assumption
theorem Keeps.memo {k : OKey} {m : PyM (OSt K) (GVal K)} (hm : Keeps m) : Keeps (memo k m) := by
  intro s
  unfold DHG.memo
  split
  · rfl
  · have := hm s
    split <;> rename_i h <;> rw [h] at this <;> exact this
theorem Keeps.assert (b : Bool) : Keeps (K := K) (PyM.assert b) := by
  unfold PyM.assert; cases b <;> exact fun _ => rfl
end

theorem keeps_asMat (v : GVal K) : Keeps (asMat v) := by cases v <;> exact fun _ => rfl
theorem keeps_asEdges (v : GVal K) : Keeps (asEdges v) := by cases v <;> exact fun _ => rfl

theorem keeps_getE : Keeps (K := K) getE := (Keeps.readRaw _).memo.bind keeps_asEdges
theorem keeps_getM : Keeps (K := K) (getM c) := by
  refine (Keeps.memo ?_).bind keeps_asMat
  exact (Keeps.readRaw _).bind fun _ => (Keeps.readRaw _).bind fun _ => (Keeps.readRaw _).bind
    fun _ => Keeps.ite (Keeps.pure _) (keeps_getE.bind fun _ => (Keeps.lift _).map _)
theorem keeps_getMT : Keeps (K := K) (getMT c) := (keeps_getM.map _).memo.bind keeps_asMat
theorem keeps_getDr : Keeps (K := K) (getDr c) := (keeps_getM.map _).memo.bind keeps_asMat
theorem keeps_getDc : Keeps (K := K) (getDc c) := (keeps_getMT.map _).memo.bind keeps_asMat
theorem keeps_getDrN1 : Keeps (K := K) (getDrN1 c) := (keeps_getDr.map _).memo.bind keeps_asMat
theorem keeps_getDcN1 : Keeps (K := K) (getDcN1 c) := (keeps_getDc.map _).memo.bind keeps_asMat

section
variable [PyReal K]

theorem keeps_drop (M : Sp K) (p : K) (keep : Nat → Bool) :
    Keeps (K := K) (Graph.dropMaybe M p keep) := Keeps.ite (Keeps.lift _) (Keeps.pure _)

theorem keeps_pass {getP getD : PyM (OSt K) (Sp K)} (hP : Keeps getP) (hD : Keeps getD)
    (X : Dense K) (aggr : Aggr) (p : K) (keep : Nat → Bool) :
    Keeps (passDefault getP getD X aggr p keep) := by
  refine hP.bind fun _ => (keeps_drop _ _ _).bind fun _ => ?_
  cases aggr
  · exact (Keeps.lift _).bind fun _ => hD.bind fun _ => Keeps.lift _
  · exact Keeps.lift _
  · exact Keeps.lift _
  · exact Keeps.pure _

theorem keeps_passW (tr : Bool) (w : List K) (X : Dense K) (aggr : Aggr) (p : K)
    (keep : Nat → Bool) : Keeps (passWeighted c tr w X aggr p keep) := by
  refine (keeps_getM.map _).bind fun _ => (Keeps.assert _).bind fun _ => keeps_getM.bind fun _ =>
    (Keeps.lift _).bind fun _ => (keeps_drop _ _ _).bind fun _ => ?_
  cases aggr
  · exact (Keeps.lift _).map _
  · exact Keeps.lift _
  · exact Keeps.lift _
  · exact Keeps.pure _

theorem keeps_toRows (X : Dense K) (aggr : Aggr) (ew : Option (List K)) (p : K)
    (keep : Nat → Bool) : Keeps (toRows c X aggr ew p keep) := by
  cases ew
  · exact keeps_pass keeps_getM keeps_getDrN1 _ _ _ _
  · exact keeps_passW _ _ _ _ _ _

theorem keeps_toCols (X : Dense K) (aggr : Aggr) (ew : Option (List K)) (p : K)
    (keep : Nat → Bool) : Keeps (toCols c X aggr ew p keep) := by
  cases ew
  · exact keeps_pass keeps_getMT keeps_getDcN1 _ _ _ _
  · exact keeps_passW _ _ _ _ _ _

end

end Ord
end DHG
