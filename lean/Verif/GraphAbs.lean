import Verif.GraphLemmas
import Verif.GraphSpec

/-!
# Refinement of `Graph` objects to the abstract edge map
-/

set_option linter.unusedSectionVars false
set_option autoImplicit false

namespace DHG
namespace Graph

variable {K : Type} [Field K] [LinearOrder K]

/-- abstraction of the raw fields -/
def absR (r : GRaw K) : Spec.WMap K := fun a b =>
  if a = b then r.loops.get? a else r.eDict.get? (sortPair (a, b))

theorem sortPair_eq_iff {a b x y : Int} (hab : a < b) (hxy : x ≠ y) :
    sortPair (x, y) = (a, b) ↔ (x = a ∧ y = b) ∨ (x = b ∧ y = a) := by
  unfold sortPair
  split <;> simp only [Prod.mk.injEq] at * <;> omega

theorem absR_symm (r : GRaw K) (a b : Int) : absR r a b = absR r b a := by
  unfold absR
  by_cases h : a = b
  · subst h; rfl
  · rw [if_neg h, if_neg (Ne.symm h)]
    congr 1
    unfold sortPair
    simp only
    split <;> split <;> simp only [Prod.mk.injEq] <;> omega

theorem put_symm (m : Spec.WMap K) (hm : ∀ a b, m a b = m b a) (op : MergeOp) (a b : Int) (w : K) :
    Spec.put m op a b w = Spec.put m op b a w := by
  funext x y
  unfold Spec.put
  rw [hm b a]
  by_cases h : (x = a ∧ y = b) ∨ (x = b ∧ y = a)
  · rw [if_pos h, if_pos h.symm]
  · rw [if_neg h, if_neg fun h' => h h'.symm]

theorem erase_symm (m : Spec.WMap K) (a b : Int) : Spec.erase m a b = Spec.erase m b a := by
  funext x y
  unfold Spec.erase
  by_cases h : (x = a ∧ y = b) ∨ (x = b ∧ y = a)
  · rw [if_pos h, if_pos h.symm]
  · rw [if_neg h, if_neg fun h' => h h'.symm]

theorem mergeFn_eq {op : MergeOp} {f : K → K → K} (h : mergeFn op = .ok f) (x y : K) :
    f x y = Spec.merge op x y := by
  cases op <;> cases h <;> simp only [Spec.merge]
  exact max_def x y

theorem mergeFn_ok_iff (op : MergeOp) : (∃ f, mergeFn (K := K) op = .ok f) ↔ op ≠ .other := by
  cases op <;> simp [mergeFn]

theorem absR_addEdge (r : GRaw K) {op : MergeOp} {f : K → K → K} (hf : mergeFn op = .ok f)
    {a b : Int} (hab : a ≤ b) (w : K) :
    absR (r.addEdge f a b w) = Spec.put (absR r) op a b w := by
  funext x y
  unfold GRaw.addEdge absR Spec.put
  by_cases h : a = b
  · subst h
    simp only [if_true, or_self]
    by_cases hxy : x = y
    · subst hxy
      simp only [if_true, and_self]
      rw [get?_upsert]
      by_cases hxa : x = a
      · subst hxa
        simp only [if_true]
        cases r.loops.get? x <;> simp [mergeFn_eq hf]
      · simp [hxa]
    · have : ¬ (x = a ∧ y = a) := by omega
      simp [hxy, this]
  · simp only [if_neg h]
    by_cases hxy : x = y
    · subst hxy
      have : ¬ ((x = a ∧ x = b) ∨ (x = b ∧ x = a)) := by omega
      simp [this]
    · simp only [hxy, if_false]
      rw [get?_upsert]
      have hs := sortPair_eq_iff (a := a) (b := b) (by omega) hxy
      have hs' : sortPair (a, b) = (a, b) := by unfold sortPair; simp [hab]
      by_cases hc : (x = a ∧ y = b) ∨ (x = b ∧ y = a)
      · rw [if_pos (hs.2 hc), if_pos hc, hs']
        cases r.eDict.get? (a, b) <;> simp [mergeFn_eq hf]
      · rw [if_neg fun h => hc (hs.1 h), if_neg hc]

theorem absR_removeEdge (r : GRaw K) (hr : Inv r) {a b : Int} (hab : a ≤ b) :
    absR (r.removeEdge a b) = Spec.erase (absR r) a b := by
  funext x y
  unfold GRaw.removeEdge absR Spec.erase
  by_cases h : a = b
  · subst h
    have hno : r.eDict.has (a, a) = false := by
      rw [Bool.eq_false_iff]
      intro hh
      have := hr.lt _ ((Dict.has_iff _ _).1 hh)
      simp at this
    simp only [true_and, or_self, hno]
    by_cases hl : r.loops.has a = true
    · simp only [hl, if_true]
      by_cases hxy : x = y
      · subst hxy
        simp only [if_true, and_self]
        rw [Dict.get?_del _ _ _ hr.nodupL]
        simp only [eq_comm]
      · have : ¬ (x = a ∧ y = a) := by omega
        simp [hxy, this]
    · simp only [hl, if_false]
      by_cases hxy : x = y
      · subst hxy
        simp only [if_true, and_self]
        by_cases hxa : x = a
        · subst hxa
          simp only [if_true]
          unfold Dict.has at hl
          simpa using hl
        · simp [hxa]
      · have : ¬ (x = a ∧ y = a) := by omega
        simp [hxy, this]
  · simp only [h, false_and, if_false]
    by_cases hxy : x = y
    · subst hxy
      have : ¬ ((x = a ∧ x = b) ∨ (x = b ∧ x = a)) := by omega
      simp only [if_true, this, if_false]
      split <;> rfl
    · simp only [hxy, if_false]
      have hs := sortPair_eq_iff (a := a) (b := b) (by omega) hxy
      by_cases he : r.eDict.has (a, b) = true
      · simp only [he, if_true, hxy, if_false]
        rw [Dict.get?_del _ _ _ hr.nodupE]
        by_cases hc : (x = a ∧ y = b) ∨ (x = b ∧ y = a)
        · rw [if_pos hc, hs.2 hc]; simp
        · rw [if_neg hc]
          have : sortPair (x, y) ≠ (a, b) := fun h => hc (hs.1 h)
          simp [this, Ne.symm this]
      · simp only [he, if_false, hxy]
        by_cases hc : (x = a ∧ y = b) ∨ (x = b ∧ y = a)
        · rw [if_pos hc]
          rw [hs.2 hc]
          unfold Dict.has at he
          simpa using he
        · rw [if_neg hc]; simp [hxy]

theorem absR_sorted_add (r : GRaw K) {op : MergeOp} {f : K → K → K} (hf : mergeFn op = .ok f)
    (e : Int × Int) (w : K) :
    absR (r.addEdge f (sortPair e).1 (sortPair e).2 w) = Spec.put (absR r) op e.1 e.2 w := by
  rw [absR_addEdge r hf (sortPair_le e)]
  unfold sortPair
  split
  · rfl
  · exact put_symm _ (absR_symm r) _ _ _ _

theorem absR_sorted_remove (r : GRaw K) (hr : Inv r) (e : Int × Int) :
    absR (r.removeEdge (sortPair e).1 (sortPair e).2) = Spec.erase (absR r) e.1 e.2 := by
  rw [absR_removeEdge r hr (sortPair_le e)]
  unfold sortPair
  split
  · rfl
  · exact erase_symm _ _ _

theorem absR_addPairs (r : GRaw K) {op : MergeOp} {f : K → K → K} (hf : mergeFn op = .ok f)
    (l : List ((Int × Int) × K)) :
    absR (addPairs r f l) = l.foldl (fun m e => Spec.put m op e.1.1 e.1.2 e.2) (absR r) := by
  induction l generalizing r with
  | nil => rfl
  | cons e l ih =>
    show absR (addPairs (r.addEdge f (sortPair e.1).1 (sortPair e.1).2 e.2) f l) = _
    rw [ih, absR_sorted_add r hf]; rfl

theorem absR_removeList (r : GRaw K) (hr : Inv r) (l : List (Int × Int)) :
    absR (removeList r l) = l.foldl (fun m e => Spec.erase m e.1 e.2) (absR r) := by
  induction l generalizing r with
  | nil => rfl
  | cons e l ih =>
    show absR (removeList (r.removeEdge (sortPair e).1 (sortPair e).2) l) = _
    rw [ih _ (hr.removeEdge _ _), absR_sorted_remove r hr]; rfl

@[simp] theorem numV_addPairs (r : GRaw K) (f : K → K → K) (l : List ((Int × Int) × K)) :
    (addPairs r f l).numV = r.numV := by
  induction l generalizing r with
  | nil => rfl
  | cons e l ih => exact (ih _).trans (by simp)
@[simp] theorem extra_addPairs (r : GRaw K) (f : K → K → K) (l : List ((Int × Int) × K)) :
    (addPairs r f l).extra = r.extra := by
  induction l generalizing r with
  | nil => rfl
  | cons e l ih => exact (ih _).trans (by simp)
@[simp] theorem numV_removeList (r : GRaw K) (l : List (Int × Int)) :
    (removeList r l).numV = r.numV := by
  induction l generalizing r with
  | nil => rfl
  | cons e l ih => exact (ih _).trans (by simp)
@[simp] theorem extra_removeList (r : GRaw K) (l : List (Int × Int)) :
    (removeList r l).extra = r.extra := by
  induction l generalizing r with
  | nil => rfl
  | cons e l ih => exact (ih _).trans (by simp)

theorem formatEdges_spec (n : Nat) (arg : EArg K) :
    (∀ es ws, formatEdges n arg = .ok (es, ws) →
      (∀ e ∈ Spec.named arg, e.1 < (n : Int) ∧ e.2 < (n : Int)) ∧ es = Spec.named arg ∧
      Spec.weighted arg = some ((es.zip ws).map fun e => (e.1.1, e.1.2, e.2))) ∧
    (∀ e, formatEdges n arg = .error e → arg.isEmpty = true ∨
      ¬ (∀ e ∈ Spec.named arg, e.1 < (n : Int) ∧ e.2 < (n : Int)) ∨ Spec.weighted arg = none) := by
  cases arg with
  | single a b w =>
    simp only [formatEdges, Spec.named, Spec.weighted]
    constructor
    · intro es ws h
      split at h
      · cases h
        refine ⟨?_, rfl, rfl⟩
        intro e he; simp at he; subst he; simp only []; omega
      · cases h
    · intro e h
      split at h
      · cases h
      · right; left
        intro hc
        have := hc _ (List.mem_singleton.2 rfl)
        simp only at this
        omega
  | many es ws =>
    cases es with
    | nil =>
      simp only [formatEdges]
      constructor
      · intro _ _ h; cases h
      · intro e _; left; rfl
    | cons p es =>
      simp only [formatEdges, Spec.named]
      by_cases hall : ∀ q ∈ p :: es, q.1 < (n : Int) ∧ q.2 < (n : Int)
      · simp only [if_pos hall]
        cases ws with
        | none =>
          constructor
          · intro es' ws' h; cases h
            refine ⟨hall, rfl, ?_⟩
            simp only [Spec.weighted]
            congr 1
            generalize p :: es = l
            clear hall
            induction l with
            | nil => rfl
            | cons x l ih => simp [List.replicate_succ, ih]
          · intro e h; cases h
        | scalar w =>
          constructor
          · intro es' ws' h; cases h
          · intro e h; right; right; rfl
        | list ws =>
          constructor
          · intro es' ws' h; cases h; exact ⟨hall, rfl, rfl⟩
          · intro e h; cases h
      · simp only [if_neg hall]
        constructor
        · intro es' ws' h; cases h
        · intro e h; right; left; exact hall

theorem spec_add_empty {arg : EArg K} (h : arg.isEmpty = true) (n : Nat) (m : Spec.WMap K)
    (op : MergeOp) : Spec.add n m arg op = m := by
  cases arg with
  | single => cases h
  | many es ws =>
    have : es = [] := by simpa [EArg.isEmpty] using h
    subst this
    unfold Spec.add
    split
    · cases ws <;> simp [Spec.weighted]
    · rfl

theorem foldl_put_map (m : Spec.WMap K) (op : MergeOp) (l : List ((Int × Int) × K)) :
    (l.map fun e => (e.1.1, e.1.2, e.2)).foldl (fun m e => Spec.put m op e.1 e.2.1 e.2.2) m =
      l.foldl (fun m e => Spec.put m op e.1.1 e.1.2 e.2) m := by
  rw [List.foldl_map]

/-- `add_edges` refines the abstract `add` -/
theorem absR_addEdges (arg : EArg K) (op : MergeOp) (s : GSt K) :
    absR (addEdges arg op s).2.raw = Spec.add s.raw.numV (absR s.raw) arg op ∧
      (addEdges arg op s).2.raw.numV = s.raw.numV ∧
      (addEdges arg op s).2.raw.extra = s.raw.extra := by
  have key : ∀ e, addEdges arg op s = (.error e, s) → arg.isEmpty = false →
      Spec.add s.raw.numV (absR s.raw) arg op = absR s.raw := by
    intro e h hemp
    unfold addEdges at h
    rw [hemp] at h
    simp only [Bool.false_eq_true, if_false, PyM.bind_apply, readRaw, PyM.lift_apply] at h
    unfold Spec.add
    cases hf : formatEdges s.raw.numV arg with
    | error e' =>
      rcases (formatEdges_spec s.raw.numV arg).2 e' hf with h' | h' | h'
      · rw [hemp] at h'; cases h'
      · rw [if_neg fun hc => h' hc.1]
      · split
        · rw [h']
        · rfl
    | ok p =>
      rw [hf] at h
      simp only at h
      by_cases hop : op = .other
      · rw [if_neg fun hc => hc.2 hop]
      · obtain ⟨f, hf'⟩ := (mergeFn_ok_iff (K := K) op).2 hop
        rw [forM_addEdge_ok hf'] at h
        simp [clearCache] at h
  rcases addEdges_cases arg op s with ⟨h0, h1⟩ | ⟨e, h1⟩ | ⟨es, ws, hemp, hf, h1⟩
  · rw [h1, spec_add_empty h0]; exact ⟨rfl, rfl, rfl⟩
  · cases hemp : arg.isEmpty with
    | true => rw [h1, spec_add_empty hemp]; exact ⟨rfl, rfl, rfl⟩
    | false => rw [h1, key e h1 hemp]; exact ⟨rfl, rfl, rfl⟩
  · obtain ⟨hall, hes, hw⟩ := (formatEdges_spec s.raw.numV arg).1 es ws hf
    rcases h1 with ⟨hz, h1⟩ | ⟨f, hop, h1⟩
    · rw [h1]
      refine ⟨?_, rfl, rfl⟩
      unfold Spec.add
      split
      · rw [hw, hz]; rfl
      · rfl
    · rw [h1]
      refine ⟨?_, by simp, by simp⟩
      have hop' : op ≠ .other := (mergeFn_ok_iff (K := K) op).1 ⟨f, hop⟩
      unfold Spec.add
      rw [if_pos ⟨hall, hop'⟩, hw]
      simp only
      rw [foldl_put_map, absR_addPairs _ hop]

/-- `remove_edges` refines the abstract `remove` -/
theorem absR_removeEdges (arg : EArg K) (s : GSt K) (hs : Inv s.raw) :
    absR (removeEdges arg s).2.raw = Spec.remove s.raw.numV (absR s.raw) arg ∧
      (removeEdges arg s).2.raw.numV = s.raw.numV ∧
      (removeEdges arg s).2.raw.extra = s.raw.extra := by
  have hn : Spec.named arg.noWeight = Spec.named arg := by cases arg <;> rfl
  have he : arg.noWeight.isEmpty = arg.isEmpty := by cases arg <;> rfl
  have hw : Spec.weighted arg.noWeight ≠ none := by
    cases arg <;> simp [EArg.noWeight, Spec.weighted]
  cases hf : formatEdges s.raw.numV arg.noWeight with
  | error e =>
    have h1 : removeEdges arg s = (.error e, s) := by
      unfold removeEdges
      simp only [PyM.bind_apply, readRaw, PyM.lift_apply, hf]
    rw [h1]
    refine ⟨?_, rfl, rfl⟩
    rcases (formatEdges_spec s.raw.numV arg.noWeight).2 e hf with h' | h' | h'
    · rw [he] at h'
      cases arg with
      | single => cases h'
      | many es ws =>
        have : es = [] := by simpa [EArg.isEmpty] using h'
        subst this
        simp [Spec.remove, Spec.named]
    · rw [hn] at h'
      unfold Spec.remove
      rw [if_neg h']
    · exact absurd h' hw
  | ok p =>
    obtain ⟨es, ws⟩ := p
    obtain ⟨hall, hes, _⟩ := (formatEdges_spec s.raw.numV arg.noWeight).1 es ws hf
    rcases removeEdges_cases arg s with ⟨e, h1⟩ | ⟨es', ws', hf', h1⟩
    · exfalso
      unfold removeEdges at h1
      simp only [PyM.bind_apply, readRaw, PyM.lift_apply, hf, forM_removeEdge] at h1
      simp [clearCache] at h1
    · rw [hf] at hf'
      cases hf'
      rw [h1]
      refine ⟨?_, by simp, by simp⟩
      rw [hn] at hall hes
      unfold Spec.remove
      rw [if_pos hall, ← hes]
      exact absR_removeList _ hs _

/-- abstract state of an object -/
def absS (s : GSt K) : Spec.GState K := { map := absR s.raw, extra := s.raw.extra }

theorem absS_apply (o : GOp K) (s : GSt K) (hs : Inv s.raw) :
    absS (apply o s).2 = Spec.apply s.raw.numV (absS s) o ∧
      (apply o s).2.raw.numV = s.raw.numV := by
  cases o with
  | addEdges arg op =>
    obtain ⟨h1, h2, h3⟩ := absR_addEdges arg op s
    refine ⟨?_, h2⟩
    simp only [absS, Spec.apply, apply, h1, h3]
  | removeEdges arg =>
    obtain ⟨h1, h2, h3⟩ := absR_removeEdges arg s hs
    refine ⟨?_, h2⟩
    simp only [absS, Spec.apply, apply, h1, h3]
  | addExtraSelfloop => exact ⟨rfl, rfl⟩
  | removeExtraSelfloop => exact ⟨rfl, rfl⟩
  | removeSelfloop =>
    refine ⟨?_, rfl⟩
    have : absR (apply GOp.removeSelfloop s).2.raw = fun a b => if a = b then none else absR s.raw a b := by
      funext a b
      show (if a = b then _ else _) = _
      by_cases h : a = b
      · simp [h, apply, DHG.removeSelfloop, DHG.removeExtraSelfloop, setRaw, clearCache]
      · simp [h, absR, apply, DHG.removeSelfloop, DHG.removeExtraSelfloop, setRaw, clearCache]
    unfold absS
    rw [this]
    rfl
  | clear =>
    refine ⟨?_, rfl⟩
    have : absR (apply (K := K) GOp.clear s).2.raw = fun a b => none := by
      funext a b
      show (if a = b then _ else _) = _
      simp [apply, clearAll, setRaw, clearCache]
    unfold absS
    rw [this]
    rfl

variable [PyReal K]

theorem listing_eq {g : GSt K} (h : Coherent evKey g) :
    Spec.listing g = g.raw.edgeList.zip g.raw.edgeWts := by
  unfold Spec.listing
  rw [(reads_ask .e g h).1]
  rfl

omit [PyReal K] in
theorem edgeList_length (r : GRaw K) : r.edgeList.length = r.numE := by
  unfold GRaw.edgeList GRaw.numE
  split <;> simp [Dict.length_keys, Nat.add_assoc]

omit [PyReal K] in
theorem edgeWts_length (r : GRaw K) : r.edgeWts.length = r.numE := by
  unfold GRaw.edgeWts GRaw.numE
  split <;> simp [Dict.length_vals, Nat.add_assoc]

omit [PyReal K] in
/-- weighted listing assembled from the raw fields -/
theorem zip_listing (r : GRaw K) :
    r.edgeList.zip r.edgeWts = r.eDict ++ r.loops.map (fun p => ((p.1, p.1), p.2)) ++
      (if r.extra then (List.range r.numV).map fun v : Nat => (((v : Int), (v : Int)), (1 : K)) else []) := by
  unfold GRaw.edgeList GRaw.edgeWts
  rw [List.zip_append (by simp [Dict.length_keys, Dict.length_vals]),
    List.zip_append (by simp [Dict.length_keys, Dict.length_vals]), Dict.zip_keys_vals]
  congr 1
  · congr 1
    generalize r.loops = d
    induction d with
    | nil => rfl
    | cons p d ih => simpa using ih
  · split
    · generalize r.numV = n
      induction n with
      | zero => rfl
      | succ n ih =>
        rw [List.range_succ, List.map_append, List.map_append, List.replicate_succ',
          List.zip_append (by simp), ih]
        rfl
    · rfl

omit [PyReal K] in
theorem mem_listing {r : GRaw K} (hr : Inv r) (a b : Int) (w : K) :
    (((a, b), w) ∈ r.edgeList.zip r.edgeWts ∨ ((b, a), w) ∈ r.edgeList.zip r.edgeWts) ↔
      (absR r a b = some w ∨ (r.extra = true ∧ a = b ∧ 0 ≤ a ∧ a < r.numV ∧ w = 1)) := by
  have hE : ∀ x y : Int, ((x, y), w) ∈ r.eDict ↔ r.eDict.get? (x, y) = some w := fun x y =>
    (Dict.get?_eq_some_iff r.eDict hr.nodupE (x, y) w).symm
  have hEx : ∀ x y : Int, ((x, y), w) ∈ (if r.extra then (List.range r.numV).map
      fun v : Nat => (((v : Int), (v : Int)), (1 : K)) else []) ↔
      r.extra = true ∧ x = y ∧ 0 ≤ x ∧ x < r.numV ∧ w = 1 := by
    intro x y
    split
    · rename_i hx
      simp only [List.mem_map, List.mem_range, Prod.mk.injEq]
      constructor
      · rintro ⟨v, hv, ⟨rfl, rfl⟩, rfl⟩
        exact ⟨hx, rfl, by omega, by omega, rfl⟩
      · rintro ⟨_, rfl, h0, h1, rfl⟩
        exact ⟨x.toNat, by omega, ⟨by omega, by omega⟩, rfl⟩
    · rename_i hx
      simp [hx]
  have hL : ∀ x y : Int, ((x, y), w) ∈ r.loops.map (fun p => ((p.1, p.1), p.2)) ↔
      x = y ∧ r.loops.get? x = some w := by
    intro x y
    rw [Dict.get?_eq_some_iff r.loops hr.nodupL x w]
    simp only [List.mem_map, Prod.mk.injEq]
    constructor
    · rintro ⟨⟨p, v⟩, hp, ⟨rfl, rfl⟩, rfl⟩; exact ⟨rfl, hp⟩
    · rintro ⟨rfl, hp⟩; exact ⟨(x, w), hp, ⟨rfl, rfl⟩, rfl⟩
  have hdiag : ∀ x, r.eDict.get? (x, x) ≠ some w := by
    intro x hx
    rw [← hE] at hx
    have := hr.lt _ (List.mem_map_of_mem (f := Prod.fst) hx)
    simp at this
  have hord : ∀ x y : Int, y < x → r.eDict.get? (x, y) ≠ some w := by
    intro x y hxy hx
    rw [← hE] at hx
    have := hr.lt _ (List.mem_map_of_mem (f := Prod.fst) hx)
    simp at this; omega
  rw [zip_listing]
  simp only [List.mem_append, hE, hEx, hL]
  unfold absR
  by_cases hab : a = b
  · subst hab
    simp only [if_true, true_and, or_self]
    constructor
    · rintro ((h | h) | h)
      · exact absurd h (hdiag _)
      · exact Or.inl h
      · exact Or.inr h
    · rintro (h | h)
      · exact Or.inl (Or.inr h)
      · exact Or.inr h
  · simp only [if_neg hab, hab, Ne.symm hab, false_and, and_false, or_false]
    unfold sortPair
    by_cases hle : a ≤ b
    · simp only [hle, if_true]
      constructor
      · rintro (h | h)
        · exact h
        · exact absurd h (hord _ _ (by omega))
      · exact Or.inl
    · simp only [hle, if_false]
      constructor
      · rintro (h | h)
        · exact absurd h (hord _ _ (by omega))
        · exact h
      · exact Or.inr

theorem Built.listed {P : EArg K → Prop} {g : GSt K} (hg : Built P g) (a b : Int) (w : K) :
    Spec.Listed g a b w ↔
      (absR g.raw a b = some w ∨ (g.raw.extra = true ∧ a = b ∧ 0 ≤ a ∧ a < g.raw.numV ∧ w = 1)) := by
  unfold Spec.Listed
  rw [listing_eq hg.inv.2]
  exact mem_listing hg.inv.1 a b w

theorem absS_run {g : GSt K} (hg : Inv g.raw) (hc : Coherent evKey g)
    (h : List (Step K)) :
    absS (run g h) = Spec.run g.raw.numV (absS g) h ∧ (run g h).raw.numV = g.raw.numV := by
  induction h generalizing g with
  | nil => exact ⟨rfl, rfl⟩
  | cons st h ih =>
    cases st with
    | op o =>
      obtain ⟨h1, h2⟩ := absS_apply o g hg
      obtain ⟨h3, h4⟩ := apply_inv o hg hc
      obtain ⟨h5, h6⟩ := ih h3 h4
      refine ⟨?_, h6.trans h2⟩
      show absS (run (apply o g).2 h) = _
      rw [h5, h1, h2]
      rfl
    | read q =>
      obtain ⟨_, h2, h3⟩ := reads_ask q g hc
      have hr : absS (ask q g).2 = absS g := by unfold absS; rw [h2]
      obtain ⟨h5, h6⟩ := ih (g := (ask q g).2) (by rw [h2]; exact hg) h3
      refine ⟨?_, h6.trans (by rw [h2])⟩
      show absS (run (ask q g).2 h) = _
      rw [h5, hr, h2]
      rfl

theorem absS_new {n : Int} {arg : Option (EArg K)} {extra : Bool} {op : MergeOp} {g : GSt K}
    (h : Graph.new n arg extra op = .ok g) :
    absS g = Spec.new n.toNat arg extra op ∧ g.raw.numV = n.toNat ∧ 0 < n := by
  unfold Graph.new GRaw.init at h
  split at h
  · rename_i hn
    simp only [bind, Except.bind] at h
    have h0 : absR ({ numV := n.toNat, eDict := [], loops := [], extra } : GRaw K) =
        fun _ _ => none := by
      funext a b; unfold absR; simp
    cases arg with
    | none =>
      cases h
      refine ⟨?_, rfl, hn⟩
      unfold absS; rw [h0]; rfl
    | some a =>
      obtain ⟨h1, h2, h3⟩ := absR_addEdges a op
        { raw := ({ numV := n.toNat, eDict := [], loops := [], extra } : GRaw K), cache := [] }
      simp only at h
      split at h
      · rename_i s hs
        rw [hs] at h1 h2 h3
        cases h
        refine ⟨?_, h2, hn⟩
        simp only [absS, Spec.new]
        simp only at h1 h2 h3
        rw [h1, h3, h0]
      · cases h
  · cases h

end Graph
end DHG
