import Verif.OrderedLemmas
import Verif.Props.GraphEdges2

/-!
# Effect of whole `add_edges`/`remove_edges` calls of directed and bipartite graphs
-/

set_option linter.unusedSectionVars false
set_option autoImplicit false

namespace DHG
namespace Ord

variable {K : Type} [Field K] [LinearOrder K] {c : Cls}

theorem erase_fold (l : List (Int × Int)) (m : Spec.WMap K) (a b : Int) :
    (l.foldl (fun m e => Spec.O.erase m e.1 e.2) m) a b = if (a, b) ∈ l then none else m a b := by
  induction l generalizing m with
  | nil => simp
  | cons e l ih =>
    rw [List.foldl_cons, ih]
    by_cases h : (a, b) ∈ l
    · rw [if_pos h, if_pos (List.mem_cons_of_mem _ h)]
    · rw [if_neg h]
      unfold Spec.O.erase
      by_cases h' : a = e.1 ∧ b = e.2
      · rw [if_pos h', if_pos]
        rw [h'.1, h'.2]; exact List.mem_cons_self
      · rw [if_neg h', if_neg]
        rw [List.mem_cons]
        rintro (h1 | h1)
        · exact h' ⟨congrArg Prod.fst h1, congrArg Prod.snd h1⟩
        · exact h h1

/-- pairs not mentioned keep their weight -/
theorem put_fold_other (op : MergeOp) (l : List (Int × Int × K)) (m : Spec.WMap K) (a b : Int)
    (h : ∀ e ∈ l, ¬ (e.1 = a ∧ e.2.1 = b)) :
    (l.foldl (fun m e => Spec.O.put m op e.1 e.2.1 e.2.2) m) a b = m a b := by
  induction l generalizing m with
  | nil => rfl
  | cons e l ih =>
    rw [List.foldl_cons, ih _ fun e' he' => h e' (List.mem_cons_of_mem _ he')]
    unfold Spec.O.put
    rw [if_neg]
    rintro ⟨rfl, rfl⟩
    exact h e List.mem_cons_self ⟨rfl, rfl⟩

/-- new, pairwise different pairs get exactly their weights -/
theorem put_fold_new (op : MergeOp) (l : List (Int × Int × K)) (m : Spec.WMap K)
    (hd : l.Pairwise fun e e' => ¬ (e'.1 = e.1 ∧ e'.2.1 = e.2.1))
    (habs : ∀ e ∈ l, m e.1 e.2.1 = none) (e : Int × Int × K) (he : e ∈ l) :
    (l.foldl (fun m e => Spec.O.put m op e.1 e.2.1 e.2.2) m) e.1 e.2.1 = some e.2.2 := by
  induction l generalizing m with
  | nil => cases he
  | cons x l ih =>
    rw [List.foldl_cons]
    rw [List.pairwise_cons] at hd
    rcases List.mem_cons.1 he with rfl | he
    · rw [put_fold_other op l _ _ _ fun e' he' => hd.1 e' he']
      unfold Spec.O.put
      rw [if_pos ⟨rfl, rfl⟩, habs _ List.mem_cons_self]
    · apply ih _ hd.2 _ he
      intro e' he'
      unfold Spec.O.put
      rw [if_neg (hd.1 e' he')]
      exact habs e' (List.mem_cons_of_mem _ he')

/-- unit weights merged by mean stay unit weights -/
theorem put_fold_ones [IsStrictOrderedRing K] (l : List (Int × Int)) (m : Spec.WMap K)
    (hm : ∀ x y v, m x y = some v → v = 1) (a b : Int) (w : K) :
    ((l.map fun e => (e.1, e.2, (1 : K))).foldl
        (fun m e => Spec.O.put m .mean e.1 e.2.1 e.2.2) m) a b = some w ↔
      w = 1 ∧ (m a b = some 1 ∨ (a, b) ∈ l) := by
  induction l generalizing m with
  | nil =>
    simp only [List.map_nil, List.foldl_nil, List.not_mem_nil, or_false]
    constructor
    · intro h; have := hm _ _ _ h; subst this; exact ⟨rfl, h⟩
    · rintro ⟨rfl, h⟩; exact h
  | cons e l ih =>
    rw [List.map_cons, List.foldl_cons, ih]
    · constructor
      · rintro ⟨rfl, h⟩
        refine ⟨rfl, ?_⟩
        rcases h with h | h
        · unfold Spec.O.put at h
          split at h
          · rename_i hc
            right
            rw [hc.1, hc.2]; exact List.mem_cons_self
          · left; exact h
        · right; exact List.mem_cons_of_mem _ h
      · rintro ⟨rfl, h⟩
        refine ⟨rfl, ?_⟩
        by_cases hc : a = e.1 ∧ b = e.2
        · left
          unfold Spec.O.put
          rw [if_pos hc]
          cases hmm : m e.1 e.2 with
          | none => rfl
          | some o => have := hm _ _ _ hmm; subst this; simp [Spec.merge]
        · rcases h with h | h
          · left; unfold Spec.O.put; rw [if_neg hc]; exact h
          · rcases List.mem_cons.1 h with h | h
            · exact absurd ⟨congrArg Prod.fst h, congrArg Prod.snd h⟩ hc
            · right; exact h
    · intro x y v h
      unfold Spec.O.put at h
      split at h
      · cases hmm : m e.1 e.2 with
        | none => rw [hmm] at h; simpa using h.symm
        | some o =>
          rw [hmm] at h
          have := hm _ _ _ hmm; subst this
          simpa [Spec.merge] using h.symm
      · exact hm _ _ _ h

theorem mem_adjListEdges (adj : List (List Int)) (x y : Int) :
    (x, y) ∈ Graph.adjListEdges adj ↔ ∃ line ∈ adj, ∃ tl, line = x :: tl ∧ y ∈ tl := by
  unfold Graph.adjListEdges
  rw [List.mem_flatMap]
  constructor
  · rintro ⟨line, hl, h⟩
    refine ⟨line, hl, ?_⟩
    rcases line with _ | ⟨s, _ | ⟨d, ds⟩⟩
    · simp at h
    · simp at h
    · obtain ⟨y', hy', heq⟩ := List.mem_map.1 h
      cases heq
      exact ⟨_, rfl, hy'⟩
  · rintro ⟨line, hl, tl, rfl, hy⟩
    refine ⟨_, hl, ?_⟩
    cases tl with
    | nil => cases hy
    | cons d ds => exact List.mem_map.2 ⟨y, hy, rfl⟩

/-- a successful `add_edges` named only vertices in range -/
theorem addEdges_ok_bounds {arg : EArg K} {op : MergeOp} {s : OSt K}
    (h : (addEdges c arg op s).1 = .ok ()) : Spec.O.InB (rows c s.raw) s.raw.numV arg := by
  rcases addEdges_cases (c := c) arg op s with ⟨h0, _⟩ | ⟨e, _, h2⟩ | ⟨es, ws, _, hf, _⟩
  · intro e he
    cases arg with
    | single => cases h0
    | many es ws =>
      cases es with
      | nil => cases he
      | cons => cases h0
  · rw [h2] at h; cases h
  · rw [format_bi] at hf
    exact ((formatBi_spec _ _ _).1 es ws hf).1

theorem addEdges_ok_op {arg : EArg K} {op : MergeOp} {s : OSt K}
    (h : (addEdges c arg op s).1 = .ok ()) : op ≠ .other ∨ Spec.weighted arg = some [] ∨ arg.isEmpty = true := by
  rcases addEdges_cases (c := c) arg op s with ⟨h0, _⟩ | ⟨e, _, h2⟩ | ⟨es, ws, _, hf, h3⟩
  · exact .inr (.inr h0)
  · rw [h2] at h; cases h
  · rcases h3 with ⟨hz, _⟩ | ⟨f, hop, _⟩
    · right; left
      rw [format_bi] at hf
      rw [((formatBi_spec _ _ _).1 es ws hf).2.2, hz]; rfl
    · left; rintro rfl; simp [mergeFn] at hop

/-- removing a pair that has no stored weight changes nothing -/
theorem removeEdge_absent {r : GRaw K} {a b : Int} (h : absO r a b = none) :
    r.removeEdge a b = r := by
  unfold absO at h
  have h1 : Dict.get? r.eDict (a, b) = none := by
    cases hh : Dict.get? r.eDict (a, b) with
    | none => rfl
    | some w => rw [hh] at h; cases h
  rw [h1] at h
  simp only at h
  have h2 : Dict.has r.eDict (a, b) = false := by
    cases hh : Dict.has r.eDict (a, b) with
    | false => rfl
    | true =>
      rw [Dict.get?_eq_none_iff] at h1
      exact absurd ((Dict.has_iff _ _).1 hh) h1
  unfold GRaw.removeEdge
  simp only [h2, Bool.false_eq_true, if_false]
  by_cases hab : a = b
  · subst hab
    rw [if_pos rfl] at h
    have h3 : Dict.has r.loops a = false := by
      cases hh : Dict.has r.loops a with
      | false => rfl
      | true =>
        rw [Dict.get?_eq_none_iff] at h
        exact absurd ((Dict.has_iff _ _).1 hh) h
    simp [h3]
  · simp [hab]

theorem removeList_absent {r : GRaw K} (l : List (Int × Int)) (h : ∀ e ∈ l, absO r e.1 e.2 = none) :
    removeList r l = r := by
  induction l with
  | nil => rfl
  | cons e l ih =>
    show removeList (r.removeEdge e.1 e.2) l = r
    rw [removeEdge_absent (h e List.mem_cons_self)]
    exact ih fun e' he' => h e' (List.mem_cons_of_mem _ he')

theorem removeEdges_named {arg : EArg K} {s : OSt K} :
    (∃ e, removeEdges c arg s = (.error e, s)) ∨
    (Spec.O.InB (rows c s.raw) s.raw.numV arg ∧
      removeEdges c arg s = (.ok (), { raw := removeList s.raw (Spec.named arg), cache := [] })) := by
  rcases removeEdges_cases (c := c) arg s with h | ⟨es, ws, hf, h⟩
  · exact .inl h
  · right
    rw [format_bi] at hf
    obtain ⟨h1, h2, _⟩ := (formatBi_spec _ _ _).1 es ws hf
    have hn : Spec.named arg.noWeight = Spec.named arg := by cases arg <;> rfl
    rw [hn] at h2
    unfold Spec.O.InB at h1 ⊢
    rw [hn] at h1
    exact ⟨h1, by rw [h, h2]⟩

/-- adding an absent pair and removing it again -/
theorem add_remove_raw {op : MergeOp} (hop : op ≠ .other) {s : OSt K} (hs : Inv c s.raw) {a b : Int}
    {w : Option K} (ha : a < (rows c s.raw : Int)) (hb : b < (s.raw.numV : Int))
    (habs : absO s.raw a b = none) :
    (removeEdges c (.single a b none) (addEdges c (.single a b w) op s).2).2.raw = s.raw := by
  obtain ⟨f, hf⟩ := (Graph.mergeFn_ok_iff (K := K) op).2 hop
  have e1 : (addEdges c (.single a b w) op s).2.raw = addE c s.raw f a b (w.getD 1) := by
    unfold addEdges
    rw [if_neg (by simp [EArg.isEmpty])]
    simp only [PyM.bind_apply, readRaw, PyM.lift_apply, format_bi, formatEdgesBi, id]
    rw [if_pos (by omega)]
    simp only
    rw [forM_addEdge_ok hf]
    rfl
  have hsz := addEdges_sizes (c := c) (.single a b w) op s
  have e2 : ∀ t : OSt K, rows c t.raw = rows c s.raw → t.raw.numV = s.raw.numV →
      (removeEdges c (.single a b none) t).2.raw = t.raw.removeEdge a b := by
    intro t h1 h2
    unfold removeEdges
    simp only [EArg.noWeight, PyM.bind_apply, readRaw, PyM.lift_apply, format_bi, formatEdgesBi, id,
      h1, h2]
    rw [if_pos (by omega)]
    simp only
    rw [forM_removeEdge]
    rfl
  rw [e2 _ (rows_eq hsz.1 hsz.2.1) hsz.1, e1]
  unfold absO at habs
  have h1 : Dict.get? s.raw.eDict (a, b) = none := by
    cases hh : Dict.get? s.raw.eDict (a, b) with
    | none => rfl
    | some w => rw [hh] at habs; cases habs
  rw [h1] at habs
  simp only at habs
  have hk := (Dict.get?_eq_none_iff _ _).1 h1
  have hedge : ({ s.raw with eDict := upsert s.raw.eDict (a, b) f (w.getD 1) } : GRaw K).removeEdge a b = s.raw := by
    have hno : ¬ (a = b ∧ s.raw.loops.has a = true) := by
      rintro ⟨rfl, hl⟩
      rw [if_pos rfl] at habs
      exact (Dict.get?_eq_none_iff _ _).1 habs ((Dict.has_iff _ _).1 hl)
    unfold GRaw.removeEdge upsert
    simp only [h1]
    rw [if_neg hno]
    have hh : (Dict.set s.raw.eDict (a, b) (w.getD 1)).has (a, b) = true := by
      rw [Dict.has_iff, Dict.mem_keys_set]; left; rfl
    simp only [hh, if_true]
    rw [Dict.set_of_notMem _ _ _ hk, Dict.del_append_single _ _ _ hk]
  cases c with
  | bi => exact hedge
  | di =>
    show (GRaw.addEdge s.raw f a b (w.getD 1)).removeEdge a b = _
    by_cases hab : a = b
    · subst hab
      rw [if_pos rfl] at habs
      have hk := (Dict.get?_eq_none_iff _ _).1 habs
      unfold GRaw.addEdge GRaw.removeEdge upsert
      simp only [if_true, habs]
      have hh : (Dict.set s.raw.loops a (w.getD 1)).has a = true := by
        rw [Dict.has_iff, Dict.mem_keys_set]; left; rfl
      simp only [hh, and_self, if_true]
      rw [Dict.set_of_notMem _ _ _ hk, Dict.del_append_single _ _ _ hk]
    · unfold GRaw.addEdge
      rw [if_neg hab]
      exact hedge

/-- a failing `add_edges`/`remove_edges` leaves the object as it was -/
theorem addEdges_err {arg : EArg K} {op : MergeOp} {s : OSt K} {e : Err}
    (h : (addEdges c arg op s).1 = .error e) : (addEdges c arg op s).2 = s := by
  rcases addEdges_cases (c := c) arg op s with ⟨_, h1⟩ | ⟨e, _, h1⟩ | ⟨es, ws, _, hf, h1⟩
  · rw [h1]
  · rw [h1]
  · rcases h1 with ⟨_, h1⟩ | ⟨f, _, h1⟩ <;> rw [h1] at h <;> cases h

theorem removeEdges_err {arg : EArg K} {s : OSt K} {e : Err}
    (h : (removeEdges c arg s).1 = .error e) : (removeEdges c arg s).2 = s := by
  rcases removeEdges_cases (c := c) arg s with ⟨e, h1⟩ | ⟨es, ws, _, h1⟩
  · rw [h1]
  · rw [h1] at h; cases h

theorem addEdges_raw_eq {s s' : OSt K} (hr : s.raw = s'.raw) (arg : EArg K) (op : MergeOp) :
    (addEdges c arg op s).2.raw = (addEdges c arg op s').2.raw := by
  unfold addEdges
  cases arg.isEmpty with
  | true => exact hr
  | false =>
    simp only [Bool.false_eq_true, if_false, PyM.bind_apply, readRaw, PyM.lift_apply, id, hr]
    cases format c s'.raw arg with
    | error e => exact hr
    | ok p =>
      simp only
      cases hop : mergeFn (K := K) op with
      | ok f =>
        rw [forM_addEdge_ok hop, forM_addEdge_ok hop]
        simp [clearCache, hr]
      | error e =>
        rw [forM_addEdge_err hop, forM_addEdge_err hop]
        by_cases hz : p.1.zip p.2 = [] <;> simp [hz, clearCache, hr]

theorem removeEdges_raw_eq {s s' : OSt K} (hr : s.raw = s'.raw) (arg : EArg K) :
    (removeEdges c arg s).2.raw = (removeEdges c arg s').2.raw := by
  unfold removeEdges
  simp only [PyM.bind_apply, readRaw, PyM.lift_apply, id, hr]
  cases format c s'.raw arg.noWeight with
  | error e => exact hr
  | ok p =>
    simp only
    rw [forM_removeEdge, forM_removeEdge]
    simp [clearCache, hr]

open Graph in
/-- the listing after dropping -/
theorem drop_listing (r : GRaw K) (rate : K) (rnd : Nat → K) :
    let r' : GRaw K := { r with
      eDict := dropFilter rate rnd 0 r.eDict
      loops := dropFilter rate rnd r.eDict.length r.loops }
    r'.edgeList.zip r'.edgeWts = ((r.edgeList.zip r.edgeWts).zipIdx.filter fun p =>
        decide (p.2 < List.length r.eDict + List.length r.loops → rate < rnd p.2)).map Prod.fst := by
  intro r'
  rw [zip_listing, zip_listing]
  rw [List.zipIdx_append, List.zipIdx_append, List.filter_append, List.filter_append,
    List.map_append, List.map_append]
  congr 1
  · congr 1
    · show dropFilter rate rnd 0 r.eDict = _
      rw [Props.dropFilter_eq]
      congr 1
      apply List.filter_congr
      intro p hp
      have := List.snd_lt_of_mem_zipIdx hp
      have h' : p.2 < List.length r.eDict + List.length r.loops := by omega
      rw [decide_eq_decide]
      exact ⟨fun h _ => h, fun h => h h'⟩
    · show (dropFilter rate rnd (List.length r.eDict) r.loops).map _ = _
      rw [Props.dropFilter_eq, List.zipIdx_map, List.filter_map, List.map_map, List.map_map]
      have hcongr : (r.loops.zipIdx (0 + List.length r.eDict)).filter
          ((fun p : ((Int × Int) × K) × Nat => decide (p.2 < List.length r.eDict + List.length r.loops → rate < rnd p.2)) ∘
            Prod.map (fun p : Int × K => ((p.1, p.1), p.2)) id) =
          (r.loops.zipIdx (List.length r.eDict)).filter fun p => decide (rate < rnd p.2) := by
        rw [Nat.zero_add]
        apply List.filter_congr
        intro p hp
        have := List.snd_lt_of_mem_zipIdx hp
        have h' : p.2 < List.length r.eDict + List.length r.loops := by omega
        simp only [Function.comp, Prod.map, id, decide_eq_decide]
        exact ⟨fun h => h h', fun h _ => h⟩
      rw [hcongr]
      rfl
  · symm
    have : ∀ (l : List ((Int × Int) × K)) (k : Nat),
        k = List.length r.eDict + List.length r.loops →
        ((l.zipIdx k).filter fun p => decide (p.2 < List.length r.eDict + List.length r.loops → rate < rnd p.2)).map Prod.fst = l := by
      intro l k hk
      rw [List.filter_eq_self.2]
      · exact List.zipIdx_map_fst _ _
      · intro p hp
        have := List.le_snd_of_mem_zipIdx hp
        simp only [decide_eq_true_eq]
        intro h; omega
    exact this _ _ (by simp)

/-- every ordered non-loop pair is listed once -/
theorem nodup_listing {r : GRaw K} (hr : Inv c r) :
    (r.edgeList.filter fun e => e.1 ≠ e.2).Nodup := by
  have hf : r.edgeList.filter (fun e => e.1 ≠ e.2) = r.eDict.keys.filter (fun e => e.1 ≠ e.2) := by
    unfold GRaw.edgeList
    rw [List.filter_append, List.filter_append]
    have h2 : (r.loops.keys.map fun v => (v, v)).filter (fun e : Int × Int => e.1 ≠ e.2) = [] := by
      rw [List.filter_eq_nil_iff]; intro e he
      obtain ⟨v, _, rfl⟩ := List.mem_map.1 he; simp
    have h3 : (if r.extra = true then (List.range r.numV).map
        fun v : Nat => ((v : Int), (v : Int)) else []).filter (fun e : Int × Int => e.1 ≠ e.2) = [] := by
      rw [List.filter_eq_nil_iff]; intro p hp
      split at hp
      · obtain ⟨v, _, rfl⟩ := List.mem_map.1 hp; simp
      · cases hp
    rw [h2, h3]; simp
  rw [hf]
  exact hr.nodupE.filter _

/-- listing after removing -/
theorem remove_mem {s : OSt K} (hs : Inv c s.raw) {arg : EArg K}
    (hr : Spec.O.InB (rows c s.raw) s.raw.numV arg) (a b : Int) (w : K)
    (hx : a ≠ b ∨ s.raw.extra = false) :
    ((a, b), w) ∈ (removeEdges c arg s).2.raw.edgeList.zip (removeEdges c arg s).2.raw.edgeWts ↔
      ((a, b), w) ∈ s.raw.edgeList.zip s.raw.edgeWts ∧ (a, b) ∉ Spec.named arg := by
  have hsz := removeEdges_sizes (c := c) arg s
  rw [mem_listing (removeEdges_inv arg hs), mem_listing hs, absO_removeEdges arg s hs, hsz.1, hsz.2.2]
  have hno : ¬ (s.raw.extra = true ∧ a = b ∧ 0 ≤ a ∧ a < (s.raw.numV : Int) ∧ w = 1) := by
    rintro ⟨h, h', _⟩
    rcases hx with hx | hx
    · exact hx h'
    · rw [hx] at h; cases h
  simp only [hno, or_false]
  unfold Spec.O.remove
  rw [if_pos hr, erase_fold]
  by_cases h : (a, b) ∈ Spec.named arg
  · simp [h]
  · simp [h]

/-- removing pairs without stored weight -/
theorem remove_absent {s : OSt K} {arg : EArg K}
    (h : ∀ e ∈ Spec.named arg, absO s.raw e.1 e.2 = none) :
    (removeEdges c arg s).2.raw = s.raw := by
  rcases removeEdges_named (c := c) (arg := arg) (s := s) with ⟨e, h1⟩ | ⟨_, h1⟩
  · rw [h1]
  · rw [h1]; exact removeList_absent _ h

theorem remove_twice {s : OSt K} (hs : Inv c s.raw) (arg : EArg K) :
    (removeEdges c arg (removeEdges c arg s).2).2.raw = (removeEdges c arg s).2.raw := by
  rcases removeEdges_named (c := c) (arg := arg) (s := s) with ⟨e, h1⟩ | ⟨hb, h1⟩
  · rw [h1]; simp [h1]
  · apply remove_absent
    intro e he
    rw [absO_removeEdges arg s hs]
    unfold Spec.O.remove
    rw [if_pos hb, erase_fold, if_pos he]

/-- weights are paired with their edges -/
theorem weights_paired {s : OSt K} (hs : Inv c s.raw)
    {es : List (Int × Int)} {ws : List K} (hlen : es.length = ws.length)
    {op : MergeOp} (hok : (addEdges c (.many es (.list ws)) op s).1 = .ok ())
    (hdis : es.Pairwise fun e e' => e ≠ e')
    (habs : ∀ e ∈ es, absO s.raw e.1 e.2 = none)
    (i : Nat) (hi : i < es.length) :
    absO (addEdges c (.many es (.list ws)) op s).2.raw es[i].1 es[i].2 = some (ws[i]'(hlen ▸ hi)) := by
  rw [absO_addEdges _ _ _ hs]
  have hcond : Spec.O.InB (rows c s.raw) s.raw.numV (.many es (.list ws) : EArg K) ∧ op ≠ .other := by
    refine ⟨addEdges_ok_bounds hok, ?_⟩
    rcases addEdges_ok_op hok with h | h | h
    · exact h
    · simp only [Spec.weighted, Option.some.injEq, List.map_eq_nil_iff] at h
      have : (es.zip ws).length = 0 := by rw [h]; rfl
      rw [List.length_zip] at this; omega
    · have : es = [] := by simpa [EArg.isEmpty] using h
      subst this; simp at hi
  unfold Spec.O.add
  rw [if_pos hcond]
  simp only [Spec.weighted]
  have hmem : (es[i].1, es[i].2, ws[i]'(hlen ▸ hi)) ∈
      (es.zip ws).map fun e => (e.1.1, e.1.2, e.2) := by
    refine List.mem_map.2 ⟨(es[i], ws[i]'(hlen ▸ hi)), ?_, rfl⟩
    rw [List.mem_iff_getElem]
    exact ⟨i, by rw [List.length_zip]; omega, by simp⟩
  refine put_fold_new op _ _ ?_ ?_ _ hmem
  · rw [List.pairwise_map]
    have hz : (es.zip ws).map Prod.fst = es := by
      rw [List.map_fst_zip]; omega
    rw [← hz, List.pairwise_map] at hdis
    refine hdis.imp ?_
    rintro x y hxy ⟨h1, h2⟩
    exact hxy (Prod.ext h1.symm h2.symm)
  · intro e he
    obtain ⟨x, hx, rfl⟩ := List.mem_map.1 he
    exact habs _ (List.of_mem_zip hx).1

/-- too large vertices and unknown merge operations raise -/
theorem addEdges_bad {arg : EArg K} {op : MergeOp} {s : OSt K} (hne : arg.isEmpty = false)
    (h : ¬ Spec.O.InB (rows c s.raw) s.raw.numV arg ∨ (op = .other ∧ Spec.weighted arg ≠ some [])) :
    ∃ e, (addEdges c arg op s).1 = .error e := by
  cases hh : (addEdges c arg op s).1 with
  | error e => exact ⟨e, rfl⟩
  | ok u =>
    exfalso
    rcases h with h | ⟨h, h'⟩
    · exact h (addEdges_ok_bounds hh)
    · rcases addEdges_ok_op hh with h1 | h1 | h1
      · exact h1 h
      · exact h' h1
      · rw [hne] at h1; cases h1

/-- adjacency lists -/
theorem adj_abs [IsStrictOrderedRing K] {s : OSt K} (hs : Inv c s.raw) (he : s.raw.eDict = [])
    (hl : s.raw.loops = [])
    {adj : List (List Int)}
    (hok : (addEdges c (.many (Graph.adjListEdges adj) .none) .mean s).1 = .ok ()) (a b : Int) (w : K) :
    absO (addEdges c (.many (Graph.adjListEdges adj) .none) .mean s).2.raw a b = some w ↔
      w = 1 ∧ ∃ line ∈ adj, ∃ tl, line = a :: tl ∧ b ∈ tl := by
  rw [absO_addEdges _ _ _ hs]
  unfold Spec.O.add
  rw [if_pos ⟨addEdges_ok_bounds hok, by decide⟩]
  simp only [Spec.weighted]
  have h0 : absO s.raw = fun _ _ => none := by
    funext x y; unfold absO; rw [he, hl]; simp
  rw [put_fold_ones _ _ (by intro x y v h; rw [h0] at h; cases h), mem_adjListEdges, h0]
  simp

end Ord
end DHG
