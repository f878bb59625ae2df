import Verif.GraphAbs

/-!
# Helper lemmas for the edge-set properties of `Graph`
-/

set_option linter.unusedSectionVars false
set_option autoImplicit false

namespace DHG
namespace Graph

variable {K : Type} [Field K] [LinearOrder K]

theorem addPairs_append (r : GRaw K) (f : K → K → K) (l l' : List ((Int × Int) × K)) :
    addPairs r f (l ++ l') = addPairs (addPairs r f l) f l' := by
  unfold addPairs; rw [List.foldl_append]

theorem addPairs_fresh_edges (r : GRaw K) (f : K → K → K) (d : List ((Int × Int) × K))
    (hlt : ∀ e ∈ d, e.1.1 < e.1.2) (hnd : (d.map Prod.fst).Nodup)
    (hdis : ∀ e ∈ d, e.1 ∉ r.eDict.keys) :
    addPairs r f d = { r with eDict := r.eDict ++ d } := by
  induction d generalizing r with
  | nil => simp [addPairs]
  | cons e d ih =>
    have h1 := hlt e List.mem_cons_self
    have hs : sortPair e.1 = e.1 := by unfold sortPair; rw [if_pos (by omega)]
    have hne : e.1.1 ≠ e.1.2 := by omega
    have hk := hdis e List.mem_cons_self
    have hstep : r.addEdge f (sortPair e.1).1 (sortPair e.1).2 e.2 =
        { r with eDict := r.eDict ++ [e] } := by
      unfold GRaw.addEdge upsert
      rw [hs, if_neg hne]
      have hnone : r.eDict.get? (e.1.1, e.1.2) = none := (Dict.get?_eq_none_iff _ _).2 hk
      rw [hnone]
      simp only
      rw [Dict.set_of_notMem _ _ _ hk]
    simp only [List.map_cons, List.nodup_cons] at hnd
    show addPairs (r.addEdge f (sortPair e.1).1 (sortPair e.1).2 e.2) f d = _
    rw [hstep, ih _ (fun e' he' => hlt e' (List.mem_cons_of_mem _ he')) hnd.2]
    · simp
    · intro e' he' hm
      simp only [Dict.keys, List.map_append, List.map_cons, List.map_nil, List.mem_append,
        List.mem_singleton] at hm
      rcases hm with hm | hm
      · exact hdis e' (List.mem_cons_of_mem _ he') hm
      · exact hnd.1 (hm ▸ List.mem_map_of_mem (f := Prod.fst) he')

theorem addPairs_fresh_loops (r : GRaw K) (f : K → K → K) (d : Dict Int K)
    (hnd : d.keys.Nodup) (hdis : ∀ v ∈ d.keys, v ∉ r.loops.keys) :
    addPairs r f (d.map fun p => ((p.1, p.1), p.2)) = { r with loops := r.loops ++ d } := by
  induction d generalizing r with
  | nil => simp [addPairs]
  | cons e d ih =>
    have hk := hdis e.1 List.mem_cons_self
    have hstep : r.addEdge f (sortPair (e.1, e.1)).1 (sortPair (e.1, e.1)).2 e.2 =
        { r with loops := r.loops ++ [e] } := by
      unfold GRaw.addEdge upsert sortPair
      simp only [le_refl, if_true]
      rw [(Dict.get?_eq_none_iff _ _).2 hk]
      simp only
      rw [Dict.set_of_notMem _ _ _ hk]
    simp only [Dict.keys_cons, List.nodup_cons] at hnd
    show addPairs (r.addEdge f (sortPair (e.1, e.1)).1 (sortPair (e.1, e.1)).2 e.2) f
      (d.map fun p => ((p.1, p.1), p.2)) = _
    rw [hstep, ih _ hnd.2]
    · simp
    · intro v hv hm
      simp only [Dict.keys, List.map_append, List.map_cons, List.map_nil, List.mem_append,
        List.mem_singleton] at hm
      rcases hm with hm | hm
      · exact hdis v (List.mem_cons_of_mem _ hv) hm
      · exact hnd.1 (hm ▸ hv)

/-- constructing a graph from the stored edges of an object gives the same raw fields -/
theorem new_rebuild {r : GRaw K} (hr : Inv r) (op : MergeOp) (hop : op ≠ .other) :
    Graph.new r.numV (some (.many (r.eDict.keys ++ r.loops.keys.map fun v => (v, v))
      (.list (r.eDict.vals ++ r.loops.vals)))) r.extra op = .ok { raw := r, cache := [] } := by
  obtain ⟨f, hf⟩ := (mergeFn_ok_iff (K := K) op).2 hop
  have hu := hr.numU
  have hpos := hr.pos
  obtain ⟨u, n, E, L, x⟩ := r
  simp only at hu hpos ⊢
  subst hu
  unfold Graph.new GRaw.init
  rw [if_pos (by omega)]
  simp only [bind, Except.bind, Int.toNat_natCast]
  unfold addEdges
  by_cases hemp : E.keys ++ L.keys.map (fun v => (v, v)) = []
  · have hE : E = [] := by
      have := List.append_eq_nil_iff.1 hemp
      simpa [Dict.keys] using this.1
    have hL : L = [] := by
      have := List.append_eq_nil_iff.1 hemp
      simpa [Dict.keys] using this.2
    subst hE hL
    rfl
  · have hne : (EArg.many (E.keys ++ L.keys.map fun v => (v, v))
        (WArg.list (E.vals ++ L.vals)) : EArg K).isEmpty = false := by
      simpa [EArg.isEmpty] using hemp
    rw [hne]
    have hall : ∀ q ∈ E.keys ++ L.keys.map (fun v => (v, v)), q.1 < (n : Int) ∧ q.2 < (n : Int) := by
      intro q hq
      rcases List.mem_append.1 hq with hq | hq
      · have h1 := hr.lt q hq
        have h2 := hr.ltE q hq
        simp only at h2
        omega
      · obtain ⟨v, hv, rfl⟩ := List.mem_map.1 hq
        have := hr.ltL v hv
        exact ⟨this, this⟩
    have hfe : formatEdges n (.many (E.keys ++ L.keys.map fun v => (v, v))
        (.list (E.vals ++ L.vals))) =
        .ok (E.keys ++ L.keys.map (fun v => (v, v)), E.vals ++ L.vals) := by
      revert hall hemp
      generalize E.keys ++ L.keys.map (fun v => (v, v)) = l
      intro hemp hall
      cases l with
      | nil => exact absurd rfl hemp
      | cons p l => simp only [formatEdges]; rw [if_pos hall]
    simp only [Bool.false_eq_true, if_false, PyM.bind_apply, readRaw, PyM.lift_apply, hfe]
    rw [forM_addEdge_ok hf]
    simp only [clearCache, PyM.modify_apply]
    have hz : (E.keys ++ L.keys.map fun v => (v, v)).zip (E.vals ++ L.vals) =
        E ++ L.map fun p => ((p.1, p.1), p.2) := by
      rw [List.zip_append (by simp [Dict.length_keys, Dict.length_vals]), Dict.zip_keys_vals]
      congr 1
      clear hr hemp hne hall hfe
      induction L with
      | nil => rfl
      | cons p d ih => simpa using ih
    have hnE := hr.nodupE
    have hnL := hr.nodupL
    simp only at hnE hnL
    rw [hz, addPairs_append, addPairs_fresh_edges (d := E), addPairs_fresh_loops]
    · rfl
    · exact hnL
    · intro v _ h; cases h
    · intro e he
      exact hr.lt e.1 (List.mem_map_of_mem (f := Prod.fst) he)
    · exact hnE
    · intro v _ h; cases h

/-! ### order of merging -/

theorem put_comm {m : Spec.WMap K} (hm : ∀ a b, m a b = m b a) {op : MergeOp}
    (hc : ∀ x y z : K, Spec.merge op (Spec.merge op x y) z = Spec.merge op (Spec.merge op x z) y)
    (hc' : ∀ x y : K, Spec.merge op x y = Spec.merge op y x)
    (a b c d : Int) (w v : K) :
    Spec.put (Spec.put m op a b w) op c d v = Spec.put (Spec.put m op c d v) op a b w := by
  funext x y
  unfold Spec.put
  have e1 := hm c d
  by_cases hab : (c = a ∧ d = b) ∨ (c = b ∧ d = a)
  · have hab' : (a = c ∧ b = d) ∨ (a = d ∧ b = c) := by omega
    rw [if_pos hab, if_pos hab']
    have hh : ((x = c ∧ y = d) ∨ (x = d ∧ y = c)) ↔ ((x = a ∧ y = b) ∨ (x = b ∧ y = a)) := by omega
    have hmm : m c d = m a b := by
      rcases hab with ⟨rfl, rfl⟩ | ⟨rfl, rfl⟩
      · rfl
      · exact hm _ _
    simp only [hh, hmm]
    split
    · cases m a b with
      | none => simp only; rw [hc']
      | some o => simp only; rw [hc]
    · rfl
  · have hab' : ¬ ((a = c ∧ b = d) ∨ (a = d ∧ b = c)) := by omega
    rw [if_neg hab, if_neg hab']
    by_cases h1 : (x = c ∧ y = d) ∨ (x = d ∧ y = c)
    · have h2 : ¬ ((x = a ∧ y = b) ∨ (x = b ∧ y = a)) := by omega
      rw [if_pos h1, if_neg h2, if_pos h1]
    · rw [if_neg h1]
      by_cases h2 : (x = a ∧ y = b) ∨ (x = b ∧ y = a)
      · rw [if_pos h2, if_pos h2]
      · rw [if_neg h2, if_neg h2, if_neg h1]

theorem put_symm_map {m : Spec.WMap K} (hm : ∀ a b, m a b = m b a) (op : MergeOp) (a b : Int)
    (w : K) (x y : Int) : Spec.put m op a b w x y = Spec.put m op a b w y x := by
  unfold Spec.put
  by_cases h : (x = a ∧ y = b) ∨ (x = b ∧ y = a)
  · rw [if_pos h, if_pos (by omega)]
  · rw [if_neg h, if_neg (by omega), hm]

theorem foldl_put_perm {op : MergeOp}
    (hc : ∀ x y z : K, Spec.merge op (Spec.merge op x y) z = Spec.merge op (Spec.merge op x z) y)
    (hc' : ∀ x y : K, Spec.merge op x y = Spec.merge op y x)
    {l l' : List (Int × Int × K)} (hp : l.Perm l') :
    ∀ m : Spec.WMap K, (∀ a b, m a b = m b a) →
    l.foldl (fun m e => Spec.put m op e.1 e.2.1 e.2.2) m =
      l'.foldl (fun m e => Spec.put m op e.1 e.2.1 e.2.2) m := by
  induction hp with
  | nil => intro m _; rfl
  | cons e _ ih =>
    intro m hm
    exact ih _ (put_symm_map hm _ _ _ _)
  | swap e e' l =>
    intro m hm
    simp only [List.foldl_cons]
    rw [put_comm hm hc hc']
  | trans _ _ ih1 ih2 => intro m hm; exact (ih1 m hm).trans (ih2 m hm)

variable [PyReal K]

theorem addEdges_raw_eq {s s' : GSt K} (hr : s.raw = s'.raw) (arg : EArg K) (op : MergeOp) :
    (addEdges arg op s).2.raw = (addEdges arg op s').2.raw := by
  unfold addEdges
  cases arg.isEmpty with
  | true => exact hr
  | false =>
    simp only [Bool.false_eq_true, if_false, PyM.bind_apply, readRaw, PyM.lift_apply, hr]
    cases hf : formatEdges s'.raw.numV arg with
    | error e => exact hr
    | ok p =>
      simp only
      cases hop : mergeFn (K := K) op with
      | error e =>
        rw [forM_addEdge_err hop, forM_addEdge_err hop]
        by_cases hz : p.1.zip p.2 = [] <;> simp [hz, clearCache, hr]
      | ok f =>
        rw [forM_addEdge_ok hop, forM_addEdge_ok hop]
        simp [clearCache, hr]

theorem removeEdges_raw_eq {s s' : GSt K} (hr : s.raw = s'.raw) (arg : EArg K) :
    (removeEdges arg s).2.raw = (removeEdges arg s').2.raw := by
  unfold removeEdges
  simp only [PyM.bind_apply, readRaw, PyM.lift_apply, hr]
  cases hf : formatEdges s'.raw.numV arg.noWeight with
  | error e => exact hr
  | ok p =>
    simp only
    rw [forM_removeEdge, forM_removeEdge]
    simp [clearCache, hr]

theorem apply_raw_eq {s s' : GSt K} (hr : s.raw = s'.raw) (o : GOp K) :
    (apply o s).2.raw = (apply o s').2.raw := by
  cases o with
  | addEdges arg op => exact addEdges_raw_eq hr arg op
  | removeEdges arg => exact removeEdges_raw_eq hr arg
  | _ => simp [apply, DHG.addExtraSelfloop, DHG.removeExtraSelfloop, DHG.removeSelfloop, clearAll,
      setRaw, clearCache, hr]

theorem indist_of_raw {g g' : GSt K} (hi : Inv g.raw) (hc : Coherent evKey g)
    (hc' : Coherent evKey g') (hr : g.raw = g'.raw) : Spec.Indist g g' := by
  intro h
  induction h generalizing g g' with
  | nil =>
    intro q
    show (ask q g).1 = (ask q g').1
    rw [(reads_ask q g hc).1, (reads_ask q g' hc').1, hr]
  | cons st h ih =>
    cases st with
    | op o =>
      obtain ⟨h1, h2⟩ := apply_inv o hi hc
      obtain ⟨_, h4⟩ := apply_inv o (hr ▸ hi) hc'
      exact ih h1 h2 h4 (apply_raw_eq hr o)
    | read q =>
      obtain ⟨_, h2, h3⟩ := reads_ask q g hc
      obtain ⟨_, h2', h3'⟩ := reads_ask q g' hc'
      exact ih (g := (ask q g).2) (g' := (ask q g').2) (h2 ▸ hi) h3 h3' (by rw [h2, h2', hr])

theorem Built.indist {P : EArg K → Prop} {g : GSt K} (hg : Built P g) {g' : GSt K}
    (hc' : Coherent evKey g') (hr : g.raw = g'.raw) : Spec.Indist g g' :=
  indist_of_raw hg.inv.1 hg.inv.2 hc' hr

end Graph
end DHG
