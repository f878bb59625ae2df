import Verif.DirHyperLemmas
import Verif.DirHyperSpec

/-!
# Directed hyperedges: the stored hyperedges and the incidence matrices
-/

set_option linter.unusedSectionVars false
set_option autoImplicit false

namespace DHG

variable {K : Type} [Field K] [LinearOrder K]

namespace DirH

/-- the code of a hyperedge -/
def code (c : Spec.DEdge) : List Int × List Int := (sortV c.1, sortV c.2)

theorem code_eq_iff {a b : Spec.DEdge} : code a = code b ↔ Spec.SameEdge a b := by
  unfold code Spec.SameEdge
  rw [Prod.mk.injEq, sortV_eq_iff, sortV_eq_iff]

theorem code_code (c : Spec.DEdge) : code (code c) = code c := by
  unfold code; simp [sortV_sortV]

/-! ### Formatting -/

theorem sortConn_fst (vs : List Int) (ws : List K) (h : vs.length = ws.length) :
    (sortConn vs ws).1 = sortV vs := by
  unfold sortConn sortV
  simp only
  have h1 : ((vs.zip ws).insertionSort fun a b => a.1 ≤ b.1).map Prod.fst =
      ((vs.zip ws).map Prod.fst).insertionSort (· ≤ ·) :=
    List.map_insertionSort (r := fun a b : Int × K => a.1 ≤ b.1) (s := (· ≤ ·)) Prod.fst (vs.zip ws)
      (fun a _ b _ => Iff.rfl)
  rw [h1, List.map_fst_zip (by omega)]

theorem sortConn_zip (vs : List Int) (ws : List K) :
    ((sortConn vs ws).1.zip (sortConn vs ws).2).Perm (vs.zip ws) := by
  unfold sortConn
  simp only
  have : ∀ l : List (Int × K), (l.map Prod.fst).zip (l.map Prod.snd) = l := by
    intro l; induction l with
    | nil => rfl
    | cons p l ih => simp [ih]
  rw [this]
  exact List.perm_insertionSort _ _

theorem sortConn_snd_length (vs : List Int) (ws : List K) (h : vs.length = ws.length) :
    (sortConn vs ws).2.length = vs.length := by
  unfold sortConn
  simp [List.length_insertionSort, h]

theorem formatAll_ok {l : List (List Int × List K)} {r : List (List Int × List K)}
    (h : formatAll l = .ok r) :
    r = l.map (fun p => sortConn p.1 p.2) ∧ ∀ p ∈ l, p.1.length = p.2.length := by
  induction l generalizing r with
  | nil => cases h; exact ⟨rfl, fun p hp => by cases hp⟩
  | cons p l ih =>
    simp only [formatAll] at h
    split at h
    · rename_i hp
      cases hl : formatAll l with
      | error e => rw [hl] at h; cases h
      | ok r' =>
        rw [hl] at h
        cases h
        obtain ⟨h1, h2⟩ := ih hl
        refine ⟨by rw [h1]; rfl, ?_⟩
        intro q hq
        rcases List.mem_cons.1 hq with rfl | hq
        · exact hp
        · exact h2 q hq
    · cases h

theorem formatAll_of {l : List (List Int × List K)} (h : ∀ p ∈ l, p.1.length = p.2.length) :
    formatAll l = .ok (l.map fun p => sortConn p.1 p.2) := by
  induction l with
  | nil => rfl
  | cons p l ih =>
    simp only [formatAll]
    rw [if_pos (h p List.mem_cons_self), ih fun q hq => h q (List.mem_cons_of_mem _ hq)]
    rfl

theorem formatArg_ok {a : DArg K} {r : List (List Int × List K)} (h : formatArg a = .ok r) :
    ∃ l : List (List Int × List K), l.map Prod.fst = Spec.dSides a ∧
      (∀ p ∈ l, p.1.length = p.2.length) ∧ r = l.map fun p => sortConn p.1 p.2 := by
  unfold formatArg at h
  split at h
  · cases h
  · rename_i vs hv
    obtain ⟨h1, h2⟩ := formatAll_ok h
    exact ⟨_, rfl, h2, h1⟩
  · rename_i vs ws hv
    split at h
    · obtain ⟨h1, h2⟩ := formatAll_ok h
      exact ⟨_, rfl, h2, h1⟩
    · cases h
  · cases h
  · rename_i e es
    split at h
    · cases h
    · obtain ⟨h1, h2⟩ := formatAll_ok h
      exact ⟨_, by simp [Spec.dSides], h2, h1⟩
  · rename_i es wss hne
    split at h
    · rename_i hl
      obtain ⟨h1, h2⟩ := formatAll_ok h
      exact ⟨_, by rw [List.map_fst_zip (by simp [hl])]; rfl, h2, h1⟩
    · cases h

theorem format_fst {a : DArg K} {r : List (List Int × List K)} (h : formatArg a = .ok r) :
    r.map Prod.fst = (Spec.dSides a).map sortV := by
  obtain ⟨l, h1, h2, h3⟩ := formatArg_ok h
  rw [h3, ← h1, List.map_map, List.map_map]
  exact List.map_congr_left fun p hp => sortConn_fst _ _ (h2 p hp)

theorem addList_codes {src dst : DArg K} {ew : HW K}
    {l : List ((List Int × List Int) × DContent K)} (h : addList src dst ew = .ok l) :
    l.map Prod.fst = ((Spec.dSides src).zip (Spec.dSides dst)).map code := by
  unfold addList at h
  cases hs : formatArg src with
  | error e => rw [hs] at h; cases h
  | ok ss =>
    rw [hs] at h
    cases hd : formatArg dst with
    | error e => rw [hd] at h; cases h
    | ok ds =>
      rw [hd] at h
      simp only [bind, Except.bind] at h
      cases hw : weights ss.length ew with
      | error e => rw [hw] at h; cases h
      | ok ws =>
        rw [hw] at h
        simp only at h
        split at h
        · rename_i h1
          split at h
          · rename_i h2
            cases h
            rw [List.map_map]
            have e1 : (Prod.fst ∘ entry (K := K)) = (fun p => (p.1.1, p.2.1)) ∘ Prod.fst := rfl
            rw [e1, ← List.map_map, List.map_fst_zip (by simp; omega)]
            have e2 : (fun p : (List Int × List K) × (List Int × List K) => (p.1.1, p.2.1)) =
                Prod.map Prod.fst Prod.fst := rfl
            rw [e2, ← List.zip_map, format_fst hs, format_fst hd, List.zip_map]
            rfl
          · cases h
        · cases h

theorem harg_format {a : HArg} {r : List (List Int)} (h : a.format = .ok r) :
    r = (Spec.dListed a).map sortV := by
  unfold HArg.format at h
  split at h
  · cases h; rfl
  · rename_i t vs hv
    cases h
    cases vs with
    | nil => exact absurd rfl hv
    | cons v vs => rfl
  · cases h; simp [Spec.dListed]
  · cases h

/-! ### The stored hyperedges -/

/-- the groups hold the hyperedges of the specification -/
structure Rep (gs : Dict String (DGroup K)) (st : Spec.DStore) : Prop where
  eq : gs.map (fun p => (p.1, p.2.keys)) = st.map fun p => (p.1, p.2.map code)
  names : gs.keys.Nodup
  codes : ∀ p ∈ gs, (Dict.keys p.2).Nodup

theorem addG_ok {g : String} {op : MergeOp} {c : List Int × List Int} {x : DContent K}
    {gs gs' : Dict String (DGroup K)} (h : addG g op c x gs = .ok gs') :
    ∃ d', gs' = gs.set g d' ∧ (∀ k, k ≠ c → d'.get? k = ((gs.get? g).getD []).get? k) ∧
      Dict.keys d' = (if c ∈ Dict.keys ((gs.get? g).getD []) then Dict.keys ((gs.get? g).getD [])
        else Dict.keys ((gs.get? g).getD []) ++ [c]) := by
  unfold addG at h
  cases hg : gs.get? g with
  | none =>
    rw [hg] at h
    cases h
    refine ⟨_, rfl, ?_, by simp⟩
    intro k hk
    simp [Dict.get?, Ne.symm hk]
  | some d =>
    rw [hg] at h
    simp only at h
    cases hc : d.get? c with
    | none =>
      rw [hc] at h
      cases h
      have hm := (Dict.get?_eq_none_iff _ _).1 hc
      refine ⟨_, rfl, ?_, ?_⟩
      · intro k hk; rw [Dict.get?_set, if_neg (Ne.symm hk)]; rfl
      · simp only [Option.getD_some]
        rw [if_neg hm, Dict.set_of_notMem _ _ _ hm]
        simp [Dict.keys]
    | some o =>
      rw [hc] at h
      have hm : c ∈ Dict.keys d := by
        rw [← Dict.get?_isSome_iff, hc]; rfl
      simp only at h
      cases hy : mergeContent op o x with
      | error e => rw [hy] at h; cases h
      | ok y =>
        rw [hy] at h
        cases h
        refine ⟨_, rfl, ?_, ?_⟩
        · intro k hk; rw [Dict.get?_set, if_neg (Ne.symm hk)]; rfl
        · simp only [Option.getD_some]
          rw [if_pos hm, Dict.keys_set_of_mem _ _ _ hm]

theorem rep_set {g : String} {c : Spec.DEdge} {d' : DGroup K} {gs : Dict String (DGroup K)}
    {st : Spec.DStore}
    (h : gs.map (fun p => (p.1, p.2.keys)) = st.map fun p => (p.1, p.2.map code))
    (hd : Dict.keys d' = (if code c ∈ Dict.keys ((gs.get? g).getD []) then
      Dict.keys ((gs.get? g).getD []) else Dict.keys ((gs.get? g).getD []) ++ [code c])) :
    (gs.set g d').map (fun p => (p.1, Dict.keys p.2)) =
      (Spec.dAdd g c st).map fun p => (p.1, p.2.map code) := by
  induction gs generalizing st with
  | nil =>
    cases st with
    | nil =>
      simp only [Dict.get?, Option.getD_none, Dict.keys_nil, List.not_mem_nil, if_false,
        List.nil_append] at hd
      simp [Dict.set, Spec.dAdd, hd]
    | cons p st => simp at h
  | cons p gs ih =>
    cases st with
    | nil => simp at h
    | cons q st =>
      obtain ⟨g0, d0⟩ := p
      obtain ⟨g1, l⟩ := q
      simp only [List.map_cons, List.cons.injEq, Prod.mk.injEq] at h
      obtain ⟨⟨rfl, h0⟩, h1⟩ := h
      by_cases hg : g0 = g
      · subst hg
        simp only [Dict.get?, if_true, Option.getD_some] at hd
        simp only [Dict.set, if_true, Spec.dAdd, List.map_cons, h1, hd, h0, List.cons.injEq,
          Prod.mk.injEq, true_and, and_true]
        have e : code c ∈ l.map code ↔ ∃ c' ∈ l, Spec.SameEdge c' c := by
          rw [List.mem_map]
          exact ⟨fun ⟨a, ha, hc⟩ => ⟨a, ha, code_eq_iff.1 hc⟩, fun ⟨a, ha, hc⟩ => ⟨a, ha, code_eq_iff.2 hc⟩⟩
        by_cases hc : code c ∈ l.map code
        · rw [if_pos hc, if_pos (e.1 hc)]
        · rw [if_neg hc, if_neg (fun h => hc (e.2 h))]; simp
      · simp only [Dict.get?, if_neg hg] at hd
        simp only [Dict.set, if_neg hg, Spec.dAdd, List.map_cons, h0, ih h1 hd]

theorem mem_set {g : String} {d' : DGroup K} {gs : Dict String (DGroup K)} {p : String × DGroup K}
    (h : p ∈ gs.set g d') : p.2 = d' ∨ p ∈ gs := by
  induction gs with
  | nil => simp only [Dict.set, List.mem_singleton] at h; exact .inl (by rw [h])
  | cons q gs ih =>
    obtain ⟨g0, d0⟩ := q
    simp only [Dict.set] at h
    split at h
    · rcases List.mem_cons.1 h with h | h
      · exact .inl (by rw [h])
      · exact .inr (List.mem_cons_of_mem _ h)
    · rcases List.mem_cons.1 h with h | h
      · exact .inr (by rw [h]; exact List.mem_cons_self)
      · exact (ih h).imp id (List.mem_cons_of_mem _)

theorem Rep.group {gs : Dict String (DGroup K)} {st : Spec.DStore} (h : Rep gs st) (g : String) :
    (Dict.keys ((gs.get? g).getD [])).Nodup := by
  cases hg : gs.get? g with
  | none => simp
  | some d => exact h.codes _ ((Dict.get?_eq_some_iff _ h.names _ _).1 hg)

theorem Rep.add {g : String} {op : MergeOp} {c : Spec.DEdge} {x : DContent K}
    {gs gs' : Dict String (DGroup K)} {st : Spec.DStore} (h : Rep gs st)
    (ha : addG g op (code c) x gs = .ok gs') : Rep gs' (Spec.dAdd g c st) := by
  obtain ⟨d', rfl, _, hd⟩ := addG_ok ha
  refine ⟨rep_set h.eq hd, Dict.nodup_set _ _ _ h.names, ?_⟩
  intro p hp
  rcases mem_set hp with hp | hp
  · rw [hp, hd]
    have := h.group g
    split
    · exact this
    · rename_i hc
      rw [List.nodup_append]
      exact ⟨this, List.nodup_singleton _, fun a ha b hb => by
        rw [List.mem_singleton.1 hb]; rintro rfl; exact hc ha⟩
  · exact h.codes p hp

theorem Rep.addAll {g : String} {op : MergeOp} {es : List Spec.DEdge}
    {l : List ((List Int × List Int) × DContent K)} (hl : l.map Prod.fst = es.map code)
    {gs gs' : Dict String (DGroup K)} {st : Spec.DStore} (h : Rep gs st)
    (ha : addAllG g op l gs = .ok gs') : Rep gs' (es.foldl (fun st c => Spec.dAdd g c st) st) := by
  induction l generalizing es gs st with
  | nil =>
    cases es with
    | nil => cases ha; exact h
    | cons e es => simp at hl
  | cons p l ih =>
    cases es with
    | nil => simp at hl
    | cons e es =>
      obtain ⟨pc, px⟩ := p
      simp only [List.map_cons, List.cons.injEq] at hl
      obtain ⟨rfl, hl⟩ := hl
      simp only [addAllG] at ha
      cases hg : addG g op (code e) px gs with
      | error e => rw [hg] at ha; cases ha
      | ok gs1 =>
        rw [hg] at ha
        exact ih hl (h.add hg) ha

theorem addAllG_other {g : String} {op : MergeOp}
    {l : List ((List Int × List Int) × DContent K)} {gs gs' : Dict String (DGroup K)}
    (ha : addAllG g op l gs = .ok gs') {g' : String} (hg : g' ≠ g) : gs'.get? g' = gs.get? g' := by
  induction l generalizing gs with
  | nil => cases ha; rfl
  | cons p l ih =>
    simp only [addAllG] at ha
    cases h1 : addG g op p.1 p.2 gs with
    | error e => rw [h1] at ha; cases ha
    | ok gs1 =>
      rw [h1] at ha
      obtain ⟨d', rfl, _⟩ := addG_ok h1
      rw [ih ha, Dict.get?_set, if_neg (Ne.symm hg)]

theorem keys_del {d : DGroup K} {c : List Int × List Int} (h : (Dict.keys d).Nodup) :
    Dict.keys (d.del c) = (Dict.keys d).filter fun k => decide (k ≠ c) := by
  induction d with
  | nil => rfl
  | cons p d ih =>
    obtain ⟨k, x⟩ := p
    simp only [Dict.keys_cons, List.nodup_cons] at h
    simp only [Dict.del]
    by_cases hk : k = c
    · subst hk
      rw [if_pos rfl]
      simp only [Dict.keys_cons]
      rw [List.filter_cons_of_neg (by simp)]
      refine (List.filter_eq_self.2 fun a ha => ?_).symm
      simp only [ne_eq, decide_not, Bool.not_eq_true', decide_eq_false_iff_not]
      rintro rfl
      exact h.1 ha
    · rw [if_neg hk]
      simp only [Dict.keys_cons]
      rw [List.filter_cons_of_pos (by simpa using hk), ih h.2]

theorem delG_other (g : String) (c : List Int × List Int) (gs : Dict String (DGroup K)) {g' : String}
    (hg : g' ≠ g) : (delG g c gs).get? g' = gs.get? g' := by
  unfold delG
  cases gs.get? g with
  | none => rfl
  | some d => simp only; rw [Dict.get?_set, if_neg (Ne.symm hg)]

theorem dDel_notMem {g : String} {c : Spec.DEdge} {st : Spec.DStore} (h : g ∉ st.map Prod.fst) :
    Spec.dDel g c st = st := by
  unfold Spec.dDel
  refine (List.map_congr_left fun p hp => ?_).trans (List.map_id _)
  rw [if_neg]
  · rfl
  · rintro rfl
    exact h (List.mem_map_of_mem hp)

theorem map_fst_of_rep {gs : Dict String (DGroup K)} {st : Spec.DStore}
    (h : gs.map (fun p => (p.1, p.2.keys)) = st.map fun p => (p.1, p.2.map code)) :
    gs.keys = st.map Prod.fst := by
  have := congrArg (List.map Prod.fst) h
  rw [List.map_map, List.map_map] at this
  exact this

theorem rep_del {g : String} {c : Spec.DEdge} {gs : Dict String (DGroup K)} {st : Spec.DStore}
    (h : gs.map (fun p => (p.1, p.2.keys)) = st.map fun p => (p.1, p.2.map code))
    (hn : gs.keys.Nodup) (hc : ∀ p ∈ gs, (Dict.keys p.2).Nodup) :
    (delG g (code c) gs).map (fun p => (p.1, Dict.keys p.2)) =
      (Spec.dDel g c st).map fun p => (p.1, p.2.map code) := by
  induction gs generalizing st with
  | nil =>
    cases st with
    | nil => rfl
    | cons p st => simp at h
  | cons p gs ih =>
    cases st with
    | nil => simp at h
    | cons q st =>
      have hk := map_fst_of_rep h
      obtain ⟨g0, d0⟩ := p
      obtain ⟨g1, l⟩ := q
      simp only [List.map_cons, List.cons.injEq, Prod.mk.injEq] at h
      obtain ⟨⟨rfl, h0⟩, h1⟩ := h
      simp only [Dict.keys_cons, List.nodup_cons] at hn
      by_cases hg : g0 = g
      · subst hg
        have e1 : delG g0 (code c) ((g0, d0) :: gs) = (g0, d0.del (code c)) :: gs := by
          simp [delG, Dict.get?, Dict.set]
        have e2 : Spec.dDel g0 c ((g0, l) :: st) =
            (g0, l.filter fun c' => ¬ Spec.SameEdge c' c) :: st := by
          have := dDel_notMem (g := g0) (c := c) (st := st) (by rw [← map_fst_of_rep h1]; exact hn.1)
          unfold Spec.dDel at this ⊢
          rw [List.map_cons, this, if_pos rfl]
        rw [e1, e2]
        simp only [List.map_cons, h1, List.cons.injEq, Prod.mk.injEq, true_and, and_true]
        rw [keys_del (hc _ List.mem_cons_self), h0, List.filter_map]
        congr 1
        refine List.filter_congr fun a _ => ?_
        simp only [Function.comp, ne_eq, code_eq_iff]
      · have e1 : delG g (code c) ((g0, d0) :: gs) = (g0, d0) :: delG g (code c) gs := by
          simp only [delG, Dict.get?, if_neg hg]
          cases Dict.get? gs g with
          | none => rfl
          | some d => simp [Dict.set, hg]
        have e2 : Spec.dDel g c ((g0, l) :: st) = (g0, l) :: Spec.dDel g c st := by
          unfold Spec.dDel
          rw [List.map_cons, if_neg hg]
        rw [e1, e2, List.map_cons, List.map_cons, ih h1 hn.2 fun p hp => hc p (List.mem_cons_of_mem _ hp)]
        simp only [h0]

theorem Rep.del {g : String} {c : Spec.DEdge} {gs : Dict String (DGroup K)} {st : Spec.DStore}
    (h : Rep gs st) : Rep (delG g (code c) gs) (Spec.dDel g c st) := by
  refine ⟨rep_del h.eq h.names h.codes, ?_, ?_⟩
  · unfold delG
    cases gs.get? g with
    | none => exact h.names
    | some d => exact Dict.nodup_set _ _ _ h.names
  · intro p hp
    unfold delG at hp
    cases hg : gs.get? g with
    | none => rw [hg] at hp; exact h.codes p hp
    | some d =>
      rw [hg] at hp
      rcases mem_set hp with hp | hp
      · rw [hp]
        exact Dict.nodup_del _ _ (h.codes _ ((Dict.get?_eq_some_iff _ h.names _ _).1 hg))
      · exact h.codes p hp

theorem Rep.delAll {g : String} {es : List Spec.DEdge} {gs : Dict String (DGroup K)}
    {st : Spec.DStore} (h : Rep gs st) :
    Rep ((es.map code).foldl (fun gs c => delG g c gs) gs)
      (es.foldl (fun st c => Spec.dDel g c st) st) := by
  induction es generalizing gs st with
  | nil => exact h
  | cons e es ih => exact ih h.del

theorem delAll_other {g : String} {cs : List (List Int × List Int)} {gs : Dict String (DGroup K)}
    {g' : String} (hg : g' ≠ g) :
    Dict.get? (cs.foldl (fun gs c => delG g c gs) gs) g' = gs.get? g' := by
  induction cs generalizing gs with
  | nil => rfl
  | cons c cs ih => rw [List.foldl_cons, ih, delG_other _ _ _ hg]

/-- what holds of every object -/
structure Good (n : Nat) (s : DHSt K) (st : Spec.DStore) : Prop where
  numV : s.raw.numV = n
  coh : Coh s
  rep : Rep s.raw.groups st

theorem good_of_built {n : Nat} {s : DHSt K} {st : Spec.DStore} (h : Spec.DirBuilt n s st) :
    Good n s st := by
  induction h with
  | @new s h =>
    unfold DirH.new at h
    split at h
    · cases h
      exact ⟨by simp, coherent_nil _, ⟨rfl, by simp, by simp⟩⟩
    · cases h
  | @read s st q _ ih =>
    obtain ⟨_, h2, h3, h4⟩ := ih.coh.ask q
    exact ⟨h2.trans ih.numV, h4, by rw [h3]; exact ih.rep⟩
  | @call s st op _ hok ih =>
    cases op with
    | add src dst ew op g =>
      obtain ⟨h1, h2⟩ := addHyperedges_eq src dst ew op g s
      simp only [apply] at hok ⊢
      rw [h1] at hok
      cases hl : addList src dst ew with
      | error e => rw [hl] at hok; cases hok
      | ok l =>
        rw [hl] at hok
        cases ha : addAllG g op l s.raw.groups with
        | error e => simp only [bind, Except.bind, ha] at hok; cases hok
        | ok gs =>
          rw [h2 l gs hl ha]
          refine ⟨ih.numV, coh_filter ih.coh rfl fun g' hg => addAllG_other ha hg, ?_⟩
          exact ih.rep.addAll (addList_codes hl) ha
    | remove src dst g =>
      simp only [apply] at hok ⊢
      obtain ⟨g', ss, ds, rfl, _, hs, hd, _, h2⟩ := removeHyperedges_ok hok
      rw [h2]
      refine ⟨ih.numV, coh_filter ih.coh rfl fun g'' hg => delAll_other hg, ?_⟩
      rw [harg_format hs, harg_format hd, List.zip_map]
      exact ih.rep.delAll
    | clear =>
      exact ⟨ih.numV, coherent_nil _, ⟨rfl, by simp [DirH.apply, DirH.clear, setRaw, clearCache], by
        intro p hp; exact absurd hp List.not_mem_nil⟩⟩
    | setVWeight w =>
      simp only [apply, setVWeight, PyM.bind_apply, readRaw, id, assert_apply] at hok ⊢
      by_cases hw : w.length = s.raw.numV
      · simp only [hw, decide_true, if_true]
        exact ⟨ih.numV, coherent_nil _, ih.rep⟩
      · simp [hw] at hok

/-! ### Incidence matrices -/

theorem sum_ones (idx : List (Int × Int)) (x : Int × Int) (n : Nat) (h : idx.length = n) :
    ((idx.zip (List.replicate n (1 : K))).map fun e => if e.1 = x then e.2 else 0).sum =
      (idx.count x : K) := by
  induction idx generalizing n with
  | nil => simp
  | cons a idx ih =>
    subst h
    simp only [List.length_cons, List.replicate_succ, List.zip_cons_cons, List.map_cons, List.sum_cons]
    rw [ih _ rfl, List.count_cons]
    by_cases ha : a = x
    · simp [ha, add_comm]
    · simp [ha]

theorem count_idx_lt {α : Type} (f : α → List Int) (ks : List α) (k j : Nat) (i : Int) (h : j < k) :
    ((ks.zipIdx k).flatMap fun p => (f p.1).map fun v => (v, (p.2 : Int))).count (i, (j : Int)) = 0 := by
  rw [List.count_eq_zero]
  intro hm
  obtain ⟨p, hp, hv⟩ := List.mem_flatMap.1 hm
  obtain ⟨v, _, hv⟩ := List.mem_map.1 hv
  have := List.le_snd_of_mem_zipIdx hp
  have := (Prod.mk.inj hv).2
  omega

theorem count_idx {α : Type} (f : α → List Int) (ks : List α) (k j : Nat) (i : Int) :
    ((ks.zipIdx k).flatMap fun p => (f p.1).map fun v => (v, (p.2 : Int))).count
      (i, ((k + j : Nat) : Int)) = ((ks.map f).getD j []).count i := by
  induction ks generalizing k j with
  | nil => simp
  | cons a ks ih =>
    simp only [List.zipIdx_cons, List.flatMap_cons, List.count_append, List.map_cons]
    cases j with
    | zero =>
      rw [count_idx_lt f ks (k + 1) (k + 0) i (by omega)]
      simp only [Nat.add_zero, List.getD_cons_zero]
      rw [List.count_eq_countP, List.countP_map, List.count_eq_countP]
      refine List.countP_congr fun v _ => ?_
      simp
    | succ j =>
      have h0 : ((f a).map fun v => (v, (k : Int))).count (i, ((k + (j + 1) : Nat) : Int)) = 0 := by
        rw [List.count_eq_zero]
        intro hm
        obtain ⟨v, _, hv⟩ := List.mem_map.1 hm
        have := (Prod.mk.inj hv).2
        omega
      rw [h0, Nat.zero_add, List.getD_cons_succ, ← ih (k + 1) j]
      congr 2
      push_cast
      ring

/-- the incidence matrix of vertex lists -/
abbrev IncC (n : Nat) (l : List (List Int)) (M : Sp K) : Prop :=
  Spec.IsMat n l.length (fun i j => ((l.getD j []).count (i : Int) : K)) M

theorem fetchH_spec (sd : Side) (n : Nat) (d : DGroup K)
    (hd : ∀ c ∈ Dict.keys d, ∀ v ∈ Side.sub sd c, 0 ≤ v ∧ v < (n : Int)) :
    ∃ M, fetchH sd n d = .ok M ∧ IncC n ((Dict.keys d).map (Side.sub sd)) M := by
  unfold fetchH
  simp only
  set idx : List (Int × Int) := d.keys.zipIdx.flatMap fun p =>
    (Side.sub sd p.1).map fun v => (v, (p.2 : Int)) with hidx
  have hshape : ∀ p ∈ idx, InShape n (List.length d) p := by
    intro p hp
    rw [hidx] at hp
    obtain ⟨q, hq, hv⟩ := List.mem_flatMap.1 hp
    obtain ⟨v, hv', rfl⟩ := List.mem_map.1 hv
    have h1 := List.mem_zipIdx' hq
    have h2 := hd q.1 (by rw [h1.2]; exact List.getElem_mem _) v hv'
    have h3 := h1.1
    rw [Dict.length_keys] at h3
    unfold InShape
    simp only
    omega
  have hb := Sp.build_eq n (List.length d) idx (List.replicate idx.length (1 : K))
  rw [if_pos ⟨by simp, hshape⟩] at hb
  obtain ⟨w1, w2, w3⟩ := Sp.build_WF hb
  refine ⟨_, by rw [hb]; exact rfl, ⟨?_, ?_, w1.coalesce, ?_⟩⟩
  · rfl
  · rw [List.length_map, Dict.length_keys]; rfl
  · intro i j _ _
    rw [Sp.get_coalesce, Sp.build_get hb, sum_ones _ _ _ rfl]
    have := count_idx (Side.sub sd) (Dict.keys d) 0 j (i : Int)
    rw [Nat.zero_add] at this
    rw [hidx, this]

theorem fetchH_error (sd : Side) (n : Nat) (d : DGroup K)
    (hd : ∃ c ∈ Dict.keys d, ∃ v ∈ Side.sub sd c, ¬ (0 ≤ v ∧ v < (n : Int))) :
    fetchH sd n d = .error .runtime := by
  unfold fetchH
  simp only
  rw [Sp.build_eq, if_neg]
  · rfl
  · rintro ⟨_, h⟩
    obtain ⟨c, hc, v, hv, hn⟩ := hd
    obtain ⟨j, hj, rfl⟩ := List.getElem_of_mem hc
    have := h (v, (j : Int)) (by
      refine List.mem_flatMap.2 ⟨((Dict.keys d)[j], j), ?_, List.mem_map.2 ⟨v, hv, rfl⟩⟩
      rw [List.mem_zipIdx_iff_getElem?]
      simp [hj])
    unfold InShape at this
    simp only at this
    exact hn ⟨this.1, this.2.1⟩

theorem get_shift (l : Ents K) (k i j : Nat) :
    Ents.get (l.map fun e => ((e.1.1, e.1.2 + k), e.2)) i j = if k ≤ j then Ents.get l i (j - k) else 0 := by
  unfold Ents.get
  rw [List.map_map]
  by_cases h : k ≤ j
  · rw [if_pos h]
    congr 1
    refine List.map_congr_left fun e _ => ?_
    obtain ⟨⟨a, b⟩, x⟩ := e
    simp only [Function.comp, Prod.mk.injEq]
    have : (a = i ∧ b + k = j) ↔ (a = i ∧ b = j - k) := by omega
    simp only [this]
  · rw [if_neg h]
    apply List.sum_eq_zero
    intro x hx
    obtain ⟨e, _, rfl⟩ := List.mem_map.1 hx
    simp only [Function.comp, Prod.mk.injEq]
    rw [if_neg]
    omega

theorem hcat_inc {n : Nat} {l l' : List (List Int)} {P Q : Sp K} (hP : IncC n l P)
    (hQ : IncC n l' Q) : ∃ R, P.hcat Q = .ok R ∧ IncC n (l ++ l') R := by
  unfold Sp.hcat
  rw [if_pos (hP.rows.trans hQ.rows.symm)]
  refine ⟨_, rfl, hP.rows, ?_, ?_, ?_⟩
  · simp [hP.cols, hQ.cols]
  · intro e he
    rcases List.mem_append.1 he with h | h
    · have := hP.wf e h
      show e.1.1 < P.rows ∧ e.1.2 < P.cols + Q.cols
      omega
    · obtain ⟨e', he', rfl⟩ := List.mem_map.1 h
      have := hQ.wf e' he'
      have h1 := hP.rows
      have h2 := hQ.rows
      show e'.1.1 < P.rows ∧ e'.1.2 + P.cols < P.cols + Q.cols
      omega
  · intro i j hi hj
    have hg : Sp.get { rows := P.rows, cols := P.cols + Q.cols, ents := P.ents ++ (Q.ents.map fun e => ((e.1.1, e.1.2 + P.cols), e.2)) } i j =
        P.get i j + if P.cols ≤ j then Q.get i (j - P.cols) else 0 := by
      unfold Sp.get
      rw [Ents.get_append, get_shift]
    rw [hg, hP.cols]
    by_cases h : l.length ≤ j
    · rw [if_pos h, Sp.get_eq_zero_of_ge hP.wf (.inr (by rw [hP.cols]; exact h)), zero_add]
      rw [List.length_append] at hj
      rw [hQ.get i (j - l.length) hi (by omega)]
      simp only [List.getD_eq_getElem?_getD, List.getElem?_append_right h]
    · rw [if_neg h, add_zero, hP.get i j hi (by omega)]
      simp only [List.getD_eq_getElem?_getD, List.getElem?_append_left (Nat.lt_of_not_le h)]

theorem catCols_inc {n : Nat} {ls : List (List (List Int))} {Ms : List (Sp K)}
    (h : List.Forall₂ (fun l M => IncC n l M) ls Ms) (hne : ls ≠ []) :
    ∃ R, Sp.catCols Ms = .ok R ∧ IncC n ls.flatten R := by
  induction h with
  | nil => exact absurd rfl hne
  | @cons l M ls Ms h1 h2 ih =>
    cases h2 with
    | nil => exact ⟨M, rfl, by simpa using h1⟩
    | @cons l' M' ls Ms h3 h4 =>
      obtain ⟨R, hR, hI⟩ := ih (by simp)
      obtain ⟨R', hR', hI'⟩ := hcat_inc h1 hI
      refine ⟨R', ?_, by simpa using hI'⟩
      show (Sp.catCols (M' :: Ms) >>= fun R => M.hcat R) = _
      rw [hR]; exact hR'

theorem evGroup_mem {r : DHRaw K} (hr : r.groups.keys.Nodup) {p : String × DGroup K}
    (hp : p ∈ r.groups) : evGroup r p.1 = .ok p.2 := by
  have : r.groups.get? p.1 = some p.2 := (Dict.get?_eq_some_iff _ hr _ _).2 hp
  simp only [evGroup, this]

/-- the vertices of the scope are in range -/
theorem evH_none {r : DHRaw K} (hr : r.groups.keys.Nodup) (hne : r.groups ≠ []) (sd : Side)
    (hv : ∀ p ∈ r.groups, ∀ c ∈ Dict.keys p.2, ∀ v ∈ Side.sub sd c, 0 ≤ v ∧ v < (r.numV : Int)) :
    ∃ M, evH sd none r = .ok M ∧
      IncC r.numV (r.groups.flatMap fun p => (Dict.keys p.2).map (Side.sub sd)) M := by
  have : ∀ gs : List (String × DGroup K), (∀ p ∈ gs, p ∈ r.groups) →
      ∃ Ms, collectE (gs.map Prod.fst) (evHOf sd r) = .ok Ms ∧
        List.Forall₂ (fun l M => IncC r.numV l M)
          (gs.map fun p => (Dict.keys p.2).map (Side.sub sd)) Ms := by
    intro gs
    induction gs with
    | nil => intro _; exact ⟨[], rfl, .nil⟩
    | cons p gs ih =>
      intro h
      obtain ⟨Ms, hMs, hf⟩ := ih fun q hq => h q (List.mem_cons_of_mem _ hq)
      have hp := h p List.mem_cons_self
      obtain ⟨M, hM, hI⟩ := fetchH_spec sd r.numV p.2 (hv p hp)
      refine ⟨M :: Ms, ?_, .cons hI hf⟩
      have h1 : evHOf sd r p.1 = .ok M := by
        unfold evHOf; rw [evGroup_mem hr hp]; exact hM
      simp only [List.map_cons, collectE]
      rw [h1, hMs]; rfl
  obtain ⟨Ms, hMs, hf⟩ := this r.groups fun p hp => hp
  obtain ⟨R, hR, hI⟩ := catCols_inc hf (by simpa using hne)
  refine ⟨R, ?_, by rw [List.flatMap_def]; exact hI⟩
  simp only [evH]
  rw [show r.groups.keys = List.map Prod.fst r.groups from rfl, hMs]
  exact hR

theorem evH_none_error {r : DHRaw K} (hr : r.groups.keys.Nodup) (sd : Side)
    (hv : ∃ p ∈ r.groups, ∃ c ∈ Dict.keys p.2, ∃ v ∈ Side.sub sd c, ¬ (0 ≤ v ∧ v < (r.numV : Int))) :
    evH sd none r = .error .runtime := by
  have : ∀ gs : List (String × DGroup K), (∀ p ∈ gs, p ∈ r.groups) →
      (∃ p ∈ gs, ∃ c ∈ Dict.keys p.2, ∃ v ∈ Side.sub sd c, ¬ (0 ≤ v ∧ v < (r.numV : Int))) →
      collectE (gs.map Prod.fst) (evHOf sd r) = .error .runtime := by
    intro gs
    induction gs with
    | nil => rintro _ ⟨p, hp, _⟩; cases hp
    | cons p gs ih =>
      intro h hx
      have hp := h p List.mem_cons_self
      have h1 : evHOf sd r p.1 = fetchH sd r.numV p.2 := by
        unfold evHOf; rw [evGroup_mem hr hp]; rfl
      simp only [List.map_cons, collectE]
      rw [h1]
      by_cases hb : ∃ c ∈ Dict.keys p.2, ∃ v ∈ Side.sub sd c, ¬ (0 ≤ v ∧ v < (r.numV : Int))
      · rw [fetchH_error sd r.numV p.2 hb]; rfl
      · obtain ⟨q, hq, hx⟩ := hx
        rcases List.mem_cons.1 hq with rfl | hq
        · exact absurd hx hb
        · rw [ih (fun q hq => h q (List.mem_cons_of_mem _ hq)) ⟨q, hq, hx⟩]
          obtain ⟨M, hM, _⟩ := fetchH_spec sd r.numV p.2 fun c hc v hv' => by
            by_contra hn
            exact hb ⟨c, hc, v, hv', hn⟩
          rw [hM]; rfl
  simp only [evH]
  rw [show r.groups.keys = List.map Prod.fst r.groups from rfl, this r.groups (fun p hp => hp) hv]
  rfl

/-! ### The scopes of the specification -/

theorem Rep.find {gs : Dict String (DGroup K)} {st : Spec.DStore}
    (h : gs.map (fun p => (p.1, p.2.keys)) = st.map fun p => (p.1, p.2.map code)) (g : String) :
    (gs.get? g).map Dict.keys = (Spec.dScope st (some g)).map (List.map code) := by
  induction gs generalizing st with
  | nil =>
    cases st with
    | nil => rfl
    | cons p st => simp at h
  | cons p gs ih =>
    cases st with
    | nil => simp at h
    | cons q st =>
      obtain ⟨g0, d0⟩ := p
      obtain ⟨g1, l⟩ := q
      simp only [List.map_cons, List.cons.injEq, Prod.mk.injEq] at h
      obtain ⟨⟨rfl, h0⟩, h1⟩ := h
      have := ih h1
      simp only [Spec.dScope] at this ⊢
      by_cases hg : g0 = g
      · subst hg
        simp [Dict.get?, h0]
      · rw [List.find?_cons_of_neg (by simpa using hg)]
        simp only [Dict.get?, if_neg hg]
        exact this

theorem Rep.scope_some {gs : Dict String (DGroup K)} {st : Spec.DStore} (h : Rep gs st) {g : String}
    {l : List Spec.DEdge} (hl : Spec.dScope st (some g) = some l) :
    ∃ d, gs.get? g = some d ∧ Dict.keys d = l.map code := by
  have := Rep.find h.eq g
  rw [hl] at this
  cases hd : gs.get? g with
  | none => rw [hd] at this; cases this
  | some d => rw [hd] at this; exact ⟨d, rfl, Option.some.inj this⟩

theorem Rep.scope_none {gs : Dict String (DGroup K)} {st : Spec.DStore} (h : Rep gs st) {g : String}
    (hl : Spec.dScope st (some g) = none) : gs.get? g = none := by
  have := Rep.find h.eq g
  rw [hl] at this
  cases hd : gs.get? g with
  | none => rfl
  | some d => rw [hd] at this; cases this

theorem Rep.all {gs : Dict String (DGroup K)} {st : Spec.DStore} (h : Rep gs st) :
    gs.flatMap (fun p => Dict.keys p.2) = (st.flatMap Prod.snd).map code := by
  have := congrArg (fun l => l.flatMap Prod.snd) h.eq
  simp only [List.flatMap_map] at this
  rw [this, List.map_flatMap]

theorem sub_code (sd : Side) (c : Spec.DEdge) : Side.sub sd (code c) = sortV (Spec.side sd c) := by
  cases sd <;> rfl

theorem isMat_side {n : Nat} (sd : Side) {l : List Spec.DEdge} {M : Sp K}
    (h : IncC n ((l.map code).map (Side.sub sd)) M) :
    Spec.IsMat n l.length (fun i j => ((Spec.side sd (l.getD j ([], []))).count (i : Int) : K)) M := by
  refine ⟨h.rows, ?_, h.wf, ?_⟩
  · rw [h.cols]; simp
  · intro i j hi hj
    rw [h.get i j hi (by simpa using hj)]
    simp only [List.getD_eq_getElem?_getD, List.getElem?_map, List.getElem?_eq_getElem hj,
      Option.map_some, Option.getD_some, sub_code]
    rw [(sortV_perm _).count_eq]

/-! ### The contents -/

theorem entry_of_addList {src dst : DArg K} {ew : HW K}
    {l : List ((List Int × List Int) × DContent K)} (h : addList src dst ew = .ok l) :
    ∃ as bs : List (List Int × List K), ∃ ws : List K,
      formatArg src = .ok as ∧ formatArg dst = .ok bs ∧ weights as.length ew = .ok ws ∧
      as.length = ws.length ∧ as.length = bs.length ∧ l = ((as.zip bs).zip ws).map entry := by
  unfold addList at h
  cases hs : formatArg src with
  | error e => rw [hs] at h; cases h
  | ok ss =>
    cases hd : formatArg dst with
    | error e => rw [hs, hd] at h; cases h
    | ok ds =>
      rw [hs, hd] at h
      cases hw : weights ss.length ew with
      | error e =>
        simp only [bind, Except.bind, hw] at h
        cases h
      | ok ws =>
        simp only [bind, Except.bind, hw] at h
        split at h
        · split at h
          · cases h; exact ⟨ss, ds, ws, rfl, rfl, hw, by assumption, by assumption, rfl⟩
          · cases h
        · cases h

theorem formatArg_get {a : DArg K} {r : List (List Int × List K)} (h : formatArg a = .ok r) :
    r.length = (Spec.dSides a).length ∧ ∀ i, (hi : i < r.length) →
      Spec.KeepsWeights ((Spec.dSides a).getD i []) (Spec.dConnW a i) (r[i]).2 := by
  have key : ∀ (vs : List Int) (ws : List K), vs.length = ws.length →
      Spec.KeepsWeights vs ws (sortConn vs ws).2 := by
    intro vs ws hl
    refine ⟨sortConn_snd_length vs ws hl, ?_⟩
    have := sortConn_zip vs ws
    rwa [sortConn_fst vs ws hl] at this
  have hlen : r.length = (Spec.dSides a).length := by
    have := congrArg List.length (format_fst h)
    simpa using this
  refine ⟨hlen, ?_⟩
  unfold formatArg at h
  split at h
  · cases h
  · obtain ⟨rfl, h2⟩ := formatAll_ok h
    intro i hi
    have : i = 0 := by simpa using hi
    subst this
    exact key _ _ (h2 _ List.mem_cons_self)
  · split at h
    · obtain ⟨rfl, h2⟩ := formatAll_ok h
      intro i hi
      have : i = 0 := by simpa using hi
      subst this
      exact key _ _ (h2 _ List.mem_cons_self)
    · cases h
  · cases h
  · split at h
    · cases h
    · obtain ⟨rfl, h2⟩ := formatAll_ok h
      intro i hi
      rename_i e es _
      have hi' : i < (e :: es).length := by simpa using hi
      have := key _ _ (h2 _ (List.getElem_mem (l := (e :: es).map fun s =>
        (s.items, List.replicate s.items.length (1 : K))) (n := i) (by simpa using hi')))
      simp only [List.getElem_map] at this
      simp only [Spec.dSides, Spec.dConnW, List.getD_eq_getElem?_getD, List.getElem?_map,
        List.getElem?_eq_getElem hi', Option.map_some, Option.getD_some, List.getElem_map]
      exact this
  · split at h
    · rename_i es wss _ hl
      obtain ⟨rfl, h2⟩ := formatAll_ok h
      intro i hi
      have hi' : i < ((es.map PySeq.items).zip wss).length := by simpa using hi
      have := key _ _ (h2 _ (List.getElem_mem hi'))
      have hie : i < es.length := by simp at hi'; exact hi'.1
      have hiw : i < wss.length := by omega
      rw [List.getElem_zip, List.getElem_map] at this
      simp only [Spec.dSides, Spec.dConnW, List.getD_eq_getElem?_getD, List.getElem?_map,
        List.getElem?_eq_getElem hie, List.getElem?_eq_getElem hiw, Option.map_some,
        Option.getD_some, List.getElem_map, List.getElem_zip]
      exact this
    · cases h

/-- what is stored under a code -/
def lookup (gs : Dict String (DGroup K)) (g : String) (k : List Int × List Int) :
    Option (DContent K) := (gs.get? g).bind fun d => d.get? k

theorem dStored_eq (s : DHSt K) (g : String) (c : Spec.DEdge) :
    Spec.dStored s g c = lookup s.raw.groups g (code c) := rfl

theorem lookup_getD (gs : Dict String (DGroup K)) (g : String) (k : List Int × List Int) :
    Dict.get? ((gs.get? g).getD []) k = lookup gs g k := by
  unfold lookup
  cases gs.get? g <;> rfl

theorem addG_lookup {g : String} {op : MergeOp} {c : List Int × List Int} {x : DContent K}
    {gs gs' : Dict String (DGroup K)} (h : addG g op c x gs = .ok gs') :
    (lookup gs g c = none → lookup gs' g c = some x) ∧
    (∀ o, lookup gs g c = some o → ∃ y, mergeContent op o x = .ok y ∧ lookup gs' g c = some y) ∧
    (∀ k, k ≠ c → lookup gs' g k = lookup gs g k) := by
  refine ⟨?_, ?_, ?_⟩
  · intro hn
    unfold lookup at hn
    unfold addG at h
    cases hg : gs.get? g with
    | none => rw [hg] at h; cases h; simp [lookup, Dict.get?_set, Dict.get?]
    | some d =>
      rw [hg] at h hn
      simp only [Option.bind_some] at hn
      simp only [hn] at h
      cases h
      simp [lookup, Dict.get?_set]
  · intro o hn
    unfold lookup at hn
    unfold addG at h
    cases hg : gs.get? g with
    | none => rw [hg] at hn; cases hn
    | some d =>
      rw [hg] at h hn
      simp only [Option.bind_some] at hn
      simp only [hn] at h
      cases hm : mergeContent op o x with
      | error e => rw [hm] at h; cases h
      | ok y =>
        rw [hm] at h
        cases h
        exact ⟨y, rfl, by simp [lookup, Dict.get?_set]⟩
  · intro k hk
    obtain ⟨d', rfl, h1, _⟩ := addG_ok h
    rw [← lookup_getD gs, ← h1 k hk]
    simp [lookup, Dict.get?_set]

theorem addAllG_notMem {g : String} {op : MergeOp} {l : List ((List Int × List Int) × DContent K)}
    {gs gs' : Dict String (DGroup K)} (h : addAllG g op l gs = .ok gs') {k : List Int × List Int}
    (hk : k ∉ l.map Prod.fst) : lookup gs' g k = lookup gs g k := by
  induction l generalizing gs with
  | nil => cases h; rfl
  | cons p l ih =>
    simp only [addAllG] at h
    cases h1 : addG g op p.1 p.2 gs with
    | error e => rw [h1] at h; cases h
    | ok gs1 =>
      rw [h1] at h
      simp only [List.map_cons, List.mem_cons, not_or] at hk
      rw [ih h hk.2, (addG_lookup h1).2.2 k hk.1]

theorem addAllG_once {g : String} {op : MergeOp} {l : List ((List Int × List Int) × DContent K)}
    {gs gs' : Dict String (DGroup K)} (h : addAllG g op l gs = .ok gs') {i : Nat} (hi : i < l.length)
    (hn : lookup gs g (l[i]).1 = none)
    (ho : ∀ j, (hj : j < l.length) → j ≠ i → (l[j]).1 ≠ (l[i]).1) :
    lookup gs' g (l[i]).1 = some (l[i]).2 := by
  induction l generalizing gs i with
  | nil => simp at hi
  | cons p l ih =>
    simp only [addAllG] at h
    cases h1 : addG g op p.1 p.2 gs with
    | error e => rw [h1] at h; cases h
    | ok gs1 =>
      rw [h1] at h
      cases i with
      | zero =>
        have hm : p.1 ∉ l.map Prod.fst := by
          intro hm
          obtain ⟨q, hq, hqp⟩ := List.mem_map.1 hm
          obtain ⟨j, hj, rfl⟩ := List.mem_iff_getElem.1 hq
          exact ho (j + 1) (by simpa using hj) (by omega) hqp
        rw [show ((p :: l)[0]).1 = p.1 from rfl, addAllG_notMem h hm]
        exact (addG_lookup h1).1 hn
      | succ i =>
        refine ih h (by simpa using hi) ?_ fun j hj hji => ho (j + 1) (by simpa using hj) (by omega)
        have hne : (l[i]'(by simpa using hi)).1 ≠ p.1 := fun he =>
          ho 0 (by simp) (by omega) he.symm
        rw [(addG_lookup h1).2.2 _ hne]
        exact hn

theorem addHyperedges_ok {src dst : DArg K} {ew : HW K} {op : MergeOp} {g : String} {s : DHSt K}
    (h : (addHyperedges src dst ew op g s).1 = .ok ()) : ∃ l gs, addList src dst ew = .ok l ∧
      addAllG g op l s.raw.groups = .ok gs ∧ (addHyperedges src dst ew op g s).2.raw.groups = gs := by
  obtain ⟨h1, h2⟩ := addHyperedges_eq src dst ew op g s
  rw [h1] at h
  cases hl : addList src dst ew with
  | error e => rw [hl] at h; cases h
  | ok l =>
    rw [hl] at h
    cases hg : addAllG g op l s.raw.groups with
    | error e => simp only [bind, Except.bind, hg, Except.map] at h; cases h
    | ok gs => exact ⟨l, gs, rfl, hg, by rw [h2 l gs hl hg]⟩

theorem addList_get {src dst : DArg K} {ew : HW K}
    {l : List ((List Int × List Int) × DContent K)} (h : addList src dst ew = .ok l) :
    l.length = (Spec.dSides src).length ∧ l.length = (Spec.dSides dst).length ∧
    ∀ i, (hi : i < l.length) → ∃ xs ys,
      l[i] = (code ((Spec.dSides src).getD i [], (Spec.dSides dst).getD i []),
        { v2e := some (.list xs), e2v := some (.list ys), we := Spec.dEdgeW ew i }) ∧
      Spec.KeepsWeights ((Spec.dSides src).getD i []) (Spec.dConnW src i) xs ∧
      Spec.KeepsWeights ((Spec.dSides dst).getD i []) (Spec.dConnW dst i) ys := by
  obtain ⟨as, bs, ws, h1, h2, h3, h4, h5, rfl⟩ := entry_of_addList h
  obtain ⟨a1, a2⟩ := formatArg_get h1
  obtain ⟨b1, b2⟩ := formatArg_get h2
  have hlen : (((as.zip bs).zip ws).map entry).length = as.length := by simp; omega
  refine ⟨by omega, by omega, ?_⟩
  intro i hi
  rw [hlen] at hi
  have hb : i < bs.length := by omega
  have hw : i < ws.length := by omega
  refine ⟨_, _, ?_, a2 i hi, b2 i hb⟩
  have e1 := congrArg (fun l => l[i]?) (format_fst h1)
  have e2 := congrArg (fun l => l[i]?) (format_fst h2)
  simp only [List.getElem?_map, List.getElem?_eq_getElem hi, List.getElem?_eq_getElem hb,
    List.getElem?_eq_getElem (show i < (Spec.dSides src).length by omega),
    List.getElem?_eq_getElem (show i < (Spec.dSides dst).length by omega), Option.map_some,
    Option.some.injEq] at e1 e2
  have e3 : ws[i] = Spec.dEdgeW ew i := by
    cases ew with
    | none => simp only [weights, Except.ok.injEq] at h3; subst h3; simp [Spec.dEdgeW]
    | scalar w => cases h3
    | list l =>
      simp only [weights, Except.ok.injEq] at h3; subst h3
      simp [Spec.dEdgeW, List.getD_eq_getElem?_getD, List.getElem?_eq_getElem hw]
    | other => cases h3
  simp only [List.getElem_map, List.getElem_zip, entry, code, List.getD_eq_getElem?_getD,
    List.getElem?_eq_getElem (show i < (Spec.dSides src).length by omega),
    List.getElem?_eq_getElem (show i < (Spec.dSides dst).length by omega), Option.getD_some,
    e1, e2, e3]

/-- a call with one hyperedge -/
theorem addOne_ok {vs ws : List Int} {cv cw : Option (List K)} {ew : HW K} {op : MergeOp}
    {g : String} {s : DHSt K} (h : (addHyperedges (.one vs cv) (.one ws cw) ew op g s).1 = .ok ()) :
    ∃ xs ys gs, addG g op (code (vs, ws))
        { v2e := some (.list xs), e2v := some (.list ys), we := Spec.dEdgeW ew 0 } s.raw.groups =
        .ok gs ∧
      (addHyperedges (.one vs cv) (.one ws cw) ew op g s).2.raw.groups = gs ∧
      xs.length = vs.length ∧ ys.length = ws.length ∧ vs ≠ [] ∧ ws ≠ [] := by
  obtain ⟨l, gs, h1, h2, h3⟩ := addHyperedges_ok h
  have hne : vs ≠ [] ∧ ws ≠ [] := by
    obtain ⟨as, bs, _, f1, f2, _⟩ := entry_of_addList h1
    constructor
    · rintro rfl; cases f1
    · rintro rfl; cases f2
  obtain ⟨a1, a2, a3⟩ := addList_get h1
  obtain ⟨p, rfl⟩ : ∃ p, l = [p] := List.length_eq_one_iff.1 a1
  obtain ⟨xs, ys, e, k1, k2⟩ := a3 0 (by simp)
  simp only [List.getElem_cons_zero] at e
  subst e
  simp only [addAllG] at h2
  generalize hx : (({ v2e := some (.list xs), e2v := some (.list ys), we := Spec.dEdgeW ew 0 } :
    DContent K)) = x at h2
  change (addG g op (code (vs, ws)) x s.raw.groups >>= fun gs' => .ok gs') = .ok gs at h2
  cases hg : addG g op (code (vs, ws)) x s.raw.groups with
  | error e => rw [hg] at h2; cases h2
  | ok gs1 =>
    rw [hg] at h2
    cases h2
    exact ⟨xs, ys, _, by rw [hx]; exact hg, h3, k1.1, k2.1, hne.1, hne.2⟩

theorem mergeContent_we {op : MergeOp} {a b y : DContent K} (h : mergeContent op a b = .ok y) :
    some y.we = Spec.dMerged op a.we b.we := by
  unfold mergeContent at h
  cases op with
  | other => cases h
  | mean | sum | max =>
    simp only [hMerge, bind, Except.bind] at h
    split at h
    · cases h
    · split at h
      · cases h
      · cases h; rfl

theorem mergeConn_list {f : K → K → K} {xs ys : List K} {r : Option (ConnW K)}
    (h : mergeConn f (some (.list xs)) (some (.list ys)) = .ok r) (hx : xs ≠ []) :
    ∃ w, r = some (.scalar w) := by
  simp only [mergeConn] at h
  split at h
  · rename_i hl
    cases h
    cases xs with
    | nil => exact absurd rfl hx
    | cons x xs =>
      cases ys with
      | nil => simp at hl
      | cons y ys => exact ⟨_, by rw [List.zipWith_cons_cons, List.getLast?_cons]; rfl⟩
  · cases h

theorem mergeContent_lists {op : MergeOp} {a b y : DContent K} {xs xs' ys ys' : List K}
    (h : mergeContent op a b = .ok y) (h1 : a.v2e = some (.list xs)) (h2 : b.v2e = some (.list xs'))
    (h3 : a.e2v = some (.list ys)) (h4 : b.e2v = some (.list ys')) (hx : xs ≠ []) (hy : ys ≠ []) :
    ∃ u w, y.v2e = some (.scalar u) ∧ y.e2v = some (.scalar w) := by
  unfold mergeContent at h
  cases hf : hMerge (K := K) op with
  | error e => rw [hf] at h; cases h
  | ok f =>
    rw [hf, h1, h2, h3, h4] at h
    simp only [bind, Except.bind] at h
    split at h
    · cases h
    · rename_i v hv
      split at h
      · cases h
      · rename_i w hw
        cases h
        obtain ⟨u, rfl⟩ := mergeConn_list hv hx
        obtain ⟨w, rfl⟩ := mergeConn_list hw hy
        exact ⟨u, w, rfl, rfl⟩

theorem addOne_third {vs ws : List Int} {cv cw : Option (List K)} {ew : HW K} {op : MergeOp}
    {g : String} {s : DHSt K} {o : DContent K} {u : K}
    (hs : lookup s.raw.groups g (code (vs, ws)) = some o) (ho : o.v2e = some (.scalar u))
    (h : (addHyperedges (.one vs cv) (.one ws cw) ew op g s).1 = .ok ()) : False := by
  obtain ⟨xs, ys, gs, h1, _⟩ := addOne_ok h
  obtain ⟨y, hy, _⟩ := (addG_lookup h1).2.1 o hs
  unfold mergeContent at hy
  cases hf : hMerge (K := K) op with
  | error e => rw [hf] at hy; cases hy
  | ok f => rw [hf, ho] at hy; cases hy

theorem delG_lookup {gs : Dict String (DGroup K)} {st : Spec.DStore} (h : Rep gs st) (g : String)
    (c k : List Int × List Int) :
    lookup (delG g c gs) g k = if c = k then none else lookup gs g k := by
  unfold delG
  cases hg : gs.get? g with
  | none => simp [lookup, hg]
  | some d =>
    have hn : (Dict.keys d).Nodup := h.codes _ ((Dict.get?_eq_some_iff _ h.names _ _).1 hg)
    simp only [lookup, Dict.get?_set, if_true, Option.bind_some, hg]
    rw [Dict.get?_del _ _ _ hn]

theorem delAll_lookup {gs : Dict String (DGroup K)} {st : Spec.DStore} (h : Rep gs st) (g : String)
    (es : List Spec.DEdge) (k : List Int × List Int) :
    lookup ((es.map code).foldl (fun gs c => delG g c gs) gs) g k =
      if k ∈ es.map code then none else lookup gs g k := by
  induction es generalizing gs st with
  | nil => simp
  | cons e es ih =>
    simp only [List.map_cons, List.foldl_cons]
    rw [ih (h.del (g := g) (c := e)), delG_lookup h]
    by_cases h1 : k ∈ es.map code
    · rw [if_pos h1, if_pos (List.mem_cons_of_mem _ h1)]
    · rw [if_neg h1]
      by_cases h2 : code e = k
      · rw [if_pos h2, if_pos (by simp [h2])]
      · rw [if_neg h2, if_neg]
        simp only [List.mem_cons, not_or]
        exact ⟨fun h => h2 h.symm, h1⟩

theorem removeHyperedges_of {src dst : HArg} {g : String} {s : DHSt K} {n : Nat}
    {ss ds : List (List Int)} (hg : s.raw.groups.has g = true) (h1 : argLen src = .ok n)
    (h2 : argLen dst = .ok n) (h3 : src.format = .ok ss) (h4 : dst.format = .ok ds)
    (hl : ss.length ≤ ds.length) : (removeHyperedges src dst (some g) s).1 = .ok () := by
  unfold removeHyperedges
  simp only [PyM.bind_apply, readRaw, id, PyM.lift_apply, assert_apply]
  rw [if_pos hg]
  simp only [h1, h2, h3, h4, decide_true, if_true]
  rw [forM_remove g ds _ (fun p hp => by
    have := List.snd_lt_of_mem_zipIdx hp
    omega)]
  rfl

end DirH
end DHG
