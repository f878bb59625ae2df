import Verif.Props.NnHyper

/-!
# Renaming the vertices of a hypergraph (C88)
-/

set_option linter.unusedSectionVars false
set_option autoImplicit false

namespace DHG

namespace Spec
variable {K : Type}

/-- rename the vertices of a hyperedge argument -/
def renameHArg (π : Equiv.Perm Int) : HArg → HArg
  | .one t vs => .one t (vs.map π)
  | .many t es => .many t (es.map fun s => ⟨s.tup, s.items.map π⟩)
  | .other => .other

/-- rename the vertices in a history -/
def renameHStep (π : Equiv.Perm Int) : Hyper.Step K → Hyper.Step K
  | .op (.addHyperedges arg ew op g) => .op (.addHyperedges (renameHArg π arg) ew op g)
  | .op (.removeHyperedges arg g) => .op (.removeHyperedges (renameHArg π arg) g)
  | s => s

/-- hyperedges added in the history list distinct vertices of `0..n-1`, and merge operations are among
the documented ones -/
def ProperHistory (n : Nat) (h : List (Hyper.Step K)) : Prop :=
  ∀ arg ew op g, .op (.addHyperedges arg ew op g) ∈ h → Hyper.Proper n arg ∧ op ≠ .other

/-- the rows of `X'` are the rows of `X`, that of vertex `i` at `π i` -/
structure PermFeat (n : Nat) (π : Equiv.Perm Int) (X X' : Dense K) : Prop where
  rows : X.rows = n
  rows' : X'.rows = n
  cols : X'.cols = X.cols
  at_ : ∀ i c : Nat, i < n → c < X.cols → X'.at_ (π i).toNat c = X.at_ i c

end Spec

namespace Props

open Hyper Finset Nn

variable {K : Type} [Field K] [LinearOrder K] [PyReal K]

namespace Hy

/-- a hyperedge with renamed vertices, written in sorted order -/
def renE (π : Equiv.Perm Int) (e : List Int) : List Int := sortV (e.map π)

theorem renE_inj {π : Equiv.Perm Int} {e e' : List Int} (h : sortV e = e) (h' : sortV e' = e') :
    renE π e = renE π e' ↔ e = e' := by
  constructor
  · intro hh
    unfold renE at hh
    rw [sortV_eq_iff, List.map_perm_map_iff π.injective] at hh
    rw [← h, ← h', sortV_eq_iff]
    exact hh
  · rintro rfl; rfl

theorem renE_sortV (π : Equiv.Perm Int) (e : List Int) : renE π (sortV e) = renE π e := by
  unfold renE
  rw [sortV_eq_iff]
  exact (sortV_perm e).map π

theorem renE_sorted (π : Equiv.Perm Int) (e : List Int) : sortV (renE π e) = renE π e := sortV_sortV _

section KeyMap
variable {κ ν : Type} [DecidableEq κ]

theorem get?_mapKey (f : κ → κ) (d : Dict κ ν) (k : κ) (h : ∀ k' ∈ d.keys, f k' = f k ↔ k' = k) :
    Dict.get? (d.map fun p => (f p.1, p.2)) (f k) = Dict.get? d k := by
  induction d with
  | nil => rfl
  | cons x d ih =>
    obtain ⟨a, v⟩ := x
    simp only [List.map_cons, Dict.get?]
    have ha := h a List.mem_cons_self
    rw [ih fun k' hk => h k' (List.mem_cons_of_mem _ hk)]
    by_cases hk : a = k
    · rw [if_pos hk, if_pos (ha.2 hk)]
    · rw [if_neg hk, if_neg fun h' => hk (ha.1 h')]

theorem set_mapKey (f : κ → κ) (d : Dict κ ν) (k : κ) (v : ν) (h : ∀ k' ∈ d.keys, f k' = f k ↔ k' = k) :
    Dict.set (d.map fun p => (f p.1, p.2)) (f k) v = (Dict.set d k v).map fun p => (f p.1, p.2) := by
  induction d with
  | nil => rfl
  | cons x d ih =>
    obtain ⟨a, w⟩ := x
    simp only [List.map_cons, Dict.set]
    have ha := h a List.mem_cons_self
    by_cases hk : a = k
    · rw [if_pos hk, if_pos (ha.2 hk)]; simp [hk]
    · rw [if_neg hk, if_neg fun h' => hk (ha.1 h'), ih fun k' hk => h k' (List.mem_cons_of_mem _ hk)]
      rfl

theorem del_mapKey (f : κ → κ) (d : Dict κ ν) (k : κ) (h : ∀ k' ∈ d.keys, f k' = f k ↔ k' = k) :
    Dict.del (d.map fun p => (f p.1, p.2)) (f k) = (Dict.del d k).map fun p => (f p.1, p.2) := by
  induction d with
  | nil => rfl
  | cons x d ih =>
    obtain ⟨a, w⟩ := x
    simp only [List.map_cons, Dict.del]
    have ha := h a List.mem_cons_self
    by_cases hk : a = k
    · rw [if_pos hk, if_pos (ha.2 hk)]
    · rw [if_neg hk, if_neg fun h' => hk (ha.1 h'), ih fun k' hk => h k' (List.mem_cons_of_mem _ hk)]
      rfl

theorem get?_mapVal {μ : Type} (f : ν → μ) (d : Dict κ ν) (k : κ) :
    Dict.get? (d.map fun p => (p.1, f p.2)) k = (Dict.get? d k).map f := by
  induction d with
  | nil => rfl
  | cons x d ih =>
    simp only [List.map_cons, Dict.get?, ih]
    split <;> rfl

theorem set_mapVal {μ : Type} (f : ν → μ) (d : Dict κ ν) (k : κ) (v : ν) :
    Dict.set (d.map fun p => (p.1, f p.2)) k (f v) = (Dict.set d k v).map fun p => (p.1, f p.2) := by
  induction d with
  | nil => rfl
  | cons x d ih =>
    simp only [List.map_cons, Dict.set, ih]
    split <;> rfl

theorem del_mapVal {μ : Type} (f : ν → μ) (d : Dict κ ν) (k : κ) :
    Dict.del (d.map fun p => (p.1, f p.2)) k = (Dict.del d k).map fun p => (p.1, f p.2) := by
  induction d with
  | nil => rfl
  | cons x d ih =>
    simp only [List.map_cons, Dict.del, ih]
    split <;> rfl

end KeyMap

/-- a group with renamed vertices -/
def renG (π : Equiv.Perm Int) (d : HGroup K) : HGroup K := d.map fun p => (renE π p.1, p.2)

/-- groups with renamed vertices -/
def renGs (π : Equiv.Perm Int) (gs : Dict String (HGroup K)) : Dict String (HGroup K) :=
  gs.map fun p => (p.1, renG π p.2)

/-- renamed content -/
structure RenR (π : Equiv.Perm Int) (r r' : HRaw K) : Prop where
  num : r'.numV = r.numV
  groups : r'.groups = renGs π r.groups

theorem upsert_ren (π : Equiv.Perm Int) (d : HGroup K) (hd : ∀ e ∈ d.keys, sortV e = e) (e : List Int)
    (he : sortV e = e) (f : K → K → K) (w : K) :
    upsert (renG π d) (renE π e) f w = renG π (upsert d e f w) := by
  have hk : ∀ k' ∈ d.keys, renE π k' = renE π e ↔ k' = e := fun k' hk => renE_inj (hd k' hk) he
  unfold upsert renG
  rw [get?_mapKey _ _ _ hk]
  cases Dict.get? d e with
  | none => exact set_mapKey _ _ _ _ hk
  | some o => exact set_mapKey _ _ _ _ hk

theorem addRaw_ren {π : Equiv.Perm Int} {r r' : HRaw K} (hr : RenR π r r') (hi : Inv r) (op : MergeOp)
    (g : String) (p : List Int × K) (hp : sortV p.1 = p.1) :
    RenR π (addRaw op g r p) (addRaw op g r' (renE π p.1, p.2)) := by
  refine ⟨hr.num, ?_⟩
  show Dict.set r'.groups g (upsert ((Dict.get? r'.groups g).getD []) (renE π p.1) _ p.2) =
    renGs π (Dict.set r.groups g (upsert ((Dict.get? r.groups g).getD []) p.1 _ p.2))
  rw [hr.groups]
  unfold renGs
  rw [get?_mapVal, ← set_mapVal]
  congr 1
  rw [← upsert_ren π _ _ _ hp]
  · cases Dict.get? r.groups g <;> rfl
  · intro e he
    obtain ⟨d, hd, he⟩ := mem_getD he
    exact hi.sorted _ hd e he

theorem addList_ren {π : Equiv.Perm Int} {r r' : HRaw K} (hr : RenR π r r') (hi : Inv r) (op : MergeOp)
    (g : String) (l : List (List Int × K)) (hl : ∀ p ∈ l, sortV p.1 = p.1) :
    RenR π (l.foldl (addRaw op g) r) ((l.map fun p => (renE π p.1, p.2)).foldl (addRaw op g) r') := by
  induction l generalizing r r' with
  | nil => exact hr
  | cons p l ih =>
    rw [List.map_cons, List.foldl_cons, List.foldl_cons]
    exact ih (addRaw_ren hr hi op g p (hl p List.mem_cons_self)) (hi.addRaw op g p (hl p List.mem_cons_self))
      fun q hq => hl q (List.mem_cons_of_mem _ hq)

theorem removeRaw_ren {π : Equiv.Perm Int} {r r' : HRaw K} (hr : RenR π r r') (hi : Inv r)
    (g : Option String) (es : List (List Int)) (hes : ∀ e ∈ es, sortV e = e) :
    RenR π (removeRaw g r es) (removeRaw g r' (es.map (renE π))) := by
  induction es generalizing r r' with
  | nil => exact hr
  | cons e es ih =>
    have h1 : ∀ (r : HRaw K) e es, removeRaw g r (e :: es) = removeRaw g (removeRaw g r [e]) es :=
      fun _ _ _ => rfl
    rw [List.map_cons, h1, h1 r']
    refine ih ?_ ((removeRaw_shrunk g r [e]).inv hi fun w hw => hi.weights w hw) fun x hx => hes x (List.mem_cons_of_mem _ hx)
    refine ⟨hr.num, ?_⟩
    have hde : ∀ p ∈ r.groups, Dict.del (renG π p.2) (renE π e) = renG π (Dict.del p.2 e) := by
      intro p hp
      exact del_mapKey _ _ _ fun k' hk => renE_inj (hi.sorted p hp k' hk) (hes e List.mem_cons_self)
    cases g with
    | none =>
      show popAll (renE π e) r'.groups = renGs π (popAll e r.groups)
      rw [hr.groups]
      unfold popAll renGs
      rw [List.map_map, List.map_map]
      apply List.map_congr_left
      intro p hp
      simp only [Function.comp_def, hde p hp]
    | some g =>
      show popOne g (renE π e) r'.groups = renGs π (popOne g e r.groups)
      rw [hr.groups]
      unfold popOne renGs
      rw [get?_mapVal]
      cases hg : Dict.get? r.groups g with
      | none => rfl
      | some d =>
        simp only [Option.map_some]
        rw [← set_mapVal, hde _ ((Dict.mem_of_get? hg))]

theorem format_rename (π : Equiv.Perm Int) (a : HArg) :
    (Spec.renameHArg π a).format = a.format.map fun es => es.map (renE π) := by
  cases a with
  | one t vs =>
    cases vs with
    | nil => rfl
    | cons v vs =>
      simp only [Spec.renameHArg, List.map_cons, HArg.format, Except.map]
      rw [← List.map_cons, show sortV (List.map π (v :: vs)) = renE π (v :: vs) from rfl, renE_sortV]
      rfl
  | many t es =>
    simp only [Spec.renameHArg, HArg.format, Except.map, List.map_map, Function.comp_def, renE_sortV]
    rfl
  | other => rfl

theorem apply_ren {π : Equiv.Perm Int} {s s' : HSt K} (hr : RenR π s.raw s'.raw) (hi : Inv s.raw)
    {o o' : HOp K} (ho : Spec.renameHStep π (.op o) = .op o') (hg : GoodOp o) :
    RenR π (apply o s).2.raw (apply o' s').2.raw := by
  cases o with
  | addHyperedges arg ew op g =>
    simp only [Spec.renameHStep, Step.op.injEq] at ho
    subst ho
    simp only [apply]
    have hf := format_rename π arg
    rcases addHyperedges_cases arg ew op g s with ⟨e, h, h0⟩ | ⟨es, ws, h1, h2, h3, ⟨_, h5⟩ | ⟨h4, _⟩⟩
    · rcases addHyperedges_cases (Spec.renameHArg π arg) ew op g s' with
        ⟨e', h', _⟩ | ⟨es, ws, h1', h2', h3', _⟩
      · rw [h, h']; exact hr
      · rw [hf] at h1'
        cases hx : arg.format with
        | error e => rw [hx] at h1'; cases h1'
        | ok es0 =>
          rw [hx] at h1'
          cases h1'
          rw [List.length_map] at h2' h3'
          exact absurd h3' (h0 es0 ws hx h2')
    · rcases addHyperedges_cases (Spec.renameHArg π arg) ew op g s' with
        ⟨e', _, h0⟩ | ⟨es', ws', h1', h2', h3', ⟨_, h5'⟩ | ⟨h4', _⟩⟩
      · refine absurd ?_ (h0 (es.map (renE π)) ws (by rw [hf, h1]; rfl) (by rw [List.length_map]; exact h2))
        rw [List.length_map]; exact h3
      · rw [hf, h1] at h1'
        cases h1'
        rw [List.length_map, h2] at h2'
        cases h2'
        rw [h5, h5']
        dsimp only
        rw [List.zip_map_left]
        exact addList_ren hr hi op g _ fun p hp => format_sorted h1 (List.of_mem_zip hp).1
      · exact absurd h4' hg
    · exact absurd h4 hg
  | removeHyperedges arg g =>
    simp only [Spec.renameHStep, Step.op.injEq] at ho
    subst ho
    simp only [apply]
    have hf := format_rename π arg
    have hk : knownGroup g s'.raw = knownGroup g s.raw := by
      cases g with
      | none => rfl
      | some g =>
        simp only [knownGroup, Dict.has, hr.groups, renGs, get?_mapVal]
        cases Dict.get? s.raw.groups g <;> rfl
    have hcl : ∀ (r : HRaw K) (c : HSt K), (clearCacheH g { c with raw := r }).2.raw = r := by
      intro r c; cases g <;> rfl
    rcases removeHyperedges_cases arg g s with ⟨e, h, h0⟩ | ⟨es, h1, h2, h3⟩
    · rcases removeHyperedges_cases (Spec.renameHArg π arg) g s' with ⟨e', h', _⟩ | ⟨es', h1', h2', _⟩
      · rw [h, h']; exact hr
      · rcases h0 with h0 | ⟨e', h0⟩
        · rw [hk, h0] at h2'; cases h2'
        · rw [hf, h0] at h1'; cases h1'
    · rcases removeHyperedges_cases (Spec.renameHArg π arg) g s' with ⟨e', h', h0⟩ | ⟨es', h1', h2', h3'⟩
      · rcases h0 with h0 | ⟨e', h0⟩
        · rw [hk, h2] at h0; cases h0
        · rw [hf, h1] at h0; cases h0
      · rw [hf, h1] at h1'
        cases h1'
        rw [h3, h3']
        dsimp only
        rw [hcl, hcl]
        exact removeRaw_ren hr hi g es fun e he => format_sorted h1 he
  | removeGroup g =>
    simp only [Spec.renameHStep, Step.op.injEq] at ho
    subst ho
    refine ⟨hr.num, ?_⟩
    show Dict.del s'.raw.groups g = renGs π (Dict.del s.raw.groups g)
    rw [hr.groups]
    exact del_mapVal _ _ _
  | clear =>
    simp only [Spec.renameHStep, Step.op.injEq] at ho
    subst ho
    exact ⟨hr.num, rfl⟩
  | setVWeight w =>
    simp only [Spec.renameHStep, Step.op.injEq] at ho
    subst ho
    exact hr

theorem proper_rename {n : Nat} {π : Equiv.Perm Int} (hπ : Spec.Renaming n π) {a : HArg} (h : Proper n a) :
    Proper n (Spec.renameHArg π a) := by
  have key : ∀ e : List Int, (e.Nodup ∧ ∀ v ∈ e, 0 ≤ v ∧ v < (n : Int)) →
      (e.map π).Nodup ∧ ∀ v ∈ e.map π, 0 ≤ v ∧ v < (n : Int) := by
    rintro e ⟨h1, h2⟩
    refine ⟨h1.map π.injective, fun v hv => ?_⟩
    obtain ⟨u, hu, rfl⟩ := List.mem_map.1 hv
    exact ⟨(hπ.nonneg _).2 (h2 u hu).1, (hπ.lt _).2 (h2 u hu).2⟩
  intro e he
  cases a with
  | one t vs =>
    cases vs with
    | nil => cases he
    | cons v vs =>
      simp only [Spec.renameHArg, List.map_cons, argEdges, List.mem_cons, List.not_mem_nil, or_false] at he
      subst he
      rw [← List.map_cons]
      exact key _ (h _ (by simp [argEdges]))
  | many t es =>
    simp only [Spec.renameHArg, argEdges, List.map_map, List.mem_map] at he
    obtain ⟨s, hs, rfl⟩ := he
    exact key _ (h _ (List.mem_map.2 ⟨s, hs, rfl⟩))
  | other => cases he

theorem run_ren {n : Nat} {π : Equiv.Perm Int} (hπ : Spec.Renaming n π) {s s' : HSt K}
    (hb : Built Proper true s) (hb' : Built Proper true s') (hr : RenR π s.raw s'.raw) (hn : s.raw.numV = n)
    (h : List (Step K)) (hh : Spec.ProperHistory n h) :
    RenR π (run s h).raw (run s' (h.map (Spec.renameHStep π))).raw ∧ Built Proper true (run s h) ∧
      Built Proper true (run s' (h.map (Spec.renameHStep π))) ∧ (run s h).raw.numV = n := by
  induction h generalizing s s' with
  | nil => exact ⟨hr, hb, hb', hn⟩
  | cons st h ih =>
    have hh' : Spec.ProperHistory n h := fun a ew op g hm => hh a ew op g (List.mem_cons_of_mem _ hm)
    have hi := (hb.mono (Q := AnyH) fun _ _ _ => trivial).inv
    have hi' := (hb'.mono (Q := AnyH) fun _ _ _ => trivial).inv
    cases st with
    | read q =>
      obtain ⟨h1, _⟩ := ask_keeps q hi.2
      obtain ⟨h2, _⟩ := ask_keeps q hi'.2
      exact ih (s := (ask q s).2) (s' := (ask q s').2) (.read q hb) (.read q hb') (by rw [h1, h2]; exact hr)
        (by rw [h1]; exact hn) hh'
    | op o =>
      have hg : GoodOp o := by
        cases o with
        | addHyperedges a ew op g => exact (hh a ew op g List.mem_cons_self).2
        | _ => trivial
      obtain ⟨o', ho'⟩ : ∃ o', Spec.renameHStep π (.op o) = .op o' := by cases o <;> exact ⟨_, rfl⟩
      have hg' : GoodOp o' := by
        cases o <;> (simp only [Spec.renameHStep, Step.op.injEq] at ho'; subst ho'; exact hg)
      have hb1 : Built Proper true (apply o s).2 := by
        refine .op o hb (.inl hg) ?_
        rintro a ew op g rfl
        rw [hn]; exact (hh a ew op g List.mem_cons_self).1
      have hb1' : Built Proper true (apply o' s').2 := by
        refine .op o' hb' (.inl hg') ?_
        rintro a ew op g rfl
        cases o with
        | addHyperedges a0 ew0 op0 g0 =>
          simp only [Spec.renameHStep, Step.op.injEq, HOp.addHyperedges.injEq] at ho'
          obtain ⟨rfl, _⟩ := ho'
          rw [hr.num, hn]; exact proper_rename hπ (hh _ _ _ _ List.mem_cons_self).1
        | _ => simp [Spec.renameHStep] at ho'
      have := ih (s := (apply o s).2) (s' := (apply o' s').2) hb1 hb1' (apply_ren hr hi.1 ho' hg)
        ((apply_inv (.inl hg) hi.1).2.trans hn) hh'
      rw [List.map_cons, ho']
      exact this

end Hy
open Hy

/-- the situation of C88: the same construction and history, once as is and once with all vertices
renamed (vertex weights may differ) -/
structure RenamedHypers (n : Nat) (π : Equiv.Perm Int) (s s' : HSt K) : Prop where
  ren : Spec.Renaming n π
  hist : ∃ arg ew vw vw' op s₀ s₀' h, Hyper.new n arg ew vw op = .ok s₀ ∧
    Hyper.new n (arg.map (Spec.renameHArg π)) ew vw' op = .ok s₀' ∧ op ≠ .other ∧
    (∀ a, arg = some a → Proper n a) ∧ Spec.ProperHistory n h ∧
    s = run s₀ h ∧ s' = run s₀' (h.map (Spec.renameHStep π))

theorem RenamedHypers.all {n : Nat} {π : Equiv.Perm Int} {s s' : HSt K} (h : RenamedHypers n π s s') :
    RenR π s.raw s'.raw ∧ Built Proper true s ∧ Built Proper true s' ∧ s.raw.numV = n := by
  obtain ⟨hπ, arg, ew, vw, vw', op, s₀, s₀', h, h1, h2, hop, h3, h4, rfl, rfl⟩ := h
  have hb : Built Proper true s₀ := .new h1 (by simpa using h3)
  have hb' : Built Proper true s₀' := by
    refine .new h2 ?_
    intro a ha
    cases arg with
    | none => cases ha
    | some a' => cases ha; simpa using proper_rename hπ (h3 a' rfl)
  obtain ⟨r, hr, h5⟩ := new_ok h1
  obtain ⟨r', hr', h5'⟩ := new_ok h2
  obtain ⟨_, g2, g3, _⟩ := initRaw_ok hr
  obtain ⟨_, g2', g3', _⟩ := initRaw_ok hr'
  have hi := initRaw_inv hr
  have hRR : RenR π r r' := ⟨g2'.trans g2.symm, by rw [g3, g3']; rfl⟩
  rw [Int.toNat_natCast] at g2
  refine run_ren hπ hb hb' ?_ ?_ h h4
  · rcases h5 with ⟨rfl, rfl⟩ | ⟨a, rfl, h6, rfl⟩
    · rcases h5' with ⟨_, rfl⟩ | ⟨a', ha', _⟩
      · exact hRR
      · cases ha'
    · rcases h5' with ⟨ha', _⟩ | ⟨a', ha', _, rfl⟩
      · cases ha'
      · cases ha'
        exact apply_ren (s := { raw := r, cache := [] }) (s' := { raw := r', cache := [] }) hRR hi rfl hop
  · rcases h5 with ⟨rfl, rfl⟩ | ⟨a, rfl, h6, rfl⟩
    · exact g2
    · exact (apply_inv (.inr h6) (s := { raw := r, cache := [] }) hi).2.trans g2

theorem RenamedHypers.numV {n : Nat} {π : Equiv.Perm Int} {s s' : HSt K} (h : RenamedHypers n π s s') :
    (ask .numV s).1 = .ok (.num n) ∧ (ask .numV s').1 = .ok (.num n) := by
  obtain ⟨hr, _, _, hn⟩ := h.all
  constructor
  · show Except.ok (HAns.num s.raw.numV) = _
    rw [hn]
  · show Except.ok (HAns.num s'.raw.numV) = _
    rw [hr.num, hn]

namespace Hy

/-- a listing with renamed vertices -/
def renL (π : Equiv.Perm Int) (l : List (List Int × K)) : List (List Int × K) :=
  l.map fun p => (renE π p.1, p.2)

theorem renR_lst {π : Equiv.Perm Int} {r r' : HRaw K} (h : RenR π r r') (sc : Option String) :
    lstOf sc r' = renL π (lstOf sc r) := by
  cases sc with
  | none =>
    simp only [lstOf, h.groups, renGs, renL, List.flatMap_map, List.map_flatMap]
    rfl
  | some g =>
    simp only [lstOf, h.groups, renGs, get?_mapVal]
    cases Dict.get? r.groups g <;> rfl

theorem renR_scope {π : Equiv.Perm Int} {s s' : HSt K} (h : RenR π s.raw s'.raw) (sc : Option String) :
    Spec.HasScope s' sc ↔ Spec.HasScope s sc := by
  have : Spec.hNames s' = Spec.hNames s := by
    show s'.raw.groups.keys = s.raw.groups.keys
    rw [h.groups]
    simp [renGs, Dict.keys, Function.comp_def]
  cases sc <;> simp only [Spec.HasScope, this]

section L
variable {n : Nat} {π : Equiv.Perm Int} (hπ : Spec.Renaming n π) (l : List (List Int × K))

theorem renL_length : (renL π l).length = l.length := by simp [renL]

theorem hAt_renL {j : Nat} (hj : j < l.length) : Spec.hAt (renL π l) j = renE π (Spec.hAt l j) := by
  simp [Spec.hAt, renL, List.getD_eq_getElem?_getD, hj]

theorem hWt_renL {j : Nat} (hj : j < l.length) : Spec.hWt (renL π l) j = Spec.hWt l j := by
  simp [Spec.hWt, renL, List.getD_eq_getElem?_getD, hj]

theorem hSize_renL {j : Nat} (hj : j < l.length) : Spec.hSize (renL π l) j = Spec.hSize l j := by
  unfold Spec.hSize
  rw [hAt_renL l hj, renE, (sortV_perm _).length_eq, List.length_map]

include hπ in
theorem mem_renE {e : List Int} (v : Nat) : ((ren π v : Nat) : Int) ∈ renE π e ↔ (v : Int) ∈ e := by
  rw [ren_cast hπ, renE, mem_sortV, List.mem_map_of_injective π.injective]

include hπ in
theorem inc_renL (v : Nat) {j : Nat} (hj : j < l.length) :
    Spec.inc (renL π l) (ren π v) j = Spec.inc l v j := by
  unfold Spec.inc
  rw [hAt_renL l hj]
  simp only [mem_renE hπ]

include hπ in
theorem hDeg_renL (v : Nat) : Spec.hDeg (renL π l) (ren π v) = Spec.hDeg l v := by
  unfold Spec.hDeg renL
  rw [List.map_map]
  congr 1
  apply List.map_congr_left
  intro p _
  simp only [Function.comp_def, mem_renE hπ]

include hπ in
theorem share_renL (i j : Nat) : Spec.share (renL π l) (ren π i) (ren π j) = Spec.share l i j := by
  unfold Spec.share
  rw [renL_length]
  apply sum_congr rfl
  intro k hk
  have hk := mem_range.1 hk
  rw [inc_renL hπ l i hk, inc_renL hπ l j hk, hWt_renL l hk, hSize_renL l hk]

include hπ in
theorem incidentSum_renL (v : Nat) {y y' : Nat → K} (h : ∀ k, k < l.length → y' k = y k) :
    Spec.incidentSum (renL π l) (ren π v) y' = Spec.incidentSum l v y := by
  rw [← incidentSum_eq, ← incidentSum_eq, renL_length]
  apply sum_congr rfl
  intro k hk
  rw [inc_renL hπ l v (mem_range.1 hk), h k (mem_range.1 hk)]

include hπ in
theorem memberSum_renL (hR : Rng n l) {j : Nat} (hj : j < l.length) {x x' : Nat → K}
    (h : ∀ v, v < n → x' (ren π v) = x v) :
    Spec.memberSum (renL π l) j x' = Spec.memberSum l j x := by
  unfold Spec.memberSum
  rw [hAt_renL l hj, renE]
  rw [((sortV_perm _).map _).sum_eq, List.map_map]
  congr 1
  apply List.map_congr_left
  intro v hv
  rw [hAt_of_lt hj] at hv
  have := (hR _ (List.getElem_mem hj)).2 v hv
  have h2 := h v.toNat (by omega)
  unfold ren at h2
  rw [Int.toNat_of_nonneg this.1] at h2
  exact h2

include hπ in
theorem edgeMean_renL (hR : Rng n l) {j : Nat} (hj : j < l.length) {x x' : Nat → K}
    (h : ∀ v, v < n → x' (ren π v) = x v) :
    Spec.edgeMean (renL π l) x' j = Spec.edgeMean l x j := by
  unfold Spec.edgeMean
  rw [hWt_renL l hj, hSize_renL l hj, memberSum_renL hπ l hR hj h]

theorem nonneg_renL (h : Spec.HNonneg l) : Spec.HNonneg (renL π l) := by
  intro e he
  obtain ⟨p, hp, rfl⟩ := List.mem_map.1 he
  exact h p hp

end L

end Hy
open Hy

theorem RenamedHypers.listing {n : Nat} {π : Equiv.Perm Int} {s s' : HSt K} (h : RenamedHypers n π s s')
    (sc : Option String) : Spec.hListing s' sc = renL π (Spec.hListing s sc) ∧ Rng n (Spec.hListing s sc) := by
  obtain ⟨hr, hb, hb', hn⟩ := h.all
  have h1 := hb.mono (Q := AnyH) fun _ _ _ => trivial
  have h2 := hb'.mono (Q := AnyH) fun _ _ _ => trivial
  rw [listing_eq h1, listing_eq h2, renR_lst hr sc]
  exact ⟨rfl, by rw [← hn]; exact lst_rng h1.inv.1 hb.inRange sc⟩

/-! ## C88 -/

/-- C88. The listing of the renamed hypergraph has the same weights in the same order, and its
hyperedges consist of the new names of the vertices. -/
theorem C88_hypergraph_listing {n : Nat} {π : Equiv.Perm Int} {s s' : HSt K} (h : RenamedHypers n π s s')
    (sc : Option String) :
    List.Forall₂ (fun e e' : List Int × K => e'.2 = e.2 ∧ (e'.1 : Multiset Int) = (e.1.map π : List Int))
      (Spec.hListing s sc) (Spec.hListing s' sc) := by
  rw [(h.listing sc).1]
  unfold renL
  rw [List.forall₂_map_right_iff]
  apply List.forall₂_same.2
  intro p _
  exact ⟨rfl, Multiset.coe_eq_coe.2 (sortV_perm _)⟩

/-- C88. Incidence matrix and degrees of the renamed hypergraph: rows of vertices move to their new
names, columns stay. -/
theorem C88_hypergraph_incidence {n : Nat} {π : Equiv.Perm Int} {s s' : HSt K} (h : RenamedHypers n π s s')
    {sc : Option String} (hsc : Spec.HasScope s sc) :
    ∃ (H H' : Sp K) (d d' : List K), (ask (.H sc) s).1 = .ok (.mat H) ∧ (ask (.H sc) s').1 = .ok (.mat H') ∧
      (ask (.degV sc) s).1 = .ok (.vec d) ∧ (ask (.degV sc) s').1 = .ok (.vec d') ∧
      (ask (.degE sc) s).1 = (ask (.degE sc) s').1 ∧ H'.cols = H.cols ∧
      ∀ i : Nat, i < n → d'[(π i).toNat]? = d[i]? ∧ ∀ j, j < H.cols → H'.get (π i).toNat j = H.get i j := by
  obtain ⟨hr, hb, hb', hn⟩ := h.all
  obtain ⟨hn1, hn2⟩ := h.numV
  have hπ := h.ren
  have hsc' := (renR_scope hr sc).2 hsc
  obtain ⟨H, _, hH, _, hm, _⟩ := C33_hypergraph_H_partial hb hsc hn1
  obtain ⟨H', _, hH', _, hm', _⟩ := C33_hypergraph_H_partial hb' hsc' hn2
  obtain ⟨hd, he, _⟩ := C34_hypergraph_degrees_partial hb hsc hn1
  obtain ⟨hd', he', _⟩ := C34_hypergraph_degrees_partial hb' hsc' hn2
  rw [(h.listing sc).1] at hm' hd' he'
  generalize Spec.hListing s sc = l at *
  refine ⟨H, H', _, _, hH, hH', hd, hd', ?_, ?_, fun i hi => ⟨?_, fun j hj => ?_⟩⟩
  · rw [he, he']
    congr 2
    unfold renL
    rw [List.map_map]
    apply List.map_congr_left
    intro p _
    simp only [Function.comp_def, renE, (sortV_perm _).length_eq, List.length_map]
  · rw [hm.cols, hm'.cols, renL_length]
  · have hi' := (ren_lt hπ i).2 hi
    show ((List.range n).map (Spec.hDeg (renL π l)))[ren π i]? = _
    rw [List.getElem?_map, List.getElem?_map, List.getElem?_range hi, List.getElem?_range hi']
    simp only [Option.map_some, hDeg_renL hπ]
  · rw [hm.cols] at hj
    show H'.get (ren π i) j = _
    rw [hm.get i j hi hj, hm'.get _ j ((ren_lt hπ i).2 hi) (by rw [renL_length]; exact hj), hAt_renL l hj]
    simp only [mem_renE hπ]

/-- C88. The matrices of the Laplacians are permuted in rows and columns. -/
theorem C88_hypergraph_laplacians [IsStrictOrderedRing K] {n : Nat} {π : Equiv.Perm Int} {s s' : HSt K}
    (h : RenamedHypers n π s s') {sc : Option String} (hsc : Spec.HasScope s sc)
    (hw : Spec.HNonneg (Spec.hListing s sc)) :
    ∃ L L' M M' R R' : Sp K,
      (ask (.LHGNN sc) s).1 = .ok (.mat L) ∧ (ask (.LHGNN sc) s').1 = .ok (.mat L') ∧
      (ask (.Lsym sc) s).1 = .ok (.mat M) ∧ (ask (.Lsym sc) s').1 = .ok (.mat M') ∧
      (ask (.Lrw sc) s).1 = .ok (.mat R) ∧ (ask (.Lrw sc) s').1 = .ok (.mat R') ∧
      ∀ i j : Nat, i < n → j < n → L'.get (π i).toNat (π j).toNat = L.get i j ∧
        M'.get (π i).toNat (π j).toNat = M.get i j ∧ R'.get (π i).toNat (π j).toNat = R.get i j := by
  obtain ⟨hr, hb, hb', hn⟩ := h.all
  obtain ⟨hn1, hn2⟩ := h.numV
  have hπ := h.ren
  have hsc' := (renR_scope hr sc).2 hsc
  have hw' : Spec.HNonneg (Spec.hListing s' sc) := by rw [(h.listing sc).1]; exact nonneg_renL _ hw
  obtain ⟨L, M, q, hL, hM, hq, hl, hm, _⟩ := C36_hypergraph_L_HGNN_partial hb hsc hn1 hw
  obtain ⟨L', M', q', hL', hM', hq', hl', hm', _⟩ := C36_hypergraph_L_HGNN_partial hb' hsc' hn2 hw'
  obtain ⟨R, hR, hrw, _⟩ := C36_hypergraph_L_rw_partial hb hsc hn1
  obtain ⟨R', hR', hrw', _⟩ := C36_hypergraph_L_rw_partial hb' hsc' hn2
  rw [(h.listing sc).1] at hl' hm' hq' hrw'
  have hqq : ∀ i, i < n → q' (ren π i) = q i := by
    intro i hi
    have a := hq' (ren π i) ((ren_lt hπ i).2 hi)
    rw [hDeg_renL hπ] at a
    exact Graph.InvSqrt.unique a (hq i hi)
  refine ⟨L, L', M, M', R, R', hL, hL', hM, hM', hR, hR', fun i j hi hj => ?_⟩
  have hi' := (ren_lt hπ i).2 hi
  have hj' := (ren_lt hπ j).2 hj
  refine ⟨?_, ?_, ?_⟩
  · show L'.get (ren π i) (ren π j) = _
    rw [hl.get i j hi hj, hl'.get _ _ hi' hj', hqq i hi, hqq j hj, share_renL hπ]
  · show M'.get (ren π i) (ren π j) = _
    rw [hm.get i j hi hj, hm'.get _ _ hi' hj', hqq i hi, hqq j hj, share_renL hπ]
    simp only [ren_inj hπ]
  · show R'.get (ren π i) (ren π j) = _
    rw [hrw.get i j hi hj, hrw'.get _ _ hi' hj', share_renL hπ, hDeg_renL hπ]
    simp only [ren_inj hπ]

/-- C88. Message passing: the hyperedge messages do not change when the vertices are renamed, and the
vertex messages move to the new names. -/
theorem C88_hypergraph_messages {n : Nat} {π : Equiv.Perm Int} {s s' : HSt K} (h : RenamedHypers n π s s')
    {sc : Option String} (hsc : Spec.HasScope s sc) {X X' : Dense K} (hX : Spec.PermFeat n π X X')
    {aggr : Aggr} (ha : aggr = .sum ∨ aggr = .mean) (k1 k2 k1' k2' : Nat → Bool) :
    ∃ Y Y' Z Z' : Dense K, (ask (.v2e sc X aggr none none 0 k1) s).1 = .ok (.feat Y) ∧
      (ask (.v2e sc X' aggr none none 0 k1') s').1 = .ok (.feat Y') ∧
      Y'.rows = Y.rows ∧ Y'.cols = Y.cols ∧
      (∀ j c, j < Y.rows → c < Y.cols → Y'.at_ j c = Y.at_ j c) ∧
      (ask (.v2v sc X { aggr := aggr, rate := 0, keep1 := k1, keep2 := k2 }) s).1 = .ok (.feat Z) ∧
      (ask (.v2v sc X' { aggr := aggr, rate := 0, keep1 := k1', keep2 := k2' }) s').1 = .ok (.feat Z') ∧
      Spec.PermFeat n π Z Z' := by
  obtain ⟨hr, hb, hb', hn⟩ := h.all
  obtain ⟨hn1, hn2⟩ := h.numV
  have hπ := h.ren
  have hsc' := (renR_scope hr sc).2 hsc
  have hcomp := fun Y => (C37_hypergraph_v2v_is_composition (hb.mono (Q := AnyH) fun _ _ _ => trivial) hsc X
      { aggr := aggr, rate := 0, keep1 := k1, keep2 := k2 }).1 Y
  have hcomp' := fun Y => (C37_hypergraph_v2v_is_composition (hb'.mono (Q := AnyH) fun _ _ _ => trivial) hsc' X'
      { aggr := aggr, rate := 0, keep1 := k1', keep2 := k2' }).1 Y
  simp only [Option.getD_none] at hcomp hcomp'
  have hE := C37_hypergraph_v2e_partial hb hsc hn1 X hX.rows k1
  have hE' := C37_hypergraph_v2e_partial hb' hsc' hn2 X' hX.rows' k1'
  have hV := fun Y hY => C37_hypergraph_e2v_partial hb hsc hn1 Y hY k2
  have hV' := fun Y hY => C37_hypergraph_e2v_partial hb' hsc' hn2 Y hY k2'
  obtain ⟨hl, hR⟩ := h.listing sc
  rw [hl] at hE' hV'
  generalize Spec.hListing s sc = l at *
  clear hl
  have hm : ∀ j c, j < l.length → c < X.cols →
      Spec.memberSum (renL π l) j (fun v => X'.at_ v c) = Spec.memberSum l j fun v => X.at_ v c :=
    fun j c hj hc => memberSum_renL hπ l hR hj fun v hv => hX.at_ v c hv hc
  rcases ha with rfl | rfl
  · obtain ⟨⟨Y, hY, y1, y2, y3⟩, _⟩ := hE
    obtain ⟨⟨Y', hY', y1', y2', y3'⟩, _⟩ := hE'
    obtain ⟨⟨Z, hZ, z1, z2, z3⟩, _⟩ := hV Y y1
    obtain ⟨⟨Z', hZ', z1', z2', z3'⟩, _⟩ := hV' Y' y1'
    rw [renL_length] at y1' y3'
    have hyy : ∀ j c, j < Y.rows → c < Y.cols → Y'.at_ j c = Y.at_ j c := by
      intro j c hj hc
      rw [y1] at hj
      rw [y2] at hc
      rw [y3 j c hj, y3' j c hj, hWt_renL l hj, hm j c hj hc]
    refine ⟨Y, Y', Z, Z', hY, hY', y1'.trans y1.symm, (y2'.trans hX.cols).trans y2.symm, hyy,
      (hcomp Y hY).trans hZ, (hcomp' Y' hY').trans hZ', z1, z1', ?_, fun i c hi hc => ?_⟩
    · rw [z2, z2', y2, y2', hX.cols]
    · show Z'.at_ (ren π i) c = _
      rw [z3 i c hi, z3' _ c ((ren_lt hπ i).2 hi)]
      exact incidentSum_renL hπ l i fun k hk => hyy k c (by rw [y1]; exact hk) (by rw [← z2]; exact hc)
  · obtain ⟨_, Y, hY, y1, y2, y3⟩ := hE
    obtain ⟨_, Y', hY', y1', y2', y3'⟩ := hE'
    obtain ⟨_, Z, hZ, z1, z2, z3⟩ := hV Y y1
    obtain ⟨_, Z', hZ', z1', z2', z3'⟩ := hV' Y' y1'
    rw [renL_length] at y1' y3'
    have hyy : ∀ j c, j < Y.rows → c < Y.cols → Y'.at_ j c = Y.at_ j c := by
      intro j c hj hc
      rw [y1] at hj
      rw [y2] at hc
      rw [y3 j c hj, y3' j c hj, hWt_renL l hj, hSize_renL l hj, hm j c hj hc]
    refine ⟨Y, Y', Z, Z', hY, hY', y1'.trans y1.symm, (y2'.trans hX.cols).trans y2.symm, hyy,
      (hcomp Y hY).trans hZ, (hcomp' Y' hY').trans hZ', z1, z1', ?_, fun i c hi hc => ?_⟩
    · rw [z2, z2', y2, y2', hX.cols]
    · show Z'.at_ (ren π i) c = _
      rw [(z3 i c hi).1, (z3' _ c ((ren_lt hπ i).2 hi)).1, hDeg_renL hπ]
      rw [incidentSum_renL hπ l i fun k hk => hyy k c (by rw [y1]; exact hk) (by rw [← z2]; exact hc)]

/-- exchange of 0 and 3 -/
def exSwap : Equiv.Perm Int := Equiv.swap 0 3

theorem exSwap_ren : Spec.Renaming 4 exSwap := by
  constructor <;> intro x <;> unfold exSwap <;> rw [Equiv.swap_apply_def] <;> split <;> rename_i h1 <;>
    first | (subst h1; norm_num) | (split <;> rename_i h2 <;> first | (subst h2; norm_num) | rfl)

/-- `exH` with 0 and 3 exchanged -/
noncomputable def exHs : HSt ℝ :=
  { raw := { numV := 4, vWeight := some [1, 1, 1, 1]
             groups := [("main", [([1, 2, 3], 2), ([0, 1], 3)]), ("b", [([0], 5)])] }
    cache := [] }

theorem exHs_renamed : RenamedHypers 4 exSwap exH exHs := by
  refine ⟨exSwap_ren, some (.many false [⟨false, [2, 0, 1]⟩, ⟨true, [1, 3]⟩]), .list [2, 3], none, none, .mean,
    exH0, { raw := { numV := 4, vWeight := some [1, 1, 1, 1]
                     groups := [("main", [([1, 2, 3], 2), ([0, 1], 3)])] }
            cache := [] }, [.op (.addHyperedges (.one false [3]) (.scalar 5) .mean "b")],
    exH0_new, rfl, by simp, ?_, ?_, exH0_op.symm, rfl⟩
  · intro a ha; cases ha
    intro e he
    simp only [argEdges, List.map_cons, List.map_nil, List.mem_cons, List.not_mem_nil, or_false] at he
    rcases he with rfl | rfl <;> decide
  · intro a ew op g h
    simp only [List.mem_cons, Step.op.injEq, HOp.addHyperedges.injEq, List.not_mem_nil, or_false] at h
    obtain ⟨rfl, rfl, rfl, rfl⟩ := h
    refine ⟨?_, by simp⟩
    intro e he
    simp only [argEdges, List.mem_cons, List.not_mem_nil, or_false] at he
    subst he
    decide

example : RenamedHypers 4 exSwap exH exHs ∧ exSwap 0 = 3 ∧ Spec.HasScope exH none ∧ Spec.HasScope exH (some "b") ∧
    Spec.HNonneg (Spec.hListing exH none) ∧
    ∃ X X' : Dense ℝ, Spec.PermFeat 4 exSwap X X' ∧ X.cols = 2 ∧ X.at_ 0 0 ≠ X'.at_ 0 0 := by
  refine ⟨exHs_renamed, Equiv.swap_apply_left _ _, List.cons_ne_nil _ _, ?_, ?_,
    ⟨4, 2, fun i c => (i : ℝ) + c⟩, ⟨4, 2, fun i c => ((exSwap i).toNat : ℝ) + c⟩, ⟨rfl, rfl, rfl, ?_⟩, rfl, ?_⟩
  · show "b" ∈ ["main", "b"]
    decide
  · have hl : Spec.hListing exH none = [([0, 1, 2], 2), ([1, 3], 3), ([3], 5)] := rfl
    rw [hl]; simp [Spec.HNonneg]
  · intro i c hi _
    have h1 := (exSwap_ren.nonneg i).2 (by omega)
    show ((exSwap ((exSwap i).toNat : Int)).toNat : ℝ) + c = i + c
    rw [Int.toNat_of_nonneg h1]
    simp [exSwap]
  · simp [exSwap]

end Props
end DHG
