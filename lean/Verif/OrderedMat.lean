import Verif.OrderedLemmas
import Verif.MsgLemmas

/-!
# The matrices of directed and bipartite graphs in terms of the listing
-/

set_option linter.unusedSectionVars false
set_option autoImplicit false

namespace DHG
namespace Ord

open Finset

section Lists
variable {K : Type} [Field K]

theorem wt_cons (e : (Int × Int) × K) (l : List ((Int × Int) × K)) (i j : Int) :
    Spec.O.wt (e :: l) i j = (if e.1 = (i, j) then e.2 else 0) + Spec.O.wt l i j := rfl
theorem degOut_cons (e : (Int × Int) × K) (l : List ((Int × Int) × K)) (i : Int) :
    Spec.O.degOut (e :: l) i = (if e.1.1 = i then e.2 else 0) + Spec.O.degOut l i := rfl
theorem degIn_cons (e : (Int × Int) × K) (l : List ((Int × Int) × K)) (i : Int) :
    Spec.O.degIn (e :: l) i = (if e.1.2 = i then e.2 else 0) + Spec.O.degIn l i := rfl

/-- all pairs lie in `0..m-1 × 0..n-1` -/
def In (m n : Nat) (l : List ((Int × Int) × K)) : Prop :=
  ∀ e ∈ l, 0 ≤ e.1.1 ∧ e.1.1 < (m : Int) ∧ 0 ≤ e.1.2 ∧ e.1.2 < (n : Int)

/-- the listing with every pair turned around -/
def sw (l : List ((Int × Int) × K)) : List ((Int × Int) × K) := l.map fun e => ((e.1.2, e.1.1), e.2)

theorem In.sw {m n : Nat} {l : List ((Int × Int) × K)} (h : In m n l) : In n m (sw l) := by
  intro e he
  obtain ⟨e', he', rfl⟩ := List.mem_map.1 he
  have := h e' he'
  exact ⟨this.2.2.1, this.2.2.2, this.1, this.2.1⟩

theorem wt_sw (l : List ((Int × Int) × K)) (i j : Int) : Spec.O.wt (sw l) i j = Spec.O.wt l j i := by
  unfold Spec.O.wt sw
  rw [List.map_map]
  congr 1
  apply List.map_congr_left
  intro e _
  obtain ⟨⟨a, b⟩, w⟩ := e
  simp only [Function.comp, Prod.mk.injEq]
  by_cases h : b = i ∧ a = j
  · rw [if_pos h, if_pos h.symm]
  · rw [if_neg h, if_neg fun h' => h h'.symm]

theorem degOut_sw (l : List ((Int × Int) × K)) (i : Int) :
    Spec.O.degOut (sw l) i = Spec.O.degIn l i := by
  unfold Spec.O.degOut Spec.O.degIn sw; rw [List.map_map]; rfl

theorem degIn_sw (l : List ((Int × Int) × K)) (i : Int) :
    Spec.O.degIn (sw l) i = Spec.O.degOut l i := by
  unfold Spec.O.degOut Spec.O.degIn sw; rw [List.map_map]; rfl

theorem sum_wt {m n : Nat} {l : List ((Int × Int) × K)} (h : In m n l) (i : Nat) :
    ∑ j ∈ range n, Spec.O.wt l i j = Spec.O.degOut l i := by
  induction l with
  | nil => simp [Spec.O.wt, Spec.O.degOut]
  | cons e l ih =>
    have he := h e List.mem_cons_self
    rw [degOut_cons, ← ih fun e' he' => h e' (List.mem_cons_of_mem _ he')]
    simp only [wt_cons, sum_add_distrib]
    congr 1
    obtain ⟨⟨a, b⟩, w⟩ := e
    simp only [Prod.mk.injEq] at he ⊢
    by_cases hai : a = i
    · rw [if_pos hai]
      have : ∀ j ∈ range n, (if a = (i : Int) ∧ b = (j : Int) then w else 0) =
          if j = b.toNat then w else 0 := by
        intro j _
        by_cases hj : j = b.toNat
        · rw [if_pos (by omega), if_pos hj]
        · rw [if_neg (by omega), if_neg hj]
      rw [sum_congr rfl this, sum_ite_eq' (range n), if_pos (mem_range.2 (by omega))]
    · simp [hai]

theorem sum_wt' {m n : Nat} {l : List ((Int × Int) × K)} (h : In m n l) (j : Nat) :
    ∑ i ∈ range m, Spec.O.wt l i j = Spec.O.degIn l j := by
  rw [← degOut_sw, ← sum_wt h.sw]
  exact sum_congr rfl fun i _ => (wt_sw l j i).symm

theorem sum_degOut {m n : Nat} {l : List ((Int × Int) × K)} (h : In m n l) :
    ∑ i ∈ range m, Spec.O.degOut l (i : Int) = (l.map Prod.snd).sum := by
  induction l with
  | nil => simp [Spec.O.degOut]
  | cons e l ih =>
    have he := h e List.mem_cons_self
    rw [List.map_cons, List.sum_cons, ← ih fun e' he' => h e' (List.mem_cons_of_mem _ he')]
    simp only [degOut_cons, sum_add_distrib]
    congr 1
    have : ∀ j ∈ range m, (if e.1.1 = (j : Int) then e.2 else 0) =
        if j = e.1.1.toNat then e.2 else 0 := by
      intro j _
      by_cases hj : j = e.1.1.toNat
      · rw [if_pos (by omega), if_pos hj]
      · rw [if_neg (by omega), if_neg hj]
    rw [sum_congr rfl this, sum_ite_eq' (range m), if_pos (mem_range.2 (by omega))]

theorem sum_degIn {m n : Nat} {l : List ((Int × Int) × K)} (h : In m n l) :
    ∑ j ∈ range n, Spec.O.degIn l (j : Int) = (l.map Prod.snd).sum := by
  have := sum_degOut h.sw
  simp only [degOut_sw] at this
  rw [this]
  unfold sw; rw [List.map_map]; rfl

/-- what the matrix of a listing is -/
structure IsM (m n : Nat) (l : List ((Int × Int) × K)) (M : Sp K) : Prop where
  rows : M.rows = m
  cols : M.cols = n
  wf : M.WF
  sorted : Ents.Sorted M.ents
  get : ∀ i j : Nat, M.get i j = Spec.O.wt l i j
  keys : ∀ i j : Nat, (i, j) ∈ M.ents.map Prod.fst ↔ ∃ w, (((i : Int), (j : Int)), w) ∈ l

theorem IsM.unique {m n : Nat} {l l' : List ((Int × Int) × K)} {M M' : Sp K} (h : IsM m n l M)
    (h' : IsM m n l' M') (hw : ∀ i j, Spec.O.wt l i j = Spec.O.wt l' i j)
    (hk : ∀ p, (∃ w, (p, w) ∈ l) ↔ ∃ w, (p, w) ∈ l') : M = M' := by
  obtain ⟨r, c, es⟩ := M
  obtain ⟨r', c', es'⟩ := M'
  have h1 := h.rows.trans h'.rows.symm
  have h2 := h.cols.trans h'.cols.symm
  simp only at h1 h2
  subst h1; subst h2
  have : es = es' := h.sorted.ext h'.sorted
    (fun k => (h.keys k.1 k.2).trans ((hk _).trans (h'.keys k.1 k.2).symm))
    (fun i j => (h.get i j).trans ((hw _ _).trans (h'.get i j).symm))
  subst this
  rfl

theorem IsM.t {m n : Nat} {l : List ((Int × Int) × K)} {M : Sp K} (h : IsM m n l M) :
    IsM n m (sw l) M.t.coalesce := by
  refine ⟨h.cols, h.rows, h.wf.t.coalesce, sorted_coalesce _, ?_, ?_⟩
  · intro i j
    rw [Sp.get_coalesce, Sp.get_t, h.get, wt_sw]
  · intro i j
    show (i, j) ∈ (Ents.coalesce M.t.ents).map Prod.fst ↔ _
    rw [mem_keys_coalesce]
    have h1 : (i, j) ∈ M.t.ents.map Prod.fst ↔ (j, i) ∈ M.ents.map Prod.fst := by
      unfold Sp.t
      simp only [List.mem_map]
      constructor
      · rintro ⟨e, ⟨e', he', rfl⟩, h⟩
        simp only [Prod.mk.injEq] at h
        exact ⟨e', he', Prod.ext h.2 h.1⟩
      · rintro ⟨e, he, h⟩
        exact ⟨((e.1.2, e.1.1), e.2), ⟨e, he, rfl⟩, by rw [h]⟩
    rw [h1, h.keys]
    unfold sw
    simp only [List.mem_map]
    constructor
    · rintro ⟨w, hw⟩; exact ⟨w, _, hw, rfl⟩
    · rintro ⟨w, ⟨⟨a, b⟩, w'⟩, he, h⟩
      simp only [Prod.mk.injEq] at h
      obtain ⟨⟨rfl, rfl⟩, rfl⟩ := h
      exact ⟨w', he⟩

theorem IsM.rowSum {m n : Nat} {l : List ((Int × Int) × K)} {M : Sp K} (h : IsM m n l M)
    (hl : In m n l) : M.rowSum = (List.range m).map fun i : Nat => Spec.O.degOut l (i : Int) := by
  apply List.ext_getElem
  · rw [Sp.rowSum_length, h.rows]; simp
  · intro i h1 h2
    rw [Sp.rowSum_getElem h.wf, List.getElem_map, List.getElem_range, h.cols]
    rw [sum_congr rfl fun j _ => h.get i j]
    exact sum_wt hl i

theorem wt_eq_zero {l : List ((Int × Int) × K)} {i j : Int} (h : ∀ w, ((i, j), w) ∉ l) :
    Spec.O.wt l i j = 0 := by
  apply List.sum_eq_zero
  intro x hx
  obtain ⟨e, he, rfl⟩ := List.mem_map.1 hx
  rw [if_neg]
  rintro h'
  exact h e.2 (by rw [← h']; exact he)

theorem wt_nonneg [LinearOrder K] [IsStrictOrderedRing K] {l : List ((Int × Int) × K)}
    (h : Spec.NonnegWeights l) (i j : Int) : 0 ≤ Spec.O.wt l i j := by
  apply List.sum_nonneg
  intro x hx
  obtain ⟨e, he, rfl⟩ := List.mem_map.1 hx
  split
  · exact h e he
  · exact le_refl _

theorem degOut_nonneg [LinearOrder K] [IsStrictOrderedRing K] {l : List ((Int × Int) × K)}
    (h : Spec.NonnegWeights l) (i : Int) : 0 ≤ Spec.O.degOut l i := by
  apply List.sum_nonneg
  intro x hx
  obtain ⟨e, he, rfl⟩ := List.mem_map.1 hx
  split
  · exact h e he
  · exact le_refl _

theorem NonnegWeights.sw [LinearOrder K] {l : List ((Int × Int) × K)}
    (h : Spec.NonnegWeights l) : Spec.NonnegWeights (sw l) := by
  intro e he
  obtain ⟨e', he', rfl⟩ := List.mem_map.1 he
  exact h e' he'

theorem nodup_eq_of_fst {l : Ents K} (h : (l.map Prod.fst).Nodup) {e e' : (Nat × Nat) × K}
    (he : e ∈ l) (he' : e' ∈ l) (h1 : e.1 = e'.1) : e = e' := by
  obtain ⟨⟨i, j⟩, x⟩ := e
  obtain ⟨⟨i', j'⟩, x'⟩ := e'
  simp only [Prod.mk.injEq] at h1
  obtain ⟨rfl, rfl⟩ := h1
  have := (Ents.get_of_mem h he).symm.trans (Ents.get_of_mem h he')
  rw [this]

/-- coalescing distinct indices only reorders -/
theorem coalesce_perm {l : Ents K} (h : (l.map Prod.fst).Nodup) : (Ents.coalesce l).Perm l := by
  have hs := sorted_coalesce l
  have n1 : (Ents.coalesce l).Nodup := hs.nodup.of_map _
  have n2 : l.Nodup := h.of_map _
  rw [List.perm_ext_iff_of_nodup n1 n2]
  have aux : ∀ {l l' : Ents K}, (l.map Prod.fst).Nodup → (l'.map Prod.fst).Nodup →
      (∀ k, k ∈ l.map Prod.fst → k ∈ l'.map Prod.fst) → (∀ i j, Ents.get l i j = Ents.get l' i j) →
      ∀ e, e ∈ l → e ∈ l' := by
    intro l l' hl hl' hk hg e he
    obtain ⟨e', he', h1⟩ := List.mem_map.1 (hk e.1 (List.mem_map_of_mem he))
    obtain ⟨⟨i, j⟩, x⟩ := e
    obtain ⟨⟨i', j'⟩, x'⟩ := e'
    simp only [Prod.mk.injEq] at h1
    obtain ⟨rfl, rfl⟩ := h1
    have e1 := Ents.get_of_mem hl he
    have e2 := Ents.get_of_mem hl' he'
    rw [hg, e2] at e1
    rw [← e1]; exact he'
  intro e
  exact ⟨aux hs.nodup h (fun k hk => (mem_keys_coalesce l k).1 hk) (fun i j => get_coalesce l i j) e,
    aux h hs.nodup (fun k hk => (mem_keys_coalesce l k).2 hk) (fun i j => (get_coalesce l i j).symm) e⟩

/-- multiplying a coalesced tensor with features: the messages of its entries -/
theorem mmD_coalesce {P : Sp K} (hP : P.WF) {X Y : Dense K} (h : P.coalesce.mmD X = .ok Y) (i c : Nat) :
    Y.at_ i c = (P.ents.map fun e => if e.1.1 = i then e.2 * X.at_ e.1.2 c else 0).sum := by
  rw [Sp.mmD_at h hP.coalesce, Ents.sum_row P.ents i P.cols (fun k => X.at_ k c) fun e he => (hP e he).2]
  exact sum_congr rfl fun k _ => by rw [Sp.get_coalesce]; rfl

theorem rowSum_coalesce {P : Sp K} (hP : P.WF) {i : Nat} (hi : i < P.rows) :
    P.coalesce.rowSum.getD i 0 = (P.ents.map fun e => if e.1.1 = i then e.2 * 1 else 0).sum := by
  have hi' : i < P.coalesce.rowSum.length := by rw [Sp.rowSum_length]; exact hi
  rw [Ents.sum_row P.ents i P.cols (fun _ => 1) fun e he => (hP e he).2]
  rw [List.getD_eq_getElem?_getD, List.getElem?_eq_getElem hi', Option.getD_some,
    Sp.rowSum_getElem hP.coalesce]
  refine sum_congr rfl fun k _ => ?_
  rw [Sp.get_coalesce, mul_one]; rfl

theorem incoming_map_zip (idx : List (Nat × Nat)) (ws : List K) (hl : idx.length = ws.length)
    (x : Nat → K) (i : Nat) :
    ((idx.zip ws).map fun e => if e.1.2 = i then e.2 * x e.1.1 else 0).sum =
      Spec.incoming (idx.map Prod.fst) (idx.map Prod.snd) ws x i := by
  induction idx generalizing ws with
  | nil => cases ws <;> rfl
  | cons e es ih =>
    cases ws with
    | nil => cases hl
    | cons w ws =>
      simp only [List.map_cons, List.zip_cons_cons, List.sum_cons, Spec.incoming]
      rw [ih ws (by simpa using hl)]

end Lists

section Soft
variable {K : Type} [Field K] [LinearOrder K] [PyReal K] [IsStrictOrderedRing K]

/-- softmax over the rows of a tensor with distinct indices: the output combines the messages of the
entries with positive coefficients adding up to one in every row that has an entry -/
theorem softmax_rows {P : Sp K} (hn : (P.ents.map Prod.fst).Nodup) :
    ∃ z : Nat → K, (∀ e ∈ P.ents, 0 < z e.1.1) ∧
      (∀ X Y, P.softmax.mmD X = .ok Y → ∀ i c, Y.at_ i c =
        (P.ents.map fun e => if e.1.1 = i then PyReal.exp e.2 / z e.1.1 * X.at_ e.1.2 c else 0).sum) ∧
      (∀ e ∈ P.ents, (P.ents.map fun e' => if e'.1.1 = e.1.1 then PyReal.exp e'.2 / z e'.1.1 * 1 else 0).sum = 1) := by
  have hp : P.coalesce.ents.Perm P.ents := coalesce_perm hn
  let z : Nat → K := fun i => (P.ents.map fun e' => if e'.1.1 = i then PyReal.exp e'.2 else 0).sum
  have hz : ∀ i, (P.coalesce.ents.map fun e' => if e'.1.1 = i then PyReal.exp e'.2 else 0).sum = z i :=
    fun i => (hp.map _).sum_eq
  have hpos : ∀ e ∈ P.ents, 0 < z e.1.1 := by
    intro e he
    have hnn : ∀ x ∈ (P.ents.map fun e' => if e'.1.1 = e.1.1 then PyReal.exp e'.2 else 0), 0 ≤ x := by
      intro x hx
      obtain ⟨e', _, rfl⟩ := List.mem_map.1 hx
      split
      · exact (PyReal.exp_pos _).le
      · exact le_refl _
    have hm : PyReal.exp e.2 ∈ (P.ents.map fun e' => if e'.1.1 = e.1.1 then PyReal.exp e'.2 else 0) :=
      List.mem_map.2 ⟨e, he, by rw [if_pos rfl]⟩
    exact lt_of_lt_of_le (PyReal.exp_pos _) (List.single_le_sum hnn _ hm)
  refine ⟨z, hpos, ?_, ?_⟩
  · intro X Y h i c
    unfold Sp.mmD at h
    split at h
    · cases h
      simp only [Sp.softmax, hz, List.map_map]
      rw [← (hp.map _).sum_eq]
      rfl
    · cases h
  · intro e he
    have hp := hpos e he
    have : (fun e' : (Nat × Nat) × K => if e'.1.1 = e.1.1 then PyReal.exp e'.2 / z e'.1.1 * 1 else 0) =
        fun e' => (if e'.1.1 = e.1.1 then PyReal.exp e'.2 else 0) * (z e.1.1)⁻¹ := by
      funext e'
      by_cases hc : e'.1.1 = e.1.1
      · rw [if_pos hc, if_pos hc, hc, div_eq_mul_inv, mul_one]
      · rw [if_neg hc, if_neg hc, zero_mul]
    rw [this, List.sum_map_mul_right]
    exact mul_inv_cancel₀ hp.ne'

end Soft

section Spec
variable {K : Type} [Field K] [LinearOrder K] {c : Cls}

open Graph (lst)

/-- all listed pairs are within the shape of the matrix -/
def Fits (c : Cls) (r : GRaw K) : Prop := In (rows c r) r.numV (lst r)

theorem fits_di {r : GRaw K} (hr : Inv .di r) (hp : Graph.Pos r) : Fits .di r := by
  unfold Fits lst
  rw [Graph.zip_listing]
  intro e he
  rcases List.mem_append.1 he with he | he
  · rcases List.mem_append.1 he with he | he
    · have hk : e.1 ∈ r.eDict.keys := List.mem_map_of_mem (f := Prod.fst) he
      have h1 := hp.E _ hk
      have h3 := hr.ltE _ hk
      omega
    · obtain ⟨p, hp', rfl⟩ := List.mem_map.1 he
      have hk : p.1 ∈ r.loops.keys := List.mem_map_of_mem (f := Prod.fst) hp'
      have h1 := hp.L _ hk
      have h2 := hr.ltL _ hk
      simp only [rows]; omega
  · split at he
    · obtain ⟨v, hv, rfl⟩ := List.mem_map.1 he
      have := List.mem_range.1 hv
      simp only [rows]; omega
    · cases he

theorem fits_bi {r : GRaw K} (hr : Inv .bi r) (hp : Graph.Pos r)
    (hx : r.extra = false ∨ r.numV ≤ r.numU) : Fits .bi r := by
  unfold Fits lst
  rw [Graph.zip_listing]
  intro e he
  rcases List.mem_append.1 he with he | he
  · rcases List.mem_append.1 he with he | he
    · have hk : e.1 ∈ r.eDict.keys := List.mem_map_of_mem (f := Prod.fst) he
      have h1 := hp.E _ hk
      have h3 := hr.ltE _ hk
      omega
    · rw [hr.noL rfl] at he; cases he
  · split at he
    · rename_i hx'
      obtain ⟨v, hv, rfl⟩ := List.mem_map.1 he
      have := List.mem_range.1 hv
      rcases hx with hx | hx
      · rw [hx] at hx'; cases hx'
      · simp only [rows]; omega
    · cases he

theorem evM_spec {r : GRaw K} (h : Fits c r) :
    ∃ M, evM c r = .ok M ∧ IsM (rows c r) r.numV (lst r) M := by
  unfold evM
  by_cases h0 : r.numE = 0
  · rw [if_pos h0]
    have hl : lst r = [] := by
      have : (lst r).length = 0 := by
        unfold lst; rw [List.length_zip, Graph.edgeList_length, Graph.edgeWts_length, h0]; rfl
      exact List.length_eq_zero_iff.1 this
    refine ⟨_, rfl, ⟨rfl, rfl, ?_, ?_, ?_, ?_⟩⟩
    · intro e he; cases he
    · exact List.Pairwise.nil
    · intro i j; rw [hl]; rfl
    · intro i j
      rw [hl]
      simp [Sp.empty]
  · rw [if_neg h0]
    have hfst : (lst r).map Prod.fst = r.edgeList := by
      unfold lst; rw [List.map_fst_zip]; rw [Graph.edgeList_length, Graph.edgeWts_length]
    have hsh : ∀ p ∈ r.edgeList, InShape (rows c r) r.numV p := by
      intro p hp'
      rw [← hfst] at hp'
      obtain ⟨e, he, rfl⟩ := List.mem_map.1 hp'
      have := h e he
      unfold InShape
      omega
    have hb : ∃ M, Sp.build (rows c r) r.numV r.edgeList r.edgeWts = .ok M := by
      rw [Sp.build_eq, if_pos ⟨by rw [Graph.edgeList_length, Graph.edgeWts_length], hsh⟩]
      exact ⟨_, rfl⟩
    obtain ⟨M, hM⟩ := hb
    rw [hM]
    obtain ⟨h1, h2, h3⟩ := Sp.build_WF hM
    refine ⟨_, rfl, ⟨h2, h3, h1.coalesce, sorted_coalesce _, ?_, ?_⟩⟩
    · intro i j
      show Ents.get (Ents.coalesce M.ents) i j = _
      rw [get_coalesce]
      exact Sp.build_get hM i j
    · intro i j
      show (i, j) ∈ (Ents.coalesce M.ents).map Prod.fst ↔ _
      rw [mem_keys_coalesce, Graph.build_keys hM, ← hfst, List.mem_map]
      constructor
      · rintro ⟨e, he, h⟩; exact ⟨e.2, by rw [← h]; exact he⟩
      · rintro ⟨w, hw⟩; exact ⟨_, hw, rfl⟩

theorem evMT_spec {r : GRaw K} (h : Fits c r) :
    ∃ M, evMT c r = .ok M ∧ IsM r.numV (rows c r) (sw (lst r)) M := by
  obtain ⟨M, hM, h'⟩ := evM_spec h
  exact ⟨_, by unfold evMT; rw [hM]; rfl, h'.t⟩

theorem evDr_spec {r : GRaw K} (h : Fits c r) :
    evDr c r = .ok (Sp.diag ((List.range (rows c r)).map fun i : Nat => Spec.O.degOut (lst r) (i : Int))) := by
  obtain ⟨M, hM, h'⟩ := evM_spec h
  unfold evDr
  rw [hM]
  show Except.ok _ = _
  rw [h'.rowSum h]

theorem evDc_spec {r : GRaw K} (h : Fits c r) :
    evDc c r = .ok (Sp.diag ((List.range r.numV).map fun i : Nat => Spec.O.degIn (lst r) (i : Int))) := by
  obtain ⟨M, hM, h'⟩ := evMT_spec h
  unfold evDc
  rw [hM]
  show Except.ok _ = _
  rw [h'.rowSum (In.sw h)]
  simp only [degOut_sw]

theorem evDrN1_spec {r : GRaw K} (h : Fits c r) :
    evDrN1 c r = .ok (Sp.diag ((List.range (rows c r)).map fun i : Nat => (Spec.O.degOut (lst r) (i : Int))⁻¹)) := by
  unfold evDrN1
  rw [evDr_spec h]
  show Except.ok _ = _
  unfold Sp.inv
  rw [Sp.diag_mapVals, List.map_map]
  rfl

theorem evDcN1_spec {r : GRaw K} (h : Fits c r) :
    evDcN1 c r = .ok (Sp.diag ((List.range r.numV).map fun i : Nat => (Spec.O.degIn (lst r) (i : Int))⁻¹)) := by
  unfold evDcN1
  rw [evDc_spec h]
  show Except.ok _ = _
  unfold Sp.inv
  rw [Sp.diag_mapVals, List.map_map]
  rfl

theorem diag_vals (v : List K) : (Sp.diag v).ents.map Prod.snd = v := by
  unfold Sp.diag
  simp only [List.map_zipWith]
  apply List.ext_getElem
  · simp
  · intro i h1 h2; simp

variable [PyReal K]

/-- default-weight `sum`: product with the matrix -/
theorem pass_sum {evP evD : GRaw K → Except Err (Sp K)} {r : GRaw K} {m n : Nat}
    {l : List ((Int × Int) × K)} {M : Sp K} (hM : evP r = .ok M) (h : IsM m n l M) (X : Dense K)
    (hX : X.rows = n) (keep : Nat → Bool) :
    ∃ Y, evPass evP evD X .sum 0 keep r = .ok Y ∧ Y.rows = m ∧ Y.cols = X.cols ∧
      ∀ i c, Y.at_ i c = ∑ j ∈ range n, Spec.O.wt l (i : Int) (j : Int) * X.at_ j c := by
  obtain ⟨Y, hY⟩ := Sp.mmD_ok (P := M) (X := X) (by rw [h.cols, hX])
  have hs := Sp.mmD_shape hY
  refine ⟨Y, ?_, hs.2.1.trans h.rows, hs.2.2, ?_⟩
  · simp only [evPass, hM, Graph.evDrop]
    simp only [bind, Except.bind, lt_self_iff_false, if_false]
    exact hY
  · intro i c
    rw [Sp.mmD_at hY h.wf, h.cols]
    exact sum_congr rfl fun j _ => by rw [h.get]

/-- default-weight `mean`: product divided by the degree, 0 at degree 0 -/
theorem pass_mean {evP evD : GRaw K → Except Err (Sp K)} {r : GRaw K} {m n : Nat}
    {l : List ((Int × Int) × K)} {M : Sp K} {d : Nat → K} (hM : evP r = .ok M) (h : IsM m n l M)
    (hD : evD r = .ok (Sp.diag ((List.range m).map fun i => (d i)⁻¹))) (X : Dense K)
    (hX : X.rows = n) (keep : Nat → Bool) :
    ∃ Y, evPass evP evD X .mean 0 keep r = .ok Y ∧ Y.rows = m ∧ Y.cols = X.cols ∧
      ∀ i c, i < m → (d i = 0 → Y.at_ i c = 0) ∧ (d i ≠ 0 → Y.at_ i c =
        (∑ j ∈ range n, Spec.O.wt l (i : Int) (j : Int) * X.at_ j c) / d i) := by
  obtain ⟨Z, hZ⟩ := Sp.mmD_ok (P := M) (X := X) (by rw [h.cols, hX])
  have hs := Sp.mmD_shape hZ
  obtain ⟨Y, hY⟩ := Sp.mmD_ok (P := Sp.diag ((List.range m).map fun i => (d i)⁻¹))
    (X := Z) (by simp [Sp.diag_cols, hs.2.1, h.rows])
  have hs' := Sp.mmD_shape hY
  refine ⟨Y, ?_, hs'.2.1.trans (by simp [Sp.diag_rows]), hs'.2.2.trans hs.2.2, ?_⟩
  · simp only [evPass, hM, Graph.evDrop]
    simp only [bind, Except.bind, lt_self_iff_false, if_false]
    rw [hZ, hD]
    exact hY
  · intro i c hi
    rw [Sp.diag_mmD_at hY hi, Sp.mmD_at hZ h.wf, h.cols]
    have : ∑ j ∈ range n, M.get i j * X.at_ j c =
        ∑ j ∈ range n, Spec.O.wt l (i : Int) (j : Int) * X.at_ j c :=
      sum_congr rfl fun j _ => by rw [h.get]
    rw [this]
    refine ⟨fun h0 => by rw [h0, inv_zero, zero_mul], fun h0 => by rw [div_eq_mul_inv, mul_comm]⟩

theorem pass_other {evP evD : GRaw K → Except Err (Sp K)} {r : GRaw K} {M : Sp K}
    (hM : evP r = .ok M) (X : Dense K) (p : K) (keep : Nat → Bool) {Y : Dense K}
    (h : evPass evP evD X .other p keep r = .ok Y) : Y = X := by
  simp only [evPass, hM, bind, Except.bind] at h
  split at h
  · cases h
  · cases h; rfl

/-- softmax with the stored weights -/
theorem pass_softmax [IsStrictOrderedRing K] {evP evD : GRaw K → Except Err (Sp K)} {r : GRaw K} {m n : Nat}
    {l : List ((Int × Int) × K)} {M : Sp K} (hM : evP r = .ok M) (h : IsM m n l M) (X : Dense K)
    (hX : X.rows = n) (keep : Nat → Bool) :
    ∃ (Y : Dense K) (z : Nat → K), evPass evP evD X .softmax 0 keep r = .ok Y ∧
      (∀ e ∈ M.ents, 0 < z e.1.1) ∧
      (∀ i c, Y.at_ i c =
        (M.ents.map fun e => if e.1.1 = i then PyReal.exp e.2 / z e.1.1 * X.at_ e.1.2 c else 0).sum) ∧
      (∀ e ∈ M.ents, (M.ents.map fun e' => if e'.1.1 = e.1.1 then PyReal.exp e'.2 / z e'.1.1 * 1 else 0).sum = 1) := by
  obtain ⟨z, h1, h2, h3⟩ := softmax_rows (P := M) h.sorted.nodup
  obtain ⟨Y, hY⟩ := Sp.mmD_ok (P := M.softmax) (X := X) (by show M.cols = _; rw [h.cols, hX])
  refine ⟨Y, z, ?_, h1, h2 X Y hY, h3⟩
  simp only [evPass, hM, Graph.evDrop]
  simp only [bind, Except.bind, lt_self_iff_false, if_false]
  exact hY

/-- entries of the matrix with given values, transposed if asked -/
def wEnts (tr : Bool) (M : Sp K) (w : List K) : Ents K :=
  if tr then ((M.ents.map Prod.fst).zip w).map fun e => ((e.1.2, e.1.1), e.2)
  else (M.ents.map Prod.fst).zip w

theorem wEnts_incoming (tr : Bool) {M : Sp K} {w : List K} (hl : w.length = M.ents.length)
    (x : Nat → K) (i : Nat) :
    ((wEnts tr M w).map fun e => if e.1.1 = i then e.2 * x e.1.2 else 0).sum =
      if tr then Spec.incoming (M.ents.map fun e => e.1.1) (M.ents.map fun e => e.1.2) w x i
      else Spec.incoming (M.ents.map fun e => e.1.2) (M.ents.map fun e => e.1.1) w x i := by
  have hl' : (M.ents.map Prod.fst).length = w.length := by rw [List.length_map]; exact hl.symm
  have e1 : M.ents.map (fun e => e.1.1) = (M.ents.map Prod.fst).map Prod.fst := by rw [List.map_map]; rfl
  have e2 : M.ents.map (fun e => e.1.2) = (M.ents.map Prod.fst).map Prod.snd := by rw [List.map_map]; rfl
  rw [e1, e2]
  unfold wEnts
  cases tr with
  | true =>
    simp only [if_true]
    rw [← incoming_map_zip _ _ hl', List.map_map]; rfl
  | false =>
    simp only [Bool.false_eq_true, if_false]
    rw [← incoming_zip _ _ hl']

theorem wP_wf {m n : Nat} {l : List ((Int × Int) × K)} {M : Sp K} (h : IsM m n l M) {w : List K}
    (tr : Bool) : ({ rows := if tr then n else m, cols := if tr then m else n, ents := wEnts tr M w } : Sp K).WF := by
  have key : ∀ e ∈ (M.ents.map Prod.fst).zip w, e.1.1 < m ∧ e.1.2 < n := by
    intro e he
    have h1 := (List.of_mem_zip (a := e.1) (b := e.2) he).1
    obtain ⟨e', he', h2⟩ := List.mem_map.1 h1
    have := h.wf e' he'
    rw [h2, h.rows, h.cols] at this
    exact this
  intro e he
  cases tr with
  | true =>
    simp only [wEnts, if_true] at he
    obtain ⟨e', he', rfl⟩ := List.mem_map.1 he
    exact (key e' he').symm
  | false =>
    simp only [wEnts, Bool.false_eq_true, if_false] at he
    exact key e he

theorem wP_eq {m n : Nat} {l : List ((Int × Int) × K)} {M : Sp K} (h : IsM m n l M) {w : List K}
    (hl : w.length = M.ents.length) (tr : Bool) {r : GRaw K} (hM : evM c r = .ok M) (X : Dense K)
    (aggr : Aggr) (keep : Nat → Bool) :
    let P : Sp K := { rows := if tr then n else m, cols := if tr then m else n, ents := wEnts tr M w }
    evPassW c tr w X aggr 0 keep r =
      match aggr with
      | .mean => (P.coalesce.mmD X).map fun Y => Y.scaleRows P.coalesce.rowSum
      | .sum => P.coalesce.mmD X
      | .softmax => P.coalesce.softmax.mmD X
      | .other => .ok X := by
  obtain ⟨mr, mc, es⟩ := M
  have h1 := h.rows
  have h2 := h.cols
  simp only at h1 h2
  subst h1; subst h2
  intro P
  have hP : (if tr then ({ rows := mr, cols := mc, ents := (es.map Prod.fst).zip w } : Sp K).t.coalesce
      else ({ rows := mr, cols := mc, ents := (es.map Prod.fst).zip w } : Sp K).coalesce) = P.coalesce := by
    cases tr <;> rfl
  simp only [evPassW, hM, bind, Except.bind]
  rw [if_pos hl]
  simp only [Sp.withVals]
  rw [if_pos hl.symm]
  simp only [Graph.evDrop, lt_self_iff_false, if_false, hP]
  cases aggr with
  | mean => simp only []; cases P.coalesce.mmD X <;> rfl
  | sum => rfl
  | softmax => rfl
  | other => rfl

/-- explicit weights, `sum` and `mean` -/
theorem passW_spec {m n : Nat} {l : List ((Int × Int) × K)} {M : Sp K} {r : GRaw K}
    (hM : evM c r = .ok M) (h : IsM m n l M) (tr : Bool) (w : List K)
    (hl : w.length = M.ents.length) (X : Dense K) (hX : X.rows = if tr then m else n)
    (keep : Nat → Bool) :
    let inc := fun x i => if tr then
        Spec.incoming (M.ents.map fun e => e.1.1) (M.ents.map fun e => e.1.2) w x i
      else Spec.incoming (M.ents.map fun e => e.1.2) (M.ents.map fun e => e.1.1) w x i
    (∃ Y, evPassW c tr w X .sum 0 keep r = .ok Y ∧ ∀ i c, Y.at_ i c = inc (fun j => X.at_ j c) i) ∧
    (∃ Y, evPassW c tr w X .mean 0 keep r = .ok Y ∧ ∀ i c, i < (if tr then n else m) →
      Y.at_ i c = inc (fun _ => 1) i * inc (fun j => X.at_ j c) i) := by
  intro inc
  let P : Sp K := { rows := if tr then n else m, cols := if tr then m else n, ents := wEnts tr M w }
  have hwf : P.WF := wP_wf h tr
  obtain ⟨Y, hY⟩ := Sp.mmD_ok (P := P.coalesce) (X := X) (by show P.cols = _; rw [hX])
  have hYat : ∀ i c, Y.at_ i c = inc (fun j => X.at_ j c) i := by
    intro i c
    rw [mmD_coalesce hwf hY]
    exact wEnts_incoming tr hl (fun j => X.at_ j c) i
  constructor
  · exact ⟨Y, (wP_eq h hl tr hM X .sum keep).trans hY, hYat⟩
  · refine ⟨Y.scaleRows P.coalesce.rowSum, (wP_eq h hl tr hM X .mean keep).trans ?_, ?_⟩
    · show Except.map _ (P.coalesce.mmD X) = _
      rw [hY]; rfl
    · intro i c hi
      unfold Dense.scaleRows
      simp only
      rw [hYat]
      congr 1
      rw [rowSum_coalesce hwf hi]
      exact wEnts_incoming tr hl (fun _ => 1) i

theorem wEnts_nodup {M : Sp K} (h : Ents.Sorted M.ents) {w : List K} (hl : w.length = M.ents.length)
    (tr : Bool) : ((wEnts tr M w).map Prod.fst).Nodup := by
  have e0 : ((M.ents.map Prod.fst).zip w).map Prod.fst = M.ents.map Prod.fst :=
    List.map_fst_zip (by rw [List.length_map]; exact hl.ge)
  unfold wEnts
  cases tr with
  | false => simp only [Bool.false_eq_true, if_false]; rw [e0]; exact h.nodup
  | true =>
    simp only [if_true, List.map_map]
    have : (Prod.fst ∘ fun e : (Nat × Nat) × K => ((e.1.2, e.1.1), e.2)) =
        (fun q : Nat × Nat => (q.2, q.1)) ∘ Prod.fst := rfl
    rw [this, ← List.map_map, e0]
    refine h.nodup.map ?_
    intro a b hab
    simp only [Prod.mk.injEq] at hab
    exact Prod.ext hab.2 hab.1

/-- explicit weights, `softmax_then_sum` -/
theorem passW_softmax [IsStrictOrderedRing K] {m n : Nat} {l : List ((Int × Int) × K)} {M : Sp K} {r : GRaw K}
    (hM : evM c r = .ok M) (h : IsM m n l M) (tr : Bool) (w : List K)
    (hl : w.length = M.ents.length) (X : Dense K) (hX : X.rows = if tr then m else n)
    (keep : Nat → Bool) :
    ∃ (Y : Dense K) (z : Nat → K), evPassW c tr w X .softmax 0 keep r = .ok Y ∧
      (∀ e ∈ wEnts tr M w, 0 < z e.1.1) ∧
      (∀ i c, Y.at_ i c = ((wEnts tr M w).map fun e =>
        if e.1.1 = i then PyReal.exp e.2 / z e.1.1 * X.at_ e.1.2 c else 0).sum) ∧
      (∀ e ∈ wEnts tr M w, ((wEnts tr M w).map fun e' =>
        if e'.1.1 = e.1.1 then PyReal.exp e'.2 / z e'.1.1 * 1 else 0).sum = 1) := by
  let P : Sp K := { rows := if tr then n else m, cols := if tr then m else n, ents := wEnts tr M w }
  have hn : (P.ents.map Prod.fst).Nodup := wEnts_nodup h.sorted hl tr
  have hcc : P.coalesce.softmax = P.softmax := by
    unfold Sp.softmax Sp.coalesce
    simp only
    rw [coalesce_of_sorted (sorted_coalesce P.ents)]
  obtain ⟨z, h1, h2, h3⟩ := softmax_rows (P := P) hn
  obtain ⟨Y, hY⟩ := Sp.mmD_ok (P := P.softmax) (X := X) (by show P.cols = _; rw [hX])
  refine ⟨Y, z, ?_, h1, h2 X Y hY, h3⟩
  refine (wP_eq h hl tr hM X .softmax keep).trans ?_
  show P.coalesce.softmax.mmD X = _
  rw [hcc]; exact hY

/-- coefficient form of `passW_softmax` -/
theorem passW_softmax_coef [IsStrictOrderedRing K] {m n : Nat} {l : List ((Int × Int) × K)} {M : Sp K} {r : GRaw K}
    (hM : evM c r = .ok M) (h : IsM m n l M) (tr : Bool) (w : List K)
    (hl : w.length = M.ents.length) (X : Dense K) (hX : X.rows = if tr then m else n)
    (keep : Nat → Bool) :
    let recv := if tr then M.ents.map (fun e => e.1.2) else M.ents.map (fun e => e.1.1)
    let send := if tr then M.ents.map (fun e => e.1.1) else M.ents.map (fun e => e.1.2)
    ∃ (Y : Dense K) (coef : List K) (z : Nat → K), evPassW c tr w X .softmax 0 keep r = .ok Y ∧
      coef.length = recv.length ∧
      (∀ i c, Y.at_ i c = Spec.incoming send recv coef (fun j => X.at_ j c) i) ∧
      (∀ i, i ∈ recv → 0 < z i) ∧
      (∀ k (h1 : k < coef.length) (h2 : k < w.length) (h3 : k < recv.length),
        coef[k] * z recv[k] = PyReal.exp w[k] ∧ 0 < coef[k]) ∧
      (∀ i, i ∈ recv → Spec.incoming send recv coef (fun _ => 1) i = 1) := by
  intro recv send
  obtain ⟨Y, z, hY, hz, hat, hone⟩ := passW_softmax hM h tr w hl X hX keep
  have hrl : recv.length = M.ents.length := by cases tr <;> simp [recv]
  have hwl : (wEnts tr M w).length = M.ents.length := by cases tr <;> simp [wEnts, hl]
  let coef : List K := (wEnts tr M w).map fun e => PyReal.exp e.2 / z e.1.1
  have hcl : coef.length = M.ents.length := by simp [coef, hwl]
  -- receiver and weight at position k
  have hk1 : ∀ k (h1 : k < (wEnts tr M w).length) (h3 : k < recv.length),
      ((wEnts tr M w)[k]).1.1 = recv[k] := by
    intro k h1 h3
    cases tr <;> simp [wEnts, recv]
  have hk2 : ∀ k (h1 : k < (wEnts tr M w).length) (h3 : k < w.length),
      ((wEnts tr M w)[k]).2 = w[k] := by
    intro k h1 h3
    cases tr <;> simp [wEnts]
  have hmem : ∀ i, i ∈ recv → ∃ e ∈ wEnts tr M w, e.1.1 = i := by
    intro i hi
    obtain ⟨k, hk, rfl⟩ := List.mem_iff_getElem.1 hi
    have hk' : k < (wEnts tr M w).length := by omega
    exact ⟨_, List.getElem_mem hk', hk1 k hk' hk⟩
  have hinc : ∀ (x : Nat → K) i, ((wEnts tr M w).map fun e =>
      if e.1.1 = i then PyReal.exp e.2 / z e.1.1 * x e.1.2 else 0).sum =
      Spec.incoming send recv coef x i := by
    intro x i
    have hw : (wEnts tr M w).map (fun e => (e.1, PyReal.exp e.2 / z e.1.1)) = wEnts tr M coef := by
      apply List.ext_getElem
      · cases tr <;> simp [wEnts, hl, hcl]
      · intro k h1 h2
        have h3 : k < (wEnts tr M w).length := by simpa using h1
        cases tr <;> simp [wEnts, coef]
    have := wEnts_incoming tr (M := M) hcl x i
    rw [← hw, List.map_map] at this
    refine this.trans ?_
    cases tr <;> rfl
  refine ⟨Y, coef, z, hY, hcl.trans hrl.symm, ?_, ?_, ?_, ?_⟩
  · intro i c; rw [hat]; exact hinc (fun j => X.at_ j c) i
  · intro i hi
    obtain ⟨e, he, rfl⟩ := hmem i hi
    exact hz e he
  · intro k h1 h2 h3
    have h4 : k < (wEnts tr M w).length := by omega
    have hp := hz _ (List.getElem_mem h4)
    have e1 : coef[k] = PyReal.exp ((wEnts tr M w)[k]).2 / z ((wEnts tr M w)[k]).1.1 := by
      simp [coef]
    rw [e1, ← hk1 k h4 h3, ← hk2 k h4 h2]
    exact ⟨div_mul_cancel₀ _ hp.ne', div_pos (PyReal.exp_pos _) hp⟩
  · intro i hi
    obtain ⟨e, he, rfl⟩ := hmem i hi
    rw [← hinc (fun _ => 1)]
    exact hone e he

end Spec
end Ord
end DHG
