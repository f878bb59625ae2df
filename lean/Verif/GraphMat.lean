import Verif.GraphHelpers
import Verif.MatAlg
import Verif.ListSpec

/-!
# The matrices of a `Graph` in terms of its listing
-/

set_option linter.unusedSectionVars false
set_option autoImplicit false

namespace DHG
namespace Graph

open Finset

section Lists
variable {K : Type} [Field K]

@[simp] theorem wt_nil (i j : Int) : Spec.wt ([] : List ((Int × Int) × K)) i j = 0 := rfl
theorem wt_cons (e : (Int × Int) × K) (l : List ((Int × Int) × K)) (i j : Int) :
    Spec.wt (e :: l) i j = (if e.1 = (i, j) ∨ e.1 = (j, i) then e.2 else 0) + Spec.wt l i j := rfl
theorem wt_append (l l' : List ((Int × Int) × K)) (i j : Int) :
    Spec.wt (l ++ l') i j = Spec.wt l i j + Spec.wt l' i j := by
  simp [Spec.wt]
@[simp] theorem deg_nil (i : Int) : Spec.deg ([] : List ((Int × Int) × K)) i = 0 := rfl
theorem deg_cons (e : (Int × Int) × K) (l : List ((Int × Int) × K)) (i : Int) :
    Spec.deg (e :: l) i = (if e.1.1 = i ∨ e.1.2 = i then e.2 else 0) + Spec.deg l i := rfl

theorem wt_symm (l : List ((Int × Int) × K)) (i j : Int) : Spec.wt l i j = Spec.wt l j i := by
  unfold Spec.wt
  congr 1
  apply List.map_congr_left
  intro e _
  simp only [or_comm]

/-- all endpoints lie in `0..n-1` -/
def InR (n : Nat) (l : List ((Int × Int) × K)) : Prop :=
  ∀ e ∈ l, 0 ≤ e.1.1 ∧ e.1.1 < (n : Int) ∧ 0 ≤ e.1.2 ∧ e.1.2 < (n : Int)

theorem sum_wt {n : Nat} {l : List ((Int × Int) × K)} (h : InR n l) (i : Nat) (f : Nat → K) :
    ∑ j ∈ range n, Spec.wt l i j * f j =
      (l.map fun e => if e.1.1 = (i : Int) then e.2 * f e.1.2.toNat
        else if e.1.2 = (i : Int) then e.2 * f e.1.1.toNat else 0).sum := by
  induction l with
  | nil => simp
  | cons e l ih =>
    have he := h e List.mem_cons_self
    rw [List.map_cons, List.sum_cons, ← ih fun e' he' => h e' (List.mem_cons_of_mem _ he')]
    simp only [wt_cons, add_mul, sum_add_distrib]
    congr 1
    obtain ⟨⟨a, b⟩, w⟩ := e
    simp only [Prod.mk.injEq] at he ⊢
    by_cases hai : a = i
    · rw [if_pos hai]
      have : ∀ j ∈ range n, (if (a = (i : Int) ∧ b = (j : Int)) ∨ (a = (j : Int) ∧ b = (i : Int)) then w else 0) * f j =
          if j = b.toNat then w * f j else 0 := by
        intro j _
        by_cases hj : j = b.toNat
        · rw [if_pos (by omega), if_pos hj]
        · rw [if_neg (by omega), if_neg hj, zero_mul]
      rw [sum_congr rfl this, sum_ite_eq' (range n), if_pos (mem_range.2 (by omega))]
    · simp only [hai, if_false, false_and, false_or]
      by_cases hbi : b = i
      · simp only [hbi, if_true, and_true]
        have : ∀ j ∈ range n, (if a = (j : Int) then w else 0) * f j =
            if j = a.toNat then w * f j else 0 := by
          intro j _
          by_cases hj : j = a.toNat
          · rw [if_pos (by omega), if_pos hj]
          · rw [if_neg (by omega), if_neg hj, zero_mul]
        rw [sum_congr rfl this, sum_ite_eq' (range n), if_pos (mem_range.2 (by omega))]
      · simp [hbi]

theorem sum_wt_deg {n : Nat} {l : List ((Int × Int) × K)} (h : InR n l) (i : Nat) :
    ∑ j ∈ range n, Spec.wt l i j = Spec.deg l i := by
  have := sum_wt h i (fun _ => 1)
  simp only [mul_one] at this
  rw [this]
  unfold Spec.deg
  congr 1
  apply List.map_congr_left
  intro e _
  by_cases h1 : e.1.1 = (i : Int) <;> by_cases h2 : e.1.2 = (i : Int) <;> simp [h1, h2]

/-- total of the degrees: proper edges count twice, loops once -/
theorem sum_deg {n : Nat} {l : List ((Int × Int) × K)} (h : InR n l) :
    ∑ i ∈ range n, Spec.deg l (i : Int) =
      (l.map fun e => if e.1.1 = e.1.2 then e.2 else 2 * e.2).sum := by
  induction l with
  | nil => simp
  | cons e l ih =>
    have he := h e List.mem_cons_self
    rw [List.map_cons, List.sum_cons, ← ih fun e' he' => h e' (List.mem_cons_of_mem _ he')]
    simp only [deg_cons, sum_add_distrib]
    congr 1
    obtain ⟨⟨a, b⟩, w⟩ := e
    simp only at he ⊢
    by_cases hab : a = b
    · subst hab
      simp only [or_self, if_true]
      have : ∀ j ∈ range n, (if a = (j : Int) then w else 0) = if j = a.toNat then w else 0 := by
        intro j _
        by_cases hj : j = a.toNat
        · rw [if_pos (by omega), if_pos hj]
        · rw [if_neg (by omega), if_neg hj]
      rw [sum_congr rfl this, sum_ite_eq' (range n), if_pos (mem_range.2 (by omega))]
    · simp only [hab, if_false]
      have : ∀ j ∈ range n, (if a = (j : Int) ∨ b = (j : Int) then w else 0) =
          (if j = a.toNat then w else 0) + (if j = b.toNat then w else 0) := by
        intro j _
        by_cases hj : j = a.toNat
        · rw [if_pos (by omega), if_pos hj, if_neg (by omega), add_zero]
        · by_cases hj' : j = b.toNat
          · rw [if_pos (by omega), if_neg hj, if_pos hj', zero_add]
          · rw [if_neg (by omega), if_neg hj, if_neg hj', zero_add]
      rw [sum_congr rfl this, sum_add_distrib, sum_ite_eq' (range n), if_pos (mem_range.2 (by omega)),
        sum_ite_eq' (range n), if_pos (mem_range.2 (by omega))]
      ring

/-- the Laplacian quadratic form of a listing without loops -/
theorem quad_form {n : Nat} {l : List ((Int × Int) × K)} (h : InR n l) (x : Nat → K) :
    ∑ i ∈ range n, x i * (Spec.deg l (i : Int) * x i) -
      ∑ i ∈ range n, ∑ j ∈ range n, x i * Spec.wt l (i : Int) (j : Int) * x j =
      ((Spec.proper l).map fun e =>
        e.2 * ((x e.1.1.toNat - x e.1.2.toNat) * (x e.1.1.toNat - x e.1.2.toNat))).sum := by
  have h1 : ∀ i, ∑ j ∈ range n, x i * Spec.wt l (i : Int) (j : Int) * x j =
      x i * ∑ j ∈ range n, Spec.wt l (i : Int) (j : Int) * x j := by
    intro i; rw [mul_sum]; exact sum_congr rfl fun j _ => by ring
  simp only [h1]
  simp only [sum_wt h]
  induction l with
  | nil => simp [Spec.proper]
  | cons e l ih =>
    have he := h e List.mem_cons_self
    have ih' := ih (fun e' he' => h e' (List.mem_cons_of_mem _ he')) (by
      intro i; rw [mul_sum]; exact sum_congr rfl fun j _ => by ring)
    simp only [deg_cons, List.map_cons, List.sum_cons, mul_add, add_mul, sum_add_distrib]
    have hp : ((Spec.proper (e :: l)).map fun e =>
        e.2 * ((x e.1.1.toNat - x e.1.2.toNat) * (x e.1.1.toNat - x e.1.2.toNat))).sum =
        (if e.1.1 ≠ e.1.2 then
          e.2 * ((x e.1.1.toNat - x e.1.2.toNat) * (x e.1.1.toNat - x e.1.2.toNat)) else 0) +
        ((Spec.proper l).map fun e =>
          e.2 * ((x e.1.1.toNat - x e.1.2.toNat) * (x e.1.1.toNat - x e.1.2.toNat))).sum := by
      unfold Spec.proper
      rw [List.filter_cons]
      by_cases hc : e.1.1 = e.1.2
      · simp [hc]
      · simp [hc]
    rw [hp, ← ih']
    obtain ⟨⟨a, b⟩, w⟩ := e
    simp only at he ⊢
    by_cases hab : a = b
    · subst hab
      simp only [or_self, ne_eq, not_true_eq_false, if_false, zero_add]
      have : ∑ i ∈ range n, x i * ((if a = (i : Int) then w else 0) * x i) =
          ∑ i ∈ range n, x i * (if a = (i : Int) then w * x a.toNat
            else if a = (i : Int) then w * x a.toNat else 0) := by
        apply sum_congr rfl; intro i _
        by_cases hi : a = (i : Int)
        · have : a.toNat = i := by omega
          simp [hi]
        · simp [hi]
      rw [this]; ring
    · simp only [ne_eq, hab, not_false_eq_true, if_true]
      have e1 : ∑ i ∈ range n, x i * ((if a = (i : Int) ∨ b = (i : Int) then w else 0) * x i) =
          w * (x a.toNat * x a.toNat) + w * (x b.toNat * x b.toNat) := by
        have : ∀ i ∈ range n, x i * ((if a = (i : Int) ∨ b = (i : Int) then w else 0) * x i) =
            (if i = a.toNat then w * (x i * x i) else 0) + (if i = b.toNat then w * (x i * x i) else 0) := by
          intro i _
          by_cases hj : i = a.toNat
          · rw [if_pos (by omega), if_pos hj, if_neg (by omega)]; ring
          · by_cases hj' : i = b.toNat
            · rw [if_pos (by omega), if_neg hj, if_pos hj']; ring
            · rw [if_neg (by omega), if_neg hj, if_neg hj']; ring
        rw [sum_congr rfl this, sum_add_distrib, sum_ite_eq' (range n), if_pos (mem_range.2 (by omega)),
          sum_ite_eq' (range n), if_pos (mem_range.2 (by omega))]
      have e2 : ∑ i ∈ range n, x i * (if a = (i : Int) then w * x b.toNat
            else if b = (i : Int) then w * x a.toNat else 0) =
          x a.toNat * (w * x b.toNat) + x b.toNat * (w * x a.toNat) := by
        have : ∀ i ∈ range n, x i * (if a = (i : Int) then w * x b.toNat
            else if b = (i : Int) then w * x a.toNat else 0) =
            (if i = a.toNat then x i * (w * x b.toNat) else 0) +
              (if i = b.toNat then x i * (w * x a.toNat) else 0) := by
          intro i _
          by_cases hj : i = a.toNat
          · rw [if_pos (by omega), if_pos hj, if_neg (by omega)]; ring
          · by_cases hj' : i = b.toNat
            · rw [if_neg (by omega), if_pos (by omega), if_neg hj, if_pos hj']; ring
            · rw [if_neg (by omega), if_neg (by omega), if_neg hj, if_neg hj']; ring
        rw [sum_congr rfl this, sum_add_distrib, sum_ite_eq' (range n), if_pos (mem_range.2 (by omega)),
          sum_ite_eq' (range n), if_pos (mem_range.2 (by omega))]
      rw [e1, e2]
      ring

end Lists

variable {K : Type} [Field K] [LinearOrder K]

/-- weighted listing of raw fields -/
def lst (r : GRaw K) : List ((Int × Int) × K) := r.edgeList.zip r.edgeWts

theorem lst_InR {r : GRaw K} (hr : Inv r) (hp : Pos r) [PyReal K] : InR r.numV (lst r) := by
  unfold lst
  rw [zip_listing]
  intro e he
  rcases List.mem_append.1 he with he | he
  · rcases List.mem_append.1 he with he | he
    · have hk : e.1 ∈ r.eDict.keys := List.mem_map_of_mem (f := Prod.fst) he
      have h1 := hp.E _ hk
      have h2 := hr.lt _ hk
      have h3 := hr.ltE _ hk
      omega
    · obtain ⟨p, hp', rfl⟩ := List.mem_map.1 he
      have hk : p.1 ∈ r.loops.keys := List.mem_map_of_mem (f := Prod.fst) hp'
      have h1 := hp.L _ hk
      have h2 := hr.ltL _ hk
      simp only; omega
  · split at he
    · obtain ⟨v, hv, rfl⟩ := List.mem_map.1 he
      have := List.mem_range.1 hv
      simp only; omega
    · cases he

theorem pick_mirror (d : List ((Int × Int) × K)) (i j : Int) :
    (((d.map fun e => ((e.1.2, e.1.1), e.2))).map fun e => if e.1 = (i, j) then e.2 else 0).sum =
      (d.map fun e => if e.1 = (j, i) then e.2 else 0).sum := by
  rw [List.map_map]
  congr 1
  apply List.map_congr_left
  intro e _
  obtain ⟨⟨a, b⟩, w⟩ := e
  simp only [Function.comp, Prod.mk.injEq]
  by_cases h : b = i ∧ a = j
  · rw [if_pos h, if_pos h.symm]
  · rw [if_neg h, if_neg fun h' => h h'.symm]

theorem zip_mirror (d : Dict (Int × Int) K) :
    (d.keys.map fun q => (q.2, q.1)).zip d.vals = d.map fun e => ((e.1.2, e.1.1), e.2) := by
  induction d with
  | nil => rfl
  | cons e d ih => simpa using ih

/-- what `A` is: shape, well-formedness, order, values and pattern -/
structure IsA (r : GRaw K) (A : Sp K) : Prop where
  rows : A.rows = r.numV
  cols : A.cols = r.numV
  wf : A.WF
  sorted : Ents.Sorted A.ents
  get : ∀ i j : Nat, A.get i j = Spec.wt (lst r) i j
  keys : ∀ i j : Nat, (i, j) ∈ A.ents.map Prod.fst ↔ Spec.Adj (lst r) i j

theorem edges_both_get [PyReal K] {r : GRaw K} (hr : Inv r) (i j : Int) :
    (((r.edgeList ++ r.eDict.keys.map fun q => (q.2, q.1)).zip (r.edgeWts ++ r.eDict.vals)).map
      fun e => if e.1 = (i, j) then e.2 else 0).sum = Spec.wt (lst r) i j := by
  rw [List.zip_append (by rw [edgeList_length, edgeWts_length]), zip_mirror, List.map_append,
    List.sum_append, pick_mirror]
  unfold lst
  rw [zip_listing, wt_append, wt_append, List.map_append, List.map_append, List.sum_append,
    List.sum_append]
  have h1 : ∀ (l : List ((Int × Int) × K)), (∀ e ∈ l, e.1.1 = e.1.2) →
      (l.map fun e => if e.1 = (i, j) then e.2 else 0).sum = Spec.wt l i j := by
    intro l hl
    unfold Spec.wt
    congr 1
    apply List.map_congr_left
    intro e he
    have := hl e he
    obtain ⟨⟨a, b⟩, w⟩ := e
    simp only at this
    subst this
    simp only [Prod.mk.injEq]
    by_cases h : a = i ∧ a = j
    · rw [if_pos h, if_pos (Or.inl h)]
    · rw [if_neg h, if_neg (by omega)]
  have h2 : (r.eDict.map fun e => if e.1 = (i, j) then e.2 else 0).sum +
      (r.eDict.map fun e => if e.1 = (j, i) then e.2 else 0).sum = Spec.wt r.eDict i j := by
    have hlt : ∀ e ∈ r.eDict, e.1.1 < e.1.2 := fun e he => hr.lt _ (List.mem_map_of_mem (f := Prod.fst) he)
    revert hlt
    generalize r.eDict = d
    intro hlt
    induction d with
    | nil => simp
    | cons e d ih =>
      have := hlt e List.mem_cons_self
      rw [wt_cons, ← ih fun e' he' => hlt e' (List.mem_cons_of_mem _ he')]
      simp only [List.map_cons, List.sum_cons]
      obtain ⟨⟨a, b⟩, w⟩ := e
      simp only [Prod.mk.injEq] at this ⊢
      by_cases h : a = i ∧ b = j
      · rw [if_pos h, if_neg (by omega), if_pos (Or.inl h)]; ring
      · by_cases h' : a = j ∧ b = i
        · rw [if_neg h, if_pos h', if_pos (Or.inr h')]; ring
        · rw [if_neg h, if_neg h', if_neg (by omega)]; ring
  rw [h1 (r.loops.map _), h1 (ite _ _ _), ← h2]
  · ring
  · intro e he
    split at he
    · obtain ⟨v, _, rfl⟩ := List.mem_map.1 he; rfl
    · cases he
  · intro e he
    obtain ⟨v, _, rfl⟩ := List.mem_map.1 he; rfl

theorem mem_edges_both [PyReal K] {r : GRaw K} (p : Int × Int) :
    p ∈ (r.edgeList ++ r.eDict.keys.map fun q => (q.2, q.1)) ↔
      ∃ e ∈ lst r, e.1 = p ∨ e.1 = (p.2, p.1) := by
  have hl : ∀ q, q ∈ r.edgeList ↔ ∃ e ∈ lst r, e.1 = q := by
    intro q
    have : (lst r).map Prod.fst = r.edgeList := by
      unfold lst
      rw [List.map_fst_zip]
      rw [edgeList_length, edgeWts_length]
    rw [← this, List.mem_map]
  rw [List.mem_append, hl]
  constructor
  · rintro (⟨e, he, h⟩ | h)
    · exact ⟨e, he, Or.inl h⟩
    · obtain ⟨q, hq, rfl⟩ := List.mem_map.1 h
      have : q ∈ r.edgeList := by
        unfold GRaw.edgeList; exact List.mem_append_left _ (List.mem_append_left _ hq)
      obtain ⟨e, he, h⟩ := (hl q).1 this
      exact ⟨e, he, Or.inr h⟩
  · rintro ⟨e, he, h | h⟩
    · exact Or.inl ⟨e, he, h⟩
    · unfold lst at he
      rw [zip_listing] at he
      rcases List.mem_append.1 he with he' | he'
      · rcases List.mem_append.1 he' with he'' | he''
        · right
          refine List.mem_map.2 ⟨e.1, List.mem_map_of_mem (f := Prod.fst) he'', ?_⟩
          rw [h]
        · left
          refine ⟨e, by unfold lst; rw [zip_listing]; exact he, ?_⟩
          obtain ⟨v, _, rfl⟩ := List.mem_map.1 he''
          simp only [Prod.mk.injEq] at h
          exact Prod.ext h.2 h.1
      · left
        refine ⟨e, by unfold lst; rw [zip_listing]; exact he, ?_⟩
        split at he'
        · obtain ⟨v, _, rfl⟩ := List.mem_map.1 he'
          simp only [Prod.mk.injEq] at h
          exact Prod.ext h.2 h.1
        · cases he'

theorem build_keys {rows cols : Nat} {idx : List (Int × Int)} {vals : List K} {M : Sp K}
    (h : Sp.build rows cols idx vals = .ok M) (i j : Nat) :
    (i, j) ∈ M.ents.map Prod.fst ↔ ((i : Int), (j : Int)) ∈ idx := by
  rw [Sp.build_eq] at h
  split at h
  · rename_i hc
    cases h
    simp only
    rw [List.map_fst_zip (by rw [List.length_map]; exact hc.1.le)]
    rw [List.mem_map]
    constructor
    · rintro ⟨p, hp, heq⟩
      have := hc.2 p hp
      unfold InShape at this
      simp only [Prod.mk.injEq] at heq
      have : p = ((i : Int), (j : Int)) := Prod.ext (by simp only []; omega) (by simp only []; omega)
      rw [← this]; exact hp
    · intro hp
      exact ⟨_, hp, by simp⟩
  · cases h

theorem evA_spec [PyReal K] {r : GRaw K} (hr : Inv r) (hp : Pos r) : ∃ A, evA r = .ok A ∧ IsA r A := by
  unfold evA
  by_cases h0 : r.numE = 0
  · rw [if_pos h0]
    have hl : lst r = [] := by
      have : (lst r).length = 0 := by
        unfold lst; rw [List.length_zip, edgeList_length, edgeWts_length, h0]; rfl
      exact List.length_eq_zero_iff.1 this
    refine ⟨_, rfl, ⟨rfl, rfl, ?_, ?_, ?_, ?_⟩⟩
    · intro e he; cases he
    · exact List.Pairwise.nil
    · intro i j; rw [hl]; rfl
    · intro i j
      rw [hl]
      simp [Sp.empty, Spec.Adj]
  · rw [if_neg h0]
    have hsh : ∀ p ∈ (r.edgeList ++ r.eDict.keys.map fun q => (q.2, q.1)), InShape r.numV r.numV p := by
      intro p hp'
      obtain ⟨e, he, h⟩ := (mem_edges_both p).1 hp'
      have := lst_InR hr hp e he
      unfold InShape
      rcases h with h | h <;> rw [h] at this <;> (try simp only at this) <;> omega
    have hb : ∃ M, Sp.build r.numV r.numV (r.edgeList ++ r.eDict.keys.map fun q => (q.2, q.1))
        (r.edgeWts ++ r.eDict.vals) = .ok M := by
      rw [Sp.build_eq, if_pos]
      · exact ⟨_, rfl⟩
      · refine ⟨?_, hsh⟩
        rw [List.length_append, List.length_append, edgeList_length, edgeWts_length, List.length_map,
          Dict.length_keys, Dict.length_vals]
    obtain ⟨M, hM⟩ := hb
    rw [hM]
    obtain ⟨h1, h2, h3⟩ := Sp.build_WF hM
    refine ⟨_, rfl, ⟨h2, h3, h1.coalesce, sorted_coalesce _, ?_, ?_⟩⟩
    · intro i j
      show Ents.get (Ents.coalesce M.ents) i j = _
      rw [get_coalesce]
      exact (Sp.build_get hM i j).trans (edges_both_get hr i j)
    · intro i j
      show (i, j) ∈ (Ents.coalesce M.ents).map Prod.fst ↔ _
      rw [mem_keys_coalesce, build_keys hM, mem_edges_both]
      rfl

/-- what the diagonal degree matrix is -/
theorem rowSum_of_IsA [PyReal K] {r : GRaw K} {A : Sp K} (hr : Inv r) (hp : Pos r) (h : IsA r A) :
    A.rowSum = (List.range r.numV).map fun i : Nat => Spec.deg (lst r) (i : Int) := by
  apply List.ext_getElem
  · rw [Sp.rowSum_length, h.rows]; simp
  · intro i h1 h2
    rw [Sp.rowSum_getElem h.wf, List.getElem_map, List.getElem_range, h.cols]
    rw [sum_congr rfl fun j _ => h.get i j]
    exact sum_wt_deg (lst_InR hr hp) i

theorem Inv.noLoops {r : GRaw K} (h : Inv r) : Inv (noLoops r) :=
  { h with nodupL := List.nodup_nil, ltL := fun v hv => by cases hv }
theorem Pos.noLoops {r : GRaw K} (h : Pos r) : Pos (noLoops r) :=
  { h with L := fun v hv => by cases hv }
theorem Inv.withExtra {r : GRaw K} (h : Inv r) : Inv (withExtra r) := { h with }
theorem Pos.withExtra {r : GRaw K} (h : Pos r) : Pos (withExtra r) := { h with }

theorem lst_noLoops [PyReal K] {r : GRaw K} (hr : Inv r) :
    lst (noLoops r) = Spec.proper (lst r) := by
  unfold lst Spec.proper
  rw [zip_listing, zip_listing, List.filter_append, List.filter_append]
  have h1 : r.eDict.filter (fun e => e.1.1 ≠ e.1.2) = r.eDict := by
    rw [List.filter_eq_self]
    intro e he
    have := hr.lt _ (List.mem_map_of_mem (f := Prod.fst) he)
    simpa using ne_of_lt this
  have h2 : (r.loops.map fun p => ((p.1, p.1), p.2)).filter
      (fun e : (Int × Int) × K => e.1.1 ≠ e.1.2) = [] := by
    rw [List.filter_eq_nil_iff]; intro e he
    obtain ⟨v, _, rfl⟩ := List.mem_map.1 he; simp
  have h3 : (if r.extra = true then (List.range r.numV).map
      fun v : Nat => (((v : Int), (v : Int)), (1 : K)) else []).filter
      (fun e : (Int × Int) × K => e.1.1 ≠ e.1.2) = [] := by
    rw [List.filter_eq_nil_iff]; intro p hp
    split at hp
    · obtain ⟨v, _, rfl⟩ := List.mem_map.1 hp; simp
    · cases hp
  rw [h1, h2, h3]
  simp [noLoops]

end Graph
end DHG
