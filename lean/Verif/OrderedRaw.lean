import Verif.OrderedMat
import Verif.OrderedFold
import Verif.MsgLemmas

/-!
# Answers of directed and bipartite graphs computed from the listing
-/

set_option linter.unusedSectionVars false
set_option autoImplicit false

namespace DHG
namespace Ord

open Finset
open Graph (lst)

variable {K : Type} [Field K] [LinearOrder K] {c c' : Cls}

/-- the weight shown in the matrix: stored weight plus the unit loop of the flag -/
theorem wt_absO {r : GRaw K} (hr : Inv c r) {i j : Int}
    (h : i ≠ j ∨ r.extra = false ∨ c = .bi ∧ absO r i j = none) (w : K)
    (hw : ((i, j), w) ∈ lst r) : Spec.O.wt (lst r) i j = w := by
  have hd : ∀ (d : Dict (Int × Int) K), d.keys.Nodup → ∀ a b : Int,
      (d.map fun e => if e.1 = (a, b) then e.2 else 0).sum = (d.get? (a, b)).getD 0 := by
    intro d
    induction d with
    | nil => intro _ a b; rfl
    | cons e d ih =>
      intro hn a b
      rw [Dict.keys_cons, List.nodup_cons] at hn
      rw [List.map_cons, List.sum_cons, ih hn.2, Dict.get?]
      by_cases h : e.1 = (a, b)
      · rw [if_pos h, if_pos h]
        have : Dict.get? d (a, b) = none := by
          rw [Dict.get?_eq_none_iff]; rw [← h]; exact hn.1
        rw [this]; simp
      · rw [if_neg h, if_neg h, zero_add]
  have hl' : ∀ (d : Dict Int K), d.keys.Nodup → ∀ a : Int,
      (d.map fun e => if e.1 = a then e.2 else 0).sum = (d.get? a).getD 0 := by
    intro d
    induction d with
    | nil => intro _ a; rfl
    | cons e d ih =>
      intro hn a
      rw [Dict.keys_cons, List.nodup_cons] at hn
      rw [List.map_cons, List.sum_cons, ih hn.2, Dict.get?]
      by_cases h : e.1 = a
      · rw [if_pos h, if_pos h]
        have : Dict.get? d a = none := by
          rw [Dict.get?_eq_none_iff]; rw [← h]; exact hn.1
        rw [this]; simp
      · rw [if_neg h, if_neg h, zero_add]
  have hlst : lst r = r.eDict ++ r.loops.map (fun p => ((p.1, p.1), p.2)) ++
      (if r.extra then (List.range r.numV).map fun v : Nat => (((v : Int), (v : Int)), (1 : K)) else []) :=
    Graph.zip_listing r
  have happ : ∀ a b : List ((Int × Int) × K), Spec.O.wt (a ++ b) i j = Spec.O.wt a i j + Spec.O.wt b i j := by
    intro a b; simp [Spec.O.wt]
  have e2 : Spec.O.wt (r.loops.map fun p => ((p.1, p.1), p.2)) i j =
      if i = j then (r.loops.get? i).getD 0 else 0 := by
    unfold Spec.O.wt
    rw [List.map_map]
    by_cases hij : i = j
    · subst hij
      rw [if_pos rfl, ← hl' _ hr.nodupL]
      congr 1
      apply List.map_congr_left
      intro p _
      simp [Prod.ext_iff]
    · rw [if_neg hij]
      apply List.sum_eq_zero
      intro x hx
      obtain ⟨p, _, rfl⟩ := List.mem_map.1 hx
      simp only [Function.comp, Prod.mk.injEq]
      rw [if_neg]
      rintro ⟨h1, h2⟩; exact hij (h1.symm.trans h2)
  have e1 : Spec.O.wt r.eDict i j = (r.eDict.get? (i, j)).getD 0 := hd _ hr.nodupE i j
  have e12 : Spec.O.wt r.eDict i j + Spec.O.wt (r.loops.map fun p => ((p.1, p.1), p.2)) i j =
      (absO r i j).getD 0 := by
    rw [e1, e2]
    unfold absO
    cases hh : Dict.get? r.eDict (i, j) with
    | none => by_cases hij : i = j <;> simp [hij]
    | some v =>
      have : (if i = j then (r.loops.get? i).getD 0 else 0) = 0 := by
        by_cases hij : i = j
        · subst hij
          cases c with
          | di => rw [hr.get_diag] at hh; cases hh
          | bi => rw [hr.noL rfl]; simp
        · rw [if_neg hij]
      rw [this]; simp
  replace hw := (mem_listing hr i j w).1 hw
  rw [hlst, happ, happ, e12]
  have e3 : ∀ n : Nat, Spec.O.wt ((List.range n).map fun v : Nat => (((v : Int), (v : Int)), (1 : K))) i j =
      if i = j ∧ 0 ≤ i ∧ i < (n : Int) then 1 else 0 := by
    intro n
    induction n with
    | zero =>
      rw [if_neg (by omega)]; rfl
    | succ n ih =>
      rw [List.range_succ, List.map_append, happ, ih]
      simp only [Spec.O.wt, List.map_cons, List.map_nil, List.sum_cons, List.sum_nil, add_zero,
        Prod.mk.injEq]
      by_cases h1 : (n : Int) = i ∧ (n : Int) = j
      · rw [if_pos h1, if_neg (by omega), if_pos (by omega), zero_add]
      · rw [if_neg h1, add_zero]
        by_cases h2 : i = j ∧ 0 ≤ i ∧ i < (n : Int)
        · rw [if_pos h2, if_pos (by omega)]
        · rw [if_neg h2, if_neg (by omega)]
  rcases h with h | h | ⟨_, h⟩
  · have : Spec.O.wt (if r.extra then (List.range r.numV).map
        fun v : Nat => (((v : Int), (v : Int)), (1 : K)) else []) i j = 0 := by
      split
      · rw [e3, if_neg (by tauto)]
      · rfl
    rw [this, add_zero]
    rcases hw with hw | hw
    · rw [hw]; rfl
    · exact absurd hw.2.1 h
  · rw [h] at hw ⊢
    rcases hw with hw | hw
    · rw [hw]; simp [Spec.O.wt]
    · cases hw.1
  · rw [h] at hw ⊢
    rcases hw with hw | hw
    · cases hw
    · rw [if_pos hw.1, e3, if_pos ⟨hw.2.1, hw.2.2.1, hw.2.2.2.1⟩, hw.2.2.2.2]; simp

/-- neighbour queries list, in increasing order, the partners of a vertex -/
theorem nbr_row {r : GRaw K} (h : Fits c r) {v : Nat} (hv : v < rows c r) :
    ∃ l, evNr c v r = .ok l ∧ l.Pairwise (· < ·) ∧
      ∀ u : Nat, u ∈ l ↔ ∃ w, (((v : Int), (u : Int)), w) ∈ lst r := by
  obtain ⟨M, hM, h'⟩ := evM_spec h
  refine ⟨_, ?_, Sp.rowIdx_sorted h'.sorted v, ?_⟩
  · unfold evNr; rw [hM]; exact Sp.rowIdx_ok (by rw [h'.rows]; exact hv)
  · intro u
    rw [Sp.rowIdx_mem, h'.keys]

theorem nbr_col {r : GRaw K} (h : Fits c r) {v : Nat} (hv : v < r.numV) :
    ∃ l, evNc c v r = .ok l ∧ l.Pairwise (· < ·) ∧
      ∀ u : Nat, u ∈ l ↔ ∃ w, (((u : Int), (v : Int)), w) ∈ lst r := by
  obtain ⟨M, hM, h'⟩ := evMT_spec h
  refine ⟨_, ?_, Sp.rowIdx_sorted h'.sorted v, ?_⟩
  · unfold evNc; rw [hM]; exact Sp.rowIdx_ok (by rw [h'.rows]; exact hv)
  · intro u
    rw [Sp.rowIdx_mem, h'.keys]
    constructor
    · rintro ⟨w, hw⟩
      obtain ⟨e, he, h1⟩ := List.mem_map.1 hw
      obtain ⟨⟨a, b⟩, x⟩ := e
      simp only [Prod.mk.injEq] at h1
      obtain ⟨⟨rfl, rfl⟩, rfl⟩ := h1
      exact ⟨_, he⟩
    · rintro ⟨w, hw⟩
      exact ⟨w, List.mem_map.2 ⟨_, hw, rfl⟩⟩

theorem sw_sw (l : List ((Int × Int) × K)) : sw (sw l) = l := by
  unfold sw
  rw [List.map_map]
  conv_rhs => rw [← List.map_id l]
  rfl

/-- an object whose listing is the turned listing of another answers with rows and columns
exchanged -/
theorem swap_reads {r r' : GRaw K} (hl : lst r' = sw (lst r)) (h1 : rows c' r' = r.numV)
    (h2 : r'.numV = rows c r) (h : Fits c r) :
    evM c' r' = evMT c r ∧ evMT c' r' = evM c r ∧ evDr c' r' = evDc c r ∧ evDc c' r' = evDr c r ∧
    evDrN1 c' r' = evDcN1 c r ∧ evDcN1 c' r' = evDrN1 c r ∧ (∀ i, evNr c' i r' = evNc c i r) ∧
    (∀ i, evNc c' i r' = evNr c i r) := by
  have hf' : Fits c' r' := by
    unfold Fits; rw [hl, h1, h2]; exact In.sw h
  obtain ⟨M, hM, hM'⟩ := evM_spec h
  obtain ⟨MT, hMT, hMT'⟩ := evMT_spec h
  obtain ⟨N, hN, hN'⟩ := evM_spec hf'
  obtain ⟨NT, hNT, hNT'⟩ := evMT_spec hf'
  rw [hl, h1, h2] at hN'
  rw [hl, h1, h2, sw_sw] at hNT'
  have e1 : N = MT := hN'.unique hMT' (fun _ _ => rfl) fun _ => Iff.rfl
  have e2 : NT = M := hNT'.unique hM' (fun _ _ => rfl) fun _ => Iff.rfl
  have a1 : evM c' r' = evMT c r := by rw [hN, hMT, e1]
  have a2 : evMT c' r' = evM c r := by rw [hNT, hM, e2]
  have a3 : evDr c' r' = evDc c r := by unfold evDr evDc; rw [a1]
  have a4 : evDc c' r' = evDr c r := by unfold evDr evDc; rw [a2]
  refine ⟨a1, a2, a3, a4, ?_, ?_, ?_, ?_⟩
  · unfold evDrN1 evDcN1; rw [a3]
  · unfold evDrN1 evDcN1; rw [a4]
  · intro i; unfold evNr evNc; rw [a1]
  · intro i; unfold evNr evNc; rw [a2]

/-- the aligned edge vectors -/
theorem edge_vectors {r : GRaw K} (h : Fits c r) {M : Sp K} (hM : evM c r = .ok M) :
    ((M.ents.map fun e => e.1.1).zip (M.ents.map fun e => e.1.2)).Nodup ∧
    (∀ i j : Nat, (i, j) ∈ (M.ents.map fun e => e.1.1).zip (M.ents.map fun e => e.1.2) ↔
      ∃ w, (((i : Int), (j : Int)), w) ∈ lst r) ∧
    (∀ (i j : Nat) w, ((i, j), w) ∈ ((M.ents.map fun e => e.1.1).zip (M.ents.map fun e => e.1.2)).zip
      (M.ents.map Prod.snd) → w = Spec.O.wt (lst r) i j) := by
  obtain ⟨M', hM', h'⟩ := evM_spec h
  rw [hM] at hM'; cases hM'
  have hz : (M.ents.map fun e => e.1.1).zip (M.ents.map fun e => e.1.2) = M.ents.map Prod.fst := by
    rw [List.zip_map']
  rw [hz]
  refine ⟨h'.sorted.nodup, fun i j => h'.keys i j, ?_⟩
  intro i j w hw
  rw [List.zip_map'] at hw
  simp only [Prod.mk.eta, List.map_id'] at hw
  rw [← h'.get]
  exact (Ents.get_of_mem h'.sorted.nodup hw).symm

/-- averages with non-negative weights stay within bounds -/
theorem mean_bounds [IsStrictOrderedRing K] {m n : Nat} {l : List ((Int × Int) × K)} (hl : In m n l)
    (hw : Spec.NonnegWeights l) (x : Nat → K) (i : Nat) (hd : Spec.O.degOut l (i : Int) ≠ 0) (lo hi : K)
    (hlo : ∀ j : Nat, j < n → (∃ w, (((i : Int), (j : Int)), w) ∈ l) → lo ≤ x j)
    (hhi : ∀ j : Nat, j < n → (∃ w, (((i : Int), (j : Int)), w) ∈ l) → x j ≤ hi) :
    lo ≤ (∑ j ∈ range n, Spec.O.wt l (i : Int) (j : Int) * x j) / Spec.O.degOut l (i : Int) ∧
    (∑ j ∈ range n, Spec.O.wt l (i : Int) (j : Int) * x j) / Spec.O.degOut l (i : Int) ≤ hi := by
  rw [sum_div]
  have e : ∀ j ∈ range n, Spec.O.wt l (i : Int) (j : Int) * x j / Spec.O.degOut l (i : Int) =
      (Spec.O.wt l (i : Int) (j : Int) / Spec.O.degOut l (i : Int)) * x j := fun j _ => by ring
  rw [sum_congr rfl e]
  have hadj : ∀ j : Nat, Spec.O.wt l (i : Int) (j : Int) / Spec.O.degOut l (i : Int) ≠ 0 →
      ∃ w, (((i : Int), (j : Int)), w) ∈ l := by
    intro j hj
    by_contra hc
    exact hj (by rw [wt_eq_zero (fun w hw => hc ⟨w, hw⟩), zero_div])
  exact weighted_avg_bounds n (fun j => Spec.O.wt l (i : Int) (j : Int) / Spec.O.degOut l (i : Int)) x lo hi
    (fun j _ => div_nonneg (wt_nonneg hw _ _) (degOut_nonneg hw _))
    (by rw [← sum_div, sum_wt hl, div_self hd])
    (fun j hj h => hlo j hj (hadj j h)) (fun j hj h => hhi j hj (hadj j h))

/-- `softmax_then_sum` with the stored weights, towards rows (`tr = false`) or columns -/
theorem softmax_default [PyReal K] [IsStrictOrderedRing K] {m n : Nat} {l : List ((Int × Int) × K)}
    {A : Sp K} {r : GRaw K} (hA : evM c r = .ok A) (hM : IsM m n l A) (tr : Bool) (X : Dense K)
    (hX : X.rows = if tr then m else n) (keep : Nat → Bool) :
    let recv := if tr then A.ents.map (fun e => e.1.2) else A.ents.map (fun e => e.1.1)
    let send := if tr then A.ents.map (fun e => e.1.1) else A.ents.map (fun e => e.1.2)
    let ws := (A.ents.map Prod.snd).map PyReal.exp
    ∃ (Y : Dense K) (z : Nat → K),
      (if tr then evPass (evMT c) (evDcN1 c) X .softmax 0 keep r
        else evPass (evM c) (evDrN1 c) X .softmax 0 keep r) = .ok Y ∧
      (∀ i, i ∈ recv → 0 < z i) ∧
      (∀ i c, i ∈ recv → Y.at_ i c * z i = Spec.incoming send recv ws (fun j => X.at_ j c) i) ∧
      (∀ i, i ∈ recv → z i = Spec.incoming send recv ws (fun _ => 1) i) := by
  intro recv send ws
  have hinc : ∀ (x : Nat → K) i, Spec.incoming send recv ws x i =
      (A.ents.map fun e => if (if tr then e.1.2 else e.1.1) = i then
        PyReal.exp e.2 * x (if tr then e.1.1 else e.1.2) else 0).sum := by
    intro x i
    have aux : ∀ l : Ents K, Spec.incoming
        (if tr then l.map (fun e => e.1.1) else l.map (fun e => e.1.2))
        (if tr then l.map (fun e => e.1.2) else l.map (fun e => e.1.1))
        ((l.map Prod.snd).map PyReal.exp) x i =
        (l.map fun e => if (if tr then e.1.2 else e.1.1) = i then
          PyReal.exp e.2 * x (if tr then e.1.1 else e.1.2) else 0).sum := by
      intro l
      induction l with
      | nil => cases tr <;> rfl
      | cons e l ih =>
        rw [List.map_cons (f := fun e : (Nat × Nat) × K => if (if tr then e.1.2 else e.1.1) = i then
          PyReal.exp e.2 * x (if tr then e.1.1 else e.1.2) else 0), List.sum_cons, ← ih]
        cases tr <;> rfl
    exact aux A.ents
  obtain ⟨P, hP, hIs, hperm⟩ : ∃ P, (if tr then evMT c r else evM c r) = .ok P ∧
      IsM (if tr then n else m) (if tr then m else n) (if tr then sw l else l) P ∧
      P.ents.Perm (if tr then A.ents.map (fun e => ((e.1.2, e.1.1), e.2)) else A.ents) := by
    cases tr with
    | false => exact ⟨A, hA, hM, List.Perm.refl _⟩
    | true =>
      refine ⟨A.t.coalesce, by simp only [if_true]; unfold evMT; rw [hA]; rfl, hM.t, ?_⟩
      refine coalesce_perm (l := A.t.ents) ?_
      unfold Sp.t
      simp only [List.map_map]
      have : (Prod.fst ∘ fun e : (Nat × Nat) × K => ((e.1.2, e.1.1), e.2)) =
        (fun q : Nat × Nat => (q.2, q.1)) ∘ Prod.fst := rfl
      rw [this, ← List.map_map]
      refine hM.sorted.nodup.map ?_
      rintro ⟨a, b⟩ ⟨a', b'⟩ h; simp only [Prod.mk.injEq] at h ⊢; exact ⟨h.2, h.1⟩
  have hsum : ∀ (f : (Nat × Nat) × K → K), (P.ents.map f).sum =
      (A.ents.map fun e => f (if tr then ((e.1.2, e.1.1), e.2) else e)).sum := by
    intro f
    rw [(hperm.map f).sum_eq]
    cases tr
    · rfl
    · simp only [if_true, List.map_map]; rfl
  have hmem : ∀ i, i ∈ recv → ∃ e ∈ P.ents, e.1.1 = i := by
    intro i hi
    cases tr with
    | false =>
      obtain ⟨e, he, rfl⟩ := List.mem_map.1 hi
      exact ⟨e, hperm.mem_iff.2 he, rfl⟩
    | true =>
      obtain ⟨e, he, rfl⟩ := List.mem_map.1 hi
      exact ⟨((e.1.2, e.1.1), e.2), hperm.mem_iff.2 (List.mem_map.2 ⟨e, he, rfl⟩), rfl⟩
  have hsc : ∀ (z : Nat → K) (x : Nat → K) i, z i ≠ 0 →
      (P.ents.map fun e => if e.1.1 = i then PyReal.exp e.2 / z e.1.1 * x e.1.2 else 0).sum * z i =
      (P.ents.map fun e => if e.1.1 = i then PyReal.exp e.2 * x e.1.2 else 0).sum := by
    intro z x i hz
    rw [← List.sum_map_mul_right]
    congr 1
    apply List.map_congr_left
    intro e _
    by_cases h : e.1.1 = i
    · rw [if_pos h, if_pos h, h]; field_simp
    · rw [if_neg h, if_neg h, zero_mul]
  have key : ∃ (Y : Dense K) (z : Nat → K), (if tr then evPass (evMT c) (evDcN1 c) X .softmax 0 keep r
        else evPass (evM c) (evDrN1 c) X .softmax 0 keep r) = .ok Y ∧
      (∀ e ∈ P.ents, 0 < z e.1.1) ∧
      (∀ i c, Y.at_ i c =
        (P.ents.map fun e => if e.1.1 = i then PyReal.exp e.2 / z e.1.1 * X.at_ e.1.2 c else 0).sum) ∧
      (∀ e ∈ P.ents, (P.ents.map fun e' => if e'.1.1 = e.1.1 then PyReal.exp e'.2 / z e'.1.1 * 1 else 0).sum = 1) := by
    cases tr
    · exact pass_softmax (evD := evDrN1 c) hP hIs X hX keep
    · exact pass_softmax (evD := evDcN1 c) hP hIs X hX keep
  obtain ⟨Y, z, hY, hz, hy, h1⟩ := key
  refine ⟨Y, z, hY, ?_, ?_, ?_⟩
  · intro i hi
    obtain ⟨e, he, rfl⟩ := hmem i hi
    exact hz e he
  · intro i c hi
    obtain ⟨e, he, rfl⟩ := hmem i hi
    rw [hy, hsc z (fun j => X.at_ j c) _ (hz e he).ne', hsum, hinc]
    cases tr <;> rfl
  · intro i hi
    obtain ⟨e, he, rfl⟩ := hmem i hi
    have := hsc z (fun _ => 1) _ (hz e he).ne'
    rw [h1 e he, one_mul, hsum] at this
    rw [this, hinc]
    cases tr <;> rfl

end Ord
end DHG
