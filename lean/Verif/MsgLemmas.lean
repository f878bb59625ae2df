import Mathlib.Algebra.BigOperators.Field
import Verif.GraphMat2

/-!
# Sparse message passing with explicit weights, softmax
-/

set_option linter.unusedSectionVars false
set_option autoImplicit false

namespace DHG

open Finset

section F
variable {K : Type} [Field K]

theorem incoming_zip (idx : List (Nat × Nat)) (ws : List K) (hl : idx.length = ws.length)
    (x : Nat → K) (i : Nat) :
    ((idx.zip ws).map fun e => if e.1.1 = i then e.2 * x e.1.2 else 0).sum =
      Spec.incoming (idx.map Prod.snd) (idx.map Prod.fst) ws x i := by
  induction idx generalizing ws with
  | nil => cases ws <;> rfl
  | cons e es ih =>
    cases ws with
    | nil => cases hl
    | cons w ws =>
      simp only [List.map_cons, List.zip_cons_cons, List.sum_cons, Spec.incoming]
      rw [ih ws (by simpa using hl)]

theorem rowSum_zip (idx : List (Nat × Nat)) (ws : List K) (hl : idx.length = ws.length)
    (rows cols i : Nat) (hi : i < rows) :
    ({ rows, cols, ents := idx.zip ws } : Sp K).rowSum.getD i 0 =
      Spec.incoming (idx.map Prod.snd) (idx.map Prod.fst) ws (fun _ => 1) i := by
  unfold Sp.rowSum
  simp only
  rw [getD_map_range, if_pos hi, ← incoming_zip idx ws hl]
  simp

theorem mmD_zip {idx : List (Nat × Nat)} {ws : List K} (hl : idx.length = ws.length)
    {rows cols : Nat} {X Y : Dense K} (h : ({ rows, cols, ents := idx.zip ws } : Sp K).mmD X = .ok Y)
    (i c : Nat) :
    Y.at_ i c = Spec.incoming (idx.map Prod.snd) (idx.map Prod.fst) ws (fun j => X.at_ j c) i := by
  rw [← incoming_zip _ _ hl]
  unfold Sp.mmD at h
  split at h
  · cases h; rfl
  · cases h

theorem coalesce_zip {idx : List (Nat × Nat)} (hs : idx.Pairwise lexLt) {ws : List K}
    (hl : idx.length = ws.length) (rows cols : Nat) :
    ({ rows, cols, ents := idx.zip ws } : Sp K).coalesce = { rows, cols, ents := idx.zip ws } := by
  unfold Sp.coalesce
  simp only
  rw [coalesce_of_sorted]
  unfold Ents.Sorted
  rw [List.map_fst_zip hl.le]
  exact hs

theorem zip_map_zip {α β γ : Type} (l : List α) (l' : List β) (f : α × β → γ) :
    l.zip ((l.zip l').map f) = (l.zip l').map fun e => (e.1, f e) := by
  induction l generalizing l' with
  | nil => rfl
  | cons a l ih => cases l' with
    | nil => rfl
    | cons b l' => simp [ih]

end F

variable {K : Type} [Field K] [LinearOrder K] [PyReal K] [IsStrictOrderedRing K]

/-- softmax over rows: positive coefficients, proportional to `exp`, summing to one -/
theorem softmax_spec {idx : List (Nat × Nat)} (hs : idx.Pairwise lexLt) {w : List K}
    (hl : idx.length = w.length) (rows cols : Nat) :
    ∃ (coef : List K) (z : Nat → K), coef.length = idx.length ∧
      ({ rows, cols, ents := idx.zip w } : Sp K).softmax = { rows, cols, ents := idx.zip coef } ∧
      (∀ i, i ∈ idx.map Prod.fst → 0 < z i) ∧
      (∀ k (h1 : k < coef.length) (h2 : k < w.length) (h3 : k < (idx.map Prod.fst).length),
        coef[k] * z (idx.map Prod.fst)[k] = PyReal.exp w[k] ∧ 0 < coef[k]) ∧
      (∀ i, i ∈ idx.map Prod.fst →
        Spec.incoming (idx.map Prod.snd) (idx.map Prod.fst) coef (fun _ => 1) i = 1) := by
  let z : Nat → K := fun i => ((idx.zip w).map fun e' => if e'.1.1 = i then PyReal.exp e'.2 else 0).sum
  have hznn : ∀ (l : List ((Nat × Nat) × K)) i, i ∈ l.map (fun e => e.1.1) →
      0 < (l.map fun e' => if e'.1.1 = i then PyReal.exp e'.2 else 0).sum := by
    intro l
    induction l with
    | nil => intro i hi; cases hi
    | cons e l ih =>
      intro i hi
      rw [List.map_cons, List.sum_cons]
      have hnn : 0 ≤ (l.map fun e' => if e'.1.1 = i then PyReal.exp e'.2 else 0).sum := by
        apply List.sum_nonneg
        intro y hy
        obtain ⟨e', _, rfl⟩ := List.mem_map.1 hy
        split
        · exact (PyReal.exp_pos _).le
        · exact le_refl _
      by_cases hc : e.1.1 = i
      · rw [if_pos hc]; exact add_pos_of_pos_of_nonneg (PyReal.exp_pos _) hnn
      · rw [if_neg hc, zero_add]
        rw [List.map_cons, List.mem_cons] at hi
        rcases hi with hi | hi
        · exact absurd hi.symm hc
        · exact ih i hi
  have hfst : (idx.zip w).map (fun e => e.1.1) = idx.map Prod.fst := by
    conv_rhs => rw [← List.map_fst_zip (l₁ := idx) (l₂ := w) hl.le, List.map_map]
    rfl
  have hzpos : ∀ i, i ∈ idx.map Prod.fst → 0 < z i := fun i hi => hznn _ i (by rw [hfst]; exact hi)
  have hcl : ((idx.zip w).map fun e => PyReal.exp e.2 / z e.1.1).length = idx.length := by
    simp [hl]
  refine ⟨(idx.zip w).map fun e => PyReal.exp e.2 / z e.1.1, z, hcl, ?_, hzpos, ?_, ?_⟩
  · unfold Sp.softmax
    rw [coalesce_zip hs hl, zip_map_zip]
  · intro k h1 h2 h3
    have h4 : k < idx.length := by simpa using h3
    have hpos := hzpos (idx[k].1) (List.mem_map.2 ⟨idx[k], List.getElem_mem h4, rfl⟩)
    simp only [List.getElem_map, List.getElem_zip]
    exact ⟨div_mul_cancel₀ _ hpos.ne', div_pos (PyReal.exp_pos _) hpos⟩
  · intro i hi
    have hp := hzpos i hi
    rw [← incoming_zip _ _ hcl.symm, zip_map_zip, List.map_map]
    have : ((fun e : (Nat × Nat) × K => if e.1.1 = i then e.2 * 1 else 0) ∘
        fun e : (Nat × Nat) × K => (e.1, PyReal.exp e.2 / z e.1.1)) =
        fun e => (if e.1.1 = i then PyReal.exp e.2 else 0) * (z i)⁻¹ := by
      funext e
      simp only [Function.comp, mul_one]
      by_cases hc : e.1.1 = i
      · rw [if_pos hc, if_pos hc, hc, div_eq_mul_inv]
      · rw [if_neg hc, if_neg hc, zero_mul]
    rw [this, List.sum_map_mul_right]
    exact mul_inv_cancel₀ hp.ne'

end DHG
