import Verif.Props.GraphMatrices
import Verif.Props.HyperMatrices
import Mathlib.Logic.Relation

/-!
# C119: the Laplacians see the connected components
-/

set_option linter.unusedSectionVars false
set_option autoImplicit false

namespace DHG

namespace Spec

section
variable {K : Type} [Field K]

/-- some listed hyperedge contains both vertices -/
def HAdj (l : List (List Int × K)) (i j : Nat) : Prop := ∃ e ∈ l, (i : Int) ∈ e.1 ∧ (j : Int) ∈ e.1

/-- there is a path from `i` to `j` whose steps are in `R` -/
def Joined (R : Nat → Nat → Prop) (i j : Nat) : Prop := Relation.ReflTransGen R i j

/-- `x` has one value on each connected component -/
def ConstOn (R : Nat → Nat → Prop) (x : Nat → K) : Prop := ∀ i j, Joined R i j → x i = x j

/-- the matrix maps `x` to 0 -/
def Null (n : Nat) (M : Sp K) (x : Nat → K) : Prop :=
  ∀ i, i < n → ∑ j ∈ Finset.range n, M.get i j * x j = 0

end

variable {K : Type} [Field K] [LinearOrder K]

/-- all listed weights are positive -/
def PosWeights {α : Type} (l : List (α × K)) : Prop := ∀ e ∈ l, 0 < e.2

end Spec

namespace Props
open Finset Graph

variable {K : Type} [Field K] [LinearOrder K] [IsStrictOrderedRing K]

/-! ### Symmetric non-negative matrices -/

section Alg

variable {n : Nat} {W : Nat → Nat → K} {d : Nat → K}

theorem diff_quad (hsym : ∀ i j, W i j = W j i) (hd : ∀ i, i < n → d i = ∑ j ∈ range n, W i j) (x : Nat → K) :
    ∑ i ∈ range n, ∑ j ∈ range n, W i j * ((x i - x j) * (x i - x j)) =
      2 * ∑ i ∈ range n, x i * (d i * x i - ∑ j ∈ range n, W i j * x j) := by
  have h1 : ∑ i ∈ range n, ∑ j ∈ range n, W i j * (x i * x i) = ∑ i ∈ range n, x i * (d i * x i) := by
    refine sum_congr rfl fun i hi => ?_
    rw [hd i (mem_range.1 hi), ← sum_mul]; ring
  have h2 : ∑ i ∈ range n, ∑ j ∈ range n, W i j * (x j * x j) = ∑ i ∈ range n, x i * (d i * x i) := by
    rw [sum_comm, ← h1]
    exact sum_congr rfl fun i _ => sum_congr rfl fun j _ => by rw [hsym]
  have h3 : ∑ i ∈ range n, ∑ j ∈ range n, W i j * ((x i - x j) * (x i - x j)) =
      ∑ i ∈ range n, ∑ j ∈ range n, W i j * (x i * x i) + ∑ i ∈ range n, ∑ j ∈ range n, W i j * (x j * x j) -
        2 * ∑ i ∈ range n, x i * ∑ j ∈ range n, W i j * x j := by
    rw [← sum_add_distrib, mul_sum, ← sum_sub_distrib]
    refine sum_congr rfl fun i _ => ?_
    rw [mul_sum, mul_sum, ← sum_add_distrib, ← sum_sub_distrib]
    exact sum_congr rfl fun j _ => by ring
  rw [h3, h1, h2]
  simp only [mul_sub, sum_sub_distrib]
  ring

/-- `(D - W) x = 0` exactly if `x` agrees along the positive entries of `W` -/
theorem null_iff (hsym : ∀ i j, W i j = W j i) (h0 : ∀ i j, 0 ≤ W i j)
    (hd : ∀ i, i < n → d i = ∑ j ∈ range n, W i j) (x : Nat → K) :
    (∀ i, i < n → d i * x i - ∑ j ∈ range n, W i j * x j = 0) ↔
      ∀ i j, i < n → j < n → W i j ≠ 0 → x i = x j := by
  constructor
  · intro h i j hi hj hW
    have hq := diff_quad hsym hd x
    rw [sum_eq_zero (s := range n) (f := fun i => x i * (d i * x i - ∑ j ∈ range n, W i j * x j))
      fun i hi => by rw [h i (mem_range.1 hi), mul_zero], mul_zero] at hq
    have hnn : ∀ i j, 0 ≤ W i j * ((x i - x j) * (x i - x j)) := fun i j =>
      mul_nonneg (h0 i j) (mul_self_nonneg _)
    have h1 := (sum_eq_zero_iff_of_nonneg fun i _ => sum_nonneg fun j _ => hnn i j).1 hq i (mem_range.2 hi)
    have h2 := (sum_eq_zero_iff_of_nonneg fun j _ => hnn i j).1 h1 j (mem_range.2 hj)
    have h3 := mul_self_eq_zero.1 ((mul_eq_zero.1 h2).resolve_left hW)
    exact sub_eq_zero.1 h3
  · intro h i hi
    rw [hd i hi, sum_mul, ← sum_sub_distrib]
    refine sum_eq_zero fun j hj => ?_
    by_cases hW : W i j = 0
    · rw [hW]; ring
    · rw [h i j hi (mem_range.1 hj) hW]; ring

/-- `(I - D⁻¹ W) x = 0` -/
theorem null_rw_iff (hsym : ∀ i j, W i j = W j i) (h0 : ∀ i j, 0 ≤ W i j)
    (hd : ∀ i, i < n → d i = ∑ j ∈ range n, W i j) (x : Nat → K) :
    (∀ i, i < n → x i - ∑ j ∈ range n, (d i)⁻¹ * W i j * x j = 0) ↔
      (∀ i j, i < n → j < n → W i j ≠ 0 → x i = x j) ∧ ∀ i, i < n → d i = 0 → x i = 0 := by
  have key : ∀ i, i < n → (d i = 0 → ∑ j ∈ range n, W i j * x j = 0) := fun i hi h => by
    have : ∀ j ∈ range n, W i j = 0 :=
      (sum_eq_zero_iff_of_nonneg fun j _ => h0 i j).1 ((hd i hi).symm.trans h)
    exact sum_eq_zero fun j hj => by rw [this j hj, zero_mul]
  rw [← null_iff hsym h0 hd x]
  constructor
  · intro h
    have hz : ∀ i, i < n → d i = 0 → x i = 0 := fun i hi hdi => by
      have := h i hi
      simpa [hdi] using this
    refine ⟨fun i hi => ?_, hz⟩
    by_cases hdi : d i = 0
    · rw [key i hi hdi, hdi]; ring
    · have := h i hi
      simp only [mul_assoc, ← mul_sum] at this
      have h' := congrArg (d i * ·) this
      simp only [mul_sub, mul_zero, mul_inv_cancel_left₀ hdi] at h'
      exact h'
  · rintro ⟨h, hz⟩ i hi
    simp only [mul_assoc, ← mul_sum]
    by_cases hdi : d i = 0
    · rw [hz i hi hdi, hdi]; simp
    · have := h i hi
      have h' : ∑ j ∈ range n, W i j * x j = d i * x i := by linear_combination -this
      rw [h', inv_mul_cancel_left₀ hdi, sub_self]

/-- `(I - D^{-1/2} W D^{-1/2}) y = 0` -/
theorem null_sym_iff (hsym : ∀ i j, W i j = W j i) (h0 : ∀ i j, 0 ≤ W i j)
    (hd : ∀ i, i < n → d i = ∑ j ∈ range n, W i j) {s : Nat → K}
    (hs : ∀ i, i < n → Spec.InvSqrt (d i) (s i)) (y : Nat → K) :
    (∀ i, i < n → y i - ∑ j ∈ range n, s i * W i j * s j * y j = 0) ↔
      (∀ i j, i < n → j < n → W i j ≠ 0 → s i * y i = s j * y j) ∧ ∀ i, i < n → d i = 0 → y i = 0 := by
  have hsum : ∀ i, ∑ j ∈ range n, s i * W i j * s j * y j = s i * ∑ j ∈ range n, W i j * (s j * y j) := fun i => by
    rw [mul_sum]; exact sum_congr rfl fun j _ => by ring
  rw [← null_iff hsym h0 hd fun i => s i * y i]
  simp only [hsum]
  constructor
  · intro h
    have hz : ∀ i, i < n → d i = 0 → y i = 0 := fun i hi hdi => by
      have := h i hi
      rw [(hs i hi).1 hdi] at this
      simpa using this
    refine ⟨fun i hi => ?_, hz⟩
    by_cases hdi : d i = 0
    · have hW : ∀ j ∈ range n, W i j = 0 :=
        (sum_eq_zero_iff_of_nonneg fun j _ => h0 i j).1 ((hd i hi).symm.trans hdi)
      rw [sum_eq_zero fun j hj => by rw [hW j hj, zero_mul], hdi]; ring
    · obtain ⟨hp, hq⟩ := (hs i hi).2 hdi
      have := h i hi
      have h' := congrArg (s i * d i * ·) this
      simp only [mul_sub, mul_zero] at h'
      linear_combination h' + hq * ∑ j ∈ range n, W i j * (s j * y j)
  · rintro ⟨h, hz⟩ i hi
    by_cases hdi : d i = 0
    · rw [hz i hi hdi, (hs i hi).1 hdi]; ring
    · obtain ⟨_, hq⟩ := (hs i hi).2 hdi
      have := h i hi
      linear_combination s i * this - hq * y i

end Alg

/-! ### From entries to paths -/

theorem constOn_iff {R : Nat → Nat → Prop} {x : Nat → K} :
    Spec.ConstOn R x ↔ ∀ i j, R i j → x i = x j := by
  constructor
  · exact fun h i j hr => h i j (.single hr)
  · intro h i j hp
    induction hp with
    | refl => rfl
    | tail _ hr ih => exact ih.trans (h _ _ hr)

theorem wt_pos_of_adj {l : List ((Int × Int) × K)} (hw : Spec.PosWeights l) {i j : Nat} (h : Spec.Adj l i j) :
    0 < Spec.wt l (i : Int) (j : Int) := by
  obtain ⟨e, he, hij⟩ := h
  unfold Spec.wt
  have h1 : ∀ y ∈ l.map fun e : (Int × Int) × K =>
      if e.1 = ((i : Int), (j : Int)) ∨ e.1 = ((j : Int), (i : Int)) then e.2 else 0, 0 ≤ y := by
    intro y hy
    obtain ⟨e', he', rfl⟩ := List.mem_map.1 hy
    split
    · exact (hw e' he').le
    · exact le_rfl
  have h2 := List.single_le_sum h1 e.2 (List.mem_map.2 ⟨e, he, if_pos hij⟩)
  exact lt_of_lt_of_le (hw e he) h2

theorem adj_of_wt {l : List ((Int × Int) × K)} {i j : Nat} (h : Spec.wt l (i : Int) (j : Int) ≠ 0) :
    Spec.Adj l i j := by
  by_contra hc
  apply h
  unfold Spec.wt
  refine List.sum_eq_zero fun y hy => ?_
  obtain ⟨e, he, rfl⟩ := List.mem_map.1 hy
  rw [if_neg fun h' => hc ⟨e, he, h'⟩]

theorem posNonneg {l : List ((Int × Int) × K)} (hw : Spec.PosWeights l) : Spec.NonnegWeights l :=
  fun e he => (hw e he).le

theorem posProper {l : List ((Int × Int) × K)} (hw : Spec.PosWeights l) :
    Spec.PosWeights (Spec.proper l) := fun e he => hw e (List.mem_filter.1 he).1

theorem adj_proper {l : List ((Int × Int) × K)} {i j : Nat} :
    Spec.Adj (Spec.proper l) i j ↔ Spec.Adj l i j ∧ i ≠ j := by
  constructor
  · rintro ⟨e, he, h⟩
    obtain ⟨h1, h2⟩ := List.mem_filter.1 he
    refine ⟨⟨e, h1, h⟩, ?_⟩
    rintro rfl
    rcases h with h | h <;> simp [h] at h2
  · rintro ⟨⟨e, he, h⟩, hij⟩
    refine ⟨e, List.mem_filter.2 ⟨he, ?_⟩, h⟩
    rcases h with h | h <;> simp only [h, ne_eq, decide_not, Bool.not_eq_true', decide_eq_false_iff_not] <;>
      omega

theorem constOn_wt {l : List ((Int × Int) × K)} (hw : Spec.PosWeights l) {n : Nat} (hR : InR n l)
    {x : Nat → K} : (∀ i j, i < n → j < n → Spec.wt (Spec.proper l) (i : Int) (j : Int) ≠ 0 → x i = x j) ↔
      Spec.ConstOn (Spec.Adj l) x := by
  rw [constOn_iff]
  constructor
  · intro h i j hij
    by_cases he : i = j
    · rw [he]
    · have hin : i < n ∧ j < n := by
        obtain ⟨e, he, h'⟩ := hij
        have := hR e he
        rcases h' with h' | h' <;> simp only [h'] at this <;> omega
      exact h i j hin.1 hin.2 (wt_pos_of_adj (posProper hw) (adj_proper.2 ⟨hij, he⟩)).ne'
  · exact fun h i j _ _ hW => h i j (adj_proper.1 (adj_of_wt hW)).1

theorem deg_zero_iff {l : List ((Int × Int) × K)} (hw : Spec.PosWeights l) {n : Nat} (hR : InR n l)
    (i : Nat) (hi : i < n) : Spec.deg (Spec.proper l) (i : Int) = 0 ↔ ∀ j, j ≠ i → ¬ Spec.Adj l i j := by
  have hR' : InR n (Spec.proper l) := fun e he => hR e (List.mem_filter.1 he).1
  rw [← sum_wt_deg hR' i, sum_eq_zero_iff_of_nonneg fun j _ => wt_nonneg (posNonneg (posProper hw)) _ _]
  constructor
  · intro h j hj ha
    have hjn : j < n := by
      obtain ⟨e, he, h'⟩ := ha
      have := hR e he
      rcases h' with h' | h' <;> simp only [h'] at this <;> omega
    exact (wt_pos_of_adj (posProper hw) (adj_proper.2 ⟨ha, Ne.symm hj⟩)).ne' (h j (mem_range.2 hjn))
  · intro h j _
    by_contra hc
    obtain ⟨h1, h2⟩ := adj_proper.1 (adj_of_wt hc)
    exact h j (Ne.symm h2) h1

variable [PyReal K]

/-! ### Graph -/

theorem listing_InR {g : GSt K} (hg : Built NonNeg g) {n : Nat} (hn : (ask .numV g).1 = .ok (.num n)) :
    InR n (Spec.listing g) := by
  rw [listing_lst hg, ← numV_eq hn]; exact lst_InR hg.inv.1 hg.pos

/-- C119 (Graph), `L`: with positive weights `L x = 0` holds exactly for the functions that are
constant on the connected components. -/
theorem C119_graph_L {g : GSt K} (hg : Built NonNeg g) {n : Nat} (hn : (ask .numV g).1 = .ok (.num n))
    (hw : Spec.PosWeights (Spec.listing g)) :
    ∃ L, (ask .L g).1 = .ok (.mat L) ∧
      ∀ x : Nat → K, Spec.Null n L x ↔ Spec.ConstOn (Spec.Adj (Spec.listing g)) x := by
  obtain ⟨L, hL, hM, _⟩ := C08_graph_laplacian hg hn
  refine ⟨L, hL, fun x => ?_⟩
  have hR := listing_InR hg hn
  have hR' : InR n (Spec.proper (Spec.listing g)) := fun e he => hR e (List.mem_filter.1 he).1
  rw [← constOn_wt hw hR, ← null_iff (d := fun i => Spec.deg (Spec.proper (Spec.listing g)) (i : Int))
    (fun i j => wt_symm _ _ _) (fun i j => wt_nonneg (posNonneg (posProper hw)) _ _)
    (fun i _ => (sum_wt_deg hR' i).symm) x]
  refine forall_congr' fun i => imp_congr_right fun hi => ?_
  have : ∑ j ∈ range n, L.get i j * x j = Spec.deg (Spec.proper (Spec.listing g)) (i : Int) * x i -
      ∑ j ∈ range n, Spec.wt (Spec.proper (Spec.listing g)) (i : Int) (j : Int) * x j := by
    have h1 : ∀ j ∈ range n, L.get i j * x j =
        (if i = j then Spec.deg (Spec.proper (Spec.listing g)) (i : Int) * x j else 0) -
          Spec.wt (Spec.proper (Spec.listing g)) (i : Int) (j : Int) * x j := fun j hj => by
      rw [hM.get i j hi (mem_range.1 hj)]
      by_cases hij : i = j
      · subst hij; rw [if_pos rfl, if_pos rfl, wt_proper_self]; ring
      · rw [if_neg hij, if_neg hij, wt_proper_of_ne _ (by omega)]; ring
    rw [sum_congr rfl h1, sum_sub_distrib, sum_ite_eq, if_pos (mem_range.2 hi)]
  rw [this]

/-- C119 (Graph), `L`: the functions constant on all vertices are the only ones with `L x = 0` exactly
if the graph is connected. -/
theorem C119_graph_connected {g : GSt K} (hg : Built NonNeg g) {n : Nat}
    (hn : (ask .numV g).1 = .ok (.num n)) (hw : Spec.PosWeights (Spec.listing g)) {L : Sp K}
    (hL : (ask .L g).1 = .ok (.mat L)) :
    (∀ x : Nat → K, Spec.Null n L x → ∀ i j, i < n → j < n → x i = x j) ↔
      ∀ i j, i < n → j < n → Spec.Joined (Spec.Adj (Spec.listing g)) i j := by
  obtain ⟨L', hL', h⟩ := C119_graph_L hg hn hw
  rw [hL] at hL'; cases hL'
  constructor
  · intro hc i j hi hj
    classical
    have hx : Spec.ConstOn (Spec.Adj (Spec.listing g))
        (fun k => if Spec.Joined (Spec.Adj (Spec.listing g)) i k then (1 : K) else 0) := by
      refine constOn_iff.2 fun a b hab => ?_
      have hba : Spec.Adj (Spec.listing g) b a := by
        obtain ⟨e, he, h⟩ := hab; exact ⟨e, he, h.symm⟩
      have : Spec.Joined (Spec.Adj (Spec.listing g)) i a ↔ Spec.Joined (Spec.Adj (Spec.listing g)) i b :=
        ⟨fun h => h.tail hab, fun h => h.tail hba⟩
      simp only [this]
    have := hc _ ((h _).2 hx) i j hi hj
    by_contra hn
    rw [if_pos (show Spec.Joined _ i i from .refl), if_neg hn] at this
    exact one_ne_zero this
  · intro hc x hx i j hi hj
    exact (h x).1 hx i j (hc i j hi hj)

/-- C119 (Graph), `L_rw`: `L_rw x = 0` holds exactly for the functions that are constant on the
connected components and 0 at the vertices without neighbours. -/
theorem C119_graph_Lrw {g : GSt K} (hg : Built NonNeg g) {n : Nat} (hn : (ask .numV g).1 = .ok (.num n))
    (hw : Spec.PosWeights (Spec.listing g)) :
    ∃ L, (ask .Lrw g).1 = .ok (.mat L) ∧
      ∀ x : Nat → K, Spec.Null n L x ↔ Spec.ConstOn (Spec.Adj (Spec.listing g)) x ∧
        ∀ i, i < n → (∀ j, j ≠ i → ¬ Spec.Adj (Spec.listing g) i j) → x i = 0 := by
  obtain ⟨L, hL, hM, _⟩ := C10_graph_Lrw hg hn
  refine ⟨L, hL, fun x => ?_⟩
  have hR := listing_InR hg hn
  have hR' : InR n (Spec.proper (Spec.listing g)) := fun e he => hR e (List.mem_filter.1 he).1
  have hz : (∀ i, i < n → Spec.deg (Spec.proper (Spec.listing g)) (i : Int) = 0 → x i = 0) ↔
      ∀ i, i < n → (∀ j, j ≠ i → ¬ Spec.Adj (Spec.listing g) i j) → x i = 0 :=
    forall_congr' fun i => imp_congr_right fun hi => by rw [deg_zero_iff hw hR i hi]
  rw [← constOn_wt hw hR, ← hz,
    ← null_rw_iff (d := fun i => Spec.deg (Spec.proper (Spec.listing g)) (i : Int))
    (fun i j => wt_symm _ _ _) (fun i j => wt_nonneg (posNonneg (posProper hw)) _ _)
    (fun i _ => (sum_wt_deg hR' i).symm) x]
  refine forall_congr' fun i => imp_congr_right fun hi => ?_
  have h1 : ∀ j ∈ range n, L.get i j * x j = (if i = j then x j else 0) -
      (Spec.deg (Spec.proper (Spec.listing g)) (i : Int))⁻¹ *
        Spec.wt (Spec.proper (Spec.listing g)) (i : Int) (j : Int) * x j := fun j hj => by
    rw [hM.get i j hi (mem_range.1 hj)]
    by_cases hij : i = j
    · rw [if_pos hij, if_pos hij]; ring
    · rw [if_neg hij, if_neg hij]; ring
  rw [sum_congr rfl h1, sum_sub_distrib, sum_ite_eq, if_pos (mem_range.2 hi)]

/-- C119 (Graph), `L_sym`: `L_sym y = 0` holds exactly if `D^{-1/2} y` is constant on the connected
components and `y` is 0 at the vertices without neighbours. -/
theorem C119_graph_Lsym {g : GSt K} (hg : Built NonNeg g) {n : Nat} (hn : (ask .numV g).1 = .ok (.num n))
    (hw : Spec.PosWeights (Spec.listing g)) :
    ∃ (L : Sp K) (s : Nat → K), (ask .Lsym g).1 = .ok (.mat L) ∧
      (∀ i, i < n → Spec.InvSqrt (Spec.deg (Spec.proper (Spec.listing g)) (i : Int)) (s i)) ∧
      ∀ y : Nat → K, Spec.Null n L y ↔ Spec.ConstOn (Spec.Adj (Spec.listing g)) (fun i => s i * y i) ∧
        ∀ i, i < n → (∀ j, j ≠ i → ¬ Spec.Adj (Spec.listing g) i j) → y i = 0 := by
  obtain ⟨L, s, hL, hs, hM, _⟩ := C09_graph_Lsym hg hn (posNonneg hw)
  refine ⟨L, s, hL, hs, fun x => ?_⟩
  have hR := listing_InR hg hn
  have hR' : InR n (Spec.proper (Spec.listing g)) := fun e he => hR e (List.mem_filter.1 he).1
  have hz : (∀ i, i < n → Spec.deg (Spec.proper (Spec.listing g)) (i : Int) = 0 → x i = 0) ↔
      ∀ i, i < n → (∀ j, j ≠ i → ¬ Spec.Adj (Spec.listing g) i j) → x i = 0 :=
    forall_congr' fun i => imp_congr_right fun hi => by rw [deg_zero_iff hw hR i hi]
  rw [← constOn_wt hw hR, ← hz,
    ← null_sym_iff (d := fun i => Spec.deg (Spec.proper (Spec.listing g)) (i : Int))
    (fun i j => wt_symm _ _ _) (fun i j => wt_nonneg (posNonneg (posProper hw)) _ _)
    (fun i _ => (sum_wt_deg hR' i).symm) hs x]
  refine forall_congr' fun i => imp_congr_right fun hi => ?_
  have h1 : ∀ j ∈ range n, L.get i j * x j = (if i = j then x j else 0) -
      s i * Spec.wt (Spec.proper (Spec.listing g)) (i : Int) (j : Int) * s j * x j := fun j hj => by
    rw [hM.get i j hi (mem_range.1 hj)]
    by_cases hij : i = j
    · rw [if_pos hij, if_pos hij]; ring
    · rw [if_neg hij, if_neg hij]; ring
  rw [sum_congr rfl h1, sum_sub_distrib, sum_ite_eq, if_pos (mem_range.2 hi)]

/-- the hypotheses are met -/
example : Built NonNeg exG ∧ (ask .numV exG).1 = .ok (.num 3) ∧ Spec.PosWeights (Spec.listing exG) :=
  ⟨exG_nonneg, rfl, by
    rw [exG_listing]; intro e he
    simp only [List.mem_cons, List.not_mem_nil, or_false] at he
    rcases he with rfl | rfl | rfl <;> norm_num⟩

end Props

namespace Props
open Finset Hyper

variable {K : Type} [Field K] [LinearOrder K] [IsStrictOrderedRing K]

/-! ### Hypergraph -/

theorem hPosNonneg {l : List (List Int × K)} (hw : Spec.PosWeights l) : Spec.HNonneg l :=
  fun e he => (hw e he).le

theorem share_pos_of_adj {l : List (List Int × K)} (hw : Spec.PosWeights l) {i j : Nat} (h : Spec.HAdj l i j) :
    0 < Spec.share l i j := by
  obtain ⟨e, he, h1, h2⟩ := h
  obtain ⟨k, hk, rfl⟩ := List.getElem_of_mem he
  have hat : Spec.hAt l k = (l[k]).1 := by
    unfold Spec.hAt; rw [List.getD_eq_getElem?_getD, List.getElem?_eq_getElem hk]; rfl
  have hs : 0 < Spec.hSize l k :=
    lt_of_le_of_ne (hSize_nonneg _ _) (Ne.symm (size_ne_zero (i := i) (by rw [hat]; exact h1)))
  unfold Spec.share
  refine sum_pos' (fun k' _ => ?_) ⟨k, mem_range.2 hk, ?_⟩
  · exact mul_nonneg (mul_nonneg (mul_nonneg (inc_nonneg _ _ _) (hWt_nonneg (hPosNonneg hw) _))
      (inv_nonneg.2 (hSize_nonneg _ _))) (inc_nonneg _ _ _)
  · unfold Spec.inc
    rw [if_pos (by rw [hat]; exact h1), if_pos (by rw [hat]; exact h2), one_mul, mul_one]
    exact mul_pos (by rw [hWt_of_lt hk]; exact hw _ he) (inv_pos.2 hs)

theorem adj_of_share {l : List (List Int × K)} {i j : Nat} (h : Spec.share l i j ≠ 0) : Spec.HAdj l i j := by
  by_contra hc
  apply h
  unfold Spec.share
  refine sum_eq_zero fun k hk => ?_
  have hk' := mem_range.1 hk
  have hat : Spec.hAt l k = (l[k]).1 := by
    unfold Spec.hAt; rw [List.getD_eq_getElem?_getD, List.getElem?_eq_getElem hk']; rfl
  unfold Spec.inc
  rw [hat]
  by_cases h1 : (i : Int) ∈ (l[k]).1
  · rw [if_neg fun h2 => hc ⟨_, List.getElem_mem hk', h1, h2⟩, mul_zero]
  · rw [if_neg h1]; ring

theorem constOn_share {l : List (List Int × K)} (hw : Spec.PosWeights l) {n : Nat} (hR : Rng n l)
    {x : Nat → K} : (∀ i j, i < n → j < n → Spec.share l i j ≠ 0 → x i = x j) ↔
      Spec.ConstOn (Spec.HAdj l) x := by
  rw [constOn_iff]
  constructor
  · intro h i j hij
    have hin : i < n ∧ j < n := by
      obtain ⟨e, he, h1, h2⟩ := hij
      have a := (hR e he).2 _ h1
      have b := (hR e he).2 _ h2
      omega
    exact h i j hin.1 hin.2 (share_pos_of_adj hw hij).ne'
  · exact fun h i j _ _ hW => h i j (adj_of_share hW)

theorem hDeg_zero_iff {l : List (List Int × K)} (hw : Spec.PosWeights l) {n : Nat} (hR : Rng n l)
    (i : Nat) : Spec.hDeg l i = 0 ↔ ∀ e ∈ l, (i : Int) ∉ e.1 := by
  rw [← sum_share hR i, sum_eq_zero_iff_of_nonneg fun j _ => share_nonneg (hPosNonneg hw) _ _]
  constructor
  · intro h e he hi
    have hin := (hR e he).2 _ hi
    exact (share_pos_of_adj hw ⟨e, he, hi, hi⟩).ne' (h i (mem_range.2 (by omega)))
  · intro h j _
    by_contra hc
    obtain ⟨e, he, h1, _⟩ := adj_of_share hc
    exact h e he h1

variable [PyReal K] {b : Bool}

/-- C119 (Hypergraph), `L_rw`: with positive weights `L_rw x = 0` holds exactly for the functions that
are constant on the connected components and 0 at the vertices in no hyperedge. -/
theorem C119_hypergraph_Lrw {s : HSt K} (hs : Built Proper b s) {sc : Option String}
    (hsc : Spec.HasScope s sc) {n : Nat} (hn : (ask .numV s).1 = .ok (.num n))
    (hw : Spec.PosWeights (Spec.hListing s sc)) :
    ∃ L, (ask (.Lrw sc) s).1 = .ok (.mat L) ∧
      ∀ x : Nat → K, Spec.Null n L x ↔ Spec.ConstOn (Spec.HAdj (Spec.hListing s sc)) x ∧
        ∀ i, i < n → (∀ e ∈ Spec.hListing s sc, (i : Int) ∉ e.1) → x i = 0 := by
  obtain ⟨L, hL, hM, _⟩ := C36_hypergraph_L_rw_partial hs hsc hn
  refine ⟨L, hL, fun x => ?_⟩
  have hR : Rng n (Spec.hListing s sc) := by
    have hs' := hs.mono (Q := AnyH) fun _ _ _ => trivial
    rw [Hy.listing_eq hs', ← Hy.numV_eq hn]; exact lst_rng hs'.inv.1 hs.inRange sc
  have hz : (∀ i, i < n → Spec.hDeg (Spec.hListing s sc) i = 0 → x i = 0) ↔
      ∀ i, i < n → (∀ e ∈ Spec.hListing s sc, (i : Int) ∉ e.1) → x i = 0 :=
    forall_congr' fun i => imp_congr_right fun hi => by rw [hDeg_zero_iff hw hR i]
  rw [← constOn_share hw hR, ← hz, ← null_rw_iff (d := Spec.hDeg (Spec.hListing s sc))
    (share_symm _) (share_nonneg (hPosNonneg hw)) (fun i _ => (sum_share hR i).symm) x]
  refine forall_congr' fun i => imp_congr_right fun hi => ?_
  have h1 : ∀ j ∈ range n, L.get i j * x j = (if i = j then x j else 0) -
      (Spec.hDeg (Spec.hListing s sc) i)⁻¹ * Spec.share (Spec.hListing s sc) i j * x j := fun j hj => by
    rw [hM.get i j hi (mem_range.1 hj)]
    by_cases hij : i = j
    · rw [if_pos hij, if_pos hij]; ring
    · rw [if_neg hij, if_neg hij]; ring
  rw [sum_congr rfl h1, sum_sub_distrib, sum_ite_eq, if_pos (mem_range.2 hi)]

/-- C119 (Hypergraph), `L_sym` and `L_HGNN`: `L_sym y = 0`, that is `L_HGNN y = y`, holds exactly if
`D_v^{-1/2} y` is constant on the connected components and `y` is 0 at the vertices in no hyperedge. -/
theorem C119_hypergraph_Lsym {s : HSt K} (hs : Built Proper b s) {sc : Option String}
    (hsc : Spec.HasScope s sc) {n : Nat} (hn : (ask .numV s).1 = .ok (.num n))
    (hw : Spec.PosWeights (Spec.hListing s sc)) :
    ∃ (L M : Sp K) (q : Nat → K), (ask (.LHGNN sc) s).1 = .ok (.mat L) ∧ (ask (.Lsym sc) s).1 = .ok (.mat M) ∧
      (∀ i, i < n → Spec.InvSqrt (Spec.hDeg (Spec.hListing s sc) i) (q i)) ∧
      (∀ y : Nat → K, Spec.Null n M y ↔
        Spec.ConstOn (Spec.HAdj (Spec.hListing s sc)) (fun i => q i * y i) ∧
          ∀ i, i < n → (∀ e ∈ Spec.hListing s sc, (i : Int) ∉ e.1) → y i = 0) ∧
      ∀ y : Nat → K, Spec.Null n M y ↔ ∀ i, i < n → ∑ j ∈ range n, L.get i j * y j = y i := by
  obtain ⟨L, M, q, hL, hLs, hq, hML, hM, _⟩ := C36_hypergraph_L_HGNN_partial hs hsc hn (hPosNonneg hw)
  refine ⟨L, M, q, hL, hLs, hq, fun x => ?_, fun y => ?_⟩
  · have hR : Rng n (Spec.hListing s sc) := by
      have hs' := hs.mono (Q := AnyH) fun _ _ _ => trivial
      rw [Hy.listing_eq hs', ← Hy.numV_eq hn]; exact lst_rng hs'.inv.1 hs.inRange sc
    have hz : (∀ i, i < n → Spec.hDeg (Spec.hListing s sc) i = 0 → x i = 0) ↔
        ∀ i, i < n → (∀ e ∈ Spec.hListing s sc, (i : Int) ∉ e.1) → x i = 0 :=
      forall_congr' fun i => imp_congr_right fun hi => by rw [hDeg_zero_iff hw hR i]
    rw [← constOn_share hw hR, ← hz, ← null_sym_iff (d := Spec.hDeg (Spec.hListing s sc))
      (share_symm _) (share_nonneg (hPosNonneg hw)) (fun i _ => (sum_share hR i).symm) hq x]
    refine forall_congr' fun i => imp_congr_right fun hi => ?_
    have h1 : ∀ j ∈ range n, M.get i j * x j = (if i = j then x j else 0) -
        q i * Spec.share (Spec.hListing s sc) i j * q j * x j := fun j hj => by
      rw [hM.get i j hi (mem_range.1 hj)]
      by_cases hij : i = j
      · rw [if_pos hij, if_pos hij]; ring
      · rw [if_neg hij, if_neg hij]; ring
    rw [sum_congr rfl h1, sum_sub_distrib, sum_ite_eq, if_pos (mem_range.2 hi)]
  · refine forall_congr' fun i => imp_congr_right fun hi => ?_
    have h1 : ∀ j ∈ range n, M.get i j * y j = (if i = j then y j else 0) - L.get i j * y j := fun j hj => by
      rw [hM.get i j hi (mem_range.1 hj), hML.get i j hi (mem_range.1 hj)]
      by_cases hij : i = j
      · rw [if_pos hij, if_pos hij]; ring
      · rw [if_neg hij, if_neg hij]; ring
    rw [sum_congr rfl h1, sum_sub_distrib, sum_ite_eq, if_pos (mem_range.2 hi), sub_eq_zero, eq_comm]

/-- the hypotheses are met -/
example : Built Proper true exH ∧ Spec.HasScope exH none ∧ (ask .numV exH).1 = .ok (.num 4) ∧
    Spec.PosWeights (Spec.hListing exH none) := by
  refine ⟨exH_proper, List.cons_ne_nil _ _, rfl, ?_⟩
  intro e he
  rw [show Spec.hListing exH none = [([0, 1, 2], 2), ([1, 3], 3), ([3], 5)] from rfl] at he
  simp only [List.mem_cons, List.not_mem_nil, or_false] at he
  rcases he with rfl | rfl | rfl <;> norm_num

end Props
end DHG
