import Verif.Props.EditsHyper
import Verif.Props.Accepts

/-!
# Several graphs or hypergraphs in one object (C129)
-/

set_option linter.unusedSectionVars false
set_option autoImplicit false

namespace DHG

variable {K : Type} [Field K] [LinearOrder K]

namespace Spec

/-- two graphs side by side: the first `n` vertices are connected as in the first graph, the others, counted from `n`, as
in the second graph, and there is nothing between them -/
def GraphsBeside (n : Nat) (l₁ l₂ l : List ((Int × Int) × K)) : Prop :=
  ∀ i j : Nat, wt l i j = if i < n ∧ j < n then wt l₁ i j
    else if n ≤ i ∧ n ≤ j then wt l₂ (i - n : Nat) (j - n : Nat) else 0

/-- two hypergraphs side by side: the hyperedges are those of the first and, with vertices counted from `n`, those of the
second, in any order -/
def HypergraphsBeside (n : Nat) (l₁ l₂ l : List (List Int × K)) : Prop :=
  l.Perm (l₁ ++ l₂.map fun e => (e.1.map (· + (n : Int)), e.2))

/-- the rows of `X₁` above those of `X₂` -/
structure Above (X₁ X₂ X : Dense K) : Prop where
  rows : X.rows = X₁.rows + X₂.rows
  cols₁ : X.cols = X₁.cols
  cols₂ : X.cols = X₂.cols
  upper : ∀ i c, i < X₁.rows → c < X.cols → X.at_ i c = X₁.at_ i c
  lower : ∀ i c, i < X₂.rows → c < X.cols → X.at_ (X₁.rows + i) c = X₂.at_ i c

/-- the matrices `M₁` and `M₂` on the diagonal, with zeros elsewhere -/
structure Blocks (n m : Nat) (M₁ M₂ M : Sp K) : Prop where
  upper : ∀ i j, i < n → j < n → M.get i j = M₁.get i j
  lower : ∀ i j, i < m → j < m → M.get (n + i) (n + j) = M₂.get i j
  right : ∀ i j, i < n → j < m → M.get i (n + j) = 0
  left : ∀ i j, i < m → j < n → M.get (n + i) j = 0

end Spec

namespace Props
open Finset Graph Loca

variable [PyReal K]

namespace Side

/-- a sum over a window -/
theorem sum_window {N n o : Nat} (h : o + n ≤ N) (f g : Nat → K) :
    ∑ j ∈ range N, (if o ≤ j ∧ j < o + n then f (j - o) else 0) * g j = ∑ j ∈ range n, f j * g (o + j) := by
  have hsub : Finset.Ico o (o + n) ⊆ range N := fun j hj => by
    rw [mem_range]; have := Finset.mem_Ico.1 hj; omega
  rw [← sum_subset hsub, Finset.sum_Ico_eq_sum_range]
  · rw [Nat.add_sub_cancel_left]
    refine sum_congr rfl fun j hj => ?_
    have := mem_range.1 hj
    rw [if_pos (by omega), Nat.add_sub_cancel_left]
  · intro j _ hj
    rw [if_neg fun h => hj (Finset.mem_Ico.2 h), zero_mul]

variable {r r₁ r₂ : GRaw K}

/-- `r₁` is a part of `r`, its vertices are counted from `o`, and no edges leave it -/
structure Part (o : Nat) (r₁ r : GRaw K) : Prop where
  le : o + r₁.numV ≤ r.numV
  extra : r.extra = r₁.extra
  wt : ∀ i j : Nat, i < r₁.numV → Spec.wt (lst r) ((o + i : Nat) : Int) (j : Int) =
    if o ≤ j ∧ j < o + r₁.numV then Spec.wt (lst r₁) (i : Int) ((j - o : Nat) : Int) else 0

theorem Part.degs {o : Nat} (h : Part o r₁ r) (hr : Graph.Inv r) (hp : Pos r) (hr₁ : Graph.Inv r₁) (hp₁ : Pos r₁)
    {i : Nat} (hi : i < r₁.numV) : degs r (o + i) = degs r₁ i := by
  unfold Graph.degs
  rw [← sum_wt_deg (lst_InR hr hp), ← sum_wt_deg (lst_InR hr₁ hp₁)]
  have := sum_window (K := K) h.le (fun j => Spec.wt (lst r₁) (i : Int) (j : Int)) fun _ => 1
  simp only [mul_one] at this
  rw [← this]
  exact sum_congr rfl fun j _ => h.wt i j hi

theorem Part.withExtra {o : Nat} (h : Part o r₁ r) (hr : Graph.Inv r) (hr₁ : Graph.Inv r₁) :
    Part o (withExtra r₁) (withExtra r) where
  le := h.le
  extra := rfl
  wt := fun i j hi => by
    have hi' : i < r₁.numV := hi
    have hn : (Graph.withExtra r₁).numV = r₁.numV := rfl
    have hlt : o + i < r.numV := by have := h.le; omega
    rw [Edit.wt_extra hr hlt, Edit.wt_extra hr₁ hi', h.wt i j hi', h.extra, hn]
    by_cases hj : o ≤ j ∧ j < o + r₁.numV
    · rw [if_pos hj, if_pos hj]
      congr 1
      have : o + i = j ↔ i = j - o := by omega
      simp only [this]
    · rw [if_neg hj, if_neg hj, zero_add, if_neg]
      rintro ⟨rfl, _⟩
      exact hj ⟨by omega, by omega⟩

/-- a window of the product -/
theorem window_mm {P P₁ : Sp K} (hP : P.WF) (hP₁ : P₁.WF) {o : Nat} (hle : o + P₁.cols ≤ P.cols) {X X₁ Y Y₁ : Dense K}
    (h : P.mmD X = .ok Y) (h₁ : P₁.mmD X₁ = .ok Y₁) {i : Nat}
    (hg : ∀ j, j < P.cols → P.get (o + i) j = if o ≤ j ∧ j < o + P₁.cols then P₁.get i (j - o) else 0) {c : Nat}
    (hX : ∀ j, j < P₁.cols → X.at_ (o + j) c = X₁.at_ j c) : Y.at_ (o + i) c = Y₁.at_ i c := by
  rw [Sp.mmD_at h hP, Sp.mmD_at h₁ hP₁]
  rw [sum_congr rfl fun j hj => by rw [hg j (mem_range.1 hj)]]
  rw [sum_window hle (fun j => P₁.get i j) fun j => X.at_ j c]
  exact sum_congr rfl fun j hj => by rw [hX j (mem_range.1 hj)]

/-- the call succeeds -/
def Fine (q : Spec.GCall K) (r : GRaw K) : Prop :=
  match q with
  | .v2v .. => True
  | .gcn .. => ∀ i, i < r.numV → ¬ Graph.degs (Graph.withExtra r) i < 0

theorem gcn_iff (hr : Graph.Inv r) (hp : Pos r) :
    (∃ L, evLGCN r = .ok L) ↔ ∀ i, i < r.numV → ¬ Graph.degs (Graph.withExtra r) i < 0 := by
  constructor
  · rintro ⟨L, hL⟩
    obtain ⟨N, h1, h2⟩ := bok hL
    obtain ⟨D, h3, _⟩ := bok h1
    obtain ⟨E, h4, h5⟩ := bok h3
    rw [evDv_spec hr.withExtra hp.withExtra] at h4; cases h4
    rw [Sp.rsqrt_diag] at h5
    split at h5
    · next h => exact fun i hi => h _ (List.mem_map.2 ⟨i, List.mem_range.2 hi, rfl⟩)
    · cases h5
  · intro h
    obtain ⟨M, hM, _⟩ := evNormA_spec hr.withExtra hp.withExtra h
    exact ⟨M.coalesce, by unfold evLGCN; rw [hM]; rfl⟩

theorem gcn_mat (hr : Graph.Inv r) (hp : Pos r) {L : Sp K} (hL : evLGCN r = .ok L) :
    Spec.IsMat r.numV r.numV (fun i j => negHalf (Graph.degs (Graph.withExtra r) i) *
      Spec.wt (lst (Graph.withExtra r)) (i : Int) (j : Int) * negHalf (Graph.degs (Graph.withExtra r) j)) L := by
  obtain ⟨M, hM, _, h⟩ := evNormA_spec hr.withExtra hp.withExtra ((gcn_iff hr hp).1 ⟨L, hL⟩)
  obtain ⟨N, h1, h2⟩ := bok hL
  rw [hM] at h1; cases h1
  cases h2
  exact ⟨h.rows, h.cols, h.wf.coalesce, fun i j hi hj => by rw [Sp.get_coalesce]; exact h.get i j hi hj⟩

theorem ok_iff (hr : Graph.Inv r) (hp : Pos r) {q : Spec.GCall K} (hq : Spec.PlainCall q) {X : Dense K}
    (hX : X.rows = r.numV) : (∃ Y, evG q X r = .ok Y) ↔ Fine q r := by
  obtain ⟨A, hA, a⟩ := evA_spec hr hp
  cases q with
  | v2v aggr ew p keep =>
    obtain ⟨ha, rfl, rfl⟩ := hq
    refine ⟨fun _ => trivial, fun _ => ?_⟩
    obtain ⟨Z, hZ⟩ := Sp.mmD_ok (P := A) (X := X) (a.cols.trans hX.symm)
    have t := Sp.mmD_shape hZ
    rcases ha with rfl | rfl
    · refine ⟨Z, ?_⟩
      simp only [evG, evV2v, hA, evDrop, lt_self_iff_false, if_false, bind, Except.bind, reduceCtorEq, hZ]
    · obtain ⟨Y, hY⟩ := Sp.mmD_ok (P := Sp.diag ((List.range r.numV).map fun i => (Graph.degs r i)⁻¹)) (X := Z)
        (by rw [t.2.1, a.rows]; simp [Sp.diag_cols])
      refine ⟨Y, ?_⟩
      simp only [evG, evV2v, hA, evDrop, lt_self_iff_false, if_false, bind, Except.bind, reduceCtorEq, hZ,
        evDvN1_spec hr hp]
      exact hY
  | gcn p keep =>
    cases hq
    refine Iff.trans ?_ (gcn_iff hr hp)
    constructor
    · rintro ⟨Y, hY⟩
      obtain ⟨L, h1, _⟩ := bok hY
      exact ⟨L, h1⟩
    · rintro ⟨L, hL⟩
      have l := gcn_mat hr hp hL
      obtain ⟨Y, hY⟩ := Sp.mmD_ok (P := L) (X := X) (l.cols.trans hX.symm)
      refine ⟨Y, ?_⟩
      simp only [evG, evSmoothGCN, hL, evDrop, lt_self_iff_false, if_false, bind, Except.bind, hY]

/-- one call on a part -/
theorem part_step (hr : Graph.Inv r) (hp : Pos r) (hr₁ : Graph.Inv r₁) (hp₁ : Pos r₁) {o : Nat} (h : Part o r₁ r)
    {q : Spec.GCall K} (hq : Spec.PlainCall q) {X X₁ Y Y₁ : Dense K} (hc : X.cols = X₁.cols)
    (hX : ∀ i c, i < r₁.numV → c < X.cols → X.at_ (o + i) c = X₁.at_ i c)
    (hY : evG q X r = .ok Y) (hY₁ : evG q X₁ r₁ = .ok Y₁) :
    Y.rows = r.numV ∧ Y₁.rows = r₁.numV ∧ Y.cols = X.cols ∧ Y.cols = Y₁.cols ∧
      ∀ i c, i < r₁.numV → c < Y.cols → Y.at_ (o + i) c = Y₁.at_ i c := by
  obtain ⟨A, hA, a⟩ := evA_spec hr hp
  obtain ⟨A₁, hA₁, a₁⟩ := evA_spec hr₁ hp₁
  have hle := h.le
  have hsum : ∀ {Z Z₁ : Dense K}, A.mmD X = .ok Z → A₁.mmD X₁ = .ok Z₁ →
      ∀ i c, i < r₁.numV → c < X.cols → Z.at_ (o + i) c = Z₁.at_ i c := by
    intro Z Z₁ hZ hZ₁ i c hi hcl
    refine window_mm a.wf a₁.wf (by rw [a.cols, a₁.cols]; exact hle) hZ hZ₁ (fun j _ => ?_) fun j hj => ?_
    · rw [a.get, h.wt i j hi, a₁.cols, a₁.get]
    · rw [a₁.cols] at hj
      exact hX j c hj hcl
  cases q with
  | v2v aggr ew p keep =>
    obtain ⟨ha, rfl, rfl⟩ := hq
    simp only [evG, evV2v, hA, hA₁, evDrop, lt_self_iff_false, if_false, bind, Except.bind] at hY hY₁
    rcases ha with rfl | rfl
    · have s := Sp.mmD_shape hY
      have s₁ := Sp.mmD_shape hY₁
      refine ⟨s.2.1.trans a.rows, s₁.2.1.trans a₁.rows, s.2.2, s.2.2.trans (hc.trans s₁.2.2.symm), fun i c hi hcl => ?_⟩
      exact hsum hY hY₁ i c hi (s.2.2 ▸ hcl)
    · simp only [reduceCtorEq, if_false] at hY hY₁
      rcases hZ : A.mmD X with e | Z
      · rw [hZ] at hY; cases hY
      rcases hZ₁ : A₁.mmD X₁ with e | Z₁
      · rw [hZ₁] at hY₁; cases hY₁
      rw [hZ, evDvN1_spec hr hp] at hY
      rw [hZ₁, evDvN1_spec hr₁ hp₁] at hY₁
      simp only at hY hY₁
      have s := Sp.mmD_shape hY
      have s₁ := Sp.mmD_shape hY₁
      have t := Sp.mmD_shape hZ
      have t₁ := Sp.mmD_shape hZ₁
      refine ⟨s.2.1.trans (by simp [Sp.diag_rows]), s₁.2.1.trans (by simp [Sp.diag_rows]), s.2.2.trans t.2.2,
        (s.2.2.trans t.2.2).trans (hc.trans (s₁.2.2.trans t₁.2.2).symm), fun i c hi hcl => ?_⟩
      rw [s.2.2, t.2.2] at hcl
      rw [Sp.diag_mmD_at hY (by omega) c, Sp.diag_mmD_at hY₁ hi c, hsum hZ hZ₁ i c hi hcl,
        h.degs hr hp hr₁ hp₁ hi]
  | gcn p keep =>
    cases hq
    simp only [evG] at hY hY₁
    obtain ⟨L, h1, h2⟩ := bok hY
    obtain ⟨L₁, h1₁, h2₁⟩ := bok hY₁
    simp only [evDrop, lt_self_iff_false, if_false, bind, Except.bind] at h2 h2₁
    have l := gcn_mat hr hp h1
    have l₁ := gcn_mat hr₁ hp₁ h1₁
    have s := Sp.mmD_shape h2
    have s₁ := Sp.mmD_shape h2₁
    have hx := h.withExtra hr hr₁
    refine ⟨s.2.1.trans l.rows, s₁.2.1.trans l₁.rows, s.2.2, s.2.2.trans (hc.trans s₁.2.2.symm), fun i c hi hcl => ?_⟩
    rw [s.2.2] at hcl
    refine window_mm l.wf l₁.wf (by rw [l.cols, l₁.cols]; exact hle) h2 h2₁ (fun j hj => ?_) fun j hj => ?_
    · rw [l.cols] at hj
      have hw : Spec.wt (lst (Graph.withExtra r)) ((o + i : Nat) : Int) (j : Int) = _ := hx.wt i j hi
      have hn : (Graph.withExtra r₁).numV = r₁.numV := rfl
      rw [l.get _ j (by omega) hj, hw, l₁.cols, hn,
        hx.degs hr.withExtra hp.withExtra hr₁.withExtra hp₁.withExtra hi]
      by_cases hj' : o ≤ j ∧ j < o + r₁.numV
      · rw [if_pos hj', if_pos hj', l₁.get i (j - o) hi (by omega),
          ← hx.degs hr.withExtra hp.withExtra hr₁.withExtra hp₁.withExtra (i := j - o) (by rw [hn]; omega),
          show o + (j - o) = j by omega]
      · rw [if_neg hj', if_neg hj', mul_zero, zero_mul]
    · rw [l₁.cols] at hj
      exact hX j c hj hcl

/-- both parts -/
structure Parts (r₁ r₂ r : GRaw K) : Prop where
  num : r.numV = r₁.numV + r₂.numV
  one : Part 0 r₁ r
  two : Part r₁.numV r₂ r

variable (hr : Graph.Inv r) (hp : Pos r) (hr₁ : Graph.Inv r₁) (hp₁ : Pos r₁) (hr₂ : Graph.Inv r₂) (hp₂ : Pos r₂)
  (h : Parts r₁ r₂ r)

include hr hp hr₁ hp₁ hr₂ hp₂ h

theorem fine_iff (q : Spec.GCall K) : Fine q r ↔ Fine q r₁ ∧ Fine q r₂ := by
  cases q with
  | v2v => exact ⟨fun _ => ⟨trivial, trivial⟩, fun _ => trivial⟩
  | gcn p keep =>
    have x₁ := h.one.withExtra hr hr₁
    have x₂ := h.two.withExtra hr hr₂
    have d₁ : ∀ {i}, i < r₁.numV → Graph.degs (Graph.withExtra r) (0 + i) = Graph.degs (Graph.withExtra r₁) i := fun hi =>
      x₁.degs hr.withExtra hp.withExtra hr₁.withExtra hp₁.withExtra hi
    have d₂ : ∀ {i}, i < r₂.numV → Graph.degs (Graph.withExtra r) (r₁.numV + i) = Graph.degs (Graph.withExtra r₂) i :=
      fun hi => x₂.degs hr.withExtra hp.withExtra hr₂.withExtra hp₂.withExtra hi
    have hn := h.num
    simp only [Fine]
    constructor
    · intro hf
      refine ⟨fun i hi => ?_, fun i hi => ?_⟩
      · rw [← d₁ hi]; exact hf _ (by omega)
      · rw [← d₂ hi]; exact hf _ (by omega)
    · rintro ⟨f₁, f₂⟩ i hi
      by_cases hlt : i < r₁.numV
      · rw [← Nat.zero_add i, d₁ hlt]; exact f₁ i hlt
      · have := d₂ (i := i - r₁.numV) (by omega)
        rw [show r₁.numV + (i - r₁.numV) = i by omega] at this
        rw [this]; exact f₂ _ (by omega)

theorem above_step {q : Spec.GCall K} (hq : Spec.PlainCall q) {X X₁ X₂ Y Y₁ Y₂ : Dense K} (h₁ : X₁.rows = r₁.numV)
    (h₂ : X₂.rows = r₂.numV) (hX : Spec.Above X₁ X₂ X) (hY : evG q X r = .ok Y) (hY₁ : evG q X₁ r₁ = .ok Y₁)
    (hY₂ : evG q X₂ r₂ = .ok Y₂) : Y₁.rows = r₁.numV ∧ Y₂.rows = r₂.numV ∧ Spec.Above Y₁ Y₂ Y := by
  obtain ⟨a1, a2, a3, a4, a5⟩ := part_step hr hp hr₁ hp₁ h.one hq hX.cols₁
    (fun i c hi hc => by rw [Nat.zero_add]; exact hX.upper i c (h₁ ▸ hi) hc) hY hY₁
  obtain ⟨b1, b2, b3, b4, b5⟩ := part_step hr hp hr₂ hp₂ h.two hq hX.cols₂
    (fun i c hi hc => by rw [← h₁]; exact hX.lower i c (h₂ ▸ hi) hc) hY hY₂
  refine ⟨a2, b2, ⟨by rw [a1, a2, b2, h.num], a4, b4, fun i c hi hc => ?_, fun i c hi hc => ?_⟩⟩
  · rw [a2] at hi
    have := a5 i c hi hc
    rwa [Nat.zero_add] at this
  · rw [b2] at hi
    rw [a2]
    exact b5 i c hi hc

theorem rows_above {X X₁ X₂ : Dense K} (hX : Spec.Above X₁ X₂ X) (cols : Nat) (f : List K → Nat → K) :
    Spec.Above (Spec.mapRows cols f X₁) (Spec.mapRows cols f X₂) (Spec.mapRows cols f X) := by
  refine ⟨hX.rows, rfl, rfl, fun i c hi _ => ?_, fun i c hi _ => ?_⟩
  · show f _ c = f _ c
    rw [← hX.cols₁]
    congr 1
    exact List.map_congr_left fun c hc => hX.upper i c hi (List.mem_range.1 hc)
  · show f _ c = f _ c
    rw [← hX.cols₂]
    congr 1
    exact List.map_congr_left fun c hc => hX.lower i c hi (List.mem_range.1 hc)

theorem nets : ∀ (ls : List (Spec.Layer K (Spec.GCall K))), (∀ q, .call q ∈ ls → Spec.PlainCall q) →
    ∀ {X X₁ X₂ : Dense K}, X₁.rows = r₁.numV → X₂.rows = r₂.numV → Spec.Above X₁ X₂ X →
    (∀ Y₁ Y₂, evNet evG ls X₁ r₁ = .ok Y₁ → evNet evG ls X₂ r₂ = .ok Y₂ →
      ∃ Y, evNet evG ls X r = .ok Y ∧ Spec.Above Y₁ Y₂ Y) ∧
    (∀ Y, evNet evG ls X r = .ok Y → ∃ Y₁ Y₂, evNet evG ls X₁ r₁ = .ok Y₁ ∧ evNet evG ls X₂ r₂ = .ok Y₂ ∧
      Spec.Above Y₁ Y₂ Y)
  | [], _, X, X₁, X₂, _, _, hX => by
    refine ⟨fun Y₁ Y₂ e₁ e₂ => ?_, fun Y e => ?_⟩
    · cases e₁; cases e₂; exact ⟨X, rfl, hX⟩
    · cases e; exact ⟨X₁, X₂, rfl, rfl, hX⟩
  | .rows cols f :: ls, hq, X, X₁, X₂, h₁, h₂, hX =>
    nets ls (fun q h => hq q (List.mem_cons_of_mem _ h)) (X := Spec.mapRows cols f X) (X₁ := Spec.mapRows cols f X₁)
      (X₂ := Spec.mapRows cols f X₂) h₁ h₂ (rows_above hr hp hr₁ hp₁ hr₂ hp₂ h hX cols f)
  | .call q :: ls, hq, X, X₁, X₂, h₁, h₂, hX => by
    have hq' := hq q (List.mem_cons_self ..)
    have hXr : X.rows = r.numV := by rw [hX.rows, h₁, h₂, h.num]
    have i0 := ok_iff hr hp hq' hXr
    have i1 := ok_iff hr₁ hp₁ hq' h₁
    have i2 := ok_iff hr₂ hp₂ hq' h₂
    have i3 := fine_iff hr hp hr₁ hp₁ hr₂ hp₂ h q
    refine ⟨fun Y₁ Y₂ e₁ e₂ => ?_, fun Y e => ?_⟩
    · obtain ⟨Z₁, z₁, e₁⟩ := bok e₁
      obtain ⟨Z₂, z₂, e₂⟩ := bok e₂
      obtain ⟨Z, z⟩ := i0.2 (i3.2 ⟨i1.1 ⟨Z₁, z₁⟩, i2.1 ⟨Z₂, z₂⟩⟩)
      obtain ⟨k₁, k₂, k⟩ := above_step hr hp hr₁ hp₁ hr₂ hp₂ h hq' h₁ h₂ hX z z₁ z₂
      obtain ⟨Y, y1, y2⟩ := (nets ls (fun q h => hq q (List.mem_cons_of_mem _ h)) k₁ k₂ k).1 Y₁ Y₂ e₁ e₂
      exact ⟨Y, by simp only [evNet, z, bind, Except.bind]; exact y1, y2⟩
    · obtain ⟨Z, z, e⟩ := bok e
      obtain ⟨f₁, f₂⟩ := i3.1 (i0.1 ⟨Z, z⟩)
      obtain ⟨Z₁, z₁⟩ := i1.2 f₁
      obtain ⟨Z₂, z₂⟩ := i2.2 f₂
      obtain ⟨k₁, k₂, k⟩ := above_step hr hp hr₁ hp₁ hr₂ hp₂ h hq' h₁ h₂ hX z z₁ z₂
      obtain ⟨Y₁, Y₂, y1, y2, y3⟩ := (nets ls (fun q h => hq q (List.mem_cons_of_mem _ h)) k₁ k₂ k).2 Y e
      exact ⟨Y₁, Y₂, by simp only [evNet, z₁, bind, Except.bind]; exact y1,
        by simp only [evNet, z₂, bind, Except.bind]; exact y2, y3⟩

end Side

open Side

theorem Side.parts_of {g₁ g₂ g : GSt K} (hg₁ : Built NonNeg g₁) (hg₂ : Built NonNeg g₂) (hg : Built NonNeg g) {n m : Nat}
    (hn : (ask .numV g₁).1 = .ok (.num n)) (hm : (ask .numV g₂).1 = .ok (.num m))
    (hN : (ask .numV g).1 = .ok (.num (n + m))) (h₁ : (stateDict g).extra = (stateDict g₁).extra)
    (h₂ : (stateDict g).extra = (stateDict g₂).extra)
    (hl : Spec.GraphsBeside n (Spec.listing g₁) (Spec.listing g₂) (Spec.listing g)) : Parts g₁.raw g₂.raw g.raw := by
  have e₁ := numV_eq hn
  have e₂ := numV_eq hm
  have e := numV_eq hN
  rw [listing_lst hg₁, listing_lst hg₂, listing_lst hg] at hl
  have out : ∀ {r : GRaw K}, Graph.Inv r → Pos r → ∀ i j : Nat, r.numV ≤ j →
      Spec.wt (lst r) (i : Int) (j : Int) = 0 := by
    intro r hr hp i j hj
    refine wt_eq_zero_of_not_adj fun ⟨e, he, h⟩ => ?_
    have := lst_InR hr hp e he
    rcases h with h | h <;> rw [h] at this <;> simp at this <;> omega
  refine ⟨by rw [e, e₁, e₂], ⟨by omega, h₁, fun i j hi => ?_⟩, ⟨by omega, h₂, fun i j hi => ?_⟩⟩
  · rw [Nat.zero_add, Nat.zero_add, hl i j]
    by_cases hj : j < g₁.raw.numV
    · rw [if_pos ⟨by omega, by omega⟩, if_pos ⟨by omega, hj⟩, Nat.sub_zero]
    · rw [if_neg (by omega), if_neg (by omega), if_neg (by omega)]
  · rw [hl _ j, if_neg (by omega)]
    by_cases hj : g₁.raw.numV ≤ j
    · rw [if_pos (by omega)]
      have hi' : g₁.raw.numV + i - n = i := by omega
      rw [hi', e₁]
      by_cases hj' : j < n + g₂.raw.numV
      · rw [if_pos (by omega)]
      · rw [if_neg (by omega)]
        exact out hg₂.inv.1 hg₂.pos _ _ (by omega)
    · rw [if_neg (by omega), if_neg (by omega)]

/-- C129. Two graphs put side by side in one graph (with the same setting of the extra self loops): a network made of
message passing calls and functions on the rows computes for the one graph what it computes for the two graphs
separately, and it fails on the one graph if and only if it fails on one of the two. -/
theorem C129_graph_networks {g₁ g₂ g : GSt K} (hg₁ : Built NonNeg g₁) (hg₂ : Built NonNeg g₂) (hg : Built NonNeg g)
    {n m : Nat} (hn : (ask .numV g₁).1 = .ok (.num n)) (hm : (ask .numV g₂).1 = .ok (.num m))
    (hN : (ask .numV g).1 = .ok (.num (n + m))) (h₁ : (stateDict g).extra = (stateDict g₁).extra)
    (h₂ : (stateDict g).extra = (stateDict g₂).extra)
    (hl : Spec.GraphsBeside n (Spec.listing g₁) (Spec.listing g₂) (Spec.listing g))
    (ls : List (Spec.Layer K (Spec.GCall K))) (hp : ∀ q, .call q ∈ ls → Spec.PlainCall q) {X₁ X₂ X : Dense K}
    (hX₁ : X₁.rows = n) (hX₂ : X₂.rows = m) (hX : Spec.Above X₁ X₂ X) :
    (∀ Y₁ Y₂, (Spec.net Spec.GCall.run ls X₁ g₁).1 = .ok Y₁ → (Spec.net Spec.GCall.run ls X₂ g₂).1 = .ok Y₂ →
      ∃ Y, (Spec.net Spec.GCall.run ls X g).1 = .ok Y ∧ Spec.Above Y₁ Y₂ Y) ∧
    (∀ Y, (Spec.net Spec.GCall.run ls X g).1 = .ok Y → ∃ Y₁ Y₂, (Spec.net Spec.GCall.run ls X₁ g₁).1 = .ok Y₁ ∧
      (Spec.net Spec.GCall.run ls X₂ g₂).1 = .ok Y₂ ∧ Spec.Above Y₁ Y₂ Y) := by
  have h := Side.parts_of hg₁ hg₂ hg hn hm hN h₁ h₂ hl
  rw [Edit.net_ev hg₁, Edit.net_ev hg₂, Edit.net_ev hg]
  exact nets hg.inv.1 hg.pos hg₁.inv.1 hg₁.pos hg₂.inv.1 hg₂.pos h ls hp (hX₁.trans (numV_eq hn).symm)
    (hX₂.trans (numV_eq hm).symm) hX

/-! ### The matrices -/

namespace Side

variable {r r₁ r₂ : GRaw K}

theorem Part.noLoops {o : Nat} (h : Part o r₁ r) (hr : Graph.Inv r) (hr₁ : Graph.Inv r₁) :
    Part o (noLoops r₁) (noLoops r) where
  le := h.le
  extra := rfl
  wt := fun i j hi => by
    have hi' : i < r₁.numV := hi
    have hn : (Graph.noLoops r₁).numV = r₁.numV := rfl
    rw [lst_noLoops hr, lst_noLoops hr₁, hn]
    by_cases hij : o + i = j
    · subst hij
      rw [wt_proper_self, if_pos ⟨by omega, by omega⟩, Nat.add_sub_cancel_left, wt_proper_self]
    · rw [wt_proper_of_ne _ (by exact_mod_cast hij), h.wt i j hi']
      split
      · rw [wt_proper_of_ne]
        intro h'
        have : i = j - o := by exact_mod_cast h'
        omega
      · rfl

/-- the entries of a matrix of the part -/
def Entries (o n N : Nat) (F₁ F : Nat → Nat → K) : Prop :=
  ∀ i j, i < n → j < N → F (o + i) j = if o ≤ j ∧ j < o + n then F₁ i (j - o) else 0

theorem blocks_of {n m : Nat} {F₁ F₂ F : Nat → Nat → K} {M₁ M₂ M : Sp K} (h₁ : Spec.IsMat n n F₁ M₁)
    (h₂ : Spec.IsMat m m F₂ M₂) (h : Spec.IsMat (n + m) (n + m) F M) (e₁ : Entries 0 n (n + m) F₁ F)
    (e₂ : Entries n m (n + m) F₂ F) : Spec.Blocks n m M₁ M₂ M where
  upper := fun i j hi hj => by
    have := e₁ i j hi (by omega)
    rw [Nat.zero_add, if_pos (by omega), Nat.sub_zero] at this
    rw [h.get i j (by omega) (by omega), this, h₁.get i j hi hj]
  lower := fun i j hi hj => by
    have := e₂ i (n + j) hi (by omega)
    rw [if_pos (by omega), Nat.add_sub_cancel_left] at this
    rw [h.get _ _ (by omega) (by omega), this, h₂.get i j hi hj]
  right := fun i j hi hj => by
    have := e₁ i (n + j) hi (by omega)
    rw [Nat.zero_add, if_neg (by omega)] at this
    rw [h.get _ _ (by omega) (by omega), this]
  left := fun i j hi hj => by
    have := e₂ i j hi (by omega)
    rw [if_neg (by omega)] at this
    rw [h.get _ _ (by omega) (by omega), this]

section entries
variable {o : Nat} (h : Part o r₁ r) (hr : Graph.Inv r) (hp : Pos r) (hr₁ : Graph.Inv r₁) (hp₁ : Pos r₁)
include h hr hp hr₁ hp₁

theorem entA (N : Nat) : Entries o r₁.numV N (fun i j => Spec.wt (lst r₁) (i : Int) (j : Int))
    (fun i j => Spec.wt (lst r) (i : Int) (j : Int)) := fun i j hi _ => h.wt i j hi

theorem entDiag (N : Nat) (f : K → K) : Entries o r₁.numV N (fun i j => if i = j then f (Graph.degs r₁ i) else 0)
    (fun i j => if i = j then f (Graph.degs r i) else 0) := fun i j hi _ => by
  simp only [h.degs hr hp hr₁ hp₁ hi]
  by_cases hj : o + i = j
  · subst hj
    rw [if_pos rfl, if_pos (by omega), if_pos (by omega)]
  · rw [if_neg hj]
    split
    · rw [if_neg (by omega)]
    · rfl

theorem entL (N : Nat) : Entries o r₁.numV N
    (fun i j => (if i = j then Spec.deg (Spec.proper (lst r₁)) (i : Int) else 0) - Spec.wt (Spec.proper (lst r₁)) (i : Int) (j : Int))
    (fun i j => (if i = j then Spec.deg (Spec.proper (lst r)) (i : Int) else 0) -
      Spec.wt (Spec.proper (lst r)) (i : Int) (j : Int)) := fun i j hi hj => by
  have k := h.noLoops hr hr₁
  have a := entA k hr.noLoops hp.noLoops hr₁.noLoops hp₁.noLoops N i j hi hj
  have b := entDiag k hr.noLoops hp.noLoops hr₁.noLoops hp₁.noLoops N id i j hi hj
  simp only [Graph.degs, lst_noLoops hr, lst_noLoops hr₁, id, show (Graph.noLoops r₁).numV = r₁.numV from rfl] at a b
  simp only [a, b]
  split
  · rfl
  · rw [sub_zero]

theorem entLrw (N : Nat) : Entries o r₁.numV N
    (fun i j => (if i = j then 1 else 0) - (Spec.deg (Spec.proper (lst r₁)) (i : Int))⁻¹ *
      Spec.wt (Spec.proper (lst r₁)) (i : Int) (j : Int))
    (fun i j => (if i = j then 1 else 0) - (Spec.deg (Spec.proper (lst r)) (i : Int))⁻¹ *
      Spec.wt (Spec.proper (lst r)) (i : Int) (j : Int)) := fun i j hi hj => by
  have k := h.noLoops hr hr₁
  have a := entA k hr.noLoops hp.noLoops hr₁.noLoops hp₁.noLoops N i j hi hj
  have d := k.degs hr.noLoops hp.noLoops hr₁.noLoops hp₁.noLoops hi
  have b := entDiag h hr hp hr₁ hp₁ N (fun _ => 1) i j hi hj
  simp only [Graph.degs, lst_noLoops hr, lst_noLoops hr₁, show (Graph.noLoops r₁).numV = r₁.numV from rfl] at a d
  simp only [a, d]
  simp only at b
  rw [b]
  split
  · rfl
  · rw [mul_zero, sub_zero]

theorem entGCN : Entries o r₁.numV r.numV
    (fun i j => negHalf (Graph.degs (Graph.withExtra r₁) i) *
      Spec.wt (lst (Graph.withExtra r₁)) (i : Int) (j : Int) * negHalf (Graph.degs (Graph.withExtra r₁) j))
    (fun i j => negHalf (Graph.degs (Graph.withExtra r) i) *
      Spec.wt (lst (Graph.withExtra r)) (i : Int) (j : Int) * negHalf (Graph.degs (Graph.withExtra r) j)) := fun i j hi hj => by
  have hx := h.withExtra hr hr₁
  have hw : Spec.wt (lst (Graph.withExtra r)) ((o + i : Nat) : Int) (j : Int) = _ := hx.wt i j hi
  have hn : (Graph.withExtra r₁).numV = r₁.numV := rfl
  simp only [hw, hx.degs hr.withExtra hp.withExtra hr₁.withExtra hp₁.withExtra hi, hn]
  by_cases hj' : o ≤ j ∧ j < o + r₁.numV
  · rw [if_pos hj', if_pos hj',
      ← hx.degs hr.withExtra hp.withExtra hr₁.withExtra hp₁.withExtra (i := j - o) (by rw [hn]; omega),
      show o + (j - o) = j by omega]
  · rw [if_neg hj', if_neg hj', mul_zero, zero_mul]

end entries

theorem isA (hr : Graph.Inv r) (hp : Pos r) :
    ∃ A, evA r = .ok A ∧ Spec.IsMat r.numV r.numV (fun i j => Spec.wt (lst r) (i : Int) (j : Int)) A := by
  obtain ⟨A, hA, a⟩ := evA_spec hr hp
  exact ⟨A, hA, a.rows, a.cols, a.wf, fun i j _ _ => a.get i j⟩

theorem isDiag (f : Nat → K) (n : Nat) :
    Spec.IsMat n n (fun i j => if i = j then f i else 0) (Sp.diag ((List.range n).map f)) :=
  ⟨by simp [Sp.diag_rows], by simp [Sp.diag_cols], Sp.diag_WF _, fun i j hi _ => by
    rw [Sp.diag_range_get]; simp [hi]⟩

end Side

/-- C129. Two graphs put side by side in one graph: each of the matrices `A`, `D_v`, `D_v_neg_1`, `L` and `L_rw` of the
one graph has the matrices of the two graphs on the diagonal and zeros elsewhere; so has `L_GCN`, which exists if and only
if it exists for both graphs. -/
theorem C129_graph_matrices {g₁ g₂ g : GSt K} (hg₁ : Built NonNeg g₁) (hg₂ : Built NonNeg g₂) (hg : Built NonNeg g)
    {n m : Nat} (hn : (ask .numV g₁).1 = .ok (.num n)) (hm : (ask .numV g₂).1 = .ok (.num m))
    (hN : (ask .numV g).1 = .ok (.num (n + m))) (h₁ : (stateDict g).extra = (stateDict g₁).extra)
    (h₂ : (stateDict g).extra = (stateDict g₂).extra)
    (hl : Spec.GraphsBeside n (Spec.listing g₁) (Spec.listing g₂) (Spec.listing g)) :
    (∀ q ∈ [GQuery.A, .Dv, .DvN1, .L, .Lrw], ∃ M₁ M₂ M, (ask q g₁).1 = .ok (.mat M₁) ∧ (ask q g₂).1 = .ok (.mat M₂) ∧
      (ask q g).1 = .ok (.mat M) ∧ Spec.Blocks n m M₁ M₂ M) ∧
    ((∃ M, (ask .LGCN g).1 = .ok (.mat M)) ↔
      (∃ M₁, (ask .LGCN g₁).1 = .ok (.mat M₁)) ∧ ∃ M₂, (ask .LGCN g₂).1 = .ok (.mat M₂)) ∧
    ∀ M₁ M₂ M, (ask .LGCN g₁).1 = .ok (.mat M₁) → (ask .LGCN g₂).1 = .ok (.mat M₂) → (ask .LGCN g).1 = .ok (.mat M) →
      Spec.Blocks n m M₁ M₂ M := by
  have h := Side.parts_of hg₁ hg₂ hg hn hm hN h₁ h₂ hl
  have i₁ := hg₁.inv.1
  have i₂ := hg₂.inv.1
  have i := hg.inv.1
  have p₁ := hg₁.pos
  have p₂ := hg₂.pos
  have p := hg.pos
  simp only [ask_eq hg₁, ask_eq hg₂, ask_eq hg]
  obtain rfl := numV_eq hn
  obtain rfl := numV_eq hm
  have hnum := h.num
  refine ⟨fun q hq => ?_, ?_, fun M₁ M₂ M e₁ e₂ e => ?_⟩
  · fin_cases hq
    · obtain ⟨A, hA, a⟩ := isA i p
      obtain ⟨A₁, hA₁, a₁⟩ := isA i₁ p₁
      obtain ⟨A₂, hA₂, a₂⟩ := isA i₂ p₂
      refine ⟨A₁, A₂, A, by simp only [evAsk, hA₁]; rfl, by simp only [evAsk, hA₂]; rfl, by simp only [evAsk, hA]; rfl, ?_⟩
      rw [hnum] at a
      exact blocks_of a₁ a₂ a (entA h.one i p i₁ p₁ _) (entA h.two i p i₂ p₂ _)
    · refine ⟨_, _, _, by simp only [evAsk, evDv_spec i₁ p₁]; rfl, by simp only [evAsk, evDv_spec i₂ p₂]; rfl,
        by simp only [evAsk, evDv_spec i p]; rfl, ?_⟩
      have d := isDiag (Graph.degs g.raw) g.raw.numV
      rw [hnum] at d ⊢
      exact blocks_of (isDiag _ _) (isDiag _ _) d (entDiag h.one i p i₁ p₁ _ id) (entDiag h.two i p i₂ p₂ _ id)
    · refine ⟨_, _, _, by simp only [evAsk, evDvN1_spec i₁ p₁]; rfl, by simp only [evAsk, evDvN1_spec i₂ p₂]; rfl,
        by simp only [evAsk, evDvN1_spec i p]; rfl, ?_⟩
      have d := isDiag (fun i => (Graph.degs g.raw i)⁻¹) g.raw.numV
      rw [hnum] at d ⊢
      exact blocks_of (isDiag _ _) (isDiag _ _) d (entDiag h.one i p i₁ p₁ _ fun x => x⁻¹)
        (entDiag h.two i p i₂ p₂ _ fun x => x⁻¹)
    · obtain ⟨A, hA, a⟩ := evL_spec i p
      obtain ⟨A₁, hA₁, a₁⟩ := evL_spec i₁ p₁
      obtain ⟨A₂, hA₂, a₂⟩ := evL_spec i₂ p₂
      refine ⟨A₁, A₂, A, by simp only [evAsk, hA₁]; rfl, by simp only [evAsk, hA₂]; rfl, by simp only [evAsk, hA]; rfl, ?_⟩
      rw [hnum] at a
      exact blocks_of a₁ a₂ a (entL h.one i p i₁ p₁ _) (entL h.two i p i₂ p₂ _)
    · obtain ⟨A, hA, a⟩ := evLrw_spec i p
      obtain ⟨A₁, hA₁, a₁⟩ := evLrw_spec i₁ p₁
      obtain ⟨A₂, hA₂, a₂⟩ := evLrw_spec i₂ p₂
      refine ⟨A₁, A₂, A, by simp only [evAsk, hA₁]; rfl, by simp only [evAsk, hA₂]; rfl, by simp only [evAsk, hA]; rfl, ?_⟩
      rw [hnum] at a
      exact blocks_of a₁ a₂ a (entLrw h.one i p i₁ p₁ _) (entLrw h.two i p i₂ p₂ _)
  · have f := fine_iff i p i₁ p₁ i₂ p₂ h (.gcn 0 fun _ => true)
    have x : ∀ r : GRaw K, (∃ M, evAsk .LGCN r = .ok (.mat M)) ↔ ∃ L, evLGCN r = .ok L := by
      intro r
      simp only [evAsk]
      rcases evLGCN r with e | L
      · constructor <;> rintro ⟨M, hM⟩ <;> cases hM
      · exact ⟨fun _ => ⟨L, rfl⟩, fun _ => ⟨L, rfl⟩⟩
    rw [x, x, x, gcn_iff i p, gcn_iff i₁ p₁, gcn_iff i₂ p₂]
    exact f
  · have x : ∀ {r : GRaw K} {M : Sp K}, evAsk .LGCN r = .ok (.mat M) → evLGCN r = .ok M := by
      intro r M hM
      simp only [evAsk] at hM
      rcases hL : evLGCN r with e | L
      · rw [hL] at hM; cases hM
      · rw [hL] at hM; cases hM; rfl
    have a := gcn_mat i p (x e)
    have b₁ := entGCN h.one i p i₁ p₁
    have b₂ := entGCN h.two i p i₂ p₂
    rw [hnum] at a b₁ b₂
    exact blocks_of (gcn_mat i₁ p₁ (x e₁)) (gcn_mat i₂ p₂ (x e₂)) a b₁ b₂

/-! ### Construction -/

namespace Side

/-- two weight maps in one -/
def glue (n : Nat) (m₁ m₂ : Spec.WMap K) : Spec.WMap K := fun x y =>
  if x < n ∧ y < n then m₁ x y else if (n : Int) ≤ x ∧ (n : Int) ≤ y then m₂ (x - n) (y - n) else none

theorem glue_put₁ {n : Nat} (m₁ m₂ : Spec.WMap K) (op : MergeOp) {a b : Int} (ha : a < n) (hb : b < n) (w : K) :
    Spec.put (glue n m₁ m₂) op a b w = glue n (Spec.put m₁ op a b w) m₂ := by
  funext x y
  unfold Spec.put glue
  simp only [ha, hb, and_self, if_true]
  by_cases hxy : (x = a ∧ y = b) ∨ (x = b ∧ y = a)
  · have : x < n ∧ y < n := by omega
    rw [if_pos hxy, if_pos this, if_pos hxy]
  · simp only [if_neg hxy]

theorem glue_put₂ {n : Nat} (m₁ m₂ : Spec.WMap K) (op : MergeOp) {a b : Int} (ha : 0 ≤ a) (hb : 0 ≤ b) (w : K) :
    Spec.put (glue n m₁ m₂) op (a + n) (b + n) w = glue n m₁ (Spec.put m₂ op a b w) := by
  funext x y
  unfold Spec.put glue
  have h1 : ¬ (a + n < n ∧ b + n < (n : Int)) := by omega
  have h2 : (n : Int) ≤ a + n ∧ (n : Int) ≤ b + n := by omega
  rw [if_neg h1, if_pos h2, Int.add_sub_cancel, Int.add_sub_cancel]
  by_cases hxy : (x = a + n ∧ y = b + n) ∨ (x = b + n ∧ y = a + n)
  · have h3 : ¬ (x < n ∧ y < n) := by omega
    have h4 : (n : Int) ≤ x ∧ (n : Int) ≤ y := by omega
    have h5 : (x - n = a ∧ y - n = b) ∨ (x - n = b ∧ y - n = a) := by omega
    simp only [if_pos hxy, if_neg h3, if_pos h4, if_pos h5]
  · have h5 : ¬ ((x - n = a ∧ y - n = b) ∨ (x - n = b ∧ y - n = a)) := by omega
    simp only [if_neg hxy, if_neg h5]

theorem glue_puts₁ {n : Nat} (op : MergeOp) (m₂ : Spec.WMap K) : ∀ (l : List (Int × Int × K)) (m₁ : Spec.WMap K),
    (∀ e ∈ l, e.1 < n ∧ e.2.1 < n) →
    l.foldl (fun m e => Spec.put m op e.1 e.2.1 e.2.2) (glue n m₁ m₂) =
      glue n (l.foldl (fun m e => Spec.put m op e.1 e.2.1 e.2.2) m₁) m₂
  | [], _, _ => rfl
  | e :: l, m₁, h => by
    have := h e (List.mem_cons_self ..)
    rw [List.foldl_cons, glue_put₁ _ _ _ this.1 this.2, glue_puts₁ op m₂ l _ fun e he => h e (List.mem_cons_of_mem _ he)]
    rfl

theorem glue_puts₂ {n : Nat} (op : MergeOp) (m₁ : Spec.WMap K) : ∀ (l : List (Int × Int × K)) (m₂ : Spec.WMap K),
    (∀ e ∈ l, 0 ≤ e.1 ∧ 0 ≤ e.2.1) →
    (l.map fun e => (e.1 + (n : Int), e.2.1 + (n : Int), e.2.2)).foldl (fun m e => Spec.put m op e.1 e.2.1 e.2.2) (glue n m₁ m₂) =
      glue n m₁ (l.foldl (fun m e => Spec.put m op e.1 e.2.1 e.2.2) m₂)
  | [], _, _ => rfl
  | e :: l, m₂, h => by
    have := h e (List.mem_cons_self ..)
    rw [List.map_cons, List.foldl_cons, glue_put₂ _ _ _ this.1 this.2,
      glue_puts₂ op m₁ l _ fun e he => h e (List.mem_cons_of_mem _ he)]
    rfl

end Side

/-- C129. Building one graph from the edge lists of two, the vertices of the second counted from `n`, puts the two
graphs side by side. -/
theorem C129_graph_built {n m : Nat} (hn : 0 < n) (hm : 0 < m) (es₁ es₂ : List (Int × Int)) (ws₁ ws₂ : List K)
    (hw₁ : ws₁.length = es₁.length) (hw₂ : ws₂.length = es₂.length) (h₁ : Spec.EndsExist n n es₁)
    (h₂ : Spec.EndsExist m m es₂) (extra : Bool) {op : MergeOp} (hop : op ≠ .other) :
    ∃ g₁ g₂ g, Graph.new n (some (.many es₁ (.list ws₁))) extra op = .ok g₁ ∧
      Graph.new m (some (.many es₂ (.list ws₂))) extra op = .ok g₂ ∧
      Graph.new (n + m : Nat) (some (.many (es₁ ++ es₂.map fun e => (e.1 + (n : Int), e.2 + (n : Int)))
        (.list (ws₁ ++ ws₂)))) extra op = .ok g ∧
      (ask .numV g).1 = .ok (.num (n + m)) ∧ (stateDict g).extra = (stateDict g₁).extra ∧
      (stateDict g).extra = (stateDict g₂).extra ∧
      Spec.GraphsBeside n (Spec.listing g₁) (Spec.listing g₂) (Spec.listing g) := by
  have hnn : ∀ {k : Nat} {es : List (Int × Int)}, Spec.EndsExist k k es → Spec.EndsNonneg es := fun h e he =>
    ⟨(h e he).1, (h e he).2.2.1⟩
  have h₃ : Spec.EndsExist (n + m) (n + m) (es₁ ++ es₂.map fun e => (e.1 + (n : Int), e.2 + (n : Int))) := by
    intro e he
    rcases List.mem_append.1 he with he | he
    · have := h₁ e he; push_cast; omega
    · obtain ⟨e', he', rfl⟩ := List.mem_map.1 he
      have := h₂ e' he'; push_cast; omega
  obtain ⟨g₁, e₁⟩ := (C118_graph_new_partial (K := K) n (.many es₁ (.list ws₁)) extra op hop (by simp [Spec.weighted])
    (hnn h₁)).1 (by omega) h₁
  obtain ⟨g₂, e₂⟩ := (C118_graph_new_partial (K := K) m (.many es₂ (.list ws₂)) extra op hop (by simp [Spec.weighted])
    (hnn h₂)).1 (by omega) h₂
  obtain ⟨g, e⟩ := (C118_graph_new_partial (K := K) (n + m : Nat) (.many (es₁ ++ es₂.map fun e => (e.1 + (n : Int), e.2 + (n : Int)))
        (.list (ws₁ ++ ws₂))) extra op hop (by simp [Spec.weighted])
    (hnn h₃)).1 (by omega) h₃
  obtain ⟨a₁, b₁, -⟩ := absS_new e₁
  obtain ⟨a₂, b₂, -⟩ := absS_new e₂
  obtain ⟨a, b, -⟩ := absS_new e
  rw [Int.toNat_natCast] at a₁ b₁ a₂ b₂ a b
  have x₁ : g₁.raw.extra = extra := congrArg Spec.GState.extra a₁
  have x₂ : g₂.raw.extra = extra := congrArg Spec.GState.extra a₂
  have x : g.raw.extra = extra := congrArg Spec.GState.extra a
  have bu₁ : Built AnyArg g₁ := .new e₁ fun _ _ => trivial
  have bu₂ : Built AnyArg g₂ := .new e₂ fun _ _ => trivial
  have bu : Built AnyArg g := .new e fun _ _ => trivial
  have c₁ : absR g₁.raw = _ := congrArg Spec.GState.map a₁
  have c₂ : absR g₂.raw = _ := congrArg Spec.GState.map a₂
  have c : absR g.raw = glue n (absR g₁.raw) (absR g₂.raw) := by
    rw [c₁, c₂]
    refine (congrArg Spec.GState.map a).trans ?_
    have y₁ : ∀ e ∈ es₁, e.1 < (n : Int) ∧ e.2 < (n : Int) := fun e he => ⟨(h₁ e he).2.1, (h₁ e he).2.2.2⟩
    have y₂ : ∀ e ∈ es₂, e.1 < (m : Int) ∧ e.2 < (m : Int) := fun e he => ⟨(h₂ e he).2.1, (h₂ e he).2.2.2⟩
    have y₃ : ∀ e ∈ es₁ ++ es₂.map fun e => (e.1 + (n : Int), e.2 + (n : Int)),
        e.1 < ((n + m : Nat) : Int) ∧ e.2 < ((n + m : Nat) : Int) := fun e he => ⟨(h₃ e he).2.1, (h₃ e he).2.2.2⟩
    have w : ∀ (k : Nat) (es : List (Int × Int)) (ws : List K), (∀ e ∈ es, e.1 < (k : Int) ∧ e.2 < (k : Int)) →
        (Spec.new k (some (.many es (.list ws))) extra op).map = ((es.zip ws).map fun e => (e.1.1, e.1.2, e.2)).foldl
          (fun m e => Spec.put m op e.1 e.2.1 e.2.2) fun _ _ => none := fun k es ws h => if_pos ⟨h, hop⟩
    rw [w _ _ _ y₁, w _ _ _ y₂, w _ _ _ y₃, List.zip_append (by omega), List.map_append, List.foldl_append]
    have z : (fun _ _ => none : Spec.WMap K) = glue n (fun _ _ => none) (fun _ _ => none) := by
      funext x y; unfold glue; split <;> simp
    rw [show (((es₂.map fun e => (e.1 + (n : Int), e.2 + (n : Int))).zip ws₂).map fun e => (e.1.1, e.1.2, e.2)) =
      ((es₂.zip ws₂).map fun e => (e.1.1, e.1.2, e.2)).map fun e => (e.1 + (n : Int), e.2.1 + (n : Int), e.2.2) by
        rw [List.zip_map_left, List.map_map, List.map_map]; rfl]
    conv_lhs => rw [z]
    rw [glue_puts₁, glue_puts₂]
    · intro e he
      obtain ⟨e', he', rfl⟩ := List.mem_map.1 he
      have := h₂ _ (List.of_mem_zip he').1
      exact ⟨this.1, this.2.2.1⟩
    · intro e he
      obtain ⟨e', he', rfl⟩ := List.mem_map.1 he
      exact y₁ _ (List.of_mem_zip he').1
  refine ⟨g₁, g₂, g, e₁, e₂, e, by rw [ask_eq bu]; simp only [evAsk, b], x.trans x₁.symm, x.trans x₂.symm, fun i j => ?_⟩
  rw [listing_lst bu₁, listing_lst bu₂, listing_lst bu, wt_absR bu.inv.1, wt_absR bu₁.inv.1, wt_absR bu₂.inv.1, c, b, b₁, b₂,
    x, x₁, x₂]
  unfold glue
  by_cases hij : i < n ∧ j < n
  · rw [if_pos (by omega), if_pos hij]
    congr 1
    have : (i = j ∧ i < n + m ∧ extra = true) ↔ (i = j ∧ i < n ∧ extra = true) := by
      constructor <;> rintro ⟨u, v, w⟩ <;> exact ⟨u, by omega, w⟩
    simp only [this]
  · rw [if_neg (by omega), if_neg hij]
    by_cases hij' : n ≤ i ∧ n ≤ j
    · rw [if_pos (by omega), if_pos hij']
      have : (i = j ∧ i < n + m ∧ extra = true) ↔ (i - n = j - n ∧ i - n < m ∧ extra = true) := by
        constructor <;> rintro ⟨u, v, w⟩ <;> exact ⟨by omega, by omega, w⟩
      simp only [this]
      rw [show ((i : Int) - n) = ((i - n : Nat) : Int) by omega, show ((j : Int) - n) = ((j - n : Nat) : Int) by omega]
    · rw [if_neg (by omega), if_neg hij', if_neg (by omega)]
      simp

/-- the graph `exG` next to itself -/
theorem exSide : ∃ g : GSt ℝ, Built NonNeg g ∧ (ask .numV g).1 = .ok (.num (3 + 3)) ∧
    (stateDict g).extra = (stateDict exG).extra ∧ Spec.GraphsBeside 3 (Spec.listing exG) (Spec.listing exG) (Spec.listing g) := by
  have ends : Spec.EndsExist 3 3 [(1, 0), (1, 2), (2, 2)] := by
    intro e he
    simp only [List.mem_cons, List.not_mem_nil, or_false] at he
    rcases he with rfl | rfl | rfl <;> simp
  obtain ⟨g₁, g₂, g, e₁, e₂, e, a, b, _, l⟩ := C129_graph_built (K := ℝ) (n := 3) (m := 3) (by omega) (by omega)
    [(1, 0), (1, 2), (2, 2)] [(1, 0), (1, 2), (2, 2)] [2, 3, 7] [2, 3, 7] rfl rfl ends ends false (op := .sum) (by simp)
  rw [show ((3 : Nat) : Int) = 3 from rfl, exG_new] at e₁ e₂
  cases e₁; cases e₂
  refine ⟨g, .new e fun x hx => ?_, a, b, l⟩
  cases hx
  intro p hp
  simp only [List.map_cons, List.map_nil, List.cons_append, List.nil_append, List.mem_cons, List.not_mem_nil, or_false] at hp
  rcases hp with rfl | rfl | rfl | rfl | rfl | rfl <;> simp

example : Built NonNeg exG ∧ (ask .numV exG).1 = .ok (.num 3) := ⟨exG_nonneg, rfl⟩

end Props
end DHG
