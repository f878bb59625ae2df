import Verif.Models
import Verif.Props.NnGraph

/-!
# Properties of the building blocks of the models (C94): `MLP` and `MultiHeadWrapper`
-/

set_option linter.unusedSectionVars false
set_option autoImplicit false

namespace DHG

namespace Spec
variable {K : Type} [Field K] [LinearOrder K]

/-- In evaluation mode dropout does nothing and batch normalisation acts on each entry, with parameters
depending on the block and the column only. -/
structure MlpEval (P : Nn.MlpPar K) (φ : Nat → Nat → K → K) : Prop where
  drop : ∀ k X, P.drop k X = X
  bn : ∀ k X, P.bn k X = .ok { X with at_ := fun i c => φ k c (X.at_ i c) }

/-- entry `o` of the `k`-th linear map applied to the vector `x` of length `i` -/
def mlpLinear (P : Nn.MlpPar K) (k i : Nat) (x : Nat → K) (o : Nat) : K :=
  (∑ c ∈ Finset.range i, x c * P.weight k o c) + P.bias k o

/-- the same after activation and normalisation (if any) -/
def mlpHidden (P : Nn.MlpPar K) (φ : Nat → Nat → K → K) (useBn : Bool) (k i : Nat) (x : Nat → K) (o : Nat) : K :=
  if useBn then φ k o (P.act (mlpLinear P k i x o)) else P.act (mlpLinear P k i x o)

/-- A multi-layer perceptron applied to one vector: a linear map followed by the activation between any
two consecutive widths, the last one without activation if `isLast`. -/
def mlpVec (P : Nn.MlpPar K) (φ : Nat → Nat → K → K) (useBn isLast : Bool) : Nat → List Nat → (Nat → K) → Nat → K
  | k, [i, _], x => if isLast then mlpLinear P k i x else mlpHidden P φ useBn k i x
  | k, i :: o :: w :: ws, x => mlpVec P φ useBn isLast (k + 1) (o :: w :: ws) (mlpHidden P φ useBn k i x)
  | _, _, x => x

end Spec

namespace Props

open Finset Nn

variable {K : Type} [Field K] [LinearOrder K]

/-- the modules of an `MLP`, block by block -/
def mlpRec (useBn isLast : Bool) : Nat → List Nat → List MlpItem
  | k, [i, o] => if isLast then [.linear k i o] else mlpBlock useBn k i o
  | k, i :: o :: w :: ws => mlpBlock useBn k i o ++ mlpRec useBn isLast (k + 1) (o :: w :: ws)
  | _, _ => []

theorem mlpRec_eq (useBn isLast : Bool) (k : Nat) (i o : Nat) (ws : List Nat) :
    mlpRec useBn isLast k (i :: o :: ws) =
      ((List.range' 1 ws.length).flatMap fun idx =>
        mlpBlock useBn (k + (idx - 1)) ((i :: o :: ws).getD (idx - 1) 0) ((i :: o :: ws).getD idx 0)) ++
      (if isLast then
          [.linear (k + ws.length) ((i :: o :: ws).getD ws.length 0) ((i :: o :: ws).getD (ws.length + 1) 0)]
        else mlpBlock useBn (k + ws.length) ((i :: o :: ws).getD ws.length 0) ((i :: o :: ws).getD (ws.length + 1) 0)) := by
  induction ws generalizing k i o with
  | nil => simp [mlpRec]
  | cons w ws ih =>
    rw [mlpRec, ih]
    simp only [List.length_cons]
    rw [List.range'_succ, List.flatMap_cons, List.append_assoc]
    have e : List.range' (1 + 1) ws.length = (List.range' 1 ws.length).map (1 + ·) := by
      rw [List.map_add_range']
    rw [e, List.flatMap_map]
    have h1 : ∀ idx ∈ List.range' 1 ws.length,
        mlpBlock useBn (k + 1 + (idx - 1)) ((o :: w :: ws).getD (idx - 1) 0) ((o :: w :: ws).getD idx 0) =
        mlpBlock useBn (k + (1 + idx - 1)) ((i :: o :: w :: ws).getD (1 + idx - 1) 0)
          ((i :: o :: w :: ws).getD (1 + idx) 0) := by
      intro idx hidx
      obtain ⟨m, rfl⟩ : ∃ m, idx = m + 1 := ⟨idx - 1, by
        rw [List.mem_range'_1] at hidx; omega⟩
      rw [show 1 + (m + 1) = (m + 1) + 1 by omega]
      simp only [List.getD_cons_succ, Nat.add_sub_cancel]
      congr 1
      omega
    rw [show k + 1 + ws.length = k + (ws.length + 1) by omega]
    simp only [List.getD_cons_succ]
    congr 2
    exact List.flatMap_congr h1

theorem mlpItems_eq (useBn isLast : Bool) (i o : Nat) (ws : List Nat) :
    mlpItems useBn isLast (i :: o :: ws) = .ok (mlpRec useBn isLast 0 (i :: o :: ws)) := by
  rw [mlpRec_eq]
  unfold mlpItems
  rw [if_neg (by simp)]
  simp

theorem run_append (P : MlpPar K) (a b : List MlpItem) (X : Dense K) :
    P.run (a ++ b) X = (P.run a X).bind (P.run b) := by
  induction a generalizing X with
  | nil => rfl
  | cons it a ih =>
    simp only [List.cons_append, MlpPar.run, bind, Except.bind]
    cases P.item it X with
    | error e => rfl
    | ok Y => exact ih Y

theorem linear_run (P : MlpPar K) (k i o : Nat) {X : Dense K} (h : X.cols = i) :
    ∃ Y, P.item (.linear k i o) X = .ok Y ∧ Y.rows = X.rows ∧ Y.cols = o ∧
      ∀ r c, Y.at_ r c = Spec.mlpLinear P k i (X.at_ r) c :=
  ⟨_, if_pos h, rfl, rfl, fun r c => by simp only [Spec.mlpLinear, h]⟩

theorem block_run {P : MlpPar K} {φ : Nat → Nat → K → K} (hP : Spec.MlpEval P φ) (useBn : Bool)
    (k i o : Nat) {X : Dense K} (h : X.cols = i) :
    ∃ Y, P.run (mlpBlock useBn k i o) X = .ok Y ∧ Y.rows = X.rows ∧ Y.cols = o ∧
      ∀ r c, Y.at_ r c = Spec.mlpHidden P φ useBn k i (X.at_ r) c := by
  obtain ⟨Y, hY, y1, y2, y3⟩ := linear_run P k i o h
  cases useBn with
  | true =>
    refine ⟨{ rows := Y.rows, cols := Y.cols, at_ := fun i c => φ k c (P.act (Y.at_ i c)) }, by
      simp only [mlpBlock, if_true, List.cons_append, List.nil_append, MlpPar.run, hY, bind, Except.bind]
      simp only [MlpPar.item, hP.bn, hP.drop]; rfl, y1, y2, fun r c => ?_⟩
    simp only [y3, Spec.mlpHidden, if_true]
  | false =>
    refine ⟨mapD P.act Y, by
      simp only [mlpBlock, List.cons_append, List.nil_append, MlpPar.run, hY, bind, Except.bind]
      simp only [MlpPar.item, hP.drop, Bool.false_eq_true, if_false, List.nil_append, MlpPar.run, bind, Except.bind], y1, y2, fun r c => ?_⟩
    simp only [mapD, y3, Spec.mlpHidden, Bool.false_eq_true, if_false]

theorem mlpRec_run {P : MlpPar K} {φ : Nat → Nat → K → K} (hP : Spec.MlpEval P φ) (useBn isLast : Bool)
    (ws : List Nat) (k i o : Nat) {X : Dense K} (h : X.cols = i) :
    ∃ Y, P.run (mlpRec useBn isLast k (i :: o :: ws)) X = .ok Y ∧ Y.rows = X.rows ∧
      Y.cols = (o :: ws).getLast (by simp) ∧
      ∀ r c, Y.at_ r c = Spec.mlpVec P φ useBn isLast k (i :: o :: ws) (X.at_ r) c := by
  induction ws generalizing k i o X with
  | nil =>
    cases isLast with
    | true =>
      obtain ⟨Y, hY, y1, y2, y3⟩ := linear_run P k i o h
      exact ⟨Y, by simp [mlpRec, MlpPar.run, hY, bind, Except.bind], y1, y2, y3⟩
    | false =>
      obtain ⟨Y, hY, y1, y2, y3⟩ := block_run hP useBn k i o h
      exact ⟨Y, hY, y1, y2, y3⟩
  | cons w ws ih =>
    obtain ⟨Y, hY, y1, y2, y3⟩ := block_run hP useBn k i o h
    obtain ⟨Z, hZ, z1, z2, z3⟩ := ih (k + 1) o w y2
    refine ⟨Z, by rw [mlpRec, run_append, hY]; exact hZ, z1.trans y1, by rw [z2]; simp, fun r c => ?_⟩
    rw [z3, Spec.mlpVec]
    congr 1
    funext c
    exact y3 r c

/-- C94. An `MLP` over at least two channels, in evaluation mode, applies the same multi-layer perceptron
to each row of its input, i.e. the outputs of one row do not depend on the others. -/
theorem C94_mlp_rowwise {P : MlpPar K} {φ : Nat → Nat → K → K} (hP : Spec.MlpEval P φ) (useBn isLast : Bool)
    (channels : List Nat) (h2 : 2 ≤ channels.length) (X : Dense K) (hX : some X.cols = channels.head?) :
    ∃ Y, mlp P useBn isLast channels X = .ok Y ∧ Y.rows = X.rows ∧ some Y.cols = channels.getLast? ∧
      ∀ r c, Y.at_ r c = Spec.mlpVec P φ useBn isLast 0 channels (X.at_ r) c := by
  obtain ⟨i, o, ws, rfl⟩ : ∃ i o ws, channels = i :: o :: ws := by
    match channels, h2 with
    | i :: o :: ws, _ => exact ⟨i, o, ws, rfl⟩
  obtain ⟨Y, hY, y1, y2, y3⟩ := mlpRec_run hP useBn isLast ws 0 i o (X := X) (by simpa using hX)
  refine ⟨Y, ?_, y1, ?_, y3⟩
  · unfold mlp; rw [mlpItems_eq]; exact hY
  · rw [y2, List.getLast?_cons_cons, List.getLast?_eq_some_getLast]

/-- C94. Fewer than two channels are refused, and so is an input with another number of columns than the
first channel. -/
theorem C94_mlp_refuses (P : MlpPar K) (useBn isLast : Bool) (channels : List Nat) (X : Dense K) :
    (channels.length < 2 → mlp P useBn isLast channels X = .error .assertion) ∧
    (2 ≤ channels.length → some X.cols ≠ channels.head? → mlp P useBn isLast channels X = .error .runtime) := by
  refine ⟨fun h => ?_, fun h2 hX => ?_⟩
  · unfold mlp mlpItems; rw [if_pos h]; rfl
  · obtain ⟨i, o, ws, rfl⟩ : ∃ i o ws, channels = i :: o :: ws := by
      match channels, h2 with
      | i :: o :: ws, _ => exact ⟨i, o, ws, rfl⟩
    have hne : X.cols ≠ i := by simpa using hX
    unfold mlp
    rw [mlpItems_eq]
    have hit : P.item (.linear 0 i o) X = .error .runtime := if_neg hne
    obtain ⟨rest, hr⟩ : ∃ rest, mlpRec useBn isLast 0 (i :: o :: ws) = .linear 0 i o :: rest := by
      cases ws with
      | nil => cases isLast <;> exact ⟨_, rfl⟩
      | cons w ws => exact ⟨_, rfl⟩
    rw [hr]
    simp only [bind, Except.bind, MlpPar.run, hit]

example : ∃ (P : MlpPar ℝ) (φ : Nat → Nat → ℝ → ℝ), Spec.MlpEval P φ ∧ 2 ≤ [3, 4, 2].length ∧
    ∃ X : Dense ℝ, some X.cols = [3, 4, 2].head? ∧ X.rows = 5 :=
  ⟨⟨fun k o c => k + o - c, fun _ o => o, relu, fun k X => .ok { X with at_ := fun i c => (X.at_ i c - k) / (c + 1) },
    fun _ X => X⟩, fun k c x => (x - k) / (c + 1), ⟨fun _ _ => rfl, fun _ _ => rfl⟩, by decide,
    ⟨5, 3, fun i c => i * c⟩, rfl, rfl⟩

/-! ### `MultiHeadWrapper` -/

theorem catAll_run (outs : List (Dense K)) (h0 : outs ≠ []) {n d : Nat} (hs : ∀ Y ∈ outs, Y.rows = n ∧ Y.cols = d) :
    ∃ Y, catAll outs = .ok Y ∧ Y.rows = n ∧ Y.cols = outs.length * d ∧
      ∀ h (hh : h < outs.length) i c, c < d → Y.at_ i (h * d + c) = outs[h].at_ i c := by
  induction outs with
  | nil => exact absurd rfl h0
  | cons X Xs ih =>
    have hx := hs X List.mem_cons_self
    cases Xs with
    | nil =>
      refine ⟨X, rfl, hx.1, by simp [hx.2], fun h hh i c _ => ?_⟩
      have : h = 0 := by simp at hh; omega
      subst this; simp
    | cons X' Xs =>
      obtain ⟨Y, hY, y1, y2, y3⟩ := ih (by simp) fun Y hY => hs Y (List.mem_cons_of_mem _ hY)
      refine ⟨⟨X.rows, X.cols + Y.cols, fun i c => if c < X.cols then X.at_ i c else Y.at_ i (c - X.cols)⟩,
        by rw [catAll, hY]; exact if_pos (hx.1.trans y1.symm); simp, hx.1, ?_, ?_⟩
      · simp only [hx.2, y2, List.length_cons]; ring
      · intro h hh i c hc
        simp only [hx.2]
        cases h with
        | zero => simp [hc]
        | succ h =>
          rw [if_neg (by rw [Nat.succ_mul]; omega)]
          rw [show (h + 1) * d + c - d = h * d + c by rw [Nat.succ_mul]; omega]
          rw [y3 h (by simpa using hh) i c hc]
          rfl

theorem stackWith_run (f : List K → K) (outs : List (Dense K)) (h0 : outs ≠ []) {n d : Nat}
    (hs : ∀ Y ∈ outs, Y.rows = n ∧ Y.cols = d) :
    stackWith f outs = .ok { rows := n, cols := d, at_ := fun i c => f (outs.map fun Y => Y.at_ i c) } := by
  cases outs with
  | nil => exact absurd rfl h0
  | cons X Xs =>
    have hx := hs X List.mem_cons_self
    unfold stackWith
    simp only
    rw [if_pos]
    · rw [hx.1, hx.2]
    · rw [List.all_eq_true]
      intro Y hY
      have := hs Y (List.mem_cons_of_mem _ hY)
      exact decide_eq_true ⟨this.1.trans hx.1.symm, this.2.trans hx.2.symm⟩

theorem maxOf_mem (xs : List K) (h : xs ≠ []) : maxOf xs ∈ xs ∧ ∀ x ∈ xs, x ≤ maxOf xs := by
  induction xs with
  | nil => exact absurd rfl h
  | cons x xs ih =>
    cases xs with
    | nil => simp [maxOf]
    | cons y ys =>
      obtain ⟨h1, h2⟩ := ih (by simp)
      simp only [maxOf]
      refine ⟨?_, ?_⟩
      · rcases max_choice x (maxOf (y :: ys)) with h | h <;> rw [h]
        · exact List.mem_cons_self
        · exact List.mem_cons_of_mem _ h1
      · intro z hz
        rcases List.mem_cons.1 hz with rfl | hz
        · exact le_max_left _ _
        · exact (h2 z hz).trans (le_max_right _ _)

/-- C94. `MultiHeadWrapper` with at least one head, whose heads return `outs` of the same shape when called
one after another: `concat` puts the columns of the heads side by side in their order, `mean`, `max` and
`sum` work entry by entry; any other name is refused. -/
theorem C94_multi_head {σ : Type} (heads : List (PyM σ (Dense K))) {s s' : σ} {outs : List (Dense K)}
    (hr : PyM.collect heads id s = (.ok outs, s')) (h0 : outs ≠ []) {n d : Nat}
    (hs : ∀ Y ∈ outs, Y.rows = n ∧ Y.cols = d) :
    (∃ Y, multiHead "concat" heads s = (.ok Y, s') ∧ Y.rows = n ∧ Y.cols = outs.length * d ∧
      ∀ h (hh : h < outs.length) i c, c < d → Y.at_ i (h * d + c) = outs[h].at_ i c) ∧
    (∃ Y, multiHead "mean" heads s = (.ok Y, s') ∧ Y.rows = n ∧ Y.cols = d ∧
      ∀ i c, Y.at_ i c = (outs.map fun Y => Y.at_ i c).sum / (outs.length : K)) ∧
    (∃ Y, multiHead "sum" heads s = (.ok Y, s') ∧ Y.rows = n ∧ Y.cols = d ∧
      ∀ i c, Y.at_ i c = (outs.map fun Y => Y.at_ i c).sum) ∧
    (∃ Y, multiHead "max" heads s = (.ok Y, s') ∧ Y.rows = n ∧ Y.cols = d ∧
      ∀ i c, (∃ Z ∈ outs, Y.at_ i c = Z.at_ i c) ∧ ∀ Z ∈ outs, Z.at_ i c ≤ Y.at_ i c) ∧
    (∀ name, name ≠ "concat" → name ≠ "mean" → name ≠ "sum" → name ≠ "max" →
      multiHead name heads s = (.error .value, s')) := by
  refine ⟨?_, ?_, ?_, ?_, ?_⟩
  · obtain ⟨Y, hY, h⟩ := catAll_run outs h0 hs
    exact ⟨Y, by simp only [multiHead, PyM.bind_apply, hr, if_true, PyM.lift_apply, hY], h⟩
  · refine ⟨{ rows := n, cols := d, at_ := fun i c => (fun xs : List K => xs.sum / (xs.length : K)) (outs.map fun Y => Y.at_ i c) }, ?_, ?_⟩
    · simp only [multiHead, PyM.bind_apply, hr]
      rw [if_neg (by decide), if_pos trivial, PyM.lift_apply, stackWith_run _ outs h0 hs]
    · exact ⟨rfl, rfl, fun i c => by simp⟩
  · refine ⟨{ rows := n, cols := d, at_ := fun i c => List.sum (outs.map fun Y => Y.at_ i c) }, ?_, ?_⟩
    · simp only [multiHead, PyM.bind_apply, hr]
      rw [if_neg (by decide), if_neg (by decide), if_neg (by decide), if_pos trivial, PyM.lift_apply,
        stackWith_run _ outs h0 hs]
    · exact ⟨rfl, rfl, fun i c => rfl⟩
  · refine ⟨{ rows := n, cols := d, at_ := fun i c => maxOf (outs.map fun Y => Y.at_ i c) }, ?_, ?_⟩
    · simp only [multiHead, PyM.bind_apply, hr]
      rw [if_neg (by decide), if_neg (by decide), if_pos trivial, PyM.lift_apply, stackWith_run _ outs h0 hs]
    · refine ⟨rfl, rfl, fun i c => ?_⟩
      obtain ⟨h1, h2⟩ := maxOf_mem (outs.map fun Y => Y.at_ i c) (by simpa using h0)
      obtain ⟨Z, hZ, hz⟩ := List.mem_map.1 h1
      exact ⟨⟨Z, hZ, hz.symm⟩, fun Z hZ => h2 _ (List.mem_map.2 ⟨Z, hZ, rfl⟩)⟩
  · intro name c1 c2 c3 c4
    simp only [multiHead, PyM.bind_apply, hr]
    rw [if_neg c1, if_neg c2, if_neg c4, if_neg c3]
    simp only [PyM.bind_apply, PyM.lift_apply, stackWith_run _ outs h0 hs, PyM.raise_apply]

/-- C94. Without heads the call raises, whatever the readout. -/
theorem C94_no_heads {σ : Type} (name : String) (s : σ) :
    multiHead (K := K) name [] s = (.error .runtime, s) := by
  simp only [multiHead, PyM.bind_apply]
  show (if name = "concat" then _ else _ : PyM σ (Dense K)) s = _
  split
  · rfl
  · split
    · rfl
    · split
      · rfl
      · split <;> rfl

example : ∃ (heads : List (PyM Unit (Dense ℝ))) (outs : List (Dense ℝ)),
    PyM.collect heads id () = (.ok outs, ()) ∧ outs ≠ [] ∧ ∀ Y ∈ outs, Y.rows = 2 ∧ Y.cols = 3 :=
  ⟨[pure ⟨2, 3, fun i _ => i⟩, pure ⟨2, 3, fun _ c => c⟩], [⟨2, 3, fun i _ => i⟩, ⟨2, 3, fun _ c => c⟩], rfl,
    by simp, by simp⟩

end Props
end DHG
