import Verif.BgnnTrain
import Verif.Props.Bgnn

/-!
# C130: what training a BGNN minimises
-/

set_option linter.unusedSectionVars false
set_option autoImplicit false

namespace DHG

namespace Spec

/-- a discriminator for rows with `c` entries that gives one number per row -/
def Judges (c : Nat) (D : Nn.Discriminator) : Prop :=
  D.first.weight.cols = c ∧ D.second.weight.cols = D.first.weight.rows ∧ D.second.weight.rows = 1

/-- what the discriminator says of a row `x`, with the hidden units multiplied by `mask`:
`1 / (1 + exp (-(W₂ (mask * h) + b₂)))`, where `h = max(y, y / 100)` for `y = W₁ x + b₁` -/
noncomputable def verdict (D : Nn.Discriminator) (mask : Nat → ℝ) (x : Nat → ℝ) : ℝ :=
  1 / (1 + Real.exp (-lin D.second D.second.weight.cols
    (fun h => mask h * max (lin D.first D.first.weight.cols x h) (lin D.first D.first.weight.cols x h / 100)) 0))

/-- `-log p`, but at most 100 -/
noncomputable def surprise (p : ℝ) : ℝ := min (-Real.log p) 100

/-- what the discriminator minimises: the mean surprise at real rows being real plus the mean surprise at
made-up rows being made up, over `a` rows -/
noncomputable def advLossD (a : Nat) (mask : Nat → Nat → Nat → ℝ) (real fake : Nat → Nat → ℝ)
    (D : Nn.Discriminator) : ℝ :=
  (∑ i ∈ Finset.range a, surprise (verdict D (mask 0 i) (real i))) / a +
    (∑ i ∈ Finset.range a, surprise (1 - verdict D (mask 1 i) (fake i))) / a

/-- what the layer minimises: the mean surprise of the discriminator at made-up rows being real -/
noncomputable def advLossG (a : Nat) (mask : Nat → Nat → Nat → ℝ) (D : Nn.Discriminator) (fake : Nat → Nat → ℝ) : ℝ :=
  (∑ i ∈ Finset.range a, surprise (verdict D (mask 2 i) (fake i))) / a

/-- an optimizer that keeps the shapes of the parameters (`ok`) and looks at the loss only for parameters of
these shapes -/
def SoundOpt {S P : Type} (o : Nn.Opt S P) (ok : P → Prop) : Prop :=
  (∀ s p f, ok p → ok (o.step s p f).2) ∧
    ∀ s p f f', ok p → (∀ q, ok q → f q = f' q) → o.step s p f = o.step s p f'

/-- alternating minimisation: in every round first the discriminator takes a step, then, against the new
discriminator, the layer.  `fake l` are the rows a layer makes up. -/
noncomputable def advRounds {SD SG : Type} (oD : Nn.Opt SD Nn.Discriminator) (oG : Nn.Opt SG Nn.BgnnLayer) (a : Nat)
    (mask : Nat → Nat → Nat → Nat → ℝ) (real : Nat → Nat → ℝ) (fake : Nn.BgnnLayer → Nat → Nat → ℝ) :
    Nat → Nat → SD × Nn.Discriminator → SG × Nn.BgnnLayer → Nn.BgnnLayer
  | 0, _, _, s => s.2
  | k + 1, j, t, s =>
    let t' := oD.step t.1 t.2 fun D => .ok (advLossD a (mask j) real (fake s.2) D)
    let s' := oG.step s.1 s.2 fun l => .ok (advLossG a (mask j) t'.2 (fake l))
    advRounds oD oG a mask real fake k (j + 1) t' s'

/-- a layer of `BGNN_MLP` in training mode, from `i` to `o` columns -/
def MlpFits (mask : Nat → Nat → ℝ) (i o : Nat) (l : Nn.BgnnLayer) : Prop :=
  l.lin.weight.cols = i ∧ ∃ d, l.dec = some d ∧ d.first.weight.cols = l.lin.weight.rows ∧
    d.second.weight.cols = d.first.weight.rows ∧ d.second.weight.rows = o ∧ d.training = true ∧
    d.drop = Nn.dropMask mask

/-- layers of `BGNN_MLP` that map alternately from the right side (`dv` columns) to the left side (`du` columns)
and back, starting towards the left side if `left`; in training mode the first epoch of the first one uses the
dropout mask `mask 0 0`, that of the second one `mask 1 0`, and so on -/
def MlpStack (du dv : Nat) : (Nat → Nat → Nat → Nat → ℝ) → Bool → List Nn.BgnnLayer → Prop
  | _, _, [] => True
  | mask, true, l :: ls => MlpFits (mask 0 0) dv du (l.mode true) ∧ MlpStack du dv (fun q => mask (q + 1)) false ls
  | mask, false, l :: ls => MlpFits (mask 0 0) du dv (l.mode true) ∧ MlpStack du dv (fun q => mask (q + 1)) true ls

/-- the rows made by a layer of `BGNN_MLP` with the hidden units of the decoder multiplied by `mask` -/
noncomputable def mlpStep (mask : Nat → Nat → ℝ) (w : Nat → Nat → ℝ) (n : Nat) (X : Nat → Nat → ℝ) (l : Nn.BgnnLayer)
    (a o : Nat) : ℝ :=
  match l.dec with
  | none => 0
  | some d => Real.tanh (lin d.second d.second.weight.cols (fun h => mask a h * rect (lin d.first d.first.weight.cols
      (fun c => Real.tanh (∑ b ∈ Finset.range n, w a b * lin l.lin l.lin.weight.cols (X b) c)) h)) o)

/-- the mean squared difference of two tables with `a` rows and `c` columns -/
noncomputable def meanSq (a c : Nat) (X Y : Nat → Nat → ℝ) : ℝ :=
  (∑ i ∈ Finset.range a, ∑ j ∈ Finset.range c, (X i j - Y i j) ^ 2) / ((a : ℝ) * c)

/-- minimisation of the mean squared difference between the rows the layer makes and the real rows -/
noncomputable def mlpRounds {S : Type} (o : Nn.Opt S Nn.BgnnLayer) (a c : Nat) (mask : Nat → Nat → Nat → ℝ)
    (real : Nat → Nat → ℝ) (made : (Nat → Nat → ℝ) → Nn.BgnnLayer → Nat → Nat → ℝ) :
    Nat → Nat → S × Nn.BgnnLayer → Nn.BgnnLayer
  | 0, _, s => s.2
  | k + 1, j, s =>
    let s' := o.step s.1 s.2 fun l => .ok (meanSq a c (made (mask j) l) real)
    mlpRounds o a c mask real made k (j + 1) (s'.1, s'.2.remask (mask (j + 1)))

/-- training layer after layer: `tr q left l real other` is what becomes of the `q`-th layer `l` if it is to make
the rows `real` of the left side (if `left`) or right side out of the rows `other` of the other side; the next
layer starts from the rows that the trained layer makes -/
noncomputable def cascaded (B : Nat → Nat → ℝ) (m n : Nat) :
    (Nat → Bool → Nn.BgnnLayer → (Nat → Nat → ℝ) → (Nat → Nat → ℝ) → Nn.BgnnLayer) →
    Bool → List Nn.BgnnLayer → (Nat → Nat → ℝ) → (Nat → Nat → ℝ) → List Nn.BgnnLayer
  | _, _, [], _, _ => []
  | tr, true, l :: ls, U, V =>
    tr 0 true l U V :: cascaded B m n (fun q => tr (q + 1)) false ls (bgnnStep (tr 0 true l U V) B n V) V
  | tr, false, l :: ls, U, V =>
    tr 0 false l V U ::
      cascaded B m n (fun q => tr (q + 1)) true ls U (bgnnStep (tr 0 false l V U) (fun v u => B u v) m U)

end Spec

namespace Props

open Finset Nn

/-! ### pieces -/

theorem hundredth_max (x : ℝ) : leakyRelu (1 / 100) x = max x (x / 100) := by
  unfold leakyRelu
  split
  · rename_i h; rw [max_eq_left (by linarith)]
  · rename_i h; rw [max_eq_right (by linarith [not_lt.1 h])]; ring

theorem mask_tab {n d : Nat} {X : Dense ℝ} {T : Nat → Nat → ℝ} (mask : Nat → Nat → ℝ) (hX : Tab n d X T) :
    Tab n d (dropMask mask X) fun i c => mask i c * T i c :=
  ⟨hX.1, hX.2.1, fun i c hi hc => by simp only [dropMask]; rw [hX.2.2 i c hi hc]⟩

theorem disc_tab {D : Discriminator} {c n : Nat} (hD : Spec.Judges c D) {X : Dense ℝ} {T : Nat → Nat → ℝ}
    (mask : Nat → Nat → ℝ) (hX : Tab n c X T) :
    ∃ P, D.fwd (dropMask mask) X = .ok P ∧ Tab n 1 P fun i _ => Spec.verdict D (mask i) (T i) := by
  obtain ⟨h1, h2, h3⟩ := hD
  obtain ⟨Y1, e1, t1⟩ := linear_tab h1 hX
  obtain ⟨Y2, e2, t2⟩ := linear_tab h2 (mask_tab mask (map_tab hundredth_max t1))
  refine ⟨mapD sigmoid Y2, ?_, ?_⟩
  · simp only [Discriminator.fwd, e1, bind, Except.bind, e2, pure, Except.pure]
  · rw [h3] at t2
    refine Tab.congr (map_tab (f := sigmoid) (f' := sigmoid) (fun _ => rfl) t2) fun i o _ ho => ?_
    have : o = 0 := by omega
    subst this
    rfl

theorem verdict_range (D : Discriminator) (mask x : Nat → ℝ) :
    0 < Spec.verdict D mask x ∧ Spec.verdict D mask x < 1 := by
  unfold Spec.verdict
  generalize -Spec.lin D.second _ _ _ = t
  have := Real.exp_pos t
  exact ⟨by positivity, by rw [div_lt_one (by positivity)]; linarith⟩

/-- the positions of a table -/
def cells (a c : Nat) : List (Nat × Nat) := (List.range a).flatMap fun i => (List.range c).map fun j => (i, j)

theorem entries_cells (X : Dense ℝ) : Dense.entries X = (cells X.rows X.cols).map fun p => X.at_ p.1 p.2 := by
  unfold Dense.entries cells
  rw [List.map_flatMap]
  simp only [List.map_map]
  rfl

theorem cells_length (a c : Nat) : (cells a c).length = a * c := by
  simp [cells, List.length_flatMap]

theorem cells_mem {a c : Nat} {p : Nat × Nat} (h : p ∈ cells a c) : p.1 < a ∧ p.2 < c := by
  simp only [cells, List.mem_flatMap, List.mem_range, List.mem_map] at h
  obtain ⟨i, hi, j, hj, rfl⟩ := h
  exact ⟨hi, hj⟩

theorem cells_sum (a c : Nat) (f : Nat × Nat → ℝ) :
    ((cells a c).map f).sum = ∑ i ∈ range a, ∑ j ∈ range c, f (i, j) := by
  induction a with
  | zero => simp [cells]
  | succ a ih =>
    unfold cells at ih ⊢
    rw [List.range_succ, List.flatMap_append, List.map_append, List.sum_append, ih, sum_range_succ]
    congr 1
    simp only [List.flatMap_cons, List.flatMap_nil, List.append_nil, List.map_map]
    rw [Finset.sum, Finset.range_val, Multiset.range, Multiset.map_coe, Multiset.sum_coe]
    rfl

theorem mean_cells {a c : Nat} (ha : 0 < a) (hc : 0 < c) (f : ℝ → ℝ → ℝ) {X Y : Dense ℝ}
    (hX : X.rows = a ∧ X.cols = c) (hY : Y.rows = a ∧ Y.cols = c) :
    meanV (List.zipWith f (Dense.entries X) (Dense.entries Y)) =
      .ok ((∑ i ∈ range a, ∑ j ∈ range c, f (X.at_ i j) (Y.at_ i j)) / ((a : ℝ) * c)) := by
  rw [entries_cells, entries_cells, hX.1, hX.2, hY.1, hY.2, List.zipWith_map, List.zipWith_self]
  unfold meanV
  have h0 : (cells a c).map (fun p => f (X.at_ p.1 p.2) (Y.at_ p.1 p.2)) ≠ [] := by
    intro h
    have := congrArg List.length h
    rw [List.length_map, cells_length] at this
    have := Nat.mul_pos ha hc
    simp at *
    omega
  rw [if_neg h0, cells_sum, List.length_map, cells_length]
  push_cast
  rfl

theorem surprise_clamp {p : ℝ} (h : 0 < p) : -clampLog p = Spec.surprise p := by
  unfold clampLog Spec.surprise
  rw [if_neg (not_le.2 h), ← min_neg_neg, neg_neg]

theorem bce_real {a : Nat} (ha : 0 < a) {P : Dense ℝ} {p : Nat → ℝ} (hP : Tab a 1 P fun i _ => p i)
    (hp : ∀ i, 0 < p i ∧ p i < 1) (y : ℝ) (hy : y = 1 ∨ y = 0) :
    bce P (label a y) = .ok ((∑ i ∈ range a, Spec.surprise (if y = 1 then p i else 1 - p i)) / a) := by
  unfold bce
  rw [if_pos ⟨hP.1, hP.2.1⟩, if_pos, mean_cells ha one_pos _ ⟨hP.1, hP.2.1⟩ ⟨rfl, rfl⟩]
  · congr 1
    push_cast
    rw [mul_one]
    congr 1
    refine sum_congr rfl fun i hi => ?_
    rw [sum_range_one, hP.2.2 i 0 (mem_range.1 hi) one_pos]
    simp only [label, bceTerm]
    rcases hy with rfl | rfl
    · rw [if_pos rfl, ← surprise_clamp (hp i).1]; ring
    · rw [if_neg (by norm_num), ← surprise_clamp (by linarith [(hp i).2])]; ring
  · intro q hq
    rw [entries_cells, hP.1, hP.2.1, List.mem_map] at hq
    obtain ⟨c, hc, rfl⟩ := hq
    have := cells_mem hc
    rw [hP.2.2 _ _ this.1 this.2]
    exact ⟨(hp _).1.le, (hp _).2.le⟩

theorem lossD_eq {a c : Nat} (ha : 0 < a) (mask : Nat → Nat → Nat → ℝ) {R F : Dense ℝ} {r f : Nat → Nat → ℝ}
    (hR : Tab a c R r) (hF : Tab a c F f) {D : Discriminator} (hD : Spec.Judges c D) :
    lossD (fun j => dropMask (mask j)) R F D = .ok (Spec.advLossD a mask r f D) := by
  obtain ⟨P, e1, t1⟩ := disc_tab hD (mask 0) hR
  obtain ⟨Q, e2, t2⟩ := disc_tab hD (mask 1) hF
  have b1 := bce_real ha t1 (fun i => verdict_range _ _ _) 1 (Or.inl rfl)
  have b2 := bce_real ha t2 (fun i => verdict_range _ _ _) 0 (Or.inr rfl)
  simp only [if_true] at b1
  simp only [zero_ne_one, if_false] at b2
  simp only [lossD, e1, e2, hR.1, b1, b2, bind, Except.bind, pure, Except.pure]
  rfl

theorem lossG_eq {a c : Nat} (ha : 0 < a) (mask : Nat → Nat → Nat → ℝ) {R F : Dense ℝ} {f : Nat → Nat → ℝ}
    (hR : R.rows = a) (hF : Tab a c F f) {D : Discriminator} (hD : Spec.Judges c D)
    {fake : BgnnLayer → Except Err (Dense ℝ)} {l : BgnnLayer} (hl : fake l = .ok F) :
    lossG (fun j => dropMask (mask j)) R D fake l = .ok (Spec.advLossG a mask D f) := by
  obtain ⟨P, e1, t1⟩ := disc_tab hD (mask 2) hF
  have b1 := bce_real ha t1 (fun i => verdict_range _ _ _) 1 (Or.inl rfl)
  simp only [if_true] at b1
  simp only [lossG, hl, e1, hR, b1, bind, Except.bind]
  rfl

theorem mse_eq {a c : Nat} (ha : 0 < a) (hc : 0 < c) {X Y : Dense ℝ} {x y : Nat → Nat → ℝ} (hX : Tab a c X x)
    (hY : Tab a c Y y) : mse X Y = .ok (Spec.meanSq a c x y) := by
  unfold mse Spec.meanSq
  rw [if_pos ⟨hX.1.trans hY.1.symm, hX.2.1.trans hY.2.1.symm⟩, mean_cells ha hc _ ⟨hX.1, hX.2.1⟩ ⟨hY.1, hY.2.1⟩]
  congr 2
  refine sum_congr rfl fun i hi => sum_congr rfl fun j hj => ?_
  rw [hX.2.2 i j (mem_range.1 hi) (mem_range.1 hj), hY.2.2 i j (mem_range.1 hi) (mem_range.1 hj)]

theorem decode_train_tab {l : BgnnLayer} {mask : Nat → Nat → ℝ} {i o n : Nat} (hl : Spec.MlpFits mask i o l) {Y : Dense ℝ}
    {h : Nat → Nat → ℝ} (hY : Tab n l.lin.weight.rows Y h) :
    ∃ d Z, l.dec = some d ∧ l.decode Y = .ok Z ∧ Tab n o Z fun a q => Real.tanh (Spec.lin d.second d.second.weight.cols
      (fun k => mask a k * Spec.rect (Spec.lin d.first d.first.weight.cols (h a) k)) q) := by
  obtain ⟨_, d, hd, h1, h2, h3, h4, h5⟩ := hl
  unfold BgnnLayer.decode
  rw [hd]
  obtain ⟨Y1, e1, t1⟩ := linear_tab h1 hY
  obtain ⟨Y2, e2, t2⟩ := linear_tab h2 (mask_tab mask (map_tab relu_rect t1))
  refine ⟨d, mapD Real.tanh Y2, rfl, ?_, ?_⟩
  · simp only [Decoder.fwd, e1, h4, h5, bind, Except.bind, if_true, e2, pure, Except.pure]
  · rw [← h3]
    exact map_tab (f := Real.tanh) (f' := Real.tanh) (fun _ => rfl) t2

/-- one layer in training mode on an object with the same edges as `g` -/
theorem upd_train_tab {g : BSt ℝ} {m n : Nat} (hg : BiGraph.Built Graph.NonNeg g)
    (hm : (BiGraph.ask .numU g).1 = .ok (.num m)) (hn : (BiGraph.ask .numV g).1 = .ok (.num n))
    (hx : Spec.Bipartite m n g) {B : Sp ℝ} (hB : (BiGraph.ask .B g).1 = .ok (.mat B))
    (left : Bool) {mask : Nat → Nat → ℝ} {i o : Nat} {l : BgnnLayer} (hl : Spec.MlpFits mask i o l) (g' : BSt ℝ)
    (hg' : Coherent (Ord.evKey .bi) g' ∧ g'.raw = g.raw) (X : Dense ℝ)
    (T : Nat → Nat → ℝ) (hX : Tab (if left then n else m) i X T) :
    ∃ Y s', bgnnUpd l left X g' = (.ok Y, s') ∧ (Coherent (Ord.evKey .bi) s' ∧ s'.raw = g.raw) ∧
      Tab (if left then m else n) o Y
        (Spec.mlpStep mask (fun a b => if left then B.get a b else B.get b a) (if left then n else m) T l) := by
  obtain ⟨X1, e1, t1⟩ := linear_tab hl.1 hX
  obtain ⟨Y, s', e2, h2, t2⟩ := pass_tab hg hm hn hx hB left g' hg' X1 _ t1
  obtain ⟨d, Z, hd, e3, t3⟩ := decode_train_tab hl (map_tab (f := Real.tanh) (f' := Real.tanh) (fun _ => rfl) t2)
  refine ⟨Z, s', ?_, h2, ?_⟩
  · simp only [bgnnUpd, PyM.bind_apply, PyM.lift_apply, e1, e2, e3]
  · refine Tab.congr t3 fun a c _ _ => ?_
    unfold Spec.mlpStep
    rw [hd]
    cases left
    · simp only [Bool.false_eq_true, if_false]
    · simp only [if_true]

/-! ## C130 -/

/-- C130.  The discriminator (in evaluation mode) gives one number strictly between 0 and 1 for every row, which
depends on this row only; it refuses rows with a wrong number of entries. -/
theorem C130_discriminator {c : Nat} {D : Discriminator} (hD : Spec.Judges c D) (X : Dense ℝ) :
    (X.cols = c → ∃ P, D.fwd (fun Y => Y) X = .ok P ∧ P.rows = X.rows ∧ P.cols = 1 ∧ ∀ i, i < X.rows →
      P.at_ i 0 = Spec.verdict D (fun _ => 1) (X.at_ i) ∧ 0 < P.at_ i 0 ∧ P.at_ i 0 < 1) ∧
    (X.cols ≠ c → D.fwd (fun Y => Y) X = .error .runtime) := by
  constructor
  · intro h
    obtain ⟨P, e, t⟩ := disc_tab hD (fun _ _ => 1) (X := X) (T := X.at_) ⟨rfl, h, fun _ _ _ _ => rfl⟩
    have hid : dropMask (fun _ _ => (1 : ℝ)) = fun Y => Y := by funext Y; simp [dropMask]
    rw [hid] at e
    refine ⟨P, e, t.1, t.2.1, fun i hi => ?_⟩
    have := t.2.2 i 0 hi one_pos
    exact ⟨this, by rw [this]; exact (verdict_range _ _ _).1, by rw [this]; exact (verdict_range _ _ _).2⟩
  · intro h
    have : D.first.fwd X = .error .runtime := if_neg (by rw [hD.1]; exact h)
    simp only [Discriminator.fwd, this, bind, Except.bind]

theorem mode_none {l : BgnnLayer} (h : l.dec = none) (t : Bool) : l.mode t = l := by
  unfold BgnnLayer.mode
  rw [h]
  cases l
  cases h
  rfl

theorem adv_one {SD SG : Type} {g : BSt ℝ} {m n : Nat} (hg : BiGraph.Built Graph.NonNeg g)
    (hm : (BiGraph.ask .numU g).1 = .ok (.num m)) (hn : (BiGraph.ask .numV g).1 = .ok (.num n))
    (hx : Spec.Bipartite m n g) (left : Bool) (h0 : 0 < if left then m else n) {i o : Nat} {l : BgnnLayer}
    (hl : Spec.BgnnFits l i o ∧ l.dec = none)
    {B : Sp ℝ} (hB : (BiGraph.ask .B g).1 = .ok (.mat B)) {Xt Xo : Dense ℝ} {U V : Nat → Nat → ℝ}
    (tT : Tab (if left then m else n) o Xt U) (tO : Tab (if left then n else m) i Xo V)
    {oD : Opt SD Discriminator} {oG : Opt SG BgnnLayer} (hoD : Spec.SoundOpt oD (Spec.Judges o))
    (hoG : Spec.SoundOpt oG fun l => Spec.BgnnFits l i o ∧ l.dec = none)
    {draw : Nat → Nat → Nat → Discriminator} (hdraw : Spec.Judges o (draw o 16 1))
    (mask : Nat → Nat → Nat → Nat → ℝ) (epochs : Nat) :
    ∃ l', (trainOne (advTrainer oD oG draw mask) epochs left l Xt Xo g).1 = .ok l' ∧
      (Spec.BgnnFits l' i o ∧ l'.dec = none) ∧
      l' = Spec.advRounds oD oG (if left then m else n) mask U
        (fun l => Spec.bgnnStep l (fun a b => if left then B.get a b else B.get b a) (if left then n else m) V)
        epochs 0 (oD.init (draw o 16 1), draw o 16 1) (oG.init l, l) := by
  have key : ∀ (k j : Nat) (mD : SD) (D : Discriminator) (mG : SG) (l : BgnnLayer) (g' : BSt ℝ),
      (Coherent (Ord.evKey .bi) g' ∧ g'.raw = g.raw) → Spec.Judges o D → (Spec.BgnnFits l i o ∧ l.dec = none) →
      ∃ l', (trainEpochs (advTrainer oD oG draw mask) left Xt Xo k ⟨j, mD, D, mG⟩ l g').1 = .ok l' ∧
        (Spec.BgnnFits l' i o ∧ l'.dec = none) ∧
        l' = Spec.advRounds oD oG (if left then m else n) mask U
          (fun l => Spec.bgnnStep l (fun a b => if left then B.get a b else B.get b a) (if left then n else m) V)
          k j (mD, D) (mG, l) := by
    intro k
    induction k with
    | zero => intro j mD D mG l g' _ _ hl; exact ⟨l, rfl, hl, rfl⟩
    | succ k ih =>
      intro j mD D mG l g' hg' hD hl
      have up : ∀ (l : BgnnLayer) (g' : BSt ℝ), (Coherent (Ord.evKey .bi) g' ∧ g'.raw = g.raw) →
          (Spec.BgnnFits l i o ∧ l.dec = none) →
          ∃ Y s', bgnnUpd l left Xo g' = (.ok Y, s') ∧ (Coherent (Ord.evKey .bi) s' ∧ s'.raw = g.raw) ∧
            Tab (if left then m else n) o Y (Spec.bgnnStep l (fun a b => if left then B.get a b else B.get b a)
              (if left then n else m) V) := by
        intro l g' hg' hl
        obtain ⟨Y, s', e, h, t⟩ := upd_tab hg hm hn hx hB left hl.1 g' hg' Xo V tO
        refine ⟨Y, s', e, h, ?_⟩
        cases left
        · simpa using t
        · simpa using t
      obtain ⟨F, s1, e1, h1, t1⟩ := up l g' hg' hl
      have hLD : ∀ D', Spec.Judges o D' → lossD (fun q => dropMask (mask j q)) Xt F D' =
          .ok (Spec.advLossD (if left then m else n) (mask j) U (Spec.bgnnStep l
            (fun a b => if left then B.get a b else B.get b a) (if left then n else m) V) D') :=
        fun D' hD' => lossD_eq h0 _ tT t1 hD'
      have sD := hoD.2 mD D _ _ hD hLD
      have jD := hoD.1 mD D (lossD (fun q => dropMask (mask j q)) Xt F) hD
      have hLG : ∀ l', (Spec.BgnnFits l' i o ∧ l'.dec = none) →
          lossG (fun q => dropMask (mask j q)) Xt
            (oD.step mD D (lossD (fun q => dropMask (mask j q)) Xt F)).2
            (fun l => (bgnnUpd l left Xo s1).1) l' =
          .ok (Spec.advLossG (if left then m else n) (mask j)
            (oD.step mD D (lossD (fun q => dropMask (mask j q)) Xt F)).2 (Spec.bgnnStep l'
            (fun a b => if left then B.get a b else B.get b a) (if left then n else m) V)) := by
        intro l' hl'
        obtain ⟨F', s2, e2, _, t2⟩ := up l' s1 h1 hl'
        exact lossG_eq h0 _ tT.1 t2 jD (by simp only [e2])
      have sG := hoG.2 mG l _ _ hl hLG
      have jG := hoG.1 mG l (lossG (fun q => dropMask (mask j q)) Xt
            (oD.step mD D (lossD (fun q => dropMask (mask j q)) Xt F)).2
            (fun l => (bgnnUpd l left Xo s1).1)) hl
      obtain ⟨l', e3, h3, q3⟩ := ih (j + 1) _ _ (oG.step mG l (lossG (fun q => dropMask (mask j q)) Xt
            (oD.step mD D (lossD (fun q => dropMask (mask j q)) Xt F)).2
            (fun l => (bgnnUpd l left Xo s1).1))).1 _ s1 h1 jD jG
      refine ⟨l', ?_, h3, ?_⟩
      · simp only [trainEpochs, PyM.bind_apply, e1, bgnnFake, PyM.lift_apply]
        simp only [advTrainer, hLD D hD, hLG l hl, bind, Except.bind, pure, Except.pure]
        exact e3
      · rw [q3, sG, sD]
        rfl
  obtain ⟨l', e, h, q⟩ := key epochs 0 (oD.init (draw o 16 1)) (draw o 16 1) (oG.init l) l g ⟨hg.coh, rfl⟩ hdraw hl
  refine ⟨l', ?_, h, q⟩
  have hi : (advTrainer oD oG draw mask).init l Xt = ⟨0, oD.init (draw o 16 1), draw o 16 1, oG.init l⟩ := by
    simp only [advTrainer, tT.2.1]
  unfold trainOne
  rw [hi, mode_none hl.2]
  simp only [PyM.bind_apply]
  rcases he : trainEpochs (advTrainer oD oG draw mask) left Xt Xo epochs
    ⟨0, oD.init (draw o 16 1), draw o 16 1, oG.init l⟩ l g with ⟨a, s⟩
  rw [he] at e
  rw [show a = .ok l' from e]
  show Except.ok (l'.mode false) = _
  rw [mode_none h.2]

/-- C130.  `BGNN_Adv.train_one_layer` is alternating minimisation: in each of the `epochs` rounds the
discriminator takes a step on the mean cross entropy of telling the true rows from those the layer makes of the
other side, then the layer takes a step on the mean cross entropy of its rows being taken for true by the
discriminator just improved; it does not raise. -/
theorem C130_adversarial {SD SG : Type} {g : BSt ℝ} {m n : Nat} (hg : BiGraph.Built Graph.NonNeg g)
    (hm : (BiGraph.ask .numU g).1 = .ok (.num m)) (hn : (BiGraph.ask .numV g).1 = .ok (.num n))
    (hx : Spec.Bipartite m n g) (left : Bool) (h0 : 0 < if left then m else n) {i o : Nat} {l : BgnnLayer}
    (hl : Spec.BgnnFits l i o ∧ l.dec = none)
    (Xt Xo : Dense ℝ) (hT : Xt.rows = (if left then m else n) ∧ Xt.cols = o)
    (hO : Xo.rows = (if left then n else m) ∧ Xo.cols = i)
    {oD : Opt SD Discriminator} {oG : Opt SG BgnnLayer} (hoD : Spec.SoundOpt oD (Spec.Judges o))
    (hoG : Spec.SoundOpt oG fun l => Spec.BgnnFits l i o ∧ l.dec = none)
    {draw : Nat → Nat → Nat → Discriminator} (hdraw : Spec.Judges o (draw o 16 1))
    (mask : Nat → Nat → Nat → Nat → ℝ) (epochs : Nat) :
    ∃ B l', (BiGraph.ask .B g).1 = .ok (.mat B) ∧
      (trainOne (advTrainer oD oG draw mask) epochs left l Xt Xo g).1 = .ok l' ∧
      (Spec.BgnnFits l' i o ∧ l'.dec = none) ∧
      l' = Spec.advRounds oD oG (if left then m else n) mask Xt.at_
        (fun l => Spec.bgnnStep l (fun a b => if left then B.get a b else B.get b a) (if left then n else m) Xo.at_)
        epochs 0 (oD.init (draw o 16 1), draw o 16 1) (oG.init l, l) := by
  obtain ⟨B, _, hB, _⟩ := C25_bigraph_incidence hg hm hn hx
  obtain ⟨l', h⟩ := adv_one (draw := draw) hg hm hn hx left h0 hl hB (U := Xt.at_) (V := Xo.at_)
    ⟨hT.1, hT.2, fun _ _ _ _ => rfl⟩ ⟨hO.1, hO.2, fun _ _ _ _ => rfl⟩ hoD hoG hdraw mask epochs
  exact ⟨B, l', hB, h⟩

theorem mlp_one {S : Type} {g : BSt ℝ} {m n : Nat} (hg : BiGraph.Built Graph.NonNeg g)
    (hm : (BiGraph.ask .numU g).1 = .ok (.num m)) (hn : (BiGraph.ask .numV g).1 = .ok (.num n))
    (hx : Spec.Bipartite m n g) (left : Bool) (h0 : 0 < if left then m else n) {i o : Nat} (h1 : 0 < o)
    {mask : Nat → Nat → Nat → ℝ} {l : BgnnLayer} (hl : Spec.MlpFits (mask 0) i o (l.mode true))
    {B : Sp ℝ} (hB : (BiGraph.ask .B g).1 = .ok (.mat B)) {Xt Xo : Dense ℝ} {U V : Nat → Nat → ℝ}
    (tT : Tab (if left then m else n) o Xt U) (tO : Tab (if left then n else m) i Xo V)
    {opt : Opt S BgnnLayer} (ho : ∀ k, Spec.SoundOpt opt (Spec.MlpFits (mask k) i o)) (epochs : Nat) :
    ∃ l', (trainOne (mlpTrainer opt mask) epochs left l Xt Xo g).1 = .ok l' ∧ Spec.BgnnFits l' i o ∧
      l' = (Spec.mlpRounds opt (if left then m else n) o mask U
        (fun mask => Spec.mlpStep mask (fun a b => if left then B.get a b else B.get b a) (if left then n else m) V)
        epochs 0 (opt.init l, l.mode true)).mode false := by
  have key : ∀ (k j : Nat) (s : S) (l : BgnnLayer) (g' : BSt ℝ),
      (Coherent (Ord.evKey .bi) g' ∧ g'.raw = g.raw) → Spec.MlpFits (mask j) i o l →
      ∃ l', (trainEpochs (mlpTrainer opt mask) left Xt Xo k (j, s) l g').1 = .ok l' ∧
        Spec.MlpFits (mask (j + k)) i o l' ∧
        l' = Spec.mlpRounds opt (if left then m else n) o mask U
          (fun mask => Spec.mlpStep mask (fun a b => if left then B.get a b else B.get b a) (if left then n else m) V)
          k j (s, l) := by
    intro k
    induction k with
    | zero => intro j s l g' _ hl; exact ⟨l, rfl, hl, rfl⟩
    | succ k ih =>
      intro j s l g' hg' hl
      obtain ⟨F, s1, e1, h1', t1⟩ := upd_train_tab hg hm hn hx hB left hl g' hg' Xo V tO
      have hL : ∀ l', Spec.MlpFits (mask j) i o l' → lossMlp Xt (fun l => (bgnnUpd l left Xo s1).1) l' =
          .ok (Spec.meanSq (if left then m else n) o (Spec.mlpStep (mask j)
            (fun a b => if left then B.get a b else B.get b a) (if left then n else m) V l') U) := by
        intro l' hl'
        obtain ⟨F', s2, e2, _, t2⟩ := upd_train_tab hg hm hn hx hB left hl' s1 h1' Xo V tO
        simp only [lossMlp, e2, bind, Except.bind]
        exact mse_eq h0 h1 t2 tT
      have sG := (ho j).2 s l _ _ hl hL
      have jG := (ho j).1 s l (lossMlp Xt (fun l => (bgnnUpd l left Xo s1).1)) hl
      have jG' : Spec.MlpFits (mask (j + 1)) i o
          ((opt.step s l (lossMlp Xt (fun l => (bgnnUpd l left Xo s1).1))).2.remask (mask (j + 1))) := by
        obtain ⟨p1, d, p2, p3, p4, p5, p6, _⟩ := jG
        refine ⟨p1, { d with drop := dropMask (mask (j + 1)) }, ?_, p3, p4, p5, p6, rfl⟩
        unfold BgnnLayer.remask
        rw [p2]
        rfl
      obtain ⟨l', e3, h3, q3⟩ := ih (j + 1) (opt.step s l (lossMlp Xt (fun l => (bgnnUpd l left Xo s1).1))).1 _ s1 h1' jG'
      refine ⟨l', ?_, by rw [show j + (k + 1) = j + 1 + k by omega]; exact h3, ?_⟩
      · simp only [trainEpochs, PyM.bind_apply, e1, bgnnFake, PyM.lift_apply]
        simp only [mlpTrainer, hL l hl, bind, Except.bind, pure, Except.pure]
        exact e3
      · rw [q3, sG]
        rfl
  obtain ⟨l', e, h, q⟩ := key epochs 0 (opt.init l) (l.mode true) g ⟨hg.coh, rfl⟩ hl
  refine ⟨l'.mode false, ?_, ?_, by rw [q]⟩
  · unfold trainOne
    simp only [PyM.bind_apply]
    rcases he : trainEpochs (mlpTrainer opt mask) left Xt Xo epochs ((mlpTrainer opt mask).init l Xt) (l.mode true) g
      with ⟨a, s⟩
    have he' : (trainEpochs (mlpTrainer opt mask) left Xt Xo epochs ((mlpTrainer opt mask).init l Xt) (l.mode true) g).1
      = .ok l' := e
    rw [he] at he'
    rw [show a = .ok l' from he']
    rfl
  · obtain ⟨p1, d, p2, p3, p4, p5, _, _⟩ := h
    refine ⟨p1, ?_⟩
    unfold BgnnLayer.mode
    rw [p2]
    exact ⟨p3, p4, p5, rfl⟩

/-- C130.  `BGNN_MLP.train_one_layer` minimises the mean squared difference between the rows made by layer and
decoder and the true rows, with one step of the optimizer per epoch; it does not raise. -/
theorem C130_mlp {S : Type} {g : BSt ℝ} {m n : Nat} (hg : BiGraph.Built Graph.NonNeg g)
    (hm : (BiGraph.ask .numU g).1 = .ok (.num m)) (hn : (BiGraph.ask .numV g).1 = .ok (.num n))
    (hx : Spec.Bipartite m n g) (left : Bool) (h0 : 0 < if left then m else n) {i o : Nat} (h1 : 0 < o)
    {mask : Nat → Nat → Nat → ℝ} {l : BgnnLayer} (hl : Spec.MlpFits (mask 0) i o (l.mode true))
    (Xt Xo : Dense ℝ) (hT : Xt.rows = (if left then m else n) ∧ Xt.cols = o)
    (hO : Xo.rows = (if left then n else m) ∧ Xo.cols = i)
    {opt : Opt S BgnnLayer} (ho : ∀ k, Spec.SoundOpt opt (Spec.MlpFits (mask k) i o)) (epochs : Nat) :
    ∃ B l', (BiGraph.ask .B g).1 = .ok (.mat B) ∧
      (trainOne (mlpTrainer opt mask) epochs left l Xt Xo g).1 = .ok l' ∧ Spec.BgnnFits l' i o ∧
      l' = (Spec.mlpRounds opt (if left then m else n) o mask Xt.at_
        (fun mask => Spec.mlpStep mask (fun a b => if left then B.get a b else B.get b a) (if left then n else m) Xo.at_)
        epochs 0 (opt.init l, l.mode true)).mode false := by
  obtain ⟨B, _, hB, _⟩ := C25_bigraph_incidence hg hm hn hx
  obtain ⟨l', h⟩ := mlp_one hg hm hn hx left h0 h1 hl hB (U := Xt.at_) (V := Xo.at_)
    ⟨hT.1, hT.2, fun _ _ _ _ => rfl⟩ ⟨hO.1, hO.2, fun _ _ _ _ => rfl⟩ ho epochs
  exact ⟨B, l', hB, h⟩

/-- training all layers succeeds if training every single one does -/
theorem cascade_ok {S : Type} {g : BSt ℝ} {m n du dv : Nat} (hg : BiGraph.Built Graph.NonNeg g)
    (hm : (BiGraph.ask .numU g).1 = .ok (.num m)) (hn : (BiGraph.ask .numV g).1 = .ok (.num n))
    (hx : Spec.Bipartite m n g) {B : Sp ℝ} (hB : (BiGraph.ask .B g).1 = .ok (.mat B)) (epochs : Nat)
    (OK : (Nat → Trainer S) → (Nat → Bool → BgnnLayer → (Nat → Nat → ℝ) → (Nat → Nat → ℝ) → BgnnLayer) →
      Bool → List BgnnLayer → Prop)
    (H : ∀ T tr left l ls, OK T tr left (l :: ls) → OK (fun q => T (q + 1)) (fun q => tr (q + 1)) (!left) ls ∧
      ∀ (Xt Xo : Dense ℝ) (U V : Nat → Nat → ℝ), Tab (if left then m else n) (if left then du else dv) Xt U →
        Tab (if left then n else m) (if left then dv else du) Xo V →
        (trainOne (T 0) epochs left l Xt Xo g).1 = .ok (tr 0 left l U V) ∧
          Spec.BgnnFits (tr 0 left l U V) (if left then dv else du) (if left then du else dv))
    (ls : List BgnnLayer) : ∀ (T : Nat → Trainer S)
    (tr : Nat → Bool → BgnnLayer → (Nat → Nat → ℝ) → (Nat → Nat → ℝ) → BgnnLayer) (left : Bool), OK T tr left ls →
    ∀ (Xu Xv : Dense ℝ) (U V : Nat → Nat → ℝ) (g' : BSt ℝ), Tab m du Xu U → Tab n dv Xv V →
    (Coherent (Ord.evKey .bi) g' ∧ g'.raw = g.raw) →
    ∃ r, (cascadeLoop T epochs left ls Xu Xv g').1 = .ok r ∧ Spec.BgnnStack du dv left r.1 ∧
      r.1 = Spec.cascaded B.get m n tr left ls U V := by
  induction ls with
  | nil => intro T tr left _ Xu Xv U V g' _ _ _; cases left <;> exact ⟨_, rfl, trivial, rfl⟩
  | cons l ls ih =>
    intro T tr left hok Xu Xv U V g' hU hV hg'
    obtain ⟨hr, ht⟩ := H T tr left l ls hok
    cases left
    · simp only [Bool.false_eq_true, if_false] at ht
      obtain ⟨e1, f1⟩ := ht Xv Xu V U hV hU
      have rs := read_same (isRead_trainOne (T 0) epochs false l Xv Xu) hg.coh hg'.1 hg'.2
      have rs' := read_same (isRead_trainOne (T 0) epochs false l Xv Xu) hg'.1 hg'.1 rfl
      rcases he1 : trainOne (T 0) epochs false l Xv Xu g' with ⟨a1, s1⟩
      rw [he1] at rs rs'
      have ha1 : a1 = .ok (tr 0 false l V U) := rs.1.trans e1
      have h1 : Coherent (Ord.evKey .bi) s1 ∧ s1.raw = g.raw := ⟨rs'.2.1, rs'.2.2.trans hg'.2⟩
      obtain ⟨Y, s2, e2, h2, t2⟩ := upd_tab hg hm hn hx hB false f1 s1 h1 Xu U hU
      obtain ⟨r, e3, f3, c3⟩ := ih _ _ true hr Xu Y U _ s2 hU t2 h2
      refine ⟨(tr 0 false l V U :: r.1, r.2), ?_, ⟨f1, f3⟩, by rw [c3]; rfl⟩
      simp only [cascadeLoop, PyM.bind_apply, he1, ha1, e2]
      rcases he3 : cascadeLoop (fun i => T (i + 1)) epochs true ls Xu Y s2 with ⟨a3, s3⟩
      rw [he3] at e3
      rw [show a3 = .ok r from e3]
      rfl
    · simp only [if_true] at ht
      obtain ⟨e1, f1⟩ := ht Xu Xv U V hU hV
      have rs := read_same (isRead_trainOne (T 0) epochs true l Xu Xv) hg.coh hg'.1 hg'.2
      have rs' := read_same (isRead_trainOne (T 0) epochs true l Xu Xv) hg'.1 hg'.1 rfl
      rcases he1 : trainOne (T 0) epochs true l Xu Xv g' with ⟨a1, s1⟩
      rw [he1] at rs rs'
      have ha1 : a1 = .ok (tr 0 true l U V) := rs.1.trans e1
      have h1 : Coherent (Ord.evKey .bi) s1 ∧ s1.raw = g.raw := ⟨rs'.2.1, rs'.2.2.trans hg'.2⟩
      obtain ⟨Y, s2, e2, h2, t2⟩ := upd_tab hg hm hn hx hB true f1 s1 h1 Xv V hV
      obtain ⟨r, e3, f3, c3⟩ := ih _ _ false hr Y Xv _ V s2 t2 hV h2
      refine ⟨(tr 0 true l U V :: r.1, r.2), ?_, ⟨f1, f3⟩, by rw [c3]; rfl⟩
      simp only [cascadeLoop, PyM.bind_apply, he1, ha1, e2]
      rcases he3 : cascadeLoop (fun i => T (i + 1)) epochs false ls Y Xv s2 with ⟨a3, s3⟩
      rw [he3] at e3
      rw [show a3 = .ok r from e3]
      rfl

theorem train_of_cascade {S : Type} {T : Nat → Trainer S} {epochs : Nat} {ls : List BgnnLayer} {Xu Xv : Dense ℝ}
    {g : BSt ℝ} {r : List BgnnLayer × Dense ℝ × Dense ℝ} (h : (cascadeLoop T epochs true ls Xu Xv g).1 = .ok r) :
    (bgnnTrain T epochs ls Xu Xv g).1 = .ok (r.1, r.2.1) := by
  simp only [bgnnTrain, PyM.bind_apply]
  rcases he : cascadeLoop T epochs true ls Xu Xv g with ⟨a, s⟩
  rw [he] at h
  rw [show a = .ok r from h]
  rfl

/-- C130.  `BGNN_Adv.train_with_cascaded` never raises on a graph with vertices on both sides, whatever is
drawn at random; it trains layer after layer, each for `epochs` rounds of the game between the latest features
of both sides, and returns the features that the trained model computes. -/
theorem C130_adversarial_returns {SD SG : Type} {g : BSt ℝ} {m n du dv : Nat} (hg : BiGraph.Built Graph.NonNeg g)
    (hm : (BiGraph.ask .numU g).1 = .ok (.num m)) (hn : (BiGraph.ask .numV g).1 = .ok (.num n))
    (hx : Spec.Bipartite m n g) (h0 : 0 < m ∧ 0 < n) {ls : List BgnnLayer} (hl : Spec.BgnnStack du dv true ls)
    (hnone : ∀ l ∈ ls, l.dec = none) (Xu Xv : Dense ℝ) (hU : Xu.rows = m ∧ Xu.cols = du) (hV : Xv.rows = n ∧ Xv.cols = dv)
    {oD : Opt SD Discriminator} {oG : Opt SG BgnnLayer} (hoD : ∀ c, Spec.SoundOpt oD (Spec.Judges c))
    (hoG : ∀ i o, Spec.SoundOpt oG fun l => Spec.BgnnFits l i o ∧ l.dec = none)
    {draw : Nat → Nat → Nat → Nat → Discriminator} (hdraw : ∀ q c, Spec.Judges c (draw q c 16 1))
    (mask : Nat → Nat → Nat → Nat → Nat → ℝ) (epochs : Nat) :
    ∃ B ls' Y, (BiGraph.ask .B g).1 = .ok (.mat B) ∧
      (bgnnTrain (fun q => advTrainer oD oG (draw q) (mask q)) epochs ls Xu Xv g).1 = .ok (ls', Y) ∧
      ls' = Spec.cascaded B.get m n (fun q left l real other => Spec.advRounds oD oG (if left then m else n) (mask q) real
        (fun l => Spec.bgnnStep l (fun a b => if left then B.get a b else B.get b a) (if left then n else m) other)
        epochs 0 (oD.init (draw q (if left then du else dv) 16 1), draw q (if left then du else dv) 16 1)
        (oG.init l, l)) true ls Xu.at_ Xv.at_ ∧
      Y.rows = m ∧ Y.cols = du ∧
      ∀ i c, i < m → c < du → Y.at_ i c = (Spec.bgnnFeat B.get m n true ls' Xu.at_ Xv.at_).1 i c := by
  obtain ⟨B, _, hB, _⟩ := C25_bigraph_incidence hg hm hn hx
  obtain ⟨r, e, f, q⟩ := cascade_ok hg hm hn hx hB epochs
    (fun T tr left ls => (∃ (draw : Nat → Nat → Nat → Nat → Discriminator) (mask : Nat → Nat → Nat → Nat → Nat → ℝ),
      (∀ q c, Spec.Judges c (draw q c 16 1)) ∧
      (T = fun q => advTrainer oD oG (draw q) (mask q)) ∧
      tr = (fun q left l real other => Spec.advRounds oD oG (if left then m else n) (mask q) real
        (fun l => Spec.bgnnStep l (fun a b => if left then B.get a b else B.get b a) (if left then n else m) other)
        epochs 0 (oD.init (draw q (if left then du else dv) 16 1), draw q (if left then du else dv) 16 1)
        (oG.init l, l))) ∧ Spec.BgnnStack du dv left ls ∧ ∀ l ∈ ls, l.dec = none)
    (by
      rintro T tr left l ls ⟨⟨draw, mask, hd, rfl, rfl⟩, hs, hn'⟩
      refine ⟨⟨⟨fun q => draw (q + 1), fun q => mask (q + 1), fun q c => hd _ _, rfl, rfl⟩, ?_,
        fun l' h => hn' l' (by simp [h])⟩, ?_⟩
      · cases left
        · exact hs.2
        · exact hs.2
      · intro Xt Xo U V hT hO
        have hf : Spec.BgnnFits l (if left then dv else du) (if left then du else dv) := by
          cases left
          · exact hs.1
          · exact hs.1
        obtain ⟨l', e, f, q⟩ := adv_one (l := l) (draw := draw 0) hg hm hn hx left
          (by cases left <;> simp [h0]) ⟨hf, hn' l (List.mem_cons_self ..)⟩ hB hT hO (hoD _) (hoG _ _) (hd 0 _)
          (mask 0) epochs
        subst q
        exact ⟨e, f.1⟩)
    ls (fun q => advTrainer oD oG (draw q) (mask q)) _ true ⟨⟨draw, mask, hdraw, rfl, rfl⟩, hl, hnone⟩ Xu Xv Xu.at_ Xv.at_ g
    ⟨hU.1, hU.2, fun _ _ _ _ => rfl⟩ ⟨hV.1, hV.2, fun _ _ _ _ => rfl⟩ ⟨hg.coh, rfl⟩
  have e' := train_of_cascade e
  obtain ⟨B', Y, hB', eY, y1, y2, y3⟩ := C68_bgnn hg hm hn hx f Xu Xv hU hV
  rw [hB] at hB'
  cases hB'
  obtain ⟨_, eY', _⟩ := C68_training hg _ epochs ls r.1 Xu Xv r.2.1 e'
  rw [eY] at eY'
  cases eY'
  exact ⟨B, r.1, r.2.1, hB, e', q, y1, y2, y3⟩

/-- C130.  `BGNN_MLP.train_with_cascaded` never raises on a graph with vertices on both sides and features with
at least one column on each, whatever dropout does; it trains layer after layer, each with `epochs` steps towards
the latest features of its side, and returns the features that the trained model computes. -/
theorem C130_mlp_returns {S : Type} {g : BSt ℝ} {m n du dv : Nat} (hg : BiGraph.Built Graph.NonNeg g)
    (hm : (BiGraph.ask .numU g).1 = .ok (.num m)) (hn : (BiGraph.ask .numV g).1 = .ok (.num n))
    (hx : Spec.Bipartite m n g) (h0 : 0 < m ∧ 0 < n) (h1 : 0 < du ∧ 0 < dv) {mask : Nat → Nat → Nat → Nat → ℝ}
    {ls : List BgnnLayer} (hl : Spec.MlpStack du dv mask true ls)
    (Xu Xv : Dense ℝ) (hU : Xu.rows = m ∧ Xu.cols = du) (hV : Xv.rows = n ∧ Xv.cols = dv)
    {opt : Opt S BgnnLayer} (ho : ∀ mask i o, Spec.SoundOpt opt (Spec.MlpFits mask i o)) (epochs : Nat) :
    ∃ B ls' Y, (BiGraph.ask .B g).1 = .ok (.mat B) ∧
      (bgnnTrain (fun q => mlpTrainer opt (mask q)) epochs ls Xu Xv g).1 = .ok (ls', Y) ∧
      ls' = Spec.cascaded B.get m n (fun q left l real other => (Spec.mlpRounds opt (if left then m else n)
        (if left then du else dv) (mask q) real (fun mask => Spec.mlpStep mask
          (fun a b => if left then B.get a b else B.get b a) (if left then n else m) other)
        epochs 0 (opt.init l, l.mode true)).mode false) true ls Xu.at_ Xv.at_ ∧
      Y.rows = m ∧ Y.cols = du ∧
      ∀ i c, i < m → c < du → Y.at_ i c = (Spec.bgnnFeat B.get m n true ls' Xu.at_ Xv.at_).1 i c := by
  obtain ⟨B, _, hB, _⟩ := C25_bigraph_incidence hg hm hn hx
  obtain ⟨r, e, f, q⟩ := cascade_ok hg hm hn hx hB epochs
    (fun T tr left ls => ∃ mask : Nat → Nat → Nat → Nat → ℝ, (T = fun q => mlpTrainer opt (mask q)) ∧
      tr = (fun q left l real other => (Spec.mlpRounds opt (if left then m else n)
        (if left then du else dv) (mask q) real (fun mask => Spec.mlpStep mask
          (fun a b => if left then B.get a b else B.get b a) (if left then n else m) other)
        epochs 0 (opt.init l, l.mode true)).mode false) ∧ Spec.MlpStack du dv mask left ls)
    (by
      rintro T tr left l ls ⟨mask, rfl, rfl, hs⟩
      refine ⟨⟨fun q => mask (q + 1), rfl, rfl, ?_⟩, ?_⟩
      · cases left
        · exact hs.2
        · exact hs.2
      · intro Xt Xo U V hT hO
        have hf : Spec.MlpFits (mask 0 0) (if left then dv else du) (if left then du else dv) (l.mode true) := by
          cases left
          · exact hs.1
          · exact hs.1
        obtain ⟨l', e, f, q⟩ := mlp_one hg hm hn hx left (by cases left <;> simp [h0]) (by cases left <;> simp [h1])
          hf hB hT hO (fun k => ho _ _ _) epochs
        subst q
        exact ⟨e, f⟩)
    ls (fun q => mlpTrainer opt (mask q)) _ true ⟨mask, rfl, rfl, hl⟩ Xu Xv Xu.at_ Xv.at_ g
    ⟨hU.1, hU.2, fun _ _ _ _ => rfl⟩ ⟨hV.1, hV.2, fun _ _ _ _ => rfl⟩ ⟨hg.coh, rfl⟩
  have e' := train_of_cascade e
  obtain ⟨B', Y, hB', eY, y1, y2, y3⟩ := C68_bgnn hg hm hn hx f Xu Xv hU hV
  rw [hB] at hB'
  cases hB'
  obtain ⟨_, eY', _⟩ := C68_training hg _ epochs ls r.1 Xu Xv r.2.1 e'
  rw [eY] at eY'
  cases eY'
  exact ⟨B, r.1, r.2.1, hB, e', q, y1, y2, y3⟩

theorem surprise_pos {p : ℝ} (h0 : 0 < p) (h1 : p < 1) : 0 < Spec.surprise p ∧ Spec.surprise p ≤ 100 := by
  unfold Spec.surprise
  exact ⟨lt_min (by linarith [Real.log_neg h0 h1]) (by norm_num), min_le_right _ _⟩

/-- `-log p - log (1 - p)`, both cut at 100, is least for `p = 1/2` -/
theorem surprise_pair {p : ℝ} (h0 : 0 < p) (h1 : p < 1) :
    2 * Real.log 2 ≤ Spec.surprise p + Spec.surprise (1 - p) ∧
      (Spec.surprise p + Spec.surprise (1 - p) = 2 * Real.log 2 ↔ p = 1 / 2) := by
  have hl2 : Real.log 2 < 1 := by
    have := Real.log_lt_sub_one_of_pos (show (0 : ℝ) < 2 by norm_num) (by norm_num); linarith
  have q := surprise_pos (p := 1 - p) (by linarith) (by linarith)
  have q' := surprise_pos h0 h1
  by_cases c1 : 100 ≤ -Real.log p
  · have e1 : Spec.surprise p = 100 := min_eq_right c1
    refine ⟨by linarith, fun h => by linarith, ?_⟩
    rintro rfl
    rw [one_div, Real.log_inv] at c1
    linarith
  by_cases c2 : 100 ≤ -Real.log (1 - p)
  · have e1 : Spec.surprise (1 - p) = 100 := min_eq_right c2
    refine ⟨by linarith, fun h => by linarith, ?_⟩
    rintro rfl
    rw [show (1 : ℝ) - 1 / 2 = 2⁻¹ by norm_num, Real.log_inv] at c2
    linarith
  have e1 : Spec.surprise p = -Real.log p := min_eq_left (not_le.1 c1).le
  have e2 : Spec.surprise (1 - p) = -Real.log (1 - p) := min_eq_left (not_le.1 c2).le
  have hp : p ≠ 0 := h0.ne'
  have hp' : (1 : ℝ) - p ≠ 0 := by linarith
  have e3 : -Real.log p + -Real.log (1 - p) = 2 * Real.log 2 - Real.log (4 * (p * (1 - p))) := by
    rw [Real.log_mul (by norm_num) (mul_ne_zero hp hp'), Real.log_mul hp hp',
      show (4 : ℝ) = 2 ^ 2 by norm_num, Real.log_pow]
    push_cast
    ring
  have pos : 0 < 4 * (p * (1 - p)) := by have := mul_pos h0 (show 0 < 1 - p by linarith); linarith
  have le1 : 4 * (p * (1 - p)) ≤ 1 := by nlinarith [sq_nonneg (2 * p - 1)]
  rw [e1, e2, e3]
  have := Real.log_nonpos pos.le le1
  refine ⟨by linarith, fun h => ?_, fun h => ?_⟩
  · have h4 : Real.log (4 * (p * (1 - p))) = 0 := by linarith
    have h5 : 4 * (p * (1 - p)) = 1 := by
      have := Real.exp_log pos
      rw [h4, Real.exp_zero] at this
      exact this.symm
    have h6 : (2 * p - 1) ^ 2 = 0 := by nlinarith
    have := pow_eq_zero_iff (two_ne_zero) |>.1 h6
    linarith
  · subst h
    norm_num

/-- C130.  Where the game ends: when the made-up rows equal the true rows, no discriminator (in evaluation mode)
gets below the loss `2 log 2`, and it is reached exactly by those that answer 1/2 for every row. -/
theorem C130_equilibrium {c : Nat} {D : Discriminator} (hD : Spec.Judges c D) (X : Dense ℝ) (hX : X.cols = c)
    (h0 : 0 < X.rows) : ∃ v P, lossD (fun _ Y => Y) X X D = .ok v ∧ D.fwd (fun Y => Y) X = .ok P ∧
      2 * Real.log 2 ≤ v ∧ (v = 2 * Real.log 2 ↔ ∀ i, i < X.rows → P.at_ i 0 = 1 / 2) := by
  have hid : (fun j : Nat => dropMask ((fun _ _ _ => (1 : ℝ)) j)) = fun _ Y => Y := by
    funext j Y; simp [dropMask]
  have tX : Tab X.rows c X X.at_ := ⟨rfl, hX, fun _ _ _ _ => rfl⟩
  have e := lossD_eq h0 (fun _ _ _ => 1) tX tX hD
  rw [hid] at e
  obtain ⟨P, eP, p1, p2, p3⟩ := (C130_discriminator hD X).1 hX
  refine ⟨_, P, e, eP, ?_⟩
  have hv : Spec.advLossD X.rows (fun _ _ _ => 1) X.at_ X.at_ D = (∑ i ∈ range X.rows,
      (Spec.surprise (P.at_ i 0) + Spec.surprise (1 - P.at_ i 0))) / X.rows := by
    unfold Spec.advLossD
    rw [← add_div, ← sum_add_distrib]
    congr 1
    exact sum_congr rfl fun i hi => by rw [(p3 i (mem_range.1 hi)).1]
  have hr : (0 : ℝ) < X.rows := by exact_mod_cast h0
  have hs : ∀ i ∈ range X.rows, 2 * Real.log 2 ≤ Spec.surprise (P.at_ i 0) + Spec.surprise (1 - P.at_ i 0) :=
    fun i hi => (surprise_pair (p3 i (mem_range.1 hi)).2.1 (p3 i (mem_range.1 hi)).2.2).1
  have hsum : (∑ _i ∈ range X.rows, 2 * Real.log 2) = 2 * Real.log 2 * X.rows := by
    rw [sum_const, card_range, nsmul_eq_mul, mul_comm]
  rw [hv]
  constructor
  · rw [le_div_iff₀ hr, ← hsum]
    exact sum_le_sum hs
  · rw [div_eq_iff hr.ne', ← hsum, eq_comm, sum_eq_sum_iff_of_le hs]
    refine ⟨fun h i hi => ?_, fun h i hi => ?_⟩
    · exact (surprise_pair (p3 i hi).2.1 (p3 i hi).2.2).2.1 (h i (mem_range.2 hi)).symm
    · have hi' := mem_range.1 hi
      exact ((surprise_pair (p3 i hi').2.1 (p3 i hi').2.2).2.2 (h i hi')).symm

/-- C130.  The two losses of `BGNN_Adv` are positive and at most 200 and 100, whatever the parameters, the masks
and the rows. -/
theorem C130_bounds {a c : Nat} (ha : 0 < a) (mask : Nat → Nat → Nat → ℝ) {D : Discriminator} (hD : Spec.Judges c D)
    (R F : Dense ℝ) (hR : R.rows = a ∧ R.cols = c) (hF : F.rows = a ∧ F.cols = c) (l : BgnnLayer) :
    (∃ v, lossD (fun j => dropMask (mask j)) R F D = .ok v ∧ 0 < v ∧ v ≤ 200) ∧
    ∃ v, lossG (fun j => dropMask (mask j)) R D (fun _ => .ok F) l = .ok v ∧ 0 < v ∧ v ≤ 100 := by
  have tR : Tab a c R R.at_ := ⟨hR.1, hR.2, fun _ _ _ _ => rfl⟩
  have tF : Tab a c F F.at_ := ⟨hF.1, hF.2, fun _ _ _ _ => rfl⟩
  have hr : (0 : ℝ) < a := by exact_mod_cast ha
  have mean : ∀ p : Nat → ℝ, (∀ i, 0 < p i ∧ p i < 1) → 0 < (∑ i ∈ range a, Spec.surprise (p i)) / a ∧
      (∑ i ∈ range a, Spec.surprise (p i)) / a ≤ 100 := by
    intro p hp
    constructor
    · exact div_pos (sum_pos (fun i _ => (surprise_pos (hp i).1 (hp i).2).1) ⟨0, mem_range.2 ha⟩) hr
    · rw [div_le_iff₀ hr]
      calc _ ≤ ∑ _i ∈ range a, (100 : ℝ) := sum_le_sum fun i _ => (surprise_pos (hp i).1 (hp i).2).2
        _ = 100 * a := by rw [sum_const, card_range, nsmul_eq_mul, mul_comm]
  refine ⟨⟨_, lossD_eq ha mask tR tF hD, ?_⟩, _, lossG_eq ha mask hR.1 tF hD rfl, ?_⟩
  · have h1 := mean (fun i => Spec.verdict D (mask 0 i) (R.at_ i)) fun i => verdict_range _ _ _
    have h2 := mean (fun i => 1 - Spec.verdict D (mask 1 i) (F.at_ i)) fun i =>
      ⟨by linarith [(verdict_range D (mask 1 i) (F.at_ i)).2], by linarith [(verdict_range D (mask 1 i) (F.at_ i)).1]⟩
    unfold Spec.advLossD
    exact ⟨by linarith, by linarith⟩
  · exact mean (fun i => Spec.verdict D (mask 2 i) (F.at_ i)) fun i => verdict_range _ _ _

/-- C130.  The loss of `BGNN_MLP` is never negative, and zero exactly when the rows made equal the true rows. -/
theorem C130_mlp_loss {a c : Nat} (ha : 0 < a) (hc : 0 < c) (R F : Dense ℝ) (hR : R.rows = a ∧ R.cols = c)
    (hF : F.rows = a ∧ F.cols = c) (l : BgnnLayer) :
    ∃ v, lossMlp R (fun _ => .ok F) l = .ok v ∧ 0 ≤ v ∧ (v = 0 ↔ ∀ i j, i < a → j < c → F.at_ i j = R.at_ i j) := by
  refine ⟨_, mse_eq ha hc (x := F.at_) (y := R.at_) ⟨hF.1, hF.2, fun _ _ _ _ => rfl⟩ ⟨hR.1, hR.2, fun _ _ _ _ => rfl⟩, ?_⟩
  have hr : (0 : ℝ) < (a : ℝ) * c := by have : 0 < a * c := Nat.mul_pos ha hc; exact_mod_cast this
  have h0 : ∀ i ∈ range a, 0 ≤ ∑ j ∈ range c, (F.at_ i j - R.at_ i j) ^ 2 := fun i _ => sum_nonneg fun j _ => sq_nonneg _
  unfold Spec.meanSq
  refine ⟨div_nonneg (sum_nonneg h0) hr.le, ?_⟩
  rw [div_eq_zero_iff, or_iff_left hr.ne', sum_eq_zero_iff_of_nonneg h0]
  constructor
  · intro h i j hi hj
    have := (sum_eq_zero_iff_of_nonneg fun j _ => sq_nonneg _).1 (h i (mem_range.2 hi)) j (mem_range.2 hj)
    have := pow_eq_zero_iff (two_ne_zero) |>.1 this
    linarith
  · intro h i hi
    exact sum_eq_zero fun j hj => by rw [h i j (mem_range.1 hi) (mem_range.1 hj), sub_self]; norm_num

/-- C130.  `BGNN_MLP` makes rows with entries strictly between -1 and 1 only: a true entry `x` with `|x| ≥ 1`
keeps the loss above `(|x| - 1)² / (a c)` for all parameters of layer and decoder. -/
theorem C130_mlp_floor {g : BSt ℝ} {m n : Nat} (hg : BiGraph.Built Graph.NonNeg g)
    (hm : (BiGraph.ask .numU g).1 = .ok (.num m)) (hn : (BiGraph.ask .numV g).1 = .ok (.num n))
    (hx : Spec.Bipartite m n g) (left : Bool) {i o : Nat} {mask : Nat → Nat → ℝ} {l : BgnnLayer}
    (hl : Spec.MlpFits mask i o l)
    (Xt Xo : Dense ℝ) (hT : Xt.rows = (if left then m else n) ∧ Xt.cols = o)
    (hO : Xo.rows = (if left then n else m) ∧ Xo.cols = i) (p q : Nat) (hp : p < Xt.rows) (hq : q < o)
    (hbig : 1 ≤ |Xt.at_ p q|) :
    ∃ fake v, (bgnnFake left Xo g).1 = .ok fake ∧ lossMlp Xt fake l = .ok v ∧
      (|Xt.at_ p q| - 1) ^ 2 / (Xt.rows * o) < v := by
  obtain ⟨B, _, hB, _⟩ := C25_bigraph_incidence hg hm hn hx
  have tT : Tab (if left then m else n) o Xt Xt.at_ := ⟨hT.1, hT.2, fun _ _ _ _ => rfl⟩
  have tO : Tab (if left then n else m) i Xo Xo.at_ := ⟨hO.1, hO.2, fun _ _ _ _ => rfl⟩
  obtain ⟨F, s1, e1, _, t1⟩ := upd_train_tab hg hm hn hx hB left hl g ⟨hg.coh, rfl⟩ Xo Xo.at_ tO
  have h0 : 0 < if left then m else n := by rw [← hT.1]; omega
  have ho : 0 < o := by omega
  refine ⟨_, Spec.meanSq (if left then m else n) o (Spec.mlpStep mask
      (fun a b => if left then B.get a b else B.get b a) (if left then n else m) Xo.at_ l) Xt.at_, rfl, ?_, ?_⟩
  · simp only [lossMlp, e1, bind, Except.bind]
    exact mse_eq h0 ho t1 tT
  · have hr : (0 : ℝ) < ((if left then m else n : Nat) : ℝ) * o := by
      have := Nat.mul_pos h0 ho
      exact_mod_cast this
    unfold Spec.meanSq
    rw [hT.1]
    refine div_lt_div_of_pos_right ?_ hr
    generalize hY : Spec.mlpStep mask (fun a b => if left then B.get a b else B.get b a) (if left then n else m) Xo.at_ l = Y
    have hY1 : |Y p q| < 1 := by
      rw [← hY]
      unfold Spec.mlpStep
      obtain ⟨_, d, hd, _⟩ := hl
      rw [hd, abs_lt]
      exact ⟨Real.neg_one_lt_tanh _, Real.tanh_lt_one _⟩
    have hpq : (|Xt.at_ p q| - 1) ^ 2 < (Y p q - Xt.at_ p q) ^ 2 := by
      rw [← sq_abs (Y p q - Xt.at_ p q)]
      have : |Xt.at_ p q| - |Y p q| ≤ |Y p q - Xt.at_ p q| := by
        rw [abs_sub_comm]; exact abs_sub_abs_le_abs_sub _ _
      nlinarith
    refine hpq.trans_le ?_
    calc (Y p q - Xt.at_ p q) ^ 2 ≤ ∑ j ∈ range o, (Y p j - Xt.at_ p j) ^ 2 :=
          single_le_sum (f := fun j => (Y p j - Xt.at_ p j) ^ 2) (fun j _ => sq_nonneg _) (mem_range.2 hq)
      _ ≤ _ := single_le_sum (f := fun i => ∑ j ∈ range o, (Y i j - Xt.at_ i j) ^ 2)
          (fun i _ => sum_nonneg fun j _ => sq_nonneg _) (mem_range.2 (by rw [← hT.1]; exact hp))

/-! ### examples -/

/-- example optimizer: try the parameters `h p` and keep them if the loss is smaller -/
noncomputable def exTry {P : Type} (h : P → P) : Opt Unit P where
  init _ := ()
  step _ p f := ((), match f (h p), f p with
    | .ok x, .ok y => if x < y then h p else p
    | _, _ => p)

theorem exTry_sound {P : Type} {h : P → P} {ok : P → Prop} (hh : ∀ p, ok p → ok (h p)) : Spec.SoundOpt (exTry h) ok := by
  constructor
  · intro s p f hp
    simp only [exTry]
    split
    · split
      · exact hh p hp
      · exact hp
    · exact hp
  · intro s p f f' hp hf
    simp only [exTry, hf p hp, hf (h p) (hh p hp)]

/-- a linear map with halved weights -/
noncomputable def exHalf (l : Linear ℝ) : Linear ℝ := { l with weight := mapD (fun x => x / 2) l.weight }

/-- example discriminator -/
noncomputable def exDisc (c h o : Nat) : Discriminator :=
  ⟨⟨⟨h, c, fun a b => a - b⟩, some fun _ => 1⟩, ⟨⟨o, h, fun a b => a + b⟩, none⟩⟩

theorem exHalf_disc {c : Nat} (D : Discriminator) (h : Spec.Judges c D) :
    Spec.Judges c ⟨exHalf D.first, exHalf D.second⟩ := h

theorem exHalf_layer {i o : Nat} (l : BgnnLayer) (h : Spec.BgnnFits l i o ∧ l.dec = none) :
    Spec.BgnnFits { l with lin := exHalf l.lin } i o ∧ ({ l with lin := exHalf l.lin } : BgnnLayer).dec = none := by
  obtain ⟨h1, h2⟩ := h
  unfold Spec.BgnnFits at h1 ⊢
  rw [h2] at h1
  rw [show ({ l with lin := exHalf l.lin } : BgnnLayer).dec = none from h2]
  exact ⟨h1, rfl⟩

theorem exHalf_mlp {mask : Nat → Nat → ℝ} {i o : Nat} (l : BgnnLayer) (h : Spec.MlpFits mask i o l) :
    Spec.MlpFits mask i o { l with lin := exHalf l.lin } := h

example : ∃ ls' Y, (bgnnTrain (fun q => advTrainer (exTry fun D => ⟨exHalf D.first, exHalf D.second⟩)
      (exTry fun l => { l with lin := exHalf l.lin }) exDisc fun k j _ c => if (k + j + c + q) % 2 = 0 then 0 else 2) 5
    [exLay 2 3 false, exLay 3 2 false] ⟨2, 3, fun i c => i + c⟩ ⟨3, 2, fun i c => i - c⟩ exB).1 = .ok (ls', Y) := by
  obtain ⟨_, ls', Y, _, h, _⟩ := C130_adversarial_returns (du := 3) (dv := 2) exB_nonneg exB_numU exB_numV exB_flag
    ⟨by norm_num, by norm_num⟩ (ls := [exLay 2 3 false, exLay 3 2 false]) ⟨⟨rfl, rfl⟩, ⟨rfl, rfl⟩, trivial⟩
    (by intro l hl; simp only [List.mem_cons, List.not_mem_nil, or_false] at hl; rcases hl with rfl | rfl <;> rfl)
    ⟨2, 3, fun i c => i + c⟩ ⟨3, 2, fun i c => i - c⟩ ⟨rfl, rfl⟩ ⟨rfl, rfl⟩
    (fun c => exTry_sound (ok := Spec.Judges c) exHalf_disc) (fun i o => exTry_sound exHalf_layer)
    (draw := fun _ => exDisc) (fun _ _ => ⟨rfl, rfl, rfl⟩)
    (fun q k j _ c => if (k + j + c + q) % 2 = 0 then 0 else 2) 5
  exact ⟨ls', Y, h⟩

/-- example layer of `BGNN_MLP` with a dropout mask -/
noncomputable def exMlpLay (i o : Nat) (mask : Nat → Nat → ℝ) : BgnnLayer :=
  { lin := ⟨⟨o, i, fun a b => a + 2 * b⟩, some fun _ => 1⟩
    dec := some ⟨⟨⟨4, o, fun a b => a - b⟩, none⟩, ⟨⟨o, 4, fun a b => a * b⟩, none⟩, dropMask mask, true⟩ }

example : ∃ ls' Y, (bgnnTrain (fun q => mlpTrainer (exTry fun l => { l with lin := exHalf l.lin })
      fun k _ c => if (k + c + q) % 2 = 0 then 0 else 2) 5
    [exMlpLay 2 3 fun _ c => if (0 + c + 0) % 2 = 0 then 0 else 2, exMlpLay 3 2 fun _ c => if (0 + c + 1) % 2 = 0 then 0 else 2]
    ⟨2, 3, fun i c => i + c⟩ ⟨3, 2, fun i c => i - c⟩ exB).1 = .ok (ls', Y) := by
  obtain ⟨_, ls', Y, _, h, _⟩ := C130_mlp_returns (du := 3) (dv := 2)
    (mask := fun q k _ c => if (k + c + q) % 2 = 0 then 0 else 2) exB_nonneg exB_numU exB_numV exB_flag
    ⟨by norm_num, by norm_num⟩ ⟨by norm_num, by norm_num⟩
    (ls := [exMlpLay 2 3 fun _ c => if (0 + c + 0) % 2 = 0 then 0 else 2,
      exMlpLay 3 2 fun _ c => if (0 + c + 1) % 2 = 0 then 0 else 2])
    ⟨⟨rfl, _, rfl, rfl, rfl, rfl, rfl, rfl⟩, ⟨rfl, _, rfl, rfl, rfl, rfl, rfl, rfl⟩, trivial⟩
    ⟨2, 3, fun i c => i + c⟩ ⟨3, 2, fun i c => i - c⟩ ⟨rfl, rfl⟩ ⟨rfl, rfl⟩
    (fun mask i o => exTry_sound exHalf_mlp) 5
  exact ⟨ls', Y, h⟩

example : Spec.Judges 3 (exDisc 3 16 1) := ⟨rfl, rfl, rfl⟩

end Props
end DHG
