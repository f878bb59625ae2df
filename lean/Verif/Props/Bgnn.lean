import Verif.Bgnn
import Verif.Props.Recommend

/-!
# Properties of `BGNN_Adv` and `BGNN_MLP` (C68)
-/

set_option linter.unusedSectionVars false
set_option autoImplicit false

namespace DHG

namespace Spec

/-- A layer that turns features with `i` columns into features with `o` columns, in evaluation mode. -/
def BgnnFits (l : Nn.BgnnLayer) (i o : Nat) : Prop :=
  l.lin.weight.cols = i ∧
    match l.dec with
    | none => l.lin.weight.rows = o
    | some d => d.first.weight.cols = l.lin.weight.rows ∧ d.second.weight.cols = d.first.weight.rows ∧
        d.second.weight.rows = o ∧ d.training = false

/-- Layers that map alternately from the right side (`dv` columns) to the left side (`du` columns) and back,
starting towards the left side if `left`. -/
def BgnnStack (du dv : Nat) : Bool → List Nn.BgnnLayer → Prop
  | _, [] => True
  | true, l :: ls => BgnnFits l dv du ∧ BgnnStack du dv false ls
  | false, l :: ls => BgnnFits l du dv ∧ BgnnStack du dv true ls

/-- a rectifier -/
noncomputable def rect (x : ℝ) : ℝ := max x 0

/-- what a decoder makes of one row: `tanh (W₂ max(W₁ x + b₁, 0) + b₂)` -/
noncomputable def decoded (d : Nn.Decoder) (x : Nat → ℝ) (o : Nat) : ℝ :=
  Real.tanh (lin d.second d.second.weight.cols (fun h => rect (lin d.first d.first.weight.cols x h)) o)

/-- the features of vertex `a` after a layer: the sum over the `n` vertices `b` of the other side, weighted with
`w a b`, of `W x_b + b`, then `tanh`, then the decoder if there is one -/
noncomputable def bgnnStep (l : Nn.BgnnLayer) (w : Nat → Nat → ℝ) (n : Nat) (X : Nat → Nat → ℝ) (a : Nat) :
    Nat → ℝ :=
  let h := fun o => Real.tanh (∑ b ∈ Finset.range n, w a b * lin l.lin l.lin.weight.cols (X b) o)
  match l.dec with
  | none => h
  | some d => decoded d h

/-- the features of both sides after all layers; `m` vertices on the left, `n` on the right, `B` the weights
of the edges -/
noncomputable def bgnnFeat (B : Nat → Nat → ℝ) (m n : Nat) : Bool → List Nn.BgnnLayer →
    (Nat → Nat → ℝ) → (Nat → Nat → ℝ) → (Nat → Nat → ℝ) × (Nat → Nat → ℝ)
  | _, [], U, V => (U, V)
  | true, l :: ls, _, V => bgnnFeat B m n false ls (bgnnStep l B n V) V
  | false, l :: ls, U, _ => bgnnFeat B m n true ls U (bgnnStep l (fun v u => B u v) m U)

end Spec

namespace Props

open Finset Nn

/-! ### pieces -/

theorem isRead_bgnnPass (left : Bool) (X : Dense ℝ) : ∃ f, Ord.OReads .bi (bgnnPass left X) f := by
  cases left
  · exact ⟨_, BiGraph.reads_u2v _ _ _ _ _⟩
  · exact ⟨_, BiGraph.reads_v2u _ _ _ _ _⟩

theorem isRead_bgnnUpd (l : BgnnLayer) (left : Bool) (X : Dense ℝ) : ∃ f, Ord.OReads .bi (bgnnUpd l left X) f :=
  isRead_bind ⟨_, Reads.lift _⟩ fun _ => isRead_bind (isRead_bgnnPass _ _) fun _ => ⟨_, Reads.lift _⟩

theorem isRead_bgnnLoop (ls : List BgnnLayer) : ∀ (left : Bool) (Xu Xv : Dense ℝ),
    ∃ f, Ord.OReads .bi (bgnnLoop left ls Xu Xv) f := by
  induction ls with
  | nil => intro left Xu Xv; cases left <;> exact ⟨_, Reads.pure _⟩
  | cons l ls ih =>
    intro left Xu Xv
    cases left
    · exact isRead_bind (isRead_bgnnUpd _ _ _) fun _ => ih _ _ _
    · exact isRead_bind (isRead_bgnnUpd _ _ _) fun _ => ih _ _ _

theorem isRead_bgnn (ls : List BgnnLayer) (Xu Xv : Dense ℝ) : ∃ f, Ord.OReads .bi (bgnn ls Xu Xv) f :=
  isRead_bind (isRead_bgnnLoop _ _ _ _) fun _ => ⟨_, Reads.pure _⟩

theorem isRead_bgnnFake (left : Bool) (X : Dense ℝ) : ∃ f, Ord.OReads .bi (bgnnFake left X) f := by
  choose f hf using fun l => isRead_bgnnUpd l left X
  refine ⟨fun r => .ok fun l => f l r, fun g hg => ⟨?_, rfl, hg⟩⟩
  show Except.ok _ = _
  congr 1
  funext l
  exact (hf l g hg).1

theorem isRead_trainEpochs {S : Type} (T : Trainer S) (left : Bool) (Xt Xo : Dense ℝ) (k : Nat) :
    ∀ (s : S) (l : BgnnLayer), ∃ f, Ord.OReads .bi (trainEpochs T left Xt Xo k s l) f := by
  induction k with
  | zero => intro s l; exact ⟨_, Reads.pure _⟩
  | succ k ih =>
    intro s l
    exact isRead_bind (isRead_bgnnUpd _ _ _) fun _ => isRead_bind (isRead_bgnnFake _ _) fun _ =>
      isRead_bind ⟨_, Reads.lift _⟩ fun _ => ih _ _

theorem isRead_trainOne {S : Type} (T : Trainer S) (k : Nat) (left : Bool) (l : BgnnLayer) (Xt Xo : Dense ℝ) :
    ∃ f, Ord.OReads .bi (trainOne T k left l Xt Xo) f :=
  isRead_bind (isRead_trainEpochs _ _ _ _ _ _ _) fun _ => ⟨_, Reads.pure _⟩

/-- a reading call gives the same answer on objects with the same edges -/
theorem read_same {α : Type} {m : PyM (BSt ℝ) α} (hm : ∃ f, Ord.OReads .bi m f) {g g' : BSt ℝ}
    (hg : Coherent (Ord.evKey .bi) g) (hg' : Coherent (Ord.evKey .bi) g') (hr : g'.raw = g.raw) :
    (m g').1 = (m g).1 ∧ Coherent (Ord.evKey .bi) (m g).2 ∧ (m g).2.raw = g.raw := by
  obtain ⟨f, hf⟩ := hm
  have h := hf g hg
  exact ⟨by rw [(hf g' hg').1, h.1, hr], h.2.2, h.2.1⟩

/-- an affine map of the rows -/
theorem linear_tab {l : Linear ℝ} {n d : Nat} (h2 : l.weight.cols = d) {X : Dense ℝ}
    {T : Nat → Nat → ℝ} (hX : Tab n d X T) :
    ∃ Y, l.fwd X = .ok Y ∧ Tab n l.weight.rows Y fun i => Spec.lin l l.weight.cols (T i) := by
  obtain ⟨Y, hY, y1, y2, y3⟩ := linear_ok l (X := X) (by rw [hX.2.1, h2])
  refine ⟨Y, hY, y1.trans hX.1, y2, fun i o hi ho => ?_⟩
  rw [y3]
  unfold Spec.affine Spec.lin
  rw [hX.2.1, h2]
  congr 1
  exact sum_congr rfl fun c hc => by rw [hX.2.2 i c hi (mem_range.1 hc)]

theorem relu_rect (x : ℝ) : relu x = Spec.rect x := by
  unfold relu Spec.rect
  split
  · rename_i h; exact (max_eq_left h.le).symm
  · rename_i h; exact (max_eq_right (not_lt.1 h)).symm

theorem lin_congr {l : Linear ℝ} {d : Nat} {x y : Nat → ℝ} (h : ∀ c < d, x c = y c) (o : Nat) :
    Spec.lin l d x o = Spec.lin l d y o := by
  unfold Spec.lin
  congr 1
  exact sum_congr rfl fun c hc => by rw [h c (mem_range.1 hc)]

/-- one pass of messages on an object with the same edges as `g` -/
theorem pass_tab {g : BSt ℝ} {m n : Nat} (hg : BiGraph.Built Graph.NonNeg g)
    (hm : (BiGraph.ask .numU g).1 = .ok (.num m)) (hn : (BiGraph.ask .numV g).1 = .ok (.num n))
    (hx : Spec.Bipartite m n g) {B : Sp ℝ} (hB : (BiGraph.ask .B g).1 = .ok (.mat B))
    (left : Bool) {d : Nat} (g' : BSt ℝ) (hg' : Coherent (Ord.evKey .bi) g' ∧ g'.raw = g.raw) (X : Dense ℝ)
    (T : Nat → Nat → ℝ) (hX : Tab (if left then n else m) d X T) :
    ∃ Y s', bgnnPass left X g' = (.ok Y, s') ∧ (Coherent (Ord.evKey .bi) s' ∧ s'.raw = g.raw) ∧
      Tab (if left then m else n) d Y fun a c =>
        if left then ∑ b ∈ range n, B.get a b * T b c else ∑ b ∈ range m, B.get b a * T b c := by
  have hc := hg.coh
  cases left
  · obtain ⟨B', P, _, hB', hP, p1, p2, p3, _⟩ := C27_bigraph_sum hg hm hn hx X ⟨n, 0, fun _ _ => 0⟩ hX.1 rfl fun _ => true
    rw [hB] at hB'; cases hB'
    have h1 : (bgnnPass false X g').1 = .ok P := by
      rw [(BiGraph.reads_ask _ g hc).1] at hP
      show (BiGraph.u2v X .sum none 0 (fun _ => true) g').1 = _
      rw [(BiGraph.reads_u2v _ _ _ _ _ g' hg'.1).1, hg'.2]
      simp only [BiGraph.evAsk] at hP
      cases he : BiGraph.evU2v X .sum none 0 (fun _ => true) g.raw <;> rw [he] at hP <;> cases hP
      rfl
    obtain ⟨_, h2, h3⟩ := read_same (isRead_bgnnPass false X) hg'.1 hg'.1 rfl
    refine ⟨P, _, Prod.ext h1 rfl, ⟨h2, h3.trans hg'.2⟩, p1, p2.trans hX.2.1, fun i c hi hcd => ?_⟩
    rw [p3]
    exact sum_congr rfl fun j hj => by rw [hX.2.2 j c (mem_range.1 hj) hcd]
  · obtain ⟨B', _, Q, hB', _, _, _, _, hQ, p1, p2, p3⟩ := C27_bigraph_sum hg hm hn hx ⟨m, 0, fun _ _ => 0⟩ X rfl hX.1 fun _ => true
    rw [hB] at hB'; cases hB'
    have h1 : (bgnnPass true X g').1 = .ok Q := by
      rw [(BiGraph.reads_ask _ g hc).1] at hQ
      show (BiGraph.v2u X .sum none 0 (fun _ => true) g').1 = _
      rw [(BiGraph.reads_v2u _ _ _ _ _ g' hg'.1).1, hg'.2]
      simp only [BiGraph.evAsk] at hQ
      cases he : BiGraph.evV2u X .sum none 0 (fun _ => true) g.raw <;> rw [he] at hQ <;> cases hQ
      rfl
    obtain ⟨_, h2, h3⟩ := read_same (isRead_bgnnPass true X) hg'.1 hg'.1 rfl
    refine ⟨Q, _, Prod.ext h1 rfl, ⟨h2, h3.trans hg'.2⟩, p1, p2.trans hX.2.1, fun i c hi hcd => ?_⟩
    rw [p3]
    exact sum_congr rfl fun j hj => by rw [hX.2.2 j c (mem_range.1 hj) hcd]

/-- the decoder, row by row -/
theorem decode_tab {l : BgnnLayer} {i o n : Nat} (hl : Spec.BgnnFits l i o) {Y : Dense ℝ} {h : Nat → Nat → ℝ}
    (hY : Tab n l.lin.weight.rows Y h) :
    ∃ Z, l.decode Y = .ok Z ∧ Tab n o Z fun a => match l.dec with | none => h a | some d => Spec.decoded d (h a) := by
  unfold Spec.BgnnFits at hl
  unfold BgnnLayer.decode
  rcases hd : l.dec with _ | d <;> rw [hd] at hl
  · simp only at hl ⊢
    exact ⟨Y, rfl, by rw [← hl.2]; exact hY⟩
  · simp only at hl ⊢
    obtain ⟨_, h1, h2, h3, h4⟩ := hl
    obtain ⟨Y1, e1, t1⟩ := linear_tab h1 hY
    obtain ⟨Y2, e2, t2⟩ := linear_tab h2 (map_tab relu_rect t1)
    refine ⟨mapD Real.tanh Y2, ?_, ?_⟩
    · simp only [Decoder.fwd, e1, h4, bind, Except.bind, Bool.false_eq_true, if_false, e2, pure, Except.pure]
    · rw [← h3]
      exact map_tab (fun _ => rfl) t2

/-- one layer on an object with the same edges as `g` -/
theorem upd_tab {g : BSt ℝ} {m n : Nat} (hg : BiGraph.Built Graph.NonNeg g)
    (hm : (BiGraph.ask .numU g).1 = .ok (.num m)) (hn : (BiGraph.ask .numV g).1 = .ok (.num n))
    (hx : Spec.Bipartite m n g) {B : Sp ℝ} (hB : (BiGraph.ask .B g).1 = .ok (.mat B))
    (left : Bool) {i o : Nat} {l : BgnnLayer} (hl : Spec.BgnnFits l i o) (g' : BSt ℝ)
    (hg' : Coherent (Ord.evKey .bi) g' ∧ g'.raw = g.raw) (X : Dense ℝ)
    (T : Nat → Nat → ℝ) (hX : Tab (if left then n else m) i X T) :
    ∃ Y s', bgnnUpd l left X g' = (.ok Y, s') ∧ (Coherent (Ord.evKey .bi) s' ∧ s'.raw = g.raw) ∧
      Tab (if left then m else n) o Y
        (if left then Spec.bgnnStep l B.get n T else Spec.bgnnStep l (fun v u => B.get u v) m T) := by
  obtain ⟨X1, e1, t1⟩ := linear_tab hl.1 hX
  obtain ⟨Y, s', e2, h2, t2⟩ := pass_tab hg hm hn hx hB left g' hg' X1 _ t1
  obtain ⟨Z, e3, t3⟩ := decode_tab hl (map_tab (f := Real.tanh) (f' := Real.tanh) (fun _ => rfl) t2)
  refine ⟨Z, s', ?_, h2, ?_⟩
  · simp only [bgnnUpd, PyM.bind_apply, PyM.lift_apply, e1, e2, e3]
  · refine Tab.congr t3 fun a c _ _ => ?_
    cases left
    · simp only [Bool.false_eq_true, if_false, Spec.bgnnStep]
    · simp only [if_true, Spec.bgnnStep]

theorem loop_tab {g : BSt ℝ} {m n : Nat} (hg : BiGraph.Built Graph.NonNeg g)
    (hm : (BiGraph.ask .numU g).1 = .ok (.num m)) (hn : (BiGraph.ask .numV g).1 = .ok (.num n))
    (hx : Spec.Bipartite m n g) {B : Sp ℝ} (hB : (BiGraph.ask .B g).1 = .ok (.mat B))
    {du dv : Nat} (ls : List BgnnLayer) : ∀ (left : Bool) (_ : Spec.BgnnStack du dv left ls) (g' : BSt ℝ)
    (_ : Coherent (Ord.evKey .bi) g' ∧ g'.raw = g.raw) (Xu Xv : Dense ℝ) (U V : Nat → Nat → ℝ)
    (_ : Tab m du Xu U) (_ : Tab n dv Xv V),
    ∃ Yu Yv s', bgnnLoop left ls Xu Xv g' = (.ok (Yu, Yv), s') ∧
      Tab m du Yu (Spec.bgnnFeat B.get m n left ls U V).1 ∧ Tab n dv Yv (Spec.bgnnFeat B.get m n left ls U V).2 := by
  induction ls with
  | nil =>
    intro left _ g' _ Xu Xv U V hU hV
    cases left <;> exact ⟨Xu, Xv, g', rfl, hU, hV⟩
  | cons l ls ih =>
    intro left hl g' hg' Xu Xv U V hU hV
    cases left
    · obtain ⟨Y, s1, e1, h1, t1⟩ := upd_tab hg hm hn hx hB false hl.1 g' hg' Xu U hU
      obtain ⟨Yu, Yv, s2, e2, t2, t3⟩ := ih true hl.2 s1 h1 Xu Y U _ hU t1
      exact ⟨Yu, Yv, s2, by simp only [bgnnLoop, PyM.bind_apply, e1, e2], t2, t3⟩
    · obtain ⟨Y, s1, e1, h1, t1⟩ := upd_tab hg hm hn hx hB true hl.1 g' hg' Xv V hV
      obtain ⟨Yu, Yv, s2, e2, t2, t3⟩ := ih false hl.2 s1 h1 Y Xv _ V t1 hV
      exact ⟨Yu, Yv, s2, by simp only [bgnnLoop, PyM.bind_apply, e1, e2], t2, t3⟩

theorem step_range (l : BgnnLayer) (w : Nat → Nat → ℝ) (n : Nat) (X : Nat → Nat → ℝ) (a o : Nat) :
    |Spec.bgnnStep l w n X a o| < 1 := by
  unfold Spec.bgnnStep
  rcases l.dec with _ | d
  · simp only; rw [abs_lt]; exact ⟨Real.neg_one_lt_tanh _, Real.tanh_lt_one _⟩
  · simp only [Spec.decoded]; rw [abs_lt]; exact ⟨Real.neg_one_lt_tanh _, Real.tanh_lt_one _⟩

theorem feat_range (B : Nat → Nat → ℝ) (m n : Nat) (ls : List BgnnLayer) : ∀ (left : Bool) (U V : Nat → Nat → ℝ),
    (∀ i c, |U i c| < 1) → ∀ i c, |(Spec.bgnnFeat B m n left ls U V).1 i c| < 1 := by
  induction ls with
  | nil => intro left U V h; cases left <;> exact h
  | cons l ls ih =>
    intro left U V h
    cases left
    · exact ih true U _ h
    · exact ih false _ V fun i c => step_range _ _ _ _ _ _

/-! ## C68 -/

/-- C68.  `BGNN_Adv` and `BGNN_MLP` (in evaluation mode) return features of the left side, one row per left
vertex, obtained by computing alternately the left features from the latest right features and the right
features from the latest left features, with the weighted sums of the graph. -/
theorem C68_bgnn {g : BSt ℝ} {m n du dv : Nat} (hg : BiGraph.Built Graph.NonNeg g)
    (hm : (BiGraph.ask .numU g).1 = .ok (.num m)) (hn : (BiGraph.ask .numV g).1 = .ok (.num n))
    (hx : Spec.Bipartite m n g) {ls : List BgnnLayer} (hl : Spec.BgnnStack du dv true ls)
    (Xu Xv : Dense ℝ) (hU : Xu.rows = m ∧ Xu.cols = du) (hV : Xv.rows = n ∧ Xv.cols = dv) :
    ∃ B Y, (BiGraph.ask .B g).1 = .ok (.mat B) ∧ (bgnn ls Xu Xv g).1 = .ok Y ∧ Y.rows = m ∧ Y.cols = du ∧
      ∀ i c, i < m → c < du → Y.at_ i c = (Spec.bgnnFeat B.get m n true ls Xu.at_ Xv.at_).1 i c := by
  obtain ⟨B, _, hB, _⟩ := C25_bigraph_incidence hg hm hn hx
  obtain ⟨Yu, Yv, s', e, t, _⟩ := loop_tab hg hm hn hx hB ls true hl g ⟨hg.coh, rfl⟩ Xu Xv Xu.at_ Xv.at_
    ⟨hU.1, hU.2, fun _ _ _ _ => rfl⟩ ⟨hV.1, hV.2, fun _ _ _ _ => rfl⟩
  exact ⟨B, Yu, hB, by simp only [bgnn, PyM.bind_apply, e, PyM.pure_apply], t.1, t.2.1, t.2.2⟩

/-- C68.  With at least one layer all returned features are strictly between -1 and 1. -/
theorem C68_bgnn_range {g : BSt ℝ} {m n du dv : Nat} (hg : BiGraph.Built Graph.NonNeg g)
    (hm : (BiGraph.ask .numU g).1 = .ok (.num m)) (hn : (BiGraph.ask .numV g).1 = .ok (.num n))
    (hx : Spec.Bipartite m n g) {ls : List BgnnLayer} (hl : Spec.BgnnStack du dv true ls) (h0 : ls ≠ [])
    (Xu Xv : Dense ℝ) (hU : Xu.rows = m ∧ Xu.cols = du) (hV : Xv.rows = n ∧ Xv.cols = dv) :
    ∃ Y, (bgnn ls Xu Xv g).1 = .ok Y ∧ ∀ i c, i < m → c < du → |Y.at_ i c| < 1 := by
  obtain ⟨B, Y, _, e, _, _, h⟩ := C68_bgnn hg hm hn hx hl Xu Xv hU hV
  refine ⟨Y, e, fun i c hi hc => ?_⟩
  rw [h i c hi hc]
  cases ls with
  | nil => exact absurd rfl h0
  | cons l ls => exact feat_range _ _ _ _ _ _ _ (fun i c => step_range _ _ _ _ _ _) i c

/-- C68.  The constructors build such layers: their channels fit together. -/
theorem C68_channels (du dv hid dh depth : Nat) (ls : List BgnnLayer) :
    ((ls.map fun l => (l.lin.weight.cols, l.lin.weight.rows)) = bgnnAdvDims du dv depth → (∀ l ∈ ls, l.dec = none) →
      Spec.BgnnStack du dv true ls) ∧
    (∀ ds : List Decoder, ds.length = ls.length → (∀ l ∈ ls.zip ds, l.1.dec = some l.2 ∧ l.2.training = false) →
      ((ls.zip ds).map fun l => ((l.1.lin.weight.cols, l.1.lin.weight.rows),
        (l.2.first.weight.cols, l.2.first.weight.rows, l.2.second.weight.rows))) = bgnnMlpDims du dv hid dh depth →
      (∀ d ∈ ds, d.second.weight.cols = d.first.weight.rows) → Spec.BgnnStack du dv true ls) := by
  have key : ∀ (ls : List BgnnLayer) (k : Nat) (left : Bool), left = decide (k % 2 = 0) →
      (∀ i (hi : i < ls.length), Spec.BgnnFits ls[i] (if (k + i) % 2 = 0 then dv else du)
        (if (k + i) % 2 = 0 then du else dv)) → Spec.BgnnStack du dv left ls := by
    intro ls
    induction ls with
    | nil => intro k left _ _; cases left <;> trivial
    | cons l ls ih =>
      intro k left hk h
      have h0 := h 0 (by simp)
      simp only [Nat.add_zero, List.getElem_cons_zero] at h0
      have hr : ∀ i (hi : i < ls.length), Spec.BgnnFits ls[i] (if (k + 1 + i) % 2 = 0 then dv else du)
          (if (k + 1 + i) % 2 = 0 then du else dv) := by
        intro i hi
        have := h (i + 1) (by simp; omega)
        simp only [List.getElem_cons_succ] at this
        rw [show k + (i + 1) = k + 1 + i by omega] at this
        exact this
      cases left
      · have hk' : ¬ k % 2 = 0 := by simpa using hk.symm
        rw [if_neg hk', if_neg hk'] at h0
        exact ⟨h0, ih (k + 1) true (by simp; omega) hr⟩
      · have hk' : k % 2 = 0 := by simpa using hk.symm
        rw [if_pos hk', if_pos hk'] at h0
        exact ⟨h0, ih (k + 1) false (by simp; omega) hr⟩
  constructor
  · intro h hd
    refine key ls 0 true (by simp) fun i hi => ?_
    have hlen : ls.length = depth := by simpa [bgnnAdvDims] using congrArg List.length h
    have hi' := List.getElem_of_eq h (i := i) (by simpa using hi)
    simp only [List.getElem_map, bgnnAdvDims, List.getElem_range] at hi'
    unfold Spec.BgnnFits
    rw [hd _ (List.getElem_mem hi), Nat.zero_add]
    split at hi' <;> rename_i hp <;> simp only [hp, if_true, if_false] <;>
      exact ⟨congrArg Prod.fst hi', congrArg Prod.snd hi'⟩
  · intro ds hlen hdec h hcols
    refine key ls 0 true (by simp) fun i hi => ?_
    have hz : i < (ls.zip ds).length := by simp; omega
    have hi' := List.getElem_of_eq h (i := i) (by simpa using ⟨hi, by omega⟩)
    simp only [List.getElem_map, bgnnMlpDims, List.getElem_range, List.getElem_zip] at hi'
    have hm := hdec _ (List.getElem_mem hz)
    simp only [List.getElem_zip] at hm
    have hc := hcols ds[i] (List.getElem_mem _)
    unfold Spec.BgnnFits
    rw [hm.1, Nat.zero_add]
    split at hi' <;> rename_i hp <;> simp only [hp, if_true, if_false] <;>
      (simp only [Prod.mk.injEq] at hi'
       exact ⟨hi'.1.1, hi'.2.1.trans hi'.1.2.symm, hc, hi'.2.2.2, hm.2⟩)

/-- C68.  `train_with_cascaded` returns what the trained model computes: whatever the losses and optimizers
do, if training succeeds, `forward` of the trained model, on the same features and on the graph before or
after training, gives the features returned, and the graph is as before. -/
theorem C68_training {S : Type} {P : EArg ℝ → Prop} {g : BSt ℝ} (hg : BiGraph.Built P g) (T : Nat → Trainer S)
    (epochs : Nat) (ls ls' : List BgnnLayer) (Xu Xv Y : Dense ℝ)
    (h : (bgnnTrain T epochs ls Xu Xv g).1 = .ok (ls', Y)) :
    ls'.length = ls.length ∧ (bgnn ls' Xu Xv g).1 = .ok Y ∧
      (bgnn ls' Xu Xv (bgnnTrain T epochs ls Xu Xv g).2).1 = .ok Y ∧
      Spec.IndistB (bgnnTrain T epochs ls Xu Xv g).2 g := by
  have key : ∀ (ls : List BgnnLayer) (T : Nat → Trainer S) (left : Bool) (Xu Xv : Dense ℝ) (g' : BSt ℝ),
      Coherent (Ord.evKey .bi) g' → g'.raw = g.raw →
      Coherent (Ord.evKey .bi) (cascadeLoop T epochs left ls Xu Xv g').2 ∧
      (cascadeLoop T epochs left ls Xu Xv g').2.raw = g.raw ∧
      ∀ r, (cascadeLoop T epochs left ls Xu Xv g').1 = .ok r →
        r.1.length = ls.length ∧ ∀ g2, Coherent (Ord.evKey .bi) g2 → g2.raw = g.raw →
          (bgnnLoop left r.1 Xu Xv g2).1 = .ok r.2 := by
    intro ls
    induction ls with
    | nil =>
      intro T left Xu Xv g' hc hr
      cases left <;> exact ⟨hc, hr, fun r h => by cases h; exact ⟨rfl, fun _ _ _ => rfl⟩⟩
    | cons l ls ih =>
      intro T left Xu Xv g' hc hr
      cases left
      · obtain ⟨_, c1, r1⟩ := read_same (isRead_trainOne (T 0) epochs false l Xv Xu) hc hc rfl
        simp only [cascadeLoop, PyM.bind_apply]
        rcases e1 : trainOne (T 0) epochs false l Xv Xu g' with ⟨a1 | l', s1⟩
        · rw [e1] at c1 r1
          exact ⟨c1, r1.trans hr, fun r h => by cases h⟩
        rw [e1] at c1 r1
        dsimp only at c1 r1 ⊢
        obtain ⟨_, c2, r2⟩ := read_same (isRead_bgnnUpd l' false Xu) c1 c1 rfl
        rcases e2 : bgnnUpd l' false Xu s1 with ⟨a2 | Y, s2⟩
        · rw [e2] at c2 r2
          exact ⟨c2, r2.trans (r1.trans hr), fun r h => by cases h⟩
        rw [e2] at c2 r2
        dsimp only at c2 r2 ⊢
        have hr2 := r2.trans (r1.trans hr)
        obtain ⟨c3, r3, h3⟩ := ih (fun i => T (i + 1)) true Xu Y s2 c2 hr2
        rcases e3 : cascadeLoop (fun i => T (i + 1)) epochs true ls Xu Y s2 with ⟨a3 | r, s3⟩
        · rw [e3] at c3 r3
          exact ⟨c3, r3, fun r h => by cases h⟩
        rw [e3] at c3 r3 h3
        refine ⟨c3, r3, fun r' h => ?_⟩
        cases h
        obtain ⟨h4, h5⟩ := h3 r rfl
        refine ⟨by simp [h4], fun g2 hc2 hr2' => ?_⟩
        have hu := read_same (isRead_bgnnUpd l' false Xu) c1 hc2 (by rw [hr2', r1.trans hr])
        rw [e2] at hu
        have hu' := read_same (isRead_bgnnUpd l' false Xu) hc2 hc2 rfl
        simp only [bgnnLoop, PyM.bind_apply]
        rcases e4 : bgnnUpd l' false Xu g2 with ⟨a4, s4⟩
        rw [e4] at hu hu'
        rw [show a4 = .ok Y from hu.1]
        exact h5 s4 hu'.2.1 (hu'.2.2.trans hr2')
      · obtain ⟨_, c1, r1⟩ := read_same (isRead_trainOne (T 0) epochs true l Xu Xv) hc hc rfl
        simp only [cascadeLoop, PyM.bind_apply]
        rcases e1 : trainOne (T 0) epochs true l Xu Xv g' with ⟨a1 | l', s1⟩
        · rw [e1] at c1 r1
          exact ⟨c1, r1.trans hr, fun r h => by cases h⟩
        rw [e1] at c1 r1
        dsimp only at c1 r1 ⊢
        obtain ⟨_, c2, r2⟩ := read_same (isRead_bgnnUpd l' true Xv) c1 c1 rfl
        rcases e2 : bgnnUpd l' true Xv s1 with ⟨a2 | Y, s2⟩
        · rw [e2] at c2 r2
          exact ⟨c2, r2.trans (r1.trans hr), fun r h => by cases h⟩
        rw [e2] at c2 r2
        dsimp only at c2 r2 ⊢
        have hr2 := r2.trans (r1.trans hr)
        obtain ⟨c3, r3, h3⟩ := ih (fun i => T (i + 1)) false Y Xv s2 c2 hr2
        rcases e3 : cascadeLoop (fun i => T (i + 1)) epochs false ls Y Xv s2 with ⟨a3 | r, s3⟩
        · rw [e3] at c3 r3
          exact ⟨c3, r3, fun r h => by cases h⟩
        rw [e3] at c3 r3 h3
        refine ⟨c3, r3, fun r' h => ?_⟩
        cases h
        obtain ⟨h4, h5⟩ := h3 r rfl
        refine ⟨by simp [h4], fun g2 hc2 hr2' => ?_⟩
        have hu := read_same (isRead_bgnnUpd l' true Xv) c1 hc2 (by rw [hr2', r1.trans hr])
        rw [e2] at hu
        have hu' := read_same (isRead_bgnnUpd l' true Xv) hc2 hc2 rfl
        simp only [bgnnLoop, PyM.bind_apply]
        rcases e4 : bgnnUpd l' true Xv g2 with ⟨a4, s4⟩
        rw [e4] at hu hu'
        rw [show a4 = .ok Y from hu.1]
        exact h5 s4 hu'.2.1 (hu'.2.2.trans hr2')
  have hc := hg.coh
  obtain ⟨k1, k2, k3⟩ := key ls T true Xu Xv g hc rfl
  have e2 : (bgnnTrain T epochs ls Xu Xv g).2 = (cascadeLoop T epochs true ls Xu Xv g).2 := by
    simp only [bgnnTrain, PyM.bind_apply]
    rcases cascadeLoop T epochs true ls Xu Xv g with ⟨a | r, s⟩ <;> rfl
  obtain ⟨r, hr, hr'⟩ : ∃ r, (cascadeLoop T epochs true ls Xu Xv g).1 = .ok r ∧ (r.1, r.2.1) = (ls', Y) := by
    simp only [bgnnTrain, PyM.bind_apply] at h
    rcases hcl : cascadeLoop T epochs true ls Xu Xv g with ⟨a | r, s⟩ <;> rw [hcl] at h
    · cases h
    · exact ⟨r, rfl, by simpa [PyM.pure_apply] using h⟩
  obtain ⟨k4, k5⟩ := k3 r hr
  have e3 : ls' = r.1 := (congrArg Prod.fst hr').symm
  have e4 : Y = r.2.1 := (congrArg Prod.snd hr').symm
  have fin : ∀ g2, Coherent (Ord.evKey .bi) g2 → g2.raw = g.raw → (bgnn ls' Xu Xv g2).1 = .ok Y := by
    intro g2 h1 h2
    have := k5 g2 h1 h2
    rw [e3, e4]
    simp only [bgnn, PyM.bind_apply]
    rcases hb : bgnnLoop true r.1 Xu Xv g2 with ⟨a, s⟩
    rw [hb] at this
    rw [show a = .ok r.2 from this]
    rfl
  rw [e2]
  exact ⟨by rw [e3, k4], fin g hc rfl, fin _ k1 k2, Bi.indist_of_raw k1 hc k2⟩

/-- C68 fails in that not every argument and layer matters: the left features passed in have no influence
on the result of a model with at least one layer, and neither has the last layer of a model with an even
number of layers, as only the left features are returned. -/
theorem C68_influence_false :
    (∀ (l : BgnnLayer) (ls : List BgnnLayer) (Xu Xu' Xv : Dense ℝ), bgnn (l :: ls) Xu Xv = bgnn (l :: ls) Xu' Xv) ∧
    ∀ {g : BSt ℝ} {m n du dv : Nat}, BiGraph.Built Graph.NonNeg g → (BiGraph.ask .numU g).1 = .ok (.num m) →
      (BiGraph.ask .numV g).1 = .ok (.num n) → Spec.Bipartite m n g →
      ∀ (ls : List BgnnLayer) (l l' : BgnnLayer), ls.length % 2 = 1 → Spec.BgnnStack du dv true (ls ++ [l]) →
      Spec.BgnnStack du dv true (ls ++ [l']) →
      ∀ (Xu Xv : Dense ℝ), Xu.rows = m ∧ Xu.cols = du → Xv.rows = n ∧ Xv.cols = dv →
      ∃ Y Y', (bgnn (ls ++ [l]) Xu Xv g).1 = .ok Y ∧ (bgnn (ls ++ [l']) Xu Xv g).1 = .ok Y' ∧
        ∀ i c, i < m → c < du → Y.at_ i c = Y'.at_ i c := by
  refine ⟨fun l ls Xu Xu' Xv => rfl, fun {g m n du dv} hg hm hn hx ls l l' hodd hs hs' Xu Xv hU hV => ?_⟩
  obtain ⟨B, Y, hB, e, _, _, h⟩ := C68_bgnn hg hm hn hx hs Xu Xv hU hV
  obtain ⟨B', Y', hB', e', _, _, h'⟩ := C68_bgnn hg hm hn hx hs' Xu Xv hU hV
  rw [hB] at hB'; cases hB'
  refine ⟨Y, Y', e, e', fun i c hi hc => ?_⟩
  rw [h i c hi hc, h' i c hi hc]
  have key : ∀ (ls : List BgnnLayer) (left : Bool), (left = decide (ls.length % 2 = 1)) →
      ∀ U V, (Spec.bgnnFeat B.get m n left (ls ++ [l]) U V).1 = (Spec.bgnnFeat B.get m n left (ls ++ [l']) U V).1 := by
    intro ls
    induction ls with
    | nil => intro left hl U V; simp at hl; subst hl; rfl
    | cons a ls ih =>
      intro left hl U V
      cases left
      · have : true = decide (ls.length % 2 = 1) := by
          simp only [List.length_cons] at hl
          have : ¬ (ls.length + 1) % 2 = 1 := by simpa using hl.symm
          symm; rw [decide_eq_true_iff]; omega
        exact ih true this _ _
      · have : false = decide (ls.length % 2 = 1) := by
          simp only [List.length_cons] at hl
          have : (ls.length + 1) % 2 = 1 := by simpa using hl.symm
          symm; rw [decide_eq_false_iff_not]; omega
        exact ih false this _ _
  rw [key ls true (by simp [hodd])]

/-- example layers: from two right columns to three left columns and back -/
noncomputable def exLay (i o : Nat) (dec : Bool) : BgnnLayer :=
  { lin := ⟨⟨o, i, fun a b => a + 2 * b⟩, some fun _ => 1⟩
    dec := if dec then some ⟨⟨⟨4, o, fun a b => a - b⟩, none⟩, ⟨⟨o, 4, fun a b => a * b⟩, none⟩, fun X => X, false⟩ else none }

example : Spec.BgnnStack 3 2 true [exLay 2 3 false, exLay 3 2 false, exLay 2 3 false] :=
  ⟨⟨rfl, rfl⟩, ⟨rfl, rfl⟩, ⟨rfl, rfl⟩, trivial⟩

example : Spec.BgnnStack 3 2 true [exLay 2 3 true, exLay 3 2 true] :=
  ⟨⟨rfl, rfl, rfl, rfl, rfl⟩, ⟨rfl, rfl, rfl, rfl, rfl⟩, trivial⟩

example : ∃ Y, (bgnn [exLay 2 3 true, exLay 3 2 true] ⟨2, 3, fun i c => i + c⟩ ⟨3, 2, fun i c => i - c⟩ exB).1 = .ok Y := by
  obtain ⟨_, Y, _, h, _⟩ := C68_bgnn (du := 3) (dv := 2) exB_nonneg exB_numU exB_numV exB_flag
    (ls := [exLay 2 3 true, exLay 3 2 true]) ⟨⟨rfl, rfl, rfl, rfl, rfl⟩, ⟨rfl, rfl, rfl, rfl, rfl⟩, trivial⟩
    ⟨2, 3, fun i c => i + c⟩ ⟨3, 2, fun i c => i - c⟩ ⟨rfl, rfl⟩ ⟨rfl, rfl⟩
  exact ⟨Y, h⟩

end Props
end DHG
