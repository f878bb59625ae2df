import Verif.Nn
import Verif.Props.GraphRename
import Verif.Props.Shapes

/-!
# Properties of the neural layers on graphs (C90, C48)
-/

set_option linter.unusedSectionVars false
set_option autoImplicit false

namespace DHG

namespace Spec
variable {K : Type} [Field K] [LinearOrder K]

/-- entry `(i, o)` of `X Wᵀ + b` -/
def affine (l : Nn.Linear K) (X : Dense K) (i o : Nat) : K :=
  (∑ c ∈ Finset.range X.cols, X.at_ i c * l.weight.at_ o c) + (l.bias.getD fun _ => 0) o

/-- positive part of all entries -/
def posPart (X : Dense K) : Dense K := { X with at_ := fun i c => max (X.at_ i c) 0 }

/-- The result `r` of a layer that computed `Z` before its activation: a last layer returns `Z`,
another one the positive part of `Z`, normalised if a batch normalisation is present, after dropout. -/
structure Finished (t : Nn.Tail K) (Z : Dense K) (r : Except Err (Dense K)) : Prop where
  last : t.isLast = true → r = .ok Z
  plain : t.isLast = false → t.bn = none → r = .ok (t.drop (posPart Z))
  norm : ∀ f Y, t.isLast = false → t.bn = some f → f (posPart Z) = .ok Y → r = .ok (t.drop Y)
  raise : ∀ f e, t.isLast = false → t.bn = some f → f (posPart Z) = .error e → r = .error e

end Spec

namespace Props

open Graph Finset Nn

variable {K : Type} [Field K] [LinearOrder K] [PyReal K]

theorem mapD_relu (X : Dense K) : mapD relu X = Spec.posPart X := by
  unfold mapD Spec.posPart
  congr 1
  funext i c
  simp only [relu]
  split
  · rename_i h; rw [max_eq_left h.le]
  · rename_i h; rw [max_eq_right (not_lt.1 h)]

theorem tail_finished (t : Tail K) (Z : Dense K) : Spec.Finished t Z (t.run Z) := by
  constructor
  · intro h; simp only [Tail.run, h, if_true]
  · intro h h'; simp only [Tail.run, h, h', mapD_relu]; rfl
  · intro f Y h h' hf; simp only [Tail.run, h, h', mapD_relu, hf]; rfl
  · intro f e h h' hf; simp only [Tail.run, h, h', mapD_relu, hf]; rfl

theorem linear_ok (l : Linear K) {X : Dense K} (h : X.cols = l.weight.cols) :
    ∃ Y, l.fwd X = .ok Y ∧ Y.rows = X.rows ∧ Y.cols = l.weight.rows ∧
      ∀ i o, Y.at_ i o = Spec.affine l X i o := by
  refine ⟨_, if_pos h, rfl, rfl, fun i o => ?_⟩
  simp only [Spec.affine]
  cases l.bias <;> rfl

theorem zipD_same (f : K → K → K) {X Y : Dense K} {n m : Nat} (h1 : X.rows = n) (h2 : Y.rows = n)
    (h3 : X.cols = m) (h4 : Y.cols = m) :
    ∃ Z, zipD f X Y = .ok Z ∧ Z.rows = n ∧ Z.cols = m ∧
      ∀ i c, i < n → c < m → Z.at_ i c = f (X.at_ i c) (Y.at_ i c) := by
  unfold zipD bdim
  rw [if_pos (h1.trans h2.symm), if_pos (h3.trans h4.symm)]
  refine ⟨_, rfl, h1, h3, fun i c hi hc => ?_⟩
  have e : ∀ k s : Nat, k < s → bidx s k = k := by
    intro k s hk
    unfold bidx
    split
    · omega
    · rfl
  simp only
  rw [e i _ (by omega), e c _ (by omega), e i _ (by omega), e c _ (by omega)]

/-! ### running one method inside a layer -/

theorem smooth_run {g : GSt K} {X Y : Dense K} {p : K} {keep : Nat → Bool}
    (h : (ask (.smoothGCN X p keep) g).1 = .ok (.feat Y)) :
    smoothGCN X p keep g = (.ok Y, (ask (.smoothGCN X p keep) g).2) := by
  simp only [ask, PyM.bind_apply] at h ⊢
  rcases hm : smoothGCN X p keep g with ⟨_ | Z, g'⟩ <;> rw [hm] at h
  · cases h
  · cases h; rfl

theorem v2v_run {g : GSt K} {X Y : Dense K} {a : Aggr} {w : Option (List K)} {p : K} {keep : Nat → Bool}
    (h : (ask (.v2v X a w p keep) g).1 = .ok (.feat Y)) :
    v2v X a w p keep g = (.ok Y, (ask (.v2v X a w p keep) g).2) := by
  simp only [ask, PyM.bind_apply] at h ⊢
  rcases hm : v2v X a w p keep g with ⟨_ | Z, g'⟩ <;> rw [hm] at h
  · cases h
  · cases h; rfl

theorem esrc_run {g : GSt K} {l : List Nat} (h : (ask .eSrc g).1 = .ok (.idx l)) :
    getESrc g = (.ok l, (ask .eSrc g).2) := by
  simp only [ask, PyM.bind_apply] at h ⊢
  rcases hm : getESrc g with ⟨_ | Z, g'⟩ <;> rw [hm] at h
  · cases h
  · cases h; rfl

theorem edst_run {g : GSt K} {l : List Nat} (h : (ask .eDst g).1 = .ok (.idx l)) :
    getEDst g = (.ok l, (ask .eDst g).2) := by
  simp only [ask, PyM.bind_apply] at h ⊢
  rcases hm : getEDst g with ⟨_ | Z, g'⟩ <;> rw [hm] at h
  · cases h
  · cases h; rfl

/-- a read does not change what later reads return -/
theorem ask_after {P : EArg K → Prop} {g : GSt K} (hg : Built P g) (q q' : GQuery K) :
    (ask q' (ask q g).2).1 = (ask q' g).1 := by
  rw [ask_eq (hg.read q), ask_eq hg, (reads_ask q g hg.inv.2).2.1]

theorem listing_after {P : EArg K → Prop} {g : GSt K} (hg : Built P g) (q : GQuery K) :
    Spec.listing (ask q g).2 = Spec.listing g := by
  unfold Spec.listing
  rw [ask_after hg]

/-! ## C90 -/

/-- C90. `GCNConv` computes `L_GCN (X Wᵀ + b)` before its activation; the graph is as before. -/
theorem C90_gcn_conv [IsStrictOrderedRing K] {g : GSt K} (hg : Built NonNeg g) {n : Nat}
    (hn : (ask .numV g).1 = .ok (.num n)) (hw : Spec.NonnegWeights (Spec.listing g)) {L : Sp K}
    (hL : (ask .LGCN g).1 = .ok (.mat L)) (l : Conv K) (X : Dense K) (hX : X.rows = n)
    (hc : X.cols = l.theta.weight.cols) :
    ∃ Z, Z.rows = n ∧ Z.cols = l.theta.weight.rows ∧
      (∀ i o, Z.at_ i o = ∑ j ∈ range n, L.get i j * Spec.affine l.theta X j o) ∧
      Spec.Finished l.toTail Z (gcnConv l X g).1 ∧
      ∀ q, (ask q (gcnConv l X g).2).1 = (ask q g).1 := by
  obtain ⟨Y, hY, y1, y2, y3⟩ := linear_ok l.theta hc
  obtain ⟨Z, hZ, z1, z2, z3⟩ := C11_graph_smoothing hg hn hw hL Y (y1.trans hX) fun _ => true
  have hr : gcnConv l X g = (l.run Z, (ask (.smoothGCN Y 0 fun _ => true) g).2) := by
    simp only [gcnConv, PyM.bind_apply, PyM.lift_apply, hY, smooth_run hZ]
  refine ⟨Z, z1, z2.trans y2, fun i o => ?_, ?_, fun q => ?_⟩
  · rw [z3]; exact sum_congr rfl fun j _ => by rw [y3]
  · rw [hr]; exact tail_finished _ _
  · rw [hr]; exact ask_after hg _ q

/-- C90. `GINConv` applies the given module to `(1 + eps) X + (sum over the neighbours)`. -/
theorem C90_gin_conv {g : GSt K} (hg : Built NonNeg g) {n : Nat}
    (hn : (ask .numV g).1 = .ok (.num n)) (mlp : Dense K → Except Err (Dense K)) (eps : K) (X : Dense K)
    (hX : X.rows = n) :
    ∃ Z, Z.rows = n ∧ Z.cols = X.cols ∧
      (∀ i c, i < n → c < X.cols → Z.at_ i c = (1 + eps) * X.at_ i c +
        ∑ j ∈ range n, Spec.wt (Spec.listing g) (i : Int) (j : Int) * X.at_ j c) ∧
      (ginConv mlp eps X g).1 = mlp Z ∧ ∀ q, (ask q (ginConv mlp eps X g).2).1 = (ask q g).1 := by
  obtain ⟨Y, hY, y1, y2, y3⟩ := C12_graph_v2v_sum hg hn X hX fun _ => true
  obtain ⟨Z, hZ, z1, z2, z3⟩ := zipD_same (· + ·) (X := mapD (fun x => (1 + eps) * x) X) (Y := Y)
    (n := n) (m := X.cols) hX y1 rfl y2
  have hr : ginConv mlp eps X g = (mlp Z, (ask (.v2v X .sum none 0 fun _ => true) g).2) := by
    simp only [ginConv, PyM.bind_apply, PyM.lift_apply, v2v_run hY, hZ]
  refine ⟨Z, z1, z2, fun i c hi h => ?_, by rw [hr], fun q => by rw [hr]; exact ask_after hg _ q⟩
  rw [z3 i c hi h, y3]; rfl

/-- C90. `GraphSAGEConv` applies its linear map to each vertex' own features followed by the mean of
the features of its neighbours (0 at degree 0). -/
theorem C90_sage_conv {g : GSt K} (hg : Built NonNeg g) {n : Nat}
    (hn : (ask .numV g).1 = .ok (.num n)) (l : Conv K) (X : Dense K)
    (hX : X.rows = n) (hc : l.theta.weight.cols = X.cols + X.cols) :
    ∃ (M Z : Dense K), Z.rows = n ∧ Z.cols = l.theta.weight.rows ∧
      (∀ i c, i < n →
        (Spec.deg (Spec.listing g) (i : Int) = 0 → M.at_ i c = 0) ∧
        (Spec.deg (Spec.listing g) (i : Int) ≠ 0 → M.at_ i c =
          (∑ j ∈ range n, Spec.wt (Spec.listing g) (i : Int) (j : Int) * X.at_ j c) /
            Spec.deg (Spec.listing g) (i : Int))) ∧
      (∀ i o, Z.at_ i o = (∑ c ∈ range X.cols, X.at_ i c * l.theta.weight.at_ o c) +
        (∑ c ∈ range X.cols, M.at_ i c * l.theta.weight.at_ o (X.cols + c)) +
        (l.theta.bias.getD fun _ => 0) o) ∧
      Spec.Finished l.toTail Z (sageConv l X g).1 ∧
      ∀ q, (ask q (sageConv l X g).2).1 = (ask q g).1 := by
  obtain ⟨Y, hY, y1, y2, y3⟩ := C12_graph_v2v_mean hg hn X hX fun _ => true
  have hcat : catCols X Y = .ok ⟨X.rows, X.cols + Y.cols,
    fun i c => if c < X.cols then X.at_ i c else Y.at_ i (c - X.cols)⟩ := if_pos (hX.trans y1.symm)
  obtain ⟨Z, hZ, z1, z2, z3⟩ := linear_ok l.theta (X := ⟨X.rows, X.cols + Y.cols,
    fun i c => if c < X.cols then X.at_ i c else Y.at_ i (c - X.cols)⟩) (by rw [hc, y2])
  have hr : sageConv l X g = (l.run Z, (ask (.v2v X .mean none 0 fun _ => true) g).2) := by
    simp only [sageConv, PyM.bind_apply, PyM.lift_apply, v2v_run hY, hcat, hZ]
  refine ⟨Y, Z, z1.trans hX, z2, y3, fun i o => ?_, ?_, fun q => by rw [hr]; exact ask_after hg _ q⟩
  · rw [z3]
    unfold Spec.affine
    simp only
    rw [y2, sum_range_add]
    congr 2
    · exact sum_congr rfl fun c hcc => by rw [if_pos (mem_range.1 hcc)]
    · exact sum_congr rfl fun c _ => by rw [if_neg (by omega), Nat.add_sub_cancel_left]
  · rw [hr]; exact tail_finished _ _

example : Built NonNeg exG ∧ (ask .numV exG).1 = .ok (.num 3) ∧ Spec.NonnegWeights (Spec.listing exG) ∧
    (∃ L, (ask .LGCN exG).1 = .ok (.mat L)) ∧
    Spec.deg (Spec.listing exG) 1 ≠ 0 ∧
    ∃ (X : Dense ℝ) (l : Conv ℝ), X.rows = 3 ∧ X.cols = 2 ∧ l.isLast = false ∧
      l.theta.weight.cols = X.cols + X.cols ∧ l.theta.weight.rows = 5 :=
  ⟨exG_nonneg, exG_numV, exG_nonnegWeights,
    let ⟨L, _, h, _⟩ := C11_graph_LGCN exG_nonneg exG_numV exG_nonnegWeights; ⟨L, h⟩,
    by rw [exG_listing]; norm_num [Spec.deg],
    { rows := 3, cols := 2, at_ := fun i c => i + c },
    { isLast := false, bn := none, drop := id,
      theta := { weight := { rows := 5, cols := 4, at_ := fun i c => i - c }, bias := some fun _ => 1 } },
    rfl, rfl, rfl, rfl, rfl⟩

/-- the ELU of every entry: `x` if positive, `exp x - 1` otherwise -/
noncomputable def Spec.eluOf (X : Dense K) : Dense K :=
  ⟨X.rows, X.cols, fun i c => if 0 < X.at_ i c then X.at_ i c else PyReal.exp (X.at_ i c) - 1⟩

/-- the score of the message from `i` to `j` in `GATConv`, before its dropout -/
noncomputable def Spec.gatScore (l : Gat K) (H : Dense K) (i j : Nat) : K :=
  let x := Spec.affine l.attSrc H i 0 + Spec.affine l.attDst H j 0
  if 0 < x then x else l.slope * x

theorem gather_ok {X : Dense K} {is : List Nat} (h : ∀ i ∈ is, i < X.rows) :
    gather X is = .ok (is.map fun i => X.at_ i 0) := by
  unfold gather
  rw [if_pos]
  rw [List.all_eq_true]
  intro i hi
  exact decide_eq_true (h i hi)

/-- C90, partial. `GATConv`: with `H = X Wᵀ + b`, the output at vertex `i` before the activation is a
combination of the rows of `H` at the neighbours of `i`, with positive coefficients adding up to 1 and
proportional to `exp` of the score clamped to `[0.001, 5]`. Missing: a graph with exactly one stored
adjacency entry, i.e. a single self loop (`C90_gat_single_false`). -/
theorem C90_gat_conv_partial [IsStrictOrderedRing K] {g : GSt K} (hg : Built NonNeg g) {n : Nat}
    (hn : (ask .numV g).1 = .ok (.num n)) {src dst : List Nat} (he : EdgeVecs g src dst)
    (h1 : dst.length ≠ 1) (l : Gat K) (X : Dense K) (hX : X.rows = n)
    (hc : X.cols = l.theta.weight.cols) (hs : l.attSrc.weight.cols = l.theta.weight.rows)
    (hd : l.attDst.weight.cols = l.theta.weight.rows) :
    ∃ (H Z : Dense K) (coef : List K) (z : Nat → K),
      H.rows = n ∧ H.cols = l.theta.weight.rows ∧ (∀ i o, H.at_ i o = Spec.affine l.theta X i o) ∧
      coef.length = dst.length ∧ src.length = dst.length ∧ Z.rows = n ∧ Z.cols = l.theta.weight.rows ∧
      (∀ i c, Z.at_ i c = Spec.incoming src dst coef (fun j => H.at_ j c) i) ∧
      (∀ i, i ∈ dst → 0 < z i) ∧
      (∀ k (_ : k < coef.length) (_ : k < src.length) (_ : k < dst.length), 0 < coef[k] ∧
        coef[k] * z dst[k] =
          PyReal.exp (min (max (l.attDrop k (Spec.gatScore l H src[k] dst[k])) (1 / 1000)) 5)) ∧
      (∀ i, i ∈ dst → Spec.incoming src dst coef (fun _ => 1) i = 1) ∧
      (l.isLast = true → (gatConv l X g).1 = .ok Z) ∧
      (l.isLast = false → l.bn = none → (gatConv l X g).1 = .ok (Spec.eluOf Z)) ∧
      (∀ f, l.isLast = false → l.bn = some f → (gatConv l X g).1 = f (Spec.eluOf Z)) := by
  obtain ⟨H, hH, a1, a2, a3⟩ := linear_ok l.theta hc
  obtain ⟨S, hS, b1, b2, b3⟩ := linear_ok l.attSrc (X := H) (a2.trans hs.symm)
  obtain ⟨T, hT, c1, c2, c3⟩ := linear_ok l.attDst (X := H) (a2.trans hd.symm)
  obtain ⟨A, hA, hIs, e1, e2⟩ := he.ents hg
  have hlen : src.length = dst.length := by rw [e1, e2, List.length_map, List.length_map]
  have hn' := numV_eq hn
  have hsr : ∀ i ∈ src, i < S.rows := by
    intro i hi
    rw [e1] at hi
    obtain ⟨e, he', rfl⟩ := List.mem_map.1 hi
    have := (hIs.wf e he').2
    rw [hIs.cols] at this; omega
  have hdr : ∀ i ∈ dst, i < T.rows := by
    intro i hi
    rw [e2] at hi
    obtain ⟨e, he', rfl⟩ := List.mem_map.1 hi
    have := (hIs.wf e he').1
    rw [hIs.rows] at this; omega
  have hg1 : Built NonNeg (ask .eSrc g).2 := hg.read _
  have he1 : (ask .eDst (ask .eSrc g).2).1 = .ok (.idx dst) := by rw [ask_after hg]; exact he.dst
  have hg2 : Built NonNeg (ask .eDst (ask .eSrc g).2).2 := hg1.read _
  have he' : EdgeVecs (ask .eDst (ask .eSrc g).2).2 src dst :=
    ⟨by rw [ask_after hg1, ask_after hg]; exact he.src, by rw [ask_after hg1]; exact he1⟩
  have hn2 : (ask .numV (ask .eDst (ask .eSrc g).2).2).1 = .ok (.num n) := by
    rw [ask_after hg1, ask_after hg]; exact hn
  generalize hwd : attWeights l.slope l.attDrop (List.zipWith (· + ·) (src.map fun i => S.at_ i 0)
    (dst.map fun i => T.at_ i 0)) = w
  have hwl : w.length = dst.length := by
    rw [← hwd]; unfold attWeights
    rw [List.length_mapIdx, List.length_zipWith, List.length_map, List.length_map, hlen, Nat.min_self]
  obtain ⟨Z, coef, z, hZ, f1, f2, f3, f4, f5⟩ := C14_graph_softmax hg2 hn2 he' w hwl H (a1.trans hX) fun _ => true
  have hr : (gatConv l X g).1 = eluTail l.isLast l.bn Z := by
    simp only [gatConv, PyM.bind_apply, PyM.lift_apply, hH, hS, hT, esrc_run he.src, edst_run he1,
      gather_ok hsr, gather_ok hdr, hwd, squeezed]
    rw [if_neg (by omega), v2v_run hZ]
  have hsh := (C100_graph hg2 hn2 _ _ _ _).1 _ _ hZ
  refine ⟨H, Z, coef, z, a1.trans hX, a2, a3, f1, hlen, hsh.rows, hsh.cols.trans a2, f2, f3, ?_, f5, ?_, ?_, ?_⟩
  · intro k k1 k2 k3
    have := f4 k k1 (by omega) k3
    refine ⟨this.2, ?_⟩
    rw [this.1]
    congr 1
    have : w[k]'(by omega) = clamp (1 / 1000) 5 (l.attDrop k (leakyRelu l.slope
        (S.at_ src[k] 0 + T.at_ dst[k] 0))) := by
      have h0 : w[k]'(by omega) = (attWeights l.slope l.attDrop (List.zipWith (· + ·)
        (src.map fun i => S.at_ i 0) (dst.map fun i => T.at_ i 0)))[k]'(by rw [hwd]; omega) := by
        simp only [hwd]
      rw [h0]
      unfold attWeights
      rw [List.getElem_mapIdx, List.getElem_zipWith, List.getElem_map, List.getElem_map]
    rw [this, b3, c3]
    rfl
  · intro h; rw [hr]; simp only [eluTail, h, if_true]
  · intro h h'; rw [hr]; simp only [eluTail, h, h']; rfl
  · intro f h h'; rw [hr]; simp only [eluTail, h, h']; rfl

example : Built NonNeg exE ∧ EdgeVecs exE [1, 0] [0, 1] ∧ [0, 1].length ≠ 1 ∧
    ∃ (X : Dense ℝ) (l : Gat ℝ), X.rows = 2 ∧ X.cols = l.theta.weight.cols ∧
      l.attSrc.weight.cols = l.theta.weight.rows ∧ l.attDst.weight.cols = l.theta.weight.rows :=
  ⟨exE_nonneg, exE_vecs, by decide, { rows := 2, cols := 1, at_ := fun i _ => i },
    { theta := { weight := { rows := 2, cols := 1, at_ := fun _ _ => 1 }, bias := none }
      attSrc := { weight := { rows := 1, cols := 2, at_ := fun _ _ => 1 }, bias := none }
      attDst := { weight := { rows := 1, cols := 2, at_ := fun _ _ => 1 }, bias := none }
      slope := 1 / 5, attDrop := fun _ x => x, isLast := true, bn := none }, rfl, rfl, rfl, rfl⟩

/-- one vertex with a self loop -/
noncomputable def exLoop : GSt ℝ :=
  { raw := { numV := 1, eDict := [], loops := [(0, 1)], extra := false }, cache := [] }

theorem exLoop_nonneg : Built NonNeg exLoop :=
  .new (n := 1) (arg := some (.many [(0, 0)] .none)) (extra := false) (op := .mean) rfl
    (by intro a ha; cases ha; simp [NonNeg])

/-- C90 is false for `GATConv` on a graph with a single self loop: `.squeeze()` removes the only
dimension of the scores and the call raises `IndexError`. -/
theorem C90_gat_single_false :
    ¬ ∀ (g : GSt ℝ), Built NonNeg g → ∀ n, (ask .numV g).1 = .ok (.num n) → ∀ (l : Gat ℝ) (X : Dense ℝ),
      X.rows = n → X.cols = l.theta.weight.cols → l.attSrc.weight.cols = l.theta.weight.rows →
      l.attDst.weight.cols = l.theta.weight.rows → l.isLast = true → ∃ Z, (gatConv l X g).1 = .ok Z := by
  intro h
  obtain ⟨Z, hZ⟩ := h exLoop exLoop_nonneg 1 rfl
    { theta := { weight := { rows := 1, cols := 1, at_ := fun _ _ => 1 }, bias := none }
      attSrc := { weight := { rows := 1, cols := 1, at_ := fun _ _ => 1 }, bias := none }
      attDst := { weight := { rows := 1, cols := 1, at_ := fun _ _ => 1 }, bias := none }
      slope := 1 / 5, attDrop := fun _ x => x, isLast := true, bn := none }
    { rows := 1, cols := 1, at_ := fun _ _ => 1 } rfl rfl rfl rfl rfl
  have h1 : (ask .eSrc exLoop).1 = .ok (.idx [0]) := by rw [ask_eq exLoop_nonneg]; rfl
  have h2 : (ask .eDst (ask .eSrc exLoop).2).1 = .ok (.idx [0]) := by
    rw [ask_after exLoop_nonneg, ask_eq exLoop_nonneg]; rfl
  simp only [gatConv, PyM.bind_apply, PyM.lift_apply, esrc_run h1, edst_run h2, Linear.fwd, if_true, gather,
    squeezed, attWeights] at hZ
  simp at hZ

/-! ## C48: stacks of GCN layers -/

/-- `GCN.forward` (models/graphs/gcn.py:27-37) for a list of layers: `for layer in self.layers:
X = layer(X, g)` -/
def gcnStack (ls : List (Conv K)) (X : Dense K) : PyM (GSt K) (Dense K) :=
  match ls with
  | [] => pure X
  | l :: ls => do
    let X ← gcnConv l X
    gcnStack ls X

/-- evaluation mode: dropout does nothing, batch normalisation acts on each entry, with parameters
depending on the column only -/
structure Spec.EvalMode (l : Conv K) : Prop where
  drop : l.drop = id
  bn : ∀ f, l.bn = some f → ∃ φ : Nat → K → K, ∀ X, f X = .ok { X with at_ := fun i c => φ c (X.at_ i c) }

theorem gcn_layer [IsStrictOrderedRing K] {n : Nat} {π : Equiv.Perm Int} {g g' : GSt K}
    (hπ : Spec.Renaming n π) (hr : Renamed n π g g') (hb : Built NonNeg g) (hb' : Built NonNeg g')
    (hw : Spec.NonnegWeights (Spec.listing g)) (hw' : Spec.NonnegWeights (Spec.listing g'))
    {l : Conv K} (hl : Spec.EvalMode l) {X X' : Dense K} (hX : X.rows = n) (hX' : X'.rows = n)
    (hc : X.cols = l.theta.weight.cols) (hc' : X'.cols = X.cols)
    (hXX : ∀ (j : Nat) c, j < n → X'.at_ (π j).toNat c = X.at_ j c) :
    ∃ Y Y' q q', gcnConv l X g = (.ok Y, (ask q g).2) ∧ gcnConv l X' g' = (.ok Y', (ask q' g').2) ∧
      Y.rows = n ∧ Y'.rows = n ∧ Y.cols = l.theta.weight.rows ∧ Y'.cols = l.theta.weight.rows ∧
      ∀ (i : Nat) c, i < n → Y'.at_ (π i).toNat c = Y.at_ i c := by
  have hn : (ask .numV g).1 = .ok (.num n) := by rw [ask_eq hb]; simp only [evAsk, hr.num]
  have hn' : (ask .numV g').1 = .ok (.num n) := by rw [ask_eq hb']; simp only [evAsk, hr.num']
  obtain ⟨L, _, hL, _⟩ := C11_graph_LGCN hb hn hw
  obtain ⟨L', _, hL', _⟩ := C11_graph_LGCN hb' hn' hw'
  obtain ⟨Y, hY, y1, y2, y3⟩ := linear_ok l.theta hc
  obtain ⟨Y', hY', y1', y2', y3'⟩ := linear_ok l.theta (hc'.trans hc)
  obtain ⟨Z, hZ, z1, z2, _⟩ := C11_graph_smoothing hb hn hw hL Y (y1.trans hX) fun _ => true
  obtain ⟨Z', hZ', z1', z2', _⟩ := C11_graph_smoothing hb' hn' hw' hL' Y' (y1'.trans hX') fun _ => true
  have hq := (hr.gcn hπ hb hb' hw hw' hL hL').2 Y Y' (y1.trans hX) (y1'.trans hX') (by
    intro j c hj
    rw [y3, y3']
    unfold Spec.affine
    rw [hc']
    congr 1
    exact sum_congr rfl fun o _ => by rw [hXX j o hj]) _ _ Z Z' hZ hZ'
  have e : gcnConv l X g = (l.run Z, (ask (.smoothGCN Y 0 fun _ => true) g).2) := by
    simp only [gcnConv, PyM.bind_apply, PyM.lift_apply, hY, smooth_run hZ]
  have e' : gcnConv l X' g' = (l.run Z', (ask (.smoothGCN Y' 0 fun _ => true) g').2) := by
    simp only [gcnConv, PyM.bind_apply, PyM.lift_apply, hY', smooth_run hZ']
  rw [e, e']
  unfold Tail.run
  by_cases hlast : l.isLast = true
  · rw [if_pos hlast, if_pos hlast]
    exact ⟨Z, Z', _, _, rfl, rfl, z1, z1', z2.trans y2, z2'.trans y2', fun i c hi => hq i c hi⟩
  · rw [if_neg hlast, if_neg hlast, hl.drop]
    cases hbn : l.bn with
    | none =>
      refine ⟨mapD relu Z, mapD relu Z', _, _, rfl, rfl, z1, z1', z2.trans y2, z2'.trans y2', fun i c hi => ?_⟩
      simp only [mapD]; rw [hq i c hi]
    | some f =>
      obtain ⟨φ, hφ⟩ := hl.bn f hbn
      simp only [hφ]
      refine ⟨_, _, _, _, rfl, rfl, z1, z1', z2.trans y2, z2'.trans y2', fun i c hi => ?_⟩
      simp only [mapD, id]; rw [hq i c hi]

/-- the layers of a stack fit together -/
def Spec.Fits : Nat → List (Conv K) → Prop
  | _, [] => True
  | c, l :: ls => l.theta.weight.cols = c ∧ Spec.Fits l.theta.weight.rows ls

/-- C48. Renaming the vertices permutes the outputs of any stack of GCN layers in evaluation mode: the
model run on the renamed graph and the permuted features succeeds and gives the permuted outputs. -/
theorem C48_gcn_model_equivariant [IsStrictOrderedRing K] {n : Nat} {π : Equiv.Perm Int} {g g' : GSt K}
    (h : RenamedCopies n π g g') (hw : Spec.NonnegWeights (Spec.listing g))
    (hw' : Spec.NonnegWeights (Spec.listing g')) (ls : List (Conv K)) (hl : ∀ l ∈ ls, Spec.EvalMode l)
    (X X' : Dense K) (hX : X.rows = n) (hX' : X'.rows = n) (hf : Spec.Fits X.cols ls)
    (hc' : X'.cols = X.cols) (hXX : ∀ (j : Nat) c, j < n → X'.at_ (π j).toNat c = X.at_ j c) :
    ∃ Y Y', (gcnStack ls X g).1 = .ok Y ∧ (gcnStack ls X' g').1 = .ok Y' ∧ Y.rows = n ∧ Y'.rows = n ∧
      ∀ (i : Nat) c, i < n → Y'.at_ (π i).toNat c = Y.at_ i c := by
  obtain ⟨hr, hb, hb'⟩ := h.all
  have hπ := h.ren
  clear h
  induction ls generalizing X X' g g' with
  | nil => exact ⟨X, X', rfl, rfl, hX, hX', hXX⟩
  | cons l ls ih =>
    obtain ⟨Y, Y', q, q', e, e', y1, y1', y2, y2', hyy⟩ := gcn_layer hπ hr hb hb' hw hw'
      (hl l List.mem_cons_self) hX hX' hf.1.symm hc' hXX
    have hr2 : Renamed n π (ask q g).2 (ask q' g').2 := by
      have h1 := (reads_ask q g hb.inv.2).2.1
      have h2 := (reads_ask q' g' hb'.inv.2).2.1
      exact ⟨fun a b => by rw [h1, h2]; exact hr.map a b, by rw [h1, h2]; exact hr.extra,
        by rw [h1]; exact hr.num, by rw [h2]; exact hr.num'⟩
    have := ih (g := (ask q g).2) (g' := (ask q' g').2) (by rw [listing_after hb]; exact hw)
      (by rw [listing_after hb']; exact hw') (fun l hm => hl l (List.mem_cons_of_mem _ hm)) Y Y' y1 y1'
      (by rw [y2]; exact hf.2) (y2'.trans y2.symm) hyy hr2 (hb.read q) (hb'.read q')
    simp only [gcnStack, PyM.bind_apply, e, e']
    exact this

example : ∃ ls : List (Conv ℝ), ls.length = 2 ∧ (∀ l ∈ ls, Spec.EvalMode l) ∧ Spec.Fits 4 ls ∧
    ls.map (fun l => l.isLast) = [false, true] := by
  refine ⟨[
    { isLast := false, bn := some fun X => .ok { X with at_ := fun i c => (X.at_ i c - c) / 2 }, drop := id,
      theta := { weight := { rows := 8, cols := 4, at_ := fun i c => i - c }, bias := some fun _ => 1 } },
    { isLast := true, bn := none, drop := id,
      theta := { weight := { rows := 3, cols := 8, at_ := fun i c => i * c }, bias := none } }], rfl, ?_,
    ⟨rfl, rfl, trivial⟩, rfl⟩
  intro l hl
  simp only [List.mem_cons, List.not_mem_nil, or_false] at hl
  rcases hl with rfl | rfl
  · exact ⟨rfl, fun f hf => by cases hf; exact ⟨fun c x => (x - c) / 2, fun X => rfl⟩⟩
  · exact ⟨rfl, fun f hf => by cases hf⟩

end Props
end DHG
