import Verif.Props.HyperRename
import Verif.Props.Models

/-!
# Renaming the vertices of a hypergraph: layers and models (C88)
-/

set_option linter.unusedSectionVars false
set_option autoImplicit false

namespace DHG

namespace Spec
variable {K : Type}

/-- the layers of an `HNHN` fit together -/
def FitsE : Nat → List (Nn.Conv K × Nn.Linear K) → Prop
  | _, [] => True
  | c, l :: ls => l.1.theta.weight.cols = c ∧ l.2.weight.cols = l.1.theta.weight.rows ∧ FitsE l.2.weight.rows ls

end Spec

namespace Props

open Hyper Finset Nn Hy

variable {K : Type} [Field K] [LinearOrder K] [PyReal K]

/-- a `UniGATConv` in evaluation mode for features with `c` channels -/
structure Spec.GatEval (l : UniGat K) (c : Nat) : Prop where
  cols : l.theta.weight.cols = c
  att : l.attE.weight.cols = l.theta.weight.rows
  drop : ∀ k x, l.attDrop k x = x
  bn : ∀ f, l.bn = some f → ∃ φ : Nat → K → K, ∀ X, f X = .ok { X with at_ := fun i c => φ c (X.at_ i c) }

/-- a model on hypergraphs in evaluation mode for features with `c` channels: dropout does nothing,
batch normalisation acts on every entry by a function of the channel, and the layers fit together -/
def Spec.HEval : HModel K → Nat → Prop
  | .hgnn ls, c | .hgnnp ls, c | .uniGcn ls, c | .uniSage ls, c => Spec.Fits c ls ∧ ∀ l ∈ ls, Spec.EvalMode l
  | .hnhn ls, c => Spec.FitsE c ls ∧ ∀ l ∈ ls, Spec.EvalMode l.1
  | .uniGin ls, c => Spec.Fits c (ls.map Prod.fst) ∧ ∀ l ∈ ls, Spec.EvalMode l.1
  | .uniGat d1 hs d2 o, c => d1 = id ∧ d2 = id ∧ hs ≠ [] ∧ (∀ l ∈ hs, Spec.GatEval l c) ∧
      Spec.GatEval o (hs.map fun l => l.theta.weight.rows).sum

/-- results that are permuted -/
def PermRes (n : Nat) (π : Equiv.Perm Int) (o : Nat) (r r' : Except Err (Dense K)) : Prop :=
  ∃ Y Y', r = .ok Y ∧ r' = .ok Y' ∧ Spec.PermFeat n π Y Y' ∧ Y.cols = o

theorem perm_finished {n : Nat} {π : Equiv.Perm Int} {l : Conv K} (hl : Spec.EvalMode l) {Z Z' : Dense K}
    {r r' : Except Err (Dense K)} {o : Nat} (h : Spec.Finished l.toTail Z r) (h' : Spec.Finished l.toTail Z' r')
    (hZ : Spec.PermFeat n π Z Z') (ho : Z.cols = o) : PermRes n π o r r' := by
  cases hL : l.isLast with
  | true => exact ⟨Z, Z', h.last hL, h'.last hL, hZ, ho⟩
  | false =>
    have hp : Spec.PermFeat n π (Spec.posPart Z) (Spec.posPart Z') :=
      ⟨hZ.rows, hZ.rows', hZ.cols, fun i c hi hc => by
        show max (Z'.at_ _ c) 0 = max (Z.at_ i c) 0
        rw [hZ.at_ i c hi hc]⟩
    cases hb : l.bn with
    | none =>
      refine ⟨_, _, h.plain hL hb, h'.plain hL hb, ?_, ?_⟩
      · rw [hl.drop]; exact hp
      · rw [hl.drop]; exact ho
    | some f =>
      obtain ⟨φ, hφ⟩ := hl.bn f hb
      refine ⟨_, _, h.norm f _ hL hb (hφ _), h'.norm f _ hL hb (hφ _), ?_, ?_⟩
      · rw [hl.drop]
        exact ⟨hZ.rows, hZ.rows', hZ.cols, fun i c hi hc => congrArg (φ c) (hp.at_ i c hi hc)⟩
      · rw [hl.drop]; exact ho

theorem affine_perm {n : Nat} {π : Equiv.Perm Int} {X X' : Dense K} (hX : Spec.PermFeat n π X X') (t : Linear K)
    {i : Nat} (hi : i < n) (o : Nat) : Spec.affine t X' (ren π i) o = Spec.affine t X i o := by
  unfold Spec.affine
  rw [hX.cols]
  congr 1
  exact sum_congr rfl fun c hc => by rw [show X'.at_ (ren π i) c = X.at_ i c from hX.at_ i c hi (mem_range.1 hc)]

section Layers

variable {n : Nat} {π : Equiv.Perm Int} {s s' : HSt K} (h : RenamedHypers n π s s') (hsc : Spec.HasScope s none)
  {X X' : Dense K} (hX : Spec.PermFeat n π X X') {l : Conv K} (hl : Spec.EvalMode l)
  (hc : X.cols = l.theta.weight.cols)

include h hsc

theorem ren_scope : Spec.HasScope s' none := (renR_scope h.all.1 none).2 hsc

include hX hl hc

/-- C88. `HGNNConv` in evaluation mode. -/
theorem C88_hgnn_conv [IsStrictOrderedRing K] (hw : Spec.HNonneg (Spec.hListing s none)) :
    ∃ Y Y', (hgnnConv l X s).1 = .ok Y ∧ (hgnnConv l X' s').1 = .ok Y' ∧ Spec.PermFeat n π Y Y' ∧
      Y.cols = l.theta.weight.rows := by
  have hw' : Spec.HNonneg (Spec.hListing s' none) := by rw [(h.listing none).1]; exact nonneg_renL _ hw
  obtain ⟨_, hb, hb', _⟩ := h.all
  obtain ⟨L, L', _, _, _, _, hL, hL', _, _, _, _, hq⟩ := C88_hypergraph_laplacians h hsc hw
  obtain ⟨Z, z1, z2, z3, z4⟩ := C91_hgnn_conv_partial hb hsc h.numV.1 hw hL l X hX.rows hc
  obtain ⟨Z', z1', z2', z3', z4'⟩ := C91_hgnn_conv_partial hb' (ren_scope h hsc) h.numV.2 hw' hL' l X' hX.rows'
    (hX.cols.trans hc)
  refine perm_finished hl z4 z4' ⟨z1, z1', z2'.trans z2.symm, fun i o hi _ => ?_⟩ z2
  rw [z3, z3', ← sum_ren h.ren]
  refine sum_congr rfl fun j hj => ?_
  have hj := mem_range.1 hj
  rw [affine_perm hX _ hj]
  congr 1
  exact (hq i j hi hj).1

/-- C88. `HGNNPConv` in evaluation mode. -/
theorem C88_hgnnp_conv :
    ∃ Y Y', (hgnnpConv l X s).1 = .ok Y ∧ (hgnnpConv l X' s').1 = .ok Y' ∧ Spec.PermFeat n π Y Y' ∧
      Y.cols = l.theta.weight.rows := by
  obtain ⟨_, hb, hb', _⟩ := h.all
  obtain ⟨Z, z1, z2, z3, _, z4⟩ := C91_hgnnp_conv_partial hb hsc h.numV.1 l X hX.rows hc
  obtain ⟨Z', z1', z2', z3', _, z4'⟩ := C91_hgnnp_conv_partial hb' (ren_scope h hsc) h.numV.2 l X' hX.rows'
    (hX.cols.trans hc)
  obtain ⟨hls, hR⟩ := h.listing none
  rw [hls] at z3'
  refine perm_finished hl z4 z4' ⟨z1, z1', z2'.trans z2.symm, fun i o hi _ => ?_⟩ z2
  show Z'.at_ (ren π i) o = _
  rw [z3 i o hi, z3' _ o ((ren_lt h.ren i).2 hi), hDeg_renL h.ren]
  rw [incidentSum_renL h.ren _ i fun k hk => edgeMean_renL h.ren _ hR hk fun v hv => affine_perm hX _ hv o]

/-- C88. `HNHNConv` in evaluation mode. -/
theorem C88_hnhn_conv {t : Linear K} (ht : l.theta.weight.rows = t.weight.cols) :
    ∃ Y Y', (hnhnConv l t X s).1 = .ok Y ∧ (hnhnConv l t X' s').1 = .ok Y' ∧ Spec.PermFeat n π Y Y' ∧
      Y.cols = t.weight.rows := by
  obtain ⟨_, hb, hb', _⟩ := h.all
  obtain ⟨Z, z1, z2, z3, z4⟩ := C91_hnhn_conv_partial hb hsc h.numV.1 l t X hX.rows hc ht
  obtain ⟨Z', z1', z2', z3', z4'⟩ := C91_hnhn_conv_partial hb' (ren_scope h hsc) h.numV.2 l t X' hX.rows'
    (hX.cols.trans hc) ht
  obtain ⟨hls, hR⟩ := h.listing none
  rw [hls] at z3'
  refine perm_finished hl z4 z4' ⟨z1, z1', z2'.trans z2.symm, fun i o hi _ => ?_⟩ z2
  show Z'.at_ (ren π i) o = _
  rw [z3 i o hi, z3' _ o ((ren_lt h.ren i).2 hi), hDeg_renL h.ren]
  rw [incidentSum_renL h.ren _ i fun k hk => ?_]
  congr 1
  refine sum_congr rfl fun c _ => ?_
  rw [edgeMean_renL h.ren _ hR hk fun v hv => affine_perm hX _ hv c]

/-- C88. `UniSAGEConv` in evaluation mode. -/
theorem C88_unisage_conv :
    ∃ Y Y', (uniSageConv l X s).1 = .ok Y ∧ (uniSageConv l X' s').1 = .ok Y' ∧ Spec.PermFeat n π Y Y' ∧
      Y.cols = l.theta.weight.rows := by
  obtain ⟨_, hb, hb', _⟩ := h.all
  obtain ⟨Z, z1, z2, z3, z4⟩ := C91_unisage_conv_partial hb hsc h.numV.1 l X hX.rows hc
  obtain ⟨Z', z1', z2', z3', z4'⟩ := C91_unisage_conv_partial hb' (ren_scope h hsc) h.numV.2 l X' hX.rows'
    (hX.cols.trans hc)
  obtain ⟨hls, hR⟩ := h.listing none
  rw [hls] at z3'
  refine perm_finished hl z4 z4' ⟨z1, z1', z2'.trans z2.symm, fun i o hi ho => ?_⟩ z2
  rw [z2] at ho
  show Z'.at_ (ren π i) o = _
  rw [z3 i o hi ho, z3' _ o ((ren_lt h.ren i).2 hi) ho, affine_perm hX _ hi]
  rw [incidentSum_renL h.ren _ i fun k hk => edgeMean_renL h.ren _ hR hk fun v hv => affine_perm hX _ hv o]

/-- C88. `UniGINConv` in evaluation mode. -/
theorem C88_unigin_conv (eps : K) :
    ∃ Y Y', (uniGinConv l eps X s).1 = .ok Y ∧ (uniGinConv l eps X' s').1 = .ok Y' ∧ Spec.PermFeat n π Y Y' ∧
      Y.cols = l.theta.weight.rows := by
  obtain ⟨_, hb, hb', _⟩ := h.all
  obtain ⟨Z, z1, z2, z3, _, z4⟩ := C91_unigin_conv_partial hb hsc h.numV.1 l eps X hX.rows hc
  obtain ⟨Z', z1', z2', z3', _, z4'⟩ := C91_unigin_conv_partial hb' (ren_scope h hsc) h.numV.2 l eps X' hX.rows'
    (hX.cols.trans hc)
  obtain ⟨hls, hR⟩ := h.listing none
  rw [hls] at z3'
  refine perm_finished hl z4 z4' ⟨z1, z1', z2'.trans z2.symm, fun i o hi ho => ?_⟩ z2
  rw [z2] at ho
  show Z'.at_ (ren π i) o = _
  rw [z3 i o hi ho, z3' _ o ((ren_lt h.ren i).2 hi) ho, affine_perm hX _ hi]
  rw [incidentSum_renL h.ren _ i fun k hk => edgeMean_renL h.ren _ hR hk fun v hv => affine_perm hX _ hv o]

/-- C88. `UniGCNConv` in evaluation mode, for non-empty hyperedges of positive weight. -/
theorem C88_unigcn_conv [IsStrictOrderedRing K] (hw : ∀ e ∈ Spec.hListing s none, 0 < e.2 ∧ e.1 ≠ []) :
    ∃ Y Y', (uniGcnConv l X s).1 = .ok Y ∧ (uniGcnConv l X' s').1 = .ok Y' ∧ Spec.PermFeat n π Y Y' ∧
      Y.cols = l.theta.weight.rows := by
  obtain ⟨_, hb, hb', _⟩ := h.all
  obtain ⟨hls, hR⟩ := h.listing none
  have hw' : ∀ e ∈ Spec.hListing s' none, 0 < e.2 ∧ e.1 ≠ [] := by
    rw [hls]
    intro e he
    obtain ⟨p, hp, rfl⟩ := List.mem_map.1 he
    refine ⟨(hw p hp).1, fun h0 => (hw p hp).2 ?_⟩
    have := congrArg List.length h0
    simpa [renE, (sortV_perm _).length_eq] using this
  obtain ⟨Z, p, q, z1, z2, hp, hq, z3, z4⟩ := C91_unigcn_conv_partial hb hsc h.numV.1 hw l X hX.rows hc
  obtain ⟨Z', p', q', z1', z2', hp', hq', z3', z4'⟩ := C91_unigcn_conv_partial hb' (ren_scope h hsc) h.numV.2 hw' l X'
    hX.rows' (hX.cols.trans hc)
  rw [hls] at z3' hp' hq'
  refine perm_finished hl z4 z4' ⟨z1, z1', z2'.trans z2.symm, fun i o hi _ => ?_⟩ z2
  have hi' := (ren_lt h.ren i).2 hi
  have hqq : q' (ren π i) = q i := by
    have := hq' _ hi'
    rw [hDeg_renL h.ren] at this
    exact Graph.InvSqrt.unique this (hq i hi)
  show Z'.at_ (ren π i) o = _
  rw [z3 i o hi, z3' _ o hi', hqq]
  rw [incidentSum_renL h.ren _ i fun k hk => ?_]
  rw [edgeMean_renL h.ren _ hR hk fun v hv => affine_perm hX _ hv o]
  congr 1
  have := hp' k (by rw [renL_length]; exact hk)
  rw [hSize_renL _ hk, memberSum_renL h.ren _ hR hk fun v _ => hDeg_renL h.ren _ v] at this
  exact Graph.InvSqrt.unique this (hp k hk)

/-- C88. `JHConv` in evaluation mode. -/
theorem C88_jh_conv [IsStrictOrderedRing K] (hw : Spec.HNonneg (Spec.hListing s none))
    (hc' : X.cols = l.theta.weight.rows) :
    ∃ Y Y', (jhConv l X s).1 = .ok Y ∧ (jhConv l X' s').1 = .ok Y' ∧ Spec.PermFeat n π Y Y' ∧
      Y.cols = X.cols := by
  have hw' : Spec.HNonneg (Spec.hListing s' none) := by rw [(h.listing none).1]; exact nonneg_renL _ hw
  obtain ⟨_, hb, hb', _⟩ := h.all
  obtain ⟨L, L', _, _, _, _, hL, hL', _, _, _, _, hq⟩ := C88_hypergraph_laplacians h hsc hw
  obtain ⟨Z, z1, z2, z3, z4⟩ := C91_jh_conv_partial hb hsc h.numV.1 hw hL l X hX.rows hc hc'
  obtain ⟨Z', z1', z2', z3', z4'⟩ := C91_jh_conv_partial hb' (ren_scope h hsc) h.numV.2 hw' hL' l X' hX.rows'
    (hX.cols.trans hc) (hX.cols.trans hc')
  refine perm_finished hl z4 z4' ⟨z1, z1', by rw [z2, z2', hX.cols], fun i o hi ho => ?_⟩ z2
  rw [z2] at ho
  show Z'.at_ (ren π i) o = _
  rw [z3 i o hi ho, z3' _ o ((ren_lt h.ren i).2 hi) (by rw [hX.cols]; exact ho),
    show X'.at_ (ren π i) o = X.at_ i o from hX.at_ i o hi ho, ← sum_ren h.ren]
  congr 1
  refine sum_congr rfl fun j hj => ?_
  have hj := mem_range.1 hj
  rw [affine_perm hX _ hj]
  congr 1
  exact (hq i j hi hj).1

end Layers

/-! ### `UniGAT` -/

/-- the averages over the hyperedges that `UniGATConv` works with -/
noncomputable def Spec.edgeMeans (l : UniGat K) (X : Dense K) (ls : List (List Int × K)) : Dense K :=
  ⟨ls.length, l.theta.weight.rows, fun e o => Spec.edgeMean ls (fun v => Spec.affine l.theta X v o) e⟩

/-- the weight that `UniGATConv` gives to hyperedge `e` when no dropout happens -/
noncomputable def Spec.attention (l : UniGat K) (X : Dense K) (ls : List (List Int × K)) (e : Nat) : K :=
  PyReal.exp (min (max (Spec.uniGatScore l (Spec.edgeMeans l X ls) e) (1 / 1000)) 5)

theorem incoming_scale (send recv : List Nat) (coef : List K) (g x : Nat → K) (i : Nat) (z : K)
    (h1 : coef.length = recv.length) (h2 : send.length = recv.length)
    (h : ∀ k (_ : k < coef.length) (_ : k < send.length) (_ : k < recv.length), recv[k] = i →
      coef[k] * z = g send[k]) :
    Spec.incoming send recv coef x i * z =
      ((recv.zip send).map fun p => if p.1 = i then g p.2 * x p.2 else 0).sum := by
  induction recv generalizing send coef with
  | nil =>
    cases send with
    | nil => simp [Spec.incoming]
    | cons a t => cases h2
  | cons r recv ih =>
    cases send with
    | nil => cases h2
    | cons a send =>
      cases coef with
      | nil => cases h1
      | cons w coef =>
        rw [Spec.incoming, List.zip_cons_cons, List.map_cons, List.sum_cons, add_mul,
          ih send coef (by simpa using h1) (by simpa using h2) fun k a b c hk =>
            h (k + 1) (Nat.succ_lt_succ a) (Nat.succ_lt_succ b) (Nat.succ_lt_succ c) hk]
        congr 1
        dsimp only
        split
        · rename_i hr
          have := h 0 (by simp) (by simp) (by simp) (by simpa using hr)
          simp only [List.getElem_cons_zero] at this
          rw [← this]; ring
        · ring

theorem keys_sum {n : Nat} {ls : List (List Int × K)} {M : Sp K} (hI : IncM n ls M) {i : Nat} (hi : i < n)
    (f : Nat → K) : ((M.ents.map Prod.fst).map fun p => if p.1 = i then f p.2 else 0).sum =
      Spec.incidentSum ls i f := by
  rw [← List.sum_toFinset _ hI.nodup, ← sum_filter]
  unfold Spec.incidentSum
  rw [← sum_filter]
  refine sum_nbij' Prod.snd (fun k => (i, k)) ?_ ?_ ?_ ?_ ?_
  · rintro ⟨a, k⟩ ha
    rw [mem_filter, List.mem_toFinset] at ha
    obtain ⟨ha, hb⟩ := ha
    dsimp only at hb
    subst hb
    have := (hI.keys _ _).1 ha
    exact mem_filter.2 ⟨mem_range.2 this.2.1, this.2.2⟩
  · intro k hk
    rw [mem_filter, mem_range] at hk
    rw [mem_filter, List.mem_toFinset]
    exact ⟨(hI.keys _ _).2 ⟨hi, hk.1, hk.2⟩, rfl⟩
  · rintro ⟨a, k⟩ ha
    exact Prod.ext (mem_filter.1 ha).2.symm rfl
  · intro k _; rfl
  · intro _ _; rfl

theorem incidentSum_none {ls : List (List Int × K)} {i : Nat} {f : Nat → K}
    (h : ∀ e, e < ls.length → (i : Int) ∉ Spec.hAt ls e) : Spec.incidentSum ls i f = 0 := by
  unfold Spec.incidentSum
  exact sum_eq_zero fun k hk => if_neg (h k (mem_range.1 hk))

theorem incoming_none (send recv : List Nat) (coef : List K) (x : Nat → K) {i : Nat} (h : i ∉ recv) :
    Spec.incoming send recv coef x i = 0 := by
  induction recv generalizing send coef with
  | nil => cases send <;> rfl
  | cons r recv ih =>
    cases send with
    | nil => rfl
    | cons a send =>
      cases coef with
      | nil => rfl
      | cons w coef =>
        rw [Spec.incoming, if_neg (fun hr : r = i => h (hr ▸ List.mem_cons_self)), zero_add,
          ih _ _ fun hm => h (List.mem_cons_of_mem _ hm)]

theorem incidentSum_pos [IsStrictOrderedRing K] {ls : List (List Int × K)} {i : Nat} {f : Nat → K} (hf : ∀ k, 0 < f k) {k : Nat}
    (hk : k < ls.length) (hm : (i : Int) ∈ Spec.hAt ls k) : 0 < Spec.incidentSum ls i f := by
  unfold Spec.incidentSum
  refine sum_pos' (fun j _ => ?_) ⟨k, mem_range.2 hk, ?_⟩
  · split
    · exact (hf j).le
    · exact le_rfl
  · rw [if_pos hm]; exact hf k

/-- C91, partial. `UniGATConv` without dropout: the output at vertex `i` before the activation is the
average, over the hyperedges of `i`, of the averages of `X Wᵀ + b` over the hyperedges, weighted by
`exp` of the score of the hyperedge clamped to `[0.001, 5]`, and 0 if `i` has no hyperedge. The score
depends on the hyperedge only, not on the vertex as documented. Missing: exactly one incidence
(`C91_unigat_single_false`), a hypergraph without groups. -/
theorem C91_unigat_average_partial [IsStrictOrderedRing K] {b : Bool} {s : HSt K} (hs : Built Proper b s)
    (hsc : Spec.HasScope s none) {n : Nat} (hn : (ask .numV s).1 = .ok (.num n)) {send recv : List Nat}
    (he : HEnds .e2v s none send recv) (h1' : recv.length ≠ 1) (l : UniGat K) (X : Dense K) (hX : X.rows = n)
    (hc : X.cols = l.theta.weight.cols) (hd : l.attE.weight.cols = l.theta.weight.rows)
    (hdrop : ∀ k x, l.attDrop k x = x) :
    let ls := Spec.hListing s none
    ∃ Z : Dense K, Z.rows = n ∧ Z.cols = l.theta.weight.rows ∧
      (∀ i c, i < n → Z.at_ i c * Spec.incidentSum ls i (Spec.attention l X ls) =
        Spec.incidentSum ls i fun e => Spec.attention l X ls e * (Spec.edgeMeans l X ls).at_ e c) ∧
      (∀ i c, i < n → (∀ e, e < ls.length → (i : Int) ∉ Spec.hAt ls e) → Z.at_ i c = 0) ∧
      (l.isLast = true → (uniGatConv l X s).1 = .ok Z) ∧
      (l.isLast = false → l.bn = none → (uniGatConv l X s).1 = .ok (Spec.eluOf Z)) ∧
      (∀ f, l.isLast = false → l.bn = some f → (uniGatConv l X s).1 = f (Spec.eluOf Z)) := by
  obtain ⟨Y, Z, coef, z, y1, y2, y3, g1, g2, g3, g4, g5, g6, g7, g8, g9, g10, g11⟩ :=
    C91_unigat_conv_partial hs hsc hn he h1' l X hX hc hd
  have hs' := hs.mono (Q := AnyH) fun _ _ _ => trivial
  obtain ⟨hi, hcoh⟩ := hs'.inv
  obtain ⟨M, hM, hT, hI⟩ := evHT_spec hi hs.inRange (has_of_scope hsc)
  have hsr : send = M.ents.map (fun e => e.1.2) ∧ recv = M.ents.map (fun e => e.1.1) := by
    obtain ⟨q1, q2⟩ := he
    rw [Hyper.ask_eq _ hcoh (.inr (by simp))] at q1 q2
    simp only [evAsk, hM, bind, Except.bind] at q1 q2
    cases q1; cases q2; exact ⟨rfl, rfl⟩
  rw [Hy.numV_eq hn] at hI
  rw [listing_eq hs'] at y1 y3 ⊢
  generalize lstOf none s.raw = ls at *
  have hzip : recv.zip send = M.ents.map Prod.fst := by
    rw [hsr.1, hsr.2, List.zip_map']
  have hg : ∀ e, e < ls.length → PyReal.exp (min (max (Spec.uniGatScore l Y e) (1 / 1000)) 5) =
      Spec.attention l X ls e := by
    intro e he
    unfold Spec.attention Spec.uniGatScore Spec.affine
    have : ∀ c, Y.at_ e c = (Spec.edgeMeans l X ls).at_ e c := fun c => y3 e c he
    simp only [this, y2]
    rfl
  have hlt : ∀ k (_ : k < send.length) (_ : k < recv.length), (recv[k], send[k]) ∈ M.ents.map Prod.fst := by
    intro k a b
    rw [← hzip]
    exact List.mem_iff_getElem.2 ⟨k, by simp; omega, by simp⟩
  have key : ∀ i (x : Nat → K), i < n → Spec.incoming send recv coef x i * z i =
      Spec.incidentSum ls i fun e => Spec.attention l X ls e * x e := by
    intro i x hi
    rw [← keys_sum hI hi, ← hzip]
    refine incoming_scale send recv coef (Spec.attention l X ls) x i (z i) g1 g2 fun k a b c hk => ?_
    have := (g7 k a b c).2
    rw [hk, hdrop] at this
    rw [this]
    exact hg _ ((hI.keys _ _).1 (hlt k b c)).2.1
  have hnone : ∀ i, i < n → i ∉ recv → ∀ e, e < ls.length → (i : Int) ∉ Spec.hAt ls e := by
    intro i hi hr e he hm
    apply hr
    obtain ⟨p, hp, hq⟩ := List.mem_map.1 ((hI.keys i e).2 ⟨hi, he, hm⟩)
    rw [hsr.2]
    exact List.mem_map.2 ⟨p, hp, by rw [hq]⟩
  refine ⟨Z, g3, g4, ?_, ?_, g9, g10, g11⟩
  · intro i c hi
    by_cases hr : i ∈ recv
    · have h1 := key i (fun _ => 1) hi
      rw [g8 i hr, one_mul] at h1
      simp only [mul_one] at h1
      rw [← h1, g5, key i _ hi]
      exact incidentSum_congr fun k hk => by rw [y3 k c hk]; rfl
    · have h0 := hnone i hi hr
      rw [incidentSum_none h0, incidentSum_none h0, mul_zero]
  · intro i c hi h0
    rw [g5]
    apply incoming_none
    intro hr
    rw [hsr.2] at hr
    obtain ⟨e, he, rfl⟩ := List.mem_map.1 hr
    have := (hI.keys e.1.1 e.1.2).1 (List.mem_map.2 ⟨e, he, rfl⟩)
    exact h0 _ this.2.1 this.2.2

theorem RenamedHypers.ends {n : Nat} {π : Equiv.Perm Int} {s s' : HSt K} (h : RenamedHypers n π s s')
    (hsc : Spec.HasScope s none) {send recv : List Nat} (he : HEnds .e2v s none send recv) :
    ∃ send' recv', HEnds .e2v s' none send' recv' ∧ recv'.length = recv.length := by
  obtain ⟨hr, hb, hb', hn⟩ := h.all
  have hsc' := ren_scope h hsc
  have h1 := hb.mono (Q := AnyH) fun _ _ _ => trivial
  have h2 := hb'.mono (Q := AnyH) fun _ _ _ => trivial
  obtain ⟨hi, hcoh⟩ := h1.inv
  obtain ⟨hi', hcoh'⟩ := h2.inv
  obtain ⟨M, hM, _, hI⟩ := evHT_spec hi hb.inRange (has_of_scope hsc)
  obtain ⟨M', hM', _, hI'⟩ := evHT_spec hi' hb'.inRange (has_of_scope hsc')
  refine ⟨M'.ents.map (fun e => e.1.2), M'.ents.map (fun e => e.1.1), ⟨?_, ?_⟩, ?_⟩
  · rw [Hyper.ask_eq _ hcoh' (.inr (by simp))]; simp only [evAsk, hM']; rfl
  · rw [Hyper.ask_eq _ hcoh' (.inr (by simp))]; simp only [evAsk, hM']; rfl
  · have hrv : recv = M.ents.map (fun e => e.1.1) := by
      obtain ⟨q1, q2⟩ := he
      rw [Hyper.ask_eq _ hcoh (.inr (by simp))] at q2
      simp only [evAsk, hM, bind, Except.bind] at q2
      cases q2; rfl
    rw [hrv, List.length_map, List.length_map]
    rw [renR_lst hr none] at hI'
    rw [hr.num, hn] at hI'
    rw [hn] at hI
    have hp : (M'.ents.map Prod.fst).Perm ((M.ents.map Prod.fst).map fun p => (Props.ren π p.1, p.2)) := by
      refine (List.perm_ext_iff_of_nodup hI'.nodup (hI.nodup.map ?_)).2 ?_
      · rintro ⟨a, b⟩ ⟨c, d⟩ hh
        simp only [Prod.mk.injEq, ren_inj h.ren] at hh
        exact Prod.ext hh.1 hh.2
      · rintro ⟨a, j⟩
        rw [hI'.keys, renL_length, List.mem_map]
        constructor
        · rintro ⟨ha, hj, hm⟩
          rw [hAt_renL _ hj] at hm
          have hb0 := (h.ren.nonneg (π.symm a)).1 (by simp)
          have hb1 := (h.ren.lt (π.symm a)).1 (by simpa using ha)
          have hra : Props.ren π (π.symm a).toNat = a := by
            unfold Props.ren; rw [Int.toNat_of_nonneg hb0]; simp
          refine ⟨((π.symm a).toNat, j), (hI.keys _ _).2 ⟨by omega, hj, ?_⟩, by simp only [hra]⟩
          rw [← hra, mem_renE h.ren] at hm
          exact hm
        · rintro ⟨⟨b, k⟩, hb, hh⟩
          cases hh
          obtain ⟨h1, h2, h3⟩ := (hI.keys _ _).1 hb
          refine ⟨(ren_lt h.ren b).2 h1, h2, ?_⟩
          rw [hAt_renL _ h2, mem_renE h.ren]
          exact h3
    simpa using hp.length_eq

/-- C88. `UniGATConv` in evaluation mode, unless there is exactly one incidence. -/
theorem C88_unigat_conv [IsStrictOrderedRing K] {n : Nat} {π : Equiv.Perm Int} {s s' : HSt K}
    (h : RenamedHypers n π s s') (hsc : Spec.HasScope s none) {send recv : List Nat}
    (he : HEnds .e2v s none send recv) (h1 : recv.length ≠ 1) {X X' : Dense K} (hX : Spec.PermFeat n π X X')
    {l : UniGat K} (hl : Spec.GatEval l X.cols) :
    ∃ Y Y', (uniGatConv l X s).1 = .ok Y ∧ (uniGatConv l X' s').1 = .ok Y' ∧ Spec.PermFeat n π Y Y' ∧
      Y.cols = l.theta.weight.rows := by
  obtain ⟨_, hb, hb', _⟩ := h.all
  obtain ⟨send', recv', he', hlen⟩ := h.ends hsc he
  obtain ⟨Z, z1, z2, z3, z4, z5, z6, z7⟩ := C91_unigat_average_partial hb hsc h.numV.1 he h1 l X hX.rows
    hl.cols.symm hl.att hl.drop
  obtain ⟨Z', z1', z2', z3', z4', z5', z6', z7'⟩ := C91_unigat_average_partial hb' (ren_scope h hsc) h.numV.2 he'
    (hlen ▸ h1) l X' hX.rows' (hX.cols.trans hl.cols.symm) hl.att hl.drop
  obtain ⟨hls, hR⟩ := h.listing none
  rw [hls] at z3' z4'
  generalize Spec.hListing s none = ls at *
  have hmean : ∀ e c, e < ls.length → (Spec.edgeMeans l X' (renL π ls)).at_ e c = (Spec.edgeMeans l X ls).at_ e c :=
    fun e c he => edgeMean_renL h.ren _ hR he fun v hv => affine_perm hX _ hv c
  have hatt : ∀ e, e < ls.length → Spec.attention l X' (renL π ls) e = Spec.attention l X ls e := by
    intro e he
    unfold Spec.attention Spec.uniGatScore Spec.affine
    simp only [hmean e _ he]
    rfl
  have hZ : Spec.PermFeat n π Z Z' := by
    refine ⟨z1, z1', z2'.trans z2.symm, fun i c hi _ => ?_⟩
    have hi' := (ren_lt h.ren i).2 hi
    show Z'.at_ (ren π i) c = _
    by_cases hno : ∀ e, e < ls.length → (i : Int) ∉ Spec.hAt ls e
    · rw [z4 i c hi hno, z4' _ c hi']
      intro e he
      rw [renL_length] at he
      rw [hAt_renL _ he, mem_renE h.ren]
      exact hno e he
    · push Not at hno
      obtain ⟨e, he, hm⟩ := hno
      have hp := incidentSum_pos (f := Spec.attention l X ls) (fun k => PyReal.exp_pos _) he hm
      have h2 := z3' _ c hi'
      rw [incidentSum_renL h.ren _ i hatt, incidentSum_renL h.ren _ i fun k hk => by rw [hatt k hk, hmean k c hk],
        ← z3 i c hi] at h2
      exact mul_right_cancel₀ hp.ne' h2
  have hE : Spec.PermFeat n π (Spec.eluOf Z) (Spec.eluOf Z') :=
    ⟨z1, z1', z2'.trans z2.symm, fun i c hi hc => congrArg elu (hZ.at_ i c hi hc)⟩
  cases hL : l.isLast with
  | true => exact ⟨Z, Z', z5 hL, z5' hL, hZ, z2⟩
  | false =>
    cases hbn : l.bn with
    | none => exact ⟨_, _, z6 hL hbn, z6' hL hbn, hE, z2⟩
    | some f =>
      obtain ⟨φ, hφ⟩ := hl.bn f hbn
      exact ⟨_, _, (z7 f hL hbn).trans (hφ _), (z7' f hL hbn).trans (hφ _),
        ⟨z1, z1', z2'.trans z2.symm, fun i c hi hc => congrArg (φ c) (hE.at_ i c hi hc)⟩, z2⟩

theorem read_bind {α β : Type} {b : Bool} {m : PyM (HSt K) α} {f : α → PyM (HSt K) β} {p : HRaw K → Except Err α}
    (hm : HReads b m p) {a : α} (hf : ∃ q, HReads b (f a) q) {s : HSt K} (hs : CoherentOn (Tr b) evKey s)
    (h : (m s).1 = .ok a) : ((m >>= f) s).1 = (f a s).1 := by
  obtain ⟨q, hq⟩ := hf
  obtain ⟨_, h2, h3⟩ := hm s hs
  have : ((m >>= f) s).1 = (f a (m s).2).1 := by
    simp only [PyM.bind_apply]
    rcases hh : m s with ⟨x, t⟩
    rw [hh] at h
    dsimp only at h
    subst h
    rfl
  rw [this, (hq _ h3).1, (hq _ hs).1, h2]

theorem collect_perm {ι : Type} {n : Nat} {π : Equiv.Perm Int} {s s' : HSt K}
    (hs : CoherentOn (Tr true) evKey s) (hs' : CoherentOn (Tr true) evKey s')
    (F F' : ι → PyM (HSt K) (Dense K)) (hF : ∀ i, ∃ p, HReads true (F i) p) (hF' : ∀ i, ∃ p, HReads true (F' i) p)
    (o : ι → Nat) (ls : List ι)
    (hstep : ∀ l ∈ ls, ∃ Y Y', (F l s).1 = .ok Y ∧ (F' l s').1 = .ok Y' ∧ Spec.PermFeat n π Y Y' ∧ Y.cols = o l) :
    ∃ Ys Ys', (PyM.collect (ls.map F) id s).1 = .ok Ys ∧ (PyM.collect (ls.map F') id s').1 = .ok Ys' ∧
      List.Forall₂ (Spec.PermFeat n π) Ys Ys' ∧ Ys.map (fun Y => Y.cols) = ls.map o := by
  induction ls with
  | nil => exact ⟨[], [], rfl, rfl, .nil, rfl⟩
  | cons l ls ih =>
    obtain ⟨Y, Y', h1, h2, h3, h4⟩ := hstep l List.mem_cons_self
    obtain ⟨Ys, Ys', g1, g2, g3, g4⟩ := ih fun l hl => hstep l (List.mem_cons_of_mem _ hl)
    obtain ⟨p, hp⟩ := hF l
    obtain ⟨p', hp'⟩ := hF' l
    obtain ⟨q, hq⟩ := isReadOn_collect (ls.map F) (by simp only [List.mem_map]; rintro _ ⟨i, _, rfl⟩; exact hF i)
    obtain ⟨q', hq'⟩ := isReadOn_collect (ls.map F') (by simp only [List.mem_map]; rintro _ ⟨i, _, rfl⟩; exact hF' i)
    refine ⟨Y :: Ys, Y' :: Ys', ?_, ?_, .cons h3 g3, by rw [List.map_cons, List.map_cons, h4, g4]⟩
    · show ((F l >>= fun a => PyM.collect (ls.map F) id >>= fun as => pure (a :: as)) s).1 = _
      rw [read_bind hp (isReadOn_bind ⟨_, hq⟩ fun _ => ⟨_, ReadsOn.pure _⟩) hs h1]
      rw [read_bind (f := fun as => pure (Y :: as)) hq ⟨_, ReadsOn.pure _⟩ hs g1]
      rfl
    · show ((F' l >>= fun a => PyM.collect (ls.map F') id >>= fun as => pure (a :: as)) s').1 = _
      rw [read_bind hp' (isReadOn_bind ⟨_, hq'⟩ fun _ => ⟨_, ReadsOn.pure _⟩) hs' h2]
      rw [read_bind (f := fun as => pure (Y' :: as)) hq' ⟨_, ReadsOn.pure _⟩ hs' g2]
      rfl

theorem catAll_perm {n : Nat} {π : Equiv.Perm Int} {Ys Ys' : List (Dense K)}
    (h : List.Forall₂ (Spec.PermFeat n π) Ys Ys') (hne : Ys ≠ []) :
    ∃ Z Z', catAll Ys = .ok Z ∧ catAll Ys' = .ok Z' ∧ Spec.PermFeat n π Z Z' ∧
      Z.cols = (Ys.map fun Y => Y.cols).sum := by
  induction h with
  | nil => exact absurd rfl hne
  | @cons Y Y' Ys Ys' h1 h2 ih =>
    cases h2 with
    | nil => exact ⟨Y, Y', rfl, rfl, h1, by simp⟩
    | @cons A A' Ys Ys' a1 a2 =>
      obtain ⟨Z, Z', e1, e2, e3, e4⟩ := ih (List.cons_ne_nil _ _)
      have c1 : catAll (Y :: A :: Ys) = catCols Y Z := by
        rw [catAll]
        · rw [e1]; rfl
        · simp
      have c2 : catAll (Y' :: A' :: Ys') = catCols Y' Z' := by
        rw [catAll]
        · rw [e2]; rfl
        · simp
      rw [c1, c2]
      unfold catCols
      rw [if_pos (h1.rows.trans e3.rows.symm), if_pos (h1.rows'.trans e3.rows'.symm)]
      refine ⟨_, _, rfl, rfl, ⟨h1.rows, h1.rows', ?_, fun i c hi hc => ?_⟩, ?_⟩
      · show Y'.cols + Z'.cols = Y.cols + Z.cols
        rw [h1.cols, e3.cols]
      · show (if c < Y'.cols then Y'.at_ _ c else Z'.at_ _ (c - Y'.cols)) =
          if c < Y.cols then Y.at_ i c else Z.at_ i (c - Y.cols)
        rw [h1.cols]
        split
        · rename_i hh; exact h1.at_ i c hi hh
        · rename_i hh
          refine e3.at_ i _ hi ?_
          have : c < Y.cols + Z.cols := hc
          omega
      · show Y.cols + Z.cols = _
        rw [e4]; simp

/-- a stack of readers run on a coherent state -/
theorem stack_on {f : Dense K → PyM (HSt K) (Dense K)} {fs : List (Dense K → PyM (HSt K) (Dense K))} {b : Bool}
    (hf : ∀ X, ∃ p, HReads b (f X) p) (hfs : ∀ g ∈ fs, ∀ X, ∃ p, HReads b (g X) p) {s : HSt K}
    (hs : CoherentOn (Tr b) evKey s) {X Y : Dense K} (h : (f X s).1 = .ok Y) :
    (stackRun (f :: fs) X s).1 = (stackRun fs Y s).1 := by
  obtain ⟨p, hp⟩ := hf X
  obtain ⟨q, hq⟩ := isReadOn_stack fs hfs Y
  obtain ⟨_, h2, h3⟩ := hp s hs
  have : (stackRun (f :: fs) X s).1 = (stackRun fs Y (f X s).2).1 := by
    simp only [stackRun, PyM.bind_apply]
    rcases hh : f X s with ⟨a, t⟩
    rw [hh] at h
    dsimp only at h
    subst h
    rfl
  rw [this, (hq _ h3).1, (hq _ hs).1, h2]

theorem stack_perm {ι : Type} {n : Nat} {π : Equiv.Perm Int} {s s' : HSt K}
    (hs : CoherentOn (Tr true) evKey s) (hs' : CoherentOn (Tr true) evKey s')
    (F : ι → Dense K → PyM (HSt K) (Dense K)) (hF : ∀ i X, ∃ p, HReads true (F i X) p)
    (inC outC : ι → Nat) (ls : List ι)
    (hstep : ∀ l ∈ ls, ∀ X X', Spec.PermFeat n π X X' → X.cols = inC l →
      ∃ Y Y', (F l X s).1 = .ok Y ∧ (F l X' s').1 = .ok Y' ∧ Spec.PermFeat n π Y Y' ∧ Y.cols = outC l)
    (fits : Nat → List ι → Prop) (hfits : ∀ c l ls, fits c (l :: ls) → inC l = c ∧ fits (outC l) ls)
    {X X' : Dense K} (hX : Spec.PermFeat n π X X') (hf : fits X.cols ls) :
    ∃ Y Y', (stackRun (ls.map F) X s).1 = .ok Y ∧ (stackRun (ls.map F) X' s').1 = .ok Y' ∧
      Spec.PermFeat n π Y Y' := by
  induction ls generalizing X X' with
  | nil => exact ⟨X, X', rfl, rfl, hX⟩
  | cons l ls ih =>
    obtain ⟨h1, h2⟩ := hfits _ _ _ hf
    obtain ⟨Y, Y', hY, hY', hP, ho⟩ := hstep l List.mem_cons_self X X' hX h1.symm
    have hm : ∀ g ∈ ls.map F, ∀ X, ∃ p, HReads true (g X) p := by
      simp only [List.mem_map]; rintro _ ⟨i, _, rfl⟩ X; exact hF i X
    rw [List.map_cons, stack_on (hF l) hm hs hY, stack_on (hF l) hm hs' hY']
    exact ih (fun l hl => hstep l (List.mem_cons_of_mem _ hl)) hP (ho ▸ h2)

/-- What the models need of the hypergraph: `HGNN` that no weight is negative, `UniGCN` that all weights are positive
and no hyperedge is empty, `UniGAT` that there is not exactly one incidence (see `C91_unigat_single_false`); the
others nothing. -/
def Spec.HModelDefined (s : HSt K) : HModel K → Prop
  | .hgnn _ => Spec.HNonneg (Spec.hListing s none)
  | .uniGcn _ => ∀ e ∈ Spec.hListing s none, 0 < e.2 ∧ e.1 ≠ []
  | .uniGat _ _ _ _ => ∃ send recv, HEnds .e2v s none send recv ∧ recv.length ≠ 1
  | _ => True

/-- C88. Renaming the vertices permutes the outputs of the models on hypergraphs in evaluation mode:
the model run on the renamed hypergraph and the permuted features succeeds and gives the permuted
outputs. -/
theorem C88_hypergraph_models [IsStrictOrderedRing K] {n : Nat} {π : Equiv.Perm Int} {s s' : HSt K}
    (h : RenamedHypers n π s s') (hsc : Spec.HasScope s none)
    (M : HModel K) (hw : Spec.HModelDefined s M) {X X' : Dense K}
    (hX : Spec.PermFeat n π X X') (hM : Spec.HEval M X.cols) :
    ∃ Y Y', (M.run X s).1 = .ok Y ∧ (M.run X' s').1 = .ok Y' ∧ Spec.PermFeat n π Y Y' := by
  obtain ⟨_, hb, hb', _⟩ := h.all
  have hc := (hb.mono (Q := AnyH) fun _ _ _ => trivial).inv.2
  have hc' := (hb'.mono (Q := AnyH) fun _ _ _ => trivial).inv.2
  cases M with
  | hgnn ls =>
    exact stack_perm hc hc' hgnnConv (fun l X => ⟨_, reads_hgnn l X⟩) (fun l => l.theta.weight.cols)
      (fun l => l.theta.weight.rows) ls (fun l hl X X' hX hi => C88_hgnn_conv h hsc hX (hM.2 l hl) hi hw)
      Spec.Fits (fun _ _ _ h => h) hX hM.1
  | hgnnp ls =>
    exact stack_perm hc hc' hgnnpConv (fun l X => ⟨_, reads_hgnnp l X⟩) (fun l => l.theta.weight.cols)
      (fun l => l.theta.weight.rows) ls (fun l hl X X' hX hi => C88_hgnnp_conv h hsc hX (hM.2 l hl) hi)
      Spec.Fits (fun _ _ _ h => h) hX hM.1
  | hnhn ls =>
    refine stack_perm hc hc' (fun l => hnhnConv l.1 l.2) (fun l X => ⟨_, reads_hnhn l.1 l.2 X⟩)
      (fun l => l.1.theta.weight.cols) (fun l => l.2.weight.rows) ls ?_
      (fun c ls' => Spec.FitsE c ls' ∧ ∀ l ∈ ls', l ∈ ls) ?_ hX ⟨hM.1, fun _ h => h⟩
    · intro l hl X X' hX hi
      refine C88_hnhn_conv h hsc hX (hM.2 l hl) hi ?_
      have : ∀ (c : Nat) (ls : List (Conv K × Linear K)), Spec.FitsE c ls → ∀ l ∈ ls,
          l.1.theta.weight.rows = l.2.weight.cols := by
        intro c ls
        induction ls generalizing c with
        | nil => intro _ l hl; cases hl
        | cons a ls ih =>
          intro hf l hl
          rcases List.mem_cons.1 hl with rfl | hl
          · exact hf.2.1.symm
          · exact ih _ hf.2.2 l hl
      exact this _ _ hM.1 l hl
    · intro c l ls' hh
      exact ⟨hh.1.1, hh.1.2.2, fun l hl => hh.2 l (List.mem_cons_of_mem _ hl)⟩
  | uniGcn ls =>
    exact stack_perm hc hc' uniGcnConv (fun l X => ⟨_, reads_uniGcn l X⟩) (fun l => l.theta.weight.cols)
      (fun l => l.theta.weight.rows) ls (fun l hl X X' hX hi => C88_unigcn_conv h hsc hX (hM.2 l hl) hi hw)
      Spec.Fits (fun _ _ _ h => h) hX hM.1
  | uniSage ls =>
    exact stack_perm hc hc' uniSageConv (fun l X => ⟨_, reads_uniSage l X⟩) (fun l => l.theta.weight.cols)
      (fun l => l.theta.weight.rows) ls (fun l hl X X' hX hi => C88_unisage_conv h hsc hX (hM.2 l hl) hi)
      Spec.Fits (fun _ _ _ h => h) hX hM.1
  | uniGin ls =>
    exact stack_perm hc hc' (fun l => uniGinConv l.1 l.2) (fun l X => ⟨_, reads_uniGin l.1 l.2 X⟩)
      (fun l => l.1.theta.weight.cols)
      (fun l => l.1.theta.weight.rows) ls (fun l hl X X' hX hi => C88_unigin_conv h hsc hX (hM.2 l hl) hi l.2)
      (fun c ls => Spec.Fits c (ls.map Prod.fst))
      (fun c l ls (h : Spec.Fits c ((l :: ls).map Prod.fst)) => ⟨h.1, h.2⟩) hX hM.1
  | uniGat d1 hs d2 o =>
    obtain ⟨rfl, rfl, hne, hh, ho⟩ := hM
    obtain ⟨send, recv, he, h1⟩ := hw
    obtain ⟨Ys, Ys', c1, c2, c3, c4⟩ := collect_perm hc hc' (fun l => uniGatConv l X) (fun l => uniGatConv l X')
      (fun l => ⟨_, reads_uniGat l X⟩) (fun l => ⟨_, reads_uniGat l X'⟩) (fun l => l.theta.weight.rows) hs
      fun l hl => C88_unigat_conv h hsc he h1 hX (hh l hl)
    have hne' : Ys ≠ [] := by
      rintro rfl
      exact hne (List.map_eq_nil_iff.1 c4.symm)
    obtain ⟨Z, Z', e1, e2, e3, e4⟩ := catAll_perm c3 hne'
    rw [c4] at e4
    obtain ⟨W, W', w1, w2, w3, _⟩ := C88_unigat_conv h hsc he h1 e3 (e4 ▸ ho)
    have main : ∀ (s : HSt K) (X Z W : Dense K) (Ys : List (Dense K)), CoherentOn (Tr true) evKey s →
        (PyM.collect (hs.map fun l => uniGatConv l X) id s).1 = .ok Ys → catAll Ys = .ok Z →
        (uniGatConv o Z s).1 = .ok W → ((HModel.uniGat id hs id o).run X s).1 = .ok W := by
      intro s X Z W Ys hc c1 e1 w1
      have hr : ∀ m ∈ hs.map (fun l => uniGatConv l X), ∃ p, HReads true m p := by
        simp only [List.mem_map]; rintro _ ⟨l, _, rfl⟩; exact ⟨_, reads_uniGat l _⟩
      obtain ⟨q, hq⟩ := isReadOn_collect _ hr
      obtain ⟨p, hp⟩ := isReadOn_multiHead "concat" _ hr
      have hm : (multiHead "concat" (hs.map fun l => uniGatConv l X) s).1 = .ok Z := by
        unfold multiHead
        rw [read_bind hq ⟨_, ReadsOn.lift _⟩ hc c1]
        exact e1
      show ((multiHead "concat" (hs.map fun l => uniGatConv l X) >>= fun Y => uniGatConv o Y) s).1 = _
      rw [read_bind hp ⟨_, reads_uniGat o Z⟩ hc hm]
      exact w1
    exact ⟨W, W', main s X Z W Ys hc c1 e1 w1, main s' X' Z' W' Ys' hc' c2 e2 w2, w3⟩

example : (∀ e ∈ Spec.hListing exH none, 0 < e.2 ∧ e.1 ≠ []) ∧
    ∃ ls : List (Conv ℝ), ls.length = 2 ∧ Spec.HEval (.hgnn ls) 2 ∧ Spec.HEval (.uniGcn ls) 2 ∧
      Spec.HEval (.hnhn (ls.map fun l => (l, ⟨⟨l.theta.weight.rows, l.theta.weight.rows, fun i c => (i : ℝ) + c⟩, none⟩))) 2 ∧
      Spec.HEval (.uniGin (ls.map fun l => (l, 1))) 2 := by
  have hl : Spec.hListing exH none = [([0, 1, 2], 2), ([1, 3], 3), ([3], 5)] := rfl
  refine ⟨by rw [hl]; simp, [
    { isLast := false, bn := some fun X => .ok { X with at_ := fun i c => (X.at_ i c - c) / 2 }, drop := id,
      theta := { weight := { rows := 8, cols := 2, at_ := fun i c => i - c }, bias := some fun _ => 1 } },
    { isLast := true, bn := none, drop := id,
      theta := { weight := { rows := 3, cols := 8, at_ := fun i c => i * c }, bias := none } }], rfl, ?_⟩
  have h1 : ∀ f, (some fun X : Dense ℝ => Except.ok (ε := Err) { X with at_ := fun i c => (X.at_ i c - c) / 2 }) = some f →
      ∃ φ : Nat → ℝ → ℝ, ∀ X, f X = .ok { X with at_ := fun i c => φ c (X.at_ i c) } :=
    fun f hf => by cases hf; exact ⟨fun c x => (x - c) / 2, fun X => rfl⟩
  refine ⟨⟨⟨rfl, rfl, trivial⟩, ?_⟩, ⟨⟨rfl, rfl, trivial⟩, ?_⟩, ⟨⟨rfl, rfl, rfl, rfl, trivial⟩, ?_⟩,
    ⟨⟨rfl, rfl, trivial⟩, ?_⟩⟩ <;>
  · intro l hl
    simp only [List.map_cons, List.map_nil, List.mem_cons, List.not_mem_nil, or_false] at hl
    rcases hl with rfl | rfl
    · exact ⟨rfl, h1⟩
    · exact ⟨rfl, fun f hf => nomatch hf⟩

example : (∃ send recv, HEnds .e2v exH none send recv ∧ recv.length ≠ 1) ∧
    ∃ (h₁ h₂ o : UniGat ℝ), h₁ ≠ h₂ ∧ Spec.HEval (.uniGat id [h₁, h₂] id o) 2 := by
  constructor
  · obtain ⟨hi, hcoh⟩ := (exH_proper.mono (Q := AnyH) fun _ _ _ => trivial).inv
    obtain ⟨M, hM, hT, hI⟩ := evHT_spec hi exH_proper.inRange (has_of_scope (sc := none) (List.cons_ne_nil _ _))
    refine ⟨M.ents.map (fun e => e.1.2), M.ents.map (fun e => e.1.1), ⟨?_, ?_⟩, ?_⟩
    · rw [Hyper.ask_eq _ hcoh (.inr (by simp))]; simp only [evAsk, hM]; rfl
    · rw [Hyper.ask_eq _ hcoh (.inr (by simp))]; simp only [evAsk, hM]; rfl
    · have h0 := (hI.keys 0 0).2 ⟨by decide, by decide, by decide⟩
      have h1 := (hI.keys 1 0).2 ⟨by decide, by decide, by decide⟩
      intro hlen
      rw [List.length_map] at hlen
      obtain ⟨x, hx⟩ := List.length_eq_one_iff.1 hlen
      rw [hx] at h0 h1
      simp only [List.map_cons, List.map_nil, List.mem_singleton] at h0 h1
      rw [← h0] at h1
      simp at h1
  · refine ⟨⟨⟨⟨4, 2, fun i c => i + c⟩, none⟩, ⟨⟨1, 4, fun _ c => c⟩, none⟩, 1 / 5, fun _ x => x, false, none⟩,
      ⟨⟨⟨4, 2, fun i c => i * c⟩, none⟩, ⟨⟨1, 4, fun _ c => c⟩, none⟩, 1 / 2, fun _ x => x, false, none⟩,
      ⟨⟨⟨3, 8, fun i c => i - c⟩, none⟩, ⟨⟨1, 3, fun _ c => c⟩, none⟩, 1 / 5, fun _ x => x, true, none⟩, ?_,
      rfl, rfl, List.cons_ne_nil _ _, ?_, ⟨rfl, rfl, fun _ _ => rfl, fun f hf => nomatch hf⟩⟩
    · intro h
      have := congrArg UniGat.slope h
      norm_num at this
    · intro l hl
      simp only [List.mem_cons, List.not_mem_nil, or_false] at hl
      rcases hl with rfl | rfl <;> exact ⟨rfl, rfl, fun _ _ => rfl, fun f hf => nomatch hf⟩

end Props
end DHG
