import Verif.Props.HyperRenameNn
import Verif.Props.NnGraph

/-!
# Renaming the vertices of a graph: layers and models (C48)
-/

set_option linter.unusedSectionVars false
set_option autoImplicit false

namespace DHG

namespace Props
namespace Spec

open Finset Nn

variable {K : Type} [Field K] [LinearOrder K] [PyReal K]

/-- sum over the neighbours of a vertex -/
noncomputable def nbrSum (l : List ((Int × Int) × K)) (n i : Nat) (f : Nat → K) : K :=
  open Classical in ∑ j ∈ range n, if Spec.Adj l i j then f j else 0

/-- `X Wᵀ + b` as a matrix -/
noncomputable def gatFeat (l : Gat K) (X : Dense K) : Dense K :=
  ⟨X.rows, l.theta.weight.rows, Spec.affine l.theta X⟩

/-- the weight that `GATConv` gives to the message from `j` to `i` when no dropout happens -/
noncomputable def gatAtt (l : Gat K) (X : Dense K) (j i : Nat) : K :=
  PyReal.exp (min (max (Spec.gatScore l (Spec.gatFeat l X) j i) (1 / 1000)) 5)

/-- a `GATConv` in evaluation mode for features with `c` channels -/
structure GatConvEval (l : Gat K) (c : Nat) : Prop where
  cols : l.theta.weight.cols = c
  src : l.attSrc.weight.cols = l.theta.weight.rows
  dst : l.attDst.weight.cols = l.theta.weight.rows
  drop : ∀ k x, l.attDrop k x = x
  bn : ∀ f, l.bn = some f → ∃ φ : Nat → K → K, ∀ X, f X = .ok { X with at_ := fun i c => φ c (X.at_ i c) }

/-- the layers of a `GIN` are in evaluation mode, fit together and all predict `o` channels -/
def GinFits (o : Nat) : Nat → List (GinLayer K) → Prop
  | _, [] => True
  | c, l :: ls => (∃ φ, Spec.MlpEval l.par φ) ∧ 2 ≤ l.channels.length ∧ l.channels.head? = some c ∧
      l.pred.weight.rows = o ∧ ∃ d, l.channels.getLast? = some d ∧ l.pred.weight.cols = d ∧ GinFits o d ls

/-- the layers of a `GraphSAGE` fit together: they get a vertex's features next to its neighbours' -/
def FitsPairs : Nat → List (Conv K) → Prop
  | _, [] => True
  | c, l :: ls => l.theta.weight.cols = c + c ∧ FitsPairs l.theta.weight.rows ls

/-- a model on graphs in evaluation mode for features with `c` channels: dropout does nothing,
batch normalisation acts on every entry by a function of the channel, and the layers fit together -/
def GEval : GModel K → Nat → Prop
  | .gcn ls, c => Spec.Fits c ls ∧ ∀ l ∈ ls, Spec.EvalMode l
  | .sage ls, c => FitsPairs c ls ∧ ∀ l ∈ ls, Spec.EvalMode l
  | .gin p ls, c => p.weight.cols = c ∧ GinFits p.weight.rows c ls
  | .gat d1 hs d2 o, c => d1 = id ∧ d2 = id ∧ hs ≠ [] ∧ (∀ l ∈ hs, GatConvEval l c) ∧
      GatConvEval o (hs.map fun l => l.theta.weight.rows).sum

end Spec

open Graph Finset Nn

variable {K : Type} [Field K] [LinearOrder K] [PyReal K]

/-! ### the listing and the abstract state -/

theorem mem_lst {r : GRaw K} (hr : Inv r) {e : (Int × Int) × K} (he : e ∈ lst r) :
    absR r e.1.1 e.1.2 = some e.2 ∨
      (e.1.1 = e.1.2 ∧ 0 ≤ e.1.1 ∧ e.1.1 < (r.numV : Int) ∧ r.extra = true ∧ e.2 = 1) := by
  unfold lst at he
  rw [zip_listing] at he
  rcases List.mem_append.1 he with he | he
  · rcases List.mem_append.1 he with he | he
    · left
      have hk : e.1 ∈ r.eDict.keys := List.mem_map_of_mem (f := Prod.fst) he
      have hlt := hr.lt _ hk
      unfold absR
      rw [if_neg hlt.ne]
      have : sortPair (e.1.1, e.1.2) = e.1 := by
        rw [show e.1 = (e.1.1, e.1.2) from rfl, sortPair_eq_iff hlt hlt.ne]; exact .inl ⟨rfl, rfl⟩
      rw [this, Dict.get?_eq_some_iff _ hr.nodupE]
      exact he
    · left
      obtain ⟨p, hp, rfl⟩ := List.mem_map.1 he
      unfold absR
      rw [if_pos rfl, Dict.get?_eq_some_iff _ hr.nodupL]
      exact hp
  · right
    split at he
    · rename_i hx
      obtain ⟨v, hv, rfl⟩ := List.mem_map.1 he
      have := List.mem_range.1 hv
      refine ⟨rfl, ?_, ?_, hx, rfl⟩ <;> simp only <;> omega
    · cases he

theorem lst_of_abs {r : GRaw K} (hr : Inv r) {a b : Int} {w : K} (h : absR r a b = some w) :
    ((a, b), w) ∈ lst r ∨ ((b, a), w) ∈ lst r := by
  unfold absR at h
  unfold lst
  rw [zip_listing]
  by_cases hab : a = b
  · subst hab
    rw [if_pos rfl, Dict.get?_eq_some_iff _ hr.nodupL] at h
    exact .inl (List.mem_append_left _ (List.mem_append_right _ (List.mem_map.2 ⟨_, h, rfl⟩)))
  · rw [if_neg hab, Dict.get?_eq_some_iff _ hr.nodupE] at h
    unfold sortPair at h
    split at h
    · exact .inl (List.mem_append_left _ (List.mem_append_left _ h))
    · exact .inr (List.mem_append_left _ (List.mem_append_left _ h))

theorem lst_of_extra {r : GRaw K} (hx : r.extra = true) {v : Nat} (hv : v < r.numV) :
    (((v : Int), (v : Int)), (1 : K)) ∈ lst r := by
  unfold lst
  rw [zip_listing, if_pos hx]
  exact List.mem_append_right _ (List.mem_map.2 ⟨v, List.mem_range.2 hv, rfl⟩)

theorem adj_absR {r : GRaw K} (hr : Inv r) (i j : Nat) :
    Spec.Adj (lst r) i j ↔ (absR r i j).isSome = true ∨ (i = j ∧ i < r.numV ∧ r.extra = true) := by
  constructor
  · rintro ⟨e, he, h⟩
    rcases mem_lst hr he with h1 | ⟨h1, h2, h3, h4, _⟩
    · left
      rcases h with h | h
      · rw [h] at h1; rw [h1]; rfl
      · rw [h] at h1; rw [absR_symm, h1]; rfl
    · right
      rcases h with h | h <;> rw [h] at h1 h2 h3 <;> simp only at h1 h2 h3 <;> exact ⟨by omega, by omega, h4⟩
  · rintro (h | ⟨rfl, h1, h2⟩)
    · obtain ⟨w, hw⟩ := Option.isSome_iff_exists.1 h
      rcases lst_of_abs hr hw with h | h
      · exact ⟨_, h, .inl rfl⟩
      · exact ⟨_, h, .inr rfl⟩
    · exact ⟨_, lst_of_extra h2 h1, .inl rfl⟩

theorem Renamed.adj {n : Nat} {π : Equiv.Perm Int} (hπ : Spec.Renaming n π) {g g' : GSt K}
    (hb : Built NonNeg g) (hb' : Built NonNeg g') (h : Renamed n π g g') (i j : Nat) :
    Spec.Adj (Spec.listing g') (ren π i) (ren π j) ↔ Spec.Adj (Spec.listing g) i j := by
  rw [listing_lst hb, listing_lst hb', adj_absR hb.inv.1, adj_absR hb'.inv.1, ren_cast hπ, ren_cast hπ, h.map,
    h.num, h.num', h.extra]
  simp only [ren_inj hπ, ren_lt hπ]

theorem Renamed.weights [IsStrictOrderedRing K] {n : Nat} {π : Equiv.Perm Int} {g g' : GSt K}
    (hb : Built NonNeg g) (hb' : Built NonNeg g') (h : Renamed n π g g')
    (hw : Spec.NonnegWeights (Spec.listing g)) : Spec.NonnegWeights (Spec.listing g') := by
  rw [listing_lst hb] at hw
  rw [listing_lst hb']
  intro e he
  rcases mem_lst hb'.inv.1 he with h1 | ⟨_, _, _, _, h1⟩
  · have := h.map (π.symm e.1.1) (π.symm e.1.2)
    simp only [Equiv.apply_symm_apply] at this
    rw [this] at h1
    rcases lst_of_abs hb.inv.1 h1 with h2 | h2
    · have h3 := hw _ h2; exact h3
    · have h3 := hw _ h2; exact h3
  · rw [h1]; exact zero_le_one

/-! ### layers -/

section Layers

variable {n : Nat} {π : Equiv.Perm Int} {g g' : GSt K} (h : RenamedCopies n π g g')
  {X X' : Dense K} (hX : Spec.PermFeat n π X X') {l : Conv K} (hl : Spec.EvalMode l)

include h hX

/-- C48. `GCNConv` in evaluation mode. -/
theorem C48_gcn_conv [IsStrictOrderedRing K] (hl : Spec.EvalMode l) (hc : X.cols = l.theta.weight.cols)
    (hw : Spec.NonnegWeights (Spec.listing g)) :
    ∃ Y Y', (gcnConv l X g).1 = .ok Y ∧ (gcnConv l X' g').1 = .ok Y' ∧ Spec.PermFeat n π Y Y' ∧
      Y.cols = l.theta.weight.rows := by
  obtain ⟨hr, hb, hb'⟩ := h.all
  have hw' := hr.weights hb hb' hw
  obtain ⟨hn, hn'⟩ := h.numV
  obtain ⟨L, _, hL, _⟩ := C11_graph_LGCN hb hn hw
  obtain ⟨L', _, hL', _⟩ := C11_graph_LGCN hb' hn' hw'
  obtain ⟨Z, z1, z2, z3, z4, _⟩ := C90_gcn_conv hb hn hw hL l X hX.rows hc
  obtain ⟨Z', z1', z2', z3', z4', _⟩ := C90_gcn_conv hb' hn' hw' hL' l X' hX.rows' (hX.cols.trans hc)
  have hq := (hr.gcn h.ren hb hb' hw hw' hL hL').1
  refine perm_finished hl z4 z4' ⟨z1, z1', z2'.trans z2.symm, fun i o hi _ => ?_⟩ z2
  rw [z3, z3', ← sum_ren h.ren]
  refine sum_congr rfl fun j hj => ?_
  have hj := mem_range.1 hj
  rw [affine_perm hX _ hj]
  congr 1
  exact hq i j hi hj

/-- the weighted sums over the neighbours are permuted -/
theorem nbr_sum_perm {i c : Nat} (hc : c < X.cols) :
    ∑ j ∈ range n, Spec.wt (Spec.listing g') (ren π i : Nat) (j : Nat) * X'.at_ j c =
      ∑ j ∈ range n, Spec.wt (Spec.listing g) (i : Nat) (j : Nat) * X.at_ j c := by
  obtain ⟨hr, hb, hb'⟩ := h.all
  rw [← sum_ren h.ren]
  refine sum_congr rfl fun j hj => ?_
  rw [hr.wt h.ren hb hb', show X'.at_ (ren π j) c = X.at_ j c from hX.at_ j c (mem_range.1 hj) hc]

/-- C48. `GraphSAGEConv` in evaluation mode. -/
theorem C48_sage_conv (hl : Spec.EvalMode l) (hc : l.theta.weight.cols = X.cols + X.cols) :
    ∃ Y Y', (sageConv l X g).1 = .ok Y ∧ (sageConv l X' g').1 = .ok Y' ∧ Spec.PermFeat n π Y Y' ∧
      Y.cols = l.theta.weight.rows := by
  obtain ⟨hr, hb, hb'⟩ := h.all
  obtain ⟨hn, hn'⟩ := h.numV
  obtain ⟨M, Z, z1, z2, m3, z3, z4, _⟩ := C90_sage_conv hb hn l X hX.rows hc
  obtain ⟨M', Z', z1', z2', m3', z3', z4', _⟩ := C90_sage_conv hb' hn' l X' hX.rows' (by rw [hX.cols]; exact hc)
  refine perm_finished hl z4 z4' ⟨z1, z1', z2'.trans z2.symm, fun i o hi _ => ?_⟩ z2
  show Z'.at_ (ren π i) o = _
  rw [z3, z3', hX.cols]
  congr 2
  · exact sum_congr rfl fun c hc => by
      rw [show X'.at_ (ren π i) c = X.at_ i c from hX.at_ i c hi (mem_range.1 hc)]
  · refine sum_congr rfl fun c hc => ?_
    congr 1
    have a := m3 i c hi
    have a' := m3' (ren π i) c ((ren_lt h.ren i).2 hi)
    rw [hr.deg h.ren hb hb', nbr_sum_perm h hX (mem_range.1 hc)] at a'
    by_cases h0 : Spec.deg (Spec.listing g) (i : Int) = 0
    · rw [a.1 h0, a'.1 h0]
    · rw [a.2 h0, a'.2 h0]

/-- C48. `GINConv` with any module that treats every row alike. -/
theorem C48_gin_conv {mlp : Dense K → Except Err (Dense K)} {o : Nat}
    (hm : ∀ Z Z', Spec.PermFeat n π Z Z' → Z.cols = X.cols → PermRes n π o (mlp Z) (mlp Z')) (eps : K) :
    ∃ Y Y', (ginConv mlp eps X g).1 = .ok Y ∧ (ginConv mlp eps X' g').1 = .ok Y' ∧ Spec.PermFeat n π Y Y' ∧
      Y.cols = o := by
  obtain ⟨hr, hb, hb'⟩ := h.all
  obtain ⟨hn, hn'⟩ := h.numV
  obtain ⟨Z, z1, z2, z3, z4, _⟩ := C90_gin_conv hb hn mlp eps X hX.rows
  obtain ⟨Z', z1', z2', z3', z4', _⟩ := C90_gin_conv hb' hn' mlp eps X' hX.rows'
  rw [z4, z4']
  refine hm Z Z' ⟨z1, z1', by rw [z2, z2', hX.cols], fun i c hi hc => ?_⟩ z2
  rw [z2] at hc
  show Z'.at_ (ren π i) c = _
  rw [z3 i c hi hc, z3' _ c ((ren_lt h.ren i).2 hi) (by rw [hX.cols]; exact hc), nbr_sum_perm h hX hc,
    show X'.at_ (ren π i) c = X.at_ i c from hX.at_ i c hi hc]

end Layers

/-! ### `MLP` -/

theorem mlpVec_congr (P : MlpPar K) (φ : Nat → Nat → K → K) (u b : Bool) (k i o : Nat) (ws : List Nat)
    {x y : Nat → K} (h : ∀ c, c < i → x c = y c) :
    Spec.mlpVec P φ u b k (i :: o :: ws) x = Spec.mlpVec P φ u b k (i :: o :: ws) y := by
  have h1 : Spec.mlpLinear P k i x = Spec.mlpLinear P k i y := by
    funext o
    unfold Spec.mlpLinear
    congr 1
    exact sum_congr rfl fun c hc => by rw [h c (mem_range.1 hc)]
  have h2 : Spec.mlpHidden P φ u k i x = Spec.mlpHidden P φ u k i y := by
    funext o
    unfold Spec.mlpHidden
    rw [h1]
  cases ws with
  | nil => unfold Spec.mlpVec; rw [h1, h2]
  | cons w ws => unfold Spec.mlpVec; rw [h2]

theorem mlp_perm {n : Nat} {π : Equiv.Perm Int} {P : MlpPar K} {φ : Nat → Nat → K → K}
    (hP : Spec.MlpEval P φ)
    (useBn isLast : Bool) {channels : List Nat} (h2 : 2 ≤ channels.length) {c o : Nat}
    (hi : channels.head? = some c) (ho : channels.getLast? = some o) {Z Z' : Dense K}
    (hZ : Spec.PermFeat n π Z Z') (hc : Z.cols = c) :
    PermRes n π o (mlp P useBn isLast channels Z) (mlp P useBn isLast channels Z') := by
  obtain ⟨Y, hY, y1, y2, y3⟩ := C94_mlp_rowwise hP useBn isLast channels h2 Z (by rw [hc, hi])
  obtain ⟨Y', hY', y1', y2', y3'⟩ := C94_mlp_rowwise hP useBn isLast channels h2 Z' (by rw [hZ.cols, hc, hi])
  rw [ho] at y2 y2'
  cases y2
  have y2' := Option.some.inj y2'
  refine ⟨Y, Y', hY, hY', ⟨y1.trans hZ.rows, y1'.trans hZ.rows', y2', fun i d hi' _ => ?_⟩, rfl⟩
  rw [y3, y3']
  match channels, h2, hi with
  | i₀ :: o₀ :: ws, _, hh =>
    cases hh
    rw [mlpVec_congr P φ useBn isLast 0 _ o₀ ws fun e he => hZ.at_ i e hi' (by rw [hc]; exact he)]

/-! ### `GAT` -/

theorem nbr_keys {n : Nat} {l : List ((Int × Int) × K)} {ks : List (Nat × Nat)} (hnd : ks.Nodup)
    (hk : ∀ i j, (i, j) ∈ ks ↔ Spec.Adj l i j) (hlt : ∀ p ∈ ks, p.2 < n) (i : Nat) (f : Nat → K) :
    (ks.map fun p => if p.1 = i then f p.2 else 0).sum = Spec.nbrSum l n i f := by
  classical
  rw [← List.sum_toFinset _ hnd, ← sum_filter]
  unfold Spec.nbrSum
  rw [← sum_filter]
  refine sum_nbij' Prod.snd (fun k => (i, k)) ?_ ?_ ?_ ?_ ?_
  · rintro ⟨a, k⟩ ha
    rw [mem_filter, List.mem_toFinset] at ha
    obtain ⟨ha, hb⟩ := ha
    dsimp only at hb
    subst hb
    exact mem_filter.2 ⟨mem_range.2 (hlt _ ha), (hk _ _).1 ha⟩
  · intro k hk'
    rw [mem_filter, mem_range] at hk'
    rw [mem_filter, List.mem_toFinset]
    exact ⟨(hk _ _).2 hk'.2, rfl⟩
  · rintro ⟨a, k⟩ ha
    exact Prod.ext (mem_filter.1 ha).2.symm rfl
  · intro k _; rfl
  · intro _ _; rfl

theorem nbrSum_congr {l : List ((Int × Int) × K)} {n i : Nat} {f g : Nat → K} (h : ∀ j, j < n → f j = g j) :
    Spec.nbrSum l n i f = Spec.nbrSum l n i g := by
  unfold Spec.nbrSum
  exact sum_congr rfl fun j hj => by rw [h j (mem_range.1 hj)]

theorem nbrSum_none {l : List ((Int × Int) × K)} {n i : Nat} {f : Nat → K}
    (h : ∀ j, j < n → ¬ Spec.Adj l i j) : Spec.nbrSum l n i f = 0 := by
  classical
  unfold Spec.nbrSum
  exact sum_eq_zero fun k hk => if_neg (h k (mem_range.1 hk))

theorem nbrSum_pos [IsStrictOrderedRing K] {l : List ((Int × Int) × K)} {n i : Nat} {f : Nat → K}
    (hf : ∀ k, 0 < f k) {k : Nat} (hk : k < n) (hm : Spec.Adj l i k) : 0 < Spec.nbrSum l n i f := by
  classical
  unfold Spec.nbrSum
  refine sum_pos' (fun j _ => ?_) ⟨k, mem_range.2 hk, ?_⟩
  · split
    · exact (hf j).le
    · exact le_rfl
  · rw [if_pos hm]; exact hf k

/-- C90, partial. `GATConv` without dropout: the output at vertex `i` before the activation is the average
of `X Wᵀ + b` over the neighbours `j` of `i`, weighted by `exp` of the score of the message from `j` to `i`
clamped to `[0.001, 5]`, and 0 if `i` has no neighbour. Weights of edges play no role. Missing: exactly one
stored adjacency entry (`C90_gat_single_false`). -/
theorem C90_gat_average_partial [IsStrictOrderedRing K] {g : GSt K} (hg : Built NonNeg g) {n : Nat}
    (hn : (ask .numV g).1 = .ok (.num n)) {src dst : List Nat} (he : EdgeVecs g src dst)
    (h1 : dst.length ≠ 1) (l : Gat K) (X : Dense K) (hX : X.rows = n)
    (hc : X.cols = l.theta.weight.cols) (hs : l.attSrc.weight.cols = l.theta.weight.rows)
    (hd : l.attDst.weight.cols = l.theta.weight.rows) (hdrop : ∀ k x, l.attDrop k x = x) :
    ∃ Z : Dense K, Z.rows = n ∧ Z.cols = l.theta.weight.rows ∧
      (∀ i c, i < n → Z.at_ i c * Spec.nbrSum (Spec.listing g) n i (fun j => Spec.gatAtt l X j i) =
        Spec.nbrSum (Spec.listing g) n i fun j => Spec.gatAtt l X j i * Spec.affine l.theta X j c) ∧
      (∀ i c, i < n → (∀ j, j < n → ¬ Spec.Adj (Spec.listing g) i j) → Z.at_ i c = 0) ∧
      (l.isLast = true → (gatConv l X g).1 = .ok Z) ∧
      (l.isLast = false → l.bn = none → (gatConv l X g).1 = .ok (Spec.eluOf Z)) ∧
      (∀ f, l.isLast = false → l.bn = some f → (gatConv l X g).1 = f (Spec.eluOf Z)) := by
  obtain ⟨H, Z, coef, z, y1, y2, y3, g1, g2, g3, g4, g5, g6, g7, g8, g9, g10, g11⟩ :=
    C90_gat_conv_partial hg hn he h1 l X hX hc hs hd
  obtain ⟨A, hA, hI, e1, e2⟩ := he.ents hg
  have hn' := numV_eq hn
  rw [listing_lst hg]
  have hzip : dst.zip src = A.ents.map Prod.fst := by rw [e1, e2, List.zip_map']
  have hnd : (A.ents.map Prod.fst).Nodup := hI.sorted.nodup
  have hlt : ∀ p ∈ A.ents.map Prod.fst, p.1 < n ∧ p.2 < n := by
    intro p hp
    obtain ⟨e, he', rfl⟩ := List.mem_map.1 hp
    have := hI.wf e he'
    rw [hI.rows, hI.cols] at this
    omega
  have hatt : ∀ j i, PyReal.exp (min (max (Spec.gatScore l H j i) (1 / 1000)) 5) = Spec.gatAtt l X j i := by
    intro j i
    unfold Spec.gatAtt Spec.gatScore Spec.affine
    simp only [y3, y2]
    rfl
  have key : ∀ i (x : Nat → K), i < n → Spec.incoming src dst coef x i * z i =
      Spec.nbrSum (lst g.raw) n i fun j => Spec.gatAtt l X j i * x j := by
    intro i x hi
    rw [← nbr_keys hnd hI.keys fun p hp => (hlt p hp).2, ← hzip]
    refine incoming_scale src dst coef (fun j => Spec.gatAtt l X j i) x i (z i) g1 g2 fun k a b c hk => ?_
    have := (g7 k a b c).2
    rw [hk, hdrop, hatt] at this
    exact this
  have hmem : ∀ i, i ∈ dst ↔ ∃ j, j < n ∧ Spec.Adj (lst g.raw) i j := by
    intro i
    constructor
    · intro hi
      rw [e2] at hi
      obtain ⟨e, he', rfl⟩ := List.mem_map.1 hi
      have hm : (e.1.1, e.1.2) ∈ A.ents.map Prod.fst := List.mem_map.2 ⟨e, he', rfl⟩
      exact ⟨e.1.2, (hlt _ hm).2, (hI.keys _ _).1 hm⟩
    · rintro ⟨j, _, hj⟩
      obtain ⟨e, he', hq⟩ := List.mem_map.1 ((hI.keys _ _).2 hj)
      rw [e2]
      exact List.mem_map.2 ⟨e, he', by rw [hq]⟩
  refine ⟨Z, g3, g4, ?_, ?_, g9, g10, g11⟩
  · intro i c hi
    by_cases hr : i ∈ dst
    · have h1 := key i (fun _ => 1) hi
      rw [g8 i hr, one_mul] at h1
      simp only [mul_one] at h1
      rw [← h1, g5, key i _ hi]
      exact nbrSum_congr fun j _ => by rw [y3]
    · have h0 : ∀ j, j < n → ¬ Spec.Adj (lst g.raw) i j := fun j hj hadj => hr ((hmem i).2 ⟨j, hj, hadj⟩)
      rw [nbrSum_none h0, nbrSum_none h0, mul_zero]
  · intro i c hi h0
    rw [g5]
    apply incoming_none
    intro hr
    obtain ⟨j, hj, hadj⟩ := (hmem i).1 hr
    exact h0 j hj hadj

theorem RenamedCopies.vecs {n : Nat} {π : Equiv.Perm Int} {g g' : GSt K} (h : RenamedCopies n π g g')
    {src dst : List Nat} (he : EdgeVecs g src dst) :
    ∃ src' dst', EdgeVecs g' src' dst' ∧ dst'.length = dst.length := by
  obtain ⟨hr, hb, hb'⟩ := h.all
  obtain ⟨A, hA, hI, e1, e2⟩ := he.ents hb
  obtain ⟨A', hA', hI'⟩ := evA_spec hb'.inv.1 hb'.pos
  refine ⟨A'.ents.map (fun e => e.1.2), A'.ents.map (fun e => e.1.1), ⟨?_, ?_⟩, ?_⟩
  · rw [ask_eq hb']; simp only [evAsk, hA']; rfl
  · rw [ask_eq hb']; simp only [evAsk, hA']; rfl
  · rw [e2, List.length_map, List.length_map]
    have hp : (A'.ents.map Prod.fst).Perm ((A.ents.map Prod.fst).map fun p => (Props.ren π p.1, Props.ren π p.2)) := by
      refine (List.perm_ext_iff_of_nodup hI'.sorted.nodup (hI.sorted.nodup.map ?_)).2 ?_
      · rintro ⟨a, b⟩ ⟨c, d⟩ hh
        simp only [Prod.mk.injEq, ren_inj h.ren] at hh
        exact Prod.ext hh.1 hh.2
      · have back : ∀ a : Nat, Props.ren π (π.symm a).toNat = a := by
          intro a
          have hb0 := (h.ren.nonneg (π.symm a)).1 (by simp)
          unfold Props.ren; rw [Int.toNat_of_nonneg hb0]; simp
        rintro ⟨a, b⟩
        constructor
        · intro hm
          refine List.mem_map.2 ⟨((π.symm a).toNat, (π.symm b).toNat), (hI.keys _ _).2 ?_, by simp only [back]⟩
          rw [← listing_lst hb, ← hr.adj h.ren hb hb', back, back, listing_lst hb']
          exact (hI'.keys _ _).1 hm
        · intro hm
          obtain ⟨⟨c, d⟩, hc, hh⟩ := List.mem_map.1 hm
          cases hh
          refine (hI'.keys _ _).2 ?_
          rw [← listing_lst hb', hr.adj h.ren hb hb', listing_lst hb]
          exact (hI.keys _ _).1 hc
    simpa using hp.length_eq

theorem nbrSum_ren {n : Nat} {π : Equiv.Perm Int} (hπ : Spec.Renaming n π) {l l' : List ((Int × Int) × K)}
    (hadj : ∀ i j, Spec.Adj l' (ren π i) (ren π j) ↔ Spec.Adj l i j) (i : Nat) {f f' : Nat → K}
    (hf : ∀ j, j < n → f' (ren π j) = f j) : Spec.nbrSum l' n (ren π i) f' = Spec.nbrSum l n i f := by
  classical
  unfold Spec.nbrSum
  rw [← sum_ren hπ]
  refine sum_congr rfl fun j hj => ?_
  simp only [hadj, hf j (mem_range.1 hj)]

/-- C48. `GATConv` in evaluation mode, unless there is exactly one stored adjacency entry. -/
theorem C48_gat_conv [IsStrictOrderedRing K] {n : Nat} {π : Equiv.Perm Int} {g g' : GSt K}
    (h : RenamedCopies n π g g') {src dst : List Nat} (he : EdgeVecs g src dst) (h1 : dst.length ≠ 1)
    {X X' : Dense K} (hX : Spec.PermFeat n π X X') {l : Gat K} (hl : Spec.GatConvEval l X.cols) :
    ∃ Y Y', (gatConv l X g).1 = .ok Y ∧ (gatConv l X' g').1 = .ok Y' ∧ Spec.PermFeat n π Y Y' ∧
      Y.cols = l.theta.weight.rows := by
  obtain ⟨hr, hb, hb'⟩ := h.all
  obtain ⟨src', dst', he', hlen⟩ := h.vecs he
  obtain ⟨Z, z1, z2, z3, z4, z5, z6, z7⟩ := C90_gat_average_partial hb h.numV.1 he h1 l X hX.rows
    hl.cols.symm hl.src hl.dst hl.drop
  obtain ⟨Z', z1', z2', z3', z4', z5', z6', z7'⟩ := C90_gat_average_partial hb' h.numV.2 he'
    (hlen ▸ h1) l X' hX.rows' (hX.cols.trans hl.cols.symm) hl.src hl.dst hl.drop
  have hadj := hr.adj h.ren hb hb'
  have haff : ∀ j, j < n → ∀ c, Spec.affine l.theta X' (ren π j) c = Spec.affine l.theta X j c :=
    fun j hj c => affine_perm hX _ hj c
  have hatt : ∀ i j, i < n → j < n → Spec.gatAtt l X' (ren π j) (ren π i) = Spec.gatAtt l X j i := by
    intro i j hi hj
    have hS : ∀ t : Linear K, ∀ k, k < n → Spec.affine t (Spec.gatFeat l X') (ren π k) 0 =
        Spec.affine t (Spec.gatFeat l X) k 0 := by
      intro t k hk
      unfold Spec.affine Spec.gatFeat
      simp only [haff k hk]
    unfold Spec.gatAtt Spec.gatScore
    simp only [hS _ _ hi, hS _ _ hj]
  have hZ : Spec.PermFeat n π Z Z' := by
    refine ⟨z1, z1', z2'.trans z2.symm, fun i c hi _ => ?_⟩
    have hi' := (ren_lt h.ren i).2 hi
    show Z'.at_ (ren π i) c = _
    by_cases hno : ∀ j, j < n → ¬ Spec.Adj (Spec.listing g) i j
    · rw [z4 i c hi hno, z4' _ c hi']
      intro j hj hadj'
      have hb0 := (h.ren.nonneg (π.symm j)).1 (by simp)
      have hb1 := (h.ren.lt (π.symm j)).1 (by simpa using hj)
      have hrj : ren π (π.symm j).toNat = j := by
        unfold ren; rw [Int.toNat_of_nonneg hb0]; simp
      rw [← hrj, hadj] at hadj'
      exact hno _ (by omega) hadj'
    · push Not at hno
      obtain ⟨j, hj, hm⟩ := hno
      have hp := nbrSum_pos (f := fun j => Spec.gatAtt l X j i) (fun k => PyReal.exp_pos _) hj hm
      have h2 := z3' _ c hi'
      rw [nbrSum_ren h.ren hadj i fun j hj => hatt i j hi hj,
        nbrSum_ren h.ren hadj i fun j hj => by rw [hatt i j hi hj, haff j hj c], ← z3 i c hi] at h2
      exact mul_right_cancel₀ hp.ne' h2
  have hE : Spec.PermFeat n π (Spec.eluOf Z) (Spec.eluOf Z') :=
    ⟨z1, z1', z2'.trans z2.symm, fun i c hi hc => congrArg elu (hZ.at_ i c hi hc)⟩
  cases hL : l.isLast with
  | true => exact ⟨Z, Z', z5 hL, z5' hL, hZ, z2⟩
  | false =>
    cases hbn : l.bn with
    | none => exact ⟨_, _, z6 hL hbn, z6' hL hbn, hE, z2⟩
    | some f =>
      obtain ⟨φ, hφ⟩ := hl.bn f hbn
      exact ⟨_, _, (z7 f hL hbn).trans (hφ _), (z7' f hL hbn).trans (hφ _),
        ⟨z1, z1', z2'.trans z2.symm, fun i c hi hc => congrArg (φ c) (hE.at_ i c hi hc)⟩, z2⟩

/-! ### models -/

theorem g_bind {α β : Type} {m : PyM (GSt K) α} {f : α → PyM (GSt K) β} {p : GRaw K → Except Err α}
    (hm : GReads m p) {a : α} (hf : ∃ q, GReads (f a) q) {s : GSt K} (hs : Coherent evKey s)
    (h : (m s).1 = .ok a) : ((m >>= f) s).1 = (f a s).1 := by
  obtain ⟨q, hq⟩ := hf
  obtain ⟨_, h2, h3⟩ := hm s hs
  have : ((m >>= f) s).1 = (f a (m s).2).1 := by
    simp only [PyM.bind_apply]
    rcases hh : m s with ⟨x, t⟩
    rw [hh] at h
    dsimp only at h
    subst h
    rfl
  rw [this, (hq _ h3).1, (hq _ hs).1, h2]

theorem g_collect_perm {ι : Type} {n : Nat} {π : Equiv.Perm Int} {s s' : GSt K}
    (hs : Coherent evKey s) (hs' : Coherent evKey s')
    (F F' : ι → PyM (GSt K) (Dense K)) (hF : ∀ i, ∃ p, GReads (F i) p) (hF' : ∀ i, ∃ p, GReads (F' i) p)
    (o : ι → Nat) (ls : List ι)
    (hstep : ∀ l ∈ ls, ∃ Y Y', (F l s).1 = .ok Y ∧ (F' l s').1 = .ok Y' ∧ Spec.PermFeat n π Y Y' ∧ Y.cols = o l) :
    ∃ Ys Ys', (PyM.collect (ls.map F) id s).1 = .ok Ys ∧ (PyM.collect (ls.map F') id s').1 = .ok Ys' ∧
      List.Forall₂ (Spec.PermFeat n π) Ys Ys' ∧ Ys.map (fun Y => Y.cols) = ls.map o := by
  induction ls with
  | nil => exact ⟨[], [], rfl, rfl, .nil, rfl⟩
  | cons l ls ih =>
    obtain ⟨Y, Y', h1, h2, h3, h4⟩ := hstep l List.mem_cons_self
    obtain ⟨Ys, Ys', g1, g2, g3, g4⟩ := ih fun l hl => hstep l (List.mem_cons_of_mem _ hl)
    obtain ⟨p, hp⟩ := hF l
    obtain ⟨p', hp'⟩ := hF' l
    obtain ⟨q, hq⟩ := isRead_collect (ls.map F) (by simp only [List.mem_map]; rintro _ ⟨i, _, rfl⟩; exact hF i)
    obtain ⟨q', hq'⟩ := isRead_collect (ls.map F') (by simp only [List.mem_map]; rintro _ ⟨i, _, rfl⟩; exact hF' i)
    refine ⟨Y :: Ys, Y' :: Ys', ?_, ?_, .cons h3 g3, by rw [List.map_cons, List.map_cons, h4, g4]⟩
    · show ((F l >>= fun a => PyM.collect (ls.map F) id >>= fun as => pure (a :: as)) s).1 = _
      rw [g_bind hp (isRead_bind ⟨_, hq⟩ fun _ => ⟨_, Reads.pure _⟩) hs h1]
      rw [g_bind (f := fun as => pure (Y :: as)) hq ⟨_, Reads.pure _⟩ hs g1]
      rfl
    · show ((F' l >>= fun a => PyM.collect (ls.map F') id >>= fun as => pure (a :: as)) s').1 = _
      rw [g_bind hp' (isRead_bind ⟨_, hq'⟩ fun _ => ⟨_, Reads.pure _⟩) hs' h2]
      rw [g_bind (f := fun as => pure (Y' :: as)) hq' ⟨_, Reads.pure _⟩ hs' g2]
      rfl

theorem g_stack_perm {ι : Type} {n : Nat} {π : Equiv.Perm Int} {s s' : GSt K}
    (hs : Coherent evKey s) (hs' : Coherent evKey s')
    (F : ι → Dense K → PyM (GSt K) (Dense K)) (hF : ∀ i X, ∃ p, GReads (F i X) p)
    (fits : Nat → List ι → Prop) (outC : ι → Nat) (ls : List ι)
    (hstep : ∀ l ∈ ls, ∀ ls' X X', Spec.PermFeat n π X X' → fits X.cols (l :: ls') →
      ∃ Y Y', (F l X s).1 = .ok Y ∧ (F l X' s').1 = .ok Y' ∧ Spec.PermFeat n π Y Y' ∧ Y.cols = outC l)
    (hfits : ∀ c l ls, fits c (l :: ls) → fits (outC l) ls)
    {X X' : Dense K} (hX : Spec.PermFeat n π X X') (hf : fits X.cols ls) :
    ∃ Y Y', (stackRun (ls.map F) X s).1 = .ok Y ∧ (stackRun (ls.map F) X' s').1 = .ok Y' ∧
      Spec.PermFeat n π Y Y' := by
  induction ls generalizing X X' with
  | nil => exact ⟨X, X', rfl, rfl, hX⟩
  | cons l ls ih =>
    obtain ⟨Y, Y', hY, hY', hP, ho⟩ := hstep l List.mem_cons_self ls X X' hX hf
    have hm : ∀ g ∈ ls.map F, ∀ X, ∃ p, GReads (g X) p := by
      simp only [List.mem_map]; rintro _ ⟨i, _, rfl⟩ X; exact hF i X
    obtain ⟨p, hp⟩ := hF l X
    obtain ⟨p', hp'⟩ := hF l X'
    have e1 : (stackRun ((l :: ls).map F) X s).1 = (stackRun (ls.map F) Y s).1 :=
      g_bind (f := stackRun (ls.map F)) hp (isRead_stack _ hm Y) hs hY
    have e2 : (stackRun ((l :: ls).map F) X' s').1 = (stackRun (ls.map F) Y' s').1 :=
      g_bind (f := stackRun (ls.map F)) hp' (isRead_stack _ hm Y') hs' hY'
    rw [e1, e2]
    exact ih (fun l hl => hstep l (List.mem_cons_of_mem _ hl)) hP (ho ▸ hfits _ _ _ hf)

theorem linear_perm {n : Nat} {π : Equiv.Perm Int} {X X' : Dense K} (hX : Spec.PermFeat n π X X') (t : Linear K)
    (hc : t.weight.cols = X.cols) : PermRes n π t.weight.rows (t.fwd X) (t.fwd X') := by
  obtain ⟨Y, h1, h2, h3, h4⟩ := linear_ok t (X := X) hc.symm
  obtain ⟨Y', h1', h2', h3', h4'⟩ := linear_ok t (X := X') (hX.cols.trans hc.symm)
  refine ⟨Y, Y', h1, h1', ⟨h2.trans hX.rows, h2'.trans hX.rows', h3'.trans h3.symm, fun i c hi _ => ?_⟩, h3⟩
  rw [h4, h4']
  exact affine_perm hX t hi c

theorem isRead_ginLoop (ls : List (GinLayer K)) (X P : Dense K) : ∃ p, GReads (ginLoop ls X P) p := by
  induction ls generalizing X P with
  | nil => exact ⟨_, Reads.pure _⟩
  | cons l ls ih =>
    exact isRead_bind (isRead_gin _ _ _) fun Y => isRead_bind ⟨_, Reads.lift _⟩ fun _ =>
      isRead_bind ⟨_, Reads.lift _⟩ fun Q => ih Y Q

theorem ginLoop_step {l : GinLayer K} {ls : List (GinLayer K)} {X Y P Q R : Dense K} {s : GSt K}
    (hs : Coherent evKey s) (h1 : (ginConv (mlp l.par l.useBn false l.channels) l.eps X s).1 = .ok Y)
    (h2 : l.pred.fwd Y = .ok Q) (h3 : zipD (· + ·) P Q = .ok R) :
    (ginLoop (l :: ls) X P s).1 = (ginLoop ls Y R s).1 := by
  obtain ⟨p, hp⟩ := isRead_gin (mlp l.par l.useBn false l.channels) l.eps X
  have := g_bind (f := fun X => do
    let P' ← PyM.lift (l.pred.fwd X)
    let pred ← PyM.lift (zipD (· + ·) P P')
    ginLoop ls X pred) hp
    (isRead_bind ⟨_, Reads.lift _⟩ fun _ => isRead_bind ⟨_, Reads.lift _⟩ fun Q => isRead_ginLoop ls Y Q) hs h1
  refine Eq.trans this ?_
  simp only [PyM.bind_apply, PyM.lift_apply, h2, h3]

theorem ginLoop_perm {n : Nat} {π : Equiv.Perm Int} {g g' : GSt K} (h : RenamedCopies n π g g') {o : Nat}
    (ls : List (GinLayer K)) {X X' P P' : Dense K} (hX : Spec.PermFeat n π X X') (hP : Spec.PermFeat n π P P')
    (hPc : P.cols = o) (hf : Spec.GinFits o X.cols ls) :
    ∃ Y Y', (ginLoop ls X P g).1 = .ok Y ∧ (ginLoop ls X' P' g').1 = .ok Y' ∧ Spec.PermFeat n π Y Y' := by
  obtain ⟨_, hb, hb'⟩ := h.all
  induction ls generalizing X X' P P' with
  | nil => exact ⟨P, P', rfl, rfl, hP⟩
  | cons l ls ih =>
    obtain ⟨⟨φ, hφ⟩, f2, f3, f4, d, f5, f6, f7⟩ := hf
    obtain ⟨Y, Y', y1, y2, y3, y4⟩ := C48_gin_conv h hX (mlp := mlp l.par l.useBn false l.channels) (o := d)
      (fun Z Z' hZ hc => mlp_perm hφ l.useBn false f2 f3 f5 hZ hc) l.eps
    obtain ⟨Q, Q', q1, q2, q3, q4⟩ := linear_perm y3 l.pred (f6.trans y4.symm)
    obtain ⟨R, r1, r2, r3, r4⟩ := zipD_same (· + ·) hP.rows q3.rows hPc (q4.trans f4)
    obtain ⟨R', r1', r2', r3', r4'⟩ := zipD_same (· + ·) hP.rows' q3.rows' (hP.cols.trans hPc)
      ((q3.cols.trans q4).trans f4)
    rw [ginLoop_step hb.inv.2 y1 q1 r1, ginLoop_step hb'.inv.2 y2 q2 r1']
    refine ih y3 ⟨r2, r2', r3'.trans r3.symm, fun i c hi hc => ?_⟩ r3 (y4 ▸ f7)
    rw [r3] at hc
    show R'.at_ (ren π i) c = _
    rw [r4 i c hi hc, r4' _ c ((ren_lt h.ren i).2 hi) hc]
    have a := hP.at_ i c hi (hPc ▸ hc)
    have b := q3.at_ i c hi (by rw [q4, f4]; exact hc)
    rw [show P'.at_ (ren π i) c = _ from a, show Q'.at_ (ren π i) c = _ from b]

/-- C48. Renaming the vertices permutes the outputs of the models on graphs in evaluation mode: the
model run on the renamed graph and the permuted features succeeds and gives the permuted outputs.
(With exactly one stored adjacency entry `GAT` raises, see `C90_gat_single_false`.) -/
theorem C48_graph_models [IsStrictOrderedRing K] {n : Nat} {π : Equiv.Perm Int} {g g' : GSt K}
    (h : RenamedCopies n π g g') (hw : Spec.NonnegWeights (Spec.listing g)) {src dst : List Nat}
    (he : EdgeVecs g src dst) (h1 : dst.length ≠ 1) (M : GModel K) {X X' : Dense K}
    (hX : Spec.PermFeat n π X X') (hM : Spec.GEval M X.cols) :
    ∃ Y Y', (M.run X g).1 = .ok Y ∧ (M.run X' g').1 = .ok Y' ∧ Spec.PermFeat n π Y Y' := by
  obtain ⟨_, hb, hb'⟩ := h.all
  have hc := hb.inv.2
  have hc' := hb'.inv.2
  cases M with
  | gcn ls =>
    exact g_stack_perm hc hc' gcnConv isRead_gcn Spec.Fits (fun l => l.theta.weight.rows) ls
      (fun l hl _ X X' hX hf => C48_gcn_conv h hX (hM.2 l hl) hf.1.symm hw) (fun _ _ _ h => h.2) hX hM.1
  | sage ls =>
    exact g_stack_perm hc hc' sageConv isRead_sage Spec.FitsPairs (fun l => l.theta.weight.rows) ls
      (fun l hl _ X X' hX hf => C48_sage_conv h hX (hM.2 l hl) hf.1) (fun _ _ _ h => h.2) hX hM.1
  | gin p ls =>
    obtain ⟨P, P', p1, p2, p3, p4⟩ := linear_perm hX p hM.1
    have e : ∀ (s : GSt K) (X P : Dense K), p.fwd X = .ok P → ((GModel.gin p ls).run X s).1 = (ginLoop ls X P s).1 := by
      intro s X P hP
      simp only [GModel.run, PyM.bind_apply, PyM.lift_apply, hP]
    rw [e _ _ _ p1, e _ _ _ p2]
    exact ginLoop_perm h ls hX p3 p4 hM.2
  | gat d1 hs d2 o =>
    obtain ⟨rfl, rfl, hne, hh, ho⟩ := hM
    obtain ⟨Ys, Ys', c1, c2, c3, c4⟩ := g_collect_perm hc hc' (fun l => gatConv l X) (fun l => gatConv l X')
      (fun l => isRead_gat l X) (fun l => isRead_gat l X') (fun l => l.theta.weight.rows) hs
      fun l hl => C48_gat_conv h he h1 hX (hh l hl)
    have hne' : Ys ≠ [] := by
      rintro rfl
      exact hne (List.map_eq_nil_iff.1 c4.symm)
    obtain ⟨Z, Z', e1, e2, e3, e4⟩ := catAll_perm c3 hne'
    rw [c4] at e4
    obtain ⟨W, W', w1, w2, w3, _⟩ := C48_gat_conv h he h1 e3 (e4 ▸ ho)
    have main : ∀ (s : GSt K) (X Z W : Dense K) (Ys : List (Dense K)), Coherent evKey s →
        (PyM.collect (hs.map fun l => gatConv l X) id s).1 = .ok Ys → catAll Ys = .ok Z →
        (gatConv o Z s).1 = .ok W → ((GModel.gat id hs id o).run X s).1 = .ok W := by
      intro s X Z W Ys hc c1 e1 w1
      have hr : ∀ m ∈ hs.map (fun l => gatConv l X), ∃ p, GReads m p := by
        simp only [List.mem_map]; rintro _ ⟨l, _, rfl⟩; exact isRead_gat l _
      obtain ⟨q, hq⟩ := isRead_collect _ hr
      obtain ⟨p, hp⟩ := isRead_multiHead "concat" _ hr
      have hm : (multiHead "concat" (hs.map fun l => gatConv l X) s).1 = .ok Z := by
        unfold multiHead
        rw [g_bind hq ⟨_, Reads.lift _⟩ hc c1]
        exact e1
      show ((multiHead "concat" (hs.map fun l => gatConv l X) >>= fun Y => gatConv o Y) s).1 = _
      rw [g_bind hp (isRead_gat o Z) hc hm]
      exact w1
    exact ⟨W, W', main g X Z W Ys hc c1 e1 w1, main g' X' Z' W' Ys' hc' c2 e2 w2, w3⟩

/-- exchanging the two vertices of `exE` -/
theorem exE_renamed : RenamedCopies 2 (Equiv.swap 0 1) exE exE := by
  have hπ : Spec.Renaming 2 (Equiv.swap (0 : Int) 1) := by
    constructor <;> intro x <;> rw [Equiv.swap_apply_def] <;> split <;> rename_i h1 <;>
      first | (subst h1; norm_num) | (split <;> rename_i h2 <;> first | (subst h2; norm_num) | rfl)
  refine ⟨hπ, some (.many [(0, 1)] .none), false, .mean, exE, exE, [], rfl, ?_, ?_, ?_, rfl, rfl⟩
  · have : (Option.map (Spec.renameArg (Equiv.swap (0 : Int) 1)) (some (EArg.many (K := ℝ) [(0, 1)] .none))) =
        some (.many [(1, 0)] .none) := by
      simp [Spec.renameArg]
    rw [this]; rfl
  · intro a h; cases h; simp [NonNeg]
  · intro arg op h; cases h

example : RenamedCopies 2 (Equiv.swap 0 1) exE exE ∧ Spec.NonnegWeights (Spec.listing exE) ∧
    EdgeVecs exE [1, 0] [0, 1] ∧ [0, 1].length ≠ 1 ∧
    ∃ X X' : Dense ℝ, Spec.PermFeat 2 (Equiv.swap 0 1) X X' ∧ X.cols = 2 ∧ X.at_ 0 0 ≠ X'.at_ 0 0 := by
  refine ⟨exE_renamed, ?_, exE_vecs, by decide, ⟨2, 2, fun i c => (i : ℝ) + c⟩,
    ⟨2, 2, fun i c => (1 - i : ℝ) + c⟩, ⟨rfl, rfl, rfl, ?_⟩, rfl, ?_⟩
  · have : Spec.listing exE = [((0, 1), 1)] := rfl
    rw [this]
    intro e he
    rw [List.mem_singleton.1 he]
    exact zero_le_one
  · intro i c hi _
    have hi : i < 2 := hi
    have : i = 0 ∨ i = 1 := by omega
    rcases this with rfl | rfl
    · show (1 - ((Equiv.swap (0 : Int) 1 ((0 : Nat) : Int)).toNat : ℝ)) + c = ((0 : Nat) : ℝ) + c
      rw [show Equiv.swap (0 : Int) 1 ((0 : Nat) : Int) = 1 from Equiv.swap_apply_left _ _]
      norm_num
    · show (1 - ((Equiv.swap (0 : Int) 1 ((1 : Nat) : Int)).toNat : ℝ)) + c = ((1 : Nat) : ℝ) + c
      rw [show Equiv.swap (0 : Int) 1 ((1 : Nat) : Int) = 0 from Equiv.swap_apply_right _ _]
      norm_num
  · norm_num

example : ∃ (ls ms : List (Conv ℝ)) (p : Linear ℝ) (gs : List (GinLayer ℝ)) (h₁ h₂ o : Gat ℝ),
    ls.length = 2 ∧ ms.length = 2 ∧ gs.length = 2 ∧ h₁ ≠ h₂ ∧
    Spec.GEval (.gcn ls) 2 ∧ Spec.GEval (.sage ms) 2 ∧ Spec.GEval (.gin p gs) 2 ∧
    Spec.GEval (.gat id [h₁, h₂] id o) 2 := by
  let par : MlpPar ℝ :=
    { weight := fun k i o => k + i - o, bias := fun k o => k * o, act := fun x => max x 0,
      bn := fun k X => .ok { X with at_ := fun i c => (X.at_ i c - c) / (k + 1) }, drop := fun _ X => X }
  have hpar : ∃ φ, Spec.MlpEval par φ := ⟨fun k c x => (x - c) / (k + 1), fun _ _ => rfl, fun _ _ => rfl⟩
  have h1 : ∀ f, (some fun X : Dense ℝ => Except.ok (ε := Err) { X with at_ := fun i c => (X.at_ i c - c) / 2 }) = some f →
      ∃ φ : Nat → ℝ → ℝ, ∀ X, f X = .ok { X with at_ := fun i c => φ c (X.at_ i c) } :=
    fun f hf => by cases hf; exact ⟨fun c x => (x - c) / 2, fun X => rfl⟩
  let bn : Option (Dense ℝ → Except Err (Dense ℝ)) := some fun X => .ok { X with at_ := fun i c => (X.at_ i c - c) / 2 }
  refine ⟨[
    { isLast := false, bn := bn, drop := id, theta := ⟨⟨8, 2, fun i c => i - c⟩, some fun _ => 1⟩ },
    { isLast := true, bn := none, drop := id, theta := ⟨⟨3, 8, fun i c => i * c⟩, none⟩ }], [
    { isLast := false, bn := bn, drop := id, theta := ⟨⟨8, 4, fun i c => i - c⟩, some fun _ => 1⟩ },
    { isLast := true, bn := none, drop := id, theta := ⟨⟨3, 16, fun i c => i * c⟩, none⟩ }],
    ⟨⟨3, 2, fun i c => i + c⟩, none⟩,
    [⟨par, true, [2, 8, 5], 1 / 2, ⟨⟨3, 5, fun i c => i * c⟩, none⟩⟩,
     ⟨par, false, [5, 8, 6], 1 / 3, ⟨⟨3, 6, fun i c => i + c⟩, some fun _ => 1⟩⟩],
    ⟨⟨⟨4, 2, fun i c => i + c⟩, none⟩, ⟨⟨1, 4, fun _ c => c⟩, none⟩, ⟨⟨1, 4, fun _ _ => 1⟩, none⟩, 1 / 5,
      fun _ x => x, false, bn⟩,
    ⟨⟨⟨4, 2, fun i c => i * c⟩, none⟩, ⟨⟨1, 4, fun _ c => c⟩, none⟩, ⟨⟨1, 4, fun _ _ => 1⟩, none⟩, 1 / 2,
      fun _ x => x, false, none⟩,
    ⟨⟨⟨3, 8, fun i c => i - c⟩, none⟩, ⟨⟨1, 3, fun _ c => c⟩, none⟩, ⟨⟨1, 3, fun _ _ => 1⟩, none⟩, 1 / 5,
      fun _ x => x, true, none⟩, rfl, rfl, rfl, ?_, ⟨⟨rfl, rfl, trivial⟩, ?_⟩, ⟨⟨rfl, rfl, trivial⟩, ?_⟩,
    ⟨rfl, hpar, by decide, rfl, rfl, 5, rfl, rfl, hpar, by decide, rfl, rfl, 6, rfl, rfl, trivial⟩,
    rfl, rfl, List.cons_ne_nil _ _, ?_, ⟨rfl, rfl, rfl, fun _ _ => rfl, fun f hf => nomatch hf⟩⟩
  · intro h
    have := congrArg Gat.slope h
    norm_num at this
  · intro l hl
    simp only [List.mem_cons, List.not_mem_nil, or_false] at hl
    rcases hl with rfl | rfl
    · exact ⟨rfl, h1⟩
    · exact ⟨rfl, fun f hf => nomatch hf⟩
  · intro l hl
    simp only [List.mem_cons, List.not_mem_nil, or_false] at hl
    rcases hl with rfl | rfl
    · exact ⟨rfl, h1⟩
    · exact ⟨rfl, fun f hf => nomatch hf⟩
  · intro l hl
    simp only [List.mem_cons, List.not_mem_nil, or_false] at hl
    rcases hl with rfl | rfl
    · exact ⟨rfl, rfl, rfl, fun _ _ => rfl, h1⟩
    · exact ⟨rfl, rfl, rfl, fun _ _ => rfl, fun f hf => nomatch hf⟩

end Props
end DHG
