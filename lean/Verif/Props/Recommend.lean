import Verif.Props.Models
import Verif.Props.BiGraphMatrices

/-!
# Properties of the recommendation models (C96): `LightGCN`, `NGCF`, `DHCF`
-/

set_option linter.unusedSectionVars false
set_option autoImplicit false

namespace DHG

namespace Spec
variable {K : Type} [Field K] [LinearOrder K]

/-- the embeddings of users followed by those of items -/
def allEmb (M : Nn.Rec K) (i c : Nat) : K :=
  if i < M.numUsers then M.users.at_ i c else M.items.at_ (i - M.numUsers) c

/-- The tables of a model have one row per user, one per item, and the same number `d` of columns. -/
structure RecFits (M : Nn.Rec K) (d : Nat) : Prop where
  users : M.users.rows = M.numUsers ∧ M.users.cols = d
  items : M.items.rows = M.numItems ∧ M.items.cols = d

/-- `t`-fold application of the matrix with entries `L` of size `n` -/
def spread (L : Nat → Nat → K) (n : Nat) : Nat → (Nat → Nat → K) → Nat → Nat → K
  | 0, E => E
  | t + 1, E => spread L n t fun i c => ∑ j ∈ Finset.range n, L i j * E j c

/-- `j` can be reached from `i` in at most `t` steps along non-zero entries of `A` -/
inductive Near (A : Nat → Nat → K) (n : Nat) : Nat → Nat → Nat → Prop
  | refl (t i : Nat) : Near A n t i i
  | step {t i j k : Nat} (hj : j < n) (h : A i j ≠ 0) (r : Near A n t j k) : Near A n (t + 1) i k

/-- the first `m` rows of `E` are returned as users, the next `n` as items -/
def Splits (m n d : Nat) (E : Nat → Nat → K) (r : Except Err (Dense K × Dense K)) : Prop :=
  ∃ U V : Dense K, r = .ok (U, V) ∧ U.rows = m ∧ U.cols = d ∧ V.rows = n ∧ V.cols = d ∧
    (∀ i c, i < m → c < d → U.at_ i c = E i c) ∧ ∀ i c, i < n → c < d → V.at_ i c = E (m + i) c

/-- average of the entries of the tables of a non-empty list -/
def meanEmb (Es : List (Nat → Nat → K)) (i c : Nat) : K := (Es.map fun E => E i c).sum / (Es.length : K)

/-- `E` and what the functions of the list make of it, one after another -/
def tables : List ((Nat → Nat → K) → Nat → Nat → K) → (Nat → Nat → K) → List (Nat → Nat → K)
  | [], E => [E]
  | F :: Fs, E => E :: tables Fs (F E)

/-- entry `o` of `W x + b` for a vector `x` of length `d` -/
def lin (l : Nn.Linear K) (d : Nat) (x : Nat → K) (o : Nat) : K :=
  (∑ c ∈ Finset.range d, x c * l.weight.at_ o c) + (l.bias.getD fun _ => 0) o

/-- a leaky rectifier with slope 1/5 -/
def leaky (x : K) : K := if 0 < x then x else x / 5

/-- square linear maps of width `d` and no dropout, as in evaluation mode -/
structure LayerFits (l : Nn.RecLayer K) (d : Nat) : Prop where
  gc : l.gc.weight.rows = d ∧ l.gc.weight.cols = d
  bi : l.bi.weight.rows = d ∧ l.bi.weight.cols = d
  drop : ∀ X, l.drop X = X

variable [PyReal K]

/-- rows of length `d` divided by their norm, or by `10⁻¹²` if that is greater -/
def unitRow (d : Nat) (S : Nat → Nat → K) (i c : Nat) : K :=
  S i c / max (Nn.sqrtK (∑ j ∈ Finset.range d, S i j * S i j)) (1 / 10 ^ 12)

/-- a layer of `NGCF`: with `G = L E`, the rows `leaky (W₁ Gᵢ + b₁) + leaky (W₂ (Eᵢ * Gᵢ) + b₂)`, normalised -/
def ngcfStep (L : Nat → Nat → K) (n d : Nat) (l : Nn.RecLayer K) (E : Nat → Nat → K) : Nat → Nat → K :=
  let G := fun i c => ∑ j ∈ Finset.range n, L i j * E j c
  unitRow d fun i o => leaky (lin l.gc d (G i) o) + leaky (lin l.bi d (fun c => E i c * G i c) o)

/-- a layer of `DHCF`: with `G` the users smoothed with `Lu` and the items with `Li`, the rows
`leaky (W₁ Gᵢ + b₁ + Eᵢ) + leaky (W₂ (Eᵢ * Gᵢ) + b₂)`, normalised -/
def dhcfStep (Lu Li : Nat → Nat → K) (m n d : Nat) (l : Nn.RecLayer K) (E : Nat → Nat → K) : Nat → Nat → K :=
  let G := fun i c => if i < m then ∑ j ∈ Finset.range m, Lu i j * E j c
    else ∑ j ∈ Finset.range n, Li (i - m) j * E (m + j) c
  unitRow d fun i o => leaky (lin l.gc d (G i) o + E i o) + leaky (lin l.bi d (fun c => E i c * G i c) o)

end Spec

namespace Props

open Finset Nn

variable {K : Type} [Field K] [LinearOrder K] [PyReal K] {b : Bool}

/-! ### pieces -/

theorem catRows_run {M : Rec K} {d : Nat} (hM : Spec.RecFits M d) :
    ∃ E, catRows M.users M.items = .ok E ∧ E.rows = M.numUsers + M.numItems ∧ E.cols = d ∧
      ∀ i c, E.at_ i c = Spec.allEmb M i c := by
  refine ⟨_, if_pos (hM.users.2.trans hM.items.2.symm), ?_, hM.users.2, fun i c => ?_⟩
  · simp only [hM.users.1, hM.items.1]
  · simp only [hM.users.1, Spec.allEmb]

theorem meanSplit_run {m n d : Nat} (Es : List (Dense K)) (h0 : Es ≠ [])
    (hs : ∀ E ∈ Es, E.rows = m + n ∧ E.cols = d) :
    Spec.Splits m n d (Spec.meanEmb (Es.map Dense.at_)) (meanSplit m n Es) := by
  unfold meanSplit
  rw [stackWith_run _ Es h0 hs]
  refine ⟨_, _, if_pos rfl, rfl, rfl, rfl, rfl, fun i c _ _ => ?_, fun i c _ _ => ?_⟩ <;>
    simp only [Spec.meanEmb, List.map_map, List.length_map, Function.comp_def]

theorem Splits.congr {m n d : Nat} {E E' : Nat → Nat → K} {r : Except Err (Dense K × Dense K)}
    (h : Spec.Splits m n d E r) (he : ∀ i c, i < m + n → c < d → E i c = E' i c) : Spec.Splits m n d E' r := by
  obtain ⟨U, V, h1, h2, h3, h4, h5, h6, h7⟩ := h
  exact ⟨U, V, h1, h2, h3, h4, h5, fun i c hi hc => (h6 i c hi hc).trans (he _ _ (by omega) hc),
    fun i c hi hc => (h7 i c hi hc).trans (he _ _ (by omega) hc)⟩

theorem isRead_lightGcn (M : Rec K) (p : K) (tr : Bool) (keeps : List (Nat → Bool)) :
    ∃ f, Ord.OReads .bi (lightGcn M p tr keeps) f :=
  isRead_bind ⟨_, Reads.lift _⟩ fun E => isRead_bind (isRead_layerwise _ (by
    simp only [List.mem_map]; rintro _ ⟨l, _, rfl⟩ X; exact ⟨_, BiGraph.reads_smoothGCN _ _ _⟩) E) fun _ => ⟨_, Reads.lift _⟩

theorem isRead_ngcfLayer (l : RecLayer K) (E : Dense K) : ∃ f, Ord.OReads .bi (ngcfLayer l E) f :=
  isRead_bind ⟨_, BiGraph.reads_smoothGCN _ _ _⟩ fun _ => isRead_bind ⟨_, Reads.lift _⟩ fun _ =>
    isRead_bind ⟨_, Reads.lift _⟩ fun _ => isRead_bind ⟨_, Reads.lift _⟩ fun _ =>
    isRead_bind ⟨_, Reads.lift _⟩ fun _ => ⟨_, Reads.pure _⟩

theorem isRead_ngcf (M : Rec K) (ls : List (RecLayer K)) : ∃ f, Ord.OReads .bi (ngcf M ls) f :=
  isRead_bind ⟨_, Reads.lift _⟩ fun E => isRead_bind (isRead_layerwise _ (by
    simp only [List.mem_map]; rintro _ ⟨l, _, rfl⟩ X; exact isRead_ngcfLayer l X) E) fun _ => ⟨_, Reads.lift _⟩

/-! ### running the layers -/

/-- `Y` has `n` rows, `d` columns and the entries `T` -/
def Tab (n d : Nat) (Y : Dense K) (T : Nat → Nat → K) : Prop :=
  Y.rows = n ∧ Y.cols = d ∧ ∀ i c, i < n → c < d → Y.at_ i c = T i c

theorem layerwise_run {σ : Type} (I : σ → Prop) {n d : Nat}
    (ls : List ((Dense K → PyM σ (Dense K)) × ((Nat → Nat → K) → Nat → Nat → K)))
    (h : ∀ l ∈ ls, ∀ s, I s → ∀ X T, Tab n d X T → ∃ Y s', l.1 X s = (.ok Y, s') ∧ I s' ∧ Tab n d Y (l.2 T))
    (X : Dense K) (T : Nat → Nat → K) (hX : Tab n d X T) (s : σ) (hs : I s) :
    ∃ Es s', layerwise (ls.map Prod.fst) X s = (.ok Es, s') ∧ I s' ∧
      List.Forall₂ (Tab n d) Es (Spec.tables (ls.map Prod.snd) T) := by
  induction ls generalizing X T s with
  | nil => exact ⟨[X], s, rfl, hs, .cons hX .nil⟩
  | cons l ls ih =>
    obtain ⟨Y, s1, h1, h2, h3⟩ := h l List.mem_cons_self s hs X T hX
    obtain ⟨Es, s2, e1, e2, e3⟩ := ih (fun l hl => h l (List.mem_cons_of_mem _ hl)) Y _ h3 s1 h2
    exact ⟨X :: Es, s2, by simp only [List.map_cons, layerwise, PyM.bind_apply, h1, e1, PyM.pure_apply], e2, .cons hX e3⟩

theorem mean_tables {m n d : Nat} {Es : List (Dense K)} {Ts : List (Nat → Nat → K)} (h0 : Ts ≠ [])
    (h : List.Forall₂ (Tab (m + n) d) Es Ts) : Spec.Splits m n d (Spec.meanEmb Ts) (meanSplit m n Es) := by
  have hs : ∀ E ∈ Es, E.rows = m + n ∧ E.cols = d := by
    induction h with
    | nil => simp
    | cons h hr ih =>
      intro E hE
      rcases List.mem_cons.1 hE with rfl | hE
      · exact ⟨h.1, h.2.1⟩
      · cases hr with
        | nil => cases hE
        | cons a b => exact ih (by simp) E hE
  have hl := h.length_eq
  refine Splits.congr (meanSplit_run Es (by rintro rfl; cases h; exact h0 rfl) hs) fun i c hi hc => ?_
  unfold Spec.meanEmb
  rw [List.length_map, hl, List.map_map]
  congr 2
  clear hl hs h0
  induction h with
  | nil => rfl
  | cons h hr ih => simp only [List.map_cons, ih, Function.comp, h.2.2 i c hi hc]

theorem tables_ne {Fs : List ((Nat → Nat → K) → Nat → Nat → K)} {E : Nat → Nat → K} : Spec.tables Fs E ≠ [] := by
  cases Fs <;> simp [Spec.tables]

theorem tables_replicate (L : Nat → Nat → K) (n k : Nat) (E : Nat → Nat → K) (i c : Nat) :
    Spec.meanEmb (Spec.tables (List.replicate k fun E i c => ∑ j ∈ range n, L i j * E j c) E) i c =
      (∑ t ∈ range (k + 1), Spec.spread L n t E i c) / ((k + 1 : Nat) : K) := by
  have h1 : ∀ k E, (Spec.tables (List.replicate k fun E i c => ∑ j ∈ range n, L i j * E j c) E).length = k + 1 := by
    intro k
    induction k with
    | zero => intro E; rfl
    | succ k ih => intro E; simp only [List.replicate_succ, Spec.tables, List.length_cons, ih]
  unfold Spec.meanEmb
  rw [h1]
  congr 1
  clear h1
  induction k generalizing E with
  | zero => simp [Spec.tables, Spec.spread]
  | succ k ih =>
    rw [List.replicate_succ, Spec.tables, List.map_cons, List.sum_cons, ih, sum_range_succ' _ (k + 1)]
    simp only [Spec.spread]
    rw [add_comm]

/-! ## LightGCN -/

theorem biSmooth_run {g g' : BSt K} {X Y : Dense K} {p : K} {keep : Nat → Bool} (hg : Coherent (Ord.evKey .bi) g)
    (hg' : Coherent (Ord.evKey .bi) g') (hr : g'.raw = g.raw)
    (h : (BiGraph.ask (.smoothGCN X p keep) g).1 = .ok (.feat Y)) :
    (BiGraph.smoothGCN X p keep g').1 = .ok Y := by
  rw [(BiGraph.reads_ask _ g hg).1] at h
  rw [(BiGraph.reads_smoothGCN X p keep g' hg').1, hr]
  simp only [BiGraph.evAsk] at h
  cases he : BiGraph.evSmoothGCN X p keep g.raw <;> rw [he] at h <;> cases h
  rfl

/-- one smoothing step on an object with the same edges -/
theorem biSmooth_tab [IsStrictOrderedRing K] {g : BSt K} {m n d : Nat} (hg : BiGraph.Built Graph.NonNeg g)
    (hm : (BiGraph.ask .numU g).1 = .ok (.num m)) (hn : (BiGraph.ask .numV g).1 = .ok (.num n))
    (hw : Spec.NonnegWeights (Spec.listingB g)) {L : Sp K}
    (hL : (BiGraph.ask .LGCN g).1 = .ok (.mat L)) (keep : Nat → Bool) (g' : BSt K)
    (hg' : Coherent (Ord.evKey .bi) g' ∧ g'.raw = g.raw) (X : Dense K) (T : Nat → Nat → K) (hX : Tab (m + n) d X T) :
    ∃ Y s', BiGraph.smoothGCN X 0 keep g' = (.ok Y, s') ∧ (Coherent (Ord.evKey .bi) s' ∧ s'.raw = g.raw) ∧
      Tab (m + n) d Y fun i c => ∑ j ∈ range (m + n), L.get i j * T j c := by
  obtain ⟨A, hA⟩ : ∃ A, (BiGraph.ask .A g).1 = .ok (.mat A) := by
    have hx : Spec.Bipartite m n g := by
      rw [← Bi.numV_eq hn, ← Bi.numU_eq hm]; exact Bi.bipartite_of_LGCN hg hL
    obtain ⟨B, _, hB, _⟩ := C25_bigraph_incidence hg hm hn hx
    obtain ⟨A', hA', _⟩ := C25_bigraph_A_blocks hg hm hn hx hB
    exact ⟨A', hA'⟩
  obtain ⟨L', s, hL', _, _, _, hY⟩ := C65_bigraph_LGCN hg hm hn hw hA
  rw [hL] at hL'; cases hL'
  obtain ⟨Y, hY, y1, y2, y3⟩ := hY X keep hX.1
  have h1 := biSmooth_run hg.coh hg'.1 hg'.2 hY
  have h2 := BiGraph.reads_smoothGCN X 0 keep g' hg'.1
  refine ⟨Y, (BiGraph.smoothGCN X 0 keep g').2, Prod.ext h1 rfl, ⟨h2.2.2, h2.2.1.trans hg'.2⟩, y1, y2.trans hX.2.1,
    fun i c hi hc => ?_⟩
  rw [y3]
  exact sum_congr rfl fun j hj => by rw [hX.2.2 j c (mem_range.1 hj) hc]

/-- C96. `LightGCN` without dropout (evaluation mode or rate 0): the embedding of each user and item is the
mean over `t = 0, ..., num_layers` of the rows of `L_GCN^t E`, where `E` stacks the tables of users and
items. -/
theorem C96_lightgcn [IsStrictOrderedRing K] {g : BSt K} {d : Nat} {M : Rec K} (hg : BiGraph.Built Graph.NonNeg g)
    (hm : (BiGraph.ask .numU g).1 = .ok (.num M.numUsers)) (hn : (BiGraph.ask .numV g).1 = .ok (.num M.numItems))
    (hw : Spec.NonnegWeights (Spec.listingB g)) {L : Sp K}
    (hL : (BiGraph.ask .LGCN g).1 = .ok (.mat L)) (hM : Spec.RecFits M d) (rate : K) (training : Bool)
    (ht : training = false ∨ rate = 0) (keeps : List (Nat → Bool)) :
    Spec.Splits M.numUsers M.numItems d (fun i c =>
        (∑ t ∈ range (keeps.length + 1), Spec.spread L.get (M.numUsers + M.numItems) t (Spec.allEmb M) i c) /
          ((keeps.length + 1 : Nat) : K))
      (lightGcn M rate training keeps g).1 := by
  obtain ⟨E, hE, e1, e2, e3⟩ := catRows_run hM
  have h0 : (if training then rate else 0) = 0 := by
    rcases ht with rfl | rfl
    · rfl
    · split <;> rfl
  obtain ⟨Es, s', r1, r2, r3⟩ := layerwise_run (fun g' : BSt K => Coherent (Ord.evKey .bi) g' ∧ g'.raw = g.raw)
    (n := M.numUsers + M.numItems) (d := d)
    (keeps.map fun keep => ((fun X => BiGraph.smoothGCN X (if training then rate else 0) keep),
      fun T i c => ∑ j ∈ range (M.numUsers + M.numItems), L.get i j * T j c))
    (by
      simp only [List.mem_map]
      rintro _ ⟨keep, _, rfl⟩ g' hg' X T hX
      simp only [h0]
      exact biSmooth_tab hg hm hn hw hL keep g' hg' X T hX)
    E (Spec.allEmb M) ⟨e1, e2, fun i c _ _ => e3 i c⟩ g ⟨hg.coh, rfl⟩
  rw [List.map_map] at r1 r3
  have hrun : (lightGcn M rate training keeps g).1 = meanSplit M.numUsers M.numItems Es := by
    have r1' : layerwise (keeps.map fun keep X => BiGraph.smoothGCN X (if training then rate else 0) keep) E g =
        (.ok Es, s') := r1
    simp only [lightGcn, PyM.bind_apply, PyM.lift_apply, hE, r1']
  rw [hrun]
  refine Splits.congr (mean_tables tables_ne r3) fun i c _ _ => ?_
  rw [← tables_replicate]
  congr 2
  rw [show (Prod.snd ∘ fun keep : Nat → Bool => ((fun X => BiGraph.smoothGCN X (if training then rate else 0) keep),
      fun (T : Nat → Nat → K) (i c : Nat) => ∑ j ∈ range (M.numUsers + M.numItems), L.get i j * T j c)) =
    fun _ => fun (T : Nat → Nat → K) (i c : Nat) => ∑ j ∈ range (M.numUsers + M.numItems), L.get i j * T j c from rfl]
  rw [List.map_const']

theorem spread_near {L : Nat → Nat → K} {n : Nat} (t : Nat) {E E' : Nat → Nat → K} {i : Nat}
    (h : ∀ j, Spec.Near L n t i j → ∀ c, E j c = E' j c) (c : Nat) :
    Spec.spread L n t E i c = Spec.spread L n t E' i c := by
  have hlin : ∀ t (E : Nat → Nat → K) i c, Spec.spread L n (t + 1) E i c =
      ∑ j ∈ range n, L i j * Spec.spread L n t E j c := by
    intro t
    induction t with
    | zero => intro E i c; rfl
    | succ t ih =>
      intro E i c
      rw [Spec.spread, ih]
      rfl
  induction t generalizing i with
  | zero => exact h i (.refl _ _) c
  | succ t ih =>
    rw [hlin, hlin]
    refine sum_congr rfl fun j hj => ?_
    by_cases h0 : L i j = 0
    · rw [h0, zero_mul, zero_mul]
    · rw [ih fun k hk => h k (.step (mem_range.1 hj) h0 hk)]

theorem near_mono {L : Nat → Nat → K} {n t i j : Nat} (h : Spec.Near L n t i j) : ∀ t', t ≤ t' → Spec.Near L n t' i j := by
  induction h with
  | refl t i => exact fun t' _ => .refl _ _
  | step hj h _ ih =>
    intro t' ht
    obtain ⟨u, rfl⟩ : ∃ u, t' = u + 1 := ⟨t' - 1, by omega⟩
    exact .step hj h (ih u (by omega))

/-- C96. Locality of `LightGCN`: with `k` layers, two tables agreeing on all users and items that `i` reaches
in at most `k` steps of `L_GCN` give the same embedding of `i`; in particular an isolated vertex keeps its
own embedding. -/
theorem C96_lightgcn_local [IsStrictOrderedRing K] {g : BSt K} {d : Nat} {M M' : Rec K}
    (hg : BiGraph.Built Graph.NonNeg g)
    (hm : (BiGraph.ask .numU g).1 = .ok (.num M.numUsers)) (hn : (BiGraph.ask .numV g).1 = .ok (.num M.numItems))
    (hw : Spec.NonnegWeights (Spec.listingB g)) {L A : Sp K}
    (hL : (BiGraph.ask .LGCN g).1 = .ok (.mat L)) (hA : (BiGraph.ask .A g).1 = .ok (.mat A))
    (hM : Spec.RecFits M d) (hM' : Spec.RecFits M' d)
    (h1 : M'.numUsers = M.numUsers) (h2 : M'.numItems = M.numItems) (rate : K) (training : Bool)
    (ht : training = false ∨ rate = 0) (keeps : List (Nat → Bool)) :
    ∃ U V U' V', (lightGcn M rate training keeps g).1 = .ok (U, V) ∧
      (lightGcn M' rate training keeps g).1 = .ok (U', V') ∧
      (∀ i, i < M.numUsers + M.numItems →
        (∀ j, Spec.Near L.get (M.numUsers + M.numItems) keeps.length i j → ∀ c, Spec.allEmb M j c = Spec.allEmb M' j c) →
        ∀ c, c < d → if i < M.numUsers then U.at_ i c = U'.at_ i c
          else V.at_ (i - M.numUsers) c = V'.at_ (i - M.numUsers) c) ∧
      (∀ i, i < M.numUsers → (∀ j, j < M.numUsers + M.numItems → A.get i j = 0) →
        ∀ c, c < d → U.at_ i c = M.users.at_ i c) ∧
      (∀ i, i < M.numItems → (∀ j, j < M.numUsers + M.numItems → A.get (M.numUsers + i) j = 0) →
        ∀ c, c < d → V.at_ i c = M.items.at_ i c) := by
  obtain ⟨U, V, e1, e2, e3, e4, e5, e6, e7⟩ := C96_lightgcn hg hm hn hw hL hM rate training ht keeps
  have hm' := hm
  have hn' := hn
  rw [← h1] at hm'
  rw [← h2] at hn'
  obtain ⟨U', V', f1, f2, f3, f4, f5, f6, f7⟩ :=
    C96_lightgcn hg hm' hn' hw hL hM' rate training ht keeps
  rw [h1, h2] at f6 f7
  beta_reduce at e6 e7 f6 f7
  have hiso : ∀ i, i < M.numUsers + M.numItems → (∀ j, j < M.numUsers + M.numItems → A.get i j = 0) → ∀ c,
      (∑ t ∈ range (keeps.length + 1), Spec.spread L.get (M.numUsers + M.numItems) t (Spec.allEmb M) i c) /
          ((keeps.length + 1 : Nat) : K) = Spec.allEmb M i c := by
    intro i hi h0 c
    obtain ⟨L', s, hL', hs, hLm, _⟩ := C65_bigraph_LGCN hg hm hn hw hA
    rw [hL] at hL'; cases hL'
    have hrow : ∀ j, j < M.numUsers + M.numItems → L.get i j = if i = j then 1 else 0 := by
      intro j hj
      rw [hLm.get i j hi hj, h0 j hj, zero_add]
      split
      · next h =>
        subst h
        have := (hs i hi).2
        rw [sum_eq_zero fun j hj => h0 j (mem_range.1 hj)] at this
        linear_combination this
      · simp
    have hsp : ∀ t (E : Nat → Nat → K), Spec.spread L.get (M.numUsers + M.numItems) t E i c = E i c := by
      intro t
      induction t with
      | zero => intro E; rfl
      | succ t ih =>
        intro E
        rw [Spec.spread, ih]
        rw [sum_congr rfl fun j hj => by rw [hrow j (mem_range.1 hj)]]
        simp [hi]
    rw [sum_congr rfl fun t _ => hsp t _, sum_const, card_range, nsmul_eq_mul]
    rw [mul_comm, mul_div_assoc, div_self, mul_one]
    have : (0 : K) < ((keeps.length + 1 : Nat) : K) := by exact_mod_cast Nat.succ_pos _
    exact this.ne'
  refine ⟨U, V, U', V', e1, f1, fun i hi hj c hc => ?_, fun i hi h0 c hc => ?_, fun i hi h0 c hc => ?_⟩
  · have hsame : ∀ t ∈ range (keeps.length + 1),
        Spec.spread L.get (M.numUsers + M.numItems) t (Spec.allEmb M) i c =
        Spec.spread L.get (M.numUsers + M.numItems) t (Spec.allEmb M') i c := fun t ht =>
      spread_near t (fun j hn => hj j (near_mono hn _ (by have := mem_range.1 ht; omega))) c
    split
    · next h => rw [e6 i c h hc, f6 i c h hc, sum_congr rfl hsame]
    · next h =>
      have h' : M.numUsers + (i - M.numUsers) = i := by omega
      rw [e7 _ c (by omega) hc, f7 _ c (by omega) hc, h', sum_congr rfl hsame]
  · rw [e6 i c hi hc, hiso i (by omega) h0]
    simp [Spec.allEmb, hi]
  · rw [e7 i c hi hc, hiso _ (by omega) h0]
    simp [Spec.allEmb]

/-! ## NGCF and DHCF -/

theorem leaky_eq [IsStrictOrderedRing K] (x : K) : leakyRelu (1 / 5) x = Spec.leaky x := by
  unfold leakyRelu Spec.leaky
  split
  · rfl
  · ring

theorem lin_tab {l : Linear K} {n d : Nat} (h1 : l.weight.rows = d) (h2 : l.weight.cols = d) {X : Dense K}
    {T : Nat → Nat → K} (hX : Tab n d X T) :
    ∃ Y, l.fwd X = .ok Y ∧ Tab n d Y fun i => Spec.lin l d (T i) := by
  obtain ⟨Y, hY, y1, y2, y3⟩ := linear_ok l (X := X) (by rw [hX.2.1, h2])
  refine ⟨Y, hY, y1.trans hX.1, y2.trans h1, fun i o hi ho => ?_⟩
  rw [y3]
  unfold Spec.affine Spec.lin
  rw [hX.2.1]
  congr 1
  exact sum_congr rfl fun c hc => by rw [hX.2.2 i c hi (mem_range.1 hc)]

theorem zip_tab (f : K → K → K) {n d : Nat} {X Y : Dense K} {S T : Nat → Nat → K} (hX : Tab n d X S)
    (hY : Tab n d Y T) : ∃ Z, zipD f X Y = .ok Z ∧ Tab n d Z fun i c => f (S i c) (T i c) := by
  obtain ⟨Z, hZ, z1, z2, z3⟩ := zipD_same f hX.1 hY.1 hX.2.1 hY.2.1
  exact ⟨Z, hZ, z1, z2, fun i c hi hc => by rw [z3 i c hi hc, hX.2.2 i c hi hc, hY.2.2 i c hi hc]⟩

theorem map_tab {f f' : K → K} (hf : ∀ x, f x = f' x) {n d : Nat} {X : Dense K} {S : Nat → Nat → K} (hX : Tab n d X S) :
    Tab n d (mapD f X) fun i c => f' (S i c) :=
  ⟨hX.1, hX.2.1, fun i c hi hc => by simp only [mapD]; rw [hX.2.2 i c hi hc, hf]⟩

theorem norm_tab {n d : Nat} {X : Dense K} {S : Nat → Nat → K} (hX : Tab n d X S) :
    Tab n d (normalizeRows X) (Spec.unitRow d S) := by
  refine ⟨hX.1, hX.2.1, fun i c hi hc => ?_⟩
  simp only [normalizeRows, Spec.unitRow, hX.2.1]
  rw [hX.2.2 i c hi hc]
  congr 3
  exact sum_congr rfl fun j hj => by rw [hX.2.2 i j hi (mem_range.1 hj)]

theorem Tab.congr {n d : Nat} {Y : Dense K} {T T' : Nat → Nat → K} (h : Tab n d Y T)
    (he : ∀ i c, i < n → c < d → T i c = T' i c) : Tab n d Y T' :=
  ⟨h.1, h.2.1, fun i c hi hc => (h.2.2 i c hi hc).trans (he i c hi hc)⟩

theorem unitRow_congr {n d : Nat} {S T : Nat → Nat → K} (h : ∀ i c, i < n → c < d → S i c = T i c) (i c : Nat)
    (hi : i < n) (hc : c < d) : Spec.unitRow d S i c = Spec.unitRow d T i c := by
  unfold Spec.unitRow
  rw [h i c hi hc]
  congr 3
  exact sum_congr rfl fun j hj => by rw [h i j hi (mem_range.1 hj)]

/-- C96. `NGCF` in evaluation mode: the mean of the tables obtained by applying the layers one after another,
split into users and items. -/
theorem C96_ngcf [IsStrictOrderedRing K] {g : BSt K} {d : Nat} {M : Rec K} (hg : BiGraph.Built Graph.NonNeg g)
    (hm : (BiGraph.ask .numU g).1 = .ok (.num M.numUsers)) (hn : (BiGraph.ask .numV g).1 = .ok (.num M.numItems))
    (hw : Spec.NonnegWeights (Spec.listingB g)) {L : Sp K}
    (hL : (BiGraph.ask .LGCN g).1 = .ok (.mat L)) (hM : Spec.RecFits M d) (ls : List (RecLayer K))
    (hls : ∀ l ∈ ls, Spec.LayerFits l d) :
    Spec.Splits M.numUsers M.numItems d
      (Spec.meanEmb (Spec.tables (ls.map (Spec.ngcfStep L.get (M.numUsers + M.numItems) d)) (Spec.allEmb M)))
      (ngcf M ls g).1 := by
  obtain ⟨E, hE, e1, e2, e3⟩ := catRows_run hM
  obtain ⟨Es, s', r1, r2, r3⟩ := layerwise_run (fun g' : BSt K => Coherent (Ord.evKey .bi) g' ∧ g'.raw = g.raw)
    (n := M.numUsers + M.numItems) (d := d)
    (ls.map fun l => (ngcfLayer l, Spec.ngcfStep L.get (M.numUsers + M.numItems) d l))
    (by
      simp only [List.mem_map]
      rintro _ ⟨l, hl, rfl⟩ g' hg' X T hX
      have hf := hls l hl
      obtain ⟨G, g2, h1, h2, h3⟩ := biSmooth_tab hg hm hn hw hL (fun _ => true) g' hg' X T hX
      obtain ⟨S, hS, hS'⟩ := lin_tab hf.gc.1 hf.gc.2 h3
      obtain ⟨B, hB, hB'⟩ := zip_tab (· * ·) hX h3
      obtain ⟨B2, hB2, hB2'⟩ := lin_tab hf.bi.1 hf.bi.2 hB'
      obtain ⟨A, hA, hA'⟩ := zip_tab (· + ·) (map_tab leaky_eq hS') (map_tab leaky_eq hB2')
      refine ⟨normalizeRows (l.drop A), g2, ?_, h2, ?_⟩
      · simp only [ngcfLayer, PyM.bind_apply, h1, PyM.lift_apply, hS, hB, hB2, hA, PyM.pure_apply]
      · rw [hf.drop]
        exact norm_tab hA')
    E (Spec.allEmb M) ⟨e1, e2, fun i c _ _ => e3 i c⟩ g ⟨hg.coh, rfl⟩
  rw [List.map_map] at r1 r3
  have hrun : (ngcf M ls g).1 = meanSplit M.numUsers M.numItems Es := by
    have r1' : layerwise (ls.map ngcfLayer) E g = (.ok Es, s') := r1
    simp only [ngcf, PyM.bind_apply, PyM.lift_apply, hE, r1']
  rw [hrun]
  exact mean_tables tables_ne r3

theorem hySmooth_tab [IsStrictOrderedRing K] {s : HSt K} {n d : Nat} (hs : Hyper.Built Hyper.Proper true s)
    (hsc : Spec.HasScope s none) (hn : (Hyper.ask .numV s).1 = .ok (.num n))
    (hw : Spec.HNonneg (Spec.hListing s none)) {L : Sp K} (hL : (Hyper.ask (.LHGNN none) s).1 = .ok (.mat L))
    (s' : HSt K) (hs' : Hyper.Coh true s' ∧ s'.raw = s.raw) (X : Dense K) (T : Nat → Nat → K)
    (hX : Tab n d X T) :
    ∃ Y s2, Hyper.smoothHGNN none X 0 (fun _ => true) s' = (.ok Y, s2) ∧
      (Hyper.Coh true s2 ∧ s2.raw = s.raw) ∧
      Tab n d Y fun i c => ∑ j ∈ range n, L.get i j * T j c := by
  obtain ⟨hi, hcoh⟩ := (hs.mono (Q := Hyper.AnyH) fun _ _ _ => trivial).inv
  obtain ⟨L', _, _, hL', _, _, hm, _⟩ := C36_hypergraph_L_HGNN_partial hs hsc hn hw
  rw [hL] at hL'; cases hL'
  have hev : Hyper.evLHGNN none s.raw = .ok L := by
    rw [Hyper.ask_eq _ hcoh (.inl rfl)] at hL
    simp only [Hyper.evAsk] at hL
    cases h : Hyper.evLHGNN none s.raw <;> rw [h] at hL <;> cases hL
    rfl
  obtain ⟨Z, hZ, z1, z2, z3⟩ := Hy.evSmooth_spec hev hm.rows hm.cols hm.wf hX.1
  have h2 := Hyper.reads_smooth (b := true) none X 0 (fun _ => true) s' hs'.1
  refine ⟨Z, _, Prod.ext (by rw [h2.1, hs'.2]; exact hZ) rfl, ⟨h2.2.2, h2.2.1.trans hs'.2⟩, z1, z2.trans hX.2.1,
    fun i c hi hc => ?_⟩
  rw [z3]
  exact sum_congr rfl fun j hj => by rw [hX.2.2 j c (mem_range.1 hj) hc]

/-- C96, partial. `DHCF` in evaluation mode: the mean of the tables obtained by applying the layers one after
another, split into users and items. Missing: hypergraphs without hyperedge groups, on which
`smoothing_with_HGNN` raises. -/
theorem C96_dhcf_partial [IsStrictOrderedRing K] {s t : HSt K} {d : Nat} {M : Rec K}
    (hs : Hyper.Built Hyper.Proper true s) (ht : Hyper.Built Hyper.Proper true t)
    (hsc : Spec.HasScope s none) (htc : Spec.HasScope t none)
    (hsn : (Hyper.ask .numV s).1 = .ok (.num M.numUsers)) (htn : (Hyper.ask .numV t).1 = .ok (.num M.numItems))
    (hsw : Spec.HNonneg (Spec.hListing s none)) (htw : Spec.HNonneg (Spec.hListing t none)) {Lu Li : Sp K}
    (hLu : (Hyper.ask (.LHGNN none) s).1 = .ok (.mat Lu)) (hLi : (Hyper.ask (.LHGNN none) t).1 = .ok (.mat Li))
    (hM : Spec.RecFits M d) (ls : List (RecLayer K)) (hls : ∀ l ∈ ls, Spec.LayerFits l d) :
    Spec.Splits M.numUsers M.numItems d
      (Spec.meanEmb (Spec.tables (ls.map (Spec.dhcfStep Lu.get Li.get M.numUsers M.numItems d)) (Spec.allEmb M)))
      (dhcf M ls (s, t)).1 := by
  obtain ⟨E, hE, e1, e2, e3⟩ := catRows_run hM
  obtain ⟨Es, s', r1, r2, r3⟩ := layerwise_run
    (fun p : HSt K × HSt K => (Hyper.Coh true p.1 ∧ p.1.raw = s.raw) ∧ (Hyper.Coh true p.2 ∧ p.2.raw = t.raw))
    (n := M.numUsers + M.numItems) (d := d)
    (ls.map fun l => (dhcfLayer M l, Spec.dhcfStep Lu.get Li.get M.numUsers M.numItems d l))
    (by
      simp only [List.mem_map]
      rintro _ ⟨l, hl, rfl⟩ p hp X T hX
      have hf := hls l hl
      have hsplit : splitRows M.numUsers M.numItems X = .ok ({ rows := M.numUsers, cols := X.cols, at_ := X.at_ },
          { rows := M.numItems, cols := X.cols, at_ := fun i c => X.at_ (M.numUsers + i) c }) := if_pos hX.1.symm
      obtain ⟨U, s2, u1, u2, u3⟩ := hySmooth_tab hs hsc hsn hsw hLu p.1 hp.1
        { rows := M.numUsers, cols := X.cols, at_ := X.at_ } T
        ⟨rfl, hX.2.1, fun i c hi hc => hX.2.2 i c (by omega) hc⟩
      obtain ⟨V, t2, v1, v2, v3⟩ := hySmooth_tab ht htc htn htw hLi p.2 hp.2
        { rows := M.numItems, cols := X.cols, at_ := fun i c => X.at_ (M.numUsers + i) c }
        (fun i c => T (M.numUsers + i) c)
        ⟨rfl, hX.2.1, fun i c hi hc => hX.2.2 _ c (by omega) hc⟩
      obtain ⟨G, hG, hG'⟩ : ∃ G, catRows U V = .ok G ∧ Tab (M.numUsers + M.numItems) d G fun i c =>
          if i < M.numUsers then ∑ j ∈ range M.numUsers, Lu.get i j * T j c
          else ∑ j ∈ range M.numItems, Li.get (i - M.numUsers) j * T (M.numUsers + j) c := by
        refine ⟨_, if_pos (u3.2.1.trans v3.2.1.symm), by simp only [u3.1, v3.1], u3.2.1, fun i c hi hc => ?_⟩
        simp only [u3.1]
        split
        · next h => exact u3.2.2 i c h hc
        · next h => exact v3.2.2 _ c (by omega) hc
      obtain ⟨S, hS, hS'⟩ := lin_tab hf.gc.1 hf.gc.2 hG'
      obtain ⟨S2, hS2, hS2'⟩ := zip_tab (· + ·) hS' hX
      obtain ⟨B, hB, hB'⟩ := zip_tab (· * ·) hX hG'
      obtain ⟨B2, hB2, hB2'⟩ := lin_tab hf.bi.1 hf.bi.2 hB'
      obtain ⟨A, hA, hA'⟩ := zip_tab (· + ·) (map_tab leaky_eq hS2') (map_tab leaky_eq hB2')
      refine ⟨normalizeRows (l.drop A), (s2, t2), ?_, ⟨u2, v2⟩, ?_⟩
      · simp only [dhcfLayer, PyM.bind_apply, PyM.lift_apply, hsplit, onFst, u1, onSnd, v1, hG, hS, hS2, hB, hB2, hA,
          PyM.pure_apply]
      · rw [hf.drop]
        exact norm_tab hA')
    E (Spec.allEmb M) ⟨e1, e2, fun i c _ _ => e3 i c⟩ (s, t)
    ⟨⟨(hs.mono (Q := Hyper.AnyH) fun _ _ _ => trivial).inv.2, rfl⟩, ⟨(ht.mono (Q := Hyper.AnyH) fun _ _ _ => trivial).inv.2, rfl⟩⟩
  rw [List.map_map] at r1 r3
  have hrun : (dhcf M ls (s, t)).1 = meanSplit M.numUsers M.numItems Es := by
    have r1' : layerwise (ls.map (dhcfLayer M)) E (s, t) = (.ok Es, s') := r1
    simp only [dhcf, PyM.bind_apply, PyM.lift_apply, hE, r1']
  rw [hrun]
  exact mean_tables tables_ne r3

theorem sqrtK_spec [IsStrictOrderedRing K] {x : K} (h : 0 ≤ x) : 0 ≤ sqrtK x ∧ sqrtK x * sqrtK x = x := by
  unfold sqrtK
  split
  · next h' =>
    refine ⟨(mul_pos h' (PyReal.rsqrt_pos x h')).le, ?_⟩
    have := PyReal.rsqrt_sq x h'
    calc x * PyReal.rsqrt x * (x * PyReal.rsqrt x) = x * x * (PyReal.rsqrt x * PyReal.rsqrt x) := by ring
      _ = x * x * x⁻¹ := by rw [this]
      _ = x := by rw [mul_assoc, mul_inv_cancel₀ h'.ne', mul_one]
  · next h' => exact ⟨le_rfl, by rw [mul_zero]; exact (le_antisymm (not_lt.1 h') h).symm⟩

/-- C96. The rows leaving a layer of `NGCF` or `DHCF` have norm at most 1, and exactly 1 if the norm before
normalisation was at least `10⁻¹²`. -/
theorem C96_layer_norms [IsStrictOrderedRing K] (d : Nat) (S : Nat → Nat → K) (i : Nat) :
    (∑ c ∈ range d, Spec.unitRow d S i c * Spec.unitRow d S i c ≤ 1) ∧
    (1 / 10 ^ 24 ≤ ∑ c ∈ range d, S i c * S i c →
      ∑ c ∈ range d, Spec.unitRow d S i c * Spec.unitRow d S i c = 1) := by
  have h0 : 0 ≤ ∑ c ∈ range d, S i c * S i c := sum_nonneg fun c _ => mul_self_nonneg _
  obtain ⟨h1, h2⟩ := sqrtK_spec h0
  have hq : (0 : K) < 1 / 10 ^ 12 := by positivity
  have hs : ∑ c ∈ range d, Spec.unitRow d S i c * Spec.unitRow d S i c =
      (∑ c ∈ range d, S i c * S i c) / (max (sqrtK (∑ j ∈ range d, S i j * S i j)) (1 / 10 ^ 12) *
        max (sqrtK (∑ j ∈ range d, S i j * S i j)) (1 / 10 ^ 12)) := by
    rw [sum_div]
    refine sum_congr rfl fun c _ => ?_
    unfold Spec.unitRow
    rw [div_mul_div_comm]
  rw [hs]
  generalize hr : sqrtK (∑ j ∈ range d, S i j * S i j) = r at *
  have hm : 0 < max r (1 / 10 ^ 12) := lt_of_lt_of_le hq (le_max_right _ _)
  refine ⟨?_, fun h => ?_⟩
  · rw [div_le_one (mul_pos hm hm), ← h2]
    exact mul_self_le_mul_self h1 (le_max_left _ _)
  · have : (1 / 10 ^ 12 : K) ≤ r := by
      refine (mul_self_le_mul_self_iff hq.le h1).2 ?_
      rw [h2]
      calc (1 / 10 ^ 12 : K) * (1 / 10 ^ 12) = 1 / 10 ^ 24 := by rw [div_mul_div_comm, one_mul, ← pow_add]
        _ ≤ _ := h
    rw [max_eq_left this, h2, div_self]
    have : (0 : K) < 1 / 10 ^ 24 := by positivity
    exact (lt_of_lt_of_le this h).ne'

/-! ## C97 -/

/-- C97. `LightGCN` and `NGCF`: what they return does not depend on what was read from the bipartite graph
before or on earlier calls of models on it, and no later call can tell that they were called. -/
theorem C97_recommenders {P : EArg K → Prop} {g : BSt K} (hg : BiGraph.Built P g) (M M' : Rec K) (p : K) (tr : Bool)
    (keeps : List (Nat → Bool)) (ls : List (RecLayer K)) :
    (∀ q, (lightGcn M p tr keeps (BiGraph.ask q g).2).1 = (lightGcn M p tr keeps g).1) ∧
    (∀ q, (ngcf M ls (BiGraph.ask q g).2).1 = (ngcf M ls g).1) ∧
    (lightGcn M p tr keeps (ngcf M' ls g).2).1 = (lightGcn M p tr keeps g).1 ∧
    (ngcf M' ls (lightGcn M p tr keeps g).2).1 = (ngcf M' ls g).1 ∧
    Spec.IndistB (lightGcn M p tr keeps g).2 g ∧ Spec.IndistB (ngcf M ls g).2 g := by
  obtain ⟨f, hf⟩ := isRead_lightGcn M p tr keeps
  obtain ⟨f1, hf1⟩ := isRead_ngcf M ls
  obtain ⟨f2, hf2⟩ := isRead_ngcf M' ls
  have hc := hg.coh
  refine ⟨fun q => ?_, fun q => ?_, ?_, ?_, ?_, ?_⟩
  · have h := BiGraph.reads_ask q g hc
    rw [(hf _ h.2.2).1, (hf _ hc).1, h.2.1]
  · have h := BiGraph.reads_ask q g hc
    rw [(hf1 _ h.2.2).1, (hf1 _ hc).1, h.2.1]
  · have h := hf2 g hc
    rw [(hf _ h.2.2).1, (hf _ hc).1, h.2.1]
  · have h := hf g hc
    rw [(hf2 _ h.2.2).1, (hf2 _ hc).1, h.2.1]
  · have h := hf g hc
    exact Bi.indist_of_raw h.2.2 hc h.2.1
  · have h := hf1 g hc
    exact Bi.indist_of_raw h.2.2 hc h.2.1

/-- example: two users, three items, embeddings with two columns -/
noncomputable def exRec : Rec ℝ :=
  { numUsers := 2, numItems := 3, users := ⟨2, 2, fun i c => i + c⟩, items := ⟨3, 2, fun i c => i - c⟩ }

theorem exRec_fits : Spec.RecFits exRec 2 := ⟨⟨rfl, rfl⟩, ⟨rfl, rfl⟩⟩

example : BiGraph.Built Graph.NonNeg exB ∧ (BiGraph.ask .numU exB).1 = .ok (.num exRec.numUsers) ∧
    (BiGraph.ask .numV exB).1 = .ok (.num exRec.numItems) ∧ Spec.NonnegWeights (Spec.listingB exB) ∧
    exB.raw.extra = false ∧ (∃ L, (BiGraph.ask .LGCN exB).1 = .ok (.mat L)) ∧ Spec.RecFits exRec 2 := by
  refine ⟨exB_nonneg, exB_numU, exB_numV, exB_nonnegWeights, rfl, ?_, exRec_fits⟩
  obtain ⟨B, _, hB, _⟩ := C25_bigraph_incidence exB_nonneg exB_numU exB_numV exB_flag
  obtain ⟨A', hA', _⟩ := C25_bigraph_A_blocks exB_nonneg exB_numU exB_numV exB_flag hB
  obtain ⟨L, _, hL, _⟩ := C65_bigraph_LGCN exB_nonneg exB_numU exB_numV exB_nonnegWeights hA'
  exact ⟨L, hL⟩

example : ∃ l : RecLayer ℝ, Spec.LayerFits l 2 :=
  ⟨⟨⟨⟨2, 2, fun i j => i + 2 * j⟩, some fun _ => 1⟩, ⟨⟨2, 2, fun i j => i - j⟩, none⟩, fun X => X⟩,
    ⟨⟨rfl, rfl⟩, ⟨rfl, rfl⟩, fun _ => rfl⟩⟩

end Props
end DHG
