import Verif.Props.GraphMessages
import Verif.Props.NnGraph
import Verif.Props.NnHyper
import Verif.Props.BiGraphMatrices

/-!
# Multiplying all weights by one positive number (C132)
-/

set_option linter.unusedSectionVars false
set_option autoImplicit false

namespace DHG

/-! ## Specification -/

namespace Spec
variable {K : Type} [Field K]

/-- the same edges or hyperedges in the same order, every weight multiplied by `c` -/
def Rescaled {α : Type} (c : K) (l l' : List (α × K)) : Prop := l' = l.map fun e => (e.1, c * e.2)

/-- both tables have the same shape and the same entries -/
def SameTable (n : Nat) (Y Y' : Dense K) : Prop :=
  Y.rows = n ∧ Y'.rows = n ∧ Y'.cols = Y.cols ∧ ∀ i c, i < n → Y'.at_ i c = Y.at_ i c

/-- both matrices are square with `n` rows, and each entry of the second is that of the first times `c` -/
def TimesMat (n : Nat) (c : K) (M M' : Sp K) : Prop :=
  M.rows = n ∧ M.cols = n ∧ M'.rows = n ∧ M'.cols = n ∧ ∀ i j, i < n → j < n → M'.get i j = c * M.get i j

end Spec

namespace Props

open Finset
open Graph (NonNeg)

variable {K : Type} [Field K] [LinearOrder K] [PyReal K]

/-! ## Helper lemmas -/

namespace Scal

variable {c : K}

theorem sum_scaled {α : Type} (P : α → Prop) [DecidablePred P] (l : List (α × K)) :
    ((l.map fun e => (e.1, c * e.2)).map fun e => if P e.1 then e.2 else 0).sum =
      c * (l.map fun e => if P e.1 then e.2 else 0).sum := by
  rw [List.map_map, ← List.sum_map_mul_left]
  congr 1
  refine List.map_congr_left fun e _ => ?_
  simp only [Function.comp_apply, mul_ite, mul_zero]

theorem wt {l l' : List ((Int × Int) × K)} (h : Spec.Rescaled c l l') (i j : Int) :
    Spec.wt l' i j = c * Spec.wt l i j := by
  rw [h]; exact sum_scaled (fun e : Int × Int => e = (i, j) ∨ e = (j, i)) l

theorem deg {l l' : List ((Int × Int) × K)} (h : Spec.Rescaled c l l') (i : Int) :
    Spec.deg l' i = c * Spec.deg l i := by
  rw [h]; exact sum_scaled (fun e : Int × Int => e.1 = i ∨ e.2 = i) l

theorem owt {l l' : List ((Int × Int) × K)} (h : Spec.Rescaled c l l') (i j : Int) :
    Spec.O.wt l' i j = c * Spec.O.wt l i j := by
  rw [h]; exact sum_scaled (fun e : Int × Int => e = (i, j)) l

theorem odegOut {l l' : List ((Int × Int) × K)} (h : Spec.Rescaled c l l') (i : Int) :
    Spec.O.degOut l' i = c * Spec.O.degOut l i := by
  rw [h]; exact sum_scaled (fun e : Int × Int => e.1 = i) l

theorem odegIn {l l' : List ((Int × Int) × K)} (h : Spec.Rescaled c l l') (i : Int) :
    Spec.O.degIn l' i = c * Spec.O.degIn l i := by
  rw [h]; exact sum_scaled (fun e : Int × Int => e.2 = i) l

theorem proper {l l' : List ((Int × Int) × K)} (h : Spec.Rescaled c l l') :
    Spec.Rescaled c (Spec.proper l) (Spec.proper l') := by
  subst h
  unfold Spec.Rescaled Spec.proper
  rw [List.filter_map]
  rfl

theorem nonneg [IsStrictOrderedRing K] (hc : 0 < c) {l l' : List ((Int × Int) × K)} (h : Spec.Rescaled c l l')
    (hw : Spec.NonnegWeights l) : Spec.NonnegWeights l' := by
  subst h
  intro e he
  obtain ⟨e0, he0, rfl⟩ := List.mem_map.1 he
  exact mul_nonneg hc.le (hw e0 he0)

/-- the factors of the symmetric normalisation absorb the scale -/
theorem invSqrt [IsStrictOrderedRing K] (hc : 0 < c) {d d' e e' s s' t t' : K} (hd : d' = c * d) (he : e' = c * e)
    (hs : Spec.InvSqrt d s) (hs' : Spec.InvSqrt d' s') (ht : Spec.InvSqrt e t) (ht' : Spec.InvSqrt e' t') :
    s' * t' * c = s * t := by
  by_cases hd0 : d = 0
  · rw [hs.1 hd0, hs'.1 (by rw [hd, hd0, mul_zero])]; ring
  by_cases he0 : e = 0
  · rw [ht.1 he0, ht'.1 (by rw [he, he0, mul_zero])]; ring
  obtain ⟨s1, s2⟩ := hs.2 hd0
  obtain ⟨t1, t2⟩ := ht.2 he0
  obtain ⟨s1', s2'⟩ := hs'.2 (by rw [hd]; exact mul_ne_zero hc.ne' hd0)
  obtain ⟨t1', t2'⟩ := ht'.2 (by rw [he]; exact mul_ne_zero hc.ne' he0)
  have h1 : s' * s' * c = s * s := by
    have : (s' * s' * c) * d = (s * s) * d := by rw [s2, ← s2', hd]; ring
    exact mul_right_cancel₀ hd0 this
  have h2 : t' * t' * c = t * t := by
    have : (t' * t' * c) * e = (t * t) * e := by rw [t2, ← t2', he]; ring
    exact mul_right_cancel₀ he0 this
  have h3 : (s' * t' * c) * (s' * t' * c) = (s * t) * (s * t) := by
    calc _ = (s' * s' * c) * (t' * t' * c) := by ring
      _ = _ := by rw [h1, h2]; ring
  exact (mul_self_inj (by positivity) (by positivity)).1 h3

/-- an average does not see the scale -/
theorem avg (hc : c ≠ 0) {d d' S S' y y' : K} (hd : d' = c * d) (hS : S' = c * S)
    (h : (d = 0 → y = 0) ∧ (d ≠ 0 → y = S / d)) (h' : (d' = 0 → y' = 0) ∧ (d' ≠ 0 → y' = S' / d')) : y' = y := by
  by_cases hd0 : d = 0
  · rw [h.1 hd0, h'.1 (by rw [hd, hd0, mul_zero])]
  · rw [h.2 hd0, h'.2 (by rw [hd]; exact mul_ne_zero hc hd0), hd, hS, mul_div_mul_left _ _ hc]

theorem mul_sum' {n : Nat} {f f' x : Nat → K} (h : ∀ j, f' j = c * f j) :
    ∑ j ∈ range n, f' j * x j = c * ∑ j ∈ range n, f j * x j := by
  rw [mul_sum]
  exact sum_congr rfl fun j _ => by rw [h]; ring

end Scal

open Scal

/-! ## Graphs -/

namespace Scal
open Graph
variable {c : K}

/-- multiply the values of a dictionary -/
def scaleD {α : Type} (c : K) (d : Dict α K) : Dict α K := d.map fun p => (p.1, c * p.2)

theorem get_scaleD {α : Type} [DecidableEq α] (d : Dict α K) (k : α) :
    (scaleD c d).get? k = (d.get? k).map (c * ·) := by
  induction d with
  | nil => rfl
  | cons p d ih =>
    show (if p.1 = k then some (c * p.2) else Dict.get? (scaleD c d) k) = Option.map _ (if p.1 = k then some p.2 else Dict.get? d k)
    split
    · rfl
    · exact ih

theorem set_scaleD {α : Type} [DecidableEq α] (d : Dict α K) (k : α) (w : K) :
    (scaleD c d).set k (c * w) = scaleD c (d.set k w) := by
  induction d with
  | nil => rfl
  | cons p d ih =>
    show (if p.1 = k then (p.1, c * w) :: scaleD c d else (p.1, c * p.2) :: Dict.set (scaleD c d) k (c * w)) =
      scaleD c (if p.1 = k then (p.1, w) :: d else (p.1, p.2) :: Dict.set d k w)
    split
    · rfl
    · rw [ih]; rfl

theorem upsert_scaleD {α : Type} [DecidableEq α] {f : K → K → K} (hf : ∀ x y, f (c * x) (c * y) = c * f x y)
    (d : Dict α K) (k : α) (w : K) : upsert (scaleD c d) k f (c * w) = scaleD c (upsert d k f w) := by
  unfold upsert
  rw [get_scaleD]
  cases d.get? k with
  | none => exact set_scaleD d k w
  | some o =>
    show (scaleD c d).set k (f (c * o) (c * w)) = scaleD c (d.set k (f o w))
    rw [hf, set_scaleD]

/-- multiply the weights of the edges -/
def scaleR (c : K) (r : GRaw K) : GRaw K := { r with eDict := scaleD c r.eDict, loops := scaleD c r.loops }

theorem addEdge_scale {f : K → K → K} (hf : ∀ x y, f (c * x) (c * y) = c * f x y) (r : GRaw K) (a b : Int) (w : K) :
    (scaleR c r).addEdge f a b (c * w) = scaleR c (r.addEdge f a b w) := by
  unfold GRaw.addEdge
  split
  · simp only [scaleR, upsert_scaleD hf]
  · simp only [scaleR, upsert_scaleD hf]

theorem merge_scale [IsStrictOrderedRing K] (hc : 0 < c) {op : MergeOp} {f : K → K → K} (h : mergeFn op = .ok f) (x y : K) :
    f (c * x) (c * y) = c * f x y := by
  cases op <;> cases h
  · show (c * x + c * y) / 2 = c * ((x + y) / 2); ring
  · exact (mul_max_of_nonneg x y hc.le).symm
  · show c * x + c * y = c * (x + y); ring

theorem addPairs_scale {f : K → K → K} (hf : ∀ x y, f (c * x) (c * y) = c * f x y) (l : List ((Int × Int) × K)) (r : GRaw K) :
    addPairs (scaleR c r) f (l.map fun e => (e.1, c * e.2)) = scaleR c (addPairs r f l) := by
  induction l generalizing r with
  | nil => rfl
  | cons e l ih =>
    show addPairs ((scaleR c r).addEdge f _ _ (c * e.2)) f _ = scaleR c (addPairs (r.addEdge f _ _ e.2) f l)
    rw [addEdge_scale hf, ih]

theorem addPairs_extra {f : K → K → K} (l : List ((Int × Int) × K)) (r : GRaw K) :
    (addPairs r f l).extra = r.extra := by
  induction l generalizing r with
  | nil => rfl
  | cons e l ih =>
    show (addPairs (r.addEdge f _ _ e.2) f l).extra = _
    rw [ih]
    unfold GRaw.addEdge
    split <;> rfl

theorem lst_scale {r : GRaw K} (h : r.extra = false) : Spec.Rescaled c (lst r) (lst (scaleR c r)) := by
  unfold Spec.Rescaled lst
  rw [zip_listing, zip_listing]
  have h' : (scaleR c r).extra = false := h
  rw [h, h']
  simp only [Bool.false_eq_true, if_false, List.append_nil, List.map_append, List.map_map]
  congr 1
  show List.map _ (List.map _ r.loops) = _
  rw [List.map_map]
  rfl

theorem zip_scale (es : List (Int × Int)) (ws : List K) :
    es.zip (ws.map (c * ·)) = (es.zip ws).map fun e => (e.1, c * e.2) := by
  rw [List.zip_map_right]; rfl

end Scal

section G
open Graph
variable {g g' : GSt K} {n : Nat} {c : K}

/-- C132. Graph: listing the same edges with every weight multiplied by the number makes a graph that
lists them so, whichever merge operation combines the weights of repeated edges. -/
theorem C132_graph_new [IsStrictOrderedRing K] {N : Int} {es : List (Int × Int)} {ws : List K} {op : MergeOp} (hc : 0 < c)
    (hg : Graph.new N (some (.many es (.list ws))) false op = .ok g) :
    ∃ g', Graph.new N (some (.many es (.list (ws.map (c * ·))))) false op = .ok g' ∧
      Spec.Rescaled c (Spec.listing g) (Spec.listing g') ∧ (ask .numV g').1 = (ask .numV g).1 := by
  have hg0 : Built AnyArg g := .new hg fun _ _ => trivial
  suffices H : ∃ g' : GSt K, Graph.new N (some (.many es (.list (ws.map (c * ·))))) false op = .ok g' ∧
      g.raw.extra = false ∧ g'.raw = scaleR c g.raw by
    obtain ⟨g', h1, h2, h3⟩ := H
    have hg' : Built AnyArg g' := .new h1 fun _ _ => trivial
    refine ⟨g', h1, ?_, ?_⟩
    · rw [listing_lst hg0, listing_lst hg', h3]; exact lst_scale h2
    · rw [ask_eq hg0, ask_eq hg', h3]; rfl
  unfold Graph.new GRaw.init at hg ⊢
  by_cases hN : 0 < N
  · rw [if_pos hN] at hg ⊢
    simp only [bind, Except.bind] at hg ⊢
    cases es with
    | nil => cases hg; exact ⟨_, rfl, rfl, rfl⟩
    | cons e es =>
      simp only [addEdges, EArg.isEmpty, List.isEmpty_cons, Bool.false_eq_true, ↓reduceIte, PyM.bind_apply, readRaw,
        PyM.lift_apply, formatEdges] at hg ⊢
      by_cases hr : ∀ q ∈ e :: es, q.1 < ((N.toNat : Nat) : Int) ∧ q.2 < ((N.toNat : Nat) : Int)
      · simp only [if_pos hr] at hg ⊢
        rw [zip_scale]
        cases hop : mergeFn (K := K) op with
        | ok f =>
          rw [forM_addEdge_ok hop] at hg ⊢
          cases hg
          refine ⟨_, rfl, addPairs_extra _ _, ?_⟩
          exact addPairs_scale (merge_scale hc hop) ((e :: es).zip ws)
            { numV := N.toNat, eDict := [], loops := [], extra := false }
        | error x =>
          rw [forM_addEdge_err hop] at hg ⊢
          by_cases hz : (e :: es).zip ws = []
          · rw [if_pos hz] at hg
            rw [if_pos (by rw [hz]; rfl)]
            cases hg
            exact ⟨_, rfl, rfl, rfl⟩
          · rw [if_neg hz] at hg; cases hg
      · simp only [if_neg hr] at hg
        cases hg
  · rw [if_neg hN] at hg; cases hg

/-- C132. Graph: adjacency, degrees, the combinatorial Laplacian and summed messages are multiplied by
the number. -/
theorem C132_graph_proportional (hg : Built NonNeg g) (hg' : Built NonNeg g')
    (hn : (ask .numV g).1 = .ok (.num n)) (hn' : (ask .numV g').1 = .ok (.num n))
    (h : Spec.Rescaled c (Spec.listing g) (Spec.listing g')) (X : Dense K) (hX : X.rows = n) (keep keep' : Nat → Bool) :
    ∃ (A A' L L' : Sp K) (d d' : List K) (Y Y' : Dense K),
      (ask .A g).1 = .ok (.mat A) ∧ (ask .A g').1 = .ok (.mat A') ∧ Spec.TimesMat n c A A' ∧
      (ask .degV g).1 = .ok (.vec d) ∧ (ask .degV g').1 = .ok (.vec d') ∧ d' = d.map (c * ·) ∧
      (ask .L g).1 = .ok (.mat L) ∧ (ask .L g').1 = .ok (.mat L') ∧ Spec.TimesMat n c L L' ∧
      (ask (.v2v X .sum none 0 keep) g).1 = .ok (.feat Y) ∧ (ask (.v2v X .sum none 0 keep') g').1 = .ok (.feat Y') ∧
      Y'.rows = Y.rows ∧ Y'.cols = Y.cols ∧ ∀ i k, Y'.at_ i k = c * Y.at_ i k := by
  obtain ⟨A, a1, a2, a3, _, _, _, _, _, a4⟩ := C05_graph_adjacency hg hn
  obtain ⟨A', a1', a2', a3', _, _, _, _, _, a4'⟩ := C05_graph_adjacency hg' hn'
  obtain ⟨L, l1, l2, _⟩ := C08_graph_laplacian hg hn
  obtain ⟨L', l1', l2', _⟩ := C08_graph_laplacian hg' hn'
  obtain ⟨Y, y1, y2, y3, y4⟩ := C12_graph_v2v_sum hg hn X hX keep
  obtain ⟨Y', y1', y2', y3', y4'⟩ := C12_graph_v2v_sum hg' hn' X hX keep'
  refine ⟨A, A', L, L', _, _, Y, Y', a1, a1', ⟨a2, a3, a2', a3', fun i j _ _ => by rw [a4', a4, wt h]⟩,
    (C06_graph_degrees hg hn).1, (C06_graph_degrees hg' hn').1, ?_, l1, l1',
    ⟨l2.rows, l2.cols, l2'.rows, l2'.cols, fun i j hi hj => ?_⟩, y1, y1', by rw [y2, y2'], by rw [y3, y3'],
    fun i k => ?_⟩
  · rw [List.map_map]
    exact List.map_congr_left fun i _ => deg h _
  · rw [l2.get i j hi hj, l2'.get i j hi hj]
    by_cases hij : i = j
    · rw [if_pos hij, if_pos hij, deg (proper h)]
    · rw [if_neg hij, if_neg hij, wt h]; ring
  · rw [y4, y4', mul_sum' fun j => wt h _ _]

/-- C132. Graph: averaged messages, the normalised Laplacians and the layer of GraphSAGE stay as they are. -/
theorem C132_graph_invariant [IsStrictOrderedRing K] (hg : Built NonNeg g) (hg' : Built NonNeg g')
    (hn : (ask .numV g).1 = .ok (.num n)) (hn' : (ask .numV g').1 = .ok (.num n)) (hc : 0 < c)
    (h : Spec.Rescaled c (Spec.listing g) (Spec.listing g')) (hw : Spec.NonnegWeights (Spec.listing g))
    (X : Dense K) (hX : X.rows = n) (keep keep' : Nat → Bool) :
    ∃ (S S' R R' : Sp K) (Y Y' : Dense K),
      (ask .Lsym g).1 = .ok (.mat S) ∧ (ask .Lsym g').1 = .ok (.mat S') ∧ Spec.TimesMat n 1 S S' ∧
      (ask .Lrw g).1 = .ok (.mat R) ∧ (ask .Lrw g').1 = .ok (.mat R') ∧ Spec.TimesMat n 1 R R' ∧
      (ask (.v2v X .mean none 0 keep) g).1 = .ok (.feat Y) ∧ (ask (.v2v X .mean none 0 keep') g').1 = .ok (.feat Y') ∧
      Spec.SameTable n Y Y' := by
  obtain ⟨S, s, s1, s2, s3, _⟩ := C09_graph_Lsym hg hn hw
  obtain ⟨S', s', s1', s2', s3', _⟩ := C09_graph_Lsym hg' hn' (nonneg hc h hw)
  obtain ⟨R, r1, r2, _⟩ := C10_graph_Lrw hg hn
  obtain ⟨R', r1', r2', _⟩ := C10_graph_Lrw hg' hn'
  obtain ⟨Y, y1, y2, y3, y4⟩ := C12_graph_v2v_mean hg hn X hX keep
  obtain ⟨Y', y1', y2', y3', y4'⟩ := C12_graph_v2v_mean hg' hn' X hX keep'
  refine ⟨S, S', R, R', Y, Y', s1, s1', ⟨s3.rows, s3.cols, s3'.rows, s3'.cols, fun i j hi hj => ?_⟩, r1, r1',
    ⟨r2.rows, r2.cols, r2'.rows, r2'.cols, fun i j hi hj => ?_⟩, y1, y1', y2, y2', by rw [y3, y3'], fun i k hi => ?_⟩
  · rw [s3.get i j hi hj, s3'.get i j hi hj, one_mul, wt (proper h)]
    have := invSqrt hc (deg (proper h) _) (deg (proper h) _) (s2 i hi) (s2' i hi) (s2 j hj) (s2' j hj)
    congr 1
    calc _ = (s' i * s' j * c) * Spec.wt (Spec.proper (Spec.listing g)) i j := by ring
      _ = _ := by rw [this]; ring
  · rw [r2.get i j hi hj, r2'.get i j hi hj, one_mul, wt (proper h), deg (proper h), mul_div_mul_left _ _ hc.ne']
  · exact avg hc.ne' (deg h _) (mul_sum' fun j => wt h _ _) (y4 i k hi) (y4' i k hi)

/-- C132. Graph: the layer of GraphSAGE finishes the same table. -/
theorem C132_graph_sage (hg : Built NonNeg g) (hg' : Built NonNeg g')
    (hn : (ask .numV g).1 = .ok (.num n)) (hn' : (ask .numV g').1 = .ok (.num n)) (hc : c ≠ 0)
    (h : Spec.Rescaled c (Spec.listing g) (Spec.listing g'))
    (l : Nn.Conv K) (X : Dense K) (hX : X.rows = n) (hl : l.theta.weight.cols = X.cols + X.cols) :
    ∃ Z Z' : Dense K, Spec.SameTable n Z Z' ∧
      Spec.Finished l.toTail Z (Nn.sageConv l X g).1 ∧ Spec.Finished l.toTail Z' (Nn.sageConv l X g').1 := by
  obtain ⟨M, Z, z1, z2, m, z3, z4, _⟩ := C90_sage_conv hg hn l X hX hl
  obtain ⟨M', Z', z1', z2', m', z3', z4', _⟩ := C90_sage_conv hg' hn' l X hX hl
  refine ⟨Z, Z', ⟨z1, z1', by rw [z2, z2'], fun i o hi => ?_⟩, z4, z4'⟩
  have : ∀ k, M'.at_ i k = M.at_ i k := fun k =>
    avg hc (deg h _) (mul_sum' fun j => wt h _ _) (m i k hi) (m' i k hi)
  rw [z3, z3']
  simp only [this]

/-- two vertices joined by an edge of weight `w` -/
noncomputable def pair (w : ℝ) : GSt ℝ := { raw := { numV := 2, eDict := [((0, 1), w)], loops := [], extra := false }, cache := [] }

theorem pair_new (w : ℝ) : Graph.new (K := ℝ) 2 (some (.single 0 1 (some w))) false .mean = .ok (pair w) := rfl

/-- C132. The exception, `L_GCN`: the self loops it adds have weight 1 whatever the weights of the edges are.
Two vertices joined by an edge of weight 1, then by one of weight 3. -/
theorem C132_graph_LGCN_differs :
    ∃ (g g' : GSt ℝ) (L L' : Sp ℝ), Graph.new (K := ℝ) 2 (some (.single 0 1 (some 1))) false .mean = .ok g ∧
      Graph.new (K := ℝ) 2 (some (.single 0 1 (some 3))) false .mean = .ok g' ∧
      Spec.Rescaled 3 (Spec.listing g) (Spec.listing g') ∧
      (ask .LGCN g).1 = .ok (.mat L) ∧ (ask .LGCN g').1 = .ok (.mat L') ∧ L'.get 0 1 ≠ L.get 0 1 := by
  have key : ∀ w : ℝ, 0 ≤ w → ∃ L : Sp ℝ, (ask .LGCN (pair w)).1 = .ok (.mat L) ∧ L.get 0 1 * (w + 1) = w := by
    intro w hw
    have hg : Built NonNeg (pair w) := .new (pair_new w) (by intro a ha; cases ha; simp [NonNeg])
    have hl : Spec.listing (pair w) = [((0, 1), w)] := rfl
    have hl' : Spec.listing (apply .removeExtraSelfloop (pair w)).2 = [((0, 1), w)] := rfl
    have hnw : Spec.NonnegWeights (Spec.listing (pair w)) := by
      rw [hl]; intro e he; simp at he; subst he; exact hw
    obtain ⟨L, s, h1, h2, h3, _⟩ := C11_graph_LGCN hg (n := 2) rfl hnw
    rw [hl'] at h2 h3
    have e0 : Spec.deg (Spec.withUnitLoops 2 [(((0 : Int), (1 : Int)), w)]) ((0 : Nat) : Int) = w + 1 := by
      simp [Spec.deg, Spec.withUnitLoops, List.range_succ]
    have e1 : Spec.deg (Spec.withUnitLoops 2 [(((0 : Int), (1 : Int)), w)]) ((1 : Nat) : Int) = w + 1 := by
      simp [Spec.deg, Spec.withUnitLoops, List.range_succ]
    have e2 : Spec.wt (Spec.withUnitLoops 2 [(((0 : Int), (1 : Int)), w)]) ((0 : Nat) : Int) ((1 : Nat) : Int) = w := by
      simp [Spec.wt, Spec.withUnitLoops, List.range_succ]
    have hp : w + 1 ≠ 0 := by positivity
    have a := h2 0 (by decide)
    have b := h2 1 (by decide)
    rw [e0] at a; rw [e1] at b
    obtain ⟨a1, a2⟩ := a.2 hp
    obtain ⟨b1, b2⟩ := b.2 hp
    have hs : s 0 = s 1 := by
      have : s 0 * s 0 = s 1 * s 1 := mul_right_cancel₀ hp (a2.trans b2.symm)
      exact (mul_self_inj (by positivity) (by positivity)).1 this
    refine ⟨L, h1, ?_⟩
    rw [h3.get 0 1 (by decide) (by decide), e2, ← hs]
    linear_combination w * a2
  obtain ⟨L, l1, l2⟩ := key 1 (by norm_num)
  obtain ⟨L', l1', l2'⟩ := key 3 (by norm_num)
  refine ⟨_, _, L, L', pair_new 1, pair_new 3, ?_, l1, l1', fun h => ?_⟩
  · show Spec.Rescaled 3 [(((0 : Int), (1 : Int)), (1 : ℝ))] [((0, 1), 3)]
    simp [Spec.Rescaled]
  · rw [h] at l2'
    linarith

noncomputable def exG2 : GSt ℝ :=
  { raw := { numV := 3, eDict := [((0, 1), 4), ((1, 2), 6)], loops := [(2, 14)], extra := false }, cache := [] }

theorem exG2_nonneg : Built NonNeg exG2 :=
  .new (show Graph.new (K := ℝ) 3 (some (.many [(1, 0), (1, 2), (2, 2)] (.list [4, 6, 14]))) false .sum = .ok exG2 from rfl)
    (by intro a ha; cases ha; simp [NonNeg])

theorem exG2_scaled : Spec.Rescaled 2 (Spec.listing exG) (Spec.listing exG2) := by
  rw [exG_listing]
  show [(((0 : Int), (1 : Int)), (4 : ℝ)), ((1, 2), 6), ((2, 2), 14)] = _
  norm_num

example : ∃ g : GSt ℝ, (0 : ℝ) < 2 ∧
    Graph.new 3 (some (.many [(1, 0), (1, 2), (2, 2)] (.list [2, 3, 7]))) false .sum = .ok g := ⟨_, by norm_num, exG_new⟩

example : Built NonNeg exG ∧ Built NonNeg exG2 ∧ (ask .numV exG).1 = .ok (.num 3) ∧ (ask .numV exG2).1 = .ok (.num 3) ∧
    Spec.Rescaled 2 (Spec.listing exG) (Spec.listing exG2) ∧ Spec.NonnegWeights (Spec.listing exG) :=
  ⟨exG_nonneg, exG2_nonneg, rfl, rfl, exG2_scaled, exG_nonnegWeights⟩

end G

/-! ## Directed graphs -/

section D
open DiGraph
variable {w w' : Bool} {g g' : DSt K} {n : Nat} {c : K}

/-- C132. DiGraph: summed messages are multiplied by the number, averaged messages stay, in both
directions. -/
theorem C132_digraph (hg : Built NonNeg w g) (hg' : Built NonNeg w' g')
    (hn : (ask .numV g).1 = .ok (.num n)) (hn' : (ask .numV g').1 = .ok (.num n)) (hc : c ≠ 0)
    (h : Spec.Rescaled c (Spec.listingD g) (Spec.listingD g')) (X : Dense K) (hX : X.rows = n)
    {dir : Dir} (hd : dir ≠ .other) (keep keep' : Nat → Bool) :
    ∃ Y Y' Z Z' : Dense K,
      (ask (.v2v X .sum none dir 0 keep) g).1 = .ok (.feat Y) ∧
      (ask (.v2v X .sum none dir 0 keep') g').1 = .ok (.feat Y') ∧
      Y'.rows = Y.rows ∧ Y'.cols = Y.cols ∧ (∀ i k, Y'.at_ i k = c * Y.at_ i k) ∧
      (ask (.v2v X .mean none dir 0 keep) g).1 = .ok (.feat Z) ∧
      (ask (.v2v X .mean none dir 0 keep') g').1 = .ok (.feat Z') ∧ Spec.SameTable n Z Z' := by
  obtain ⟨⟨Y, y1, y2, y3, y4⟩, ⟨P, p1, p2, p3, p4⟩⟩ := C24_digraph_v2v_sum hg hn X hX keep
  obtain ⟨⟨Y', y1', y2', y3', y4'⟩, ⟨P', p1', p2', p3', p4'⟩⟩ := C24_digraph_v2v_sum hg' hn' X hX keep'
  obtain ⟨⟨Z, z1, z2, z3, z4⟩, ⟨Q, q1, q2, q3, q4⟩⟩ := C24_digraph_v2v_mean hg hn X hX keep
  obtain ⟨⟨Z', z1', z2', z3', z4'⟩, ⟨Q', q1', q2', q3', q4'⟩⟩ := C24_digraph_v2v_mean hg' hn' X hX keep'
  cases dir with
  | dst2src =>
    refine ⟨Y, Y', Z, Z', y1, y1', by rw [y2, y2'], by rw [y3, y3'], fun i k => ?_, z1, z1', z2, z2',
      by rw [z3, z3'], fun i k hi => ?_⟩
    · rw [y4, y4', mul_sum' fun j => owt h _ _]
    · exact avg hc (odegOut h _) (mul_sum' fun j => owt h _ _) (z4 i k hi) (z4' i k hi)
  | src2dst =>
    refine ⟨P, P', Q, Q', p1, p1', by rw [p2, p2'], by rw [p3, p3'], fun i k => ?_, q1, q1', q2, q2',
      by rw [q3, q3'], fun i k hi => ?_⟩
    · rw [p4, p4', mul_sum' (f := fun j => Spec.O.wt (Spec.listingD g) j i) fun j => owt h _ _]
    · exact avg hc (odegIn h _) (mul_sum' (f := fun j => Spec.O.wt (Spec.listingD g) j i) fun j => owt h _ _)
        (q4 i k hi) (q4' i k hi)
  | other => exact absurd rfl hd

noncomputable def exD2 : DSt ℝ :=
  { raw := { numV := 3, eDict := [((1, 0), 4), ((1, 2), 6)], loops := [(2, 14)], extra := false }, cache := [] }

example : Built NonNeg false exD ∧ Built NonNeg false exD2 ∧ (ask .numV exD).1 = .ok (.num 3) ∧
    (ask .numV exD2).1 = .ok (.num 3) ∧ Spec.Rescaled 2 (Spec.listingD exD) (Spec.listingD exD2) := by
  refine ⟨exD_nonneg, .new (show DiGraph.new (K := ℝ) 3
    (some (.many [(1, 0), (1, 2), (2, 2)] (.list [4, 6, 14]))) false .sum = .ok exD2 from rfl)
    (by intro a ha; cases ha; simp [NonNeg]), rfl, rfl, ?_⟩
  rw [exD_listing]
  show [(((1 : Int), (0 : Int)), (4 : ℝ)), ((1, 2), 6), ((2, 2), 14)] = _
  norm_num

end D

/-! ## Bipartite graphs -/

section B
open BiGraph
variable {g g' : BSt K} {m n : Nat} {c : K}

/-- C132. BiGraph: the same between users and items. -/
theorem C132_bigraph [IsStrictOrderedRing K] (hg : Built NonNeg g) (hg' : Built NonNeg g')
    (hm : (ask .numU g).1 = .ok (.num m)) (hn : (ask .numV g).1 = .ok (.num n))
    (hm' : (ask .numU g').1 = .ok (.num m)) (hn' : (ask .numV g').1 = .ok (.num n))
    (hx : Spec.Bipartite m n g) (hx' : Spec.Bipartite m n g') (hc : 0 < c)
    (hw : Spec.NonnegWeights (Spec.listingB g)) (h : Spec.Rescaled c (Spec.listingB g) (Spec.listingB g'))
    (X Y : Dense K) (hX : X.rows = m) (hY : Y.rows = n) (keep keep' : Nat → Bool) :
    ∃ P P' Q Q' R R' S S' : Dense K,
      (ask (.u2v X .sum none 0 keep) g).1 = .ok (.feat P) ∧ (ask (.u2v X .sum none 0 keep') g').1 = .ok (.feat P') ∧
      (∀ i k, i < n → P'.at_ i k = c * P.at_ i k) ∧
      (ask (.v2u Y .sum none 0 keep) g).1 = .ok (.feat Q) ∧ (ask (.v2u Y .sum none 0 keep') g').1 = .ok (.feat Q') ∧
      (∀ i k, i < m → Q'.at_ i k = c * Q.at_ i k) ∧
      (ask (.u2v X .mean none 0 keep) g).1 = .ok (.feat R) ∧ (ask (.u2v X .mean none 0 keep') g').1 = .ok (.feat R') ∧
      Spec.SameTable n R R' ∧
      (ask (.v2u Y .mean none 0 keep) g).1 = .ok (.feat S) ∧ (ask (.v2u Y .mean none 0 keep') g').1 = .ok (.feat S') ∧
      Spec.SameTable m S S' := by
  obtain ⟨B, _, b1, _, b2, _⟩ := C25_bigraph_incidence hg hm hn hx
  obtain ⟨B', _, b1', _, b2', _⟩ := C25_bigraph_incidence hg' hm' hn' hx'
  have hB : ∀ i j, i < m → j < n → B'.get i j = c * B.get i j := fun i j hi hj => by
    rw [b2.get i j hi hj, b2'.get i j hi hj, owt h]
  obtain ⟨B1, P, Q, e1, p1, _, _, p2, q1, _, _, q2⟩ := C27_bigraph_sum hg hm hn hx X Y hX hY keep
  obtain ⟨B1', P', Q', e1', p1', _, _, p2', q1', _, _, q2'⟩ := C27_bigraph_sum hg' hm' hn' hx' X Y hX hY keep'
  obtain ⟨B2, R, S, e2, r1, s1, r2, r3, s2, s3, r4, s4⟩ := C27_bigraph_mean hg hm hn hx hw X Y hX hY keep
  obtain ⟨B2', R', S', e2', r1', s1', r2', r3', s2', s3', r4', s4'⟩ :=
    C27_bigraph_mean hg' hm' hn' hx' (nonneg hc h hw) X Y hX hY keep'
  rw [b1] at e1 e2; cases e1; cases e2
  rw [b1'] at e1' e2'; cases e1'; cases e2'
  have hu : ∀ i, i < n → ∀ x : Nat → K, ∑ u ∈ range m, B'.get u i * x u = c * ∑ u ∈ range m, B.get u i * x u := by
    intro i hi x
    rw [mul_sum]
    exact sum_congr rfl fun u hu => by rw [hB u i (mem_range.1 hu) hi]; ring
  have hv : ∀ i, i < m → ∀ x : Nat → K, ∑ v ∈ range n, B'.get i v * x v = c * ∑ v ∈ range n, B.get i v * x v := by
    intro i hi x
    rw [mul_sum]
    exact sum_congr rfl fun v hv => by rw [hB i v hi (mem_range.1 hv)]; ring
  have hu1 : ∀ i, i < n → ∑ u ∈ range m, B'.get u i = c * ∑ u ∈ range m, B.get u i := by
    intro i hi
    simpa using hu i hi fun _ => 1
  have hv1 : ∀ i, i < m → ∑ v ∈ range n, B'.get i v = c * ∑ v ∈ range n, B.get i v := by
    intro i hi
    simpa using hv i hi fun _ => 1
  refine ⟨P, P', Q, Q', R, R', S, S', p1, p1', fun i k hi => ?_, q1, q1', fun i k hi => ?_, r1, r1',
    ⟨r2, r2', by rw [r3, r3'], fun i k hi => ?_⟩, s1, s1', s2, s2', by rw [s3, s3'], fun i k hi => ?_⟩
  · rw [p2, p2', hu i hi]
  · rw [q2, q2', hv i hi]
  · exact avg hc.ne' (hu1 i hi) (hu i hi _) ⟨(r4 i k hi).1, fun h => ((r4 i k hi).2 h).1⟩
      ⟨(r4' i k hi).1, fun h => ((r4' i k hi).2 h).1⟩
  · exact avg hc.ne' (hv1 i hi) (hv i hi _) ⟨(s4 i k hi).1, fun h => ((s4 i k hi).2 h).1⟩
      ⟨(s4' i k hi).1, fun h => ((s4' i k hi).2 h).1⟩

noncomputable def exB2 : BSt ℝ :=
  { raw := { numU := 2, numV := 3, eDict := [((1, 0), 4), ((0, 2), 6), ((1, 1), 10)], loops := [], extra := false }, cache := [] }

example : Built NonNeg exB ∧ Built NonNeg exB2 ∧ (ask .numU exB2).1 = .ok (.num 2) ∧ (ask .numV exB2).1 = .ok (.num 3) ∧
    Spec.Bipartite 2 3 exB ∧ Spec.Bipartite 2 3 exB2 ∧ Spec.NonnegWeights (Spec.listingB exB) ∧
    Spec.Rescaled 2 (Spec.listingB exB) (Spec.listingB exB2) := by
  have hl : Spec.listingB exB2 = [((1, 0), 4), ((0, 2), 6), ((1, 1), 10)] := rfl
  refine ⟨exB_nonneg, .new (show BiGraph.new (K := ℝ) 2 3
    (some (.many [(1, 0), (0, 2), (1, 1)] (.list [4, 6, 10]))) .sum = .ok exB2 from rfl)
    (by intro a ha; cases ha; simp [NonNeg]), rfl, rfl, exB_flag, ?_, exB_nonnegWeights, ?_⟩
  · intro e he
    rw [hl] at he
    simp only [List.mem_cons, List.not_mem_nil, or_false] at he
    rcases he with rfl | rfl | rfl <;> decide
  · rw [exB_listing, hl]
    norm_num [Spec.Rescaled]

end B

/-! ## Hypergraphs -/

namespace Scal
variable {c : K} {l l' : List (List Int × K)}

theorem hdeg (h : Spec.Rescaled c l l') (v : Nat) : Spec.hDeg l' v = c * Spec.hDeg l v := by
  rw [h]; exact sum_scaled (fun e : List Int => (v : Int) ∈ e) l

theorem hlen (h : Spec.Rescaled c l l') : l'.length = l.length := by rw [h, List.length_map]

theorem hget (h : Spec.Rescaled c l l') (j : Nat) : l'.getD j ([], 0) = ((l.getD j ([], 0)).1, c * (l.getD j ([], 0)).2) := by
  subst h
  simp only [List.getD_eq_getElem?_getD, List.getElem?_map]
  cases l[j]? <;> simp

theorem hat (h : Spec.Rescaled c l l') (j : Nat) : Spec.hAt l' j = Spec.hAt l j := by
  unfold Spec.hAt; rw [hget h]

theorem hwt (h : Spec.Rescaled c l l') (j : Nat) : Spec.hWt l' j = c * Spec.hWt l j := by
  unfold Spec.hWt; rw [hget h]

theorem share (h : Spec.Rescaled c l l') (i j : Nat) : Spec.share l' i j = c * Spec.share l i j := by
  unfold Spec.share Spec.inc Spec.hSize
  rw [hlen h, mul_sum]
  refine sum_congr rfl fun k _ => ?_
  rw [hat h, hwt h]; ring

theorem hnonneg [IsStrictOrderedRing K] (hc : 0 < c) (h : Spec.Rescaled c l l') (hw : Spec.HNonneg l) :
    Spec.HNonneg l' := by
  subst h
  intro e he
  obtain ⟨e0, he0, rfl⟩ := List.mem_map.1 he
  exact mul_nonneg hc.le (hw e0 he0)

end Scal

section H
open Hyper Nn
variable {b b' : Bool} {s s' : HSt K} {n : Nat} {c : K} {sc : Option String}

/-- C132. Hypergraph: the incidence matrix and the sizes stay, degrees and weights are multiplied by the
number, `L_HGNN`, `L_sym` and `L_rw` stay. -/
theorem C132_hypergraph_matrices [IsStrictOrderedRing K] (hs : Built Proper b s) (hs' : Built Proper b' s')
    (hsc : Spec.HasScope s sc) (hsc' : Spec.HasScope s' sc)
    (hn : (ask .numV s).1 = .ok (.num n)) (hn' : (ask .numV s').1 = .ok (.num n)) (hc : 0 < c)
    (h : Spec.Rescaled c (Spec.hListing s sc) (Spec.hListing s' sc)) (hw : Spec.HNonneg (Spec.hListing s sc)) :
    ∃ (H H' G G' S S' R R' : Sp K) (d d' e e' : List K),
      (ask (.H sc) s).1 = .ok (.mat H) ∧ (ask (.H sc) s').1 = .ok (.mat H') ∧
      (∀ v j, v < n → j < (Spec.hListing s sc).length → H'.get v j = H.get v j) ∧
      (ask (.degV sc) s).1 = .ok (.vec d) ∧ (ask (.degV sc) s').1 = .ok (.vec d') ∧ d' = d.map (c * ·) ∧
      (ask (.degE sc) s).1 = .ok (.vec e) ∧ (ask (.degE sc) s').1 = .ok (.vec e') ∧ e' = e ∧
      (ask (.LHGNN sc) s).1 = .ok (.mat G) ∧ (ask (.LHGNN sc) s').1 = .ok (.mat G') ∧ Spec.TimesMat n 1 G G' ∧
      (ask (.Lsym sc) s).1 = .ok (.mat S) ∧ (ask (.Lsym sc) s').1 = .ok (.mat S') ∧ Spec.TimesMat n 1 S S' ∧
      (ask (.Lrw sc) s).1 = .ok (.mat R) ∧ (ask (.Lrw sc) s').1 = .ok (.mat R') ∧ Spec.TimesMat n 1 R R' := by
  obtain ⟨H, _, h1, _, h2, _⟩ := C33_hypergraph_H_partial hs hsc hn
  obtain ⟨H', _, h1', _, h2', _⟩ := C33_hypergraph_H_partial hs' hsc' hn'
  obtain ⟨d1, d2, _⟩ := C34_hypergraph_degrees_partial hs hsc hn
  obtain ⟨d1', d2', _⟩ := C34_hypergraph_degrees_partial hs' hsc' hn'
  obtain ⟨G, S, q, g1, s1, q1, g2, s2, _⟩ := C36_hypergraph_L_HGNN_partial hs hsc hn hw
  obtain ⟨G', S', q', g1', s1', q1', g2', s2', _⟩ := C36_hypergraph_L_HGNN_partial hs' hsc' hn' (hnonneg hc h hw)
  obtain ⟨R, r1, r2, _⟩ := C36_hypergraph_L_rw_partial hs hsc hn
  obtain ⟨R', r1', r2', _⟩ := C36_hypergraph_L_rw_partial hs' hsc' hn'
  have key : ∀ i j, i < n → j < n → q' i * Spec.share (Spec.hListing s' sc) i j * q' j =
      q i * Spec.share (Spec.hListing s sc) i j * q j := by
    intro i j hi hj
    rw [share h]
    calc _ = (q' i * q' j * c) * Spec.share (Spec.hListing s sc) i j := by ring
      _ = _ := by rw [invSqrt hc (hdeg h i) (hdeg h j) (q1 i hi) (q1' i hi) (q1 j hj) (q1' j hj)]; ring
  refine ⟨H, H', G, G', S, S', R, R', _, _, _, _, h1, h1', fun v j hv hj => ?_, d1, d1', ?_, d2, d2', ?_, g1, g1',
    ⟨g2.rows, g2.cols, g2'.rows, g2'.cols, fun i j hi hj => ?_⟩, s1, s1',
    ⟨s2.rows, s2.cols, s2'.rows, s2'.cols, fun i j hi hj => ?_⟩, r1, r1',
    ⟨r2.rows, r2.cols, r2'.rows, r2'.cols, fun i j hi hj => ?_⟩⟩
  · rw [h2.get v j hv hj, h2'.get v j hv (by rw [hlen h]; exact hj), hat h]
  · rw [List.map_map]
    exact List.map_congr_left fun i _ => hdeg h i
  · rw [h, List.map_map]; rfl
  · rw [g2.get i j hi hj, g2'.get i j hi hj, one_mul, key i j hi hj]
  · rw [s2.get i j hi hj, s2'.get i j hi hj, one_mul, key i j hi hj]
  · rw [r2.get i j hi hj, r2'.get i j hi hj, one_mul, share h, hdeg h, mul_inv]
    congr 1
    rw [show c⁻¹ * (Spec.hDeg (Spec.hListing s sc) i)⁻¹ * (c * Spec.share (Spec.hListing s sc) i j) =
      (c⁻¹ * c) * ((Spec.hDeg (Spec.hListing s sc) i)⁻¹ * Spec.share (Spec.hListing s sc) i j) by ring,
      inv_mul_cancel₀ hc.ne', one_mul]

/-- C132. Hypergraph: averaged messages from vertices to vertices stay as they are. -/
theorem C132_hypergraph_v2v (hs : Built Proper b s) (hs' : Built Proper b' s')
    (hsc : Spec.HasScope s sc) (hsc' : Spec.HasScope s' sc)
    (hn : (ask .numV s).1 = .ok (.num n)) (hn' : (ask .numV s').1 = .ok (.num n)) (hc : c ≠ 0)
    (h : Spec.Rescaled c (Spec.hListing s sc) (Spec.hListing s' sc)) (X : Dense K) (hX : X.rows = n)
    (keep1 keep2 keep1' keep2' : Nat → Bool) :
    ∃ Z Z', (ask (.v2v sc X { aggr := .mean, rate := 0, keep1 := keep1, keep2 := keep2 }) s).1 = .ok (.feat Z) ∧
      (ask (.v2v sc X { aggr := .mean, rate := 0, keep1 := keep1', keep2 := keep2' }) s').1 = .ok (.feat Z') ∧
      Spec.SameTable n Z Z' := by
  obtain ⟨Y, y1, y2, y3, y4⟩ := (C37_hypergraph_v2e_partial hs hsc hn X hX keep1).2
  obtain ⟨Y', y1', y2', y3', y4'⟩ := (C37_hypergraph_v2e_partial hs' hsc' hn' X hX keep1').2
  obtain ⟨Z, z1, z2, z3, z4⟩ := (C37_hypergraph_e2v_partial hs hsc hn Y y2 keep2).2
  obtain ⟨Z', z1', z2', z3', z4'⟩ := (C37_hypergraph_e2v_partial hs' hsc' hn' Y' y2' keep2').2
  have e1 := (C37_hypergraph_v2v_is_composition (hs.mono (Q := AnyH) fun _ _ _ => trivial) hsc X
    { aggr := .mean, rate := 0, keep1 := keep1, keep2 := keep2 }).1 Y y1
  have e1' := (C37_hypergraph_v2v_is_composition (hs'.mono (Q := AnyH) fun _ _ _ => trivial) hsc' X
    { aggr := .mean, rate := 0, keep1 := keep1', keep2 := keep2' }).1 Y' y1'
  refine ⟨Z, Z', e1.trans z1, e1'.trans z1', z2, z2', by rw [z3, z3', y3, y3'], fun i k hi => ?_⟩
  rw [(z4 i k hi).1, (z4' i k hi).1, hdeg h]
  have : Spec.incidentSum (Spec.hListing s' sc) i (fun j => Y'.at_ j k) =
      c * Spec.incidentSum (Spec.hListing s sc) i fun j => Y.at_ j k := by
    unfold Spec.incidentSum
    rw [hlen h, mul_sum]
    refine sum_congr rfl fun j hj => ?_
    have hj' := mem_range.1 hj
    rw [hat h]
    dsimp only
    rw [y4 j k hj', y4' j k (by rw [hlen h]; exact hj'), hwt h]
    unfold Spec.memberSum Spec.hSize
    rw [hat h]
    split
    · ring
    · ring
  rw [this, mul_div_mul_left _ _ hc]

/-- C132. Hypergraph: the layers of HGNN and HGNN+ finish the same table. -/
theorem C132_hypergraph_layers [IsStrictOrderedRing K] (hs : Built Proper b s) (hs' : Built Proper b' s')
    (hsc : Spec.HasScope s none) (hsc' : Spec.HasScope s' none)
    (hn : (ask .numV s).1 = .ok (.num n)) (hn' : (ask .numV s').1 = .ok (.num n)) (hc : 0 < c)
    (h : Spec.Rescaled c (Spec.hListing s none) (Spec.hListing s' none)) (hw : Spec.HNonneg (Spec.hListing s none))
    (l : Conv K) (X : Dense K) (hX : X.rows = n) (hl : X.cols = l.theta.weight.cols) :
    ∃ Z Z' P P' : Dense K,
      Spec.SameTable n Z Z' ∧ Spec.Finished l.toTail Z (hgnnConv l X s).1 ∧ Spec.Finished l.toTail Z' (hgnnConv l X s').1 ∧
      Spec.SameTable n P P' ∧ Spec.Finished l.toTail P (hgnnpConv l X s).1 ∧
      Spec.Finished l.toTail P' (hgnnpConv l X s').1 := by
  obtain ⟨_, _, G, G', _, _, _, _, _, _, _, _, _, _, _, _, _, _, _, _, _, g1, g1', g2, _⟩ :=
    C132_hypergraph_matrices hs hs' hsc hsc' hn hn' hc h hw
  obtain ⟨Z, z1, z2, z3, z4⟩ := C91_hgnn_conv_partial hs hsc hn hw g1 l X hX hl
  obtain ⟨Z', z1', z2', z3', z4'⟩ := C91_hgnn_conv_partial hs' hsc' hn' (hnonneg hc h hw) g1' l X hX hl
  obtain ⟨P, p1, p2, p3, _, p4⟩ := C91_hgnnp_conv_partial hs hsc hn l X hX hl
  obtain ⟨P', p1', p2', p3', _, p4'⟩ := C91_hgnnp_conv_partial hs' hsc' hn' l X hX hl
  refine ⟨Z, Z', P, P', ⟨z1, z1', by rw [z2, z2'], fun i o hi => ?_⟩, z4, z4',
    ⟨p1, p1', by rw [p2, p2'], fun i o hi => ?_⟩, p4, p4'⟩
  · rw [z3, z3']
    refine sum_congr rfl fun j hj => ?_
    rw [g2.2.2.2.2 i j hi (mem_range.1 hj), one_mul]
  · rw [p3 i o hi, p3' i o hi, hdeg h]
    have : Spec.incidentSum (Spec.hListing s' none) i (Spec.edgeMean (Spec.hListing s' none) fun v => Spec.affine l.theta X v o) =
        c * Spec.incidentSum (Spec.hListing s none) i (Spec.edgeMean (Spec.hListing s none) fun v => Spec.affine l.theta X v o) := by
      unfold Spec.incidentSum Spec.edgeMean Spec.memberSum Spec.hSize
      rw [hlen h, mul_sum]
      refine sum_congr rfl fun j _ => ?_
      rw [hat h, hwt h]
      split
      · ring
      · ring
    rw [this, mul_div_mul_left _ _ hc.ne']

noncomputable def exHsc : HSt ℝ :=
  { raw := { numV := 4, vWeight := some [1, 1, 1, 1], groups := [("main", [([0, 1, 2], 2), ([1, 3], 3)])] }, cache := [] }

noncomputable def exHsc2 : HSt ℝ :=
  { raw := { numV := 4, vWeight := some [1, 1, 1, 1], groups := [("main", [([0, 1, 2], 4), ([1, 3], 6)])] }, cache := [] }

example : Built Proper true exHsc ∧ Built Proper true exHsc2 ∧ Spec.HasScope exHsc none ∧ Spec.HasScope exHsc2 none ∧
    (ask .numV exHsc).1 = .ok (.num 4) ∧ (ask .numV exHsc2).1 = .ok (.num 4) ∧
    Spec.Rescaled 2 (Spec.hListing exHsc none) (Spec.hListing exHsc2 none) ∧ Spec.HNonneg (Spec.hListing exHsc none) := by
  have hl : Spec.hListing exHsc none = [([0, 1, 2], 2), ([1, 3], 3)] := rfl
  have hl2 : Spec.hListing exHsc2 none = [([0, 1, 2], 4), ([1, 3], 6)] := rfl
  refine ⟨.new (show Hyper.new (K := ℝ) 4 (some (.many false [⟨false, [2, 0, 1]⟩, ⟨true, [1, 3]⟩])) (.list [2, 3]) none .sum = .ok exHsc from rfl) ?_,
    .new (show Hyper.new (K := ℝ) 4 (some (.many false [⟨false, [2, 0, 1]⟩, ⟨true, [1, 3]⟩])) (.list [4, 6]) none .sum = .ok exHsc2 from rfl) ?_,
    List.cons_ne_nil _ _, List.cons_ne_nil _ _, rfl, rfl, ?_, ?_⟩
  · intro a ha; cases ha
    intro e he
    simp only [argEdges, List.map_cons, List.map_nil, List.mem_cons, List.not_mem_nil, or_false] at he
    rcases he with rfl | rfl <;> decide
  · intro a ha; cases ha
    intro e he
    simp only [argEdges, List.map_cons, List.map_nil, List.mem_cons, List.not_mem_nil, or_false] at he
    rcases he with rfl | rfl <;> decide
  · rw [hl, hl2]; norm_num [Spec.Rescaled]
  · rw [hl]; intro e he; simp at he; rcases he with rfl | rfl <;> norm_num

end H

end Props
end DHG
