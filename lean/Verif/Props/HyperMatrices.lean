import Verif.HyperMat2
import Verif.Props.HyperEdges

/-!
# Properties of `Hypergraph`: incidence, degrees, neighbours, Laplacians

`Built Proper b s`: the hypergraph `s` was obtained through the public interface and every hyperedge
given to it lists distinct vertices in `0..num_v-1`.  `sc = none` is the property of the whole
hypergraph, `sc = some g` the corresponding method for group `g`; `Spec.hListing s sc` is what reading
`e` (`e_of_group`) shows.
-/

set_option linter.unusedSectionVars false
set_option autoImplicit false

namespace DHG
namespace Props

open Hyper Finset

variable {K : Type} [Field K] [LinearOrder K] [PyReal K] {b : Bool}

namespace Hy

theorem has_of_scope {s : HSt K} {sc : Option String} (h : Spec.HasScope s sc) : Has sc s.raw := by
  cases sc with
  | none =>
    intro h0
    apply h
    show s.raw.groups.keys = []
    rw [h0]; rfl
  | some g =>
    obtain ⟨d, hd⟩ := (names_iff g).1 h
    simp [Has, hd]

theorem listing_eq {s : HSt K} (hs : Built AnyH b s) (sc : Option String) :
    Spec.hListing s sc = lstOf sc s.raw := by
  have hz : ∀ l : List (List Int × K), (l.map Prod.fst).zip (l.map Prod.snd) = l := by
    intro l; induction l with
    | nil => rfl
    | cons a l ih => simp [ih]
  unfold Spec.hListing
  rw [ask_e hs.inv.2]
  cases sc with
  | none => rw [evE_spec hs.inv.1 (.inr rfl)]; exact hz _
  | some g =>
    cases hg : s.raw.groups.get? g with
    | none => simp [evE, evEOf, evGroup, hg, lstOf, bind, Except.bind, Except.map]
    | some d =>
      rw [evE_spec hs.inv.1 (.inl (by simp [Has, hg]))]; exact hz _

theorem numV_eq {s : HSt K} {n : Nat} (h : (ask .numV s).1 = .ok (.num n)) : s.raw.numV = n := by
  have : (ask .numV s).1 = .ok (.num s.raw.numV) := rfl
  rw [this] at h
  cases h; rfl

end Hy
open Hy

/-- example: three vertices, no group -/
noncomputable def exHe : HSt ℝ :=
  { raw := { numV := 3, vWeight := some [1, 1, 1], groups := [] }, cache := [] }

theorem exHe_new : Hyper.new (K := ℝ) 3 none .none none .mean = .ok exHe := rfl

theorem exHe_proper : Built Proper true exHe := .new exHe_new (by intro a h; cases h)

/-! ## C33 -/

/-- C33, partial. `H` has one row per vertex and one column per listed hyperedge, in the order of the
listing, and holds 1 where the vertex belongs to the hyperedge and 0 elsewhere; `H_T` is its
transpose. Missing: the whole-hypergraph `H` when there is no group at all
(`C33_hypergraph_H_false`). -/
theorem C33_hypergraph_H_partial {s : HSt K} (hs : Built Proper b s) {sc : Option String}
    (hsc : Spec.HasScope s sc) {n : Nat} (hn : (ask .numV s).1 = .ok (.num n)) :
    ∃ H HT, (ask (.H sc) s).1 = .ok (.mat H) ∧ (ask (.HT sc) s).1 = .ok (.mat HT) ∧
      Spec.IsMat n (Spec.hListing s sc).length
        (fun v j => if (v : Int) ∈ Spec.hAt (Spec.hListing s sc) j then 1 else 0) H ∧
      Spec.IsMat (Spec.hListing s sc).length n
        (fun j v => if (v : Int) ∈ Spec.hAt (Spec.hListing s sc) j then 1 else 0) HT := by
  have hs' := hs.mono (Q := AnyH) fun _ _ _ => trivial
  obtain ⟨hi, hc⟩ := hs'.inv
  rw [listing_eq hs', ← numV_eq hn]
  obtain ⟨H, hH, hT, hI⟩ := evHT_spec hi hs.inRange (has_of_scope hsc)
  refine ⟨H, H.t, ?_, ?_, ⟨hI.rows, hI.cols, hI.wf, fun i j h1 _ => hI.get h1 j⟩,
    ⟨hI.cols, hI.rows, hI.wf.t, fun j i _ h1 => by rw [Sp.get_t]; exact hI.get h1 j⟩⟩
  · rw [ask_eq _ hc (.inr (by simp))]; simp only [evAsk, hH]; rfl
  · rw [ask_eq _ hc (.inr (by simp))]; simp only [evAsk, hT]; rfl

/-- C33, C34. The listing of the whole hypergraph is the concatenation of the listings of its groups
in the order of their names. -/
theorem C33_hypergraph_group_order {s : HSt K} (hs : Built AnyH b s) :
    Spec.hListing s none = (Spec.hNames s).flatMap fun g => Spec.hListing s (some g) := by
  rw [listing_eq hs]
  simp only [listing_eq hs, lstOf]
  show _ = s.raw.groups.keys.flatMap _
  unfold Dict.keys
  rw [List.flatMap_map]
  have : ∀ p ∈ s.raw.groups, (s.raw.groups.get? p.1).getD [] = p.2 := by
    intro p hp
    rw [get_of_mem hs.inv.1 hp]; rfl
  exact (List.flatMap_congr this).symm

/-- C33 fails for the whole hypergraph without groups: `H` raises. -/
theorem C33_hypergraph_H_false :
    ¬ ∀ (s : HSt ℝ), Built Proper true s → ∃ H, (ask (.H none) s).1 = .ok (.mat H) := by
  intro h
  obtain ⟨H, hH⟩ := h exHe exHe_proper
  rw [show (ask (.H none) exHe).1 = .error .runtime from rfl] at hH
  cases hH

example : Built Proper true exH ∧ Spec.HasScope exH none ∧ Spec.HasScope exH (some "main") ∧
    (ask .numV exH).1 = .ok (.num 4) ∧
    Spec.hListing exH none = [([0, 1, 2], 2), ([1, 3], 3), ([3], 5)] :=
  ⟨exH_proper, List.cons_ne_nil _ _, List.mem_cons_self, rfl, rfl⟩

/-! ## C34 -/

/-- C34, partial. `deg_v` is the total weight of the listed hyperedges containing the vertex, `deg_e`
the number of vertices of each listed hyperedge; `D_v`, `D_e`, `W_e` are the diagonal matrices of
degrees, sizes and weights. Missing: a hypergraph without groups (`C34_hypergraph_degrees_false`). -/
theorem C34_hypergraph_degrees_partial {s : HSt K} (hs : Built Proper b s) {sc : Option String}
    (hsc : Spec.HasScope s sc) {n : Nat} (hn : (ask .numV s).1 = .ok (.num n)) :
    let l := Spec.hListing s sc
    (ask (.degV sc) s).1 = .ok (.vec ((List.range n).map (Spec.hDeg l))) ∧
    (ask (.degE sc) s).1 = .ok (.vec (l.map fun e => (e.1.length : K))) ∧
    (∃ D, (ask (.Dv sc) s).1 = .ok (.mat D) ∧
      Spec.IsMat n n (fun i j => if i = j then Spec.hDeg l i else 0) D) ∧
    (∃ D, (ask (.De sc) s).1 = .ok (.mat D) ∧
      Spec.IsMat l.length l.length (fun i j => if i = j then Spec.hSize l i else 0) D) ∧
    (∃ W, (ask (.We sc) s).1 = .ok (.mat W) ∧
      Spec.IsMat l.length l.length (fun i j => if i = j then Spec.hWt l i else 0) W) := by
  have hs' := hs.mono (Q := AnyH) fun _ _ _ => trivial
  obtain ⟨hi, hc⟩ := hs'.inv
  rw [listing_eq hs', ← numV_eq hn]
  intro l
  have hh := has_of_scope hsc
  have diag : ∀ (m : Nat) (f : Nat → K), Spec.IsMat m m (fun i j => if i = j then f i else 0)
      (Sp.diag ((List.range m).map f)) := by
    intro m f
    refine ⟨by simp [Sp.diag], by simp [Sp.diag], Sp.diag_WF _, fun i j h1 _ => ?_⟩
    rw [Sp.diag_range_get]
    by_cases hij : i = j
    · rw [if_pos ⟨hij, h1⟩, if_pos hij]
    · rw [if_neg (by tauto), if_neg hij]
  refine ⟨?_, ?_, ⟨_, ?_, diag _ _⟩, ⟨_, ?_, diag _ _⟩, ⟨_, ?_, diag _ _⟩⟩
  · rw [ask_eq _ hc (.inr (by simp))]
    simp only [evAsk, evDv_spec hi hs.inRange hh, bind, Except.bind, Ord.diag_vals]
    rfl
  · rw [ask_eq _ hc (.inr (by simp))]
    simp only [evAsk, evDe_spec hi hs.inRange hh, bind, Except.bind, Ord.diag_vals]
    rw [← map_hSize]
  · rw [ask_eq _ hc (.inr (by simp))]
    simp only [evAsk, evDv_spec hi hs.inRange hh]; rfl
  · rw [ask_eq _ hc (.inr (by simp))]
    simp only [evAsk, evDe_spec hi hs.inRange hh]; rfl
  · rw [ask_eq _ hc (.inr (by simp))]
    simp only [evAsk, evWe_spec hi hh]; rfl

/-- C34. The degrees of the vertices add up to the weights of the hyperedges times their sizes. -/
theorem C34_hypergraph_handshake {s : HSt K} (hs : Built Proper b s) {sc : Option String}
    {n : Nat} (hn : (ask .numV s).1 = .ok (.num n)) {dv : List K}
    (hd : (ask (.degV sc) s).1 = .ok (.vec dv)) (hsc : Spec.HasScope s sc) :
    dv.sum = ((Spec.hListing s sc).map fun e => e.2 * (e.1.length : K)).sum := by
  have h1 := (C34_hypergraph_degrees_partial hs hsc hn).1
  rw [hd] at h1
  cases h1
  have hs' := hs.mono (Q := AnyH) fun _ _ _ => trivial
  obtain ⟨hi, hc⟩ := hs'.inv
  rw [listing_eq hs', ← numV_eq hn]
  have h2 := sum_hDeg (lst_rng hi hs.inRange sc)
  rw [Finset.sum_range, ← List.sum_ofFn, Finset.sum_range, ← List.sum_ofFn] at h2
  rw [show (List.range s.raw.numV).map (Spec.hDeg (lstOf sc s.raw)) =
    List.ofFn fun i : Fin s.raw.numV => Spec.hDeg (lstOf sc s.raw) i from ?_, h2]
  · congr 1
    apply List.ext_getElem
    · simp
    · intro i h1 h2
      have : i < (lstOf sc s.raw).length := by simpa using h2
      simp [hWt_of_lt this, Spec.hSize, hAt_of_lt this]
  · apply List.ext_getElem
    · simp
    · intro i h1 h2; simp

/-- C34, partial. The inverse degree matrices hold the inverses, 0 exactly where the degree is 0.
Missing: a hypergraph without groups. -/
theorem C34_hypergraph_inverses_partial {s : HSt K} (hs : Built Proper b s) {sc : Option String}
    (hsc : Spec.HasScope s sc) {n : Nat} (hn : (ask .numV s).1 = .ok (.num n)) :
    let l := Spec.hListing s sc
    (∃ D, (ask (.DvN1 sc) s).1 = .ok (.mat D) ∧ D.rows = n ∧ D.cols = n ∧
      (∀ i j, i ≠ j → D.get i j = 0) ∧ (∀ i, i < n → (D.get i i = 0 ↔ Spec.hDeg l i = 0)) ∧
      ∀ i, i < n → Spec.hDeg l i ≠ 0 → D.get i i * Spec.hDeg l i = 1) ∧
    (∃ D, (ask (.DeN1 sc) s).1 = .ok (.mat D) ∧ D.rows = l.length ∧ D.cols = l.length ∧
      (∀ i j, i ≠ j → D.get i j = 0) ∧ (∀ i, i < l.length → (D.get i i = 0 ↔ Spec.hSize l i = 0)) ∧
      ∀ i, i < l.length → Spec.hSize l i ≠ 0 → D.get i i * Spec.hSize l i = 1) := by
  have hs' := hs.mono (Q := AnyH) fun _ _ _ => trivial
  obtain ⟨hi, hc⟩ := hs'.inv
  rw [listing_eq hs', ← numV_eq hn]
  intro l
  have hh := has_of_scope hsc
  have key : ∀ (m : Nat) (f : Nat → K), let D := Sp.diag ((List.range m).map fun i => (f i)⁻¹)
      D.rows = m ∧ D.cols = m ∧ (∀ i j, i ≠ j → D.get i j = 0) ∧ (∀ i, i < m → (D.get i i = 0 ↔ f i = 0)) ∧
      ∀ i, i < m → f i ≠ 0 → D.get i i * f i = 1 := by
    intro m f D
    refine ⟨by simp [D, Sp.diag], by simp [D, Sp.diag], ?_, ?_, ?_⟩
    · intro i j hij; simp only [D]; rw [Sp.diag_range_get, if_neg (by tauto)]
    · intro i hi; simp only [D]; rw [Sp.diag_range_get, if_pos ⟨rfl, hi⟩, inv_eq_zero]
    · intro i hi hf; simp only [D]; rw [Sp.diag_range_get, if_pos ⟨rfl, hi⟩, inv_mul_cancel₀ hf]
  refine ⟨⟨_, ?_, key _ _⟩, ⟨_, ?_, key _ _⟩⟩
  · rw [ask_eq _ hc (.inr (by simp))]
    simp only [evAsk, evDvN1_spec hi hs.inRange hh]; rfl
  · rw [ask_eq _ hc (.inr (by simp))]
    simp only [evAsk, evDeN1_spec hi hs.inRange hh]; rfl

/-- C34, partial. `D_v_neg_1_2` holds the inverse square roots of the degrees, for non-negative
weights. Missing: a hypergraph without groups. -/
theorem C34_hypergraph_Dv_neg_half_partial [IsStrictOrderedRing K] {s : HSt K} (hs : Built Proper b s)
    {sc : Option String} (hsc : Spec.HasScope s sc) {n : Nat} (hn : (ask .numV s).1 = .ok (.num n))
    (hw : Spec.HNonneg (Spec.hListing s sc)) :
    ∃ D, (ask (.DvN12 sc) s).1 = .ok (.mat D) ∧ D.rows = n ∧ D.cols = n ∧
      (∀ i j, i ≠ j → D.get i j = 0) ∧
      ∀ i, i < n → Spec.InvSqrt (Spec.hDeg (Spec.hListing s sc) i) (D.get i i) := by
  have hs' := hs.mono (Q := AnyH) fun _ _ _ => trivial
  obtain ⟨hi, hc⟩ := hs'.inv
  rw [listing_eq hs'] at hw ⊢
  rw [← numV_eq hn]
  have hh := has_of_scope hsc
  refine ⟨Sp.diag ((List.range s.raw.numV).map fun i => negHalf (Spec.hDeg (lstOf sc s.raw) i)),
    ?_, ?_, ?_, ?_, ?_⟩
  · rw [ask_eq _ hc (.inr (by simp))]
    simp only [evAsk, evDvN12_spec hi hs.inRange hh hw]; rfl
  · simp [Sp.diag]
  · simp [Sp.diag]
  · intro i j hij; rw [Sp.diag_range_get, if_neg (by tauto)]
  · intro i hi; rw [Sp.diag_range_get, if_pos ⟨rfl, hi⟩]
    exact Graph.negHalf_invSqrt (hDeg_nonneg hw i)

/-- C34. The degree in the whole hypergraph is the sum of the degrees in the groups; sizes and weights
are concatenated (`C33_hypergraph_group_order`). -/
theorem C34_hypergraph_degree_groups {s : HSt K} (hs : Built AnyH b s) (v : Nat) :
    Spec.hDeg (Spec.hListing s none) v =
      ((Spec.hNames s).map fun g => Spec.hDeg (Spec.hListing s (some g)) v).sum := by
  rw [C33_hypergraph_group_order hs]
  induction Spec.hNames s with
  | nil => rfl
  | cons g gs ih => rw [List.flatMap_cons, hDeg_append, ih, List.map_cons, List.sum_cons]

/-- C34 fails for a hypergraph without groups: reading degrees raises. -/
theorem C34_hypergraph_degrees_false :
    ¬ ∀ (s : HSt ℝ), Built Proper true s → ∃ l, (ask (.degV none) s).1 = .ok (.vec l) := by
  intro h
  obtain ⟨H, hH⟩ := h exHe exHe_proper
  rw [show (ask (.degV none) exHe).1 = .error .runtime from rfl] at hH
  cases hH

example : Built Proper true exH ∧ Spec.HasScope exH none ∧ (ask .numV exH).1 = .ok (.num 4) ∧
    Spec.HNonneg (Spec.hListing exH none) ∧ Spec.hDeg (Spec.hListing exH none) 3 = 8 ∧
    (ask (.degV none) exH).1 = .ok (.vec ((List.range 4).map (Spec.hDeg (Spec.hListing exH none)))) := by
  refine ⟨exH_proper, List.cons_ne_nil _ _, rfl, ?_, ?_, ?_⟩
  · intro e he
    rw [show Spec.hListing exH none = [([0, 1, 2], 2), ([1, 3], 3), ([3], 5)] from rfl] at he
    simp only [List.mem_cons, List.not_mem_nil, or_false] at he
    rcases he with rfl | rfl | rfl <;> norm_num
  · rw [show Spec.hListing exH none = [([0, 1, 2], 2), ([1, 3], 3), ([3], 5)] from rfl]
    norm_num [Spec.hDeg]
  · exact (C34_hypergraph_degrees_partial exH_proper (sc := none) (List.cons_ne_nil _ _) rfl).1

/-! ## C35 -/

/-- C35, partial. `nbr_e(v)` lists, once each, the positions (in the order of the listing) of the
hyperedges containing `v`. Missing: a hypergraph without groups (`C35_hypergraph_nbr_e_false`), and
negative `v`, which the code accepts as an index from the end. -/
theorem C35_hypergraph_nbr_e_partial {s : HSt K} (hs : Built Proper b s) {sc : Option String}
    (hsc : Spec.HasScope s sc) {n : Nat} (hn : (ask .numV s).1 = .ok (.num n)) (v : Nat) (hv : v < n) :
    ∃ l, (ask (.nbrE (v : Int) sc) s).1 = .ok (.idx l) ∧ l.Nodup ∧
      ∀ j, j ∈ l ↔ j < (Spec.hListing s sc).length ∧ (v : Int) ∈ Spec.hAt (Spec.hListing s sc) j := by
  have hs' := hs.mono (Q := AnyH) fun _ _ _ => trivial
  obtain ⟨hi, hc⟩ := hs'.inv
  rw [listing_eq hs']
  rw [← numV_eq hn] at hv
  obtain ⟨l, h1, h2, h3⟩ := evNe_spec hi hs.inRange (has_of_scope hsc) hv
  refine ⟨l, ?_, h2, h3⟩
  rw [ask_eq _ hc (.inr (by simp))]; simp only [evAsk, h1]; rfl

/-- C35. `nbr_v(e)` lists, once each, the vertices of the hyperedge at position `e` of the listing. -/
theorem C35_hypergraph_nbr_v {s : HSt K} (hs : Built Proper b s) {sc : Option String} (e : Nat)
    (he : e < (Spec.hListing s sc).length) :
    ∃ l, (ask (.nbrV (e : Int) sc) s).1 = .ok (.idx l) ∧ l.Nodup ∧
      ∀ v : Nat, v ∈ l ↔ (v : Int) ∈ Spec.hAt (Spec.hListing s sc) e := by
  have hs' := hs.mono (Q := AnyH) fun _ _ _ => trivial
  obtain ⟨hi, hc⟩ := hs'.inv
  rw [listing_eq hs'] at he ⊢
  obtain ⟨l, h1, h2, h3⟩ := evNv_spec hi hs.inRange he
  refine ⟨l, ?_, h2, h3⟩
  rw [ask_eq _ hc (.inr (by simp))]; simp only [evAsk, h1]; rfl

/-- C35. `v ∈ nbr_v(e)` exactly when `e ∈ nbr_e(v)`, in the numbering of the same scope. -/
theorem C35_hypergraph_nbr_dual {s : HSt K} (hs : Built Proper b s) {sc : Option String}
    (hsc : Spec.HasScope s sc) {n : Nat} (hn : (ask .numV s).1 = .ok (.num n)) {v e : Nat} (hv : v < n)
    (he : e < (Spec.hListing s sc).length) {lv le : List Nat}
    (h1 : (ask (.nbrV (e : Int) sc) s).1 = .ok (.idx lv))
    (h2 : (ask (.nbrE (v : Int) sc) s).1 = .ok (.idx le)) : v ∈ lv ↔ e ∈ le := by
  obtain ⟨l1, g1, _, g2⟩ := C35_hypergraph_nbr_v hs e he
  obtain ⟨l2, g3, _, g4⟩ := C35_hypergraph_nbr_e_partial hs hsc hn v hv
  rw [h1] at g1; cases g1
  rw [h2] at g3; cases g3
  rw [g2, g4]
  exact ⟨fun h => ⟨he, h⟩, fun h => h.2⟩

/-- C35. An index beyond the vertices or beyond the hyperedges of the scope raises. -/
theorem C35_hypergraph_nbr_range {s : HSt K} (hs : Built AnyH b s) {sc : Option String} {n : Nat}
    (hn : (ask .numV s).1 = .ok (.num n)) (i : Int) :
    ((n : Int) ≤ i → (ask (.nbrE i sc) s).1 = .error .assertion) ∧
    (((Spec.hListing s sc).length : Int) ≤ i → (ask (.nbrV i sc) s).1 = .error .assertion) := by
  obtain ⟨hi, hc⟩ := hs.inv
  rw [listing_eq hs]
  constructor
  · intro h
    rw [ask_eq _ hc (.inr (by simp)), ← numV_eq hn] at *
    have : ¬ i < (s.raw.numV : Int) := by omega
    simp only [evAsk]
    cases sc with
    | none => simp only [evNe, if_neg this]; rfl
    | some g =>
      cases hg : s.raw.groups.has g <;> simp only [evNe, evNeOf, chk, hg, if_neg this] <;> rfl
  · intro h
    rw [ask_eq _ hc (.inr (by simp))]
    cases sc with
    | none =>
      simp only [evAsk, evNv, evNumE_spec (r := s.raw) (sc := none) (.inr rfl), bind, Except.bind]
      rw [if_neg (by omega)]
    | some g =>
      simp only [lstOf] at h
      cases hg : s.raw.groups.get? g with
      | none => simp only [evAsk, evNv, evNvOf, evGroup, hg]; rfl
      | some d =>
        rw [hg] at h
        simp only [evAsk, evNv, evNvOf, evGroup, hg, bind, Except.bind]
        rw [if_neg (by simp only [Option.getD_some] at h; omega)]

/-- C35 fails for a hypergraph without groups: `nbr_e` raises. -/
theorem C35_hypergraph_nbr_e_false :
    ¬ ∀ (s : HSt ℝ), Built Proper true s → ∃ l, (ask (.nbrE 0 none) s).1 = .ok (.idx l) := by
  intro h
  obtain ⟨H, hH⟩ := h exHe exHe_proper
  rw [show (ask (.nbrE 0 none) exHe).1 = .error .runtime from rfl] at hH
  cases hH

example : Built Proper true exH ∧ Spec.HasScope exH none ∧ (ask .numV exH).1 = .ok (.num 4) ∧ 3 < 4 ∧
    2 < (Spec.hListing exH none).length ∧ (3 : Int) ∈ Spec.hAt (Spec.hListing exH none) 2 ∧
    (3 : Int) ∈ Spec.hAt (Spec.hListing exH (some "b")) 0 := by
  refine ⟨exH_proper, List.cons_ne_nil _ _, rfl, by norm_num, ?_, ?_, ?_⟩
  · rw [show Spec.hListing exH none = [([0, 1, 2], 2), ([1, 3], 3), ([3], 5)] from rfl]; decide
  · rw [show Spec.hListing exH none = [([0, 1, 2], 2), ([1, 3], 3), ([3], 5)] from rfl]
    exact List.mem_cons_self
  · exact List.mem_cons_self

/-! ## C36 -/

/-- C36, partial. With `s v` the inverse square root of the degree (0 at 0), `L_HGNN` has the entries
`s i * (sum over listed hyperedges containing i and j of weight / size) * s j`; `L_sym = I - L_HGNN`;
`L_HGNN` is symmetric, positive semidefinite and bounded by the identity. Missing: a hypergraph
without groups (`C36_hypergraph_laplacians_false`). -/
theorem C36_hypergraph_L_HGNN_partial [IsStrictOrderedRing K] {s : HSt K} (hs : Built Proper b s)
    {sc : Option String} (hsc : Spec.HasScope s sc) {n : Nat} (hn : (ask .numV s).1 = .ok (.num n))
    (hw : Spec.HNonneg (Spec.hListing s sc)) :
    ∃ (L M : Sp K) (q : Nat → K), (ask (.LHGNN sc) s).1 = .ok (.mat L) ∧
      (ask (.Lsym sc) s).1 = .ok (.mat M) ∧
      (∀ i, i < n → Spec.InvSqrt (Spec.hDeg (Spec.hListing s sc) i) (q i)) ∧
      Spec.IsMat n n (fun i j => q i * Spec.share (Spec.hListing s sc) i j * q j) L ∧
      Spec.IsMat n n (fun i j => (if i = j then 1 else 0) -
        q i * Spec.share (Spec.hListing s sc) i j * q j) M ∧
      (∀ i j, i < n → j < n → L.get i j = L.get j i) ∧
      (∀ x : Nat → K, 0 ≤ ∑ i ∈ range n, ∑ j ∈ range n, x i * L.get i j * x j ∧
        ∑ i ∈ range n, ∑ j ∈ range n, x i * L.get i j * x j ≤ ∑ i ∈ range n, x i * x i) := by
  have hs' := hs.mono (Q := AnyH) fun _ _ _ => trivial
  obtain ⟨hi, hc⟩ := hs'.inv
  rw [listing_eq hs'] at hw ⊢
  have hh := has_of_scope hsc
  obtain ⟨L, hL, hM⟩ := evLHGNN_spec hi hs.inRange hh hw
  have hR := lst_rng hi hs.inRange sc
  have hn' := numV_eq hn
  rw [hn'] at hM hR
  generalize hl : lstOf sc s.raw = l at *
  let q : Nat → K := fun i => negHalf (Spec.hDeg l i)
  have hq : ∀ i, Spec.InvSqrt (Spec.hDeg l i) (q i) := fun i => Graph.negHalf_invSqrt (hDeg_nonneg hw i)
  have hx : ∀ x : Nat → K, ∑ i ∈ range n, ∑ j ∈ range n, x i * L.get i j * x j =
      ∑ i ∈ range n, ∑ j ∈ range n, x i * (q i * Spec.share l i j * q j) * x j := by
    intro x
    apply sum_congr rfl; intro i h1
    apply sum_congr rfl; intro j h2
    rw [hM.get i j (mem_range.1 h1) (mem_range.1 h2)]
  refine ⟨L, Sp.eyeMinus n L, q, ?_, ?_, fun i _ => hq i, hM,
    ⟨rfl, rfl, Sp.WF.eyeMinus hM.wf hM.rows hM.cols, ?_⟩, ?_, ?_⟩
  · rw [ask_eq _ hc (.inr (by simp))]; simp only [evAsk, hL]; rfl
  · rw [ask_eq _ hc (.inr (by simp))]; simp only [evAsk, evLsym, hL, hn']; rfl
  · intro i j h1 h2
    rw [Sp.eyeMinus_get, hM.get i j h1 h2]
    by_cases hij : i = j <;> simp [hij, h2, q]
  · intro i j h1 h2
    rw [hM.get i j h1 h2, hM.get j i h2 h1, share_symm]; ring
  · intro x
    rw [hx]
    constructor
    · have := quad_share_nonneg n hw fun i => q i * x i
      refine this.trans (le_of_eq ?_)
      apply sum_congr rfl; intro i _
      apply sum_congr rfl; intro j _
      ring
    · exact (norm_bound n (Spec.share l) (share_symm l) (share_nonneg hw) q x (by
        intro i _
        rw [sum_share hR]
        exact Graph.InvSqrt.sq_mul_le (hq i))).1

/-- C36, partial. `L_rw = I - D_v^{-1} H W_e D_e^{-1} H^T`; its rows of vertices with nonzero degree
sum to 0. Missing: a hypergraph without groups. -/
theorem C36_hypergraph_L_rw_partial [IsStrictOrderedRing K] {s : HSt K} (hs : Built Proper b s)
    {sc : Option String} (hsc : Spec.HasScope s sc) {n : Nat} (hn : (ask .numV s).1 = .ok (.num n)) :
    ∃ L : Sp K, (ask (.Lrw sc) s).1 = .ok (.mat L) ∧
      Spec.IsMat n n (fun i j => (if i = j then 1 else 0) -
        (Spec.hDeg (Spec.hListing s sc) i)⁻¹ * Spec.share (Spec.hListing s sc) i j) L ∧
      (∀ i, i < n → Spec.hDeg (Spec.hListing s sc) i ≠ 0 → ∑ j ∈ range n, L.get i j = 0) := by
  have hs' := hs.mono (Q := AnyH) fun _ _ _ => trivial
  obtain ⟨hi, hc⟩ := hs'.inv
  rw [listing_eq hs']
  have hh := has_of_scope hsc
  obtain ⟨L, hL, hM⟩ := evLrw_spec hi hs.inRange hh
  have hR := lst_rng hi hs.inRange sc
  rw [numV_eq hn] at hM hR
  refine ⟨L, ?_, hM, ?_⟩
  · rw [ask_eq _ hc (.inr (by simp))]; simp only [evAsk, hL]; rfl
  · intro i h1 h2
    rw [sum_congr rfl fun j hj => hM.get i j h1 (mem_range.1 hj), sum_sub_distrib, ← mul_sum,
      sum_share hR, inv_mul_cancel₀ h2, sum_ite_eq (range n) i, if_pos (mem_range.2 h1), sub_self]

/-- C36 fails for a hypergraph without groups: the Laplacians raise. -/
theorem C36_hypergraph_laplacians_false :
    ¬ ∀ (s : HSt ℝ), Built Proper true s → ∃ l, (ask (.LHGNN none) s).1 = .ok (.mat l) := by
  intro h
  obtain ⟨H, hH⟩ := h exHe exHe_proper
  rw [ask_eq _ exHe_proper.inv.2 (.inl rfl)] at hH
  rw [show evAsk (.LHGNN none) exHe.raw = .error .runtime from rfl] at hH
  cases hH

example : Built Proper true exH ∧ Spec.HasScope exH none ∧ (ask .numV exH).1 = .ok (.num 4) ∧
    Spec.HNonneg (Spec.hListing exH none) ∧ Spec.hDeg (Spec.hListing exH none) 1 ≠ 0 := by
  refine ⟨exH_proper, List.cons_ne_nil _ _, rfl, ?_, ?_⟩
  · intro e he
    rw [show Spec.hListing exH none = [([0, 1, 2], 2), ([1, 3], 3), ([3], 5)] from rfl] at he
    simp only [List.mem_cons, List.not_mem_nil, or_false] at he
    rcases he with rfl | rfl | rfl <;> norm_num
  · rw [show Spec.hListing exH none = [([0, 1, 2], 2), ([1, 3], 3), ([3], 5)] from rfl]
    norm_num [Spec.hDeg]

end Props
end DHG
