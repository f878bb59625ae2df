import Mathlib.Data.Nat.Choose.Sum
import Verif.RandomLoops

/-!
# Properties of the random generators (C70–C73)

Every statement holds for every stream of draws.  Generated objects are observed through `num_v`,
`num_e` and `e` (`Spec.GraphIs`, `Spec.DigraphIs`, `Spec.BigraphIs`, `Spec.HypergraphIs`).
-/

set_option linter.unusedSectionVars false
set_option autoImplicit false

namespace DHG
open RandGen

section Gnp
variable {K : Type} [Field K] [LinearOrder K] [PyReal K]

/-! ## C70 -/

theorem ShowsEdges_congr {a b : Except Err (GAns K)} {l : List ((Int × Int) × K)} {n : Int}
    {E E' : Int × Int → Prop} (h : Spec.ShowsEdges a b l n E) (hE : ∀ p, E p ↔ E' p) :
    Spec.ShowsEdges a b l n E' :=
  ⟨h.1, h.2, h.3, fun p w => by rw [h.4, hE]⟩

/-- C70 (`graph_Gnp`). Every candidate edge has its own draw, and the graph has exactly the
candidates whose draw is below `prob`. -/
theorem C70_graph_Gnp (n : Int) (hn : 1 < n) :
    ∃ d : Int × Int → Nat, Set.InjOn d {p | 0 ≤ p.1 ∧ p.1 < p.2 ∧ p.2 < n} ∧
      ∀ (prob : K) (ρ : Nat → K), 0 ≤ prob → prob ≤ 1 → ∃ g, graphGnp n prob ρ = .ok g ∧
        Spec.GraphIs g n fun p => (0 ≤ p.1 ∧ p.1 < p.2 ∧ p.2 < n) ∧ ρ (d p) < prob := by
  have hmem : ∀ p : Int × Int, 0 ≤ p.1 ∧ p.1 < p.2 ∧ p.2 < n → p ∈ perms2 n.toNat := by
    rintro p ⟨h1, h2, h3⟩
    rw [mem_perms2]; omega
  refine ⟨fun p => (perms2 n.toNat).idxOf p, ?_, ?_⟩
  · intro p hp q hq h
    exact (List.idxOf_inj (hmem p hp)).1 h
  · intro prob ρ h0 h1
    have hk := mem_keepDraws prob (fun e : Int × Int => decide (e.1 < e.2)) ρ 0 _ (perms2_nodup n.toNat)
    generalize hes : keepDraws prob (fun e : Int × Int => decide (e.1 < e.2)) ρ 0 (perms2 n.toNat) = es at hk
    have hnd : es.Nodup := by
      rw [← hes]; exact (perms2_nodup _).sublist (keepDraws_sublist _ _ _ _ _)
    have hlt : ∀ e ∈ es, e.1 < e.2 := by
      intro e he; simpa using ((hk e).1 he).2.1
    have hsp : es.map Graph.sortPair = es := by
      conv_rhs => rw [← List.map_id es]
      refine List.map_congr_left fun e he => ?_
      unfold Graph.sortPair
      rw [if_pos (hlt e he).le]; rfl
    have hbd : ∀ e ∈ es, e.1 < n ∧ e.2 < n := by
      intro e he
      have := mem_perms2.1 ((hk e).1 he).1
      omega
    obtain ⟨g, hg, hG, _⟩ := graph_new (K := K) (by omega : 0 < n) (fun e he => (hlt e he).ne) hbd
      (by rw [hsp]; exact hnd)
    refine ⟨g, ?_, ?_⟩
    · unfold graphGnp
      rw [if_neg (by omega), if_neg (not_not.2 ⟨h0, h1⟩), hes, hg]
    · refine ShowsEdges_congr hG fun p => ?_
      rw [hsp, hk]
      simp only [decide_eq_true_eq, Nat.zero_add]
      constructor
      · rintro ⟨h1, h2, h3⟩
        have := mem_perms2.1 h1
        exact ⟨by omega, h3⟩
      · rintro ⟨h1, h3⟩
        exact ⟨hmem p h1, h1.2.1, h3⟩

/-- C70 (`digraph_Gnp`). -/
theorem C70_digraph_Gnp (n : Int) (hn : 1 < n) :
    ∃ d : Int × Int → Nat,
      Set.InjOn d {p | 0 ≤ p.1 ∧ p.1 < n ∧ 0 ≤ p.2 ∧ p.2 < n ∧ p.1 ≠ p.2} ∧
      ∀ (prob : K) (ρ : Nat → K), 0 ≤ prob → prob ≤ 1 → ∃ g, digraphGnp n prob ρ = .ok g ∧
        Spec.DigraphIs g n fun p => (0 ≤ p.1 ∧ p.1 < n ∧ 0 ≤ p.2 ∧ p.2 < n ∧ p.1 ≠ p.2) ∧
          ρ (d p) < prob := by
  have hmem : ∀ p : Int × Int, p ∈ perms2 n.toNat ↔
      0 ≤ p.1 ∧ p.1 < n ∧ 0 ≤ p.2 ∧ p.2 < n ∧ p.1 ≠ p.2 := by
    intro p
    rw [mem_perms2]; omega
  refine ⟨fun p => (perms2 n.toNat).idxOf p, ?_, ?_⟩
  · intro p hp q hq h
    exact (List.idxOf_inj ((hmem p).2 hp)).1 h
  · intro prob ρ h0 h1
    have hk := mem_keepDraws prob (fun _ : Int × Int => true) ρ 0 _ (perms2_nodup n.toNat)
    generalize hes : keepDraws prob (fun _ : Int × Int => true) ρ 0 (perms2 n.toNat) = es at hk
    have hnd : es.Nodup := by
      rw [← hes]; exact (perms2_nodup _).sublist (keepDraws_sublist _ _ _ _ _)
    have hmm : ∀ e ∈ es, 0 ≤ e.1 ∧ e.1 < n ∧ 0 ≤ e.2 ∧ e.2 < n ∧ e.1 ≠ e.2 :=
      fun e he => (hmem e).1 ((hk e).1 he).1
    obtain ⟨g, hg, hG, _⟩ := digraph_new (K := K) (by omega : 0 < n) (fun e he => (hmm e he).2.2.2.2)
      (fun e he => ⟨(hmm e he).2.1, (hmm e he).2.2.2.1⟩) hnd
    refine ⟨g, ?_, ?_⟩
    · unfold digraphGnp
      rw [if_neg (by omega), if_neg (not_not.2 ⟨h0, h1⟩), hes, hg]
    · refine ShowsEdges_congr hG fun p => ?_
      rw [hk, hmem]
      simp

/-- C70 (`bigraph_Gnp`). -/
theorem C70_bigraph_Gnp (m n : Int) (hm : 1 < m) (hn : 1 < n) :
    ∃ d : Int × Int → Nat,
      Set.InjOn d {p | 0 ≤ p.1 ∧ p.1 < m ∧ 0 ≤ p.2 ∧ p.2 < n} ∧
      ∀ (prob : K) (ρ : Nat → K), 0 ≤ prob → prob ≤ 1 → ∃ g, bigraphGnp m n prob ρ = .ok g ∧
        Spec.BigraphIs g m n fun p => (0 ≤ p.1 ∧ p.1 < m ∧ 0 ≤ p.2 ∧ p.2 < n) ∧ ρ (d p) < prob := by
  have hmem : ∀ p : Int × Int, p ∈ product m.toNat n.toNat ↔
      0 ≤ p.1 ∧ p.1 < m ∧ 0 ≤ p.2 ∧ p.2 < n := by
    intro p
    rw [mem_product]; omega
  refine ⟨fun p => (product m.toNat n.toNat).idxOf p, ?_, ?_⟩
  · intro p hp q hq h
    exact (List.idxOf_inj ((hmem p).2 hp)).1 h
  · intro prob ρ h0 h1
    have hk := mem_keepDraws prob (fun _ : Int × Int => true) ρ 0 _ (product_nodup m.toNat n.toNat)
    generalize hes : keepDraws prob (fun _ : Int × Int => true) ρ 0 (product m.toNat n.toNat) = es at hk
    have hnd : es.Nodup := by
      rw [← hes]; exact (product_nodup _ _).sublist (keepDraws_sublist _ _ _ _ _)
    have hmm : ∀ e ∈ es, 0 ≤ e.1 ∧ e.1 < m ∧ 0 ≤ e.2 ∧ e.2 < n :=
      fun e he => (hmem e).1 ((hk e).1 he).1
    obtain ⟨g, hg, hG, _⟩ := bigraph_new (K := K) (by omega : 0 ≤ m) (by omega : 0 < n)
      (fun e he => ⟨(hmm e he).2.1, (hmm e he).2.2.2⟩) hnd
    refine ⟨g, ?_, hG.1, ?_⟩
    · unfold bigraphGnp
      rw [if_neg (by omega), if_neg (by omega), if_neg (not_not.2 ⟨h0, h1⟩), hes, hg]
    · refine ShowsEdges_congr hG.2 fun p => ?_
      rw [hk, hmem]
      simp

theorem combinations_sortV {k n : Nat} {e : List Int} (h : e ∈ combinations k (rangeI n)) :
    sortV e = e := sortV_of_sorted ((combinations_sorted h).imp fun h => le_of_lt h)

/-- C70 (`uniform_hypergraph_Gnp`). The candidates are the sets of `k` different vertices. -/
theorem C70_uniform_hypergraph_Gnp (k n : Int) (hk1 : 1 < k) (hn : 1 < n) :
    ∃ d : Multiset Int → Nat, Set.InjOn d {e | Spec.IsSubset n k e} ∧
      ∀ (prob : K) (ρ : Nat → K), 0 ≤ prob → prob ≤ 1 → ∃ s, uniformGnp k n prob ρ = .ok s ∧
        Spec.HypergraphIs s n fun e => Spec.IsSubset n k e ∧ ρ (d e) < prob := by
  obtain ⟨n, rfl⟩ : ∃ a : Nat, n = a := ⟨n.toNat, by omega⟩
  obtain ⟨k, rfl⟩ : ∃ a : Nat, k = a := ⟨k.toNat, by omega⟩
  have hnd := combinations_nodup k _ (rangeI_nodup n)
  have hs : ∀ e : Multiset Int, Spec.IsSubset n k e → sortV e.toList ∈ combinations k (rangeI n) := by
    intro e he
    obtain ⟨l, hl, rfl⟩ := (combinations_subset e).2 he
    rw [Hyper.sortV_toList, combinations_sortV hl]; exact hl
  refine ⟨fun e => (combinations k (rangeI n)).idxOf (sortV e.toList), ?_, ?_⟩
  · intro p hp q hq h
    have := (List.idxOf_inj (hs p hp)).1 h
    have h2 := sortV_eq_iff.1 this
    rw [← Multiset.coe_toList p, ← Multiset.coe_toList q]
    exact Multiset.coe_eq_coe.2 h2
  · intro prob ρ h0 h1
    have hk := mem_keepDraws prob (fun _ : List Int => true) ρ 0 _ hnd
    generalize hes : keepDraws prob (fun _ : List Int => true) ρ 0 (combinations k (rangeI n)) = es at hk
    have hnd' : es.Nodup := by
      rw [← hes]; exact hnd.sublist (keepDraws_sublist _ _ _ _ _)
    obtain ⟨s, hg, hG, _⟩ := hyper_new (K := K) (by omega : 0 < (n : Int))
      (fun e he => combinations_sortV ((hk e).1 he).1) hnd'
    refine ⟨s, ?_, hG.1, hG.2, hG.3, ?_⟩
    · unfold uniformGnp
      rw [if_neg (by omega), if_neg (by omega), if_neg (not_not.2 ⟨h0, h1⟩), Int.toNat_natCast,
        Int.toNat_natCast, hes, hg]
    · intro e w
      rw [hG.4]
      refine and_congr_left' ?_
      constructor
      · rintro ⟨l, hl, rfl⟩
        obtain ⟨h1, _, h2⟩ := (hk l).1 hl
        refine ⟨(combinations_subset _).1 ⟨l, h1, rfl⟩, ?_⟩
        beta_reduce
        rw [Hyper.sortV_toList, combinations_sortV h1]
        simpa using h2
      · rintro ⟨he, h2⟩
        refine ⟨sortV e.toList, (hk _).2 ⟨hs e he, rfl, by simpa using h2⟩, ?_⟩
        rw [Multiset.coe_eq_coe.2 (sortV_perm _), Multiset.coe_toList]

/-- C70. With `prob = 0` no edge is generated, for every stream of draws from `[0, 1)`. -/
theorem C70_prob_zero (ρ : Nat → K) (hρ : ∀ i, 0 ≤ ρ i) (h01 : (0 : K) ≤ 1) (n m k : Int)
    (hn : 1 < n) (hm : 1 < m) (hk : 1 < k) :
    (∃ g, graphGnp n 0 ρ = .ok g ∧ Spec.GraphIs g n fun _ => False) ∧
    (∃ g, digraphGnp n 0 ρ = .ok g ∧ Spec.DigraphIs g n fun _ => False) ∧
    (∃ g, bigraphGnp m n 0 ρ = .ok g ∧ Spec.BigraphIs g m n fun _ => False) ∧
    (∃ s, uniformGnp k n 0 ρ = .ok s ∧ Spec.HypergraphIs s n fun _ => False) := by
  obtain ⟨d1, _, h1⟩ := C70_graph_Gnp (K := K) n hn
  obtain ⟨d2, _, h2⟩ := C70_digraph_Gnp (K := K) n hn
  obtain ⟨d3, _, h3⟩ := C70_bigraph_Gnp (K := K) m n hm hn
  obtain ⟨d4, _, h4⟩ := C70_uniform_hypergraph_Gnp (K := K) k n hk hn
  obtain ⟨g1, e1, G1⟩ := h1 0 ρ le_rfl h01
  obtain ⟨g2, e2, G2⟩ := h2 0 ρ le_rfl h01
  obtain ⟨g3, e3, G3⟩ := h3 0 ρ le_rfl h01
  obtain ⟨g4, e4, G4⟩ := h4 0 ρ le_rfl h01
  have hno : ∀ (P : Prop) (i : Nat), ¬ (P ∧ ρ i < 0) := fun P i h => absurd h.2 (not_lt.2 (hρ i))
  refine ⟨⟨g1, e1, ShowsEdges_congr G1 fun p => ?_⟩, ⟨g2, e2, ShowsEdges_congr G2 fun p => ?_⟩,
    ⟨g3, e3, G3.1, ShowsEdges_congr G3.2 fun p => ?_⟩, ⟨g4, e4, G4.1, G4.2, G4.3, fun e w => ?_⟩⟩
  · simp only [iff_false]; exact hno _ _
  · simp only [iff_false]; exact hno _ _
  · simp only [iff_false]; exact hno _ _
  · rw [G4.4]
    simp only [false_and, iff_false, not_and]
    intro h; exact absurd h (hno _ _)

/-- C70. With `prob = 1` every candidate is generated, for every stream of draws from `[0, 1)`. -/
theorem C70_prob_one (ρ : Nat → K) (hρ : ∀ i, ρ i < 1) (h01 : (0 : K) ≤ 1) (n m k : Int)
    (hn : 1 < n) (hm : 1 < m) (hk : 1 < k) :
    (∃ g, graphGnp n 1 ρ = .ok g ∧ Spec.GraphIs g n fun p => 0 ≤ p.1 ∧ p.1 < p.2 ∧ p.2 < n) ∧
    (∃ g, digraphGnp n 1 ρ = .ok g ∧
      Spec.DigraphIs g n fun p => 0 ≤ p.1 ∧ p.1 < n ∧ 0 ≤ p.2 ∧ p.2 < n ∧ p.1 ≠ p.2) ∧
    (∃ g, bigraphGnp m n 1 ρ = .ok g ∧
      Spec.BigraphIs g m n fun p => 0 ≤ p.1 ∧ p.1 < m ∧ 0 ≤ p.2 ∧ p.2 < n) ∧
    (∃ s, uniformGnp k n 1 ρ = .ok s ∧ Spec.HypergraphIs s n (Spec.IsSubset n k)) := by
  obtain ⟨d1, _, h1⟩ := C70_graph_Gnp (K := K) n hn
  obtain ⟨d2, _, h2⟩ := C70_digraph_Gnp (K := K) n hn
  obtain ⟨d3, _, h3⟩ := C70_bigraph_Gnp (K := K) m n hm hn
  obtain ⟨d4, _, h4⟩ := C70_uniform_hypergraph_Gnp (K := K) k n hk hn
  obtain ⟨g1, e1, G1⟩ := h1 1 ρ h01 le_rfl
  obtain ⟨g2, e2, G2⟩ := h2 1 ρ h01 le_rfl
  obtain ⟨g3, e3, G3⟩ := h3 1 ρ h01 le_rfl
  obtain ⟨g4, e4, G4⟩ := h4 1 ρ h01 le_rfl
  refine ⟨⟨g1, e1, ShowsEdges_congr G1 fun p => and_iff_left (hρ _)⟩,
    ⟨g2, e2, ShowsEdges_congr G2 fun p => and_iff_left (hρ _)⟩,
    ⟨g3, e3, G3.1, ShowsEdges_congr G3.2 fun p => and_iff_left (hρ _)⟩,
    ⟨g4, e4, G4.1, G4.2, G4.3, fun e w => ?_⟩⟩
  rw [G4.4, and_iff_left (hρ _)]

/-- C70. Sizes below two, a probability outside `[0, 1]` and hyperedges of fewer than two vertices
are refused. -/
theorem C70_refuses (ρ : Nat → K) (n m k : Int) (prob : K) :
    ((n ≤ 1 ∨ prob < 0 ∨ 1 < prob) → graphGnp n prob ρ = .error .assertion ∧
      digraphGnp n prob ρ = .error .assertion) ∧
    ((m ≤ 1 ∨ n ≤ 1 ∨ prob < 0 ∨ 1 < prob) → bigraphGnp m n prob ρ = .error .assertion) ∧
    ((k ≤ 1 ∨ n ≤ 1 ∨ prob < 0 ∨ 1 < prob) → uniformGnp k n prob ρ = .error .assertion) := by
  have hp : (prob < 0 ∨ 1 < prob) → ¬ (0 ≤ prob ∧ prob ≤ 1) := by
    rintro (h | h) ⟨h1, h2⟩
    · exact absurd h (not_lt.2 h1)
    · exact absurd h (not_lt.2 h2)
  refine ⟨fun h => ?_, fun h => ?_, fun h => ?_⟩
  · unfold graphGnp digraphGnp
    rcases h with h | h
    · rw [if_pos (by omega), if_pos (by omega)]; exact ⟨rfl, rfl⟩
    · simp only [hp h, not_false_eq_true, if_true, ite_self, and_self]
  · unfold bigraphGnp
    rcases h with h | h | h
    · by_cases h' : 1 < n
      · rw [if_neg (not_not.2 h'), if_pos (by omega)]
      · rw [if_pos h']
    · rw [if_pos (by omega)]
    · simp only [hp h, not_false_eq_true, if_true, ite_self]
  · unfold uniformGnp
    rcases h with h | h | h
    · by_cases h' : 1 < n
      · rw [if_neg (not_not.2 h'), if_pos (by omega)]
      · rw [if_pos h']
    · rw [if_pos (by omega)]
    · simp only [hp h, not_false_eq_true, if_true, ite_self]

end Gnp

/-- a concrete run: three vertices, probability one half, the draws alternate -/
example : ∃ g, graphGnp (K := ℝ) 3 (1 / 2) (fun i => if i % 2 = 0 then 0 else 3 / 4) = .ok g ∧
    (∃ E, Spec.GraphIs g 3 E) := by
  obtain ⟨d, _, h⟩ := C70_graph_Gnp (K := ℝ) 3 (by norm_num)
  obtain ⟨g, hg, hG⟩ := h (1 / 2) (fun i => if i % 2 = 0 then 0 else 3 / 4) (by norm_num) (by norm_num)
  exact ⟨g, hg, _, hG⟩

/-! ## C71 -/

theorem finish_ok {α β : Type} {mk : List α → Except Err β} {r : Option (Except Err (List α))} {b : β}
    (h : finish mk r = some (.ok b)) : ∃ l, r = some (.ok l) ∧ mk l = .ok b := by
  unfold finish at h
  cases r with
  | none => cases h
  | some x =>
    cases x with
    | error e => cases h
    | ok l => exact ⟨l, rfl, by simpa [Except.bind] using h⟩

/-- the state after `j` rounds of two draws each -/
theorem stateAt_two {α : Type} (f : Draws → Option α × Draws) (hf : ∀ ω, (f ω).2 = ω.tail.tail)
    (ω : Draws) (j t : Nat) : stateAt f ω j t = ω (2 * j + t) := by
  induction j generalizing t with
  | zero => simp [stateAt]
  | succ j ih =>
    simp only [stateAt]
    rw [hf]
    show stateAt f ω j (t + 1 + 1) = _
    rw [ih]
    congr 1
    omega

section Gnm
variable {K : Type} [Field K] [LinearOrder K] [PyReal K]

theorem pickGraph_mem {n : Nat} (hn : 0 < n) {ω ω' : Draws} {x : Int × Int}
    (h : pickGraph n ω = .ok (some x, ω')) : 0 ≤ x.1 ∧ x.1 < x.2 ∧ x.2 < n := by
  rw [pickGraph_eq hn] at h
  have hr := pair2_range hn hn ω
  by_cases he : (pair2 n n ω).1 = (pair2 n n ω).2
  · rw [if_pos he] at h; cases h
  · rw [if_neg he] at h
    simp only [Except.ok.injEq, Prod.mk.injEq, Option.some.injEq] at h
    rw [← h.1]
    unfold Graph.sortPair
    split <;> omega

theorem pickDigraph_mem {n : Nat} (hn : 0 < n) {ω ω' : Draws} {x : Int × Int}
    (h : pickDigraph n ω = .ok (some x, ω')) :
    0 ≤ x.1 ∧ x.1 < n ∧ 0 ≤ x.2 ∧ x.2 < n ∧ x.1 ≠ x.2 := by
  rw [pickDigraph_eq hn] at h
  have hr := pair2_range hn hn ω
  by_cases he : (pair2 n n ω).1 = (pair2 n n ω).2
  · rw [if_pos he] at h; cases h
  · rw [if_neg he] at h
    simp only [Except.ok.injEq, Prod.mk.injEq, Option.some.injEq] at h
    rw [← h.1]
    exact ⟨hr.1, hr.2.1, hr.2.2.1, hr.2.2.2, he⟩

theorem pickBigraph_mem {m n : Nat} (hm : 0 < m) (hn : 0 < n) {ω ω' : Draws} {x : Int × Int}
    (h : pickBigraph m n ω = .ok (some x, ω')) : 0 ≤ x.1 ∧ x.1 < m ∧ 0 ≤ x.2 ∧ x.2 < n := by
  rw [pickBigraph_eq hm hn] at h
  simp only [Except.ok.injEq, Prod.mk.injEq, Option.some.injEq] at h
  rw [← h.1]
  exact pair2_range hm hn ω

/-- what the rejection loop and an enumeration of the set deliver -/
theorem fill_ord {σ α : Type} [DecidableEq α] {pick : σ → Except Err (Option α × σ)} {m : Int}
    {P : α → Prop} (hP : ∀ s x s', pick s = .ok (some x, s') → P x) {fuel : Nat} {s : σ} {l : List α}
    (h : fill pick m fuel [] s = some (.ok l)) {ord : List α → List α}
    (hord : ∀ l, (ord l).Perm l) :
    (ord l).Nodup ∧ (∀ x ∈ ord l, P x) ∧ (ord l).length = m.toNat := by
  obtain ⟨h1, h2, h3⟩ := fill_ok hP fuel [] s l h List.nodup_nil (by simp) (by simp)
  refine ⟨(hord l).nodup_iff.2 h1, fun x hx => h2 x ((hord l).subset hx), ?_⟩
  rw [(hord l).length_eq]
  omega

theorem sortPair_id {es : List (Int × Int)} (h : ∀ e ∈ es, e.1 < e.2) : es.map Graph.sortPair = es := by
  conv_rhs => rw [← List.map_id es]
  refine List.map_congr_left fun e he => ?_
  unfold Graph.sortPair
  rw [if_pos (h e he).le]; rfl

theorem graph_of_fill {n : Int} (hn : 1 < n) {es : List (Int × Int)} (hd : es.Nodup)
    (hP : ∀ x ∈ es, 0 ≤ x.1 ∧ x.1 < x.2 ∧ x.2 < n) :
    ∃ g : GSt K, Graph.new n (some (.many es .none)) false .mean = .ok g ∧
      Spec.GraphIs g n (fun p => p ∈ es) ∧ (Spec.listing g).length = es.length := by
  have hsp := sortPair_id fun e he => (hP e he).2.1
  obtain ⟨g, hg, hG, hl⟩ := graph_new (K := K) (by omega : 0 < n) (es := es)
    (fun e he => (hP e he).2.1.ne) (fun e he => ⟨by have := hP e he; omega, (hP e he).2.2⟩)
    (by rw [hsp]; exact hd)
  rw [hsp] at hG hl
  exact ⟨g, hg, hG, by rw [hl]; simp⟩

/-- C71 (`graph_Gnm`). Whatever the draws, a returned graph has exactly `num_e` different edges
between different vertices below `num_v`. -/
theorem C71_graph_Gnm {n m : Int} {ord : List (Int × Int) → List (Int × Int)}
    (hord : ∀ l, (ord l).Perm l) {ω : Draws} {fuel : Nat} {g : GSt K}
    (h : graphGnm n m ord ω fuel = some (.ok g)) :
    (∃ E, Spec.GraphIs g n E ∧ ∀ p, E p → 0 ≤ p.1 ∧ p.1 < p.2 ∧ p.2 < n) ∧
      (Graph.ask .numE g).1 = .ok (.num m.toNat) := by
  unfold graphGnm at h
  by_cases hn : 1 < n
  · rw [if_neg (not_not.2 hn)] at h
    by_cases hb : m < n * (n - 1) / 2
    · rw [if_neg (not_not.2 hb)] at h
      obtain ⟨l, hl, hg⟩ := finish_ok h
      obtain ⟨h1, h2, h3⟩ := fill_ord (P := fun x : Int × Int => 0 ≤ x.1 ∧ x.1 < x.2 ∧ x.2 < n)
        (fun s x s' hx => by
          have := pickGraph_mem (by omega : 0 < n.toNat) hx
          omega) hl hord
      obtain ⟨g', hg', hG, hlen⟩ := graph_of_fill (K := K) hn h1 h2
      rw [hg'] at hg
      cases hg
      refine ⟨⟨_, hG, h2⟩, ?_⟩
      rw [hG.numE, hlen, h3]
    · rw [if_pos hb] at h; cases h
  · rw [if_pos hn] at h; cases h

/-- C71 (`graph_Gnm`). Asking for more edges than there are pairs of vertices is refused. -/
theorem C71_graph_Gnm_refuses (n m : Int) (ord : List (Int × Int) → List (Int × Int)) (ω : Draws)
    (fuel : Nat) (h : n ≤ 1 ∨ n * (n - 1) / 2 < m) :
    graphGnm (K := K) n m ord ω fuel = some (.error .assertion) := by
  unfold graphGnm
  by_cases hn : 1 < n
  · rw [if_neg (not_not.2 hn), if_pos (by omega)]
  · rw [if_pos hn]

/-- C71 (`graph_Gnm`) fails at the bound: the complete graph, `num_e = num_v (num_v - 1) / 2`, is
refused although the documentation only excludes larger values. -/
theorem C71_graph_Gnm_complete_false (n : Int) (ord : List (Int × Int) → List (Int × Int)) (ω : Draws)
    (fuel : Nat) : graphGnm (K := K) n (n * (n - 1) / 2) ord ω fuel = some (.error .assertion) := by
  unfold graphGnm
  by_cases hn : 1 < n
  · rw [if_neg (not_not.2 hn), if_pos (by omega)]
  · rw [if_pos hn]

/-- the unordered pairs, smaller vertex first -/
def pairs (n : Nat) : List (Int × Int) := (combinations 2 (rangeI n)).map fun l => (l.getD 0 0, l.getD 1 0)

theorem pairs_length (n : Nat) : ((pairs n).length : Int) = (n : Int) * (n - 1) / 2 := by
  unfold pairs
  rw [List.length_map, combinations_length, rangeI_length, Nat.choose_two_right]
  push_cast
  cases n with
  | zero => rfl
  | succ n => push_cast; simp

theorem comb2 {n : Nat} {l : List Int} (h : l ∈ combinations 2 (rangeI n)) :
    ∃ a b, l = [a, b] ∧ 0 ≤ a ∧ a < b ∧ b < n := by
  obtain ⟨h1, h2⟩ := (mem_combinations _ _ _).1 h
  have hs := combinations_sorted h
  match l, h2 with
  | [a, b], _ =>
    have ha := mem_rangeI.1 (h1.subset (List.mem_cons_self))
    have hb := mem_rangeI.1 (h1.subset (List.mem_cons_of_mem _ List.mem_cons_self))
    simp at hs
    exact ⟨a, b, rfl, ha.1, hs, hb.2⟩

theorem pairs_nodup (n : Nat) : (pairs n).Nodup := by
  refine List.Nodup.map_on ?_ (combinations_nodup _ _ (rangeI_nodup n))
  intro x hx y hy h
  obtain ⟨a, b, rfl, _⟩ := comb2 hx
  obtain ⟨c, d, rfl, _⟩ := comb2 hy
  simpa using h

theorem mem_pairs {n : Nat} {p : Int × Int} (h : p ∈ pairs n) : 0 ≤ p.1 ∧ p.1 < p.2 ∧ p.2 < n := by
  obtain ⟨l, hl, rfl⟩ := List.mem_map.1 h
  obtain ⟨a, b, rfl, h1⟩ := comb2 hl
  simpa using h1

theorem perms2_length (n : Nat) : (perms2 n).length = n * (n - 1) := by
  unfold perms2
  rw [List.length_flatMap]
  have : ∀ a ∈ rangeI n, (((rangeI n).filter fun b => decide (a ≠ b)).map fun b => (a, b)).length = n - 1 := by
    intro a ha
    rw [List.length_map]
    have h1 : ((rangeI n).erase a).length = n - 1 := by rw [List.length_erase_of_mem ha, rangeI_length]
    rw [← h1, (rangeI_nodup n).erase_eq_filter]
    congr 1
    refine List.filter_congr fun b _ => ?_
    by_cases h : a = b
    · simp [h]
    · simp [h, Ne.symm h]
  rw [List.map_congr_left this, List.map_const', List.sum_replicate, rangeI_length, smul_eq_mul]

theorem product_length (m n : Nat) : (product m n).length = m * n := by
  unfold product
  rw [List.length_flatMap]
  have : ∀ a ∈ rangeI m, ((rangeI n).map fun b => (a, b)).length = n := by
    intro a _
    rw [List.length_map, rangeI_length]
  rw [List.map_congr_left this, List.map_const', List.sum_replicate, rangeI_length, smul_eq_mul]

/-- a loop that ends, followed by a constructor that accepts, returns -/
theorem finish_returns {σ α β : Type} [DecidableEq α] {pick : σ → Except Err (Option α × σ)}
    {f : σ → Option α × σ} (hf : ∀ s, pick s = .ok (f s)) {m : Int} {D : List α} (hD : D.Nodup)
    (hm : m ≤ D.length) {s : σ} (hr : Recurs f D s) {mk : List α → Except Err β}
    (hmk : ∀ fuel l, fill pick m fuel [] s = some (.ok l) → ∃ b, mk l = .ok b) :
    ∃ fuel b, ∀ fuel' ≥ fuel, finish mk (fill pick m fuel' [] s) = some (.ok b) := by
  obtain ⟨fuel, l, hl⟩ := fill_returns hf hD hm (m.toNat) [] s (by simp) List.nodup_nil hr
  obtain ⟨b, hb⟩ := hmk fuel l hl
  refine ⟨fuel, b, fun fuel' hge => ?_⟩
  rw [fill_mono_le hge hl]
  simp [finish, Except.bind, hb]

/-- C71 (`graph_Gnm`). The generation ends on every stream that keeps drawing every pair.  Missing:
`num_e` equal to the number of pairs, which raises (`C71_graph_Gnm_complete_false`). -/
theorem C71_graph_Gnm_returns_partial {n m : Int} (hn : 1 < n) (hb : m < n * (n - 1) / 2)
    {ord : List (Int × Int) → List (Int × Int)} (hord : ∀ l, (ord l).Perm l) {ω : Draws}
    (hω : Spec.Fair n.toNat n.toNat ω) :
    ∃ fuel g, ∀ fuel' ≥ fuel, graphGnm (K := K) n m ord ω fuel' = some (.ok g) := by
  have hn0 : 0 < n.toNat := by omega
  have hn' : ((n.toNat : Nat) : Int) = n := by omega
  have key := finish_returns (pickGraph_eq hn0) (pairs_nodup n.toNat) (m := m)
    (by rw [pairs_length, hn']; omega) (s := ω) ?_
    (mk := fun es => Graph.new (K := K) n (some (.many (ord es) .none)) false .mean) ?_
  · obtain ⟨fuel, g, h⟩ := key
    refine ⟨fuel, g, fun fuel' hf => ?_⟩
    unfold graphGnm
    rw [if_neg (not_not.2 hn), if_neg (not_not.2 hb)]
    exact h fuel' hf
  · intro x hx k
    obtain ⟨h1, h2, h3⟩ := mem_pairs hx
    obtain ⟨j, hj, ha, hb⟩ := hω x.1.toNat (by omega) x.2.toNat (by omega) k
    refine ⟨j, hj, ?_⟩
    have hp : pair2 n.toNat n.toNat (stateAt (fun s : Draws => (if (pair2 n.toNat n.toNat s).1 =
        (pair2 n.toNat n.toNat s).2 then none else some (Graph.sortPair (pair2 n.toNat n.toNat s)),
        s.tail.tail)) ω j) = x := by
      unfold pair2
      rw [stateAt_two _ (fun _ => rfl), stateAt_two _ (fun _ => rfl)]
      refine Prod.ext ?_ ?_
      · simp only [Nat.add_zero, ha]; omega
      · simp only [hb]; omega
    simp only [hp]
    rw [if_neg (by omega)]
    unfold Graph.sortPair
    rw [if_pos (by omega)]
  · intro fuel l hl
    obtain ⟨h1, h2, h3⟩ := fill_ord (P := fun x : Int × Int => 0 ≤ x.1 ∧ x.1 < x.2 ∧ x.2 < n)
        (fun s x s' hx => by
          have := pickGraph_mem hn0 hx
          omega) hl hord
    obtain ⟨g, hg, _⟩ := graph_of_fill (K := K) hn h1 h2
    exact ⟨g, hg⟩

/-- C71 (`digraph_Gnm`). -/
theorem C71_digraph_Gnm {n m : Int} {ord : List (Int × Int) → List (Int × Int)}
    (hord : ∀ l, (ord l).Perm l) {ω : Draws} {fuel : Nat} {g : DSt K}
    (h : digraphGnm n m ord ω fuel = some (.ok g)) :
    (∃ E, Spec.DigraphIs g n E ∧
        ∀ p, E p → 0 ≤ p.1 ∧ p.1 < n ∧ 0 ≤ p.2 ∧ p.2 < n ∧ p.1 ≠ p.2) ∧
      (DiGraph.ask .numE g).1 = .ok (.num m.toNat) := by
  unfold digraphGnm at h
  by_cases hn : 1 < n
  · rw [if_neg (not_not.2 hn)] at h
    by_cases hb : m < n * (n - 1)
    · rw [if_neg (not_not.2 hb)] at h
      obtain ⟨l, hl, hg⟩ := finish_ok h
      obtain ⟨h1, h2, h3⟩ := fill_ord
        (P := fun x : Int × Int => 0 ≤ x.1 ∧ x.1 < n ∧ 0 ≤ x.2 ∧ x.2 < n ∧ x.1 ≠ x.2)
        (fun s x s' hx => by
          have := pickDigraph_mem (by omega : 0 < n.toNat) hx
          omega) hl hord
      obtain ⟨g', hg', hG, hlen⟩ := digraph_new (K := K) (by omega : 0 < n)
        (fun e he => (h2 e he).2.2.2.2) (fun e he => ⟨(h2 e he).2.1, (h2 e he).2.2.2.1⟩) h1
      rw [hg'] at hg
      cases hg
      refine ⟨⟨_, hG, h2⟩, ?_⟩
      rw [hG.numE, hlen, List.length_map, h3]
    · rw [if_pos hb] at h; cases h
  · rw [if_pos hn] at h; cases h

/-- C71 (`digraph_Gnm`). -/
theorem C71_digraph_Gnm_refuses (n m : Int) (ord : List (Int × Int) → List (Int × Int)) (ω : Draws)
    (fuel : Nat) (h : n ≤ 1 ∨ n * (n - 1) < m) :
    digraphGnm (K := K) n m ord ω fuel = some (.error .assertion) := by
  unfold digraphGnm
  by_cases hn : 1 < n
  · rw [if_neg (not_not.2 hn), if_pos (by omega)]
  · rw [if_pos hn]

/-- C71 (`digraph_Gnm`) fails at the bound: the complete directed graph is refused. -/
theorem C71_digraph_Gnm_complete_false (n : Int) (ord : List (Int × Int) → List (Int × Int))
    (ω : Draws) (fuel : Nat) :
    digraphGnm (K := K) n (n * (n - 1)) ord ω fuel = some (.error .assertion) := by
  unfold digraphGnm
  by_cases hn : 1 < n
  · rw [if_neg (not_not.2 hn), if_pos (by omega)]
  · rw [if_pos hn]

/-- C71 (`digraph_Gnm`). The generation ends on every stream that keeps drawing every pair.  Missing:
`num_e` equal to the number of pairs, which raises (`C71_digraph_Gnm_complete_false`). -/
theorem C71_digraph_Gnm_returns_partial {n m : Int} (hn : 1 < n) (hb : m < n * (n - 1))
    {ord : List (Int × Int) → List (Int × Int)} (hord : ∀ l, (ord l).Perm l) {ω : Draws}
    (hω : Spec.Fair n.toNat n.toNat ω) :
    ∃ fuel g, ∀ fuel' ≥ fuel, digraphGnm (K := K) n m ord ω fuel' = some (.ok g) := by
  have hn0 : 0 < n.toNat := by omega
  have hn' : ((n.toNat : Nat) : Int) = n := by omega
  have key := finish_returns (pickDigraph_eq hn0) (perms2_nodup n.toNat) (m := m)
    (by
      rw [perms2_length]
      have : ((n.toNat * (n.toNat - 1) : Nat) : Int) = n * (n - 1) := by
        rw [Int.natCast_mul, hn', Int.natCast_sub (by omega), hn']; rfl
      omega) (s := ω) ?_
    (mk := fun es => DiGraph.new (K := K) n (some (.many (ord es) .none)) false .mean) ?_
  · obtain ⟨fuel, g, h⟩ := key
    refine ⟨fuel, g, fun fuel' hf => ?_⟩
    unfold digraphGnm
    rw [if_neg (not_not.2 hn), if_neg (not_not.2 hb)]
    exact h fuel' hf
  · intro x hx k
    obtain ⟨h1, h2, h3, h4, h5⟩ := mem_perms2.1 hx
    obtain ⟨j, hj, ha, hb⟩ := hω x.1.toNat (by omega) x.2.toNat (by omega) k
    refine ⟨j, hj, ?_⟩
    have hp : pair2 n.toNat n.toNat (stateAt (fun s : Draws => (if (pair2 n.toNat n.toNat s).1 =
        (pair2 n.toNat n.toNat s).2 then none else some (pair2 n.toNat n.toNat s),
        s.tail.tail)) ω j) = x := by
      unfold pair2
      rw [stateAt_two _ (fun _ => rfl), stateAt_two _ (fun _ => rfl)]
      refine Prod.ext ?_ ?_
      · simp only [Nat.add_zero, ha]; omega
      · simp only [hb]; omega
    simp only [hp]
    rw [if_neg (by omega)]
  · intro fuel l hl
    obtain ⟨h1, h2, h3⟩ := fill_ord
        (P := fun x : Int × Int => 0 ≤ x.1 ∧ x.1 < n ∧ 0 ≤ x.2 ∧ x.2 < n ∧ x.1 ≠ x.2)
        (fun s x s' hx => by
          have := pickDigraph_mem hn0 hx
          omega) hl hord
    obtain ⟨g, hg, _⟩ := digraph_new (K := K) (by omega : 0 < n)
        (fun e he => (h2 e he).2.2.2.2) (fun e he => ⟨(h2 e he).2.1, (h2 e he).2.2.2.1⟩) h1
    exact ⟨g, hg⟩

/-- C71 (`bigraph_Gnm`). -/
theorem C71_bigraph_Gnm {m n e : Int} {ord : List (Int × Int) → List (Int × Int)}
    (hord : ∀ l, (ord l).Perm l) {ω : Draws} {fuel : Nat} {g : BSt K}
    (h : bigraphGnm m n e ord ω fuel = some (.ok g)) :
    (∃ E, Spec.BigraphIs g m n E ∧ ∀ p, E p → 0 ≤ p.1 ∧ p.1 < m ∧ 0 ≤ p.2 ∧ p.2 < n) ∧
      (BiGraph.ask .numE g).1 = .ok (.num e.toNat) := by
  unfold bigraphGnm at h
  by_cases hm : 1 < m
  · rw [if_neg (not_not.2 hm)] at h
    by_cases hn : 1 < n
    · rw [if_neg (not_not.2 hn)] at h
      by_cases hb : e ≤ n * m
      · rw [if_neg (not_not.2 hb)] at h
        obtain ⟨l, hl, hg⟩ := finish_ok h
        obtain ⟨h1, h2, h3⟩ := fill_ord
          (P := fun x : Int × Int => 0 ≤ x.1 ∧ x.1 < m ∧ 0 ≤ x.2 ∧ x.2 < n)
          (fun s x s' hx => by
            have := pickBigraph_mem (by omega : 0 < m.toNat) (by omega : 0 < n.toNat) hx
            omega) hl hord
        obtain ⟨g', hg', hG, hlen⟩ := bigraph_new (K := K) (by omega : 0 ≤ m) (by omega : 0 < n)
          (fun e he => ⟨(h2 e he).2.1, (h2 e he).2.2.2⟩) h1
        rw [hg'] at hg
        cases hg
        refine ⟨⟨_, hG, h2⟩, ?_⟩
        rw [hG.2.numE, hlen, List.length_map, h3]
      · rw [if_pos hb] at h; cases h
    · rw [if_pos hn] at h; cases h
  · rw [if_pos hm] at h; cases h

/-- C71 (`bigraph_Gnm`). -/
theorem C71_bigraph_Gnm_refuses (m n e : Int) (ord : List (Int × Int) → List (Int × Int)) (ω : Draws)
    (fuel : Nat) (h : m ≤ 1 ∨ n ≤ 1 ∨ m * n < e) :
    bigraphGnm (K := K) m n e ord ω fuel = some (.error .assertion) := by
  unfold bigraphGnm
  by_cases hm : 1 < m
  · by_cases hn : 1 < n
    · have : n * m = m * n := mul_comm _ _
      rw [if_neg (not_not.2 hm), if_neg (not_not.2 hn), if_pos (by omega)]
    · rw [if_neg (not_not.2 hm), if_pos hn]
  · rw [if_pos hm]

/-- C71 (`bigraph_Gnm`). The generation ends on every stream that keeps drawing every pair, up to
and including the complete bipartite graph. -/
theorem C71_bigraph_Gnm_returns {m n e : Int} (hm : 1 < m) (hn : 1 < n) (hb : e ≤ m * n)
    {ord : List (Int × Int) → List (Int × Int)} (hord : ∀ l, (ord l).Perm l) {ω : Draws}
    (hω : Spec.Fair m.toNat n.toNat ω) :
    ∃ fuel g, ∀ fuel' ≥ fuel, bigraphGnm (K := K) m n e ord ω fuel' = some (.ok g) := by
  have hn0 : 0 < n.toNat := by omega
  have hm0 : 0 < m.toNat := by omega
  have hn' : ((n.toNat : Nat) : Int) = n := by omega
  have hm' : ((m.toNat : Nat) : Int) = m := by omega
  have key := finish_returns (pickBigraph_eq hm0 hn0) (product_nodup m.toNat n.toNat) (m := e)
    (by rw [product_length, Int.natCast_mul, hn', hm']; omega) (s := ω) ?_
    (mk := fun es => BiGraph.new (K := K) m.toNat n (some (.many (ord es) .none)) .mean) ?_
  · obtain ⟨fuel, g, h⟩ := key
    refine ⟨fuel, g, fun fuel' hf => ?_⟩
    have : n * m = m * n := mul_comm _ _
    unfold bigraphGnm
    rw [if_neg (not_not.2 hm), if_neg (not_not.2 hn), if_neg (by omega)]
    exact h fuel' hf
  · intro x hx k
    obtain ⟨h1, h2, h3, h4⟩ := mem_product.1 hx
    obtain ⟨j, hj, ha, hb⟩ := hω x.1.toNat (by omega) x.2.toNat (by omega) k
    refine ⟨j, hj, ?_⟩
    simp only [Option.some.injEq]
    unfold pair2
    rw [stateAt_two _ (fun _ => rfl), stateAt_two _ (fun _ => rfl)]
    refine Prod.ext ?_ ?_
    · simp only [Nat.add_zero, ha]; omega
    · simp only [hb]; omega
  · intro fuel l hl
    obtain ⟨h1, h2, h3⟩ := fill_ord
        (P := fun x : Int × Int => 0 ≤ x.1 ∧ x.1 < m ∧ 0 ≤ x.2 ∧ x.2 < n)
        (fun s x s' hx => by
          have := pickBigraph_mem hm0 hn0 hx
          omega) hl hord
    obtain ⟨g, hg, _⟩ := bigraph_new (K := K) (by omega : 0 ≤ m) (by omega : 0 < n)
        (fun e he => ⟨(h2 e he).2.1, (h2 e he).2.2.2⟩) h1
    exact ⟨g, hg⟩

end Gnm

/-- streams that keep drawing every pair exist -/
theorem fair_exists (m n : Nat) (hm : 0 < m) (hn : 0 < n) :
    Spec.Fair m n (fun t => if t % 2 = 0 then t / 2 / n else t / 2) := by
  intro a ha b hb k
  refine ⟨(m * k + a) * n + b, ?_, ?_, ?_⟩
  · have h1 : k ≤ m * k := Nat.le_mul_of_pos_left k hm
    have h2 : m * k + a ≤ (m * k + a) * n := Nat.le_mul_of_pos_right _ hn
    omega
  · have h1 : (2 * ((m * k + a) * n + b)) % 2 = 0 := by omega
    have h2 : 2 * ((m * k + a) * n + b) / 2 = (m * k + a) * n + b := by omega
    simp only [h1, if_true, h2]
    rw [Nat.add_comm, Nat.add_mul_div_right _ _ hn, Nat.div_eq_of_lt hb, Nat.zero_add,
      Nat.mul_add_mod, Nat.mod_eq_of_lt ha]
  · have h1 : ¬ (2 * ((m * k + a) * n + b) + 1) % 2 = 0 := by omega
    have h2 : (2 * ((m * k + a) * n + b) + 1) / 2 = (m * k + a) * n + b := by omega
    simp only [h1, if_false, h2]
    rw [Nat.mul_comm, Nat.mul_add_mod, Nat.mod_eq_of_lt hb]

example : ∃ fuel g, ∀ fuel' ≥ fuel, graphGnm (K := ℝ) 4 5 id
    (fun t => if t % 2 = 0 then t / 2 / 4 else t / 2) fuel' = some (.ok g) :=
  C71_graph_Gnm_returns_partial (by norm_num) (by norm_num) (fun _ => List.Perm.refl _)
    (fair_exists 4 4 (by norm_num) (by norm_num))

example : ∃ fuel g, ∀ fuel' ≥ fuel, bigraphGnm (K := ℝ) 2 3 6 List.reverse
    (fun t => if t % 2 = 0 then t / 2 / 3 else t / 2) fuel' = some (.ok g) :=
  C71_bigraph_Gnm_returns (by norm_num) (by norm_num) (by norm_num)
    (fun l => List.reverse_perm l) (fair_exists 2 3 (by norm_num) (by norm_num))

end DHG
