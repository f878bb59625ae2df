import Verif.Props.EditsOrdered
import Verif.Props.Edits

/-!
# What one edge less changes (C121)
-/

set_option linter.unusedSectionVars false
set_option autoImplicit false

namespace DHG
namespace Props

open Finset
open Graph (AnyArg NonNeg lst)

variable {K : Type} [Field K] [LinearOrder K] [PyReal K]

namespace EditO

theorem erase_weight (m : Spec.WMap K) {a b : Int} {w : K} (h : m a b = some w) (i j : Int) :
    (Spec.O.erase m a b i j).getD 0 = (m i j).getD 0 + if i = a ∧ j = b then -w else 0 := by
  unfold Spec.O.erase
  by_cases hij : i = a ∧ j = b
  · obtain ⟨rfl, rfl⟩ := hij
    rw [if_pos ⟨rfl, rfl⟩, if_pos ⟨rfl, rfl⟩, h]; simp
  · rw [if_neg hij, if_neg hij, add_zero]

theorem remove_single (mu mv : Nat) (m : Spec.WMap K) {a b : Nat} (ha : a < mu) (hb : b < mv) :
    Spec.O.remove mu mv m (.single a b none) = Spec.O.erase m (a : Int) (b : Int) := by
  unfold Spec.O.remove
  rw [if_pos]
  · rfl
  · intro e he
    rw [Spec.named, List.mem_singleton] at he
    subst he
    exact ⟨Int.ofNat_lt.2 ha, Int.ofNat_lt.2 hb⟩

theorem stored {c : Cls} {r : GRaw K} (hr : Ord.Inv c r) {a b : Nat} {w : K} (h : (((a : Int), (b : Int)), w) ∈ lst r)
    (hab : a ≠ b ∨ r.extra = false) : Ord.absO r a b = some w := by
  rcases (Ord.mem_listing hr (a : Int) (b : Int) w).1 h with h | ⟨h1, h2, _⟩
  · exact h
  · rcases hab with hab | hab
    · exact absurd (Int.ofNat_inj.1 h2) hab
    · rw [hab] at h1; cases h1

end EditO

open EditO

/-- C121 (DiGraph). Removing the listed edge `(a,b)` takes exactly its weight times the features of its other end away from the
sums at `b` (from sources to targets) and at `a` (from targets to sources), and changes nothing elsewhere. -/
theorem C121_digraph_remove_edge {u : Bool} {g : DSt K} (hg : DiGraph.Built NonNeg u g) {n : Nat}
    (hn : (DiGraph.ask .numV g).1 = .ok (.num n)) {a b : Nat} (ha : a < n) (hb : b < n) {w : K}
    (hw : (((a : Int), (b : Int)), w) ∈ Spec.listingD g) (hab : a ≠ b ∨ g.raw.extra = false) (X : Dense K) (hX : X.rows = n)
    (keep : Nat → Bool) :
    (∃ Y Y', (DiGraph.ask (.v2v X .sum none .src2dst 0 keep) g).1 = .ok (.feat Y) ∧
      (DiGraph.ask (.v2v X .sum none .src2dst 0 keep) (DiGraph.apply (.removeEdges (.single a b none)) g).2).1 = .ok (.feat Y') ∧
      ∀ i c, Y'.at_ i c = Y.at_ i c - if i = b then w * X.at_ a c else 0) ∧
    (∃ Y Y', (DiGraph.ask (.v2v X .sum none .dst2src 0 keep) g).1 = .ok (.feat Y) ∧
      (DiGraph.ask (.v2v X .sum none .dst2src 0 keep) (DiGraph.apply (.removeEdges (.single a b none)) g).2).1 = .ok (.feat Y') ∧
      ∀ i c, Y'.at_ i c = Y.at_ i c - if i = a then w * X.at_ b c else 0) := by
  have hg' : DiGraph.Built NonNeg u (DiGraph.apply (.removeEdges (.single a b none)) g).2 :=
    .op _ hg (by simp) fun x op h => by cases h
  obtain ⟨s1, s2, s3⟩ := Ord.removeEdges_sizes (c := .di) (.single a b none) g
  have t1 : (DiGraph.apply (.removeEdges (.single a b none)) g).2.raw.numV = g.raw.numV := s1
  have t3 : (DiGraph.apply (.removeEdges (.single a b none)) g).2.raw.extra = g.raw.extra := s3
  have hn' := Di.numV_eq hg.any hn
  have hst := stored hg.inv (by rw [← Di.listing_lst hg]; exact hw) hab
  have hwt : ∀ i j : Nat, Spec.O.wt (Spec.listingD (DiGraph.apply (.removeEdges (.single a b none)) g).2) (i : Int) (j : Int) =
      Spec.O.wt (Spec.listingD g) (i : Int) (j : Int) + if i = a ∧ j = b then -w else 0 := by
    intro i j
    have hm : Ord.absO (DiGraph.apply (.removeEdges (.single a b none)) g).2.raw =
        Spec.O.remove g.raw.numV g.raw.numV (Ord.absO g.raw) (.single a b none) :=
      congrArg Spec.GState.map (DiGraph.absS_apply (.removeEdges (.single a b none)) g hg.inv)
    rw [Di.listing_lst hg, Di.listing_lst hg', wt_lst hg'.inv, wt_lst hg.inv, hm, hn', remove_single n n _ ha hb,
      erase_weight _ hst, t3, t1, hn']
    simp only [Nat.cast_inj]
    ring
  obtain ⟨⟨Y, hY, _, _, y⟩, ⟨Z, hZ, _, _, z⟩⟩ := C24_digraph_v2v_sum hg hn X hX keep
  obtain ⟨⟨Y', hY', _, _, y'⟩, ⟨Z', hZ', _, _, z'⟩⟩ := C24_digraph_v2v_sum hg' (n := n) (by
    show Except.ok (GAns.num _) = _
    rw [t1, hn']) X hX keep
  refine ⟨⟨Z, Z', hZ, hZ', fun i c => ?_⟩, ⟨Y, Y', hY, hY', fun i c => ?_⟩⟩
  · have := sum_more ha (fun j => Spec.O.wt (Spec.listingD g) (j : Int) (i : Int)) (fun j => X.at_ j c) (-w) (i = b)
    rw [z', z, sub_eq_add_neg, show -(if i = b then w * X.at_ a c else 0) = if i = b then -w * X.at_ a c else 0 by split <;> simp,
      ← this]
    exact sum_congr rfl fun j _ => by rw [hwt]; simp only [and_comm]
  · have := sum_more hb (fun j => Spec.O.wt (Spec.listingD g) (i : Int) (j : Int)) (fun j => X.at_ j c) (-w) (i = a)
    rw [y', y, sub_eq_add_neg, show -(if i = a then w * X.at_ b c else 0) = if i = a then -w * X.at_ b c else 0 by split <;> simp,
      ← this]
    exact sum_congr rfl fun j _ => by rw [hwt]

/-- C121 (BiGraph). The same for `u2v` at `b` and `v2u` at `a`. -/
theorem C121_bigraph_remove_edge {g : BSt K} (hg : BiGraph.Built NonNeg g) {m n : Nat} (hm : (BiGraph.ask .numU g).1 = .ok (.num m))
    (hn : (BiGraph.ask .numV g).1 = .ok (.num n)) (hx : Spec.Bipartite m n g) {a b : Nat} (ha : a < m) (hb : b < n) {w : K}
    (hw : (((a : Int), (b : Int)), w) ∈ Spec.listingB g) (hab : a ≠ b ∨ g.raw.extra = false)
    (X Y : Dense K) (hX : X.rows = m) (hY : Y.rows = n) (keep : Nat → Bool) :
    (∃ P P', (BiGraph.ask (.u2v X .sum none 0 keep) g).1 = .ok (.feat P) ∧
      (BiGraph.ask (.u2v X .sum none 0 keep) (BiGraph.apply (.removeEdges (.single a b none)) g).2).1 = .ok (.feat P') ∧
      ∀ v c, v < n → P'.at_ v c = P.at_ v c - if v = b then w * X.at_ a c else 0) ∧
    (∃ Q Q', (BiGraph.ask (.v2u Y .sum none 0 keep) g).1 = .ok (.feat Q) ∧
      (BiGraph.ask (.v2u Y .sum none 0 keep) (BiGraph.apply (.removeEdges (.single a b none)) g).2).1 = .ok (.feat Q') ∧
      ∀ u c, u < m → Q'.at_ u c = Q.at_ u c - if u = a then w * Y.at_ b c else 0) := by
  have hg' : BiGraph.Built NonNeg (BiGraph.apply (.removeEdges (.single a b none)) g).2 := .op _ hg fun x op h => by cases h
  obtain ⟨s1, s2, s3⟩ := Ord.removeEdges_sizes (c := .bi) (.single a b none) g
  have hn' := Bi.numV_eq hn
  have hm' := Bi.numU_eq hm
  have t1 : (BiGraph.apply (.removeEdges (.single a b none)) g).2.raw.numV = g.raw.numV := s1
  have t2 : (BiGraph.apply (.removeEdges (.single a b none)) g).2.raw.numU = g.raw.numU := s2
  have t3 : (BiGraph.apply (.removeEdges (.single a b none)) g).2.raw.extra = g.raw.extra := s3
  have hx' : Spec.Bipartite m n (BiGraph.apply (.removeEdges (.single a b none)) g).2 := by
    have := Bi.flag_of_bipartite hg (by rw [hn', hm']; exact hx)
    have h2 := Bi.bipartite_of_flag hg' (by rw [t1, t2, t3]; exact this)
    rwa [t1, t2, hn', hm'] at h2
  have hst := stored hg.inv (by rw [← Bi.listing_lst hg]; exact hw) hab
  have hwt : ∀ i j : Nat, Spec.O.wt (Spec.listingB (BiGraph.apply (.removeEdges (.single a b none)) g).2) (i : Int) (j : Int) =
      Spec.O.wt (Spec.listingB g) (i : Int) (j : Int) + if i = a ∧ j = b then -w else 0 := by
    intro i j
    have hmap : Ord.absO (BiGraph.apply (.removeEdges (.single a b none)) g).2.raw =
        Spec.O.remove g.raw.numU g.raw.numV (Ord.absO g.raw) (.single a b none) :=
      congrArg Spec.GState.map (BiGraph.absS_apply (.removeEdges (.single a b none)) g hg.inv)
    rw [Bi.listing_lst hg, Bi.listing_lst hg', wt_lst hg'.inv, wt_lst hg.inv, hmap, hn', hm', remove_single m n _ ha hb,
      erase_weight _ hst, t3, t1, hn']
    simp only [Nat.cast_inj]
    ring
  have gm : (BiGraph.ask .numU (BiGraph.apply (.removeEdges (.single a b none)) g).2).1 = .ok (.num m) := by
    show Except.ok (GAns.num _) = _
    rw [t2, hm']
  have gn : (BiGraph.ask .numV (BiGraph.apply (.removeEdges (.single a b none)) g).2).1 = .ok (.num n) := by
    show Except.ok (GAns.num _) = _
    rw [t1, hn']
  obtain ⟨B, P, Q, hB, hP, _, _, p, hQ, _, _, q⟩ := C27_bigraph_sum hg hm hn hx X Y hX hY keep
  obtain ⟨B', P', Q', hB', hP', _, _, p', hQ', _, _, q'⟩ := C27_bigraph_sum hg' gm gn hx' X Y hX hY keep
  obtain ⟨B1, _, e1, _, i1, _⟩ := C25_bigraph_incidence hg hm hn hx
  obtain ⟨B2, _, e2, _, i2, _⟩ := C25_bigraph_incidence hg' gm gn hx'
  rw [hB] at e1; cases e1
  rw [hB'] at e2; cases e2
  refine ⟨⟨P, P', hP, hP', fun v c hv => ?_⟩, ⟨Q, Q', hQ, hQ', fun u c hu => ?_⟩⟩
  · have := sum_more ha (fun j => B.get j v) (fun j => X.at_ j c) (-w) (v = b)
    rw [p', p, sub_eq_add_neg, show -(if v = b then w * X.at_ a c else 0) = if v = b then -w * X.at_ a c else 0 by split <;> simp,
      ← this]
    exact sum_congr rfl fun j hj => by
      rw [i2.get j v (mem_range.1 hj) hv, hwt, i1.get j v (mem_range.1 hj) hv]; simp only [and_comm]
  · have := sum_more hb (fun j => B.get u j) (fun j => Y.at_ j c) (-w) (u = a)
    rw [q', q, sub_eq_add_neg, show -(if u = a then w * Y.at_ b c else 0) = if u = a then -w * Y.at_ b c else 0 by split <;> simp,
      ← this]
    exact sum_congr rfl fun j hj => by rw [i2.get u j hu (mem_range.1 hj), hwt, i1.get u j hu (mem_range.1 hj)]

/-- C121 (Graph). Removing the listed edge `{a,b}` takes exactly its weight times the features of `b` away from the sum at `a` and
its weight times those of `a` away from the sum at `b`. -/
theorem C121_graph_remove_edge {g : GSt K} (hg : Graph.Built NonNeg g) {n : Nat} (hn : (Graph.ask .numV g).1 = .ok (.num n))
    {a b : Nat} (ha : a < n) (hb : b < n) (hab : a ≠ b) {w : K}
    (hw : (((a : Int), (b : Int)), w) ∈ Spec.listing g ∨ (((b : Int), (a : Int)), w) ∈ Spec.listing g)
    (X : Dense K) (hX : X.rows = n) (keep : Nat → Bool) :
    ∃ Y Y', (Graph.ask (.v2v X .sum none 0 keep) g).1 = .ok (.feat Y) ∧
      (Graph.ask (.v2v X .sum none 0 keep) (Graph.apply (.removeEdges (.single a b none)) g).2).1 = .ok (.feat Y') ∧
      ∀ i c, Y'.at_ i c = Y.at_ i c - (if i = a then w * X.at_ b c else 0) - (if i = b then w * X.at_ a c else 0) := by
  have hg' : Graph.Built NonNeg (Graph.apply (.removeEdges (.single a b none)) g).2 := .op _ hg fun x op h => by cases h
  obtain ⟨h1, h2⟩ := Graph.absS_apply (.removeEdges (.single a b none)) g hg.inv.1
  have hn' := numV_eq hn
  have hst : Graph.absR g.raw a b = some w := by
    rw [listing_lst hg] at hw
    rcases (Graph.mem_listing hg.inv.1 (a : Int) (b : Int) w).1 hw with h | ⟨_, h, _⟩
    · exact h
    · exact absurd (Int.ofNat_inj.1 h) hab
  have hst' : Graph.absR g.raw b a = some w := by rw [Graph.absR_symm]; exact hst
  obtain ⟨Y, hY, _, _, y⟩ := C12_graph_v2v_sum hg hn X hX keep
  obtain ⟨Y', hY', _, _, y'⟩ := C12_graph_v2v_sum hg' (n := n) (by rw [← hn', ← h2]; rfl) X hX keep
  have hwt : ∀ i j : Nat, Spec.wt (Spec.listing (Graph.apply (.removeEdges (.single a b none)) g).2) (i : Int) (j : Int) =
      (Spec.wt (Spec.listing g) (i : Int) (j : Int) + if i = a ∧ j = b then -w else 0) + if i = b ∧ j = a then -w else 0 := by
    intro i j
    have hx : (Graph.apply (.removeEdges (.single a b none)) g).2.raw.extra = g.raw.extra := congrArg Spec.GState.extra h1
    have hm : Graph.absR (Graph.apply (.removeEdges (.single a b none)) g).2.raw =
        Spec.remove g.raw.numV (Graph.absR g.raw) (.single a b none) := congrArg Spec.GState.map h1
    have hrem : Spec.remove g.raw.numV (Graph.absR g.raw) (.single a b none) = Spec.erase (Graph.absR g.raw) (a : Int) (b : Int) := by
      unfold Spec.remove
      rw [if_pos]
      · rfl
      · intro e he
        rw [Spec.named, List.mem_singleton] at he
        subst he
        rw [hn']
        exact ⟨Int.ofNat_lt.2 ha, Int.ofNat_lt.2 hb⟩
    rw [listing_lst hg, listing_lst hg', wt_absR hg'.inv.1, wt_absR hg.inv.1, h2, hx, hm, hrem]
    have he : (Spec.erase (Graph.absR g.raw) (a : Int) (b : Int) (i : Int) (j : Int)).getD 0 =
        (Graph.absR g.raw i j).getD 0 + ((if i = a ∧ j = b then -w else 0) + if i = b ∧ j = a then -w else 0) := by
      unfold Spec.erase
      by_cases c1 : i = a ∧ j = b
      · obtain ⟨rfl, rfl⟩ := c1
        rw [if_pos (.inl ⟨rfl, rfl⟩), hst]; simp [hab]
      · by_cases c2 : i = b ∧ j = a
        · obtain ⟨rfl, rfl⟩ := c2
          rw [if_pos (.inr ⟨rfl, rfl⟩), hst']; simp [hab]
        · rw [if_neg (by omega), if_neg c1, if_neg c2]; simp
    rw [he]
    ring
  refine ⟨Y, Y', hY, hY', fun i c => ?_⟩
  have e1 := sum_more hb (fun j => Spec.wt (Spec.listing g) (i : Int) (j : Int)) (fun j => X.at_ j c) (-w) (i = a)
  have e2 := sum_more ha (fun j => Spec.wt (Spec.listing g) (i : Int) (j : Int) + if i = a ∧ j = b then -w else 0)
    (fun j => X.at_ j c) (-w) (i = b)
  rw [y', y, sum_congr rfl fun j _ => by rw [hwt], e2, e1]
  split <;> split <;> ring

example : Graph.Built NonNeg exG ∧ (Graph.ask .numV exG).1 = .ok (.num 3) ∧ ((((0 : Nat) : Int), ((1 : Nat) : Int)), 2) ∈ Spec.listing exG :=
  ⟨exG_nonneg, exG_numV, by rw [exG_listing]; simp⟩

example : DiGraph.Built NonNeg false exD ∧ (DiGraph.ask .numV exD).1 = .ok (.num 3) ∧
    ((((1 : Nat) : Int), ((2 : Nat) : Int)), 3) ∈ Spec.listingD exD := ⟨exD_nonneg, rfl, by rw [exD_listing]; simp⟩

example : ∃ m n, BiGraph.Built NonNeg exB ∧ (BiGraph.ask .numU exB).1 = .ok (.num m) ∧ (BiGraph.ask .numV exB).1 = .ok (.num n) ∧
    Spec.Bipartite m n exB ∧ 0 < m ∧ 2 < n ∧ ((((0 : Nat) : Int), ((2 : Nat) : Int)), 3) ∈ Spec.listingB exB :=
  ⟨_, _, exB_nonneg, exB_numU, exB_numV, exB_flag, by decide, by decide, by rw [exB_listing]; simp⟩

end Props
end DHG
