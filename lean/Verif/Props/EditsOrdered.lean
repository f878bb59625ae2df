import Verif.Props.DiGraphMatrices
import Verif.Props.BiGraphMatrices

/-!
# What one more edge changes in directed and bipartite graphs (C121)
-/

set_option linter.unusedSectionVars false
set_option autoImplicit false

namespace DHG
namespace Props

open Finset
open Graph (AnyArg NonNeg lst)

variable {K : Type} [Field K] [LinearOrder K] [PyReal K]

namespace EditO

theorem wt_app (a b : List ((Int × Int) × K)) (i j : Int) : Spec.O.wt (a ++ b) i j = Spec.O.wt a i j + Spec.O.wt b i j := by
  simp [Spec.O.wt]

theorem sum_dict {κ : Type} [DecidableEq κ] (d : Dict κ K) (hn : d.keys.Nodup) (a : κ) :
    (d.map fun e => if e.1 = a then e.2 else 0).sum = (d.get? a).getD 0 := by
  induction d with
  | nil => rfl
  | cons e d ih =>
    rw [Dict.keys_cons, List.nodup_cons] at hn
    rw [List.map_cons, List.sum_cons, ih hn.2, Dict.get?]
    by_cases h : e.1 = a
    · rw [if_pos h, if_pos h]
      have : Dict.get? d a = none := by
        rw [Dict.get?_eq_none_iff]; rw [← h]; exact hn.1
      rw [this]; simp
    · rw [if_neg h, if_neg h, zero_add]

/-- the loops listed because of the flag -/
def extras (K : Type) [Field K] (x : Bool) (n : Nat) : List ((Int × Int) × K) :=
  if x then (List.range n).map fun v : Nat => (((v : Int), (v : Int)), (1 : K)) else []

/-- weights of the listing from the stored ones -/
theorem wt_lst {c : Cls} {r : GRaw K} (hr : Ord.Inv c r) (i j : Int) :
    Spec.O.wt (lst r) i j = (Ord.absO r i j).getD 0 + Spec.O.wt (extras K r.extra r.numV) i j := by
  have hlst : lst r = r.eDict ++ r.loops.map (fun p => ((p.1, p.1), p.2)) ++ extras K r.extra r.numV := Graph.zip_listing r
  have e1 : Spec.O.wt r.eDict i j = (r.eDict.get? (i, j)).getD 0 := sum_dict _ hr.nodupE (i, j)
  have e2 : Spec.O.wt (r.loops.map fun p => ((p.1, p.1), p.2)) i j = if i = j then (r.loops.get? i).getD 0 else 0 := by
    unfold Spec.O.wt
    rw [List.map_map]
    by_cases hij : i = j
    · subst hij
      rw [if_pos rfl, ← sum_dict _ hr.nodupL]
      congr 1
      apply List.map_congr_left
      intro p _
      simp [Prod.ext_iff]
    · rw [if_neg hij]
      apply List.sum_eq_zero
      intro x hx
      obtain ⟨p, _, rfl⟩ := List.mem_map.1 hx
      simp only [Function.comp, Prod.mk.injEq]
      rw [if_neg]
      rintro ⟨h1, h2⟩; exact hij (h1.symm.trans h2)
  rw [hlst, wt_app, wt_app, e1, e2]
  congr 1
  unfold Ord.absO
  cases hh : Dict.get? r.eDict (i, j) with
  | none => by_cases hij : i = j <;> simp [hij]
  | some v =>
    have : (if i = j then (r.loops.get? i).getD 0 else 0) = 0 := by
      by_cases hij : i = j
      · subst hij
        cases c with
        | di => rw [hr.get_diag] at hh; cases hh
        | bi => rw [hr.noL rfl]; simp
      · rw [if_neg hij]
    rw [this]; simp

theorem put_sum (m : Spec.WMap K) (a b i j : Int) (w : K) :
    (Spec.O.put m .sum a b w i j).getD 0 = (m i j).getD 0 + if i = a ∧ j = b then w else 0 := by
  unfold Spec.O.put
  by_cases h : i = a ∧ j = b
  · obtain ⟨rfl, rfl⟩ := h
    rw [if_pos ⟨rfl, rfl⟩, if_pos ⟨rfl, rfl⟩]
    cases m i j <;> simp [Spec.merge]
  · rw [if_neg h, if_neg h, add_zero]

theorem add_single (mu mv : Nat) (m : Spec.WMap K) {a b : Nat} (ha : a < mu) (hb : b < mv) (w : K) :
    Spec.O.add mu mv m (.single a b (some w)) .sum = Spec.O.put m .sum (a : Int) (b : Int) w := by
  unfold Spec.O.add
  rw [if_pos]
  · rfl
  · refine ⟨fun e he => ?_, by decide⟩
    rw [Spec.named, List.mem_singleton] at he
    subst he
    exact ⟨Int.ofNat_lt.2 ha, Int.ofNat_lt.2 hb⟩

/-- one term more in a sum -/
theorem sum_more {n a : Nat} (ha : a < n) (f x : Nat → K) (w : K) (q : Prop) [Decidable q] :
    ∑ j ∈ range n, (f j + if q ∧ j = a then w else 0) * x j = ∑ j ∈ range n, f j * x j + if q then w * x a else 0 := by
  have : ∀ j ∈ range n, (f j + if q ∧ j = a then w else 0) * x j = f j * x j + if j = a then (if q then w * x a else 0) else 0 := by
    intro j _
    rw [add_mul]
    congr 1
    by_cases hj : j = a
    · subst hj; by_cases hq : q <;> simp [hq]
    · simp [hj]
  rw [sum_congr rfl this, sum_add_distrib, sum_ite_eq' (range n), if_pos (mem_range.2 ha)]

end EditO

open EditO

/-- C121 (DiGraph). The exact effect of adding the edge `(a,b)` with weight `w` (merged by adding; `a = b` allowed) on `v2v`
with `aggr="sum"`: from sources to targets `w` times the features of `a` are added at `b`, from targets to sources `w` times those
of `b` at `a`, and nothing changes elsewhere. -/
theorem C121_digraph_add_edge {u : Bool} {g : DSt K} (hg : DiGraph.Built NonNeg u g) {n : Nat}
    (hn : (DiGraph.ask .numV g).1 = .ok (.num n)) {a b : Nat} (ha : a < n) (hb : b < n) (w : K) (X : Dense K) (hX : X.rows = n)
    (keep : Nat → Bool) :
    (∃ Y Y', (DiGraph.ask (.v2v X .sum none .src2dst 0 keep) g).1 = .ok (.feat Y) ∧
      (DiGraph.ask (.v2v X .sum none .src2dst 0 keep) (DiGraph.apply (.addEdges (.single a b (some w)) .sum) g).2).1 = .ok (.feat Y') ∧
      ∀ i c, Y'.at_ i c = Y.at_ i c + if i = b then w * X.at_ a c else 0) ∧
    (∃ Y Y', (DiGraph.ask (.v2v X .sum none .dst2src 0 keep) g).1 = .ok (.feat Y) ∧
      (DiGraph.ask (.v2v X .sum none .dst2src 0 keep) (DiGraph.apply (.addEdges (.single a b (some w)) .sum) g).2).1 = .ok (.feat Y') ∧
      ∀ i c, Y'.at_ i c = Y.at_ i c + if i = a then w * X.at_ b c else 0) := by
  have hg' : DiGraph.Built NonNeg u (DiGraph.apply (.addEdges (.single a b (some w)) .sum) g).2 :=
    .op _ hg (by simp) fun x op h => by cases h; exact ⟨Int.natCast_nonneg _, Int.natCast_nonneg _⟩
  obtain ⟨s1, s2, s3⟩ := Ord.addEdges_sizes (c := .di) (.single a b (some w)) .sum g
  have hn' := Di.numV_eq hg.any hn
  have hwt : ∀ i j : Nat, Spec.O.wt (Spec.listingD (DiGraph.apply (.addEdges (.single a b (some w)) .sum) g).2) (i : Int) (j : Int) =
      Spec.O.wt (Spec.listingD g) (i : Int) (j : Int) + if i = a ∧ j = b then w else 0 := by
    intro i j
    have hm : Ord.absO (DiGraph.apply (.addEdges (.single a b (some w)) .sum) g).2.raw =
        Spec.O.add g.raw.numV g.raw.numV (Ord.absO g.raw) (.single a b (some w)) .sum :=
      congrArg Spec.GState.map (DiGraph.absS_apply (.addEdges (.single a b (some w)) .sum) g hg.inv)
    rw [Di.listing_lst hg, Di.listing_lst hg', wt_lst hg'.inv, wt_lst hg.inv, hm, hn', add_single n n _ ha hb, put_sum]
    rw [show (DiGraph.apply (.addEdges (.single a b (some w)) .sum) g).2.raw.extra = g.raw.extra from s3,
      show (DiGraph.apply (.addEdges (.single a b (some w)) .sum) g).2.raw.numV = g.raw.numV from s1, hn']
    simp only [Nat.cast_inj]
    ring
  obtain ⟨⟨Y, hY, _, _, y⟩, ⟨Z, hZ, _, _, z⟩⟩ := C24_digraph_v2v_sum hg hn X hX keep
  obtain ⟨⟨Y', hY', _, _, y'⟩, ⟨Z', hZ', _, _, z'⟩⟩ := C24_digraph_v2v_sum hg' (n := n) (by
    show Except.ok (GAns.num _) = _
    rw [show (DiGraph.apply (.addEdges (.single a b (some w)) .sum) g).2.raw.numV = g.raw.numV from s1, hn']) X hX keep
  refine ⟨⟨Z, Z', hZ, hZ', fun i c => ?_⟩, ⟨Y, Y', hY, hY', fun i c => ?_⟩⟩
  · rw [z', z, ← sum_more ha (fun j => Spec.O.wt (Spec.listingD g) (j : Int) (i : Int)) (fun j => X.at_ j c) w (i = b)]
    exact sum_congr rfl fun j _ => by rw [hwt]; simp only [and_comm]
  · rw [y', y, ← sum_more hb (fun j => Spec.O.wt (Spec.listingD g) (i : Int) (j : Int)) (fun j => X.at_ j c) w (i = a)]
    exact sum_congr rfl fun j _ => by rw [hwt]

/-- C121 (BiGraph). The exact effect of adding the edge between `a` in `U` and `b` in `V` with weight `w` (merged by adding):
`u2v` with `aggr="sum"` adds `w` times the features of `a` at `b`, `v2u` adds `w` times those of `b` at `a`. -/
theorem C121_bigraph_add_edge {g : BSt K} (hg : BiGraph.Built NonNeg g) {m n : Nat} (hm : (BiGraph.ask .numU g).1 = .ok (.num m))
    (hn : (BiGraph.ask .numV g).1 = .ok (.num n)) (hx : Spec.Bipartite m n g) {a b : Nat} (ha : a < m) (hb : b < n) (w : K)
    (X Y : Dense K) (hX : X.rows = m) (hY : Y.rows = n) (keep : Nat → Bool) :
    (∃ P P', (BiGraph.ask (.u2v X .sum none 0 keep) g).1 = .ok (.feat P) ∧
      (BiGraph.ask (.u2v X .sum none 0 keep) (BiGraph.apply (.addEdges (.single a b (some w)) .sum) g).2).1 = .ok (.feat P') ∧
      ∀ v c, v < n → P'.at_ v c = P.at_ v c + if v = b then w * X.at_ a c else 0) ∧
    (∃ Q Q', (BiGraph.ask (.v2u Y .sum none 0 keep) g).1 = .ok (.feat Q) ∧
      (BiGraph.ask (.v2u Y .sum none 0 keep) (BiGraph.apply (.addEdges (.single a b (some w)) .sum) g).2).1 = .ok (.feat Q') ∧
      ∀ u c, u < m → Q'.at_ u c = Q.at_ u c + if u = a then w * Y.at_ b c else 0) := by
  have hg' : BiGraph.Built NonNeg (BiGraph.apply (.addEdges (.single a b (some w)) .sum) g).2 :=
    .op _ hg fun x op h => by cases h; exact ⟨Int.natCast_nonneg _, Int.natCast_nonneg _⟩
  obtain ⟨s1, s2, s3⟩ := Ord.addEdges_sizes (c := .bi) (.single a b (some w)) .sum g
  have hn' := Bi.numV_eq hn
  have hm' := Bi.numU_eq hm
  have t1 : (BiGraph.apply (.addEdges (.single a b (some w)) .sum) g).2.raw.numV = g.raw.numV := s1
  have t2 : (BiGraph.apply (.addEdges (.single a b (some w)) .sum) g).2.raw.numU = g.raw.numU := s2
  have t3 : (BiGraph.apply (.addEdges (.single a b (some w)) .sum) g).2.raw.extra = g.raw.extra := s3
  have hx' : Spec.Bipartite m n (BiGraph.apply (.addEdges (.single a b (some w)) .sum) g).2 := by
    have := Bi.flag_of_bipartite hg (by rw [hn', hm']; exact hx)
    have h2 := Bi.bipartite_of_flag hg' (by rw [t1, t2, t3]; exact this)
    rwa [t1, t2, hn', hm'] at h2
  have hwt : ∀ i j : Nat, Spec.O.wt (Spec.listingB (BiGraph.apply (.addEdges (.single a b (some w)) .sum) g).2) (i : Int) (j : Int) =
      Spec.O.wt (Spec.listingB g) (i : Int) (j : Int) + if i = a ∧ j = b then w else 0 := by
    intro i j
    have hmap : Ord.absO (BiGraph.apply (.addEdges (.single a b (some w)) .sum) g).2.raw =
        Spec.O.add g.raw.numU g.raw.numV (Ord.absO g.raw) (.single a b (some w)) .sum :=
      congrArg Spec.GState.map (BiGraph.absS_apply (.addEdges (.single a b (some w)) .sum) g hg.inv)
    rw [Bi.listing_lst hg, Bi.listing_lst hg', wt_lst hg'.inv, wt_lst hg.inv, hmap, hn', hm', add_single m n _ ha hb, put_sum,
      t3, t1, hn']
    simp only [Nat.cast_inj]
    ring
  have gm : (BiGraph.ask .numU (BiGraph.apply (.addEdges (.single a b (some w)) .sum) g).2).1 = .ok (.num m) := by
    show Except.ok (GAns.num _) = _
    rw [t2, hm']
  have gn : (BiGraph.ask .numV (BiGraph.apply (.addEdges (.single a b (some w)) .sum) g).2).1 = .ok (.num n) := by
    show Except.ok (GAns.num _) = _
    rw [t1, hn']
  obtain ⟨B, P, Q, hB, hP, _, _, p, hQ, _, _, q⟩ := C27_bigraph_sum hg hm hn hx X Y hX hY keep
  obtain ⟨B', P', Q', hB', hP', _, _, p', hQ', _, _, q'⟩ := C27_bigraph_sum hg' gm gn hx' X Y hX hY keep
  obtain ⟨B1, _, e1, _, i1, _⟩ := C25_bigraph_incidence hg hm hn hx
  obtain ⟨B2, _, e2, _, i2, _⟩ := C25_bigraph_incidence hg' gm gn hx'
  rw [hB] at e1; cases e1
  rw [hB'] at e2; cases e2
  refine ⟨⟨P, P', hP, hP', fun v c hv => ?_⟩, ⟨Q, Q', hQ, hQ', fun u c hu => ?_⟩⟩
  · rw [p', p, ← sum_more ha (fun j => B.get j v) (fun j => X.at_ j c) w (v = b)]
    exact sum_congr rfl fun j hj => by
      rw [i2.get j v (mem_range.1 hj) hv, hwt, i1.get j v (mem_range.1 hj) hv]; simp only [and_comm]
  · rw [q', q, ← sum_more hb (fun j => B.get u j) (fun j => Y.at_ j c) w (u = a)]
    exact sum_congr rfl fun j hj => by rw [i2.get u j hu (mem_range.1 hj), hwt, i1.get u j hu (mem_range.1 hj)]

/-- one more edge from 0 to 2 -/
example : DiGraph.Built NonNeg false exD ∧ (DiGraph.ask .numV exD).1 = .ok (.num 3) ∧ 0 < 3 ∧ 2 < 3 := ⟨exD_nonneg, rfl, by omega, by omega⟩

example : ∃ m n, BiGraph.Built NonNeg exB ∧ (BiGraph.ask .numU exB).1 = .ok (.num m) ∧ (BiGraph.ask .numV exB).1 = .ok (.num n) ∧
    Spec.Bipartite m n exB ∧ 0 < m ∧ 1 < n := ⟨_, _, exB_nonneg, exB_numU, exB_numV, exB_flag, by decide, by decide⟩

end Props
end DHG
