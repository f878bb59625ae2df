import Mathlib.Data.Multiset.Filter
import Mathlib.Data.Multiset.Dedup
import Verif.HyperAbs

/-!
# Sub-hypergraphs: specification and lemmas
-/

set_option linter.unusedSectionVars false
set_option autoImplicit false

namespace DHG

namespace Spec

/-- number of distinct chosen vertices below `v` -/
def rank (vl : List Int) (v : Int) : Int := ((vl.dedup.filter fun u => decide (u < v)).length : Int)

/-- the chosen vertices of a hyperedge, renamed by rank -/
def restrict (vl : List Int) (e : Multiset Int) : Multiset Int :=
  (e.filter fun v => v ∈ vl).map (rank vl)

/-- the hyperedge keeps enough (distinct) vertices -/
def Enough (vl : List Int) (keepOne : Bool) (e : Multiset Int) : Prop :=
  (if keepOne then 1 else 2) ≤ (e.dedup.filter fun v => v ∈ vl).card

end Spec

namespace Hyper

variable {K : Type} [Field K] [LinearOrder K] [PyReal K] {b : Bool}

theorem idxOf_eq_rank {l : List Int} (h : l.Pairwise (· < ·)) {v : Int} (hv : v ∈ l) :
    l.idxOf v = (l.filter fun u => decide (u < v)).length := by
  induction l with
  | nil => exact absurd hv List.not_mem_nil
  | cons a l ih =>
    rw [List.pairwise_cons] at h
    by_cases ha : a = v
    · subst ha
      rw [List.idxOf_cons_self, List.filter_cons_of_neg (by simp)]
      symm
      rw [List.length_eq_zero_iff, List.filter_eq_nil_iff]
      intro u hu
      have := h.1 u hu
      simp only [decide_eq_true_eq]; omega
    · have hv' : v ∈ l := by
        rcases List.mem_cons.1 hv with h' | h'
        · exact absurd h'.symm ha
        · exact h'
      rw [List.idxOf_cons_ne _ ha, List.filter_cons_of_pos (by simpa using h.1 v hv'), List.length_cons,
        ih h.2 hv']

theorem sortedSet_pairwise (vl : List Int) : (sortedSet vl).Pairwise (· < ·) := by
  have h1 := sortV_sorted vl.dedup
  have h2 : (sortV vl.dedup).Pairwise (· ≠ ·) := sortedSet_nodup vl
  exact (List.Pairwise.and h1 h2).imp fun h => by omega

theorem idxOf_sortedSet {vl : List Int} {v : Int} (hv : v ∈ vl) :
    ((sortedSet vl).idxOf v : Int) = Spec.rank vl v := by
  unfold Spec.rank
  rw [idxOf_eq_rank (sortedSet_pairwise vl) (mem_sortedSet.2 hv)]
  congr 1
  exact ((sortV_perm vl.dedup).filter _).length_eq

theorem subEdge_coe {vl : List Int} {k : Bool} {e e' : List Int}
    (h : subEdge (sortedSet vl) k e = some e') :
    (e' : Multiset Int) = Spec.restrict vl (e : Multiset Int) ∧
      Spec.Enough vl k (e : Multiset Int) := by
  obtain ⟨h1, rfl⟩ := subEdge_some h
  have hf : (fun v => decide (v ∈ sortedSet vl)) = fun v => decide (v ∈ vl) := by
    funext v; simp only [mem_sortedSet]
  rw [hf] at h1
  constructor
  · rw [coe_sortV, hf]
    unfold Spec.restrict
    rw [Multiset.filter_coe, Multiset.map_coe]
    congr 1
    refine List.map_congr_left fun v hv => ?_
    exact idxOf_sortedSet (by simpa using (List.mem_filter.1 hv).2)
  · unfold Spec.Enough
    rw [Multiset.coe_dedup, Multiset.filter_coe, Multiset.coe_card]
    exact h1

theorem subEdge_of_enough {vl : List Int} {k : Bool} {e : List Int}
    (h : Spec.Enough vl k (e : Multiset Int)) : ∃ e', subEdge (sortedSet vl) k e = some e' := by
  unfold Spec.Enough at h
  rw [Multiset.coe_dedup, Multiset.filter_coe, Multiset.coe_card] at h
  have hf : (fun v => decide (v ∈ sortedSet vl)) = fun v => decide (v ∈ vl) := by
    funext v; simp only [mem_sortedSet]
  unfold subEdge
  rw [hf, if_neg (Nat.not_lt.2 h)]
  exact ⟨_, rfl⟩

theorem subGroup_get {vs : List Int} {k : Bool} (d acc : HGroup K) (e : List Int) :
    let res := d.foldl (fun acc p => match subEdge vs k p.1 with
      | none => acc
      | some e => acc.set e p.2) acc
    (∀ w, Dict.get? res e = some w →
      Dict.get? acc e = some w ∨ ∃ e0, (e0, w) ∈ d ∧ subEdge vs k e0 = some e) ∧
    ((∃ e0 w0, (e0, w0) ∈ d ∧ subEdge vs k e0 = some e) ∨ (Dict.get? acc e).isSome →
      (Dict.get? res e).isSome) := by
  induction d generalizing acc with
  | nil =>
    refine ⟨fun w h => .inl h, ?_⟩
    rintro (⟨e0, w0, h, _⟩ | h)
    · exact absurd h List.not_mem_nil
    · exact h
  | cons p d ih =>
    simp only [List.foldl_cons]
    cases hs : subEdge vs k p.1 with
    | none =>
      obtain ⟨h1, h2⟩ := ih acc
      refine ⟨fun w h => ?_, ?_⟩
      · rcases h1 w h with h | ⟨e0, h, h'⟩
        · exact .inl h
        · exact .inr ⟨e0, List.mem_cons_of_mem _ h, h'⟩
      · rintro (⟨e0, w0, h, h'⟩ | h)
        · rcases List.mem_cons.1 h with rfl | h
          · rw [hs] at h'; cases h'
          · exact h2 (.inl ⟨e0, w0, h, h'⟩)
        · exact h2 (.inr h)
    | some e1 =>
      obtain ⟨h1, h2⟩ := ih (Dict.set acc e1 p.2)
      refine ⟨fun w h => ?_, ?_⟩
      · rcases h1 w h with h | ⟨e0, h, h'⟩
        · rw [Dict.get?_set] at h
          by_cases he : e1 = e
          · rw [if_pos he] at h
            cases h
            exact .inr ⟨p.1, List.mem_cons_self, he ▸ hs⟩
          · rw [if_neg he] at h
            exact .inl h
        · exact .inr ⟨e0, List.mem_cons_of_mem _ h, h'⟩
      · rintro (⟨e0, w0, h, h'⟩ | h)
        · rcases List.mem_cons.1 h with rfl | h
          · rw [hs] at h'; cases h'
            exact h2 (.inr (by rw [Dict.get?_set]; simp))
          · exact h2 (.inl ⟨e0, w0, h, h'⟩)
        · refine h2 (.inr ?_)
          rw [Dict.get?_set]
          split
          · rfl
          · exact h

theorem listed_of {s : HSt K} (hs : Coh b s) (g : String) (e : Multiset Int) (w : K) :
    Spec.HListed s g e w ↔ ∃ d, s.raw.groups.get? g = some d ∧
      ∃ l : List Int, (l : Multiset Int) = e ∧ (l, w) ∈ d := by
  unfold Spec.HListed
  rw [hListing_eq hs]
  cases s.raw.groups.get? g with
  | none => simp
  | some d => simp

/-- content of a sub-hypergraph -/
theorem sub_listed {s s' : HSt K} {vl : List Int} {k : Bool} (hs : Coh b s)
    (h : subgraph vl k s = .ok s') (g : String) :
    (∀ e w, Spec.HListed s' g e w →
      ∃ e0, Spec.HListed s g e0 w ∧ Spec.Enough vl k e0 ∧ e = Spec.restrict vl e0) ∧
    (∀ e0 w0, Spec.HListed s g e0 w0 → Spec.Enough vl k e0 →
      ∃ w, Spec.HListed s' g (Spec.restrict vl e0) w) := by
  obtain ⟨hs', hgr⟩ : Coh true s' ∧ s'.raw.groups =
      s.raw.groups.map fun p => (p.1, subGroup (sortedSet vl) k p.2) := by
    obtain ⟨_, _, rfl⟩ := subgraph_ok h
    exact ⟨coherentOn_nil, rfl⟩
  have hget : Dict.get? (s.raw.groups.map fun p => (p.1, subGroup (sortedSet vl) k p.2)) g =
      (s.raw.groups.get? g).map (subGroup (sortedSet vl) k) :=
    Dict.get?_map_val s.raw.groups (fun _ d => subGroup (sortedSet vl) k d) g
  constructor
  · intro e w hl
    rw [listed_of hs'] at hl
    obtain ⟨d, hd, l, rfl, hlw⟩ := hl
    rw [hgr, hget] at hd
    cases hg : s.raw.groups.get? g with
    | none => rw [hg] at hd; cases hd
    | some d0 =>
      rw [hg] at hd; cases hd
      have hw := (Dict.get?_eq_some_iff _ (subGroup_spec d0).1 l w).2 hlw
      rcases (subGroup_get (vs := sortedSet vl) (k := k) d0 [] l).1 w hw with h | ⟨e0, h1, h2⟩
      · cases h
      · obtain ⟨h3, h4⟩ := subEdge_coe h2
        exact ⟨(e0 : Multiset Int), (listed_of hs g _ _).2 ⟨d0, hg, e0, rfl, h1⟩, h4, h3⟩
  · intro e0 w0 hl hen
    rw [listed_of hs] at hl
    obtain ⟨d0, hg, l, rfl, hlw⟩ := hl
    obtain ⟨e', he'⟩ := subEdge_of_enough hen
    have := (subGroup_get (vs := sortedSet vl) (k := k) d0 [] e').2 (.inl ⟨l, w0, hlw, he'⟩)
    obtain ⟨w, hw⟩ := Option.isSome_iff_exists.1 this
    refine ⟨w, (listed_of hs' g _ _).2 ⟨subGroup (sortedSet vl) k d0, ?_, e', (subEdge_coe he').1, ?_⟩⟩
    · rw [hgr, hget, hg]; rfl
    · exact (Dict.get?_eq_some_iff _ (subGroup_spec d0).1 e' w).1 hw

theorem rank_all {vl : List Int} {n : Nat} (h : ∀ v, v ∈ vl ↔ 0 ≤ v ∧ v < (n : Int)) {v : Int}
    (hv : 0 ≤ v ∧ v < (n : Int)) : Spec.rank vl v = v := by
  unfold Spec.rank
  have hp : (vl.dedup.filter fun u => decide (u < v)).Perm ((List.range v.toNat).map Int.ofNat) := by
    rw [List.perm_ext_iff_of_nodup ((List.nodup_dedup vl).filter _)
      (List.nodup_range.map fun a b hab => Int.ofNat.inj hab)]
    intro a
    simp only [List.mem_filter, List.mem_dedup, h, decide_eq_true_eq, List.mem_map, List.mem_range]
    constructor
    · rintro ⟨⟨h1, _⟩, h2⟩
      exact ⟨a.toNat, by omega, Int.toNat_of_nonneg h1⟩
    · rintro ⟨x, hx, rfl⟩
      refine ⟨⟨Int.natCast_nonneg x, ?_⟩, ?_⟩ <;> · show (x : Int) < _; omega
  rw [hp.length_eq]
  simp only [List.length_map, List.length_range]
  exact Int.toNat_of_nonneg hv.1

theorem restrict_all {vl : List Int} {n : Nat} (h : ∀ v, v ∈ vl ↔ 0 ≤ v ∧ v < (n : Int))
    {e : Multiset Int} (he : ∀ v ∈ e, 0 ≤ v ∧ v < (n : Int)) : Spec.restrict vl e = e := by
  unfold Spec.restrict
  rw [Multiset.filter_eq_self.2 fun v hv => (h v).2 (he v hv)]
  conv_rhs => rw [← Multiset.map_id e]
  exact Multiset.map_congr rfl fun v hv => rank_all h (he v hv)

theorem enough_all {vl : List Int} {n : Nat} (h : ∀ v, v ∈ vl ↔ 0 ≤ v ∧ v < (n : Int))
    {e : Multiset Int} (he : ∀ v ∈ e, 0 ≤ v ∧ v < (n : Int)) (hne : e ≠ 0) : Spec.Enough vl true e := by
  unfold Spec.Enough
  rw [Multiset.filter_eq_self.2 fun v hv => (h v).2 (he v (Multiset.mem_dedup.1 hv))]
  rw [if_pos rfl, Nat.one_le_iff_ne_zero, Ne, Multiset.card_eq_zero]
  intro hc
  obtain ⟨v, hv⟩ := Multiset.exists_mem_of_ne_zero hne
  have := Multiset.mem_dedup.2 hv
  rw [hc] at this
  exact absurd this (Multiset.notMem_zero v)

end Hyper
end DHG
