import Verif.HyperSub
import Verif.HyperListSpec
import Verif.OrderedMat
import Verif.BiMat

/-!
# Incidence, weights, degrees and neighbours of a `Hypergraph`
-/

set_option linter.unusedSectionVars false
set_option autoImplicit false

namespace DHG
namespace Hyper

open Finset

variable {K : Type} [Field K] [LinearOrder K]

/-- the hyperedges of the scope -/
def lstOf (sc : Option String) (r : HRaw K) : List (List Int × K) :=
  match sc with
  | none => r.groups.flatMap Prod.snd
  | some g => (r.groups.get? g).getD []

/-- the scope exists -/
def Has (sc : Option String) (r : HRaw K) : Prop :=
  match sc with
  | none => r.groups ≠ []
  | some g => (r.groups.get? g).isSome

/-- hyperedges with distinct vertices in range -/
def Rng (n : Nat) (l : List (List Int × K)) : Prop :=
  ∀ e ∈ l, e.1.Nodup ∧ ∀ v ∈ e.1, 0 ≤ v ∧ v < (n : Int)

/-- `M` is the incidence matrix of `l` -/
structure IncM (n : Nat) (l : List (List Int × K)) (M : Sp K) : Prop where
  rows : M.rows = n
  cols : M.cols = l.length
  nodup : (M.ents.map Prod.fst).Nodup
  ones : ∀ e ∈ M.ents, e.2 = 1
  keys : ∀ i j, (i, j) ∈ M.ents.map Prod.fst ↔ i < n ∧ j < l.length ∧ (i : Int) ∈ Spec.hAt l j

theorem hAt_of_lt {l : List (List Int × K)} {j : Nat} (h : j < l.length) :
    Spec.hAt l j = l[j].1 := by
  unfold Spec.hAt; simp [List.getD_eq_getElem?_getD, h]

theorem hWt_of_lt {l : List (List Int × K)} {j : Nat} (h : j < l.length) :
    Spec.hWt l j = l[j].2 := by
  unfold Spec.hWt; simp [List.getD_eq_getElem?_getD, h]

theorem hAt_of_ge {l : List (List Int × K)} {j : Nat} (h : l.length ≤ j) :
    Spec.hAt l j = [] := by
  unfold Spec.hAt; simp [List.getD_eq_getElem?_getD, List.getElem?_eq_none h]

theorem hAt_append (l l' : List (List Int × K)) (j : Nat) :
    Spec.hAt (l ++ l') j = if j < l.length then Spec.hAt l j else Spec.hAt l' (j - l.length) := by
  unfold Spec.hAt
  by_cases h : j < l.length
  · rw [if_pos h]; simp [List.getD_eq_getElem?_getD, List.getElem?_append, h]
  · rw [if_neg h]; simp [List.getD_eq_getElem?_getD, List.getElem?_append, h]

theorem IncM.wf {n : Nat} {l : List (List Int × K)} {M : Sp K} (h : IncM n l M) : M.WF := by
  intro e he
  have := (h.keys e.1.1 e.1.2).1 (List.mem_map.2 ⟨e, he, rfl⟩)
  rw [h.rows, h.cols]
  exact ⟨this.1, this.2.1⟩

theorem IncM.get {n : Nat} {l : List (List Int × K)} {M : Sp K} (h : IncM n l M) {i : Nat} (hi : i < n)
    (j : Nat) : M.get i j = Spec.inc l i j := by
  unfold Spec.inc Sp.get
  by_cases hm : (i : Int) ∈ Spec.hAt l j
  · have hj : j < l.length := by
      by_contra hj
      rw [hAt_of_ge (by omega)] at hm
      exact absurd hm List.not_mem_nil
    rw [if_pos hm]
    obtain ⟨e, he, hk⟩ := List.mem_map.1 ((h.keys i j).2 ⟨hi, hj, hm⟩)
    have := h.ones e he
    obtain ⟨k, x⟩ := e
    simp only at hk this
    subst hk; subst this
    exact Ents.get_of_mem h.nodup he
  · rw [if_neg hm]
    apply Ents.get_eq_zero
    intro hk
    exact hm ((h.keys i j).1 hk).2.2

theorem fetchH_spec {n : Nat} {d : HGroup K} (hd : Rng n d) :
    ∃ M, fetchH n d = .ok M ∧ IncM n d M ∧ Ents.Sorted M.ents := by
  unfold fetchH
  simp only
  set idx : List (Int × Int) := d.keys.zipIdx.flatMap fun p => p.1.map fun v => (v, (p.2 : Int)) with hidx
  have hmem : ∀ a c : Int, (a, c) ∈ idx ↔ ∃ j : Nat, j < List.length d ∧ c = j ∧ a ∈ Spec.hAt d j := by
    intro a c
    rw [hidx, List.mem_flatMap]
    constructor
    · rintro ⟨p, hp, hv⟩
      obtain ⟨v, hv, heq⟩ := List.mem_map.1 hv
      have hp' := List.mem_zipIdx' hp
      simp only [Prod.mk.injEq] at heq
      have hl : p.2 < List.length d := by have := hp'.1; simpa [Dict.keys] using this
      refine ⟨p.2, hl, heq.2.symm, ?_⟩
      rw [hAt_of_lt hl, ← heq.1]
      have h2 := hp'.2
      simp only [Dict.keys, List.getElem_map] at h2
      rw [← h2]; exact hv
    · rintro ⟨j, hj, rfl, ha⟩
      rw [hAt_of_lt hj] at ha
      refine ⟨((d : List (List Int × K))[j].1, j), ?_, List.mem_map.2 ⟨a, ha, rfl⟩⟩
      rw [List.mem_zipIdx_iff_getElem?]
      simp [Dict.keys, hj]
  have hshape : ∀ p ∈ idx, InShape n (List.length d) p := by
    rintro ⟨a, c⟩ hp
    obtain ⟨j, hj, rfl, ha⟩ := (hmem a c).1 hp
    rw [hAt_of_lt hj] at ha
    have := (hd _ (List.getElem_mem hj)).2 a ha
    unfold InShape
    simp only
    omega
  have hnd : idx.Nodup := by
    rw [hidx, List.nodup_flatMap]
    constructor
    · intro p hp
      have hp' := List.mem_zipIdx' hp
      have hl : p.2 < List.length d := by have := hp'.1; simpa [Dict.keys] using this
      have h2 := hp'.2
      simp only [Dict.keys, List.getElem_map] at h2
      refine List.Nodup.map (fun x y h => (Prod.mk.inj h).1) ?_
      rw [h2]
      exact (hd _ (List.getElem_mem hl)).1
    · have : (d.keys.zipIdx.map Prod.snd).Nodup := by
        rw [List.zipIdx_map_snd]; exact List.nodup_range'
      rw [List.Nodup, List.pairwise_map] at this
      refine this.imp ?_
      intro p q hpq x hx hy
      obtain ⟨v, _, rfl⟩ := List.mem_map.1 hx
      obtain ⟨w, _, hw⟩ := List.mem_map.1 hy
      have := (Prod.mk.inj hw).2
      omega
  have hb : Sp.build n (List.length d) idx (List.replicate idx.length (1 : K)) =
      .ok { rows := n, cols := List.length d,
            ents := (idx.map fun p => (p.1.toNat, p.2.toNat)).zip (List.replicate idx.length (1 : K)) } := by
    rw [Sp.build_eq, if_pos ⟨by simp, hshape⟩]
  set E : Ents K := (idx.map fun p => (p.1.toNat, p.2.toNat)).zip (List.replicate idx.length (1 : K)) with hE
  have hkeys : E.map Prod.fst = idx.map fun p => (p.1.toNat, p.2.toNat) := by
    rw [hE, List.map_fst_zip]; simp
  have hEn : (E.map Prod.fst).Nodup := by
    rw [hkeys]
    refine List.Nodup.map_on ?_ hnd
    intro p hp q hq h
    have h1 := hshape p hp
    have h2 := hshape q hq
    unfold InShape at h1 h2
    simp only [Prod.mk.injEq] at h
    apply Prod.ext <;> omega
  have hperm := Ord.coalesce_perm hEn
  have hone : ∀ e ∈ E, e.2 = 1 := by
    intro e he
    exact List.eq_of_mem_replicate (List.of_mem_zip (a := e.1) (b := e.2) he).2
  refine ⟨_, by rw [hb]; rfl, ⟨rfl, rfl, ?_, ?_, ?_⟩, sorted_coalesce _⟩
  · exact ((hperm.map Prod.fst).nodup_iff).2 hEn
  · intro e he; exact hone e ((hperm.mem_iff).1 he)
  · intro i j
    show _ ∈ (Ents.coalesce E).map Prod.fst ↔ _
    rw [(hperm.map Prod.fst).mem_iff, hkeys, List.mem_map]
    constructor
    · rintro ⟨⟨a, c⟩, hp, heq⟩
      have h1 := hshape _ hp
      unfold InShape at h1
      obtain ⟨j', hj, rfl, ha⟩ := (hmem a c).1 hp
      simp only [Prod.mk.injEq, Int.toNat_natCast] at heq h1
      obtain ⟨h3, rfl⟩ := heq
      refine ⟨by omega, hj, ?_⟩
      have : (i : Int) = a := by omega
      rw [this]; exact ha
    · rintro ⟨hi, hj, hm⟩
      exact ⟨((i : Int), (j : Int)), (hmem _ _).2 ⟨j, hj, rfl, hm⟩, by simp⟩

theorem hcat_spec {n : Nat} {l l' : List (List Int × K)} {P Q : Sp K} (hP : IncM n l P)
    (hQ : IncM n l' Q) : ∃ R, P.hcat Q = .ok R ∧ IncM n (l ++ l') R := by
  unfold Sp.hcat
  rw [if_pos (hP.rows.trans hQ.rows.symm)]
  refine ⟨_, rfl, ?_, ?_, ?_, ?_, ?_⟩
  · exact hP.rows
  · simp [hP.cols, hQ.cols]
  · rw [List.map_append, List.map_map]
    refine List.nodup_append.2 ⟨hP.nodup, ?_, ?_⟩
    · have h1 := hQ.nodup
      have : (Q.ents.map (Prod.fst ∘ fun e => ((e.1.1, e.1.2 + P.cols), e.2))) =
          (Q.ents.map Prod.fst).map fun k => (k.1, k.2 + P.cols) := by
        rw [List.map_map]; rfl
      rw [this]
      refine h1.map ?_
      rintro ⟨a, b⟩ ⟨c, d⟩ h
      simp only [Prod.mk.injEq] at h ⊢
      omega
    · intro a ha b hb hab
      obtain ⟨e, he, rfl⟩ := List.mem_map.1 ha
      obtain ⟨e', he', rfl⟩ := List.mem_map.1 hb
      have h1 := (hP.wf e he).2
      have h2 : e.1.2 = e'.1.2 + P.cols := by rw [hab]; rfl
      omega
  · intro e he
    rcases List.mem_append.1 he with h | h
    · exact hP.ones e h
    · obtain ⟨e', he', rfl⟩ := List.mem_map.1 h; exact hQ.ones e' he'
  · intro i j
    rw [List.map_append, List.mem_append, hP.keys, hAt_append, List.length_append, List.map_map]
    have h2 : (i, j) ∈ Q.ents.map (Prod.fst ∘ fun e => ((e.1.1, e.1.2 + P.cols), e.2)) ↔
        l.length ≤ j ∧ (i, j - l.length) ∈ Q.ents.map Prod.fst := by
      simp only [List.mem_map, Function.comp, hP.cols]
      constructor
      · rintro ⟨e, he, h⟩
        obtain ⟨⟨a, c⟩, x⟩ := e
        simp only [Prod.mk.injEq] at h
        obtain ⟨rfl, rfl⟩ := h
        exact ⟨by omega, ((a, c), x), he, by simp⟩
      · rintro ⟨hj, e, he, h⟩
        refine ⟨e, he, ?_⟩
        rw [h]
        simp only [Prod.mk.injEq, true_and]
        omega
    rw [h2, hQ.keys]
    by_cases hj : j < l.length
    · rw [if_pos hj]
      constructor
      · rintro (⟨a, b, c⟩ | ⟨a, _⟩)
        · exact ⟨a, by omega, c⟩
        · omega
      · rintro ⟨a, _, c⟩; exact .inl ⟨a, hj, c⟩
    · rw [if_neg hj]
      constructor
      · rintro (⟨_, b, _⟩ | ⟨a, b, c, d⟩)
        · exact absurd b hj
        · exact ⟨b, by omega, d⟩
      · rintro ⟨a, b, c⟩; exact .inr ⟨by omega, a, by omega, c⟩

theorem catCols_spec {n : Nat} {gs : List (String × HGroup K)} {Ms : List (Sp K)}
    (h : List.Forall₂ (fun p M => IncM n p.2 M) gs Ms) (hne : gs ≠ []) :
    ∃ R, Sp.catCols Ms = .ok R ∧ IncM n (gs.flatMap Prod.snd) R := by
  induction h with
  | nil => exact absurd rfl hne
  | @cons p M gs Ms h1 h2 ih =>
    cases h2 with
    | nil => exact ⟨M, rfl, by simpa using h1⟩
    | @cons p' M' gs Ms h3 h4 =>
      obtain ⟨R, hR, hI⟩ := ih (by simp)
      obtain ⟨R', hR', hI'⟩ := hcat_spec h1 hI
      refine ⟨R', ?_, by simpa using hI'⟩
      show (Sp.catCols (M' :: Ms) >>= fun R => M.hcat R) = _
      rw [hR]; exact hR'

section Raw
variable {r : HRaw K}

theorem evGroup_mem (hr : Inv r) {p : String × HGroup K} (hp : p ∈ r.groups) :
    evGroup r p.1 = .ok p.2 := by
  have : r.groups.get? p.1 = some p.2 := (Dict.get?_eq_some_iff _ hr.names _ _).2 hp
  simp only [evGroup, this]

/-- a computation on every group -/
theorem collect_groups {α : Type} {f : String → Except Err α} {P : String × HGroup K → α → Prop}
    (h : ∀ p ∈ r.groups, ∃ x, f p.1 = .ok x ∧ P p x) :
    ∃ xs, collectE r.groups.keys f = .ok xs ∧ List.Forall₂ P r.groups xs := by
  have : ∀ gs : List (String × HGroup K), (∀ p ∈ gs, ∃ x, f p.1 = .ok x ∧ P p x) →
      ∃ xs, collectE (gs.map Prod.fst) f = .ok xs ∧ List.Forall₂ P gs xs := by
    intro gs
    induction gs with
    | nil => intro _; exact ⟨[], rfl, .nil⟩
    | cons p gs ih =>
      intro h
      obtain ⟨x, hx, hp⟩ := h p List.mem_cons_self
      obtain ⟨xs, hxs, hps⟩ := ih fun q hq => h q (List.mem_cons_of_mem _ hq)
      refine ⟨x :: xs, ?_, .cons hp hps⟩
      simp only [List.map_cons, collectE]
      rw [hx, hxs]; rfl
  exact this _ h

theorem rng_of (hi : InRange r) {p : String × HGroup K} (hp : p ∈ r.groups) : Rng r.numV p.2 := by
  intro e he
  exact hi p hp e.1 (List.mem_map_of_mem (f := Prod.fst) he)

theorem lst_rng (hr : Inv r) (hi : InRange r) (sc : Option String) : Rng r.numV (lstOf sc r) := by
  cases sc with
  | none =>
    intro e he
    obtain ⟨p, hp, he⟩ := List.mem_flatMap.1 he
    exact rng_of hi hp e he
  | some g =>
    intro e he
    simp only [lstOf] at he
    cases hg : r.groups.get? g with
    | none => rw [hg] at he; exact absurd he List.not_mem_nil
    | some d =>
      rw [hg] at he
      exact rng_of hi ((Dict.get?_eq_some_iff _ hr.names _ _).1 hg) e he

theorem has_some {g : String} (h : Has (some g) r) : ∃ d, r.groups.get? g = some d ∧ lstOf (some g) r = d ∧
    evGroup r g = .ok d := by
  obtain ⟨d, hd⟩ := Option.isSome_iff_exists.1 h
  exact ⟨d, hd, by simp [lstOf, hd], by simp [evGroup, hd]⟩

theorem evE_spec (hr : Inv r) {sc : Option String} (h : Has sc r ∨ sc = none) :
    evE sc r = .ok ((lstOf sc r).map Prod.fst, (lstOf sc r).map Prod.snd) := by
  cases sc with
  | none =>
    simp only [evE, lstOf]
    obtain ⟨xs, hxs, hf⟩ := collect_groups (f := evEOf r)
      (P := fun p x => x = (Dict.keys p.2, Dict.vals p.2)) fun p hp =>
        ⟨_, by simp only [evEOf]; rw [evGroup_mem hr hp]; rfl, rfl⟩
    rw [hxs]
    have : ∀ (gs : List (String × HGroup K)) (xs : List (List (List Int) × List K)),
        List.Forall₂ (fun p x => x = (Dict.keys p.2, Dict.vals p.2)) gs xs →
        xs.flatMap Prod.fst = (gs.flatMap Prod.snd).map Prod.fst ∧
        xs.flatMap Prod.snd = (gs.flatMap Prod.snd).map Prod.snd := by
      intro gs xs hf
      induction hf with
      | nil => exact ⟨rfl, rfl⟩
      | cons h1 _ ih =>
        subst h1
        simp only [List.flatMap_cons, List.map_append, ih.1, ih.2]
        exact ⟨rfl, rfl⟩
    obtain ⟨h1, h2⟩ := this _ _ hf
    show Except.ok (_, _) = _
    rw [h1, h2]
  | some g =>
    obtain ⟨d, hd, hl, he⟩ := has_some (h.resolve_right (by simp))
    simp only [evE, evEOf, hl, he]
    rfl

theorem evNumE_spec {sc : Option String} (h : Has sc r ∨ sc = none) :
    evNumE sc r = .ok (lstOf sc r).length := by
  cases sc with
  | none => simp [evNumE, lstOf, List.length_flatMap]
  | some g =>
    obtain ⟨d, hd, hl, he⟩ := has_some (h.resolve_right (by simp))
    simp only [evNumE, hl, he]; rfl

theorem evHOf_spec (hr : Inv r) (hi : InRange r) {p : String × HGroup K} (hp : p ∈ r.groups) :
    ∃ M, evHOf r p.1 = .ok M ∧ IncM r.numV p.2 M ∧ Ents.Sorted M.ents := by
  obtain ⟨M, hM, h⟩ := fetchH_spec (rng_of hi hp)
  exact ⟨M, by simp only [evHOf]; rw [evGroup_mem hr hp]; exact hM, h⟩

theorem evH_spec (hr : Inv r) (hi : InRange r) {sc : Option String} (h : Has sc r) :
    ∃ M, evH sc r = .ok M ∧ IncM r.numV (lstOf sc r) M := by
  cases sc with
  | none =>
    obtain ⟨Ms, hMs, hf⟩ := collect_groups (r := r) (f := evHOf r) (P := fun p M => IncM r.numV p.2 M)
      fun p hp => by
        obtain ⟨M, hM, hI, _⟩ := evHOf_spec hr hi hp
        exact ⟨M, hM, hI⟩
    obtain ⟨R, hR, hI⟩ := catCols_spec hf h
    exact ⟨R, by simp only [evH]; rw [hMs]; exact hR, hI⟩
  | some g =>
    obtain ⟨d, hd, hl, _⟩ := has_some h
    obtain ⟨M, hM, hI, _⟩ := evHOf_spec hr hi ((Dict.get?_eq_some_iff _ hr.names _ _).1 hd)
    exact ⟨M, hM, by rw [hl]; exact hI⟩

theorem evH_none_empty (h : r.groups = []) : evH none r = .error .runtime := by
  simp only [evH, h]; rfl

theorem map_hWt (l : List (List Int × K)) :
    l.map Prod.snd = (List.range l.length).map (Spec.hWt l) := by
  apply List.ext_getElem
  · simp
  · intro i h1 h2
    simp only [List.length_map] at h1
    simp [hWt_of_lt h1]

theorem map_hSize (l : List (List Int × K)) :
    l.map (fun e => ((e.1.length : Nat) : K)) = (List.range l.length).map (Spec.hSize l) := by
  apply List.ext_getElem
  · simp
  · intro i h1 h2
    simp only [List.length_map] at h1
    simp [Spec.hSize, hAt_of_lt h1]

/-- concatenating diagonals -/
theorem catDiag_spec {gs : List (String × HGroup K)} {Ms : List (Sp K)} {f : List Int × K → K}
    (h : List.Forall₂ (fun p M => M = Sp.diag (p.2.map f)) gs Ms) (hne : gs ≠ []) :
    catDiag Ms = .ok (Sp.diag ((gs.flatMap Prod.snd).map f)) := by
  unfold catDiag
  rw [if_neg (by rintro rfl; cases h; exact hne rfl)]
  congr 2
  clear hne
  induction h with
  | nil => rfl
  | cons h1 _ ih =>
    subst h1
    rw [List.flatMap_cons, ih, Ord.diag_vals, List.flatMap_cons, List.map_append]

theorem evWe_spec (hr : Inv r) {sc : Option String} (h : Has sc r) :
    evWe sc r = .ok (Sp.diag ((List.range (lstOf sc r).length).map (Spec.hWt (lstOf sc r)))) := by
  rw [← map_hWt]
  cases sc with
  | none =>
    obtain ⟨Ms, hMs, hf⟩ := collect_groups (r := r) (f := evWeOf r)
      (P := fun p M => M = Sp.diag (List.map Prod.snd p.2)) fun p hp =>
        ⟨_, by simp only [evWeOf]; rw [evGroup_mem hr hp]; rfl, rfl⟩
    simp only [evWe, hMs, lstOf]
    exact catDiag_spec hf h
  | some g =>
    obtain ⟨d, hd, hl, he⟩ := has_some h
    simp only [evWe, evWeOf, he, hl]
    rfl

theorem card_filter_mem {n : Nat} {l : List Int} (hn : l.Nodup) (hr : ∀ v ∈ l, 0 ≤ v ∧ v < (n : Int)) :
    ∑ i ∈ range n, (if (i : Int) ∈ l then (1 : K) else 0) = l.length := by
  induction l with
  | nil => simp
  | cons v l ih =>
    have hv := hr v List.mem_cons_self
    rw [List.nodup_cons] at hn
    have h1 : ∀ i ∈ range n, (if (i : Int) ∈ v :: l then (1 : K) else 0) =
        (if i = v.toNat then 1 else 0) + (if (i : Int) ∈ l then 1 else 0) := by
      intro i _
      by_cases hi : i = v.toNat
      · have : (i : Int) = v := by omega
        rw [this, if_pos List.mem_cons_self, if_neg hn.1, if_pos hi, add_zero]
      · have hne : (i : Int) ≠ v := by omega
        rw [if_neg hi, zero_add]
        simp only [List.mem_cons, hne, false_or]
    rw [sum_congr rfl h1, sum_add_distrib, ih hn.2 fun w hw => hr w (List.mem_cons_of_mem _ hw)]
    rw [Finset.sum_ite_eq' (range n), if_pos (mem_range.2 (by omega))]
    push_cast [List.length_cons]; ring

theorem sum_inc {n : Nat} {l : List (List Int × K)} (h : Rng n l) {j : Nat} (hj : j < l.length) :
    ∑ i ∈ range n, Spec.inc l i j = Spec.hSize l j := by
  unfold Spec.inc Spec.hSize
  rw [hAt_of_lt hj]
  have := h _ (List.getElem_mem hj)
  exact card_filter_mem this.1 this.2

theorem sum_inc_wt (l : List (List Int × K)) (i : Nat) :
    ∑ j ∈ range l.length, Spec.inc l i j * Spec.hWt l j = Spec.hDeg l i := by
  unfold Spec.hDeg
  rw [Finset.sum_range, ← List.sum_ofFn]
  congr 1
  apply List.ext_getElem
  · simp
  · intro j h1 h2
    simp only [List.length_map] at h2
    simp only [List.getElem_ofFn, List.getElem_map, Spec.inc, hAt_of_lt h2, hWt_of_lt h2]
    split <;> simp

theorem incM_sizes {n : Nat} {l : List (List Int × K)} {M : Sp K} (h : IncM n l M) (hl : Rng n l) :
    M.t.rowSum = (List.range l.length).map (Spec.hSize l) := by
  apply List.ext_getElem
  · rw [Sp.rowSum_length]; simp [Sp.t, h.cols]
  · intro j h1 h2
    rw [Sp.rowSum_getElem h.wf.t, List.getElem_map, List.getElem_range]
    show ∑ i ∈ range M.rows, _ = _
    rw [h.rows, ← sum_inc hl (by simpa using h2)]
    refine sum_congr rfl fun i hi => ?_
    rw [Sp.get_t, h.get (mem_range.1 hi)]

theorem incM_degs {n : Nat} {l : List (List Int × K)} {M : Sp K} (h : IncM n l M) :
    (Sp.coalesce (Sp.scaleCols (l.map Prod.snd) M)).rowSum = (List.range n).map (Spec.hDeg l) := by
  have hwf : (Sp.scaleCols (l.map Prod.snd) M).WF := by
    intro e he
    obtain ⟨e', he', rfl⟩ := List.mem_map.1 he
    exact h.wf e' he'
  apply List.ext_getElem
  · rw [Sp.rowSum_length]; simp [Sp.coalesce, Sp.scaleCols, h.rows]
  · intro i h1 h2
    have hi : i < n := by simpa using h2
    have := Ord.rowSum_coalesce hwf (i := i) (by simpa [Sp.scaleCols, h.rows] using hi)
    rw [List.getD_eq_getElem?_getD, List.getElem?_eq_getElem h1, Option.getD_some] at this
    rw [this, List.getElem_map, List.getElem_range, ← sum_inc_wt]
    simp only [Sp.scaleCols, List.map_map, Function.comp_def, mul_one]
    have e1 := Ents.sum_row M.ents i l.length (Spec.hWt l) fun e he => by
      have := (h.wf e he).2; rwa [h.cols] at this
    have e2 : (M.ents.map fun e => if e.1.1 = i then e.2 * Spec.hWt l e.1.2 else 0) =
        M.ents.map fun e => if e.1.1 = i then (l.map Prod.snd).getD e.1.2 0 * e.2 else 0 := by
      apply List.map_congr_left
      intro e he
      have := (h.wf e he).2
      rw [h.cols] at this
      rw [hWt_of_lt this]
      simp [List.getD_eq_getElem?_getD, this, mul_comm]
    rw [← e2, e1]
    exact sum_congr rfl fun j _ => by rw [← h.get hi]; rfl

theorem evDvOf_spec (hr : Inv r) (hi : InRange r) {p : String × HGroup K} (hp : p ∈ r.groups) :
    evDvOf r p.1 = .ok (Sp.diag ((List.range r.numV).map (Spec.hDeg p.2))) := by
  obtain ⟨M, hM, hI, _⟩ := evHOf_spec hr hi hp
  simp only [evDvOf, hM, evWeOf, evGroup_mem hr hp, bind, Except.bind, Ord.diag_vals]
  rw [show Dict.vals p.2 = List.map Prod.snd p.2 from rfl, incM_degs hI]

theorem hDeg_append (l l' : List (List Int × K)) (i : Nat) :
    Spec.hDeg (l ++ l') i = Spec.hDeg l i + Spec.hDeg l' i := by
  unfold Spec.hDeg; rw [List.map_append, List.sum_append]

theorem evDv_spec (hr : Inv r) (hi : InRange r) {sc : Option String} (h : Has sc r) :
    evDv sc r = .ok (Sp.diag ((List.range r.numV).map (Spec.hDeg (lstOf sc r)))) := by
  cases sc with
  | none =>
    obtain ⟨Ms, hMs, hf⟩ := collect_groups (r := r) (f := evDvOf r)
      (P := fun p M => M = Sp.diag ((List.range r.numV).map (Spec.hDeg p.2))) fun p hp =>
        ⟨_, evDvOf_spec hr hi hp, rfl⟩
    simp only [evDv, hMs, lstOf]
    show sumDiag _ _ = _
    unfold sumDiag
    rw [if_neg (by rintro rfl; cases hf' : r.groups with
      | nil => exact h hf'
      | cons a t => rw [hf'] at hf; cases hf)]
    congr 2
    apply List.map_congr_left
    intro i hi
    rw [List.mem_range] at hi
    have : ∀ (gs : List (String × HGroup K)) (Ms : List (Sp K)),
        List.Forall₂ (fun p M => M = Sp.diag ((List.range r.numV).map (Spec.hDeg p.2))) gs Ms →
        (Ms.map fun M => (M.ents.map Prod.snd).getD i 0).sum = Spec.hDeg (gs.flatMap Prod.snd) i := by
      intro gs Ms hf
      induction hf with
      | nil => rfl
      | cons h1 _ ih =>
        subst h1
        rw [List.map_cons, List.sum_cons, ih, Ord.diag_vals, getD_map_range, if_pos hi,
          List.flatMap_cons, hDeg_append]
    exact this _ _ hf
  | some g =>
    obtain ⟨d, hd, hl, _⟩ := has_some h
    rw [hl]
    exact evDvOf_spec hr hi ((Dict.get?_eq_some_iff _ hr.names _ _).1 hd)

theorem evDeOf_spec (hr : Inv r) (hi : InRange r) {p : String × HGroup K} (hp : p ∈ r.groups) :
    evDeOf r p.1 = .ok (Sp.diag (List.map (fun e => ((e.1.length : Nat) : K)) p.2)) := by
  obtain ⟨M, hM, hI, _⟩ := evHOf_spec hr hi hp
  simp only [evDeOf, hM, bind, Except.bind]
  rw [incM_sizes hI (rng_of hi hp), map_hSize]

theorem evDe_spec (hr : Inv r) (hi : InRange r) {sc : Option String} (h : Has sc r) :
    evDe sc r = .ok (Sp.diag ((List.range (lstOf sc r).length).map (Spec.hSize (lstOf sc r)))) := by
  rw [← map_hSize]
  cases sc with
  | none =>
    obtain ⟨Ms, hMs, hf⟩ := collect_groups (r := r) (f := evDeOf r)
      (P := fun p M => M = Sp.diag (List.map (fun e => ((e.1.length : Nat) : K)) p.2)) fun p hp =>
        ⟨_, evDeOf_spec hr hi hp, rfl⟩
    simp only [evDe, hMs, lstOf]
    exact catDiag_spec hf h
  | some g =>
    obtain ⟨d, hd, hl, _⟩ := has_some h
    rw [hl]
    exact evDeOf_spec hr hi ((Dict.get?_eq_some_iff _ hr.names _ _).1 hd)

theorem evDvN1_spec (hr : Inv r) (hi : InRange r) {sc : Option String} (h : Has sc r) :
    evDvN1 sc r = .ok (Sp.diag ((List.range r.numV).map fun i => (Spec.hDeg (lstOf sc r) i)⁻¹)) := by
  simp only [evDvN1, evDv_spec hr hi h, bind, Except.bind, Sp.inv, Sp.diag_mapVals, List.map_map,
    Function.comp_def]

theorem evDeN1_spec (hr : Inv r) (hi : InRange r) {sc : Option String} (h : Has sc r) :
    evDeN1 sc r = .ok (Sp.diag ((List.range (lstOf sc r).length).map fun j =>
      (Spec.hSize (lstOf sc r) j)⁻¹)) := by
  simp only [evDeN1, evDe_spec hr hi h, bind, Except.bind, Sp.inv, Sp.diag_mapVals, List.map_map,
    Function.comp_def]

theorem evHT_spec (hr : Inv r) (hi : InRange r) {sc : Option String} (h : Has sc r) :
    ∃ M, evH sc r = .ok M ∧ evHT sc r = .ok M.t ∧ IncM r.numV (lstOf sc r) M := by
  obtain ⟨M, hM, hI⟩ := evH_spec hr hi h
  exact ⟨M, hM, by simp only [evHT, hM]; rfl, hI⟩

/-! ### neighbours -/

theorem evNeOf_spec (hr : Inv r) (hi : InRange r) {p : String × HGroup K} (hp : p ∈ r.groups) {v : Nat}
    (hv : v < r.numV) : ∃ l, evNeOf (v : Int) r p.1 = .ok l ∧ l.Nodup ∧
      ∀ j, j ∈ l ↔ j < List.length p.2 ∧ (v : Int) ∈ Spec.hAt p.2 j := by
  obtain ⟨M, hM, hI, hS⟩ := evHOf_spec hr hi hp
  have hc : chk (some p.1) r = .ok () := by
    have : r.groups.get? p.1 = some p.2 := (Dict.get?_eq_some_iff _ hr.names _ _).2 hp
    simp [chk, Dict.has, this]
  refine ⟨_, ?_, (Sp.rowIdx_sorted hS v).imp (fun h => Nat.ne_of_lt h), ?_⟩
  · simp only [evNeOf, hc, hM, bind, Except.bind]
    rw [if_pos (by omega), Sp.rowIdx_ok (by rw [hI.rows]; exact hv)]
  · intro j
    rw [Sp.rowIdx_mem, hI.keys]
    exact ⟨fun h => h.2, fun h => ⟨hv, h⟩⟩

theorem shiftCat_spec {gs : List (String × HGroup K)} {xs : List (List Nat × Nat)} {v : Nat}
    (h : List.Forall₂ (fun p x => x.2 = List.length p.2 ∧ x.1.Nodup ∧
      ∀ j, j ∈ x.1 ↔ j < List.length p.2 ∧ (v : Int) ∈ Spec.hAt p.2 j) gs xs) (b : Nat) :
    (shiftCat b xs).Nodup ∧ ∀ j, j ∈ shiftCat b xs ↔ b ≤ j ∧ j < b + (gs.flatMap Prod.snd).length ∧
      (v : Int) ∈ Spec.hAt (gs.flatMap Prod.snd) (j - b) := by
  induction h generalizing b with
  | nil =>
    refine ⟨List.nodup_nil, fun j => ?_⟩
    simp only [shiftCat, List.not_mem_nil, List.flatMap_nil, List.length_nil, false_iff]
    omega
  | @cons p x gs xs h1 h2 ih =>
    obtain ⟨hn, hnd, hm⟩ := h1
    obtain ⟨l, n⟩ := x
    simp only at hn hnd hm
    subst hn
    obtain ⟨ih1, ih2⟩ := ih (b + List.length p.2)
    simp only [shiftCat]
    constructor
    · refine List.nodup_append.2 ⟨hnd.map (fun x y h => by omega), ih1, ?_⟩
      intro a ha c hc hac
      obtain ⟨k, hk, rfl⟩ := List.mem_map.1 ha
      have := (hm k).1 hk
      have := (ih2 c).1 hc
      omega
    · intro j
      rw [List.mem_append, ih2, List.flatMap_cons, hAt_append, List.length_append, List.mem_map]
      by_cases hj : j - b < List.length p.2
      · rw [if_pos hj]
        constructor
        · rintro (⟨k, hk, rfl⟩ | h)
          · have := (hm k).1 hk
            refine ⟨by omega, by omega, ?_⟩
            rw [Nat.add_sub_cancel]; exact this.2
          · omega
        · rintro ⟨h1, h2, h3⟩
          exact .inl ⟨j - b, (hm _).2 ⟨hj, h3⟩, by omega⟩
      · rw [if_neg hj]
        constructor
        · rintro (⟨k, hk, rfl⟩ | h)
          · have := (hm k).1 hk; omega
          · refine ⟨by omega, by omega, ?_⟩
            rw [Nat.sub_sub]; exact h.2.2
        · rintro ⟨h1, h2, h3⟩
          refine .inr ⟨by omega, by omega, ?_⟩
          rw [← Nat.sub_sub]; exact h3

theorem evNe_spec (hr : Inv r) (hi : InRange r) {sc : Option String} (h : Has sc r) {v : Nat}
    (hv : v < r.numV) : ∃ l, evNe (v : Int) sc r = .ok l ∧ l.Nodup ∧
      ∀ j, j ∈ l ↔ j < (lstOf sc r).length ∧ (v : Int) ∈ Spec.hAt (lstOf sc r) j := by
  cases sc with
  | none =>
    obtain ⟨xs, hxs, hf⟩ := collect_groups (r := r) (f := fun g => do
        let l ← evNeOf v r g
        let n ← evNumE (some g) r
        .ok (l, n)) (P := fun p x => x.2 = List.length p.2 ∧ x.1.Nodup ∧
      ∀ j, j ∈ x.1 ↔ j < List.length p.2 ∧ (v : Int) ∈ Spec.hAt p.2 j) fun p hp => by
        obtain ⟨l, hl, h1, h2⟩ := evNeOf_spec hr hi hp hv
        exact ⟨(l, List.length p.2), by simp only [hl, evNumE, evGroup_mem hr hp]; rfl, rfl, h1, h2⟩
    have hs := shiftCat_spec hf 0
    refine ⟨shiftCat 0 xs, ?_, hs.1, ?_⟩
    · simp only [evNe]
      rw [if_pos (by omega), hxs]
      show (if xs = [] then _ else _) = _
      rw [if_neg (by rintro rfl; cases hf' : r.groups with
        | nil => exact h hf'
        | cons a t => rw [hf'] at hf; cases hf)]
    · intro j
      rw [hs.2]
      simp only [lstOf, Nat.sub_zero, Nat.zero_add, Nat.zero_le, true_and]
  | some g =>
    obtain ⟨d, hd, hl, _⟩ := has_some h
    obtain ⟨l, h1, h2, h3⟩ := evNeOf_spec hr hi ((Dict.get?_eq_some_iff _ hr.names _ _).1 hd) hv
    exact ⟨l, h1, h2, by rw [hl]; exact h3⟩

theorem evNvOf_spec (hr : Inv r) (hi : InRange r) {p : String × HGroup K} (hp : p ∈ r.groups) {e : Nat}
    (he : e < List.length p.2) : ∃ l, evNvOf (e : Int) r p.1 = .ok l ∧ l.Nodup ∧
      ∀ v : Nat, v ∈ l ↔ (v : Int) ∈ Spec.hAt p.2 e := by
  obtain ⟨M, hM, hI, hS⟩ := evHOf_spec hr hi hp
  have hk : ∀ v, (e, v) ∈ M.t.ents.map Prod.fst ↔ (v, e) ∈ M.ents.map Prod.fst := by
    intro v
    simp only [Sp.t, List.map_map, List.mem_map, Function.comp]
    constructor
    · rintro ⟨x, hx, h⟩
      refine ⟨x, hx, ?_⟩
      simp only [Prod.mk.injEq] at h
      exact Prod.ext h.2 h.1
    · rintro ⟨x, hx, h⟩; exact ⟨x, hx, by rw [h]⟩
  refine ⟨(M.t.ents.filter fun x => x.1.1 = e).map fun x => x.1.2, ?_, ?_, ?_⟩
  · show _ = Except.ok _
    simp only [evNvOf, evHT, evH, hM, evGroup_mem hr hp, bind, Except.bind]
    rw [if_pos (by omega), Sp.rowIdx_ok (by simp only [Sp.t]; rw [hI.cols]; exact he)]
  · have hn : (M.t.ents.map Prod.fst).Nodup := by
      have : M.t.ents.map Prod.fst = (M.ents.map Prod.fst).map Prod.swap := by
        simp only [Sp.t, List.map_map]; rfl
      rw [this]; exact hI.nodup.map Prod.swap_injective
    have h1 : ((M.t.ents.filter fun x => x.1.1 = e).map Prod.fst).Nodup :=
      hn.sublist (List.filter_sublist.map Prod.fst)
    have : ((M.t.ents.filter fun x => x.1.1 = e).map fun x => x.1.2) =
        ((M.t.ents.filter fun x => x.1.1 = e).map Prod.fst).map Prod.snd := by
      rw [List.map_map]; rfl
    rw [this]
    refine h1.map_on ?_
    intro a ha c hc hac
    obtain ⟨x, hx, rfl⟩ := List.mem_map.1 ha
    obtain ⟨y, hy, rfl⟩ := List.mem_map.1 hc
    have hx := (List.mem_filter.1 hx).2
    have hy := (List.mem_filter.1 hy).2
    simp only [decide_eq_true_eq] at hx hy
    exact Prod.ext (hx.trans hy.symm) hac
  · intro v
    rw [Sp.rowIdx_mem, hk, hI.keys]
    constructor
    · exact fun h => h.2.2
    · intro h
      refine ⟨?_, he, h⟩
      rw [hAt_of_lt he] at h
      have := (rng_of hi hp _ (List.getElem_mem he)).2 _ h
      omega

theorem evNv_spec (hr : Inv r) (hi : InRange r) {sc : Option String} {e : Nat}
    (he : e < (lstOf sc r).length) : ∃ l, evNv (e : Int) sc r = .ok l ∧ l.Nodup ∧
      ∀ v : Nat, v ∈ l ↔ (v : Int) ∈ Spec.hAt (lstOf sc r) e := by
  cases sc with
  | none =>
    have key : ∀ (gs : List (String × HGroup K)), (∀ p ∈ gs, p ∈ r.groups) → ∀ e : Nat,
        e < (gs.flatMap Prod.snd).length → ∃ l, evFindNv r (e : Int) (gs.map Prod.fst) = .ok l ∧ l.Nodup ∧
          ∀ v : Nat, v ∈ l ↔ (v : Int) ∈ Spec.hAt (gs.flatMap Prod.snd) e := by
      intro gs
      induction gs with
      | nil => intro _ e he; simp at he
      | cons p gs ih =>
        intro hgs e he
        have hp := hgs p List.mem_cons_self
        have hn : evNumE (some p.1) r = .ok (List.length p.2) := by
          simp only [evNumE, evGroup_mem hr hp]; rfl
        rw [List.map_cons, List.flatMap_cons]
        simp only [evFindNv, hn, bind, Except.bind]
        by_cases hlt : e < List.length p.2
        · rw [if_pos (by omega)]
          obtain ⟨l, h1, h2, h3⟩ := evNvOf_spec hr hi hp hlt
          refine ⟨l, h1, h2, fun v => ?_⟩
          rw [hAt_append, if_pos hlt]; exact h3 v
        · rw [if_neg (by omega)]
          rw [List.flatMap_cons, List.length_append] at he
          obtain ⟨l, h1, h2, h3⟩ := ih (fun q hq => hgs q (List.mem_cons_of_mem _ hq))
            (e - List.length p.2) (by omega)
          refine ⟨l, ?_, h2, fun v => ?_⟩
          · rw [← h1]; congr 1; omega
          · rw [hAt_append, if_neg hlt]; exact h3 v
    obtain ⟨l, h1, h2⟩ := key r.groups (fun _ h => h) e he
    refine ⟨l, ?_, h2⟩
    simp only [evNv, evNumE_spec (r := r) (sc := none) (.inr rfl), bind, Except.bind]
    rw [if_pos (by omega)]
    exact h1
  | some g =>
    simp only [lstOf] at he ⊢
    cases hg : r.groups.get? g with
    | none => rw [hg] at he; simp at he
    | some d =>
      rw [hg] at he
      exact evNvOf_spec hr hi ((Dict.get?_eq_some_iff _ hr.names _ _).1 hg) he

end Raw
end Hyper
end DHG
