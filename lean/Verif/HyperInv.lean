import Verif.HyperLemmas

/-!
# Invariants of `Hypergraph` objects obtained through the public interface
-/

set_option linter.unusedSectionVars false
set_option autoImplicit false

namespace DHG

section DictLemmas
variable {κ ν : Type} [DecidableEq κ]

theorem Dict.mem_set {d : Dict κ ν} {k : κ} {v : ν} {p : κ × ν} (h : p ∈ Dict.set d k v) :
    p = (k, v) ∨ p ∈ d := by
  induction d with
  | nil => simp only [Dict.set, List.mem_singleton] at h; exact .inl h
  | cons x d ih =>
    obtain ⟨a, b⟩ := x
    simp only [Dict.set] at h
    split at h
    · rename_i hk; subst hk
      rcases List.mem_cons.1 h with h | h
      · exact .inl h
      · exact .inr (List.mem_cons_of_mem _ h)
    · rcases List.mem_cons.1 h with h | h
      · exact .inr (h ▸ List.mem_cons_self)
      · rcases ih h with h | h
        · exact .inl h
        · exact .inr (List.mem_cons_of_mem _ h)

theorem Dict.mem_of_get? {d : Dict κ ν} {k : κ} {v : ν} (h : Dict.get? d k = some v) : (k, v) ∈ d := by
  induction d with
  | nil => simp at h
  | cons x d ih =>
    obtain ⟨a, b⟩ := x
    simp only [Dict.get?] at h
    split at h
    · rename_i hk; subst hk; cases h; exact List.mem_cons_self
    · exact List.mem_cons_of_mem _ (ih h)

theorem Dict.del_sublist (d : Dict κ ν) (k : κ) : (Dict.del d k).Sublist d := by
  induction d with
  | nil => exact .slnil
  | cons x d ih =>
    obtain ⟨a, b⟩ := x
    simp only [Dict.del]
    split
    · exact List.sublist_cons_self _ _
    · exact ih.cons_cons _

theorem Dict.keys_map_val {μ : Type} (d : Dict κ ν) (f : κ × ν → μ) :
    Dict.keys (d.map fun x => (x.1, f x)) = Dict.keys d := by
  simp [Dict.keys, List.map_map, Function.comp_def]

end DictLemmas

namespace Hyper

variable {K : Type} [Field K] [LinearOrder K]

/-- group names occur once; hyperedges of a group occur once and are written in sorted order -/
structure Inv (r : HRaw K) : Prop where
  pos : 0 < r.numV
  names : r.groups.keys.Nodup
  nodup : ∀ p ∈ r.groups, p.2.keys.Nodup
  sorted : ∀ p ∈ r.groups, ∀ e ∈ p.2.keys, sortV e = e
  weights : ∀ w, r.vWeight = some w → w.length = r.numV

/-- hyperedges list distinct vertices in range -/
def InRange (r : HRaw K) : Prop :=
  ∀ p ∈ r.groups, ∀ e ∈ p.2.keys, e.Nodup ∧ ∀ v ∈ e, 0 ≤ v ∧ v < (r.numV : Int)

theorem addRaw_numV (op : MergeOp) (g : String) (r : HRaw K) (l : List (List Int × K)) :
    (l.foldl (addRaw op g) r).numV = r.numV ∧ (l.foldl (addRaw op g) r).vWeight = r.vWeight := by
  induction l generalizing r with
  | nil => exact ⟨rfl, rfl⟩
  | cons p l ih => exact ih _

theorem mem_getD {r : HRaw K} {g : String} {e : List Int} (h : e ∈ ((r.groups.get? g).getD []).keys) :
    ∃ p ∈ r.groups, e ∈ p.2.keys := by
  cases hg : r.groups.get? g with
  | none => rw [hg] at h; simp [Dict.keys] at h
  | some d => rw [hg] at h; exact ⟨_, Dict.mem_of_get? hg, h⟩

theorem Inv.addRaw {r : HRaw K} (h : Inv r) (op : MergeOp) (g : String) (p : List Int × K)
    (hp : sortV p.1 = p.1) : Inv (addRaw op g r p) where
  pos := h.pos
  names := Dict.nodup_set _ _ _ h.names
  nodup := by
    intro q hq
    rcases Dict.mem_set hq with rfl | hq
    · refine Graph.nodup_upsert _ _ _ _ ?_
      cases hg : r.groups.get? g with
      | none => exact List.nodup_nil
      | some d => exact h.nodup _ (Dict.mem_of_get? hg)
    · exact h.nodup q hq
  sorted := by
    intro q hq e he
    rcases Dict.mem_set hq with rfl | hq
    · rcases (Graph.keys_upsert _ _ _ _ _).1 he with rfl | he
      · exact hp
      · obtain ⟨q', hq', he'⟩ := mem_getD he
        exact h.sorted q' hq' e he'
    · exact h.sorted q hq e he
  weights := h.weights

theorem Inv.addList {r : HRaw K} (h : Inv r) (op : MergeOp) (g : String) (l : List (List Int × K))
    (hl : ∀ p ∈ l, sortV p.1 = p.1) : Inv (l.foldl (Hyper.addRaw op g) r) := by
  induction l generalizing r with
  | nil => exact h
  | cons p l ih =>
    exact ih (h.addRaw op g p (hl p List.mem_cons_self)) fun q hq => hl q (List.mem_cons_of_mem _ hq)

theorem InRange.addRaw {r : HRaw K} (h : InRange r) (op : MergeOp) (g : String) (p : List Int × K)
    (hp : p.1.Nodup ∧ ∀ v ∈ p.1, 0 ≤ v ∧ v < (r.numV : Int)) : InRange (addRaw op g r p) := by
  intro q hq e he
  rcases Dict.mem_set hq with rfl | hq
  · rcases (Graph.keys_upsert _ _ _ _ _).1 he with rfl | he
    · exact hp
    · obtain ⟨q', hq', he'⟩ := mem_getD he
      exact h q' hq' e he'
  · exact h q hq e he

theorem InRange.addList {r : HRaw K} (h : InRange r) (op : MergeOp) (g : String)
    (l : List (List Int × K))
    (hl : ∀ p ∈ l, p.1.Nodup ∧ ∀ v ∈ p.1, 0 ≤ v ∧ v < (r.numV : Int)) :
    InRange (l.foldl (Hyper.addRaw op g) r) := by
  induction l generalizing r with
  | nil => exact h
  | cons p l ih =>
    refine ih (h.addRaw op g p (hl p List.mem_cons_self)) fun q hq => ?_
    exact hl q (List.mem_cons_of_mem _ hq)

/-- one object is obtained from another by shrinking groups -/
def Shrunk (r' r : HRaw K) : Prop :=
  r'.numV = r.numV ∧ r'.groups.keys.Sublist r.groups.keys ∧
    ∀ p ∈ r'.groups, ∃ d, (p.1, d) ∈ r.groups ∧ p.2.Sublist d

theorem Shrunk.inv {r r' : HRaw K} (h : Shrunk r' r) (hi : Inv r)
    (hw : ∀ w, r'.vWeight = some w → w.length = r'.numV) : Inv r' where
  pos := h.1 ▸ hi.pos
  names := h.2.1.nodup hi.names
  nodup := by
    intro p hp
    obtain ⟨d, hd, hs⟩ := h.2.2 p hp
    exact (hs.map Prod.fst).nodup (hi.nodup _ hd)
  sorted := by
    intro p hp e he
    obtain ⟨d, hd, hs⟩ := h.2.2 p hp
    exact hi.sorted _ hd e ((hs.map Prod.fst).subset he)
  weights := hw

theorem Shrunk.inRange {r r' : HRaw K} (h : Shrunk r' r) (hi : InRange r) : InRange r' := by
  intro p hp e he
  obtain ⟨d, hd, hs⟩ := h.2.2 p hp
  rw [h.1]
  exact hi _ hd e ((hs.map Prod.fst).subset he)

theorem Shrunk.refl (r : HRaw K) : Shrunk r r :=
  ⟨rfl, .refl _, fun p hp => ⟨p.2, hp, .refl _⟩⟩

theorem Shrunk.trans {r r' r'' : HRaw K} (h : Shrunk r'' r') (h' : Shrunk r' r) : Shrunk r'' r := by
  refine ⟨h.1.trans h'.1, h.2.1.trans h'.2.1, fun p hp => ?_⟩
  obtain ⟨d, hd, hs⟩ := h.2.2 p hp
  obtain ⟨d', hd', hs'⟩ := h'.2.2 _ hd
  exact ⟨d', hd', hs.trans hs'⟩

theorem popAll_shrunk (e : List Int) (r : HRaw K) : Shrunk { r with groups := popAll e r.groups } r := by
  refine ⟨rfl, ?_, fun p hp => ?_⟩
  · rw [popAll, Dict.keys_map_val r.groups fun x => x.2.del e]
  · obtain ⟨q, hq, rfl⟩ := List.mem_map.1 hp
    exact ⟨q.2, hq, Dict.del_sublist _ _⟩

theorem popOne_shrunk (g : String) (e : List Int) (r : HRaw K) :
    Shrunk { r with groups := popOne g e r.groups } r := by
  unfold popOne
  cases hg : r.groups.get? g with
  | none => exact Shrunk.refl r
  | some d =>
    refine ⟨rfl, ?_, fun p hp => ?_⟩
    · simp only
      rw [Dict.keys_set_of_mem _ _ _ ((Dict.get?_isSome_iff _ _).1 (by rw [hg]; rfl))]
    · rcases Dict.mem_set hp with rfl | hp
      · exact ⟨d, Dict.mem_of_get? hg, Dict.del_sublist _ _⟩
      · exact ⟨p.2, hp, .refl _⟩

theorem removeRaw_shrunk (g : Option String) (r : HRaw K) (es : List (List Int)) :
    Shrunk (removeRaw g r es) r := by
  induction es generalizing r with
  | nil => exact Shrunk.refl r
  | cons e es ih =>
    cases g with
    | none => exact (ih { r with groups := popAll e r.groups }).trans (popAll_shrunk e r)
    | some g => exact (ih { r with groups := popOne g e r.groups }).trans (popOne_shrunk g e r)

theorem removeGroup_shrunk (g : String) (r : HRaw K) :
    Shrunk { r with groups := r.groups.del g } r :=
  ⟨rfl, Dict.keys_del_sublist _ _, fun p hp => ⟨p.2, (Dict.del_sublist _ _).subset hp, .refl _⟩⟩

theorem dropFilter_sublist {α : Type} (rate : K) (rnd : Nat → K) (i : Nat) (l : List α) :
    (Graph.dropFilter rate rnd i l).Sublist l := by
  induction l generalizing i with
  | nil => exact .slnil
  | cons x l ih =>
    simp only [Graph.dropFilter]
    split
    · exact (ih _).cons_cons _
    · exact (ih _).cons _

theorem dropAll_spec (rate : K) (rnd : Nat → K) (i : Nat) (gs : Dict String (HGroup K)) :
    (dropAll rate rnd i gs).keys = gs.keys ∧
      ∀ p ∈ dropAll rate rnd i gs, ∃ d, (p.1, d) ∈ gs ∧ p.2.Sublist d := by
  induction gs generalizing i with
  | nil => exact ⟨rfl, fun p hp => by simp [dropAll] at hp⟩
  | cons x gs ih =>
    obtain ⟨g, d⟩ := x
    obtain ⟨h1, h2⟩ := ih (i + d.length)
    refine ⟨by simp only [dropAll, Dict.keys_cons, h1], fun p hp => ?_⟩
    rcases List.mem_cons.1 hp with rfl | hp
    · exact ⟨d, List.mem_cons_self, dropFilter_sublist _ _ _ _⟩
    · obtain ⟨d', hd', hs⟩ := h2 p hp
      exact ⟨d', List.mem_cons_of_mem _ hd', hs⟩

/-! ### Formatting -/

theorem format_mem {arg : HArg} {es : List (List Int)} (h : arg.format = .ok es) {e : List Int}
    (he : e ∈ es) : ∃ e' ∈ argEdges arg, e = sortV e' := by
  cases arg with
  | one t vs =>
    cases vs with
    | nil => cases h; simp at he
    | cons v vs => cases h; exact ⟨v :: vs, by simp [argEdges], by simpa using he⟩
  | many t l =>
    cases h
    obtain ⟨s, hs, rfl⟩ := List.mem_map.1 he
    exact ⟨s.items, List.mem_map.2 ⟨s, hs, rfl⟩, rfl⟩
  | other => cases h

theorem format_sorted {arg : HArg} {es : List (List Int)} (h : arg.format = .ok es) {e : List Int}
    (he : e ∈ es) : sortV e = e := by
  obtain ⟨e', _, rfl⟩ := format_mem h he
  exact sortV_sortV _

theorem format_range {arg : HArg} {es : List (List Int)} (h : arg.format = .ok es) {n : Nat}
    (hp : Proper n arg) {e : List Int} (he : e ∈ es) : e.Nodup ∧ ∀ v ∈ e, 0 ≤ v ∧ v < (n : Int) := by
  obtain ⟨e', he', rfl⟩ := format_mem h he
  exact ⟨(sortV_perm e').nodup_iff.2 (hp e' he').1, fun v hv => (hp e' he').2 v (mem_sortV.1 hv)⟩

/-! ### Effect of the public calls -/

/-- how a call with a usable `merge_op`, or one that returned, changes the raw attributes -/
theorem apply_raw {o : HOp K} {s : HSt K} (hg : GoodOp o ∨ (apply o s).1 = .ok ()) :
    (apply o s).2.raw = s.raw ∨
    (∃ arg ew op g es ws, o = .addHyperedges arg ew op g ∧ arg.format = .ok es ∧
      ew.expand es.length = .ok ws ∧ es.length = ws.length ∧
      (apply o s).2.raw = (es.zip ws).foldl (addRaw op g) s.raw) ∨
    (Shrunk (apply o s).2.raw s.raw ∧
      ((apply o s).2.raw.vWeight = s.raw.vWeight ∨ (apply o s).2.raw.vWeight = none)) := by
  cases o with
  | addHyperedges arg ew op g =>
    simp only [apply] at hg ⊢
    rcases addHyperedges_cases arg ew op g s with ⟨e, h, _⟩ | ⟨es, ws, h1, h2, h3, ⟨_, h5⟩ | ⟨h4, ⟨e, h5⟩, _⟩⟩
    · left; rw [h]
    · right; left; exact ⟨arg, ew, op, g, es, ws, rfl, h1, h2, h3, by rw [h5]⟩
    · rcases hg with hg | hg
      · exact absurd h4 hg
      · rw [h5] at hg; cases hg
  | removeHyperedges arg g =>
    simp only [apply]
    rcases removeHyperedges_cases arg g s with ⟨e, h, _⟩ | ⟨es, h1, h2, h3⟩
    · left; rw [h]
    · right; right
      rw [h3]
      have : (clearCacheH g { s with raw := removeRaw g s.raw es }).2.raw = removeRaw g s.raw es := by
        cases g <;> rfl
      simp only [this]
      exact ⟨removeRaw_shrunk g s.raw es, .inl rfl⟩
  | removeGroup g => exact .inr (.inr ⟨removeGroup_shrunk g s.raw, .inl rfl⟩)
  | clear =>
    refine .inr (.inr ⟨⟨rfl, List.nil_sublist _, fun p hp => ?_⟩, .inr rfl⟩)
    exact absurd hp List.not_mem_nil
  | setVWeight w => exact .inl rfl

theorem apply_inv {o : HOp K} {s : HSt K} (hg : GoodOp o ∨ (apply o s).1 = .ok ()) (h : Inv s.raw) :
    Inv (apply o s).2.raw ∧ (apply o s).2.raw.numV = s.raw.numV := by
  rcases apply_raw hg with h1 | ⟨arg, ew, op, g, es, ws, rfl, hf, hw, hl, h1⟩ | ⟨h1, h2⟩
  · rw [h1]; exact ⟨h, rfl⟩
  · rw [h1]
    refine ⟨h.addList op g _ fun p hp => ?_, (addRaw_numV op g s.raw _).1⟩
    exact format_sorted hf (List.of_mem_zip hp).1
  · refine ⟨h1.inv h fun w hw => ?_, h1.1⟩
    rcases h2 with h2 | h2
    · rw [h1.1]; exact h.weights w (h2 ▸ hw)
    · rw [h2] at hw; cases hw

theorem apply_inRange {o : HOp K} {s : HSt K} (hg : GoodOp o ∨ (apply o s).1 = .ok ())
    (hP : ∀ a ew op g, o = .addHyperedges a ew op g → Proper s.raw.numV a)
    (h : InRange s.raw) : InRange (apply o s).2.raw := by
  rcases apply_raw hg with h1 | ⟨arg, ew, op, g, es, ws, rfl, hf, hw, hl, h1⟩ | ⟨h1, _⟩
  · rw [h1]; exact h
  · rw [h1]
    refine h.addList op g _ fun p hp => ?_
    exact format_range hf (hP _ _ _ _ rfl) (List.of_mem_zip hp).1
  · exact h1.inRange h

variable {b : Bool} [PyReal K]

theorem Coh.filter {s : HSt K} (hs : Coh b s) {r' : HRaw K} {g : String}
    (h : ∀ g', g' ≠ g → Agree g' r' s.raw) :
    Coh b { raw := r', cache := s.cache.filter fun p => decide (p.1.1 ≠ none ∧ p.1.1 ≠ some g) } := by
  intro k v hk hv
  rw [Dict.get?_filter_key s.cache fun k => decide (k.1 ≠ none ∧ k.1 ≠ some g)] at hv
  split at hv
  · rename_i hc
    rw [decide_eq_true_eq] at hc
    obtain ⟨sc, n⟩ := k
    cases sc with
    | none => exact absurd rfl hc.1
    | some g' =>
      have := hs _ v hk hv
      rw [← this]
      exact (h g' fun he => hc.2 (by rw [he])).key n
  · cases hv

/-- calls never spoil the caches, except failing ones with an unknown `merge_op` -/
theorem apply_coh {o : HOp K} {s : HSt K} (hg : GoodOp o ∨ (apply o s).1 = .ok ()) (hs : Coh b s) :
    Coh b (apply o s).2 := by
  cases o with
  | addHyperedges arg ew op g =>
    simp only [apply] at hg ⊢
    rcases addHyperedges_cases arg ew op g s with ⟨e, h, _⟩ | ⟨es, ws, h1, h2, h3, ⟨h4, h5⟩ | ⟨h4, ⟨e, h5⟩, _⟩⟩
    · rw [h]; exact hs
    · rw [h5]
      refine hs.filter fun g' hg' => ?_
      have hag : ∀ (l : List (List Int × K)) (r : HRaw K), Agree g' (l.foldl (addRaw op g) r) r := by
        intro l
        induction l with
        | nil => exact fun r => Agree.refl _ _
        | cons p l ih =>
          intro r
          refine (ih _).trans ⟨rfl, ?_⟩
          simp only [addRaw, Dict.get?_set]
          rw [if_neg (Ne.symm hg')]
      exact hag _ _
    · rcases hg with hg | hg
      · exact absurd h4 hg
      · rw [h5] at hg; cases hg
  | removeHyperedges arg g =>
    simp only [apply]
    rcases removeHyperedges_cases arg g s with ⟨e, h, _⟩ | ⟨es, h1, h2, h3⟩
    · rw [h]; exact hs
    · rw [h3]
      cases g with
      | none => exact coherentOn_nil
      | some g => exact hs.filter fun g' hg' => removeRaw_agree g g' hg' _ _
  | removeGroup g =>
    refine hs.filter (r' := { s.raw with groups := s.raw.groups.del g }) fun g' hg' => ⟨rfl, ?_⟩
    have : ∀ gs : Dict String (HGroup K), Dict.get? (Dict.del gs g) g' = Dict.get? gs g' := by
      intro gs
      induction gs with
      | nil => rfl
      | cons x gs ih =>
        obtain ⟨a, d⟩ := x
        simp only [Dict.del, Dict.get?]
        by_cases ha : a = g
        · subst ha; rw [if_pos rfl, if_neg (Ne.symm hg')]
        · rw [if_neg ha]; simp only [Dict.get?, ih]
    exact this _
  | clear => exact coherentOn_nil
  | setVWeight w => exact hs

theorem initRaw_ok {n : Int} {vw : Option (List K)} {r : HRaw K} (h : initRaw n vw = .ok r) :
    0 < n ∧ r.numV = n.toNat ∧ r.groups = [] ∧
      r.vWeight = some (vw.getD (List.replicate n.toNat 1)) ∧
      (vw.getD (List.replicate n.toNat 1)).length = n.toNat := by
  unfold initRaw at h
  split at h
  · rename_i hn
    cases vw with
    | none => cases h; exact ⟨hn, rfl, rfl, rfl, by simp⟩
    | some w =>
      simp only at h
      split at h
      · rename_i hl; cases h; exact ⟨hn, rfl, rfl, rfl, hl⟩
      · cases h
  · cases h

theorem initRaw_inv {n : Int} {vw : Option (List K)} {r : HRaw K} (h : initRaw n vw = .ok r) :
    Inv r := by
  obtain ⟨h1, h2, h3, h4, h5⟩ := initRaw_ok h
  refine ⟨by omega, by rw [h3]; exact List.nodup_nil, by rw [h3]; simp, by rw [h3]; simp, ?_⟩
  intro w hw
  rw [h4] at hw; cases hw; rw [h2]; exact h5

/-- a successful construction, seen as `add_hyperedges` on an empty object -/
theorem new_ok {n : Int} {arg : Option HArg} {ew : HW K} {vw : Option (List K)} {op : MergeOp}
    {s : HSt K} (h : Hyper.new n arg ew vw op = .ok s) :
    ∃ r, initRaw n vw = .ok r ∧
      ((arg = none ∧ s = { raw := r, cache := [] }) ∨
       ∃ a, arg = some a ∧ (apply (.addHyperedges a ew op "main") { raw := r, cache := [] }).1 = .ok () ∧
         s = (apply (.addHyperedges a ew op "main") { raw := r, cache := [] }).2) := by
  unfold Hyper.new at h
  cases hr : initRaw n vw with
  | error e => rw [hr] at h; cases h
  | ok r =>
    rw [hr] at h
    refine ⟨r, rfl, ?_⟩
    cases arg with
    | none => cases h; exact .inl ⟨rfl, rfl⟩
    | some a =>
      refine .inr ⟨a, rfl, ?_⟩
      simp only [bind, Except.bind] at h
      simp only [apply]
      rcases ha : addHyperedges a ew op "main" { raw := r, cache := [] } with ⟨_ | u, s'⟩
      · rw [ha] at h; cases h
      · rw [ha] at h; cases h; exact ⟨rfl, rfl⟩

theorem fromStateDict_ok {d : StateDict K} {s : HSt K} (h : fromStateDict d = .ok s) :
    0 < d.numV ∧ s = ⟨⟨d.numV, some (List.replicate d.numV 1), d.groups⟩, []⟩ := by
  unfold fromStateDict initRaw at h
  split at h
  · rename_i hn; cases h; exact ⟨by omega, rfl⟩
  · cases h

theorem fromStateDict_of_pos {d : StateDict K} (h : 0 < d.numV) :
    fromStateDict d = .ok ⟨⟨d.numV, some (List.replicate d.numV 1), d.groups⟩, []⟩ := by
  unfold fromStateDict initRaw
  rw [if_pos (by omega)]
  rfl

theorem clone_ok {s s' : HSt K} (h : clone s = .ok s') :
    0 < s.raw.numV ∧
      s' = ⟨⟨s.raw.numV, some (List.replicate s.raw.numV 1), s.raw.groups⟩, s.cache⟩ := by
  unfold clone initRaw at h
  split at h
  · rename_i hn; cases h; exact ⟨by omega, rfl⟩
  · cases h

theorem clone_of_pos {s : HSt K} (h : 0 < s.raw.numV) :
    clone s = .ok ⟨⟨s.raw.numV, some (List.replicate s.raw.numV 1), s.raw.groups⟩, s.cache⟩ := by
  unfold clone initRaw
  rw [if_pos (by omega)]
  rfl

/-! ### Sub-hypergraphs -/

theorem sortedSet_nodup (l : List Int) : (sortedSet l).Nodup :=
  (sortV_perm _).nodup_iff.2 (List.nodup_dedup l)

theorem mem_sortedSet {l : List Int} {v : Int} : v ∈ sortedSet l ↔ v ∈ l := by
  unfold sortedSet; rw [mem_sortV, List.mem_dedup]

theorem subEdge_some {vs : List Int} {k : Bool} {e e' : List Int} (h : subEdge vs k e = some e') :
    (if k then 1 else 2) ≤ (e.dedup.filter fun v => decide (v ∈ vs)).length ∧
    e' = sortV ((e.filter fun v => decide (v ∈ vs)).map fun v => (vs.idxOf v : Int)) := by
  unfold subEdge at h
  by_cases hc : (e.dedup.filter fun v => decide (v ∈ vs)).length < (if k then 1 else 2)
  · rw [if_pos hc] at h; cases h
  · rw [if_neg hc] at h
    exact ⟨Nat.le_of_not_lt hc, (Option.some.inj h).symm⟩

theorem subEdge_sorted {vs : List Int} {k : Bool} {e e' : List Int} (h : subEdge vs k e = some e') :
    sortV e' = e' := by
  rw [(subEdge_some h).2]; exact sortV_sortV _

theorem subEdge_range {vs : List Int} {k : Bool} {e e' : List Int} (he : e.Nodup)
    (h : subEdge vs k e = some e') : e'.Nodup ∧ ∀ v ∈ e', 0 ≤ v ∧ v < (vs.length : Int) := by
  rw [(subEdge_some h).2]
  constructor
  · rw [(sortV_perm _).nodup_iff]
    refine List.Nodup.map_on ?_ (he.filter _)
    intro x hx y hy hxy
    have hx' : x ∈ vs := by simpa using (List.mem_filter.1 hx).2
    have : vs.idxOf x = vs.idxOf y := by exact_mod_cast hxy
    exact (List.idxOf_inj hx').1 this
  · intro v hv
    obtain ⟨x, hx, rfl⟩ := List.mem_map.1 (mem_sortV.1 hv)
    have hx' : x ∈ vs := by simpa using (List.mem_filter.1 hx).2
    have := List.idxOf_lt_length_of_mem hx'
    omega

theorem subGroup_fold {vs : List Int} {k : Bool} (d acc : HGroup K) (Q : List Int → Prop)
    (hQ : ∀ e ∈ d.keys, ∀ e', subEdge vs k e = some e' → Q e')
    (hn : acc.keys.Nodup) (ha : ∀ e ∈ acc.keys, Q e) :
    let res := d.foldl (fun acc p => match subEdge vs k p.1 with
      | none => acc
      | some e => acc.set e p.2) acc
    res.keys.Nodup ∧ ∀ e ∈ res.keys, Q e := by
  induction d generalizing acc with
  | nil => exact ⟨hn, ha⟩
  | cons p d ih =>
    have h1 : ∀ e ∈ Dict.keys d, ∀ e', subEdge vs k e = some e' → Q e' :=
      fun e he => hQ e (List.mem_cons_of_mem _ he)
    simp only [List.foldl_cons]
    cases hs : subEdge vs k p.1 with
    | none => exact ih acc h1 hn ha
    | some e =>
      refine ih _ h1 (Dict.nodup_set _ _ _ hn) fun e' he' => ?_
      rcases (Dict.mem_keys_set _ _ _ _).1 he' with rfl | he'
      · exact hQ p.1 List.mem_cons_self _ hs
      · exact ha e' he'

theorem subGroup_spec {vs : List Int} {k : Bool} (d : HGroup K) :
    (subGroup vs k d).keys.Nodup ∧ (∀ e ∈ (subGroup vs k d).keys, sortV e = e) ∧
    ((∀ e ∈ d.keys, e.Nodup) → ∀ e ∈ (subGroup vs k d).keys,
      e.Nodup ∧ ∀ v ∈ e, 0 ≤ v ∧ v < (vs.length : Int)) := by
  have h0 : ∀ Q : List Int → Prop, ∀ e ∈ Dict.keys ([] : HGroup K), Q e := by
    intro Q e he; exact absurd he List.not_mem_nil
  refine ⟨(subGroup_fold (k := k) d [] (fun _ => True) (fun _ _ _ _ => trivial) List.nodup_nil (h0 _)).1, ?_, ?_⟩
  · exact (subGroup_fold d [] (fun e => sortV e = e) (fun _ _ _ h => subEdge_sorted h)
      List.nodup_nil (h0 _)).2
  · intro hd
    exact (subGroup_fold d [] (fun e => e.Nodup ∧ ∀ v ∈ e, 0 ≤ v ∧ v < (vs.length : Int))
      (fun e he _ h => subEdge_range (hd e he) h) List.nodup_nil (h0 _)).2

theorem subgraph_ok {vl : List Int} {k : Bool} {s s' : HSt K} (h : subgraph vl k s = .ok s') :
    sortedSet vl ≠ [] ∧ (∀ v ∈ sortedSet vl, 0 ≤ v ∧ v < (s.raw.numV : Int)) ∧
    s' = ⟨⟨(sortedSet vl).length, some (match s.raw.vWeight with
        | none => List.replicate (sortedSet vl).length 1
        | some w => subWeights (sortedSet vl) w),
      s.raw.groups.map fun p => (p.1, subGroup (sortedSet vl) k p.2)⟩, []⟩ := by
  unfold subgraph at h
  simp only at h
  split at h
  · rename_i h1
    split at h
    · rename_i h2
      refine ⟨h1, h2, ?_⟩
      rw [fromStateDict_of_pos (by simpa [List.length_pos_iff] using h1)] at h
      simp only [bind, Except.bind] at h
      cases hw : s.raw.vWeight with
      | none => rw [hw] at h; cases h; rfl
      | some w => rw [hw] at h; cases h; rfl
    · cases h
  · cases h

/-! ### Reachable objects -/

theorem Built.inv {P : Nat → HArg → Prop} {s : HSt K} (h : Built P b s) :
    Inv s.raw ∧ Coh b s := by
  induction h with
  | new h hP =>
    obtain ⟨r, hr, ⟨_, rfl⟩ | ⟨a, rfl, h1, rfl⟩⟩ := new_ok h
    · exact ⟨initRaw_inv hr, coherentOn_nil⟩
    · exact ⟨(apply_inv (.inr h1) (initRaw_inv hr)).1, apply_coh (.inr h1) coherentOn_nil⟩
  | op o hs hg hP ih => exact ⟨(apply_inv hg ih.1).1, apply_coh hg ih.2⟩
  | read q hs ih =>
    obtain ⟨h1, h2⟩ := ask_keeps q ih.2
    exact ⟨h1 ▸ ih.1, h2⟩
  | clone hs h ih =>
    obtain ⟨h1, rfl⟩ := clone_ok h
    refine ⟨⟨ih.1.pos, ih.1.names, ih.1.nodup, ih.1.sorted, fun w hw => ?_⟩, ?_⟩
    · cases hw; simp
    · intro k v hk hv
      have hk' : k.2 ≠ .Wv := by rcases hk with hk | hk; cases hk; exact hk
      rw [← ih.2 k v (.inr hk') hv]
      obtain ⟨sc, n⟩ := k
      cases sc with
      | none => cases n <;> first | rfl | exact absurd rfl hk'
      | some g =>
        refine Agree.key (K := K) (g := g) ?_ n
        exact ⟨rfl, rfl⟩
  | @cloneDefault b s s' hs hw h ih =>
    obtain ⟨h1, rfl⟩ := clone_ok h
    have : (⟨s.raw.numV, some (List.replicate s.raw.numV 1), s.raw.groups⟩ : HRaw K) = s.raw := by
      rw [← hw]
    rw [this]; exact ih
  | state hs h ih =>
    obtain ⟨h1, rfl⟩ := fromStateDict_ok h
    refine ⟨⟨ih.1.pos, ih.1.names, ih.1.nodup, ih.1.sorted, fun w hw => ?_⟩, coherentOn_nil⟩
    cases hw; simp [stateDict]
  | @drop b s s' rate uniform rnd hs h ih =>
    unfold dropHyperedges at h
    split at h
    · obtain ⟨h1, rfl⟩ := fromStateDict_ok h
      refine ⟨?_, coherentOn_nil⟩
      obtain ⟨h2, h3⟩ := dropAll_spec rate rnd 0 s.raw.groups
      refine Shrunk.inv (r := s.raw) ⟨rfl, ?_, h3⟩ ih.1 fun w hw => by cases hw; simp
      rw [h2]
    · cases h
  | @dropGroup b s s' g rate uniform rnd hs h ih =>
    unfold dropHyperedgesOfGroup at h
    split at h
    · obtain ⟨h1, rfl⟩ := fromStateDict_ok h
      refine ⟨Shrunk.inv (r := s.raw) ⟨rfl, ?_, fun p hp => ?_⟩ ih.1 fun w hw => by cases hw; simp,
        coherentOn_nil⟩
      · have : (List.map (fun p : String × HGroup K => if p.1 = g then
            (p.1, Graph.dropFilter rate rnd 0 p.2) else p) s.raw.groups).map Prod.fst =
            s.raw.groups.map Prod.fst := by
          rw [List.map_map]; apply List.map_congr_left; intro p _
          simp only [Function.comp]; split <;> rfl
        simp only [Dict.keys] at this ⊢
        rw [this]
      · obtain ⟨q, hq, rfl⟩ := List.mem_map.1 hp
        refine ⟨q.2, ?_, ?_⟩
        · split <;> exact hq
        · split
          · exact dropFilter_sublist _ _ _ _
          · exact .refl _
    · cases h
  | @sub b s s' vl k hs h ih =>
    obtain ⟨h1, h2, rfl⟩ := subgraph_ok h
    refine ⟨⟨by simpa [List.length_pos_iff] using h1, ?_, ?_, ?_, ?_⟩, coherentOn_nil⟩
    · simp only
      rw [Dict.keys_map_val s.raw.groups fun x => subGroup (sortedSet vl) k x.2]; exact ih.1.names
    · intro p hp
      obtain ⟨q, hq, rfl⟩ := List.mem_map.1 hp
      exact (subGroup_spec q.2).1
    · intro p hp
      obtain ⟨q, hq, rfl⟩ := List.mem_map.1 hp
      exact (subGroup_spec q.2).2.1
    · intro w hw
      cases hw
      cases s.raw.vWeight <;> simp [subWeights]

theorem Built.inRange {s : HSt K} (h : Built Proper b s) : InRange s.raw := by
  induction h with
  | @new n arg ew vw op s h hP =>
    obtain ⟨r, hr, ⟨_, rfl⟩ | ⟨a, rfl, h1, rfl⟩⟩ := new_ok h
    · obtain ⟨_, _, h3, _⟩ := initRaw_ok hr
      intro p hp; rw [h3] at hp; exact absurd hp List.not_mem_nil
    · obtain ⟨_, h2, h3, _⟩ := initRaw_ok hr
      refine apply_inRange (.inr h1) ?_ ?_
      · intro a' ew op g ha; cases ha; rw [h2]; exact hP a rfl
      · intro p hp; rw [h3] at hp; exact absurd hp List.not_mem_nil
  | op o hs hg hP ih => exact apply_inRange hg hP ih
  | read q hs ih => rw [(ask_keeps q hs.inv.2).1]; exact ih
  | clone hs h ih => obtain ⟨h1, rfl⟩ := clone_ok h; exact ih
  | cloneDefault hs hw h ih => obtain ⟨h1, rfl⟩ := clone_ok h; exact ih
  | state hs h ih => obtain ⟨h1, rfl⟩ := fromStateDict_ok h; exact ih
  | @drop b s s' rate uniform rnd hs h ih =>
    unfold dropHyperedges at h
    split at h
    · obtain ⟨h1, rfl⟩ := fromStateDict_ok h
      obtain ⟨h2, h3⟩ := dropAll_spec rate rnd 0 s.raw.groups
      refine Shrunk.inRange (r := s.raw) ⟨rfl, ?_, h3⟩ ih
      rw [h2]
    · cases h
  | @dropGroup b s s' g rate uniform rnd hs h ih =>
    unfold dropHyperedgesOfGroup at h
    split at h
    · obtain ⟨h1, rfl⟩ := fromStateDict_ok h
      intro p hp e he
      obtain ⟨q, hq, rfl⟩ := List.mem_map.1 hp
      refine ih q hq e ?_
      split at he
      · exact ((dropFilter_sublist _ _ _ _).map Prod.fst).subset he
      · exact he
    · cases h
  | @sub b s s' vl k hs h ih =>
    obtain ⟨h1, h2, rfl⟩ := subgraph_ok h
    intro p hp e he
    obtain ⟨q, hq, rfl⟩ := List.mem_map.1 hp
    exact (subGroup_spec q.2).2.2 (fun e he => (ih q hq e he).1) e he

theorem Built.mono {P Q : Nat → HArg → Prop} (hPQ : ∀ n a, P n a → Q n a) {s : HSt K}
    (h : Built P b s) : Built Q b s := by
  induction h with
  | new h hP => exact .new h fun a ha => hPQ _ _ (hP a ha)
  | op o hs hg hP ih => exact .op o ih hg fun a ew op g ho => hPQ _ _ (hP a ew op g ho)
  | read q hs ih => exact .read q ih
  | clone hs h ih => exact .clone ih h
  | cloneDefault hs hw h ih => exact .cloneDefault ih hw h
  | state hs h ih => exact .state ih h
  | drop hs h ih => exact .drop ih h
  | dropGroup hs h ih => exact .dropGroup ih h
  | sub hs h ih => exact .sub ih h

theorem Built.run {s : HSt K} (h : Built AnyH b s) (l : List (Step K)) (hl : GoodRun s l) :
    Built AnyH b (run s l) := by
  induction l generalizing s with
  | nil => exact h
  | cons x l ih =>
    cases x with
    | op o => exact ih (.op o h hl.1 fun _ _ _ _ _ => trivial) hl.2
    | read q => exact ih (.read q h) hl

end Hyper
end DHG
