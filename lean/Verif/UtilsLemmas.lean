import Mathlib.Data.List.Dedup
import Mathlib.Data.Set.Card
import Verif.UtilsSpec
import Verif.OrderedReads

/-! # Lemmas about the model of `dhg.utils` -/

set_option linter.unusedSectionVars false
set_option autoImplicit false

namespace DHG
namespace Utils

/-! ### adjacency lists -/

theorem adjDict_snoc (es : List (Int × Int)) (e : Int × Int) :
    edgeListToAdjDict (es ++ [e]) = adjPush (edgeListToAdjDict es) e := by
  unfold edgeListToAdjDict; rw [List.foldl_append]; rfl

theorem adjDict_get (es : List (Int × Int)) (a : Int) :
    ((edgeListToAdjDict es).get? a).getD [] = (Spec.edgesFrom es a).map Prod.snd := by
  induction es using List.reverseRecOn with
  | nil => rfl
  | append_singleton es e ih =>
    rw [adjDict_snoc]
    unfold adjPush
    rw [Dict.get?_set]
    unfold Spec.edgesFrom at *
    rw [List.filter_append, List.map_append]
    by_cases h : e.1 = a
    · subst h
      simp [ih]
    · rw [if_neg h, ih]
      simp [h]

theorem adjDict_has (es : List (Int × Int)) (a : Int) :
    a ∈ (edgeListToAdjDict es).keys ↔ ∃ b, (a, b) ∈ es := by
  induction es using List.reverseRecOn with
  | nil => simp [edgeListToAdjDict]
  | append_singleton es e ih =>
    rw [adjDict_snoc]
    unfold adjPush
    rw [Dict.mem_keys_set, ih]
    constructor
    · rintro (h | ⟨b, h⟩)
      · exact ⟨e.2, by simp [h]⟩
      · exact ⟨b, by simp [h]⟩
    · rintro ⟨b, h⟩
      rw [List.mem_append, List.mem_singleton] at h
      rcases h with h | h
      · exact .inr ⟨b, h⟩
      · exact .inl (by rw [← h])

theorem adjDict_nodup (es : List (Int × Int)) : (edgeListToAdjDict es).keys.Nodup := by
  induction es using List.reverseRecOn with
  | nil => simp [edgeListToAdjDict]
  | append_singleton es e ih =>
    rw [adjDict_snoc]; exact Dict.nodup_set _ _ _ ih

theorem adjDict_nonempty (es : List (Int × Int)) {p : Int × List Int} (hp : p ∈ edgeListToAdjDict es) :
    p.2 ≠ [] ∧ p.2 = (Spec.edgesFrom es p.1).map Prod.snd := by
  have h1 := (Dict.get?_eq_some_iff _ (adjDict_nodup es) p.1 p.2).2 hp
  have h2 := adjDict_get es p.1
  rw [h1] at h2
  refine ⟨?_, h2⟩
  obtain ⟨b, hb⟩ := (adjDict_has es p.1).1 (List.mem_map_of_mem hp)
  rw [show p.2 = _ from h2]
  intro h0
  rw [List.map_eq_nil_iff] at h0
  have : (p.1, b) ∈ Spec.edgesFrom es p.1 := by simp [Spec.edgesFrom, hb]
  rw [h0] at this; cases this

theorem adjToEdges_eq (d : Dict Int (List Int)) :
    adjListToEdgeList (d.map fun p => p.1 :: p.2) = d.flatMap fun p => p.2.map fun b => (p.1, b) := by
  unfold adjListToEdgeList; rw [List.flatMap_map]

theorem filter_flat (d : Dict Int (List Int)) (h : d.keys.Nodup) (a : Int) :
    (d.flatMap fun p => p.2.map fun b => (p.1, b)).filter (fun e => decide (e.1 = a)) =
      ((d.get? a).getD []).map fun b => (a, b) := by
  induction d with
  | nil => rfl
  | cons p d ih =>
    obtain ⟨k, l⟩ := p
    simp only [Dict.keys_cons, List.nodup_cons] at h
    rw [List.flatMap_cons, List.filter_append, ih h.2]
    simp only [Dict.get?]
    by_cases hk : k = a
    · subst hk
      have : Dict.get? d k = none := (Dict.get?_eq_none_iff d k).2 h.1
      simp [this, List.filter_map, Function.comp_def]
    · rw [if_neg hk]
      simp [List.filter_map, Function.comp_def, hk]

theorem roundtrip_from (es : List (Int × Int)) (a : Int) :
    Spec.edgesFrom (adjListToEdgeList (edgeListToAdjList es)) a = Spec.edgesFrom es a := by
  unfold edgeListToAdjList
  rw [adjToEdges_eq]
  rw [show Spec.edgesFrom ((edgeListToAdjDict es).flatMap fun p => p.2.map fun b => (p.1, b)) a = _ from
    filter_flat _ (adjDict_nodup es) a]
  rw [adjDict_get, List.map_map]
  conv_rhs => rw [← List.map_id (Spec.edgesFrom es a)]
  apply List.map_congr_left
  intro e he
  have : e.1 = a := by simpa using (List.mem_filter.1 he).2
  subst this; rfl

theorem perm_of_from {es es' : List (Int × Int)} (h : ∀ a, Spec.edgesFrom es a = Spec.edgesFrom es' a) :
    es.Perm es' := by
  rw [List.perm_iff_count]
  intro e
  have key : ∀ l : List (Int × Int), l.count e = (Spec.edgesFrom l e.1).count e := by
    intro l
    unfold Spec.edgesFrom
    rw [List.count_filter]; simp
  rw [key es, key es', h]

/-! ### numbering markers -/

theorem mem_foldl_setAdd (xs : List String) (s : List String) (x : String) :
    x ∈ xs.foldl setAdd s ↔ x ∈ s ∨ x ∈ xs := by
  induction xs generalizing s with
  | nil => simp
  | cons y ys ih =>
    rw [List.foldl_cons, ih]
    unfold setAdd
    by_cases h : y ∈ s
    · rw [if_pos h]
      constructor
      · rintro (h1 | h1) <;> simp [h1]
      · rintro (h1 | h1)
        · exact .inl h1
        · rcases List.mem_cons.1 h1 with rfl | h1
          · exact .inl h
          · exact .inr h1
    · rw [if_neg h]; simp [or_assoc]

theorem nodup_foldl_setAdd (xs : List String) (s : List String) (hs : s.Nodup) :
    (xs.foldl setAdd s).Nodup := by
  induction xs generalizing s with
  | nil => exact hs
  | cons y ys ih =>
    rw [List.foldl_cons]
    apply ih
    unfold setAdd
    by_cases h : y ∈ s
    · rwa [if_pos h]
    · rw [if_neg h]; exact List.nodup_append.2 ⟨hs, by simp, fun a ha b hb => by
      rw [List.mem_singleton] at hb; subst hb; rintro rfl; exact h ha⟩

theorem mem_sortedSet (xs : List String) (x : String) : x ∈ sortedSet xs ↔ x ∈ xs := by
  unfold sortedSet
  rw [List.mem_insertionSort, mem_foldl_setAdd]; simp

theorem nodup_sortedSet (xs : List String) : (sortedSet xs).Nodup :=
  (List.perm_insertionSort _ _).nodup_iff.2 (nodup_foldl_setAdd xs [] List.nodup_nil)

theorem sorted_sortedSet (xs : List String) : (sortedSet xs).Pairwise (· < ·) := by
  have h1 : (sortedSet xs).Pairwise (· ≤ ·) := List.pairwise_insertionSort _ _
  have h2 := nodup_sortedSet xs
  exact (h1.and h2).imp fun h => lt_of_le_of_ne h.1 h.2

theorem enumMap_aux (l : List String) (hl : l.Nodup) (d : Dict String Nat) (k : Nat) (s : String) :
    ((l.zipIdx k).foldl (fun d p => d.set p.1 p.2) d).get? s =
      if s ∈ l then some (k + l.idxOf s) else d.get? s := by
  induction l generalizing d k with
  | nil => rfl
  | cons y ys ih =>
    rw [List.nodup_cons] at hl
    rw [List.zipIdx_cons, List.foldl_cons, ih hl.2, Dict.get?_set]
    by_cases hy : y = s
    · subst hy
      simp [hl.1]
    · by_cases hs : s ∈ ys
      · rw [if_pos hs, if_pos (by simp [hs]), List.idxOf_cons_ne _ hy]; congr 1; omega
      · rw [if_neg hs, if_neg hy, if_neg]
        simp only [List.mem_cons, not_or]; exact ⟨fun h => hy h.symm, hs⟩

theorem enumMap_get (xs : List String) (s : String) :
    (enumMap (sortedSet xs)).get? s = if s ∈ xs then some ((sortedSet xs).idxOf s) else none := by
  unfold enumMap
  rw [enumMap_aux _ (nodup_sortedSet xs)]
  simp [mem_sortedSet]

/-- the numbering computed by the code -/
def num (xs : List String) (s : String) : Nat := (sortedSet xs).idxOf s

theorem mapAt_ok {xs : List String} {s : String} (h : s ∈ xs) :
    mapAt (enumMap (sortedSet xs)) s = .ok (num xs s) := by
  unfold mapAt; rw [enumMap_get, if_pos h]; rfl

theorem mapAt_error {xs : List String} {s : String} (h : s ∉ xs) :
    mapAt (enumMap (sortedSet xs)) s = .error .key := by
  unfold mapAt; rw [enumMap_get, if_neg h]

theorem isMapOf (xs : List String) : Spec.IsMapOf (enumMap (sortedSet xs)) xs (num xs) := by
  intro s i
  rw [enumMap_get]
  by_cases h : s ∈ xs
  · simp [h, num]
  · simp [h]

theorem card_sortedSet (xs : List String) : (sortedSet xs).length = xs.toFinset.card := by
  rw [← List.toFinset_card_of_nodup (nodup_sortedSet xs)]
  congr 1
  ext x; simp [mem_sortedSet]

theorem idxOf_lt_idxOf_iff {l : List String} (hl : l.Pairwise (· < ·)) {s t : String} (hs : s ∈ l)
    (ht : t ∈ l) : l.idxOf s < l.idxOf t ↔ s < t := by
  have key : ∀ s ∈ l, ∀ t ∈ l, l.idxOf s < l.idxOf t → s < t := by
    intro s hs t ht h
    have h1 := List.idxOf_lt_length_of_mem hs
    have h2 := List.idxOf_lt_length_of_mem ht
    have := List.pairwise_iff_getElem.1 hl _ _ h1 h2 h
    simpa using this
  constructor
  · exact key s hs t ht
  · intro h
    rcases Nat.lt_trichotomy (l.idxOf s) (l.idxOf t) with h1 | h1 | h1
    · exact h1
    · exact absurd ((List.idxOf_inj hs).1 h1) (ne_of_lt h)
    · exact absurd (key t ht s hs h1) (not_lt.2 h.le)

theorem numbers (xs : List String) : Spec.Numbers xs (num xs) := by
  constructor
  · intro s hs t ht
    exact idxOf_lt_idxOf_iff (sorted_sortedSet xs) ((mem_sortedSet xs s).2 hs) ((mem_sortedSet xs t).2 ht)
  · intro k
    rw [← card_sortedSet]
    constructor
    · rintro ⟨s, hs, rfl⟩
      exact List.idxOf_lt_length_of_mem ((mem_sortedSet xs s).2 hs)
    · intro hk
      refine ⟨(sortedSet xs)[k], (mem_sortedSet xs _).1 (List.getElem_mem hk), ?_⟩
      exact (nodup_sortedSet xs).idxOf_getElem k hk

theorem mapEdges_ok {xs : List String} {es : List (List String)} (h : ∀ e ∈ es, ∀ s ∈ e, s ∈ xs) :
    mapEdges (enumMap (sortedSet xs)) es = .ok (es.map fun e => e.map (num xs)) := by
  unfold mapEdges
  exact collectE_ok fun e he => collectE_ok fun s hs => mapAt_ok (h e he s hs)

theorem collectE_ok_map {α β γ : Type} {h : γ → α} {f : α → Except Err β} {g : γ → β} {xs : List γ}
    (hf : ∀ x ∈ xs, f (h x) = .ok (g x)) : collectE (xs.map h) f = .ok (xs.map g) := by
  induction xs with
  | nil => rfl
  | cons a as ih =>
    simp only [List.map_cons, collectE]
    rw [hf a List.mem_cons_self, ih fun x hx => hf x (List.mem_cons_of_mem _ hx)]; rfl

theorem collectE_error {α β : Type} {f : α → Except Err β} (e : Err)
    (hf : ∀ x, (∃ y, f x = .ok y) ∨ f x = .error e) {xs : List α} {x : α} (hx : x ∈ xs)
    (hbad : f x = .error e) : collectE xs f = .error e := by
  induction xs with
  | nil => cases hx
  | cons a as ih =>
    simp only [collectE]
    rcases hf a with ⟨y, hy⟩ | hy
    · rw [hy]
      rcases List.mem_cons.1 hx with rfl | hx
      · rw [hbad] at hy; cases hy
      · rw [show collectE as f = _ from ih hx]; rfl
    · rw [hy]; rfl

theorem collectE_error_cases {α β : Type} {f : α → Except Err β} (e : Err)
    (hf : ∀ x, (∃ y, f x = .ok y) ∨ f x = .error e) (xs : List α) :
    (∃ ys, collectE xs f = .ok ys) ∨ collectE xs f = .error e := by
  induction xs with
  | nil => exact .inl ⟨[], rfl⟩
  | cons a as ih =>
    simp only [collectE]
    rcases hf a with ⟨y, hy⟩ | hy
    · rw [hy]
      rcases ih with ⟨ys, hys⟩ | hys
      · rw [hys]; exact .inl ⟨_, rfl⟩
      · rw [hys]; exact .inr rfl
    · rw [hy]; exact .inr rfl

theorem mapAt_cases (m : Dict String Nat) (s : String) :
    (∃ y, mapAt m s = .ok y) ∨ mapAt m s = .error .key := by
  unfold mapAt
  rcases m.get? s with _ | i
  · exact .inr rfl
  · exact .inl ⟨i, rfl⟩

theorem mapEdges_error {xs : List String} {es : List (List String)} {e : List String} {s : String}
    (he : e ∈ es) (hs : s ∈ e) (h : s ∉ xs) : mapEdges (enumMap (sortedSet xs)) es = .error .key := by
  unfold mapEdges
  exact collectE_error .key (collectE_error_cases .key (mapAt_cases _)) he
    (collectE_error .key (mapAt_cases _) hs (mapAt_error h))

theorem mapPairs_ok {us vs : List String} {ps : List (String × String)} {es : List (List String)}
    (hp : collectE es unpack2 = .ok ps) (hu : ∀ p ∈ ps, p.1 ∈ us) (hv : ∀ p ∈ ps, p.2 ∈ vs) :
    mapPairs (enumMap (sortedSet us)) (enumMap (sortedSet vs)) es =
      .ok (ps.map fun p => [num us p.1, num vs p.2]) := by
  induction es generalizing ps with
  | nil => cases hp; rfl
  | cons e es ih =>
    simp only [collectE] at hp
    rcases he : unpack2 e with err | p
    · rw [he] at hp; cases hp
    · rw [he] at hp
      rcases hr : collectE es unpack2 with err | ps'
      · rw [hr] at hp; cases hp
      · rw [hr] at hp; cases hp
        have := ih hr (fun q hq => hu q (List.mem_cons_of_mem _ hq)) (fun q hq => hv q (List.mem_cons_of_mem _ hq))
        unfold mapPairs at this ⊢
        simp only [collectE, he]
        rw [this]
        have h1 := mapAt_ok (hu p List.mem_cons_self)
        have h2 := mapAt_ok (hv p List.mem_cons_self)
        show ((mapAt _ p.1 >>= fun a => mapAt _ p.2 >>= fun b => Except.ok [a, b]) >>= _) = _
        rw [h1, h2]; rfl

theorem mapLine_cases {mu mv : Dict String Nat} (u : String) (vs : List String) :
    (∃ y, mapLine mu mv (u :: vs) = .ok y) ∨ mapLine mu mv (u :: vs) = .error .key := by
  simp only [mapLine]
  rcases mapAt_cases mu u with ⟨a, h⟩ | h
  · rw [h]
    rcases collectE_error_cases .key (mapAt_cases mv) vs with ⟨b, h'⟩ | h'
    · rw [h']; exact .inl ⟨_, rfl⟩
    · rw [h']; exact .inr rfl
  · rw [h]; exact .inr rfl

theorem mapLine_ok {us vs : List String} {u : String} {l : List String} (hu : u ∈ us)
    (hl : ∀ s ∈ l, s ∈ vs) :
    mapLine (enumMap (sortedSet us)) (enumMap (sortedSet vs)) (u :: l) = .ok (num us u :: l.map (num vs)) := by
  simp only [mapLine]
  rw [mapAt_ok hu, collectE_ok fun s hs => mapAt_ok (hl s hs)]; rfl

theorem mem_longLines {adj : List (List String)} {l : List String} :
    l ∈ longLines adj ↔ l ∈ adj ∧ 1 < l.length := by
  unfold longLines; simp

end Utils
end DHG
