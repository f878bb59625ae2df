import Verif.UtilsLemmas

/-!
# C50 – C52: renumbering markers, edge lists and adjacency lists

`str` is Python's `str` on the markers; the theorems hold for every such function.
-/

set_option linter.unusedSectionVars false
set_option autoImplicit false

namespace DHG
namespace Props
open Utils

variable {M : Type} (str : M → String)

/-! ## C50 -/

/-- A numbering is injective: equal numbers only for equal markers. -/
theorem C50_numbering_injective {marks : List String} {f : String → Nat} (h : Spec.Numbers marks f)
    {s t : String} (hs : s ∈ marks) (ht : t ∈ marks) : f s = f t ↔ s = t := by
  constructor
  · intro he
    rcases lt_trichotomy s t with h1 | h1 | h1
    · exact absurd ((h.1 s hs t ht).2 h1) (by omega)
    · exact h1
    · exact absurd ((h.1 t ht s hs).2 h1) (by omega)
  · rintro rfl; rfl

/-- The numbering of given markers is unique: the result of the functions below is completely
determined by their statements. -/
theorem C50_numbering_unique {marks : List String} {f g : String → Nat} (hf : Spec.Numbers marks f)
    (hg : Spec.Numbers marks g) : ∀ s ∈ marks, f s = g s := by
  have key : ∀ {f g : String → Nat}, Spec.Numbers marks f → Spec.Numbers marks g →
      ∀ n, ∀ s ∈ marks, f s = n → f s ≤ g s := by
    intro f g hf hg n
    induction n using Nat.strong_induction_on with
    | _ n ih =>
      intro s hs hn
      by_contra hlt
      have hlt : g s < f s := Nat.lt_of_not_le hlt
      have hk : g s < marks.toFinset.card := hlt.trans ((hf.2 (f s)).1 ⟨s, hs, rfl⟩)
      obtain ⟨t, ht, hft⟩ := (hf.2 (g s)).2 hk
      have hts : t < s := (hf.1 t ht s hs).1 (by omega)
      have h1 := ih (f t) (by omega) t ht rfl
      have h2 := (hg.1 t ht s hs).2 hts
      omega
  intro s hs
  exact Nat.le_antisymm (key hf hg _ s hs rfl) (key hg hf _ s hs rfl)

/-- C50. `remap_edge_list` never fails, replaces every marker by its number, and returns that
numbering as the map. -/
theorem C50_remap_edge_list (es : List (List M)) :
    ∃ r m f, remapEdgeList str es = .ok (r, m) ∧ Spec.Numbers (es.flatten.map str) f ∧
      r = es.map (fun e => e.map fun x => f (str x)) ∧ Spec.IsMapOf m (es.flatten.map str) f := by
  have hfl : (es.map fun e => e.map str).flatten = es.flatten.map str := by simp [List.map_flatten]
  refine ⟨_, _, num (es.flatten.map str), ?_, numbers _, rfl, isMapOf _⟩
  unfold remapEdgeList
  simp only
  rw [hfl, mapEdges_ok]
  · simp [bind, Except.bind, Function.comp_def]
  · intro e he s hs
    rw [← hfl]; exact List.mem_flatten.2 ⟨e, he, hs⟩

/-- C50. With `bipartite_graph=True` the two sides are numbered separately. -/
theorem C50_remap_edge_list_bipartite (es : List (M × M)) :
    ∃ r mu mv f g, remapEdgeListBi str (es.map fun e => [e.1, e.2]) = .ok (r, mu, mv) ∧
      Spec.Numbers (es.map fun e => str e.1) f ∧ Spec.Numbers (es.map fun e => str e.2) g ∧
      r = es.map (fun e => [f (str e.1), g (str e.2)]) ∧
      Spec.IsMapOf mu (es.map fun e => str e.1) f ∧ Spec.IsMapOf mv (es.map fun e => str e.2) g := by
  have hp : collectE ((es.map fun e => [e.1, e.2]).map fun e => e.map str) unpack2 =
      .ok (es.map fun e => (str e.1, str e.2)) := by
    clear * -
    induction es with
    | nil => rfl
    | cons e es ih => simp only [List.map_cons, List.map_nil, collectE] at ih ⊢; rw [ih]; rfl
  refine ⟨_, _, _, num (es.map fun e => str e.1), num (es.map fun e => str e.2), ?_, numbers _, numbers _, rfl,
    isMapOf _, isMapOf _⟩
  unfold remapEdgeListBi
  simp only
  rw [hp]
  simp only [bind, Except.bind, List.map_map, Function.comp_def]
  rw [mapPairs_ok (us := es.map fun e => str e.1) (vs := es.map fun e => str e.2)
    (by simpa [List.map_map, Function.comp_def] using hp)]
  · simp [Function.comp_def]
  · intro p hp'; obtain ⟨e, he, rfl⟩ := List.mem_map.1 hp'; exact List.mem_map_of_mem he
  · intro p hp'; obtain ⟨e, he, rfl⟩ := List.mem_map.1 hp'; exact List.mem_map_of_mem he

/-- C50. With `bipartite_graph=True` edges that are not pairs raise `ValueError`. -/
theorem C50_remap_edge_list_bipartite_raises {es : List (List M)} {e : List M} (he : e ∈ es)
    (h2 : e.length ≠ 2) : remapEdgeListBi str es = .error .value := by
  have hbad : unpack2 (e.map str) = .error .value := by
    unfold unpack2
    rcases e with _ | ⟨a, _ | ⟨b, _ | ⟨c, t⟩⟩⟩
    · rfl
    · rfl
    · simp at h2
    · rfl
  have hc : ∀ x : List String, (∃ y, unpack2 x = .ok y) ∨ unpack2 x = .error .value := by
    intro x
    rcases x with _ | ⟨a, _ | ⟨b, _ | ⟨c, t⟩⟩⟩
    · exact .inr rfl
    · exact .inr rfl
    · exact .inl ⟨_, rfl⟩
    · exact .inr rfl
  unfold remapEdgeListBi
  simp only
  rw [collectE_error .value hc (List.mem_map_of_mem he) hbad]
  rfl

/-- C50. `remap_edge_lists` uses one numbering for all lists. -/
theorem C50_remap_edge_lists (ess : List (List (List M))) :
    ∃ r m f, remapEdgeLists str ess = .ok (r, m) ∧ Spec.Numbers (ess.flatten.flatten.map str) f ∧
      r = ess.map (fun es => es.map fun e => e.map fun x => f (str x)) ∧
      Spec.IsMapOf m (ess.flatten.flatten.map str) f := by
  have hfl : (ess.map fun es => es.map fun e => e.map str).flatten.flatten = ess.flatten.flatten.map str := by
    simp [List.map_flatten]
  refine ⟨_, _, num (ess.flatten.flatten.map str), ?_, numbers _, rfl, isMapOf _⟩
  unfold remapEdgeLists
  simp only
  rw [hfl, collectE_ok fun es hes => mapEdges_ok fun e he s hs => by
    rw [← hfl]
    exact List.mem_flatten.2 ⟨e, List.mem_flatten.2 ⟨es, hes, he⟩, hs⟩]
  simp [bind, Except.bind, Function.comp_def]

/-- C50. `remap_edge_lists` with `bipartite_graph=True` uses one numbering per side for all lists. -/
theorem C50_remap_edge_lists_bipartite (ess : List (List (M × M))) :
    ∃ r mu mv f g, remapEdgeListsBi str (ess.map fun es => es.map fun e => [e.1, e.2]) = .ok (r, mu, mv) ∧
      Spec.Numbers (ess.flatten.map fun e => str e.1) f ∧ Spec.Numbers (ess.flatten.map fun e => str e.2) g ∧
      r = ess.map (fun es => es.map fun e => [f (str e.1), g (str e.2)]) ∧
      Spec.IsMapOf mu (ess.flatten.map fun e => str e.1) f ∧
      Spec.IsMapOf mv (ess.flatten.map fun e => str e.2) g := by
  have hp : ∀ es : List (M × M), collectE ((es.map fun e => [e.1, e.2]).map fun e => e.map str) unpack2 =
      .ok (es.map fun e => (str e.1, str e.2)) := by
    intro es
    induction es with
    | nil => rfl
    | cons e es ih => simp only [List.map_cons, List.map_nil, collectE] at ih ⊢; rw [ih]; rfl
  have hfl : ((ess.map fun es => es.map fun e => [e.1, e.2]).map fun es => es.map fun e => e.map str).flatten =
      (ess.flatten.map fun e => [e.1, e.2]).map fun e => e.map str := by
    simp [List.map_flatten, Function.comp_def]
  refine ⟨_, _, _, num (ess.flatten.map fun e => str e.1), num (ess.flatten.map fun e => str e.2), ?_,
    numbers _, numbers _, rfl, isMapOf _, isMapOf _⟩
  unfold remapEdgeListsBi
  simp only
  rw [hfl, hp]
  simp only [bind, Except.bind, List.map_map, Function.comp_def]
  rw [show ess.map (fun x => x.map fun x => [x.1, x.2].map str) = ess.map
    (fun es => (es.map fun e => [e.1, e.2]).map fun e => e.map str) by simp [Function.comp_def]]
  have hc : ∀ es ∈ ess, mapPairs (enumMap (sortedSet (ess.flatten.map fun e => str e.1)))
      (enumMap (sortedSet (ess.flatten.map fun e => str e.2)))
      ((es.map fun e => [e.1, e.2]).map fun e => e.map str) =
      .ok (es.map fun e => [num (ess.flatten.map fun e => str e.1) (str e.1),
        num (ess.flatten.map fun e => str e.2) (str e.2)]) := by
    intro es hes
    rw [mapPairs_ok (hp es)]
    · simp [Function.comp_def]
    · intro p hp'; obtain ⟨e, he, rfl⟩ := List.mem_map.1 hp'
      exact List.mem_map.2 ⟨e, List.mem_flatten.2 ⟨es, hes, he⟩, rfl⟩
    · intro p hp'; obtain ⟨e, he, rfl⟩ := List.mem_map.1 hp'
      exact List.mem_map.2 ⟨e, List.mem_flatten.2 ⟨es, hes, he⟩, rfl⟩
  rw [show collectE (ess.map fun es => (es.map fun e => [e.1, e.2]).map fun e => e.map str) _ = _ from
    collectE_ok_map hc]

/-- the markers of a small edge list, with a repeated marker -/
example : remapEdgeList (fun s : String => s) [["b", "a"], ["a", "c", "b"]] =
    .ok ([[1, 0], [0, 2, 1]], [("a", 0), ("b", 1), ("c", 2)]) := by decide +kernel

/-! ## C51 -/

/-- C51. Going to an adjacency list and back keeps, for every source, its edges in order. -/
theorem C51_round_trip_per_source (es : List (Int × Int)) (a : Int) :
    Spec.edgesFrom (adjListToEdgeList (edgeListToAdjList es)) a = Spec.edgesFrom es a :=
  roundtrip_from es a

/-- C51. Going to an adjacency list and back permutes the edges. -/
theorem C51_round_trip_perm (es : List (Int × Int)) :
    (adjListToEdgeList (edgeListToAdjList es)).Perm es :=
  perm_of_from (roundtrip_from es)

/-- C51. The adjacency list has one line for each source, namely the source followed by the ends of
its edges in order. -/
theorem C51_adjacency_lines (es : List (Int × Int)) :
    (∀ line, line ∈ edgeListToAdjList es ↔
      ∃ a, (∃ b, (a, b) ∈ es) ∧ line = a :: (Spec.edgesFrom es a).map Prod.snd) ∧
    ((edgeListToAdjList es).map List.head?).Nodup := by
  constructor
  · intro line
    unfold edgeListToAdjList
    rw [List.mem_map]
    constructor
    · rintro ⟨p, hp, rfl⟩
      exact ⟨p.1, (adjDict_has es p.1).1 (List.mem_map_of_mem hp), by rw [← (adjDict_nonempty es hp).2]⟩
    · rintro ⟨a, ha, rfl⟩
      obtain ⟨p, hp, rfl⟩ := List.mem_map.1 ((adjDict_has es a).2 ha)
      exact ⟨p, hp, by rw [← (adjDict_nonempty es hp).2]⟩
  · unfold edgeListToAdjList
    rw [List.map_map]
    have h := adjDict_nodup es
    unfold Dict.keys at h
    rw [show (List.head? ∘ fun p : Int × List Int => p.1 :: p.2) = some ∘ Prod.fst from rfl, ← List.map_map]
    exact h.map (Option.some_injective _)

/-- the conversion moves the edges of source 5 together -/
example : adjListToEdgeList (edgeListToAdjList [(5, 1), (2, 3), (5, 0), (5, 1)]) =
    [(5, 1), (5, 0), (5, 1), (2, 3)] := by decide

/-! ## C52 -/

/-- C52, partial. `remap_adj_list` renumbers the markers consistently if every marker occurs on a
line with a neighbour. Missing: vertices that only occur on a line without neighbours. -/
theorem C52_remap_adj_list_partial (adj : List (List M))
    (h : ∀ l ∈ adj, ∀ x ∈ l, ∃ l' ∈ adj, 1 < l'.length ∧ ∃ y ∈ l', str y = str x) :
    ∃ r m f, remapAdjList str adj = .ok (r, m) ∧ Spec.Numbers (adj.flatten.map str) f ∧
      r = adj.map (fun l => l.map fun x => f (str x)) ∧ Spec.IsMapOf m (adj.flatten.map str) f := by
  have hm : ∀ s, s ∈ (longLines (adj.map fun l => l.map str)).flatten ↔ s ∈ adj.flatten.map str := by
    intro s
    simp only [List.mem_flatten, mem_longLines, List.mem_map]
    constructor
    · rintro ⟨l, ⟨⟨l', hl', rfl⟩, -⟩, hs⟩
      obtain ⟨x, hx, rfl⟩ := List.mem_map.1 hs
      exact ⟨x, ⟨l', hl', hx⟩, rfl⟩
    · rintro ⟨x, ⟨l, hl, hx⟩, rfl⟩
      obtain ⟨l', hl', h1, y, hy, he⟩ := h l hl x hx
      exact ⟨l'.map str, ⟨⟨l', hl', rfl⟩, by simpa using h1⟩, List.mem_map.2 ⟨y, hy, he⟩⟩
  have hn := numbers (longLines (adj.map fun l => l.map str)).flatten
  have hi := isMapOf (longLines (adj.map fun l => l.map str)).flatten
  refine ⟨_, enumMap (sortedSet (longLines (adj.map fun l => l.map str)).flatten),
    num (longLines (adj.map fun l => l.map str)).flatten, ?_, ?_, rfl, ?_⟩
  · unfold remapAdjList
    simp only
    rw [mapEdges_ok]
    · simp [bind, Except.bind, Function.comp_def]
    · intro e he s hs
      obtain ⟨l, hl, rfl⟩ := List.mem_map.1 he
      obtain ⟨x, hx, rfl⟩ := List.mem_map.1 hs
      exact (hm _).2 (List.mem_map_of_mem (List.mem_flatten.2 ⟨l, hl, hx⟩))
  · refine ⟨fun s hs t ht => hn.1 s ((hm s).2 hs) t ((hm t).2 ht), fun k => ?_⟩
    rw [show (adj.flatten.map str).toFinset = (longLines (adj.map fun l => l.map str)).flatten.toFinset by
      ext s; rw [List.mem_toFinset, List.mem_toFinset, hm], ← hn.2]
    exact exists_congr fun s => by rw [hm]
  · intro s i; rw [hi s i, hm]

/-- C52 is false: a vertex that only occurs on a line without neighbours raises `KeyError`. -/
theorem C52_remap_adj_list_false {adj : List (List M)} {x : M} (hx : [x] ∈ adj)
    (h : ∀ l ∈ adj, 1 < l.length → ∀ y ∈ l, str y ≠ str x) : remapAdjList str adj = .error .key := by
  unfold remapAdjList
  simp only
  rw [mapEdges_error (e := [str x]) (s := str x) (List.mem_map.2 ⟨[x], hx, rfl⟩) (by simp)]
  · rfl
  · intro hs
    obtain ⟨l, hl, hs⟩ := List.mem_flatten.1 hs
    obtain ⟨hl, h1⟩ := mem_longLines.1 hl
    obtain ⟨l', hl', rfl⟩ := List.mem_map.1 hl
    obtain ⟨y, hy, he⟩ := List.mem_map.1 hs
    exact h l' hl' (by simpa using h1) y hy he

/-- C52, partial, bipartite form: the two sides are numbered separately if every line has its user
on a line with an item.  Missing: lines without items whose user occurs on no other line
(`C52_remap_adj_list_bipartite_false`). -/
theorem C52_remap_adj_list_bipartite_partial (adj : List (M × List M))
    (h : ∀ l ∈ adj, ∃ l' ∈ adj, l'.2 ≠ [] ∧ str l'.1 = str l.1) :
    ∃ r mu mv f g, remapAdjListBi str (adj.map fun l => l.1 :: l.2) = .ok (r, mu, mv) ∧
      Spec.Numbers (adj.map fun l => str l.1) f ∧ Spec.Numbers ((adj.flatMap fun l => l.2).map str) g ∧
      r = adj.map (fun l => f (str l.1) :: l.2.map fun x => g (str x)) ∧
      Spec.IsMapOf mu (adj.map fun l => str l.1) f ∧
      Spec.IsMapOf mv ((adj.flatMap fun l => l.2).map str) g := by
  let A := (adj.map fun l => l.1 :: l.2).map fun l => l.map str
  have hu : ∀ s, s ∈ (longLines A).flatMap (fun l => l.take 1) ↔ s ∈ adj.map fun l => str l.1 := by
    intro s
    simp only [List.mem_flatMap, mem_longLines, A, List.map_map, List.mem_map, Function.comp_def]
    constructor
    · rintro ⟨_, ⟨⟨l, hl, rfl⟩, -⟩, hs⟩
      exact ⟨l, hl, by simp at hs; exact hs.symm⟩
    · rintro ⟨l, hl, rfl⟩
      obtain ⟨l', hl', h1, he⟩ := h l hl
      exact ⟨_, ⟨⟨l', hl', rfl⟩, by simpa using List.length_pos_iff.2 h1⟩, by simp [he]⟩
  have hv : ∀ s, s ∈ (longLines A).flatMap (fun l => l.drop 1) ↔ s ∈ (adj.flatMap fun l => l.2).map str := by
    intro s
    simp only [List.mem_flatMap, mem_longLines, A, List.map_map, List.mem_map, Function.comp_def]
    constructor
    · rintro ⟨_, ⟨⟨l, hl, rfl⟩, -⟩, hs⟩
      obtain ⟨x, hx, rfl⟩ := List.mem_map.1 (by simpa using hs : s ∈ l.2.map str)
      exact ⟨x, ⟨l, hl, hx⟩, rfl⟩
    · rintro ⟨x, ⟨l, hl, hx⟩, rfl⟩
      refine ⟨_, ⟨⟨l, hl, rfl⟩, ?_⟩, ?_⟩
      · simpa using List.length_pos_of_mem hx
      · simpa using ⟨x, hx, rfl⟩
  have numbers' : ∀ xs ys : List String, (∀ s, s ∈ xs ↔ s ∈ ys) → Spec.Numbers ys (num xs) := by
    intro xs ys hxy
    have hn := numbers xs
    refine ⟨fun s hs t ht => hn.1 s ((hxy s).2 hs) t ((hxy t).2 ht), fun k => ?_⟩
    rw [show ys.toFinset = xs.toFinset by ext s; rw [List.mem_toFinset, List.mem_toFinset, hxy], ← hn.2]
    exact exists_congr fun s => by rw [hxy]
  refine ⟨_, enumMap (sortedSet ((longLines A).flatMap fun l => l.take 1)),
    enumMap (sortedSet ((longLines A).flatMap fun l => l.drop 1)), num ((longLines A).flatMap fun l => l.take 1), num ((longLines A).flatMap fun l => l.drop 1),
    ?_, numbers' _ _ hu, numbers' _ _ hv, rfl, ?_, ?_⟩
  · unfold remapAdjListBi
    simp only
    rw [show ((adj.map fun l => l.1 :: l.2).map fun l => l.map str) = A from rfl]
    have hc : ∀ l ∈ adj, mapLine (enumMap (sortedSet ((longLines A).flatMap fun l => l.take 1)))
        (enumMap (sortedSet ((longLines A).flatMap fun l => l.drop 1))) ((l.1 :: l.2).map str) =
        .ok (num ((longLines A).flatMap fun l => l.take 1) (str l.1) ::
          l.2.map fun x => num ((longLines A).flatMap fun l => l.drop 1) (str x)) := by
      intro l hl
      rw [List.map_cons, mapLine_ok]
      · simp [Function.comp_def]
      · exact (hu _).2 (List.mem_map.2 ⟨l, hl, rfl⟩)
      · intro s hs
        obtain ⟨x, hx, rfl⟩ := List.mem_map.1 hs
        exact (hv _).2 (List.mem_map_of_mem (List.mem_flatMap.2 ⟨l, hl, hx⟩))
    have hA : A = adj.map fun l => (l.1 :: l.2).map str := by simp [A, Function.comp_def]
    have hr := collectE_ok_map hc
    rw [← hA] at hr
    rw [hr]
    rfl
  · intro s i; rw [isMapOf _ s i, hu]
  · intro s i; rw [isMapOf _ s i, hv]

/-- C52 is false in the bipartite form too: an empty line raises `IndexError`, a user without items
`KeyError`. -/
theorem C52_remap_adj_list_bipartite_false (x : M) :
    remapAdjListBi str [([] : List M)] = .error .index ∧ remapAdjListBi str [[x]] = .error .key :=
  ⟨rfl, rfl⟩

/-- C52, partial: `remap_adj_lists` uses one numbering for all lists, under the same condition.  Missing: names
that occur only on lines of one name. -/
theorem C52_remap_adj_lists_partial (adjs : List (List (List M)))
    (h : ∀ l ∈ adjs.flatten, ∀ x ∈ l, ∃ l' ∈ adjs.flatten, 1 < l'.length ∧ ∃ y ∈ l', str y = str x) :
    ∃ r m f, remapAdjLists str adjs = .ok (r, m) ∧ Spec.Numbers (adjs.flatten.flatten.map str) f ∧
      r = adjs.map (fun adj => adj.map fun l => l.map fun x => f (str x)) ∧
      Spec.IsMapOf m (adjs.flatten.flatten.map str) f := by
  obtain ⟨r, m, f, h1, h2, -, h4⟩ := C52_remap_adj_list_partial str adjs.flatten h
  have hfl : (adjs.map fun adj => adj.map fun l => l.map str).flatten = adjs.flatten.map fun l => l.map str := by
    simp [List.map_flatten]
  unfold remapAdjList at h1
  simp only at h1
  rcases hr : mapEdges (enumMap (sortedSet (longLines (adjs.flatten.map fun l => l.map str)).flatten))
    (adjs.flatten.map fun l => l.map str) with e | r'
  · rw [hr] at h1; cases h1
  · rw [hr] at h1
    cases h1
    have hget : ∀ s ∈ adjs.flatten.flatten.map str,
        mapAt (enumMap (sortedSet (longLines (adjs.flatten.map fun l => l.map str)).flatten)) s = .ok (f s) := by
      intro s hs
      unfold mapAt
      rw [(h4 s (f s)).2 ⟨hs, rfl⟩]
    refine ⟨_, _, f, ?_, h2, rfl, h4⟩
    unfold remapAdjLists
    simp only
    rw [hfl]
    have hc : ∀ adj ∈ adjs, mapEdges (enumMap (sortedSet (longLines (adjs.flatten.map fun l => l.map str)).flatten))
        (adj.map fun l => l.map str) = .ok (adj.map fun l => l.map fun x => f (str x)) := by
      intro adj ha
      unfold mapEdges
      refine collectE_ok_map fun l hl => collectE_ok_map fun x hx => hget _ ?_
      exact List.mem_map_of_mem (List.mem_flatten.2 ⟨l, List.mem_flatten.2 ⟨adj, ha, hl⟩, hx⟩)
    rw [collectE_ok_map hc]
    rfl

/-- every vertex of this adjacency list has a line with neighbours, although one line is short -/
example : ∀ l ∈ [["a", "b"], ["b"]], ∀ x ∈ l, ∃ l' ∈ [["a", "b"], ["b"]], 1 < l'.length ∧
    ∃ y ∈ l', (fun s : String => s) y = (fun s : String => s) x := by decide

/-- the hypotheses of `C52_remap_adj_list_false` hold for an isolated vertex -/
example : ["z"] ∈ [["a", "b"], ["z"]] ∧ ∀ l ∈ [["a", "b"], ["z"]], 1 < l.length → ∀ y ∈ l, y ≠ "z" := by decide

/-- the hypotheses of the bipartite form hold -/
example : ∀ l ∈ [("u", ["i", "j"]), ("u", [])], ∃ l' ∈ [("u", ["i", "j"]), ("u", [])],
    l'.2 ≠ [] ∧ l'.1 = l.1 := by decide

end Props
end DHG
