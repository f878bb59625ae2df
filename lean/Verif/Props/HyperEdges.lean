import Verif.HyperSub
import Verif.Props.GraphEdges2

/-!
# Properties of `Hypergraph`: freshness, hyperedge sets, groups, copies, failures

`Built AnyH b s`: `s` was obtained through the public interface (`HyperApi.lean`): construction, any
calls in any order including failing ones (except a failing call with an unknown `merge_op`, see
`C30_hypergraph_reads_fresh_false`), reads, copies, state dictionaries, dropping and sub-hypergraphs.
With `b = false` the object descends by `clone` from one with vertex weights, and its `W_v` is not
trusted (`C45_hypergraph_clone_false`).
-/

set_option linter.unusedSectionVars false
set_option autoImplicit false

namespace DHG
namespace Props

open Hyper

variable {K : Type} [Field K] [LinearOrder K] [PyReal K] {b : Bool}

/-- example: four vertices, `{0,1,2}` of weight 2 and `{1,3}` of weight 3 in group `"main"`,
`{3}` of weight 5 in group `"b"` -/
noncomputable def exH : HSt ℝ :=
  { raw := { numV := 4, vWeight := some [1, 1, 1, 1]
             groups := [("main", [([0, 1, 2], 2), ([1, 3], 3)]), ("b", [([3], 5)])] }
    cache := [] }

/-- how `exH` is made -/
noncomputable def exH0 : HSt ℝ :=
  { raw := { numV := 4, vWeight := some [1, 1, 1, 1]
             groups := [("main", [([0, 1, 2], 2), ([1, 3], 3)])] }
    cache := [] }

theorem exH0_new : Hyper.new (K := ℝ) 4
    (some (.many false [⟨false, [2, 0, 1]⟩, ⟨true, [1, 3]⟩])) (.list [2, 3]) none .mean = .ok exH0 := rfl

theorem exH0_op : (apply (.addHyperedges (.one false [3]) (.scalar 5) .mean "b") exH0).2 = exH := rfl

theorem exH_built : Built AnyH true exH := by
  rw [← exH0_op]
  exact .op _ (.new exH0_new fun _ _ => trivial) (.inl (by simp [GoodOp])) fun _ _ _ _ _ => trivial

theorem exH_proper : Built Proper true exH := by
  rw [← exH0_op]
  refine .op _ (.new exH0_new ?_) (.inl (by simp [GoodOp])) ?_
  · intro a ha; cases ha
    intro e he
    simp only [argEdges, List.map_cons, List.map_nil, List.mem_cons, List.not_mem_nil, or_false] at he
    rcases he with rfl | rfl <;> decide
  · intro a ew op g h; cases h
    intro e he
    simp only [argEdges, List.mem_cons, List.not_mem_nil, or_false] at he
    subst he
    show _ ∧ ∀ v ∈ [3], 0 ≤ v ∧ v < ((4 : Nat) : Int)
    decide

namespace Hy

theorem fine_of {g : String} {q : HQuery K} (h : QOf g q) : Fine b q :=
  .inr (by rintro rfl; exact h)

/-- calls that name the group `g` -/
def OpOf (g : String) : HOp K → Prop
  | .addHyperedges _ _ _ g' => g' = g
  | .removeHyperedges _ g' => g' = some g
  | .removeGroup g' => g' = g
  | _ => False

theorem apply_agree {g g' : String} (hne : g' ≠ g) {o : HOp K} (ho : OpOf g o) {s : HSt K} (hi : Inv s.raw) :
    Agree g' (apply o s).2.raw s.raw := by
  cases o with
  | addHyperedges arg ew op g0 =>
    obtain rfl : g0 = g := ho
    simp only [apply]
    rcases addHyperedges_cases arg ew op g0 s with ⟨e, h, _⟩ | ⟨es, ws, h1, h2, h3, ⟨h4, h5⟩ | ⟨_, _, h5⟩⟩
    · rw [h]; exact Agree.refl _ _
    · rw [h5]
      have : ∀ (l : List (List Int × K)) (r : HRaw K), Agree g' (l.foldl (addRaw op g0) r) r := by
        intro l
        induction l with
        | nil => intro r; exact Agree.refl _ _
        | cons p l ih =>
          intro r
          refine (ih (addRaw op g0 r p)).trans ⟨rfl, ?_⟩
          simp only [addRaw, Dict.get?_set]
          rw [if_neg (Ne.symm hne)]
      exact this _ _
    · rw [h5]; exact (forM_add_agree op g0 _ s).2 g' hne
  | removeHyperedges arg g0 =>
    obtain rfl : g0 = some g := ho
    simp only [apply]
    rcases removeHyperedges_cases arg (some g) s with ⟨e, h, _⟩ | ⟨es, h1, h2, h3⟩
    · rw [h]; exact Agree.refl _ _
    · rw [h3]; exact removeRaw_agree g g' hne s.raw es
  | removeGroup g0 =>
    obtain rfl : g0 = g := ho
    refine ⟨rfl, ?_⟩
    show Dict.get? (Dict.del s.raw.groups g0) g' = _
    rw [Dict.get?_del _ _ _ hi.names, if_neg (Ne.symm hne)]
  | clear => exact ho.elim
  | setVWeight w => exact ho.elim

theorem names_iff {s : HSt K} (g : String) :
    g ∈ Spec.hNames s ↔ ∃ d, s.raw.groups.get? g = some d := by
  show g ∈ s.raw.groups.keys ↔ _
  rw [← Option.isSome_iff_exists, Dict.get?_isSome_iff]

theorem format_of_edges {a a' : HArg} (h : Spec.hEdges a = Spec.hEdges a') : a.format = a'.format := by
  rcases format_edges a with ⟨e, h1, h2⟩ | ⟨ls, h1, h2⟩ <;>
    rcases format_edges a' with ⟨e', h1', h2'⟩ | ⟨ls', h1', h2'⟩
  · have : ∀ x : HArg, Spec.hEdges x = none → x.format = .error .type := by
      intro x hx
      cases x with
      | one t vs => cases vs <;> cases hx
      | many t es => cases hx
      | other => rfl
    rw [this a h2, this a' h2']
  · rw [h2, h2'] at h; cases h
  · rw [h2, h2'] at h; cases h
  · rw [h2, h2', Option.some.injEq] at h
    rw [h1, h1']
    congr 1
    have h3 := congrArg (List.map fun m : Multiset Int => sortV m.toList) h
    simp only [List.map_map, Function.comp_def, sortV_toList] at h3
    exact h3

theorem numE_group {s : HSt K} (hs : Coh b s) {g : String} {d : HGroup K}
    (hg : s.raw.groups.get? g = some d) : (ask (.numE (some g)) s).1 = .ok (.num d.length) := by
  rw [ask_eq _ hs (.inr (by simp))]
  simp only [evAsk, evNumE, evGroup, hg]; rfl

theorem get_of_mem {s : HSt K} (hi : Inv s.raw) {p : String × HGroup K} (hp : p ∈ s.raw.groups) :
    s.raw.groups.get? p.1 = some p.2 := (Dict.get?_eq_some_iff _ hi.names _ _).2 hp

/-- raw content after removing named hyperedges, seen through the listing -/
theorem hErase_foldl (sel : String → Prop) [DecidablePred sel] (es : List (Multiset Int))
    (m : Spec.HMap K) (g : String) (e : Multiset Int) :
    Spec.hGet (es.foldl (Spec.hErase sel) m) g e = if e ∈ es ∧ sel g then none else Spec.hGet m g e := by
  induction es generalizing m with
  | nil => simp
  | cons x es ih =>
    rw [List.foldl_cons, ih]
    have h1 : Spec.hGet (Spec.hErase sel m x) g e =
        if e = x ∧ sel g then none else Spec.hGet m g e := by
      unfold Spec.hGet Spec.hErase
      cases m g <;> simp
    rw [h1]
    by_cases hs : sel g <;> by_cases hx : e = x <;> by_cases he : e ∈ es <;> simp [hs, hx, he]

end Hy
open Hy

/-! ## C30 -/

/-- C30, partial. After any history `h` on an object obtained in any way, every read answers as on a
hypergraph newly built by public calls from the content of the state dictionary and the vertex
weights. Missing: histories in which `add_hyperedges` fails because of an unknown `merge_op`
(`C30_hypergraph_reads_fresh_false`), and `W_v` of clones (`Fine`, `C45_hypergraph_clone_false`). -/
theorem C30_hypergraph_reads_fresh_partial {s : HSt K} (hs : Built AnyH b s) (h : List (Step K))
    (hh : GoodRun s h) (q : HQuery K) (hq : Fine b q) :
    ∃ s0 : HSt K, Hyper.new (stateDict (run s h)).numV none .none (run s h).raw.vWeight .mean = .ok s0 ∧
      (ask q (run s h)).1 = (ask q (run s0
        ((Spec.rebuildOps (run s h).raw.vWeight (stateDict (run s h)).groups).map Step.op))).1 := by
  obtain ⟨hi, hc⟩ := (hs.run h hh).inv
  obtain ⟨s0, h1, h2, h3, h4⟩ := rebuild hi
  refine ⟨s0, h1, ?_⟩
  obtain ⟨_, h5, _⟩ := run_raw_eq (s := s0) (s' := s0) rfl h2 h2 _ h3
  rw [ask_eq q hc hq]
  show _ = (ask q (run s0 ((Spec.rebuildOps (run s h).raw.vWeight (run s h).raw.groups).map Step.op))).1
  rw [ask_eq q h5 (.inl rfl), h4]

/-- C30. Reads never influence later answers. -/
theorem C30_hypergraph_reads_do_not_interfere {s : HSt K} (hs : Built AnyH true s)
    (qs : List (HQuery K)) : Spec.HIndist (fun _ => True) (run s (qs.map .read)) s := by
  have key : ∀ (qs : List (HQuery K)) (s : HSt K), Coh true s →
      (run s (qs.map .read)).raw = s.raw ∧ Coh true (run s (qs.map .read)) := by
    intro qs
    induction qs with
    | nil => intro s hs; exact ⟨rfl, hs⟩
    | cons q qs ih =>
      intro s hs
      obtain ⟨h1, h2⟩ := ask_keeps q hs
      obtain ⟨h3, h4⟩ := ih _ h2
      exact ⟨h3.trans h1, h4⟩
  obtain ⟨h1, h2⟩ := key qs s hs.inv.2
  exact indist_of_raw h1 h2 hs.inv.2

example : Built AnyH true exH ∧
    GoodRun exH [.read (.e none), .op (.addHyperedges (.one true [2, 1]) .none .sum "main"),
      .op (.removeHyperedges (.one true [3]) (some "c")), .read (.H none)] ∧
    Fine (K := ℝ) true (.H none) :=
  ⟨exH_built, ⟨.inl (by simp [GoodOp]), .inl trivial, trivial⟩, .inl rfl⟩

/-- C30 is false without the restriction on histories: `add_hyperedges` with an unknown `merge_op`
that meets an existing hyperedge raises after having added others, and the caches are not cleared. -/
theorem C30_hypergraph_reads_fresh_false :
    ¬ ∀ (s : HSt ℝ), Built AnyH true s → ∀ (h : List (Step ℝ)) (es : List (List Int)) (ws : List ℝ) (n : Nat),
      (ask (.e none) (run s h)).1 = .ok (.edges es ws) →
      (ask (.numE none) (run s h)).1 = .ok (.num n) → es.length = n := by
  intro h
  have h1 := h exH exH_built [.read (.e none), .op (.addHyperedges
    (.many false [⟨true, [0]⟩, ⟨true, [1, 3]⟩]) .none .other "main")]
    [[0, 1, 2], [1, 3], [3]] [2, 3, 5] 4 rfl rfl
  exact absurd h1 (by decide)

/-! ## C31 -/

/-- C31. After any history on a new hypergraph, group `g` lists the hyperedge `e` (vertices without
order) with weight `w` exactly when the replay on the specification map says so: adding writes or
merges with the chosen operation, removing erases, in the named group only. -/
theorem C31_hypergraph_hyperedge_map {n : Int} {arg : Option HArg} {ew : HW K}
    {vw : Option (List K)} {op : MergeOp} {s : HSt K} (hs : Hyper.new n arg ew vw op = .ok s)
    (h : List (Step K)) (hh : GoodRun s h) (g : String) (e : Multiset Int) (w : K) :
    Spec.HListed (run s h) g e w ↔ Spec.hGet (Spec.hRun (Spec.hNew arg ew op) h) g e = some w := by
  have hb : Built AnyH true s := .new hs fun _ _ => trivial
  obtain ⟨hi, hc⟩ := hb.inv
  obtain ⟨hi', hc'⟩ := (hb.run h hh).inv
  rw [listed_iff hi' hc', absM_run hi hc h hh, absM_new hs]

/-- C31. The groups that exist are those of the specification. -/
theorem C31_hypergraph_group_names {n : Int} {arg : Option HArg} {ew : HW K}
    {vw : Option (List K)} {op : MergeOp} {s : HSt K} (hs : Hyper.new n arg ew vw op = .ok s)
    (h : List (Step K)) (hh : GoodRun s h) (g : String) :
    g ∈ Spec.hNames (run s h) ↔ (Spec.hRun (Spec.hNew arg ew op) h g).isSome := by
  have hb : Built AnyH true s := .new hs fun _ _ => trivial
  obtain ⟨hi, hc⟩ := hb.inv
  rw [names_iff, ← absM_new hs, ← absM_run hi hc h hh, ← Option.isSome_iff_exists]
  unfold absM
  rw [Option.isSome_map]

/-- C31. No group lists a hyperedge twice, whatever the order of the vertices. -/
theorem C31_hypergraph_no_copies {s : HSt K} (hs : Built AnyH b s) (g : String) :
    ((Spec.hListing s (some g)).map fun p => (p.1 : Multiset Int)).Nodup := by
  obtain ⟨hi, hc⟩ := hs.inv
  rw [hListing_eq hc]
  cases hg : s.raw.groups.get? g with
  | none => simp
  | some d =>
    have hm := Dict.mem_of_get? hg
    have hk := hi.nodup _ hm
    have h2 : (d.map fun p => (p.1 : Multiset Int)) = d.keys.map fun l : List Int => (l : Multiset Int) := by
      simp [Dict.keys, List.map_map, Function.comp_def]
    rw [Option.getD_some, h2]
    refine List.Nodup.map_on ?_ hk
    intro x hx y hy hxy
    exact (coe_inj_sorted (hi.sorted _ hm x hx) (hi.sorted _ hm y hy)).1 hxy

/-- C31. Two arguments that denote the same hyperedges - vertices in another order, tuples or lists,
one bare hyperedge or a list of one - do the same. -/
theorem C31_hypergraph_vertex_order {s : HSt K} (hs : Built AnyH true s) {a a' : HArg}
    (ha : Spec.hEdges a = Spec.hEdges a') (ew : HW K) (op : MergeOp) (g : String)
    (hop : op ≠ .other) (gr : Option String) :
    ((apply (.addHyperedges a ew op g) s).1 = (apply (.addHyperedges a' ew op g) s).1 ∧
      Spec.HIndist (fun _ => True) (apply (.addHyperedges a ew op g) s).2
        (apply (.addHyperedges a' ew op g) s).2) ∧
    ((apply (.removeHyperedges a gr) s).1 = (apply (.removeHyperedges a' gr) s).1 ∧
      Spec.HIndist (fun _ => True) (apply (.removeHyperedges a gr) s).2
        (apply (.removeHyperedges a' gr) s).2) := by
  obtain ⟨hi, hc⟩ := hs.inv
  have hf := format_of_edges ha
  have h1 : apply (.addHyperedges a ew op g) s = apply (.addHyperedges a' ew op g) s := by
    simp only [apply, addHyperedges, hf]
  have h2 : apply (.removeHyperedges a gr) s = apply (.removeHyperedges a' gr) s := by
    simp only [apply, removeHyperedges, hf]
  have c1 : Coh true (apply (.addHyperedges a' ew op g) s).2 := apply_coh (.inl hop) hc
  have c2 : Coh true (apply (.removeHyperedges a' gr) s).2 := apply_coh (.inl trivial) hc
  rw [h1, h2]
  exact ⟨⟨rfl, indist_of_raw rfl c1 c1⟩, rfl, indist_of_raw rfl c2 c2⟩

example : Spec.hEdges (.one false [3, 1]) = Spec.hEdges (.many true [⟨true, [1, 3]⟩]) := by
  have : ((([3, 1] : List Int)) : Multiset Int) = (([1, 3] : List Int) : Multiset Int) :=
    Multiset.coe_eq_coe.2 (by decide)
  simp [Spec.hEdges, this]

example : Hyper.new (K := ℝ) 4
      (some (.many false [⟨false, [2, 0, 1]⟩, ⟨true, [1, 3]⟩])) (.list [2, 3]) none .mean = .ok exH0 ∧
    GoodRun exH0 [.op (.addHyperedges (.one true [3, 1]) .none .max "main"), .read (.e none)] :=
  ⟨exH0_new, .inl (by simp [GoodOp]), trivial⟩

/-! ## C32 -/

/-- C32. Adding to, removing from or deleting the group `g` changes no read of another group. -/
theorem C32_hypergraph_groups_isolated {s : HSt K} (hs : Built AnyH b s) {g g' : String}
    (hne : g' ≠ g) {o : HOp K}
    (ho : (∃ a ew op, o = .addHyperedges a ew op g) ∨ (∃ a, o = .removeHyperedges a (some g)) ∨
      o = .removeGroup g)
    (hgood : GoodOp o ∨ (apply o s).1 = .ok ()) {q : HQuery K} (hq : QOf g' q) :
    (ask q (apply o s).2).1 = (ask q s).1 := by
  obtain ⟨hi, hc⟩ := hs.inv
  have ho' : OpOf g o := by
    rcases ho with ⟨a, ew, op, rfl⟩ | ⟨a, rfl⟩ | rfl <;> rfl
  rw [ask_eq q (apply_coh hgood hc) (fine_of hq), ask_eq q hc (fine_of hq)]
  exact (apply_agree hne ho' hi).ask q hq

/-- C32. Dropping from the group `g` changes no read of another group. -/
theorem C32_hypergraph_drop_isolated {s s' : HSt K} (hs : Built AnyH b s) {g g' : String}
    (hne : g' ≠ g) {rate : K} {uniform : Bool} {rnd : Nat → K}
    (h : dropHyperedgesOfGroup g rate uniform rnd s = .ok s') {q : HQuery K} (hq : QOf g' q) :
    (ask q s').1 = (ask q s).1 := by
  obtain ⟨hi, hc⟩ := hs.inv
  have hc' := (Built.dropGroup hs h).inv.2
  rw [ask_eq q hc' (fine_of hq), ask_eq q hc (fine_of hq)]
  refine Agree.ask ?_ q hq
  unfold dropHyperedgesOfGroup at h
  split at h
  · obtain ⟨_, rfl⟩ := fromStateDict_ok h
    refine ⟨rfl, ?_⟩
    show Dict.get? (s.raw.groups.map fun p =>
      if p.1 = g then (p.1, Graph.dropFilter rate rnd 0 p.2) else p) g' = _
    have : (s.raw.groups.map fun p =>
        if p.1 = g then (p.1, Graph.dropFilter rate rnd 0 p.2) else p) =
        s.raw.groups.map fun p => (p.1, if p.1 = g then Graph.dropFilter rate rnd 0 p.2 else p.2) := by
      refine List.map_congr_left fun p _ => ?_
      split <;> rfl
    rw [this, Dict.get?_map_val s.raw.groups
      (fun k d => if k = g then Graph.dropFilter rate rnd 0 d else d) g']
    simp only [hne, if_false]
    cases Dict.get? s.raw.groups g' <;> rfl
  · cases h

/-- C32. `num_e` is the sum of the group sizes, and a group's size is the length of its listing. -/
theorem C32_hypergraph_num_e {s : HSt K} (hs : Built AnyH b s) :
    ∃ counts : List Nat,
      List.Forall₂ (fun g k => (ask (.numE (some g)) s).1 = .ok (.num k) ∧
        (Spec.hListing s (some g)).length = k) (Spec.hNames s) counts ∧
      (ask (.numE none) s).1 = .ok (.num counts.sum) := by
  obtain ⟨hi, hc⟩ := hs.inv
  refine ⟨s.raw.groups.map fun p => p.2.length, ?_, ?_⟩
  · show List.Forall₂ _ (s.raw.groups.map Prod.fst) _
    rw [List.forall₂_map_left_iff, List.forall₂_map_right_iff]
    rw [List.forall₂_same]
    intro p hp
    have hg := get_of_mem hi hp
    refine ⟨numE_group hc hg, ?_⟩
    rw [hListing_eq hc, hg]; rfl
  · rw [ask_eq _ hc (.inr (by simp))]; rfl

/-- C32. Removing with no group name removes from all groups, with a name from that group only, and
nothing else. -/
theorem C32_hypergraph_remove_exactly {s : HSt K} (hs : Built AnyH b s) {arg : HArg}
    {es : List (Multiset Int)} (harg : Spec.hEdges arg = some es) (g : String) (e : Multiset Int) (w : K) :
    (Spec.HListed (apply (.removeHyperedges arg none) s).2 g e w ↔
      Spec.HListed s g e w ∧ e ∉ es) ∧
    ∀ g', Spec.HListed (apply (.removeHyperedges arg (some g')) s).2 g e w ↔
      Spec.HListed s g e w ∧ ¬ (g = g' ∧ e ∈ es) := by
  obtain ⟨hi, hc⟩ := hs.inv
  constructor
  · have hi' := (apply_inv (o := .removeHyperedges arg none) (s := s) (.inl trivial) hi).1
    have hc' : Coh b (apply (.removeHyperedges arg none) s).2 := apply_coh (.inl trivial) hc
    rw [listed_iff hi' hc', listed_iff hi hc, absM_apply (o := .removeHyperedges arg none) hi (.inl trivial)]
    simp only [Spec.hApply, harg, hErase_foldl]
    by_cases he : e ∈ es <;> simp [he]
  · intro g'
    have hi' := (apply_inv (o := .removeHyperedges arg (some g')) (s := s) (.inl trivial) hi).1
    have hc' : Coh b (apply (.removeHyperedges arg (some g')) s).2 := apply_coh (.inl trivial) hc
    rw [listed_iff hi' hc', listed_iff hi hc, absM_apply (o := .removeHyperedges arg (some g')) hi (.inl trivial)]
    simp only [Spec.hApply, harg, hErase_foldl]
    by_cases he : e ∈ es <;> by_cases hg : g = g' <;> simp [he, hg]

/-- C32. Naming an unknown group in a read or in `remove_hyperedges` raises `AssertionError` and
changes nothing. -/
theorem C32_hypergraph_unknown_group {s : HSt K} (hs : Built AnyH b s) {g : String}
    (hg : g ∉ Spec.hNames s) :
    (∀ q : HQuery K, QOf g q → (ask q s).1 = .error .assertion) ∧
    ∀ arg, apply (.removeHyperedges arg (some g)) s = (.error .assertion, s) := by
  obtain ⟨hi, hc⟩ := hs.inv
  have hn : s.raw.groups.get? g = none := by
    rw [names_iff, ← Option.isSome_iff_exists] at hg
    simpa using hg
  constructor
  · intro q hq
    rw [ask_eq q hc (fine_of hq)]
    exact evAsk_unknown hn q hq
  · intro arg
    simp only [apply, removeHyperedges, PyM.bind_apply, readRaw, id, knownGroup, Dict.has, hn]
    rfl

/-- C32. Removing a group makes it disappear: it is no longer among the names, all reads of it
raise, and the other groups stay. -/
theorem C32_hypergraph_remove_group {s : HSt K} (hs : Built AnyH b s) (g : String) :
    (apply (.removeGroup g) s).1 = .ok () ∧
    (∀ g', g' ∈ Spec.hNames (apply (.removeGroup g) s).2 ↔ g' ∈ Spec.hNames s ∧ g' ≠ g) ∧
    ∀ q : HQuery K, QOf g q → (ask q (apply (.removeGroup g) s).2).1 = .error .assertion := by
  obtain ⟨hi, hc⟩ := hs.inv
  have h1 : ∀ g', g' ∈ Spec.hNames (apply (.removeGroup g) s).2 ↔ g' ∈ Spec.hNames s ∧ g' ≠ g := by
    intro g'
    rw [names_iff, names_iff]
    show (∃ d, Dict.get? (Dict.del s.raw.groups g) g' = some d) ↔ _
    rw [Dict.get?_del _ _ _ hi.names]
    by_cases h : g = g'
    · subst h; simp
    · simp [h, Ne.symm h]
  refine ⟨rfl, h1, ?_⟩
  have hb' : Built AnyH b (apply (.removeGroup g) s).2 :=
    .op _ hs (.inl trivial) (by intro _ _ _ _ h; cases h)
  exact (C32_hypergraph_unknown_group hb' (by rw [h1]; simp)).1

example : Built AnyH true exH ∧ "main" ≠ "b" ∧ QOf (K := ℝ) "main" (.Lsym (some "main")) ∧
    "c" ∉ Spec.hNames exH ∧ Spec.hEdges (.one true [1, 3]) = some [(([1, 3] : List Int) : Multiset Int)] :=
  ⟨exH_built, by decide, rfl, by show "c" ∉ ["main", "b"]; decide, rfl⟩

/-- C32, the part on unknown names, is false for `remove_group` and `drop_hyperedges_of_group`: they
accept an unknown group and do nothing. -/
theorem C32_hypergraph_unknown_group_raises_false :
    ¬ ∀ (s : HSt ℝ), Built AnyH true s → ∀ g, g ∉ Spec.hNames s →
      (∃ e, (apply (.removeGroup g) s).1 = .error e) ∧
      ∃ e, dropHyperedgesOfGroup g 1 true (fun _ => 0) s = .error e := by
  intro h
  obtain ⟨⟨e, h1⟩, _⟩ := h exH exH_built "c" (by show "c" ∉ ["main", "b"]; decide)
  cases h1

/-! ## C17 -/

/-- C17 (Hypergraph). `drop_hyperedges(rate)` keeps the vertices, the groups, the order and the
weights: the `i`-th hyperedge, counted over all groups, survives iff the `i`-th draw exceeds `rate`;
other values of `ord` raise `ValueError`. -/
theorem C17_hypergraph_drop {s : HSt K} (hs : Built AnyH b s) (rate : K) (rnd : Nat → K) :
    (∃ s', dropHyperedges rate true rnd s = .ok s' ∧
      (ask .numV s').1 = (ask .numV s).1 ∧ Spec.hNames s' = Spec.hNames s ∧
      ∀ pre g post, Spec.hNames s = pre ++ g :: post →
        Spec.hListing s' (some g) = ((Spec.hListing s (some g)).zipIdx
          ((pre.map fun g' => (Spec.hListing s (some g')).length).sum) |>.filter fun p =>
            decide (rate < rnd p.2)).map Prod.fst) ∧
    dropHyperedges rate false rnd s = .error .value := by
  obtain ⟨hi, hc⟩ := hs.inv
  refine ⟨?_, rfl⟩
  unfold dropHyperedges
  simp only [if_true]
  refine ⟨_, fromStateDict_of_pos hi.pos, ?_, ?_, ?_⟩
  · rfl
  · show (dropAll rate rnd 0 s.raw.groups).map Prod.fst = s.raw.groups.map Prod.fst
    have : ∀ (gs : Dict String (HGroup K)) (i : Nat),
        (dropAll rate rnd i gs).map Prod.fst = gs.map Prod.fst := by
      intro gs
      induction gs with
      | nil => intro i; rfl
      | cons p gs ih => intro i; simp only [dropAll, List.map_cons, ih]
    exact this _ _
  · intro pre g post hsplit
    rw [hListing_eq (b := true) coherentOn_nil]
    have key : ∀ (gs : Dict String (HGroup K)) (i : Nat) (pre post : List String),
        (Dict.keys gs).Nodup → Dict.keys gs = pre ++ g :: post →
        (Dict.get? (dropAll rate rnd i gs) g).getD [] =
          ((((Dict.get? gs g).getD []).zipIdx (i + (pre.map fun g' =>
            ((Dict.get? gs g').getD []).length).sum)).filter fun p => decide (rate < rnd p.2)).map
              Prod.fst := by
      intro gs
      induction gs with
      | nil => intro i pre post _ h; cases pre <;> cases h
      | cons p gs ih =>
        intro i pre post hnd h
        obtain ⟨k, d⟩ := p
        have hnd' : k ∉ Dict.keys gs ∧ (Dict.keys gs).Nodup := List.nodup_cons.1 hnd
        cases pre with
        | nil =>
          have h' : k = g ∧ Dict.keys gs = post := by
            injection h with h1 h2; exact ⟨h1, h2⟩
          obtain ⟨rfl, -⟩ := h'
          simp only [dropAll, Dict.get?, if_true, Option.getD_some, List.map_nil, List.sum_nil,
            Nat.add_zero]
          exact dropFilter_eq rate rnd i d
        | cons x pre =>
          have h' : k = x ∧ Dict.keys gs = pre ++ g :: post := by
            injection h with h1 h2; exact ⟨h1, h2⟩
          obtain ⟨rfl, h2⟩ := h'
          have hkg : k ≠ g := by
            rintro rfl
            exact hnd'.1 (by rw [h2]; simp)
          have hpre : (pre.map fun g' => ((Dict.get? ((k, d) :: gs) g').getD []).length) =
              pre.map fun g' => ((Dict.get? gs g').getD []).length := by
            refine List.map_congr_left fun x hx => ?_
            have : k ≠ x := by
              rintro rfl
              exact hnd'.1 (by rw [h2]; simp [hx])
            simp only [Dict.get?, this, if_false]
          simp only [dropAll, Dict.get?, hkg, if_false]
          rw [ih (i + List.length d) pre post hnd'.2 h2]
          simp only [Dict.get?] at hpre
          rw [List.map_cons, List.sum_cons, hpre]
          simp only [if_true, Option.getD_some, Nat.add_assoc]
    have h1 := key s.raw.groups 0 pre post hi.names hsplit
    simp only [Nat.zero_add] at h1
    show (Dict.get? (dropAll rate rnd 0 s.raw.groups) g).getD [] = _
    rw [h1]
    simp only [hListing_eq hc]

example : ∃ s', dropHyperedges (1 / 2) true (fun i => if i = 0 then 0 else 3 / 4) exH = .ok s' :=
  ⟨_, rfl⟩

/-! ## C15, C16 -/

/-- C15 (Hypergraph), partial. `clone` succeeds, and no history of later calls followed by a read
other than `v_weight` and `W_v` tells the clone from the original. Missing: vertex weights, which
are lost (`C15_hypergraph_clone_faithful_false`). -/
theorem C15_hypergraph_clone_faithful_partial {s : HSt K} (hs : Built AnyH b s) :
    ∃ s', clone s = .ok s' ∧ Spec.HIndist Spec.NotVW s s' := by
  obtain ⟨hi, hc⟩ := hs.inv
  refine ⟨_, clone_of_pos hi.pos, ?_⟩
  exact Same.indist (b' := false) ⟨rfl, rfl⟩ hc (Built.clone hs (clone_of_pos hi.pos)).inv.2

/-- C15 (Hypergraph). With the default vertex weights the clone answers every read, including
`v_weight` and `W_v`, as the original does. -/
theorem C15_hypergraph_clone_default {s : HSt K} (hs : Built AnyH true s)
    (hw : (ask .vWeight s).1 = .ok (.optVec (some (List.replicate s.raw.numV 1)))) :
    ∃ s', clone s = .ok s' ∧ Spec.HIndist (fun _ => True) s s' := by
  obtain ⟨hi, hc⟩ := hs.inv
  have hw' : s.raw.vWeight = some (List.replicate s.raw.numV 1) := by
    have : (Except.ok (HAns.optVec s.raw.vWeight) : Except Err (HAns K)) =
      .ok (.optVec (some (List.replicate s.raw.numV 1))) := hw
    injection this with h; injection h
  refine ⟨_, clone_of_pos hi.pos, ?_⟩
  refine indist_of_raw ?_ hc (Built.cloneDefault hs hw' (clone_of_pos hi.pos)).inv.2
  simp only [← hw']

example : Built AnyH true exH ∧
    (ask .vWeight exH).1 = .ok (.optVec (some (List.replicate exH.raw.numV 1))) := ⟨exH_built, rfl⟩

/-- example with vertex weights: two vertices of weight 2 and 3, one hyperedge -/
noncomputable def exHw : HSt ℝ :=
  { raw := { numV := 2, vWeight := some [2, 3], groups := [("main", [([0, 1], 1)])] }, cache := [] }

theorem exHw_new : Hyper.new (K := ℝ) 2 (some (.one false [0, 1])) .none (some [2, 3]) .mean = .ok exHw := rfl

theorem exHw_built : Built AnyH true exHw := .new exHw_new fun _ _ => trivial

/-- C15 (Hypergraph) is false for vertex weights: the clone has unit weights. -/
theorem C15_hypergraph_clone_faithful_false :
    ¬ ∀ (s s' : HSt ℝ), Built AnyH true s → clone s = .ok s' →
      Spec.HIndist (fun _ => True) s s' := by
  intro h
  have h1 := h exHw _ exHw_built rfl [] trivial .vWeight trivial
  have h2 : (Except.ok (HAns.optVec (some [2, 3])) : Except Err (HAns ℝ)) =
    .ok (.optVec (some [1, 1])) := h1
  injection h2 with h2
  injection h2 with h2
  simp at h2

/-- C16 (Hypergraph), partial. `from_state_dict(state_dict)` succeeds and the result cannot be told
from the original by reads other than those of vertex weights. Missing: vertex weights, which the
state dictionary does not carry. -/
theorem C16_hypergraph_state_dict_partial {s : HSt K} (hs : Built AnyH b s) :
    ∃ s', fromStateDict (stateDict s) = .ok s' ∧ Spec.HIndist Spec.NotVW s s' := by
  obtain ⟨hi, hc⟩ := hs.inv
  refine ⟨_, fromStateDict_of_pos hi.pos, ?_⟩
  exact Same.indist (b' := true) ⟨rfl, rfl⟩ hc coherentOn_nil

/-- C16 (Hypergraph) is false for vertex weights. -/
theorem C16_hypergraph_state_dict_false :
    ¬ ∀ (s s' : HSt ℝ), Built AnyH true s → fromStateDict (stateDict s) = .ok s' →
      Spec.HIndist (fun _ => True) s s' := by
  intro h
  have h1 := h exHw _ exHw_built rfl [] trivial .vWeight trivial
  have h2 : (Except.ok (HAns.optVec (some [2, 3])) : Except Err (HAns ℝ)) =
    .ok (.optVec (some [1, 1])) := h1
  injection h2 with h2
  injection h2 with h2
  simp at h2

/-! ## C19 -/

/-- C19 (Hypergraph), partial. A failing call, other than `add_hyperedges` with an unknown
`merge_op`, leaves the object as it was. Missing: unknown `merge_op`
(`C19_hypergraph_failed_add_false`). -/
theorem C19_hypergraph_failed_calls_partial (s : HSt K) {o : HOp K} (hg : GoodOp o) {e : Err}
    (h : (apply o s).1 = .error e) : (apply o s).2 = s := by
  cases o with
  | addHyperedges arg ew op g =>
    simp only [apply] at h ⊢
    rcases addHyperedges_cases arg ew op g s with ⟨e, h1, _⟩ | ⟨es, ws, _, _, _, ⟨h4, _⟩ | ⟨h4, _⟩⟩
    · rw [h1]
    · rw [h4] at h; cases h
    · exact absurd h4 hg
  | removeHyperedges arg g =>
    simp only [apply] at h ⊢
    rcases removeHyperedges_cases arg g s with ⟨e, h1, _⟩ | ⟨es, _, _, h1⟩
    · rw [h1]
    · rw [h1] at h; cases h
  | removeGroup g => cases h
  | clear => cases h
  | setVWeight w => rfl

example : GoodOp (K := ℝ) (.addHyperedges (.many true [⟨true, [0]⟩]) (.list [1, 2]) .mean "main") ∧
    (apply (.addHyperedges (.many true [⟨true, [0]⟩]) (.list [1, 2]) .mean "main") exH).1 =
      .error .assertion := ⟨by simp [GoodOp], rfl⟩

/-- C19 is false for `Hypergraph.add_hyperedges` with an unknown `merge_op`: hyperedges before the
offending one stay. -/
theorem C19_hypergraph_failed_add_false :
    ¬ ∀ (s : HSt ℝ) (o : HOp ℝ) (e : Err), Built AnyH true s → (apply o s).1 = .error e →
      ∀ q, (ask q (apply o s).2).1 = (ask q s).1 := by
  intro h
  have h1 := h exH (.addHyperedges (.many false [⟨true, [0]⟩, ⟨true, [1, 3]⟩]) .none .other "main")
    .assertion exH_built rfl (.numE none)
  have h2 : (Except.ok (HAns.num 4) : Except Err (HAns ℝ)) = .ok (.num 3) := h1
  injection h2 with h2
  injection h2 with h2
  exact absurd h2 (by decide)

end Props
end DHG
