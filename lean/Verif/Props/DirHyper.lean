import Mathlib.Data.Rat.Floor
import Verif.DirHyperStore

/-!
# C115, C116, C117: directed hyperedges of `BaseHypergraph`
-/

set_option linter.unusedSectionVars false
set_option autoImplicit false

namespace DHG

variable {K : Type} [Field K] [LinearOrder K]

namespace Props

open DirH

/-! ### An object to look at -/

/-- `BaseHypergraph(4)` -/
def dirEx0 : DHSt ℚ := { raw := { numV := 4, vWeight := none, groups := [] }, cache := [] }

/-- `add_hyperedges([[2, 0], [1]], [[3], [0, 2]], w_list_v2e=[[5, 7], [1]], e_weight=[2, 3])` -/
def dirOp1 : DHOp ℚ := .add (.many [⟨false, [2, 0]⟩, ⟨false, [1]⟩] (some [[5, 7], [1]]))
  (.many [⟨false, [3]⟩, ⟨false, [0, 2]⟩] none) (.list [2, 3]) .mean "main"

/-- `add_hyperedges([0, 2], [3])`, the first hyperedge again -/
def dirOp2 : DHOp ℚ := .add (.one [0, 2] none) (.one [3] none) .none .mean "main"

/-- after the first call -/
def dirEx1 : DHSt ℚ := (apply dirOp1 dirEx0).2

/-- after the second call -/
def dirEx2 : DHSt ℚ := (apply dirOp2 dirEx1).2

/-- the hyperedges of the object -/
def dirStore : Spec.DStore := [("main", [([2, 0], [3]), ([1], [0, 2])])]

theorem dirEx1_built : Spec.DirBuilt 4 dirEx1 dirStore :=
  .call dirOp1 (.new (s := dirEx0) rfl) (by decide +kernel)

theorem dirEx2_built : Spec.DirBuilt 4 dirEx2 dirStore := by
  have := Spec.DirBuilt.call dirOp2 dirEx1_built (by decide +kernel)
  exact this

/-! ### C115 -/

/-- the counts and names of an object are those of the hyperedges its calls put there -/
theorem C115_counts_partial {n : Nat} {s : DHSt K} {st : Spec.DStore} (h : Spec.DirBuilt n s st) :
    (ask .numV s).1 = .ok (.num n) ∧
    (ask .v s).1 = .ok (.idx (List.range n)) ∧
    (ask .groupNames s).1 = .ok (.names (st.map Prod.fst)) ∧
    (ask .numGroups s).1 = .ok (.num st.length) ∧
    (ask (.numE none) s).1 = .ok (.num (st.flatMap Prod.snd).length) ∧
    (∀ g l, Spec.dScope st (some g) = some l → (ask (.numE (some g)) s).1 = .ok (.num l.length)) ∧
    (∀ g, Spec.dScope st (some g) = none → (ask (.numE (some g)) s).1 = .error .assertion) := by
  have hg := good_of_built h
  have hn := hg.numV
  refine ⟨?_, ?_, ?_, ?_, ?_, ?_, ?_⟩
  · rw [(hg.coh.ask _).1]; simp only [evAsk, hn]
  · rw [(hg.coh.ask _).1]; simp only [evAsk, hn]
  · rw [(hg.coh.ask _).1]; simp only [evAsk, map_fst_of_rep hg.rep.eq]
  · rw [(hg.coh.ask _).1]
    have := congrArg List.length hg.rep.eq
    simp only [List.length_map] at this
    simp only [evAsk, this]
  · rw [(hg.coh.ask _).1]
    have := congrArg List.length hg.rep.all
    simp only [List.length_map, List.length_flatMap, Dict.length_keys] at this
    simp only [evAsk, this, List.length_flatMap]
  · intro g l hl
    rw [(hg.coh.ask _).1]
    obtain ⟨d, hd, hk⟩ := hg.rep.scope_some hl
    have := congrArg List.length hk
    rw [Dict.length_keys, List.length_map] at this
    simp only [evAsk, evGroup, hd, Except.map, this]
  · intro g hl
    rw [(hg.coh.ask _).1]
    simp only [evAsk, evGroup, hg.rep.scope_none hl, Except.map]

/-- the incidence matrices count how often a vertex is a source (target) of a hyperedge, for the
hyperedges the calls put there and in the order of their addition; vertices that do not exist make
the read raise -/
theorem C115_incidence_partial {n : Nat} {s : DHSt K} {st : Spec.DStore} (h : Spec.DirBuilt n s st)
    (sd : Side) (sc : Option String) :
    (∀ l, Spec.dScope st sc = some l → (∀ c ∈ l, ∀ v ∈ Spec.side sd c, 0 ≤ v ∧ v < (n : Int)) →
      ∃ M, (ask (.H sd sc) s).1 = .ok (.mat M) ∧
        Spec.IsMat n l.length
          (fun i j => ((Spec.side sd (l.getD j ([], []))).count (i : Int) : K)) M) ∧
    (∀ l, Spec.dScope st sc = some l → (∃ c ∈ l, ∃ v ∈ Spec.side sd c, ¬ (0 ≤ v ∧ v < (n : Int))) →
      (ask (.H sd sc) s).1 = .error .runtime) ∧
    (Spec.dScope st sc = none →
      (ask (.H sd sc) s).1 = .error (if sc = none then .runtime else .assertion)) := by
  have hg := good_of_built h
  have hn := hg.numV
  rw [(hg.coh.ask _).1]
  have hsub : ∀ (c : Spec.DEdge) (v : Int), v ∈ Side.sub sd (code c) ↔ v ∈ Spec.side sd c := by
    intro c v; rw [sub_code]; exact mem_sortV
  cases sc with
  | none =>
    have hmem : ∀ k, (∃ p ∈ s.raw.groups, k ∈ Dict.keys p.2) ↔ ∃ c ∈ st.flatMap Prod.snd, code c = k := by
      intro k
      rw [← List.mem_map (f := code), ← hg.rep.all, List.mem_flatMap]
    have hemp : s.raw.groups = [] ↔ st = [] := by
      have := congrArg List.length hg.rep.eq
      simp only [List.length_map] at this
      rw [← List.length_eq_zero_iff, ← List.length_eq_zero_iff, this]
    simp only [Spec.dScope]
    refine ⟨?_, ?_, ?_⟩
    · intro l hl hv
      split at hl
      · cases hl
      · rename_i hne
        cases hl
        obtain ⟨M, hM, hI⟩ := evH_none hg.rep.names (fun h => hne (hemp.1 h)) sd (by
          intro p hp k hk v hvk
          obtain ⟨c, hc, rfl⟩ := (hmem k).1 ⟨p, hp, hk⟩
          rw [hn]
          exact hv c hc v ((hsub c v).1 hvk))
        refine ⟨M, by simp only [evAsk, hM, Except.map], isMat_side sd ?_⟩
        rw [← hg.rep.all, List.map_flatMap, ← hn]
        exact hI
    · intro l hl hv
      split at hl
      · cases hl
      · cases hl
        obtain ⟨c, hc, v, hv, hb⟩ := hv
        obtain ⟨p, hp, hk⟩ := (hmem (code c)).2 ⟨c, hc, rfl⟩
        have := evH_none_error hg.rep.names sd ⟨p, hp, code c, hk, v, (hsub c v).2 hv, by rw [hn]; exact hb⟩
        simp only [evAsk, this, Except.map]
    · intro hl
      split at hl
      · rename_i hne
        have := hemp.2 hne
        simp only [evAsk, evH, this, Dict.keys, List.map_nil, collectE]
        rfl
      · cases hl
  | some g =>
    refine ⟨?_, ?_, ?_⟩
    · intro l hl hv
      obtain ⟨d, hd, hk⟩ := hg.rep.scope_some hl
      obtain ⟨M, hM, hI⟩ := fetchH_spec sd n d (by
        intro k hk' v hvk
        rw [hk] at hk'
        obtain ⟨c, hc, rfl⟩ := List.mem_map.1 hk'
        exact hv c hc v ((hsub c v).1 hvk))
      rw [hk] at hI
      refine ⟨M, ?_, isMat_side sd hI⟩
      simp only [evAsk, evH, evHOf, evGroup, hd, hn]
      show (fetchH sd n d).map _ = _
      rw [hM]; rfl
    · intro l hl hv
      obtain ⟨d, hd, hk⟩ := hg.rep.scope_some hl
      obtain ⟨c, hc, v, hv, hb⟩ := hv
      have := fetchH_error sd n d ⟨code c, by rw [hk]; exact List.mem_map_of_mem hc, v,
        (hsub c v).2 hv, hb⟩
      simp only [evAsk, evH, evHOf, evGroup, hd, hn]
      show (fetchH sd n d).map _ = _
      rw [this]; rfl
    · intro hl
      simp only [evAsk, evH, evHOf, evGroup, hg.rep.scope_none hl]
      rfl

/-- the hypotheses are met: `H_e2v` has two columns, and vertex 2 is a target of the second hyperedge
only -/
example : ∃ M, (ask (.H .e2v none) dirEx2).1 = .ok (.mat M) ∧ M.rows = 4 ∧ M.cols = 2 ∧
    M.get 2 0 = 0 ∧ M.get 2 1 = 1 := by
  obtain ⟨M, h1, h2⟩ := (C115_incidence_partial dirEx2_built .e2v none).1 _ rfl (by decide +kernel)
  refine ⟨M, h1, h2.rows, h2.cols, (h2.get 2 0 (by decide) (by decide)).trans ?_,
    (h2.get 2 1 (by decide) (by decide)).trans ?_⟩ <;> decide +kernel

/-- the call that raises: a new hyperedge and one that has been added twice -/
def dirOp3 : DHOp ℚ := .add (.many [⟨false, [3]⟩, ⟨false, [0, 2]⟩] none)
  (.many [⟨false, [1]⟩, ⟨false, [3]⟩] none) .none .mean "main"

/-- The claim needs calls that do not raise.  A call that raises in the middle has added the
hyperedges before the failure but leaves the old matrices: the object reports three hyperedges
and an incidence matrix with two columns. -/
theorem C115_after_error_false : ∃ (s : DHSt ℚ) (op : DHOp ℚ), Spec.DirBuilt 4 s dirStore ∧
    (apply op s).1 = .error .type ∧
    (ask (.numE none) (apply op s).2).1 = .ok (.num 3) ∧
    ∃ M, (ask (.H .v2e none) (apply op s).2).1 = .ok (.mat M) ∧ M.cols = 2 := by
  refine ⟨(ask (.H .v2e none) dirEx2).2, dirOp3, .read _ dirEx2_built, by decide +kernel,
    by rfl, ?_⟩
  have h : (match (ask (.H .v2e none) (apply dirOp3 (ask (.H .v2e none) dirEx2).2).2).1 with
    | .ok (.mat M) => M.cols
    | _ => 0) = 2 := by decide +kernel
  split at h
  · rename_i M hM; exact ⟨M, hM, h⟩
  · cases h

/-- a list of hyperedges that has been used as an argument without weights cannot be used again,
and cannot be the list of sources and of targets of one call: the call has overwritten its elements
by tuples, and a list of tuples without weights is not understood -/
theorem C115_same_list_false (e : PySeq) (es : List PySeq) (dst : DArg K) (ew : HW K) (op : MergeOp)
    (g : String) (s : DHSt K) :
    (addHyperedges (argAfter (.many (e :: es) none)) dst ew op g s).1 = .error .type ∧
    ∃ x, (addHyperedges (.many (e :: es) none) (argAfter (.many (e :: es) none)) ew op g s).1 =
      .error x := by
  constructor
  · rw [(addHyperedges_eq _ _ _ _ _ _).1]
    rfl
  · rw [(addHyperedges_eq _ _ _ _ _ _).1]
    unfold addList
    cases formatArg (.many (e :: es) (none : Option (List (List K)))) with
    | error x => exact ⟨x, rfl⟩
    | ok r => exact ⟨.type, rfl⟩

/-! ### C116 -/

/-- A hyperedge added for the first time (not there before, and once in the call) is stored with its
weight, and every connection has the weight given for it, in whatever order the vertices are written.
(Missing for the full claim: what is stored when a hyperedge is added again, see below.) -/
theorem C116_first_partial {src dst : DArg K} {ew : HW K} {op : MergeOp} {g : String} {s : DHSt K}
    (h : (apply (.add src dst ew op g) s).1 = .ok ()) (i : Nat) (hi : i < (Spec.dSides src).length)
    (hnew : Spec.dStored s g ((Spec.dSides src).getD i [], (Spec.dSides dst).getD i []) = none)
    (honce : ∀ j, j < (Spec.dSides src).length → j ≠ i →
      ¬ Spec.SameEdge ((Spec.dSides src).getD j [], (Spec.dSides dst).getD j [])
        ((Spec.dSides src).getD i [], (Spec.dSides dst).getD i [])) :
    ∃ xs ys, Spec.dStored (apply (.add src dst ew op g) s).2 g
        ((Spec.dSides src).getD i [], (Spec.dSides dst).getD i []) =
        some { v2e := some (.list xs), e2v := some (.list ys), we := Spec.dEdgeW ew i } ∧
      Spec.KeepsWeights ((Spec.dSides src).getD i []) (Spec.dConnW src i) xs ∧
      Spec.KeepsWeights ((Spec.dSides dst).getD i []) (Spec.dConnW dst i) ys := by
  obtain ⟨l, gs, h1, h2, h3⟩ := addHyperedges_ok (s := s) h
  obtain ⟨a1, a2, a3⟩ := addList_get h1
  have hil : i < l.length := by omega
  obtain ⟨xs, ys, e, k1, k2⟩ := a3 i hil
  refine ⟨xs, ys, ?_, k1, k2⟩
  rw [dStored_eq, show (apply (.add src dst ew op g) s).2.raw.groups = gs from h3]
  have := addAllG_once h2 hil (by rw [e]; exact hnew) (fun j hj hji hje => by
    obtain ⟨_, _, e', _, _⟩ := a3 j hj
    rw [e, e'] at hje
    exact honce j (by omega) hji (code_eq_iff.1 hje))
  rw [e] at this
  exact this

/-- the hypotheses are met: vertex 0 has kept its weight 7 and vertex 2 its weight 5 -/
example : ∃ xs ys, Spec.dStored dirEx1 "main" ([2, 0], [3]) =
      some { v2e := some (.list xs), e2v := some (.list ys), we := 2 } ∧
    Spec.KeepsWeights [2, 0] [5, 7] xs ∧ Spec.KeepsWeights [3] [1] ys :=
  C116_first_partial (s := dirEx0) (src := .many [⟨false, [2, 0]⟩, ⟨false, [1]⟩] (some [[5, 7], [1]]))
    (dst := .many [⟨false, [3]⟩, ⟨false, [0, 2]⟩] none) (ew := .list [2, 3]) (op := .mean) (g := "main")
    (by decide +kernel) 0 (by decide) (by decide +kernel) (by decide +kernel)

example : Spec.dStored dirEx1 "main" ([0, 2], [3]) =
    some { v2e := some (.list [7, 5]), e2v := some (.list [1]), we := 2 } := by decide +kernel

/-- adding hyperedges leaves everything else alone: the other groups, and the hyperedges of the group
that are not in the call -/
theorem C116_others {src dst : DArg K} {ew : HW K} {op : MergeOp} {g : String} {s : DHSt K}
    (h : (apply (.add src dst ew op g) s).1 = .ok ()) (g' : String) (c : Spec.DEdge)
    (hc : g' = g → ∀ j, j < (Spec.dSides src).length →
      ¬ Spec.SameEdge ((Spec.dSides src).getD j [], (Spec.dSides dst).getD j []) c) :
    Spec.dStored (apply (.add src dst ew op g) s).2 g' c = Spec.dStored s g' c := by
  obtain ⟨l, gs, h1, h2, h3⟩ := addHyperedges_ok (s := s) h
  rw [dStored_eq, dStored_eq, show (apply (.add src dst ew op g) s).2.raw.groups = gs from h3]
  by_cases hg : g' = g
  · subst hg
    refine addAllG_notMem h2 ?_
    obtain ⟨a1, a2, a3⟩ := addList_get h1
    intro hm
    obtain ⟨q, hq, hqc⟩ := List.mem_map.1 hm
    obtain ⟨j, hj, rfl⟩ := List.mem_iff_getElem.1 hq
    obtain ⟨_, _, e', _, _⟩ := a3 j hj
    rw [e'] at hqc
    exact hc rfl j (by omega) (code_eq_iff.1 hqc)
  · unfold lookup
    rw [addAllG_other h2 hg]

/-- adding a single hyperedge that is there combines the weights of the hyperedge by the chosen
operation -/
theorem C116_merge_partial {vs ws : List Int} {cv cw : Option (List K)} {ew : HW K} {op : MergeOp}
    {g : String} {s : DHSt K} {o : DContent K} (ho : Spec.dStored s g (vs, ws) = some o)
    (h : (apply (.add (.one vs cv) (.one ws cw) ew op g) s).1 = .ok ()) :
    ∃ y, Spec.dStored (apply (.add (.one vs cv) (.one ws cw) ew op g) s).2 g (vs, ws) = some y ∧
      some y.we = Spec.dMerged op o.we (Spec.dEdgeW ew 0) := by
  obtain ⟨xs, ys, gs, h1, h2, _⟩ := addOne_ok (s := s) h
  obtain ⟨y, hy, hy2⟩ := (addG_lookup h1).2.1 o ho
  exact ⟨y, by rw [dStored_eq, show (apply (.add (.one vs cv) (.one ws cw) ew op g) s).2.raw.groups
    = gs from h2]; exact hy2, mergeContent_we hy⟩

/-- the hypotheses are met: 2 and 1 give 3/2 -/
example : ∃ y, Spec.dStored dirEx2 "main" ([0, 2], [3]) = some y ∧ some y.we = some (3 / 2) := by
  obtain ⟨y, h1, h2⟩ := C116_merge_partial (s := dirEx1) (vs := [0, 2]) (ws := [3]) (cv := none)
    (cw := none) (ew := .none) (op := .mean) (g := "main")
    (o := { v2e := some (.list [7, 5]), e2v := some (.list [1]), we := 2 }) (by decide +kernel)
    (by decide +kernel)
  refine ⟨y, h1, ?_⟩
  rw [h2]
  decide +kernel

/-- But the weights of the connections are lost: after a hyperedge has been added a second time there
is one number instead of one weight per vertex, and a third addition always raises. -/
theorem C116_merge_false {vs ws : List Int} {cv cw cv' cw' : Option (List K)}
    {ew ew' : HW K} {op op' : MergeOp} {g : String} {s : DHSt K}
    (hnew : Spec.dStored s g (vs, ws) = none)
    (h1 : (apply (.add (.one vs cv) (.one ws cw) ew op g) s).1 = .ok ())
    (h2 : (apply (.add (.one vs cv') (.one ws cw') ew' op' g)
      (apply (.add (.one vs cv) (.one ws cw) ew op g) s).2).1 = .ok ()) :
    (∃ o u w, Spec.dStored (apply (.add (.one vs cv') (.one ws cw') ew' op' g)
      (apply (.add (.one vs cv) (.one ws cw) ew op g) s).2).2 g (vs, ws) = some o ∧
      o.v2e = some (.scalar u) ∧ o.e2v = some (.scalar w)) ∧
    ∀ cv'' cw'' ew'' op'', ∃ e, (apply (.add (.one vs cv'') (.one ws cw'') ew'' op'' g)
      (apply (.add (.one vs cv') (.one ws cw') ew' op' g)
        (apply (.add (.one vs cv) (.one ws cw) ew op g) s).2).2).1 = .error e := by
  obtain ⟨xs, ys, gs, a1, a2, a3, a4, a5, a6⟩ := addOne_ok (s := s) h1
  have b1 := (addG_lookup a1).1 hnew
  obtain ⟨xs', ys', gs', c1, c2, c3, c4, c5, c6⟩ := addOne_ok h2
  rw [show (apply (.add (.one vs cv) (.one ws cw) ew op g) s).2.raw.groups = gs from a2] at c1
  obtain ⟨y, hy, hy2⟩ := (addG_lookup c1).2.1 _ b1
  obtain ⟨u, w, hu, hw⟩ := mergeContent_lists hy rfl rfl rfl rfl
    (by intro h; subst h; exact a5 (List.length_eq_zero_iff.1 a3.symm))
    (by intro h; subst h; exact a6 (List.length_eq_zero_iff.1 a4.symm))
  have hs : lookup (apply (.add (.one vs cv') (.one ws cw') ew' op' g)
      (apply (.add (.one vs cv) (.one ws cw) ew op g) s).2).2.raw.groups g (code (vs, ws)) = some y := by
    rw [show (apply (.add (.one vs cv') (.one ws cw') ew' op' g)
      (apply (.add (.one vs cv) (.one ws cw) ew op g) s).2).2.raw.groups = gs' from c2]
    exact hy2
  refine ⟨⟨y, u, w, hs, hu, hw⟩, ?_⟩
  intro cv'' cw'' ew'' op''
  rcases hr : (apply (.add (.one vs cv'') (.one ws cw'') ew'' op'' g)
      (apply (.add (.one vs cv') (.one ws cw') ew' op' g)
        (apply (.add (.one vs cv) (.one ws cw) ew op g) s).2).2).1 with e | x
  · exact ⟨e, rfl⟩
  · exact absurd (addOne_third hs hu hr) id

/-- the hypotheses are met -/
example : ∃ e, (apply (.add (.one [0, 1] none) (.one [2] none) .none .sum "main")
    (apply (.add (.one [0, 1] none) (.one [2] none) .none .sum "main")
      (apply (.add (.one [0, 1] none) (.one [2] none) .none .sum "main") dirEx1).2).2).1 = .error e :=
  (C116_merge_false (s := dirEx1) (by decide +kernel) (by decide +kernel) (by decide +kernel)).2 _ _ _ _

/-- the documented operation `min` (like any name but `mean`, `sum`, `max`) is refused as soon as a
hyperedge is added again -/
theorem C116_min_false {vs ws : List Int} {cv cw : Option (List K)} {ew : HW K} {g : String}
    {s : DHSt K} (ho : (Spec.dStored s g (vs, ws)).isSome) :
    (apply (.add (.one vs cv) (.one ws cw) ew .other g) s).1 ≠ .ok () := by
  intro h
  obtain ⟨o, ho⟩ := Option.isSome_iff_exists.1 ho
  obtain ⟨xs, ys, gs, h1, h2, _⟩ := addOne_ok (s := s) h
  obtain ⟨y, hy, _⟩ := (addG_lookup h1).2.1 o ho
  cases hy

example : (Spec.dStored dirEx1 "main" ([2, 0], [3])).isSome := by decide +kernel

/-- the weighted matrices can never be read: `R_v2e`, `R_e2v` raise for every object and every group,
and so do `W_v` and `W_e` -/
theorem C116_matrices_false {n : Nat} {s : DHSt K} {st : Spec.DStore} (h : Spec.DirBuilt n s st) :
    (∀ sd sc, ∃ e, (ask (.R sd sc) s).1 = .error e) ∧
    (ask .Wv s).1 = .error .key ∧ (ask (.We none) s).1 = .error .key ∧
    ∀ g, ∃ e, (ask (.We (some g)) s).1 = .error e := by
  have hg := good_of_built h
  have hR : ∀ sd g, ∃ e, evROf sd s.raw g = .error e := by
    intro sd g
    unfold evROf
    cases evGroup s.raw g with
    | error e => exact ⟨e, rfl⟩
    | ok d =>
      show ∃ e, fetchR sd d = .error e
      unfold fetchR
      cases collectE (Dict.vals d) (connList sd) with
      | error e => exact ⟨e, rfl⟩
      | ok x => exact ⟨.type, rfl⟩
  refine ⟨?_, ?_, ?_, ?_⟩
  · intro sd sc
    rw [(hg.coh.ask _).1]
    cases sc with
    | some g =>
      obtain ⟨e, he⟩ := hR sd g
      exact ⟨e, by simp only [evAsk, evR, he, Except.map]⟩
    | none =>
      simp only [evAsk, evR]
      cases hk : Dict.keys s.raw.groups with
      | nil => exact ⟨.runtime, rfl⟩
      | cons g l =>
        obtain ⟨e, he⟩ := hR sd g
        exact ⟨e, by simp only [collectE, he]; rfl⟩
  · rw [(hg.coh.ask _).1]; rfl
  · rw [(hg.coh.ask _).1]; rfl
  · intro g
    rw [(hg.coh.ask _).1]
    simp only [evAsk]
    cases evGroup s.raw g with
    | error e => exact ⟨e, rfl⟩
    | ok d => exact ⟨.key, rfl⟩

example : (ask .Wv dirEx2).1 = .error .key := (C116_matrices_false dirEx2_built).2.1

/-! ### C117 -/

/-- an accepted removal from a group removes the listed hyperedges, in whatever order their vertices
are written, and nothing else -/
theorem C117_removed_partial {n : Nat} {s : DHSt K} {st : Spec.DStore} (hb : Spec.DirBuilt n s st)
    {src dst : HArg} {g : String} (h : (apply (.remove src dst (some g)) s).1 = .ok ())
    (g' : String) (c : Spec.DEdge) :
    Spec.dStored (apply (.remove src dst (some g)) s).2 g' c =
      if g' = g ∧ ∃ p ∈ (Spec.dListed src).zip (Spec.dListed dst), Spec.SameEdge p c then none
      else Spec.dStored s g' c := by
  have hg := good_of_built hb
  obtain ⟨g1, ss, ds, e, hk, h1, h2, h3, h4⟩ := removeHyperedges_ok (s := s) h
  cases e
  have hz : ss.zip ds = ((Spec.dListed src).zip (Spec.dListed dst)).map code := by
    rw [harg_format h1, harg_format h2, List.zip_map]
    rfl
  have h5 : (apply (.remove src dst (some g)) s).2.raw.groups =
      (((Spec.dListed src).zip (Spec.dListed dst)).map code).foldl (fun gs c => delG g c gs)
        s.raw.groups := by
    rw [show apply (.remove src dst (some g)) s = removeHyperedges src dst (some g) s from rfl, h4, hz]
  rw [dStored_eq, dStored_eq, h5]
  by_cases hgg : g' = g
  · subst hgg
    rw [delAll_lookup hg.rep]
    refine if_congr ?_ rfl rfl
    simp only [List.mem_map, true_and, code_eq_iff]
  · rw [if_neg fun h => hgg h.1]
    unfold lookup
    rw [delAll_other hgg]

/-- lists of hyperedges with equally many sources and targets are accepted for a group that exists -/
theorem C117_accepted {n : Nat} {s : DHSt K} {st : Spec.DStore} (hb : Spec.DirBuilt n s st)
    {g : String} (hg : g ∈ st.map Prod.fst) (t t' : Bool) (es fs : List PySeq)
    (hl : es.length = fs.length) : (apply (.remove (.many t es) (.many t' fs) (some g)) s).1 = .ok () := by
  refine removeHyperedges_of (n := es.length) ?_ rfl (by rw [hl]; rfl) rfl rfl (by simp [hl])
  rw [← map_fst_of_rep (good_of_built hb).rep.eq] at hg
  exact (Dict.has_iff _ _).2 hg

/-- the hypotheses are met: the first hyperedge goes, the second one stays -/
example : Spec.dStored (apply (.remove (.many false [⟨false, [0, 2]⟩]) (.many false [⟨false, [3]⟩])
      (some "main")) dirEx2).2 "main" ([2, 0], [3]) = none ∧
    (Spec.dStored (apply (.remove (.many false [⟨false, [0, 2]⟩]) (.many false [⟨false, [3]⟩])
      (some "main")) dirEx2).2 "main" ([1], [2, 0])).isSome := by
  have h := C117_accepted dirEx2_built (g := "main") (by decide) false false [⟨false, [0, 2]⟩]
    [⟨false, [3]⟩] rfl
  rw [C117_removed_partial dirEx2_built h, C117_removed_partial dirEx2_built h]
  decide +kernel

/-- without a group name the call always raises, although the documentation says that the hyperedges
are then removed from all groups -/
theorem C117_default_false (src dst : HArg) (s : DHSt K) :
    apply (.remove src dst none) s = (.error .assertion, s) := rfl

/-- a single hyperedge whose numbers of sources and targets differ cannot be removed when it is
written as for `add_hyperedges`, as two flat lists -/
theorem C117_flat_false (t t' : Bool) (vs ws : List Int) (hl : vs.length ≠ ws.length) (g : Option String)
    (s : DHSt K) : apply (.remove (.one t vs) (.one t' ws) g) s = (.error .assertion, s) := by
  cases g with
  | none => rfl
  | some g =>
    simp only [apply, removeHyperedges, PyM.bind_apply, readRaw, id, PyM.lift_apply, assert_apply,
      argLen]
    by_cases hg : s.raw.groups.has g = true
    · simp [hg, hl]
    · simp [hg]

end Props
end DHG
