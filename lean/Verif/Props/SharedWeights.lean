import Verif.SharedWeightsLemmas

/-!
# Assigning to lists of vertex weights that hypergraphs share with the caller (C107)

A program is a list of commands that make lists and hypergraphs, call methods, keep the list returned by `v_weight`,
and assign to entries of kept lists.  `Spec.noSets p` is the program `p` without these assignments.
-/

set_option linter.unusedSectionVars false
set_option autoImplicit false

namespace DHG

namespace Spec

open Shared

variable {K : Type}

/-- does the command ask for a new hypergraph? -/
def makesOne : Cmd K → Bool
  | .make _ _ _ _ _ | .clone _ | .derive _ _ => true
  | _ => false

end Spec

namespace Props

open Shared

variable {K : Type} [Field K] [LinearOrder K] [PyReal K]

/-- C107: assigning to lists of vertex weights affects no answers other than those of `v_weight` and `W_v`. -/
theorem C107_elsewhere (p : List (Cmd K)) (i : Nat) (q : HQuery K) (h1 : q ≠ .vWeight) (h2 : q ≠ .Wv) :
    answer (execAll .empty p) i q = answer (execAll .empty (Spec.noSets p)) i q := by
  have g := (Good.empty (K := K)).run p
  unfold answer
  cases hv : view (execAll .empty p) i with
  | none => rw [g.view_none hv]
  | some s =>
    obtain ⟨s', hs', hl⟩ := g.view_like hv
    rw [hs']
    exact congrArg some ((Hyper.ignores_ask q h1 h2).ans s s' hl)

/-- C107: nor does it affect the vertices, the groups and the hyperedges of any hypergraph. -/
theorem C107_data (p : List (Cmd K)) (i : Nat) :
    (view (execAll .empty p) i).map Hyper.stateDict =
      (view (execAll .empty (Spec.noSets p)) i).map Hyper.stateDict := by
  have g := (Good.empty (K := K)).run p
  cases hv : view (execAll .empty p) i with
  | none => rw [g.view_none hv]
  | some s =>
    obtain ⟨s', hs', hl⟩ := g.view_like hv
    rw [hs']
    show some (Hyper.stateDict s) = some (Hyper.stateDict s')
    unfold Hyper.stateDict
    rw [hl.raw.1, hl.raw.2.1]

/-- C107: a hypergraph that does not use a changed list is the same, and answers the same, as without the
assignments.  In full: without the hypothesis.  This fails, see `C107_shared_false` and `C107_returned_false`. -/
theorem C107_unshared_partial (p : List (Cmd K)) (i : Nat) (h : ¬ Spec.UsesChanged p i) :
    view (execAll .empty p) i = view (execAll .empty (Spec.noSets p)) i ∧
      ∀ q, answer (execAll .empty p) i q = answer (execAll .empty (Spec.noSets p)) i q := by
  have hv := ((Good.empty (K := K)).run p).view_eq (i := i) fun l hl hc => h ⟨l, hl, hc⟩
  exact ⟨hv, fun q => by unfold answer; rw [hv]⟩

theorem marks_length (p : List (Cmd K)) (m : Spec.ListMarks) :
    (p.foldl Spec.listMark m).used.length = m.used.length + p.countP Spec.makesOne := by
  induction p generalizing m with
  | nil => rfl
  | cons c p ih =>
    rw [List.foldl_cons, ih, List.countP_cons]
    have : (Spec.listMark m c).used.length = m.used.length + if Spec.makesOne c = true then 1 else 0 := by
      cases c with
      | make n arg ew op h => cases h <;> simp [Spec.listMark, Spec.makesOne]
      | derive i d => cases d <;> simp [Spec.listMark, Spec.makesOne]
      | set h j x =>
        simp only [Spec.listMark]
        split <;> rfl
      | _ => simp [Spec.listMark, Spec.makesOne]
    omega

/-- the weight list of hypergraph `n` is its own -/
structure Own (n l : Nat) (m : Spec.ListMarks) : Prop where
  lt : l < m.count
  here : m.used[n]? = some l
  only : ∀ i, m.used[i]? = some l → i = n
  kept : l ∉ m.kept
  same : l ∉ m.changed

theorem own_step {n l : Nat} {m : Spec.ListMarks} (h : Own n l m) (c : Cmd K)
    (hc : c ≠ .weights n) : Own n l (Spec.listMark m c) := by
  have hne : l ≠ m.count := Nat.ne_of_lt h.lt
  have hpush : ∀ {y : Nat} {ch : List Nat}, l ≠ y → l ∉ ch →
      Own n l { m with count := m.count + 1, used := m.used ++ [y], changed := ch } := by
    intro y ch hy hch
    refine ⟨Nat.lt_succ_of_lt h.lt, (get_push _ _ _ _).2 (.inl h.here), fun i hi => ?_, h.kept, hch⟩
    rcases (get_push _ _ _ _).1 hi with h2 | ⟨_, h2⟩
    · exact h.only i h2
    · exact absurd h2 hy
  have hkeep : ∀ {y : Nat}, l ≠ y → Own n l { m with count := m.count + 1, kept := m.kept ++ [y] } := by
    intro y hy
    refine ⟨Nat.lt_succ_of_lt h.lt, h.here, h.only, fun hk => ?_, h.same⟩
    rcases List.mem_append.1 hk with h2 | h2
    · exact h.kept h2
    · exact hy (List.mem_singleton.1 h2)
  have hch : ∀ (q : Prop) [Decidable q], l ∉ (if q then m.count :: m.changed else m.changed) := by
    intro q _
    split
    · intro h2
      rcases List.mem_cons.1 h2 with h3 | h3
      · exact hne h3
      · exact h.same h3
    · exact h.same
  cases c with
  | list _ => exact hkeep hne
  | make a b c d x =>
    cases x with
    | none => exact hpush hne h.same
    | some x =>
      refine hpush ?_ h.same
      rw [List.getD_eq_getElem?_getD]
      cases hk : m.kept[x]? with
      | none => exact hne
      | some y => exact fun h2 => h.kept (h2 ▸ List.mem_of_getElem? hk)
  | call i o => exact ⟨Nat.lt_succ_of_lt h.lt, h.here, h.only, h.kept, h.same⟩
  | read i q => exact ⟨Nat.lt_succ_of_lt h.lt, h.here, h.only, h.kept, h.same⟩
  | clone i => exact hpush hne (hch _)
  | derive i d =>
    cases d with
    | drop d => exact hpush hne h.same
    | dropGroup g d => exact hpush hne h.same
    | sub vs k => exact hpush hne (hch _)
  | weights i =>
    refine hkeep ?_
    rw [List.getD_eq_getElem?_getD]
    cases hu : m.used[i]? with
    | none => exact hne
    | some y =>
      rintro rfl
      exact hc (by rw [h.only i hu])
  | set x j v =>
    simp only [Spec.listMark]
    split
    · exact h
    · rename_i y hy
      refine ⟨h.lt, h.here, h.only, h.kept, fun h2 => ?_⟩
      rcases List.mem_cons.1 h2 with h3 | h3
      · exact h.kept (h3 ▸ List.mem_of_getElem? hy)
      · exact h.same h3

/-- C107: a hypergraph made without a list of weights, whose `v_weight` is not handed out, is never affected.
(It is the hypergraph number `p.countP Spec.makesOne`.) -/
theorem C107_default_weights (p q : List (Cmd K)) (n : Int) (arg : Option HArg) (ew : HW K) (op : MergeOp)
    (hq : Cmd.weights (p.countP Spec.makesOne) ∉ q) (r : HQuery K) :
    answer (execAll .empty (p ++ .make n arg ew op none :: q)) (p.countP Spec.makesOne) r =
      answer (execAll .empty (Spec.noSets (p ++ .make n arg ew op none :: q))) (p.countP Spec.makesOne) r := by
  refine (C107_unshared_partial _ _ ?_).2 r
  have g := (Good.empty (K := K)).run p
  have hl := marks_length p (⟨0, [], [], []⟩ : Spec.ListMarks)
  have hl' : (p.foldl Spec.listMark ⟨0, [], [], []⟩).used.length = p.countP Spec.makesOne := by
    rw [hl]; exact Nat.zero_add _
  have h0 : Own (p.countP Spec.makesOne) (p.foldl Spec.listMark ⟨0, [], [], []⟩).count
      (Spec.listMark (p.foldl Spec.listMark ⟨0, [], [], []⟩) (.make n arg ew op none)) := by
    refine ⟨Nat.lt_succ_self _, (get_push _ _ _ _).2 (.inr ⟨hl'.symm, rfl⟩), fun i hi => ?_, fun hk => ?_, fun hc => ?_⟩
    · rcases (get_push _ _ _ _).1 hi with h2 | ⟨h2, _⟩
      · exact absurd (g.ult _ (List.mem_of_getElem? h2)) (Nat.lt_irrefl _)
      · exact h2.trans hl'
    · exact Nat.lt_irrefl _ (g.klt _ hk)
    · exact Nat.lt_irrefl _ (g.clt _ hc)
  have hown : ∀ (q : List (Cmd K)) (m : Spec.ListMarks) (l : Nat), Own (p.countP Spec.makesOne) l m →
      Cmd.weights (p.countP Spec.makesOne) ∉ q → Own (p.countP Spec.makesOne) l (q.foldl Spec.listMark m) := by
    intro q
    induction q with
    | nil => intro m l h _; exact h
    | cons c q ih =>
      intro m l h hn
      exact ih _ l (own_step h c fun h2 => hn (h2 ▸ List.mem_cons_self)) fun h2 => hn (List.mem_cons_of_mem _ h2)
  have h1 := hown q _ _ h0 hq
  rintro ⟨l, hu, hc⟩
  unfold Spec.listMarks at hu hc
  rw [List.foldl_append, List.foldl_cons] at hu hc
  rw [h1.here] at hu
  cases hu
  exact h1.same hc

/-! ### Concrete programs -/

/-- two hypergraphs made from one list, one made without a list; then an assignment to the list -/
def exShared : List (Cmd ℝ) :=
  [.list [1, 1], .make 2 none .none .mean (some 0), .make 2 none .none .mean (some 0), .make 2 none .none .mean none,
    .read 0 .Wv, .set 0 0 5]

/-- C107 does not hold in full: an assignment to the list given to the constructor changes the weights of two
hypergraphs. -/
theorem C107_shared_false : ¬ ∀ (p : List (Cmd ℝ)) (i : Nat) (q : HQuery ℝ),
    answer (execAll .empty p) i q = answer (execAll .empty (Spec.noSets p)) i q := by
  intro h
  have h1 : answer (execAll .empty exShared) 1 .vWeight = some (.ok (.optVec (some [5, 1]))) := rfl
  have h2 : answer (execAll .empty (Spec.noSets exShared)) 1 .vWeight = some (.ok (.optVec (some [1, 1]))) := rfl
  have := h exShared 1 .vWeight
  rw [h1, h2] at this
  simp at this

/-- C107 does not hold in full: an assignment to the list returned by `v_weight` changes the weights, and leaves the
`W_v` that was computed before as it is. -/
theorem C107_returned_false : ∃ p : List (Cmd ℝ),
    answer (execAll .empty (Spec.noSets p)) 0 .vWeight = some (.ok (.optVec (some [1, 1]))) ∧
    answer (execAll .empty p) 0 .vWeight = some (.ok (.optVec (some [5, 1]))) ∧
    answer (execAll .empty p) 0 .Wv = some (.ok (.mat (Sp.diag [1, 1]))) :=
  ⟨[.make 2 none .none .mean none, .read 0 .Wv, .weights 0, .set 0 0 5], rfl, rfl, rfl⟩

example : Spec.UsesChanged exShared 0 ∧ Spec.UsesChanged exShared 1 ∧ ¬ Spec.UsesChanged exShared 2 ∧
    Cmd.weights 2 ∉ ([.read 0 .Wv, .set 0 0 5] : List (Cmd ℝ)) ∧
    ([.list [1, 1], .make 2 none .none .mean (some 0), .make 2 none .none .mean (some 0)] :
      List (Cmd ℝ)).countP Spec.makesOne = 2 := by
  refine ⟨⟨0, rfl, ?_⟩, ⟨0, rfl, ?_⟩, ?_, by simp, rfl⟩
  · exact List.mem_cons_self
  · exact List.mem_cons_self
  · rintro ⟨l, h1, h2⟩
    have h1 : some 3 = some l := h1
    cases h1
    have h2 : 3 ∈ [0] := h2
    simp at h2

end Props
end DHG
