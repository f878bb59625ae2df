import Verif.DeviceLemmas

/-!
# Moving structures between devices (C67)

A device is a number, `0` is the CPU.  A user reads tensors, changes the structure and moves it, in any order;
`Spec.History step d e gs cs` is the structure after the calls `cs`, made on device `d`.
-/

set_option linter.unusedSectionVars false
set_option autoImplicit false

namespace DHG

open Device

namespace Spec

/-- the structure made on device `d` after the calls `cs` -/
def History {Cmd : Type} (step : Cmd → St → St) (d : Dev) (empty : Bool) (groups : List String) (cs : List Cmd) : St :=
  cs.foldl (fun s c => step c s) (fresh d empty groups)

/-- attributes of a `Graph` that are tensors; the neighbours within `hop ≥ 2` steps are left out -/
def GraphTensor : Graph.Q → Prop
  | .Nv hop => hop = 1
  | .smoothGCN _ => False
  | .v2v _ _ _ => False
  | _ => True

/-- a valid aggregation: `softmax_then_sum` without weights is broken in `Graph.v2v` (see C21) -/
def GraphAggr (aggr : Aggr) (ew : Option Dev) : Prop :=
  aggr ≠ .other ∧ (aggr = .softmax → ew ≠ none)

/-- tensors of a `DiGraph` -/
def DiGraphTensor : DiGraph.Q → Prop
  | .v2v _ _ _ _ => False
  | _ => True

/-- tensors of a `DiGraph` that are made on the right device even when there are no edges -/
def DiGraphDegree : DiGraph.Q → Prop
  | .DvIn => True
  | .DvOut => True
  | .DvInNeg1 => True
  | .DvOutNeg1 => True
  | _ => False

/-- tensors of a `BiGraph` except the GCN Laplacian -/
def BiGraphTensor : BiGraph.Q → Prop
  | .LGCN => False
  | .smoothGCN _ => False
  | .u2v _ _ _ => False
  | .v2u _ _ _ => False
  | _ => True

/-- tensors of a hypergraph with the groups `gs`; every tensor handed in is on device `d` -/
def HyperOk (d : Dev) (gs : List String) : Hypergraph.Q → Prop
  | .Wv => True
  | .HG g | .HTG g | .WeG g | .DvG g | .DvNeg1G g | .DvNeg12G g | .DeG g | .DeNeg1G g | .LsymG g
  | .LrwG g | .LHGNNG g | .Hv2eG g | .He2vG g => g ∈ gs
  | .smoothHGNN _ => gs ≠ []
  | .smoothHGNNG g _ => g ∈ gs
  | .v2e x aggr _ ew => gs ≠ [] ∧ x = d ∧ aggr ≠ .other ∧ (∀ w, ew = some w → w = d)
  | .e2v x aggr _ => gs ≠ [] ∧ x = d ∧ aggr ≠ .other
  | .v2v x aggr _ ew _ => gs ≠ [] ∧ x = d ∧ aggr ≠ .other ∧ (∀ w, ew = some w → w = d)
  | _ => gs ≠ []

/-- the call hands in tensors on device `d` only and moves to no other device -/
def HyperStays (d : Dev) : Hypergraph.Cmd → Prop
  | .read (.v2e x _ _ _) => x = d
  | .read (.e2v x _ _) => x = d
  | .read (.v2v x _ _ _ _) => x = d
  | .move d' => d' = d
  | _ => True

/-- the call reads no tensor -/
def HyperQuiet : Hypergraph.Cmd → Prop
  | .read _ => False
  | _ => True

/-- weight and degree tensors of hyperedges, which are made on the right device in every history -/
def HyperEdgeTensor (gs : List String) : Hypergraph.Q → Prop
  | .Wv => True
  | .We | .De | .DeNeg1 => gs ≠ []
  | .WeG g | .DeG g | .DeNeg1G g => g ∈ gs
  | _ => False

/-- tensors of the whole hypergraph and degree, weight and Laplacian matrices of groups -/
def HyperChecked : Hypergraph.Q → Prop
  | .Hv2e | .He2v | .Ne | .HG _ | .HTG _ | .Hv2eG _ | .He2vG _ => False
  | .v2e _ _ _ _ | .e2v _ _ _ | .v2v _ _ _ _ _ => False
  | _ => True

end Spec

namespace Device

/-- what `if self.device != X.device: self.to(X.device)` does -/
def Follows (P : KeyPred) (x : Dev) (f : PyM St Unit) : Prop :=
  ∀ s, Good P s → (f s).1 = .ok () ∧ Good P (f s).2 ∧ (f s).2.raw = { s.raw with device := x }

theorem Follows.mk' {P : KeyPred} {mv : Dev → PyM St Unit} {x : Dev}
    (h1 : ∀ s, (mv x s).1 = .ok ()) (h2 : ∀ s, Good P s → Good P (mv x s).2)
    (h3 : ∀ s, (mv x s).2.raw = { s.raw with device := x }) :
    Follows P x (do let h ← here; if h = x then pure () else mv x) := by
  intro s hg
  have : (do let h ← here; if h = x then pure () else mv x : PyM St Unit) s =
      if s.raw.device = x then (.ok (), s) else mv x s := by
    show (if s.raw.device = x then (pure () : PyM St Unit) else mv x) s = _
    split <;> rfl
  rw [this]
  split
  · rename_i h
    exact ⟨rfl, hg, by rw [← h]⟩
  · exact ⟨h1 s, h2 s hg, h3 s⟩

theorem Follows.bind_eq {α : Type} {P : KeyPred} {x : Dev} {f : PyM St Unit} (hf : Follows P x f) (m : PyM St α) {s : St}
    (hg : Good P s) : ∃ s', (do f; m : PyM St α) s = m s' ∧ Good P s' ∧ s'.raw = { s.raw with device := x } := by
  obtain ⟨h1, h2, h3⟩ := hf s hg
  rcases h : f s with ⟨_ | _, s'⟩ <;> rw [h] at h1 h2 h3
  · cases h1
  · refine ⟨s', ?_, h2, h3⟩
    show PyM.bind f _ s = _
    unfold PyM.bind
    rw [h]

theorem Follows.tot {α : Type} {P : KeyPred} {x : Dev} {f : PyM St Unit} (hf : Follows P x f) {m : PyM St α} {Q : α → Prop}
    {s : St} (hg : Good P s) (hm : Tot P { s.raw with device := x } m Q) :
    ∃ a, ((do f; m) s).1 = .ok a ∧ Q a ∧ Good P ((do f; m) s).2 ∧ ((do f; m) s).2.raw = { s.raw with device := x } := by
  obtain ⟨s', he, h1, h2⟩ := hf.bind_eq m hg
  rw [he]
  exact hm s' h2 h1

theorem Follows.sf {α : Type} {P : KeyPred} {x : Dev} {f : PyM St Unit} (hf : Follows P x f) {m : PyM St α} {Q : α → Prop}
    {s : St} (hg : Good P s) (hm : Sf P { s.raw with device := x } m Q) :
    (∀ a, ((do f; m) s).1 = .ok a → Q a) ∧ Good P ((do f; m) s).2 ∧ ((do f; m) s).2.raw = { s.raw with device := x } := by
  obtain ⟨s', he, h1, h2⟩ := hf.bind_eq m hg
  rw [he]
  exact hm s' h2 h1

theorem good_cmds {Cmd : Type} {step : Cmd → St → St} {P : KeyPred} (h : ∀ s c, Good P s → Good P (step c s))
    (d : Dev) (e : Bool) (gs : List String) (cs : List Cmd) : Good P (Spec.History step d e gs cs) := by
  unfold Spec.History
  have : ∀ s, Good P s → Good P (cs.foldl (fun s c => step c s) s) := by
    induction cs with
    | nil => exact fun s h => h
    | cons c cs ih => exact fun s hs => ih _ (h s c hs)
  exact this _ (good_fresh _)

/-! ### Graph -/

namespace Graph

/-- names moved by `to` -/
def key : KeyPred := fun _ k => k ∈ vars.map (Prod.mk none)

variable {r : Raw}

theorem tot_A : Tot key r A (· = r.device) := .memo_in (by simp [key, vars]) .here'
theorem tot_Dv : Tot key r Dv (· = r.device) := .memo_in (by simp [key, vars]) (.bind' tot_A fun _ _ => .here')
theorem tot_DvNeg1 : Tot key r DvNeg1 (· = r.device) :=
  .memo_in (by simp [key, vars]) (.bind' tot_Dv fun _ _ => .here')
theorem tot_DvNeg12 : Tot key r DvNeg12 (· = r.device) :=
  .memo_in (by simp [key, vars]) (.bind' tot_Dv fun _ _ => .here')

theorem tot_tmp {m : PyM St Dev} (hm : Tot key r m (· = r.device)) :
    Tot key r (onTmp do let d ← m; let a ← A; joined [d, a]) (· = r.device) :=
  .onTmp' (.bind' hm fun d hd => .bind' tot_A fun a ha => .joined' (by simp) (by simp [hd, ha]))

theorem tot_L : Tot key r L (· = r.device) := .memo_in (by simp [key, vars]) (tot_tmp tot_Dv)
theorem tot_LGCN : Tot key r LGCN (· = r.device) := .memo_in (by simp [key, vars]) (tot_tmp tot_DvNeg12)
theorem tot_Lsym : Tot key r Lsym (· = r.device) :=
  .memo_in (by simp [key, vars]) (.bind' (tot_tmp tot_DvNeg12) fun l hl => .bind' .here' fun h hh =>
    .joined' (by simp) (by simp [hl, hh]))
theorem tot_Lrw : Tot key r Lrw (· = r.device) :=
  .memo_in (by simp [key, vars]) (.bind' (tot_tmp tot_DvNeg1) fun l hl => .bind' .here' fun h hh =>
    .joined' (by simp) (by simp [hl, hh]))

theorem sf_Nv (hop : Nat) : Sf key r (Nv hop) (fun _ => True) := by
  unfold Nv
  refine .ite' (fun _ => .raise' _) fun _ => .ite' (fun _ => tot_A.sf.weaken fun _ _ => trivial) fun _ => ?_
  by_cases h : key r (none, "A_" ++ toString hop)
  · exact (Sf.memo_in h tot_A.sf).weaken fun _ _ => trivial
  · exact Sf.memo_out h tot_A.sf

theorem tensor_tot {q : Q} (hq : Spec.GraphTensor q) : Tot key r (read q) (· = r.device) := by
  cases q with
  | A => exact tot_A
  | Dv => exact tot_Dv
  | DvNeg1 => exact tot_DvNeg1
  | DvNeg12 => exact tot_DvNeg12
  | eSrc => exact tot_A
  | eDst => exact tot_A
  | eWeight => exact tot_A
  | L => exact tot_L
  | Lsym => exact tot_Lsym
  | Lrw => exact tot_Lrw
  | LGCN => exact tot_LGCN
  | Nv hop =>
    cases (show hop = 1 from hq)
    exact tot_A
  | smoothGCN x => exact hq.elim
  | v2v x a e => exact hq.elim

theorem good_to {s : St} (d : Dev) : Good key (moveTo d s).2 :=
  good_move (P := key) (s := s) (r := { s.raw with device := d }) (fun _ h => h) rfl

theorem follow_spec (x : Dev) : Follows key x (follow x) :=
  .mk' (fun _ => rfl) (fun _ _ => good_to x) (fun _ => rfl)

theorem tot_mean {x : Dev} {r : Raw} (hr : r.device = x) :
    Tot key r (do let p ← A; let y ← joined [p, x]; let d ← DvNeg1; joined [d, y]) (· = x) := by
  subst hr
  exact .bind' tot_A fun p hp => .bind' (.joined' (by simp) (by simp [hp])) fun y hy =>
    .bind' tot_DvNeg1 fun d hd => .joined' (by simp) (by simp [hd, hy])

theorem tot_sum {x : Dev} {r : Raw} (hr : r.device = x) : Tot key r (do let p ← A; joined [p, x]) (· = x) := by
  subst hr
  exact .bind' tot_A fun p hp => .joined' (by simp) (by simp [hp])

theorem tot_weighted {x : Dev} {r : Raw} (hr : r.device = x) :
    Tot key r (do let _ ← A; let p ← here; joined [p, x]) (· = x) := by
  subst hr
  exact .bind' tot_A fun _ _ => .bind' .here' fun p hp => .joined' (by simp) (by simp [hp])

theorem tot_smooth {x : Dev} {r : Raw} (hr : r.device = x) : Tot key r (do let l ← LGCN; joined [l, x]) (· = x) := by
  subst hr
  exact .bind' tot_LGCN fun p hp => .joined' (by simp) (by simp [hp])

theorem v2v_tot {s : St} (hg : Good key s) {x : Dev} {aggr : Aggr} {ew : Option Dev} (ha : Spec.GraphAggr aggr ew) :
    (v2v x aggr ew s).1 = .ok x ∧ Good key (v2v x aggr ew s).2 ∧
      (v2v x aggr ew s).2.raw = { s.raw with device := x } := by
  have fin : ∀ {m : PyM St Dev}, (∀ r : Raw, r.device = x → Tot key r m (· = x)) →
      ((do follow x; m) s).1 = .ok x ∧ Good key ((do follow x; m) s).2 ∧
        ((do follow x; m) s).2.raw = { s.raw with device := x } := by
    intro m hm
    obtain ⟨a, h1, rfl, h2, h3⟩ := (follow_spec x).tot hg (hm { s.raw with device := x } rfl)
    exact ⟨h1, h2, h3⟩
  obtain ⟨h1, h2⟩ := ha
  cases aggr <;> cases ew
  · exact fin fun r hr => tot_mean hr
  · exact fin fun r hr => tot_weighted hr
  · exact fin fun r hr => tot_sum hr
  · exact fin fun r hr => tot_weighted hr
  · exact absurd rfl (h2 rfl)
  · exact fin fun r hr => tot_weighted hr
  · exact absurd rfl h1
  · exact absurd rfl h1

theorem good_step {s : St} (hg : Good key s) (c : Cmd) : Good key (step c s) := by
  cases c with
  | edit e => exact good_fresh _
  | move d => exact good_to d
  | read q =>
    show Good key (read q s).2
    by_cases hq : Spec.GraphTensor q
    · obtain ⟨a, -, -, h, -⟩ := tensor_tot hq s rfl hg
      exact h
    · cases q with
      | Nv hop => exact (sf_Nv hop s rfl hg).2.1
      | smoothGCN x =>
        obtain ⟨a, -, -, h, -⟩ := (follow_spec x).tot hg (tot_smooth rfl)
        exact h
      | v2v x aggr ew =>
        by_cases ha : Spec.GraphAggr aggr ew
        · exact (v2v_tot hg ha).2.1
        · cases aggr with
          | mean => exact absurd ⟨by simp, by simp⟩ ha
          | sum => exact absurd ⟨by simp, by simp⟩ ha
          | other => exact hg
          | softmax =>
            cases ew with
            | some w => exact absurd ⟨by simp, by simp⟩ ha
            | none => exact ((follow_spec x).sf (Q := fun _ => True) hg (.bind' tot_A.sf fun _ _ => .raise' _)).2.1
      | A => exact absurd trivial hq
      | Dv => exact absurd trivial hq
      | DvNeg1 => exact absurd trivial hq
      | DvNeg12 => exact absurd trivial hq
      | eSrc => exact absurd trivial hq
      | eDst => exact absurd trivial hq
      | eWeight => exact absurd trivial hq
      | L => exact absurd trivial hq
      | Lsym => exact absurd trivial hq
      | Lrw => exact absurd trivial hq
      | LGCN => exact absurd trivial hq

theorem good_history (d : Dev) (e : Bool) (gs : List String) (cs : List Cmd) :
    Good key (Spec.History step d e gs cs) := good_cmds (fun _ c h => good_step h c) d e gs cs

end Graph

/-! ### DiGraph -/

namespace DiGraph

/-- names moved by `to`; `A` and `A_T` of a graph without edges are left out -/
def key : KeyPred := fun r k => k ∈ vars.map (Prod.mk none) ∧ (r.empty = true → k ≠ (none, "A") ∧ k ≠ (none, "A_T"))

variable {r : Raw}

theorem good_to {s : St} (d : Dev) : Good key (moveTo d s).2 :=
  good_move (P := key) (s := s) (r := { s.raw with device := d }) (fun _ h => h.1) rfl

theorem follow_spec (x : Dev) : Follows key x (follow x) :=
  .mk' (fun _ => rfl) (fun _ _ => good_to x) (fun _ => rfl)

theorem tot_A : Tot key r A (fun d => r.empty = false → d = r.device) := by
  by_cases he : r.empty = true
  · refine (Tot.memo_out (Q := fun _ => True) (fun h => (h.2 he).1 rfl) ?_).weaken fun _ _ h => by simp [he] at h
    exact .bind' (.readRaw' (Q := fun e => e = true) _ he) fun e he => by rw [if_pos he]; exact .pure' trivial
  · refine (Tot.memo_in ⟨by simp [vars], fun h => absurd h he⟩ ?_).weaken fun _ h _ => h
    exact .bind' (.readRaw' (Q := fun e => ¬ e = true) _ he) fun e he => by rw [if_neg he]; exact .here'

theorem tot_AT : Tot key r AT (fun d => r.empty = false → d = r.device) := by
  by_cases he : r.empty = true
  · exact (Tot.memo_out (fun h => (h.2 he).2 rfl) tot_A).weaken fun _ _ h => by simp [he] at h
  · refine (Tot.memo_in ⟨by simp [vars], fun h => absurd h he⟩ (tot_A.weaken fun _ h => h (by simpa using he))).weaken fun _ h _ => h

theorem tot_DvIn : Tot key r DvIn (· = r.device) :=
  .memo_in ⟨by simp [vars], fun _ => by simp⟩ (.bind' tot_AT fun _ _ => .here')
theorem tot_DvOut : Tot key r DvOut (· = r.device) :=
  .memo_in ⟨by simp [vars], fun _ => by simp⟩ (.bind' tot_A fun _ _ => .here')
theorem tot_DvInNeg1 : Tot key r DvInNeg1 (· = r.device) :=
  .memo_in ⟨by simp [vars], fun _ => by simp⟩ (.bind' tot_DvIn fun _ _ => .here')
theorem tot_DvOutNeg1 : Tot key r DvOutNeg1 (· = r.device) :=
  .memo_in ⟨by simp [vars], fun _ => by simp⟩ (.bind' tot_DvOut fun _ _ => .here')

theorem tensor_tot {q : Q} (hq : Spec.DiGraphTensor q) :
    Tot key r (read q) (fun d => r.empty = false ∨ Spec.DiGraphDegree q → d = r.device) := by
  have deg : ∀ {m : PyM St Dev} {p : Prop}, Tot key r m (· = r.device) → Tot key r m (fun d => p → d = r.device) :=
    fun h => h.weaken fun _ h _ => h
  have adj : ∀ {m : PyM St Dev} {p : Prop}, ¬ p → Tot key r m (fun d => r.empty = false → d = r.device) →
      Tot key r m (fun d => r.empty = false ∨ p → d = r.device) :=
    fun hp h => h.weaken fun _ h h' => h'.elim h fun h' => absurd h' hp
  cases q with
  | A => exact adj id tot_A
  | AT => exact adj id tot_AT
  | DvIn => exact deg tot_DvIn
  | DvOut => exact deg tot_DvOut
  | DvInNeg1 => exact deg tot_DvInNeg1
  | DvOutNeg1 => exact deg tot_DvOutNeg1
  | eSrc => exact adj id tot_A
  | eDst => exact adj id tot_A
  | eWeight => exact adj id tot_A
  | NvIn => exact adj id tot_AT
  | NvOut => exact adj id tot_A
  | v2v x a e b => exact hq.elim

theorem tot_P {b : Bool} : Tot key r (along b) (fun d => r.empty = false → d = r.device) := by
  cases b
  · exact tot_A
  · exact tot_AT

theorem tot_D {b : Bool} : Tot key r (degInv b) (· = r.device) := by
  cases b
  · exact tot_DvOutNeg1
  · exact tot_DvInNeg1

theorem tot_mean {x : Dev} {r : Raw} {b : Bool} (hr : r.device = x) (he : r.empty = false) :
    Tot key r (do
      let p ← along b
      let y ← joined [p, x]
      let d ← degInv b
      joined [d, y]) (· = x) := by
  subst hr
  exact .bind' tot_P fun p hp => .bind' (.joined' (by simp) (by simp [hp he])) fun y hy => .bind' tot_D fun d hd =>
    .joined' (by simp) (by simp [hd, hy])

theorem tot_sum {x : Dev} {r : Raw} {b : Bool} (hr : r.device = x) (he : r.empty = false) :
    Tot key r (do
      let p ← along b
      joined [p, x]) (· = x) := by
  subst hr
  exact .bind' tot_P fun p hp => .joined' (by simp) (by simp [hp he])

theorem tot_weighted {x : Dev} {r : Raw} (hr : r.device = x) :
    Tot key r (do let _ ← A; let p ← here; joined [p, x]) (· = x) := by
  subst hr
  exact .bind' tot_A fun _ _ => .bind' .here' fun p hp => .joined' (by simp) (by simp [hp])

theorem v2v_tot {s : St} (hg : Good key s) {x : Dev} {aggr : Aggr} {ew : Option Dev} {b : Bool} (ha : aggr ≠ .other)
    (he : s.raw.empty = false) :
    (v2v x aggr ew b s).1 = .ok x ∧ Good key (v2v x aggr ew b s).2 ∧
      (v2v x aggr ew b s).2.raw = { s.raw with device := x } := by
  have fin : ∀ {m : PyM St Dev}, (∀ r : Raw, r.device = x → r.empty = false → Tot key r m (· = x)) →
      ((do follow x; m) s).1 = .ok x ∧ Good key ((do follow x; m) s).2 ∧
        ((do follow x; m) s).2.raw = { s.raw with device := x } := by
    intro m hm
    obtain ⟨a, h1, rfl, h2, h3⟩ := (follow_spec x).tot hg (hm { s.raw with device := x } rfl he)
    exact ⟨h1, h2, h3⟩
  cases aggr <;> cases ew
  · exact fin fun r hr he => tot_mean hr he
  · exact fin fun r hr he => tot_weighted hr
  · exact fin fun r hr he => tot_sum hr he
  · exact fin fun r hr he => tot_weighted hr
  · exact fin fun r hr he => tot_sum hr he
  · exact fin fun r hr he => tot_weighted hr
  · exact absurd rfl ha
  · exact absurd rfl ha

theorem v2v_good {s : St} (hg : Good key s) {x : Dev} {aggr : Aggr} {ew : Option Dev} {b : Bool} :
    Good key (v2v x aggr ew b s).2 := by
  have fin : ∀ {m : PyM St Dev}, Sf key { s.raw with device := x } m (fun _ => True) →
      Good key ((do follow x; m) s).2 := fun hm => ((follow_spec x).sf hg hm).2.1
  have mean : Sf key { s.raw with device := x } (do
      let p ← along b
      let y ← joined [p, x]
      let d ← degInv b
      joined [d, y]) (fun _ => True) :=
    .bind' tot_P.sf fun p hp => .bind' .joined_any fun y hy => .bind' tot_D.sf fun d hd => .joined_any
  have sum : Sf key { s.raw with device := x } (do
      let p ← along b
      joined [p, x]) (fun _ => True) :=
    .bind' tot_P.sf fun p hp => .joined_any
  have weighted : Sf key { s.raw with device := x } (do
      let _ ← A
      let p ← here
      joined [p, x]) (fun _ => True) :=
    .bind' tot_A.sf fun _ _ => .bind' .here' fun p hp => .joined_any
  cases aggr <;> cases ew
  · exact fin mean
  · exact fin weighted
  · exact fin sum
  · exact fin weighted
  · exact fin sum
  · exact fin weighted
  · exact hg
  · exact hg

theorem good_step {s : St} (hg : Good key s) (c : Cmd) : Good key (step c s) := by
  cases c with
  | edit e => exact good_fresh _
  | move d => exact good_to d
  | read q =>
    show Good key (read q s).2
    by_cases hq : Spec.DiGraphTensor q
    · obtain ⟨a, -, -, h, -⟩ := tensor_tot hq s rfl hg
      exact h
    · cases q with
      | v2v x aggr ew b => exact v2v_good hg
      | _ => exact absurd trivial hq

theorem good_history (d : Dev) (e : Bool) (gs : List String) (cs : List Cmd) :
    Good key (Spec.History step d e gs cs) := good_cmds (fun _ c h => good_step h c) d e gs cs

end DiGraph

/-! ### BiGraph -/

namespace BiGraph

/-- names moved by `to`; `A`, `B` and `B_T` of a graph without edges are left out -/
def key : KeyPred := fun r k => k ∈ vars.map (Prod.mk none) ∧
  (r.empty = true → k ≠ (none, "A") ∧ k ≠ (none, "B") ∧ k ≠ (none, "B_T"))

variable {r : Raw}

theorem good_to {s : St} (d : Dev) : Good key (moveTo d s).2 :=
  good_move (P := key) (s := s) (r := { s.raw with device := d }) (fun _ h => h.1) rfl

theorem follow_spec (x : Dev) : Follows key x (follow x) :=
  .mk' (fun _ => rfl) (fun _ _ => good_to x) (fun _ => rfl)

theorem tot_B : Tot key r B (fun d => r.empty = false → d = r.device) := by
  by_cases he : r.empty = true
  · refine (Tot.memo_out (Q := fun _ => True) (fun h => (h.2 he).2.1 rfl) ?_).weaken fun _ _ h => by simp [he] at h
    exact .bind' (.readRaw' (Q := fun e => e = true) _ he) fun e he => by rw [if_pos he]; exact .pure' trivial
  · refine (Tot.memo_in ⟨by simp [vars], fun h => absurd h he⟩ ?_).weaken fun _ h _ => h
    exact .bind' (.readRaw' (Q := fun e => ¬ e = true) _ he) fun e he => by rw [if_neg he]; exact .here'

theorem tot_BT : Tot key r BT (fun d => r.empty = false → d = r.device) := by
  by_cases he : r.empty = true
  · exact (Tot.memo_out (fun h => (h.2 he).2.2 rfl) tot_B).weaken fun _ _ h => by simp [he] at h
  · refine (Tot.memo_in ⟨by simp [vars], fun h => absurd h he⟩ (tot_B.weaken fun _ h => h (by simpa using he))).weaken fun _ h _ => h

theorem tot_Du : Tot key r Du (· = r.device) :=
  .memo_in ⟨by simp [vars], fun _ => by simp⟩ (.bind' tot_B fun _ _ => .here')
theorem tot_Dv : Tot key r Dv (· = r.device) :=
  .memo_in ⟨by simp [vars], fun _ => by simp⟩ (.bind' tot_BT fun _ _ => .here')
theorem tot_DuNeg1 : Tot key r DuNeg1 (· = r.device) :=
  .memo_in ⟨by simp [vars], fun _ => by simp⟩ (.bind' tot_Du fun _ _ => .here')
theorem tot_DvNeg1 : Tot key r DvNeg1 (· = r.device) :=
  .memo_in ⟨by simp [vars], fun _ => by simp⟩ (.bind' tot_Dv fun _ _ => .here')

theorem tot_A (he : r.empty = false) : Tot key r A (· = r.device) :=
  .memo_in ⟨by simp [vars], fun h => by simp [he] at h⟩ <|
    .bind' .here' fun h hh => .bind' tot_B fun b hb => .bind' (.joined' (by simp) (by simp [hh, hb he])) fun up hu =>
      .bind' tot_BT fun bt hbt => .bind' (.joined' (by simp) (by simp [hh, hbt he])) fun dn hd =>
        .joined' (by simp) (by simp [hu, hd])

theorem sf_A : Sf key r A (fun _ => True) := by
  by_cases he : r.empty = true
  · refine Sf.memo_out (Q := fun _ => True) (fun h => (h.2 he).1 rfl) ?_
    exact .bind' .here' fun h hh => .bind' tot_B.sf fun b hb => .bind' .joined_any fun up hu =>
      .bind' tot_BT.sf fun bt hbt => .bind' .joined_any fun dn hd => .joined_any
  · exact (tot_A (by simpa using he)).sf.weaken fun _ _ => trivial

theorem sf_LGCN : Sf key r LGCN (fun _ => True) :=
  Sf.memo_out (Q := fun _ => True) (fun h => by simp [key, vars] at h) <|
    .bind' sf_A fun _ _ => .bind' .here' fun _ _ => .bind' .here' fun _ _ => .joined_any

theorem tot_LGCN_new {s : St} (hg : Good key s) (he : s.raw.empty = false) (hn : s.cache.get? (none, "L_GCN") = none) :
    (LGCN s).1 = .ok s.raw.device := by
  have h : Tot key s.raw (do
      let _ ← A
      let a ← here
      let d ← here
      joined [d, a]) (· = s.raw.device) :=
    .bind' (tot_A he) fun _ _ => .bind' .here' fun a ha => .bind' .here' fun d hd =>
      .joined' (by simp) (by simp [ha, hd])
  obtain ⟨a, h1, rfl, -⟩ := h s rfl hg
  unfold LGCN memo
  rw [hn]
  rcases hms : (do
      let _ ← A
      let a ← here
      let d ← here
      joined [d, a] : PyM St Dev) s with ⟨_ | a', s'⟩ <;> rw [hms] at h1
  · cases h1
  · simp only
    exact h1

theorem tensor_tot {q : Q} (hq : Spec.BiGraphTensor q) (he : r.empty = false) : Tot key r (read q) (· = r.device) := by
  cases q with
  | A => exact tot_A he
  | B => exact tot_B.weaken fun _ h => h he
  | BT => exact tot_BT.weaken fun _ h => h he
  | Du => exact tot_Du
  | Dv => exact tot_Dv
  | DuNeg1 => exact tot_DuNeg1
  | DvNeg1 => exact tot_DvNeg1
  | eU => exact tot_B.weaken fun _ h => h he
  | eV => exact tot_B.weaken fun _ h => h he
  | eWeight => exact tot_B.weaken fun _ h => h he
  | Nv => exact tot_B.weaken fun _ h => h he
  | Nu => exact tot_BT.weaken fun _ h => h he
  | LGCN => exact hq.elim
  | smoothGCN x => exact hq.elim
  | u2v x a e => exact hq.elim
  | v2u x a e => exact hq.elim

/-- the two message passing functions have the same shape -/
theorem msg_tot {Pm Dm : PyM St Dev} {x : Dev} {r : Raw} (hr : r.device = x) (he : r.empty = false)
    (hP : ∀ r : Raw, Tot key r Pm (fun d => r.empty = false → d = r.device)) (hD : ∀ r : Raw, Tot key r Dm (· = r.device)) :
    Tot key r (do let p ← Pm; let y ← joined [p, x]; let d ← Dm; joined [d, y]) (· = x) ∧
    Tot key r (do let p ← Pm; joined [p, x]) (· = x) ∧
    Tot key r (do let _ ← B; let p ← here; joined [p, x]) (· = x) := by
  subst hr
  exact ⟨.bind' (hP _) fun p hp => .bind' (.joined' (by simp) (by simp [hp he])) fun y hy => .bind' (hD _) fun d hd =>
      .joined' (by simp) (by simp [hd, hy]),
   .bind' (hP _) fun p hp => .joined' (by simp) (by simp [hp he]),
   .bind' tot_B fun _ _ => .bind' .here' fun p hp => .joined' (by simp) (by simp [hp])⟩

theorem msg_sf {Pm Dm : PyM St Dev} {r : Raw} {x : Dev}
    (hP : ∀ r : Raw, Tot key r Pm (fun d => r.empty = false → d = r.device)) (hD : ∀ r : Raw, Tot key r Dm (· = r.device)) :
    Sf key r (do let p ← Pm; let y ← joined [p, x]; let d ← Dm; joined [d, y]) (fun _ => True) ∧
    Sf key r (do let p ← Pm; joined [p, x]) (fun _ => True) ∧
    Sf key r (do let _ ← B; let p ← here; joined [p, x]) (fun _ => True) :=
  ⟨.bind' (hP _).sf fun p hp => .bind' .joined_any fun y hy => .bind' (hD _).sf fun d hd => .joined_any,
   .bind' (hP _).sf fun p hp => .joined_any,
   .bind' tot_B.sf fun _ _ => .bind' .here' fun p hp => .joined_any⟩

theorem follow_tot {s : St} (hg : Good key s) {x : Dev} {m : PyM St Dev} (hm : Tot key { s.raw with device := x } m (· = x)) :
    ((do follow x; m) s).1 = .ok x ∧ Good key ((do follow x; m) s).2 ∧
      ((do follow x; m) s).2.raw = { s.raw with device := x } := by
  obtain ⟨a, h1, rfl, h2, h3⟩ := (follow_spec x).tot hg hm
  exact ⟨h1, h2, h3⟩

theorem u2v_tot {s : St} (hg : Good key s) {x : Dev} {aggr : Aggr} {ew : Option Dev} (ha : aggr ≠ .other)
    (he : s.raw.empty = false) :
    (u2v x aggr ew s).1 = .ok x ∧ Good key (u2v x aggr ew s).2 ∧ (u2v x aggr ew s).2.raw = { s.raw with device := x } := by
  obtain ⟨h1, h2, h3⟩ := msg_tot (r := { s.raw with device := x }) rfl he (fun _ => tot_BT) (fun _ => tot_DvNeg1)
  cases aggr <;> cases ew
  · exact follow_tot hg h1
  · exact follow_tot hg h3
  · exact follow_tot hg h2
  · exact follow_tot hg h3
  · exact follow_tot hg h2
  · exact follow_tot hg h3
  · exact absurd rfl ha
  · exact absurd rfl ha

theorem v2u_tot {s : St} (hg : Good key s) {x : Dev} {aggr : Aggr} {ew : Option Dev} (ha : aggr ≠ .other)
    (he : s.raw.empty = false) :
    (v2u x aggr ew s).1 = .ok x ∧ Good key (v2u x aggr ew s).2 ∧ (v2u x aggr ew s).2.raw = { s.raw with device := x } := by
  obtain ⟨h1, h2, h3⟩ := msg_tot (r := { s.raw with device := x }) rfl he (fun _ => tot_B) (fun _ => tot_DuNeg1)
  cases aggr <;> cases ew
  · exact follow_tot hg h1
  · exact follow_tot hg h3
  · exact follow_tot hg h2
  · exact follow_tot hg h3
  · exact follow_tot hg h2
  · exact follow_tot hg h3
  · exact absurd rfl ha
  · exact absurd rfl ha

theorem good_step {s : St} (hg : Good key s) (c : Cmd) : Good key (step c s) := by
  have fin : ∀ {x : Dev} {m : PyM St Dev}, Sf key { s.raw with device := x } m (fun _ => True) →
      Good key ((do follow x; m) s).2 := fun {x} {m} hm => ((follow_spec x).sf hg hm).2.1
  cases c with
  | edit e => exact good_fresh _
  | move d => exact good_to d
  | read q =>
    show Good key (read q s).2
    have tot : ∀ {m : PyM St Dev} {Q : Dev → Prop}, Tot key s.raw m Q → Good key (m s).2 := by
      intro m Q h
      obtain ⟨_, _, _, h, _⟩ := h s rfl hg
      exact h
    cases q with
    | A => exact (sf_A s rfl hg).2.1
    | B => exact tot tot_B
    | BT => exact tot tot_BT
    | Du => exact tot tot_Du
    | Dv => exact tot tot_Dv
    | DuNeg1 => exact tot tot_DuNeg1
    | DvNeg1 => exact tot tot_DvNeg1
    | eU => exact tot tot_B
    | eV => exact tot tot_B
    | eWeight => exact tot tot_B
    | Nv => exact tot tot_B
    | Nu => exact tot tot_BT
    | LGCN => exact (sf_LGCN s rfl hg).2.1
    | smoothGCN x =>
      exact ((Sf.bind' .here' fun _ _ => .bind' sf_LGCN fun _ _ => .joined_any :
        Sf key s.raw (smoothGCN x) (fun _ => True)) s rfl hg).2.1
    | u2v x aggr ew =>
      obtain ⟨h1, h2, h3⟩ := msg_sf (r := { s.raw with device := x }) (x := x) (fun _ => tot_BT) (fun _ => tot_DvNeg1)
      cases aggr <;> cases ew
      · exact fin h1
      · exact fin h3
      · exact fin h2
      · exact fin h3
      · exact fin h2
      · exact fin h3
      · exact hg
      · exact hg
    | v2u x aggr ew =>
      obtain ⟨h1, h2, h3⟩ := msg_sf (r := { s.raw with device := x }) (x := x) (fun _ => tot_B) (fun _ => tot_DuNeg1)
      cases aggr <;> cases ew
      · exact fin h1
      · exact fin h3
      · exact fin h2
      · exact fin h3
      · exact fin h2
      · exact fin h3
      · exact hg
      · exact hg

theorem good_history (d : Dev) (e : Bool) (gs : List String) (cs : List Cmd) :
    Good key (Spec.History step d e gs cs) := good_cmds (fun _ c h => good_step h c) d e gs cs

end BiGraph

/-! ### Hypergraph -/

namespace Hypergraph

/-- names moved by `to`; the incidence matrices of single groups are left out -/
def key : KeyPred := fun r k =>
  match k.1 with
  | none => k.2 ∈ vars
  | some g => g ∈ r.groups ∧ k.2 ∈ vars ∧ k.2 ≠ "H" ∧ k.2 ≠ "H_T"

/-- all names matter -/
def Full (P : KeyPred) (r : Raw) : Prop := ∀ k, P r k

/-- at least the names of `key` matter, or all names -/
structure Ok (P : KeyPred) : Prop where
  has : ∀ {r k}, key r k → P r k
  full : ∀ {r k}, P r k → ¬ key r k → Full P r

theorem ok_key : Ok key := ⟨fun h => h, fun h h' => absurd h h'⟩
theorem ok_true : Ok (fun _ _ => True) := ⟨fun _ => trivial, fun _ _ _ => trivial⟩

/-- if the call returns its value satisfies `Q`; if `F` holds it returns -/
def Tr {α : Type} (F : Prop) (P : KeyPred) (r : Raw) (m : PyM St α) (Q : α → Prop) : Prop :=
  ∀ s, s.raw = r → Good P s →
    (∀ a, (m s).1 = .ok a → Q a) ∧ Good P (m s).2 ∧ (m s).2.raw = r ∧ (F → ∃ a, (m s).1 = .ok a)

namespace Tr

variable {P : KeyPred} {r : Raw} {α β : Type} {F : Prop}

theorem pure' {a : α} {Q : α → Prop} (h : Q a) : Tr F P r (pure a) Q :=
  fun _ hs hg => ⟨fun b hb => by cases hb; exact h, hg, hs, fun _ => ⟨a, rfl⟩⟩

theorem raise' {Q : α → Prop} (hF : ¬ F) (e : Err) : Tr F P r (PyM.raise e : PyM St α) Q :=
  fun _ hs hg => ⟨fun b hb => (nomatch hb), hg, hs, fun h => absurd h hF⟩

theorem readRaw' (f : Raw → α) : Tr F P r (readRaw f) (· = f r) :=
  fun s hs hg => ⟨fun b hb => by cases hb; rw [hs], hg, hs, fun _ => ⟨f s.raw, rfl⟩⟩

theorem here' : Tr F P r here (· = r.device) := readRaw' _

theorem bind' {m : PyM St α} {f : α → PyM St β} {Q : α → Prop} {R : β → Prop} (hm : Tr F P r m Q)
    (hf : ∀ a, Q a → Tr F P r (f a) R) : Tr F P r (m >>= f) R := by
  intro s hs hg
  obtain ⟨h1, h2, h3, h4⟩ := hm s hs hg
  rw [PyM.bind_apply]
  rcases hms : m s with ⟨_ | a, s'⟩ <;> rw [hms] at h1 h2 h3 h4
  · refine ⟨fun b hb => (nomatch hb), h2, h3, fun h => ?_⟩
    obtain ⟨_, h⟩ := h4 h
    cases h
  · exact hf a (h1 a rfl) s' h3 h2

theorem weaken {m : PyM St α} {Q R : α → Prop} {F' : Prop} (hm : Tr F P r m Q) (hF : F' → F) (h : ∀ a, Q a → R a) :
    Tr F' P r m R :=
  fun s hs hg => ⟨fun a ha => h a ((hm s hs hg).1 a ha), (hm s hs hg).2.1, (hm s hs hg).2.2.1,
    fun hf => (hm s hs hg).2.2.2 (hF hf)⟩

theorem memo' {k : Option String × String} {m : PyM St Dev} {C : Prop} (hC : P r k → C)
    (hm : Tr F P r m (fun d => C → d = r.device)) (hC' : C → P r k) :
    Tr F P r (memo k m) (fun d => C → d = r.device) := by
  intro s hs hg
  unfold memo
  cases hk : s.cache.get? k with
  | some v =>
    refine ⟨fun a ha hp => ?_, hg, hs, fun _ => ⟨v, rfl⟩⟩
    cases ha
    have := hC' hp
    rw [← hs] at this ⊢
    exact hg k _ this hk
  | none =>
    obtain ⟨h1, h2, h3, h4⟩ := hm s hs hg
    rcases hms : m s with ⟨_ | a, s'⟩ <;> rw [hms] at h1 h2 h3 h4
    · exact ⟨fun b hb => (nomatch hb), h2, h3, fun h => by obtain ⟨_, h⟩ := h4 h; cases h⟩
    · refine ⟨fun b hb => by cases hb; exact h1 a rfl, ?_, h3, fun _ => ⟨a, rfl⟩⟩
      intro k' d hp hd
      simp only [Dict.get?_set] at hd
      split at hd
      · rename_i he
        subst he
        cases hd
        show a = s'.raw.device
        have hp : P s'.raw k := hp
        rw [h3] at hp ⊢
        exact h1 a rfl (hC hp)
      · exact h2 k' d hp hd

/-- a name moved by `to` -/
theorem memo_in (hP : Ok P) {k : Option String × String} {m : PyM St Dev} (hk : key r k)
    (hm : Tr F P r m (· = r.device)) : Tr F P r (memo k m) (· = r.device) :=
  (memo' (C := True) (fun _ => trivial) (hm.weaken id fun _ h _ => h) fun _ => hP.has hk).weaken id fun _ h => h trivial

/-- another name -/
theorem memo_out (hP : Ok P) {k : Option String × String} {m : PyM St Dev} (hk : ¬ key r k)
    (hm : Tr F P r m (fun d => Full P r → d = r.device)) : Tr F P r (memo k m) (fun d => Full P r → d = r.device) :=
  memo' (fun h => hP.full h hk) hm fun h => h k

theorem joined' {ds : List Dev} {Q : Dev → Prop} (h1 : F → ds ≠ [] ∧ ∀ d ∈ ds, d = r.device) (h2 : ∀ d ∈ ds.head?, Q d) :
    Tr F P r (joined ds) Q := by
  cases ds with
  | nil => exact raise' (fun h => (h1 h).1 rfl) _
  | cons d ds =>
    show Tr F P r (if ds.all (· == d) then pure d else PyM.raise .runtime) _
    split
    · exact pure' (h2 d (by simp))
    · rename_i h
      refine raise' (fun hF => h ?_) _
      rw [List.all_eq_true]
      intro x hx
      have := (h1 hF).2
      simp [this d (by simp), this x (by simp [hx])]

theorem pick' {w i : Dev} (h : F → i = w) : Tr F P r (pick w i) (· = w) := by
  unfold pick
  split
  · exact pure' rfl
  · rename_i hn
    exact raise' (fun hF => hn (Or.inr (h hF))) _

theorem collect' {xs : List β} {f : β → PyM St α} {Q : α → Prop} (hf : ∀ x ∈ xs, Tr F P r (f x) Q) :
    Tr F P r (PyM.collect xs f) (fun l => l.length = xs.length ∧ ∀ a ∈ l, Q a) := by
  induction xs with
  | nil => exact pure' (by simp)
  | cons x xs ih =>
    unfold PyM.collect
    refine bind' (hf x (by simp)) fun a ha => ?_
    refine bind' (ih fun y hy => hf y (by simp [hy])) fun as has => ?_
    refine pure' ⟨by simp [has.1], ?_⟩
    intro b hb
    rcases List.mem_cons.mp hb with rfl | hb
    · exact ha
    · exact has.2 b hb

end Tr

variable {P : KeyPred} {r : Raw}

theorem tr_need {F : Prop} (g : String) (hF : F → g ∈ r.groups) : Tr F P r (need g) (fun _ => g ∈ r.groups) := by
  refine .bind' (.readRaw' _) fun gs h => ?_
  subst h
  by_cases hg : g ∈ r.groups
  · rw [show r.groups.contains g = true by simpa using hg]
    exact .pure' hg
  · rw [show r.groups.contains g = false by simpa using hg]
    exact .raise' (fun h => hg (hF h)) _

theorem tr_each {F : Prop} {m : String → PyM St Dev} {Q : Dev → Prop} (h : ∀ g ∈ r.groups, Tr F P r (m g) Q) :
    Tr F P r (each m) (fun l => (r.groups ≠ [] → l ≠ []) ∧ ∀ a ∈ l, Q a) := by
  refine .bind' (.readRaw' _) fun gs hgs => ?_
  subst hgs
  refine (Tr.collect' h).weaken id fun l hl => ⟨fun hne hn => hne ?_, hl.2⟩
  have := hl.1
  rw [hn] at this
  exact List.eq_nil_of_length_eq_zero this.symm

variable (hP : Ok P)
include hP

theorem tr_Hv2eG (g : String) : Tr (g ∈ r.groups) P r (Hv2eG g) (fun d => Full P r → d = r.device) :=
  .bind' (tr_need g id) fun _ _ => .memo_out hP (by simp [key, vars]) <|
    .bind' (tr_need g id) fun _ _ => Tr.here'.weaken id fun _ h _ => h

theorem tr_He2vG (g : String) : Tr (g ∈ r.groups) P r (He2vG g) (fun d => Full P r → d = r.device) :=
  .bind' (tr_need g id) fun _ _ => .memo_out hP (by simp [key, vars]) <|
    .bind' (tr_need g id) fun _ _ => Tr.here'.weaken id fun _ h _ => h

omit hP in
theorem tr_joinAll {m : String → PyM St Dev}
    (h : ∀ g ∈ r.groups, Tr (g ∈ r.groups) P r (m g) (fun d => Full P r → d = r.device)) :
    Tr (r.groups ≠ [] ∧ Full P r) P r (do let ds ← each m; joined ds) (fun d => Full P r → d = r.device) :=
  .bind' (tr_each fun g hg => (h g hg).weaken (fun _ => hg) fun _ h => h) fun ds hds =>
    .joined' (fun hF => ⟨hds.1 hF.1, fun d hd => hds.2 d hd hF.2⟩)
      fun d hd => hds.2 d (List.mem_of_mem_head? hd)

theorem tr_Hv2e : Tr (r.groups ≠ [] ∧ Full P r) P r Hv2e (fun d => Full P r → d = r.device) :=
  .memo_out hP (by simp [key, vars]) (tr_joinAll fun g _ => tr_Hv2eG hP g)

theorem tr_He2v : Tr (r.groups ≠ [] ∧ Full P r) P r He2v (fun d => Full P r → d = r.device) :=
  .memo_out hP (by simp [key, vars]) (tr_joinAll fun g _ => tr_He2vG hP g)

theorem tr_H : Tr (r.groups ≠ [] ∧ Full P r) P r H (· = r.device) :=
  .memo_in hP (by simp [key, vars]) (.bind' (tr_Hv2e hP) fun _ _ => .here')

theorem tr_HT : Tr (r.groups ≠ [] ∧ Full P r) P r HT (· = r.device) :=
  .memo_in hP (by simp [key, vars]) (.bind' (tr_H hP) fun _ _ => .here')

theorem tr_HG (g : String) : Tr (g ∈ r.groups) P r (HG g) (fun d => Full P r → d = r.device) :=
  .bind' (tr_need g id) fun _ _ => .memo_out hP (by simp [key]) (tr_Hv2eG hP g)

theorem tr_HTG (g : String) : Tr (g ∈ r.groups) P r (HTG g) (fun d => Full P r → d = r.device) :=
  .bind' (tr_need g id) fun _ _ => .memo_out hP (by simp [key]) (tr_HG hP g)

theorem tr_Wv : Tr True P r Wv (· = r.device) := .memo_in hP (by simp [key, vars]) .here'

theorem tr_WeG (g : String) : Tr (g ∈ r.groups) P r (WeG g) (· = r.device) :=
  .bind' (tr_need g id) fun _ hg => .memo_in hP (by simp [key, vars, hg]) <|
    .bind' (tr_need g id) fun _ _ => .here'

omit hP in
theorem tr_joinHere {F : Prop} {m : String → PyM St Dev} (hF : F → r.groups ≠ [])
    (h : ∀ g ∈ r.groups, Tr F P r (m g) (· = r.device)) :
    Tr F P r (do let ds ← each m; let _ ← joined ds; here) (· = r.device) :=
  .bind' (tr_each h) fun ds hds =>
    .bind' (Tr.joined' (Q := fun _ => True) (fun h => ⟨hds.1 (hF h), hds.2⟩) fun _ _ => trivial) fun _ _ => .here'

theorem tr_We : Tr (r.groups ≠ []) P r We (· = r.device) :=
  .memo_in hP (by simp [key, vars]) (tr_joinHere id fun g hg => (tr_WeG hP g).weaken (fun _ => hg) fun _ h => h)

theorem tr_DvG (g : String) : Tr (g ∈ r.groups ∧ Full P r) P r (DvG g) (· = r.device) :=
  .bind' (tr_need g And.left) fun _ hg => .memo_in hP (by simp [key, vars, hg]) <|
    .bind' ((tr_HG hP g).weaken And.left fun _ h => h) fun h hh =>
    .bind' ((tr_WeG hP g).weaken And.left fun _ h => h) fun w hw =>
    .bind' (.pick' fun hF => (hh hF.2).trans hw.symm) fun v hv =>
    .bind' (Tr.joined' (Q := fun _ => True) (fun hF => ⟨by simp, by simp [hv, hw, hh hF.2]⟩) fun _ _ => trivial) fun _ _ =>
      .here'

theorem tr_Dv : Tr (r.groups ≠ [] ∧ Full P r) P r Dv (· = r.device) :=
  .memo_in hP (by simp [key, vars])
    (tr_joinHere And.left fun g hg => (tr_DvG hP g).weaken (fun h => ⟨hg, h.2⟩) fun _ h => h)

theorem tr_DvNeg1G (g : String) : Tr (g ∈ r.groups ∧ Full P r) P r (DvNeg1G g) (· = r.device) :=
  .bind' (tr_need g And.left) fun _ hg => .memo_in hP (by simp [key, vars, hg]) (.bind' (tr_DvG hP g) fun _ _ => .here')

theorem tr_DvNeg12G (g : String) : Tr (g ∈ r.groups ∧ Full P r) P r (DvNeg12G g) (· = r.device) :=
  .bind' (tr_need g And.left) fun _ hg => .memo_in hP (by simp [key, vars, hg]) (.bind' (tr_DvG hP g) fun _ _ => .here')

theorem tr_DvNeg1 : Tr (r.groups ≠ [] ∧ Full P r) P r DvNeg1 (· = r.device) :=
  .memo_in hP (by simp [key, vars]) (.bind' (tr_Dv hP) fun _ _ => .here')

theorem tr_DvNeg12 : Tr (r.groups ≠ [] ∧ Full P r) P r DvNeg12 (· = r.device) :=
  .memo_in hP (by simp [key, vars]) (.bind' (tr_Dv hP) fun _ _ => .here')

theorem tr_DeG (g : String) : Tr (g ∈ r.groups) P r (DeG g) (· = r.device) :=
  .bind' (tr_need g id) fun _ hg => .memo_in hP (by simp [key, vars, hg]) (.bind' (tr_HTG hP g) fun _ _ => .here')

theorem tr_De : Tr (r.groups ≠ []) P r De (· = r.device) :=
  .memo_in hP (by simp [key, vars]) (tr_joinHere id fun g hg => (tr_DeG hP g).weaken (fun _ => hg) fun _ h => h)

theorem tr_DeNeg1G (g : String) : Tr (g ∈ r.groups) P r (DeNeg1G g) (· = r.device) :=
  .bind' (tr_need g id) fun _ hg => .memo_in hP (by simp [key, vars, hg]) (.bind' (tr_DeG hP g) fun _ _ => .here')

theorem tr_DeNeg1 : Tr (r.groups ≠ []) P r DeNeg1 (· = r.device) :=
  .memo_in hP (by simp [key, vars]) (.bind' (tr_De hP) fun _ _ => .here')

theorem tr_Ne : Tr (r.groups ≠ [] ∧ Full P r) P r Ne (fun d => Full P r → d = r.device) :=
  tr_joinAll fun g _ => tr_HG hP g

theorem tr_LHGNN : Tr (r.groups ≠ [] ∧ Full P r) P r LHGNN (· = r.device) :=
  .memo_in hP (by simp [key, vars]) <|
    .bind' (tr_DvNeg12 hP) fun a ha => .bind' (tr_H hP) fun b hb =>
    .bind' ((tr_We hP).weaken And.left fun _ h => h) fun c hc =>
    .bind' ((tr_DeNeg1 hP).weaken And.left fun _ h => h) fun d hd => .bind' (tr_HT hP) fun e he =>
    .bind' (tr_DvNeg12 hP) fun f hf => .joined' (fun _ => ⟨by simp, by simp [ha, hb, hc, hd, he, hf]⟩) (by simp [ha])

theorem tr_LHGNNG (g : String) : Tr (g ∈ r.groups ∧ Full P r) P r (LHGNNG g) (· = r.device) :=
  .bind' (tr_need g And.left) fun _ hg => .memo_in hP (by simp [key, vars, hg]) <|
    .bind' (tr_DvNeg12G hP g) fun a ha => .bind' ((tr_HG hP g).weaken And.left fun _ h => h) fun b hb =>
    .bind' ((tr_WeG hP g).weaken And.left fun _ h => h) fun c hc =>
    .bind' ((tr_DeNeg1G hP g).weaken And.left fun _ h => h) fun d hd =>
    .bind' ((tr_HTG hP g).weaken And.left fun _ h => h) fun e he =>
    .bind' (tr_DvNeg12G hP g) fun f hf =>
      .joined' (fun hF => ⟨by simp, by simp [ha, hb hF.2, hc, hd, he hF.2, hf]⟩) (by simp [ha])

theorem tr_Lsym : Tr (r.groups ≠ [] ∧ Full P r) P r Lsym (· = r.device) :=
  .memo_in hP (by simp [key, vars]) <| .bind' (tr_LHGNN hP) fun l hl => .bind' .here' fun h hh =>
    .joined' (fun _ => ⟨by simp, by simp [hl, hh]⟩) (by simp [hh])

theorem tr_LsymG (g : String) : Tr (g ∈ r.groups ∧ Full P r) P r (LsymG g) (· = r.device) :=
  .bind' (tr_need g And.left) fun _ hg => .memo_in hP (by simp [key, vars, hg]) <|
    .bind' (tr_LHGNNG hP g) fun l hl => .bind' .here' fun h hh =>
      .joined' (fun _ => ⟨by simp, by simp [hl, hh]⟩) (by simp [hh])

theorem tr_Lrw : Tr (r.groups ≠ [] ∧ Full P r) P r Lrw (· = r.device) :=
  .memo_in hP (by simp [key, vars]) <|
    .bind' (tr_DvNeg1 hP) fun a ha => .bind' (tr_H hP) fun b hb =>
    .bind' ((tr_We hP).weaken And.left fun _ h => h) fun c hc =>
    .bind' ((tr_DeNeg1 hP).weaken And.left fun _ h => h) fun d hd => .bind' (tr_HT hP) fun e he =>
    .bind' (.joined' (Q := (· = r.device)) (fun _ => ⟨by simp, by simp [ha, hb, hc, hd, he]⟩) (by simp [ha])) fun l hl =>
    .bind' .here' fun h hh => .joined' (fun _ => ⟨by simp, by simp [hl, hh]⟩) (by simp [hh])

theorem tr_LrwG (g : String) : Tr (g ∈ r.groups ∧ Full P r) P r (LrwG g) (· = r.device) :=
  .bind' (tr_need g And.left) fun _ hg => .memo_in hP (by simp [key, vars, hg]) <|
    .bind' (tr_DvNeg1G hP g) fun a ha => .bind' ((tr_HG hP g).weaken And.left fun _ h => h) fun b hb =>
    .bind' ((tr_WeG hP g).weaken And.left fun _ h => h) fun c hc =>
    .bind' ((tr_DeNeg1G hP g).weaken And.left fun _ h => h) fun d hd =>
    .bind' ((tr_HTG hP g).weaken And.left fun _ h => h) fun e he =>
    .bind' (.joined' (Q := (· = r.device)) (fun hF => ⟨by simp, by simp [ha, hb hF.2, hc, hd, he hF.2]⟩) (by simp [ha]))
      fun l hl => .bind' .here' fun h hh => .joined' (fun _ => ⟨by simp, by simp [hl, hh]⟩) (by simp [hh])

theorem tr_smooth (x : Dev) : Tr (r.groups ≠ [] ∧ Full P r) P r (smoothHGNN x) (· = r.device) :=
  .bind' .here' fun x' hx => .bind' (tr_LHGNN hP) fun l hl =>
    .joined' (fun _ => ⟨by simp, by simp [hl, hx]⟩) (by simp [hl])

theorem tr_smoothG (g : String) (x : Dev) : Tr (g ∈ r.groups ∧ Full P r) P r (smoothHGNNG g x) (· = r.device) :=
  .bind' (tr_need g And.left) fun _ _ => .bind' .here' fun x' hx => .bind' (tr_LHGNNG hP g) fun l hl =>
    .joined' (fun _ => ⟨by simp, by simp [hl, hx]⟩) (by simp [hl])

omit hP in
theorem tr_joinX {F : Prop} {m : PyM St Dev} (hm : Tr F P r m (· = r.device)) {x : Dev} (hx : F → x = r.device) :
    Tr F P r (do let p ← m; joined [p, x]) (· = r.device) :=
  .bind' hm fun p hp => .joined' (fun hF => ⟨by simp, by simp [hp, hx hF]⟩) (by simp [hp])

omit hP in
theorem tr_joinXX {F : Prop} {m n : PyM St Dev} (hm : Tr F P r m (· = r.device)) (hn : Tr F P r n (· = r.device))
    {x : Dev} (hx : F → x = r.device) :
    Tr F P r (do let p ← m; let y ← joined [p, x]; let d ← n; joined [d, y]) (· = r.device) :=
  .bind' hm fun p hp => .bind' (.joined' (Q := (· = r.device)) (fun hF => ⟨by simp, by simp [hp, hx hF]⟩) (by simp [hp]))
    fun y hy => .bind' hn fun d hd => .joined' (fun hF => ⟨by simp, by simp [hd, hy]⟩) (by simp [hd])

omit hP in
theorem tr_joinW {F : Prop} {m : PyM St Dev} (hm : Tr F P r m (· = r.device)) {x : Dev} (hx : F → x = r.device) :
    Tr F P r (do let _ ← m; let p ← here; joined [p, x]) (· = r.device) :=
  .bind' hm fun _ _ => .bind' .here' fun p hp => .joined' (fun hF => ⟨by simp, by simp [hp, hx hF]⟩) (by simp [hp])

omit hP in
/-- nothing to do if the tensor is on the device of the hypergraph -/
theorem tr_follow {F : Prop} {x : Dev} (hx : x = r.device) : Tr F P r (follow x) (fun _ => True) :=
  .bind' .here' fun h hh => by
    rw [if_pos (by rw [hh, hx])]
    exact .pure' trivial

theorem tr_v2eAggr {x : Dev} (hx : x = r.device) (aggr : Aggr) (w : Option Dev) :
    Tr ((r.groups ≠ [] ∧ Full P r) ∧ aggr ≠ .other) P r (v2eAggr x aggr w) (· = r.device) := by
  have go : ∀ {m : PyM St Dev}, Tr (r.groups ≠ [] ∧ Full P r) P r m (· = r.device) →
      Tr ((r.groups ≠ [] ∧ Full P r) ∧ aggr ≠ .other) P r (do follow x; m) (· = r.device) :=
    fun h => .bind' (tr_follow hx) fun _ _ => h.weaken And.left fun _ h => h
  have h1 := go (tr_joinXX (tr_HT hP) ((tr_DeNeg1 hP).weaken And.left fun _ h => h) (fun _ => hx))
  have h2 := go (tr_joinX (tr_HT hP) (fun _ => hx))
  have h3 := go (tr_joinW (tr_HT hP) (fun _ => hx))
  cases aggr <;> cases w
  · exact h1
  · exact h3
  · exact h2
  · exact h3
  · exact h2
  · exact h3
  · exact .raise' (fun h => h.2 rfl) _
  · exact .raise' (fun h => h.2 rfl) _

theorem tr_e2vAggr {x : Dev} (hx : x = r.device) (aggr : Aggr) (w : Option Dev) :
    Tr ((r.groups ≠ [] ∧ Full P r) ∧ aggr ≠ .other) P r (e2vAggr x aggr w) (· = r.device) := by
  have go : ∀ {m : PyM St Dev}, Tr (r.groups ≠ [] ∧ Full P r) P r m (· = r.device) →
      Tr ((r.groups ≠ [] ∧ Full P r) ∧ aggr ≠ .other) P r (do follow x; m) (· = r.device) :=
    fun h => .bind' (tr_follow hx) fun _ _ => h.weaken And.left fun _ h => h
  have h1 := go (tr_joinXX (tr_H hP) (tr_DvNeg1 hP) (fun _ => hx))
  have h2 := go (tr_joinX (tr_H hP) (fun _ => hx))
  have h3 := go (tr_joinW (tr_H hP) (fun _ => hx))
  cases aggr <;> cases w
  · exact h1
  · exact h3
  · exact h2
  · exact h3
  · exact h2
  · exact h3
  · exact .raise' (fun h => h.2 rfl) _
  · exact .raise' (fun h => h.2 rfl) _

theorem tr_v2eUpdate {x : Dev} (hx : x = r.device) (ew : Option Dev) :
    Tr (r.groups ≠ [] ∧ ∀ w, ew = some w → w = r.device) P r (v2eUpdate x ew) (· = r.device) := by
  refine .bind' (tr_follow hx) fun _ _ => ?_
  cases ew with
  | none => exact tr_joinX ((tr_We hP).weaken And.left fun _ h => h) (fun _ => hx)
  | some w =>
    show Tr _ P r (if [x].all (· == w) then pure w else PyM.raise .runtime) _
    split
    · rename_i h
      have h : x = w := by simpa using h
      exact .pure' (h ▸ hx)
    · rename_i h
      exact .raise' (fun hF => h (by simp [hx, hF.2 w rfl])) _

theorem tr_v2e {x : Dev} (hx : x = r.device) (aggr : Aggr) (w ew : Option Dev) :
    Tr (((r.groups ≠ [] ∧ Full P r) ∧ aggr ≠ .other) ∧ ∀ w, ew = some w → w = r.device) P r (v2e x aggr w ew)
      (· = r.device) :=
  .bind' ((tr_v2eAggr hP hx aggr w).weaken And.left fun _ h => h) fun _ hy =>
    (tr_v2eUpdate hP hy ew).weaken (fun h => ⟨h.1.1.1, h.2⟩) fun _ h => h

theorem tr_e2v {x : Dev} (hx : x = r.device) (aggr : Aggr) (w : Option Dev) :
    Tr ((r.groups ≠ [] ∧ Full P r) ∧ aggr ≠ .other) P r (e2v x aggr w) (· = r.device) :=
  .bind' (tr_e2vAggr hP hx aggr w) fun _ hy => .bind' (tr_follow hy) fun _ _ => .pure' hy

theorem tr_v2v {x : Dev} (hx : x = r.device) (aggr : Aggr) (w ew w' : Option Dev) :
    Tr (((r.groups ≠ [] ∧ Full P r) ∧ aggr ≠ .other) ∧ ∀ w, ew = some w → w = r.device) P r (v2v x aggr w ew w')
      (· = r.device) :=
  .bind' (tr_v2e hP hx aggr w ew) fun _ hy => (tr_e2v hP hy aggr w').weaken And.left fun _ h => h

/-- the tensors handed in are on the device of the hypergraph -/
def Arg (d : Dev) : Q → Prop
  | .v2e x _ _ _ => x = d
  | .e2v x _ _ => x = d
  | .v2v x _ _ _ _ => x = d
  | _ => True

/-- all reads -/
theorem tr_read {q : Q} (hq : Arg r.device q) :
    Tr (Full P r ∧ Spec.HyperOk r.device r.groups q ∨ Spec.HyperEdgeTensor r.groups q) P r (read q)
      (fun d => Full P r ∨ Spec.HyperChecked q → d = r.device) := by
  have a : ∀ {F F' C : Prop} {m : PyM St Dev}, Tr F P r m (· = r.device) → (F' → F) →
      Tr F' P r m (fun d => C → d = r.device) := fun h hF => h.weaken hF fun _ h _ => h
  have b : ∀ {F F' C : Prop} {m : PyM St Dev}, Tr F P r m (fun d => Full P r → d = r.device) → (F' → F) → ¬ C →
      Tr F' P r m (fun d => Full P r ∨ C → d = r.device) :=
    fun h hF hC => h.weaken hF fun _ h h' => h'.elim h fun h' => absurd h' hC
  have e : ∀ {G : Prop}, Full P r ∧ G ∨ False → G ∧ Full P r := fun h => h.elim And.symm False.elim
  have e' : ∀ {G : Prop}, Full P r ∧ G ∨ G → G := fun h => h.elim And.right id
  have e'' : ∀ {G : Prop}, Full P r ∧ G ∨ False → G := fun h => (e h).1
  cases q with
  | H => exact a (tr_H hP) e
  | HT => exact a (tr_HT hP) e
  | Wv => exact a (tr_Wv hP) fun _ => trivial
  | We => exact a (tr_We hP) e'
  | Dv => exact a (tr_Dv hP) e
  | DvNeg1 => exact a (tr_DvNeg1 hP) e
  | DvNeg12 => exact a (tr_DvNeg12 hP) e
  | De => exact a (tr_De hP) e'
  | DeNeg1 => exact a (tr_DeNeg1 hP) e'
  | Lsym => exact a (tr_Lsym hP) e
  | Lrw => exact a (tr_Lrw hP) e
  | LHGNN => exact a (tr_LHGNN hP) e
  | v2eVec => exact a (tr_HT hP) e
  | e2vVec => exact a (tr_H hP) e
  | Hv2e => exact b (tr_Hv2e hP) e id
  | He2v => exact b (tr_He2v hP) e id
  | Ne => exact b (tr_Ne hP) e id
  | HG g => exact b (tr_HG hP g) e'' id
  | HTG g => exact b (tr_HTG hP g) e'' id
  | WeG g => exact a (tr_WeG hP g) e'
  | DvG g => exact a (tr_DvG hP g) e
  | DvNeg1G g => exact a (tr_DvNeg1G hP g) e
  | DvNeg12G g => exact a (tr_DvNeg12G hP g) e
  | DeG g => exact a (tr_DeG hP g) e'
  | DeNeg1G g => exact a (tr_DeNeg1G hP g) e'
  | LsymG g => exact a (tr_LsymG hP g) e
  | LrwG g => exact a (tr_LrwG hP g) e
  | LHGNNG g => exact a (tr_LHGNNG hP g) e
  | Hv2eG g => exact b (tr_Hv2eG hP g) e'' id
  | He2vG g => exact b (tr_He2vG hP g) e'' id
  | smoothHGNN x => exact a (tr_smooth hP x) e
  | smoothHGNNG g x => exact a (tr_smoothG hP g x) e
  | v2e x aggr w ew =>
    exact a (tr_v2e hP hq aggr w ew) fun h => h.elim (fun h => ⟨⟨⟨h.2.1, h.1⟩, h.2.2.2.1⟩, h.2.2.2.2⟩) False.elim
  | e2v x aggr w => exact a (tr_e2v hP hq aggr w) fun h => h.elim (fun h => ⟨⟨h.2.1, h.1⟩, h.2.2.2⟩) False.elim
  | v2v x aggr w ew w' =>
    exact a (tr_v2v hP hq aggr w ew w') fun h => h.elim (fun h => ⟨⟨⟨h.2.1, h.1⟩, h.2.2.2.1⟩, h.2.2.2.2⟩) False.elim
omit hP

/-! preservation when the device changes -/

theorem mem_keys {gs : List String} {k : Option String × String} :
    k ∈ (vars.flatMap fun v => (none, v) :: gs.map fun g => (some g, v)) ↔
      k.2 ∈ vars ∧ ∀ g, k.1 = some g → g ∈ gs := by
  obtain ⟨o, v⟩ := k
  rw [List.mem_flatMap]
  constructor
  · rintro ⟨v', hv', h⟩
    rcases List.mem_cons.mp h with h | h
    · cases h
      exact ⟨hv', by simp⟩
    · obtain ⟨g, hg, h⟩ := List.mem_map.mp h
      cases h
      refine ⟨hv', fun g' hg' => ?_⟩
      cases hg'
      exact hg
  · rintro ⟨h1, h2⟩
    refine ⟨v, h1, ?_⟩
    cases o with
    | none => simp
    | some g => simp [h2 g rfl]

theorem good_to {s : St} (d : Dev) : Good key (moveTo d s).2 := by
  refine good_move (P := key) (s := s) (r := { s.raw with device := d }) (fun k h => mem_keys.mpr ?_) rfl
  obtain ⟨o, v⟩ := k
  cases o with
  | none => exact ⟨h, by simp⟩
  | some g =>
    refine ⟨h.2.1, fun g' hg' => ?_⟩
    cases hg'
    exact h.1

theorem follow_spec (x : Dev) : Follows key x (follow x) :=
  .mk' (fun _ => rfl) (fun _ _ => good_to x) (fun _ => rfl)

/-- after a call that may move the hypergraph -/
def Pres {α : Type} (m : PyM St α) : Prop := ∀ s, Good key s → Good key (m s).2

theorem pres_tr {α : Type} {F : Raw → Prop} {Q : Raw → α → Prop} {m : PyM St α} (h : ∀ r, Tr (F r) key r m (Q r)) : Pres m :=
  fun s hg => (h s.raw s rfl hg).2.1

theorem pres_bind {α β : Type} {m : PyM St α} {f : α → PyM St β} (hm : Pres m) (hf : ∀ a, Pres (f a)) :
    Pres (m >>= f) := by
  intro s hg
  have := hm s hg
  rw [PyM.bind_apply]
  rcases hms : m s with ⟨_ | a, s'⟩ <;> rw [hms] at this
  · exact this
  · exact hf a s' this

theorem pres_follow (x : Dev) : Pres (follow x) := fun s hg => (follow_spec x s hg).2.1

theorem pres_pure {α : Type} (a : α) : Pres (pure a) := fun _ hg => hg
theorem pres_raise {α : Type} (e : Err) : Pres (PyM.raise e : PyM St α) := fun _ hg => hg

theorem pres_joined (ds : List Dev) : Pres (joined ds) :=
  fun s hg => (Sf.joined_any (P := key) (r := s.raw) s rfl hg).2.1

theorem pres_v2eAggr (x : Dev) (aggr : Aggr) (w : Option Dev) : Pres (v2eAggr x aggr w) := by
  have h1 : Pres HT := pres_tr fun r => tr_HT ok_key
  have h2 : Pres DeNeg1 := pres_tr fun r => tr_DeNeg1 ok_key
  have h3 : Pres here := pres_tr fun r => Tr.here' (F := True)
  have a1 : Pres (do let p ← HT; let y ← joined [p, x]; let d ← DeNeg1; joined [d, y]) :=
    pres_bind h1 fun _ => pres_bind (pres_joined _) fun _ => pres_bind h2 fun _ => pres_joined _
  have a2 : Pres (do let p ← HT; joined [p, x]) := pres_bind h1 fun _ => pres_joined _
  have a3 : Pres (do let _ ← HT; let p ← here; joined [p, x]) :=
    pres_bind h1 fun _ => pres_bind h3 fun _ => pres_joined _
  cases aggr <;> cases w
  · exact pres_bind (pres_follow x) fun _ => a1
  · exact pres_bind (pres_follow x) fun _ => a3
  · exact pres_bind (pres_follow x) fun _ => a2
  · exact pres_bind (pres_follow x) fun _ => a3
  · exact pres_bind (pres_follow x) fun _ => a2
  · exact pres_bind (pres_follow x) fun _ => a3
  · exact pres_raise _
  · exact pres_raise _

theorem pres_e2vAggr (x : Dev) (aggr : Aggr) (w : Option Dev) : Pres (e2vAggr x aggr w) := by
  have h1 : Pres H := pres_tr fun r => tr_H ok_key
  have h2 : Pres DvNeg1 := pres_tr fun r => tr_DvNeg1 ok_key
  have h3 : Pres here := pres_tr fun r => Tr.here' (F := True)
  have a1 : Pres (do let p ← H; let y ← joined [p, x]; let d ← DvNeg1; joined [d, y]) :=
    pres_bind h1 fun _ => pres_bind (pres_joined _) fun _ => pres_bind h2 fun _ => pres_joined _
  have a2 : Pres (do let p ← H; joined [p, x]) := pres_bind h1 fun _ => pres_joined _
  have a3 : Pres (do let _ ← H; let p ← here; joined [p, x]) :=
    pres_bind h1 fun _ => pres_bind h3 fun _ => pres_joined _
  cases aggr <;> cases w
  · exact pres_bind (pres_follow x) fun _ => a1
  · exact pres_bind (pres_follow x) fun _ => a3
  · exact pres_bind (pres_follow x) fun _ => a2
  · exact pres_bind (pres_follow x) fun _ => a3
  · exact pres_bind (pres_follow x) fun _ => a2
  · exact pres_bind (pres_follow x) fun _ => a3
  · exact pres_raise _
  · exact pres_raise _

theorem pres_v2e (x : Dev) (aggr : Aggr) (w ew : Option Dev) : Pres (v2e x aggr w ew) := by
  refine pres_bind (pres_v2eAggr x aggr w) fun y => pres_bind (pres_follow y) fun _ => ?_
  cases ew with
  | none => exact pres_bind (pres_tr fun r => tr_We ok_key) fun _ => pres_joined _
  | some w => exact pres_joined _

theorem pres_e2v (x : Dev) (aggr : Aggr) (w : Option Dev) : Pres (e2v x aggr w) :=
  pres_bind (pres_e2vAggr x aggr w) fun y => pres_bind (pres_follow y) fun _ => pres_pure y

theorem pres_read (q : Q) : Pres (read q) := by
  by_cases h : ∀ d, Arg d q
  · exact fun s hg => (tr_read ok_key (h s.raw.device) s rfl hg).2.1
  · cases q with
    | v2e x aggr w ew => exact pres_v2e x aggr w ew
    | e2v x aggr w => exact pres_e2v x aggr w
    | v2v x aggr w ew w' => exact pres_bind (pres_v2e x aggr w ew) fun y => pres_e2v y aggr w'
    | _ => exact absurd (fun _ => trivial) h

theorem get?_filter {κ ν : Type} [DecidableEq κ] (c : Dict κ ν) (f : κ → Bool) (k : κ) :
    Dict.get? (c.filter fun e => f e.1) k = if f k then c.get? k else none := by
  induction c with
  | nil => simp
  | cons e c ih =>
    obtain ⟨k', v⟩ := e
    by_cases hf : f k' = true
    · rw [List.filter_cons_of_pos (by simpa using hf)]
      simp only [Dict.get?]
      by_cases hk : k' = k
      · subst hk
        simp [hf]
      · simp [hk, ih]
    · rw [List.filter_cons_of_neg (by simpa using hf), ih]
      by_cases hk : k' = k
      · subst hk
        simp [hf]
      · simp [Dict.get?, hk]

theorem good_clear {P : KeyPred} {s : St} {g : String} {r : Raw} (hg : Good P s) (hd : r.device = s.raw.device)
    (h : ∀ g' k, g' ≠ g → P r (some g', k) → P s.raw (some g', k)) :
    Good P ((clearCache (some g) { s with raw := r }).2) := by
  intro k d hp hk
  have hk : Dict.get? (s.cache.filter fun e => e.1.1 != none && e.1.1 != some g) k = some d := hk
  rw [get?_filter s.cache (fun k : Option String × String => k.1 != none && k.1 != some g)] at hk
  obtain ⟨o, v⟩ := k
  split at hk
  · rename_i hc
    cases o with
    | none => simp at hc
    | some g' =>
      have := hg _ d (h g' v (by simpa using hc) hp) hk
      exact this.trans hd.symm
  · cases hk

theorem good_step {s : St} (hg : Good key s) (c : Cmd) : Good key (step c s) := by
  cases c with
  | read q => exact pres_read q s hg
  | add g =>
    refine good_clear hg rfl fun g' k hne h => ⟨?_, h.2⟩
    have h1 : g' ∈ (if s.raw.groups.contains g then s.raw.groups else s.raw.groups ++ [g]) := h.1
    split at h1
    · exact h1
    · simpa [hne] using h1
  | remove g =>
    cases g with
    | none => exact good_fresh _
    | some g => exact good_clear (r := s.raw) hg rfl fun _ _ _ h => h
  | removeGroup g => exact good_clear hg rfl fun g' k hne h => ⟨(List.mem_filter.mp h.1).1, h.2⟩
  | clear => exact good_fresh _
  | move d => exact good_to d

theorem good_history (d : Dev) (e : Bool) (gs : List String) (cs : List Cmd) :
    Good key (Spec.History step d e gs cs) := good_cmds (fun _ c h => good_step h c) d e gs cs

/-! no tensor is read before the move -/

/-- every cached tensor is on the device -/
abbrev All : KeyPred := fun _ _ => True

theorem quiet_step {s : St} (hs : s.cache = []) {c : Cmd} (hc : Spec.HyperQuiet c) : (step c s).cache = [] := by
  cases c with
  | read q => exact hc.elim
  | add g => show List.filter _ s.cache = []; rw [hs]; rfl
  | remove g =>
    cases g with
    | none => rfl
    | some g => show List.filter _ s.cache = []; rw [hs]; rfl
  | removeGroup g => show List.filter _ s.cache = []; rw [hs]; rfl
  | clear => rfl
  | move d =>
    show List.foldl (moveKey d) s.cache _ = []
    rw [hs]
    generalize (vars.flatMap fun v => (none, v) :: s.raw.groups.map fun g => (some g, v)) = ks
    induction ks with
    | nil => rfl
    | cons k ks ih => exact ih

theorem quiet_history (d : Dev) (e : Bool) (gs : List String) {cs : List Cmd} (h : ∀ c ∈ cs, Spec.HyperQuiet c) :
    (Spec.History step d e gs cs).cache = [] := by
  unfold Spec.History
  have : ∀ s : St, s.cache = [] → (cs.foldl (fun s c => step c s) s).cache = [] := by
    induction cs with
    | nil => exact fun s h => h
    | cons c cs ih =>
      exact fun s hs => ih (fun c hc => h c (by simp [hc])) _ (quiet_step hs (h c (by simp)))
  exact this _ rfl

theorem stays_step {s : St} {d : Dev} (hg : Good All s) (hd : s.raw.device = d) {c : Cmd} (hc : Spec.HyperStays d c) :
    Good All (step c s) ∧ (step c s).raw.device = d := by
  cases c with
  | read q =>
    have ha : Arg s.raw.device q := by
      rw [hd]
      cases q <;> first | exact trivial | exact hc
    obtain ⟨-, h2, h3, -⟩ := tr_read ok_true ha s rfl hg
    refine ⟨h2, ?_⟩
    show ((read q s).2).raw.device = d
    rw [h3, hd]
  | add g => exact ⟨good_clear hg rfl fun _ _ _ _ => trivial, hd⟩
  | remove g =>
    cases g with
    | none => exact ⟨good_fresh _, hd⟩
    | some g => exact ⟨good_clear (r := s.raw) hg rfl fun _ _ _ h => h, hd⟩
  | removeGroup g => exact ⟨good_clear hg rfl fun _ _ _ _ => trivial, hd⟩
  | clear => exact ⟨good_fresh _, hd⟩
  | move d' =>
    have hc : d' = d := hc
    subst hc
    refine ⟨fun k x _ hx => ?_, rfl⟩
    have hx : Dict.get? ((vars.flatMap fun v => (none, v) :: s.raw.groups.map fun g => (some g, v)).foldl
      (moveKey d') s.cache) k = some x := hx
    rw [get?_moveKeys] at hx
    split at hx
    · cases hx; rfl
    · exact (hg k x trivial hx).trans hd

theorem stays_history {s : St} {d : Dev} (hg : Good All s) (hd : s.raw.device = d) {cs : List Cmd}
    (hc : ∀ c ∈ cs, Spec.HyperStays d c) :
    Good All (cs.foldl (fun s c => step c s) s) ∧ (cs.foldl (fun s c => step c s) s).raw.device = d := by
  induction cs generalizing s with
  | nil => exact ⟨hg, hd⟩
  | cons c cs ih =>
    obtain ⟨h1, h2⟩ := stays_step hg hd (hc c (by simp))
    exact ih h1 h2 fun c h => hc c (by simp [h])

end Hypergraph

end Device

/-! ## C67 -/

section Graphs

open Device.Graph

/-- C67, `Graph`: whatever was read, changed and moved before, every tensor of a graph is on the device of the graph. -/
theorem C67_graph_on_device (d₀ : Dev) (e : Bool) (cs : List Cmd) {q : Q} (hq : Spec.GraphTensor q) :
    let g := Spec.History step d₀ e [] cs
    (read q g).1 = .ok g.raw.device := by
  intro g
  obtain ⟨a, h1, h2, -⟩ := tensor_tot hq _ rfl (good_history d₀ e [] cs)
  rw [h1, h2]

/-- C67, `Graph`: in particular after `to(d)` all of them are on `d`. -/
theorem C67_graph_to (d₀ d : Dev) (e : Bool) (cs : List Cmd) {q : Q} (hq : Spec.GraphTensor q) :
    (read q (step (.move d) (Spec.History step d₀ e [] cs))).1 = .ok d := by
  have := C67_graph_on_device d₀ e (cs ++ [.move d]) hq
  simpa [Spec.History, List.foldl_append, step, moveTo, toGraph, PyM.modify] using this

/-- C67, `Graph`: message passing and smoothing accept features on any device; the result is on the device of the
features, and so is the graph afterwards. -/
theorem C67_graph_messages (d₀ : Dev) (e : Bool) (cs : List Cmd) (x : Dev) :
    let g := Spec.History step d₀ e [] cs
    (∀ {aggr : Aggr} {ew : Option Dev}, Spec.GraphAggr aggr ew →
      (read (.v2v x aggr ew) g).1 = .ok x ∧ (read (.v2v x aggr ew) g).2.raw.device = x) ∧
    (read (.smoothGCN x) g).1 = .ok x ∧ (read (.smoothGCN x) g).2.raw.device = x := by
  intro g
  have hg := good_history d₀ e [] cs
  refine ⟨fun ha => ?_, ?_⟩
  · obtain ⟨h1, -, h3⟩ := v2v_tot (x := x) hg ha
    refine ⟨h1, ?_⟩
    rw [show (read (.v2v x _ _) g).2.raw = _ from h3]
  · obtain ⟨a, h1, rfl, -, h3⟩ := (follow_spec x).tot hg (tot_smooth rfl)
    refine ⟨h1, ?_⟩
    rw [show (read (.smoothGCN _) g).2.raw = _ from h3]

/-- C67 fails for the neighbours of a `Graph` within two steps: the power of the adjacency matrix is cached under
a name that `to` does not move, so after a first call on the CPU and `to(1)` the answer is still on the CPU. -/
theorem C67_graph_hops_false :
    (read (.Nv 2) (Spec.History step 0 false [] [.read (.Nv 2), .move 1])).1 = .ok 0 := by
  decide +kernel

example : Spec.GraphTensor .Lsym ∧ Spec.GraphAggr .softmax (some 1) ∧ Spec.GraphAggr .mean none :=
  ⟨trivial, ⟨by simp, by simp⟩, ⟨by simp, by simp⟩⟩

example : (read .LGCN (Spec.History step 0 false [] [.read .A, .read .LGCN, .edit false, .read .Dv, .move 3])).1 = .ok 3 := by
  decide +kernel

end Graphs

section DiGraphs

open Device.DiGraph

/-- C67, `DiGraph`: the tensors of a graph with edges are on its device; the degree matrices always are.
Missing: the adjacency matrices of a graph without edges (`C67_digraph_edgeless_false`). -/
theorem C67_digraph_on_device_partial (d₀ : Dev) (e : Bool) (cs : List Cmd) {q : Q} (hq : Spec.DiGraphTensor q) :
    let g := Spec.History step d₀ e [] cs
    (g.raw.empty = false ∨ Spec.DiGraphDegree q) → (read q g).1 = .ok g.raw.device := by
  intro g h
  obtain ⟨a, h1, h2, -⟩ := tensor_tot hq _ rfl (good_history d₀ e [] cs)
  rw [h1, h2 h]

/-- C67, `DiGraph`: message passing in either direction accepts features on any device.
Missing: graphs without edges (`C67_digraph_edgeless_false`). -/
theorem C67_digraph_messages_partial (d₀ : Dev) (e : Bool) (cs : List Cmd) (x : Dev) {aggr : Aggr} (ew : Option Dev)
    (src2dst : Bool) (ha : aggr ≠ .other) :
    let g := Spec.History step d₀ e [] cs
    g.raw.empty = false →
      (read (.v2v x aggr ew src2dst) g).1 = .ok x ∧ (read (.v2v x aggr ew src2dst) g).2.raw.device = x := by
  intro g h
  obtain ⟨h1, -, h3⟩ := v2v_tot (x := x) (ew := ew) (b := src2dst) (good_history d₀ e [] cs) ha h
  refine ⟨h1, ?_⟩
  rw [show (read (.v2v x _ _ _) g).2.raw = _ from h3]

/-- C67 fails for a `DiGraph` without edges: its adjacency matrix is made on the CPU whatever its device, so message
passing on device 1 raises. -/
theorem C67_digraph_edgeless_false :
    (read .A (Spec.History step 1 true [] [])).1 = .ok cpu ∧
    (read (.v2v 1 .sum none false) (Spec.History step 1 true [] [])).1 = .error .runtime := by
  decide +kernel

example : (Spec.History step 0 false [] [.read .AT, .move 2]).raw.empty = false := by decide +kernel

end DiGraphs

section BiGraphs

open Device.BiGraph

/-- C67, `BiGraph`: the tensors of a graph with edges are on its device.  Missing: the GCN Laplacian
(`C67_bigraph_laplacian_false`) and graphs without edges (`C67_bigraph_edgeless_false`). -/
theorem C67_bigraph_on_device_partial (d₀ : Dev) (e : Bool) (cs : List Cmd) {q : Q} (hq : Spec.BiGraphTensor q) :
    let g := Spec.History step d₀ e [] cs
    g.raw.empty = false → (read q g).1 = .ok g.raw.device := by
  intro g h
  obtain ⟨a, h1, h2, -⟩ := tensor_tot hq h _ rfl (good_history d₀ e [] cs)
  rw [h1, h2]

/-- C67, `BiGraph`: message passing in either direction accepts features on any device.
Missing: graphs without edges (`C67_bigraph_edgeless_false`) and smoothing (`C67_bigraph_smoothing_false`). -/
theorem C67_bigraph_messages_partial (d₀ : Dev) (e : Bool) (cs : List Cmd) (x : Dev) {aggr : Aggr} (ew : Option Dev)
    (ha : aggr ≠ .other) :
    let g := Spec.History step d₀ e [] cs
    g.raw.empty = false →
      (read (.u2v x aggr ew) g).1 = .ok x ∧ (read (.u2v x aggr ew) g).2.raw.device = x ∧
      (read (.v2u x aggr ew) g).1 = .ok x ∧ (read (.v2u x aggr ew) g).2.raw.device = x := by
  intro g h
  obtain ⟨h1, -, h3⟩ := u2v_tot (x := x) (ew := ew) (good_history d₀ e [] cs) ha h
  obtain ⟨h1', -, h3'⟩ := v2u_tot (x := x) (ew := ew) (good_history d₀ e [] cs) ha h
  refine ⟨h1, ?_, h1', ?_⟩
  · rw [show (read (.u2v x _ _) g).2.raw = _ from h3]
  · rw [show (read (.v2u x _ _) g).2.raw = _ from h3']

/-- C67 fails for the GCN Laplacian of a `BiGraph`: `to` forgets it, so smoothing after a move raises. -/
theorem C67_bigraph_laplacian_false :
    (read .LGCN (Spec.History step 0 false [] [.read .LGCN, .move 1])).1 = .ok 0 ∧
    (read (.smoothGCN 1) (Spec.History step 0 false [] [.read .LGCN, .move 1])).1 = .error .runtime := by
  decide +kernel

/-- C67 fails for smoothing on a `BiGraph`: the features are moved to the graph, not the graph to the features. -/
theorem C67_bigraph_smoothing_false : (read (.smoothGCN 1) (Spec.History step 0 false [] [])).1 = .ok 0 := by
  decide +kernel

/-- C67 fails for a `BiGraph` without edges: `B` is made on the CPU, and `A` cannot be read on another device. -/
theorem C67_bigraph_edgeless_false :
    (read .B (Spec.History step 1 true [] [])).1 = .ok cpu ∧
    (read .A (Spec.History step 1 true [] [])).1 = .error .runtime := by
  decide +kernel

example : (Spec.History step 0 false [] [.read .A, .move 2, .read .LGCN]).raw.empty = false := by decide +kernel

end BiGraphs

section Hypergraphs

open Device.Hypergraph

/-- C67, `Hypergraph`: the weight and hyperedge degree tensors are on the device of the hypergraph in every history. -/
theorem C67_hypergraph_edges_on_device (d₀ : Dev) (e : Bool) (gs : List String) (cs : List Cmd) {q : Q} :
    let g := Spec.History step d₀ e gs cs
    Spec.HyperEdgeTensor g.raw.groups q → (read q g).1 = .ok g.raw.device := by
  intro g hq
  have ha : Arg g.raw.device q := by cases q <;> first | exact trivial | exact hq.elim
  obtain ⟨h1, -, -, h4⟩ := tr_read ok_key ha g rfl (good_history d₀ e gs cs)
  obtain ⟨a, h⟩ := h4 (Or.inr hq)
  have hc : Spec.HyperChecked q := by cases q <;> first | exact trivial | exact hq.elim
  rw [h, h1 a h (Or.inr hc)]

/-- C67, `Hypergraph`: in every history the matrices of the whole hypergraph, and the degrees and Laplacians of its
groups, are never given on another device: the answer is on the device of the hypergraph or an exception is raised.
Missing: that no exception is raised (`C67_hypergraph_move_false`) and the incidence matrices of groups
(`C67_hypergraph_group_false`). -/
theorem C67_hypergraph_never_elsewhere_partial (d₀ : Dev) (e : Bool) (gs : List String) (cs : List Cmd) {q : Q}
    (hq : Spec.HyperChecked q) {a : Dev} :
    let g := Spec.History step d₀ e gs cs
    (read q g).1 = .ok a → a = g.raw.device := by
  intro g h
  have ha : Arg g.raw.device q := by cases q <;> first | exact trivial | exact hq.elim
  exact (tr_read ok_key ha g rfl (good_history d₀ e gs cs)).1 a h (Or.inr hq)

/-- C67, `Hypergraph`: if nothing is read before the hypergraph is moved to `d`, and it stays there, every tensor can be
read and is on `d`; message passing of features on `d` gives a result on `d`.
Missing: hypergraphs that were read before the move (`C67_hypergraph_move_false`). -/
theorem C67_hypergraph_moved_first_partial (d₀ d : Dev) (e : Bool) (gs : List String) (cs cs' : List Cmd)
    (hcs : ∀ c ∈ cs, Spec.HyperQuiet c) (hcs' : ∀ c ∈ cs', Spec.HyperStays d c) {q : Q} :
    let g := Spec.History step d₀ e gs (cs ++ .move d :: cs')
    Spec.HyperOk d g.raw.groups q → (read q g).1 = .ok d := by
  intro g hq
  obtain ⟨hg, hd⟩ : Good All g ∧ g.raw.device = d := by
    have h0 : (step (.move d) (Spec.History step d₀ e gs cs)).cache = [] := by
      exact quiet_step (quiet_history d₀ e gs hcs) trivial
    have : g = cs'.foldl (fun s c => step c s) (step (.move d) (Spec.History step d₀ e gs cs)) := by
      simp only [g, Spec.History, List.foldl_append, List.foldl_cons]
    rw [this]
    refine stays_history (fun k x _ hx => ?_) rfl hcs'
    rw [h0] at hx
    simp at hx
  have ha : Arg g.raw.device q := by
    rw [hd]
    cases q <;> first | exact trivial | exact hq.2.1
  obtain ⟨h1, -, -, h4⟩ := tr_read ok_true ha g rfl hg
  obtain ⟨a, h⟩ := h4 (Or.inl ⟨fun _ => trivial, by rw [hd]; exact hq⟩)
  rw [h, h1 a h (Or.inl fun _ => trivial), hd]

/-- C67 fails for a `Hypergraph` that was used before it is moved: after reading `H` on the CPU and `to(1)`, the vertex
degrees and the HGNN Laplacian cannot be read. -/
theorem C67_hypergraph_move_false :
    let g := Spec.History step 0 false ["main"] [.read .H, .move 1]
    (read .Dv g).1 = .error .runtime ∧ (read .LHGNN g).1 = .error .runtime ∧
    (read (.v2v 1 .mean none none none) g).1 = .error .runtime := by
  decide +kernel

/-- C67 fails for the incidence matrix of one group: after reading `H` on the CPU and `to(1)` it is still on the CPU. -/
theorem C67_hypergraph_group_false :
    (read (.HG "main") (Spec.History step 0 false ["main"] [.read .H, .move 1])).1 = .ok 0 := by
  decide +kernel

/-- C67 fails for a `Hypergraph` that gets a new group after the move: then even `H` cannot be read. -/
theorem C67_hypergraph_add_false :
    (read .H (Spec.History step 0 false ["main"] [.read .H, .move 1, .add "more"])).1 = .error .runtime := by
  decide +kernel

/-- C67 fails for features on another device: unlike message passing, smoothing moves the features to the hypergraph. -/
theorem C67_hypergraph_smoothing_false :
    (read (.smoothHGNN 1) (Spec.History step 0 false ["main"] [])).1 = .ok 0 := by
  decide +kernel

example : Spec.HyperEdgeTensor ["main", "knn"] (.DeNeg1G "knn") ∧ Spec.HyperChecked (.LHGNNG "knn") ∧
    Spec.HyperOk 1 ["main"] (.v2v 1 .mean none (some 1) none) ∧ Spec.HyperQuiet (.add "knn") ∧
    Spec.HyperStays 1 (.read (.v2e 1 .sum none none)) :=
  ⟨by simp [Spec.HyperEdgeTensor], trivial, ⟨by simp, rfl, by simp, by simp⟩, trivial, rfl⟩

example : (read .LHGNN (Spec.History step 0 false ["main"] ([.add "knn"] ++ .move 1 :: [.read .H, .add "more"]))).1 = .ok 1 := by
  decide +kernel

end Hypergraphs

end DHG
