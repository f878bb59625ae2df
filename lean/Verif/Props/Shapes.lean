import Verif.Props.GraphMessages
import Verif.Props.DiGraphMatrices
import Verif.Props.BiGraphMatrices
import Verif.Props.HyperMessages

/-!
# Shapes of message passing (C100)
-/

set_option linter.unusedSectionVars false
set_option autoImplicit false

namespace DHG

namespace Spec
variable {K : Type}

/-- features `X` with one row per sender were turned into features `Y` with one row per receiver and the
same columns -/
structure Passed (senders receivers : Nat) (X Y : Dense K) : Prop where
  input : X.rows = senders
  rows : Y.rows = receivers
  cols : Y.cols = X.cols

end Spec

namespace Props

variable {K : Type} [Field K] [LinearOrder K]

namespace Shape

theorem build {m n : Nat} {idx : List (Int × Int)} {ws : List K} {M : Sp K} (h : Sp.build m n idx ws = .ok M) :
    M.rows = m ∧ M.cols = n := by
  unfold Sp.build at h
  split at h
  · simp only [bind, Except.bind] at h
    split at h
    · cases h
    · cases h; exact ⟨rfl, rfl⟩
  · cases h

theorem drop {M P : Sp K} {p : K} {keep : Nat → Bool} (h : Graph.evDrop M p keep = .ok P) :
    P.rows = M.rows ∧ P.cols = M.cols := by
  unfold Graph.evDrop sparseDropout at h
  dsimp only at h
  split at h
  · split at h
    · split at h
      · cases h; exact ⟨rfl, rfl⟩
      · cases h; exact ⟨rfl, rfl⟩
    · cases h
  · cases h; exact ⟨rfl, rfl⟩

theorem vals {M P : Sp K} {w : List K} (h : M.withVals w = .ok P) : P.rows = M.rows ∧ P.cols = M.cols := by
  unfold Sp.withVals at h
  split at h
  · cases h; exact ⟨rfl, rfl⟩
  · cases h

theorem diag (v : List K) : (Sp.diag v).rows = v.length ∧ (Sp.diag v).cols = v.length := ⟨rfl, rfl⟩

theorem rowSum (M : Sp K) : M.rowSum.length = M.rows := by simp [Sp.rowSum]

theorem mmD {P : Sp K} {m n : Nat} (hr : P.rows = m) (hc : P.cols = n) {X Y : Dense K} (h : P.mmD X = .ok Y) :
    Spec.Passed n m X Y := by
  obtain ⟨h1, h2, h3⟩ := Sp.mmD_shape h
  exact ⟨h1.symm.trans hc, h2.trans hr, h3⟩

theorem mean {P D : Sp K} {m n : Nat} (hr : P.rows = m) (hc : P.cols = n) (hD : D.rows = m) {X Y Z : Dense K}
    (h : P.mmD X = .ok Y) (h' : D.mmD Y = .ok Z) : Spec.Passed n m X Z := by
  obtain ⟨h1, h2, h3⟩ := Sp.mmD_shape h
  obtain ⟨_, h5, h6⟩ := Sp.mmD_shape h'
  exact ⟨h1.symm.trans hc, h5.trans hD, h6.trans h3⟩

variable [PyReal K]

theorem rsqrt {D E : Sp K} (h : D.rsqrt = .ok E) : E.rows = D.rows ∧ E.cols = D.cols := by
  unfold Sp.rsqrt at h
  simp only [bind, Except.bind] at h
  split at h
  · cases h
  · cases h; exact ⟨rfl, rfl⟩

theorem graphA {r : GRaw K} {A : Sp K} (h : Graph.evA r = .ok A) : A.rows = r.numV ∧ A.cols = r.numV := by
  unfold Graph.evA at h
  split at h
  · cases h; exact ⟨rfl, rfl⟩
  · simp only [bind, Except.bind] at h
    split at h
    · cases h
    · rename_i e; cases h; have hb := build e; exact hb

theorem ordM {c : Cls} {r : GRaw K} {A : Sp K} (h : Ord.evM c r = .ok A) :
    A.rows = Ord.rows c r ∧ A.cols = r.numV := by
  unfold Ord.evM at h
  split at h
  · cases h; exact ⟨rfl, rfl⟩
  · simp only [bind, Except.bind] at h
    split at h
    · cases h
    · rename_i e; cases h; have hb := build e; exact hb

theorem ordMT {c : Cls} {r : GRaw K} {A : Sp K} (h : Ord.evMT c r = .ok A) :
    A.rows = r.numV ∧ A.cols = Ord.rows c r := by
  unfold Ord.evMT at h
  simp only [bind, Except.bind] at h
  split at h
  · cases h
  · rename_i e; cases h; exact (ordM e).symm

theorem ordDr {c : Cls} {r : GRaw K} {A : Sp K} (h : Ord.evDrN1 c r = .ok A) : A.rows = Ord.rows c r := by
  unfold Ord.evDrN1 Ord.evDr at h
  simp only [bind, Except.bind] at h
  split at h
  · cases h
  · rename_i e
    cases h
    split at e
    · cases e
    · rename_i e'; cases e; exact (rowSum _).trans (ordM e').1

theorem ordDc {c : Cls} {r : GRaw K} {A : Sp K} (h : Ord.evDcN1 c r = .ok A) : A.rows = r.numV := by
  unfold Ord.evDcN1 Ord.evDc at h
  simp only [bind, Except.bind] at h
  split at h
  · cases h
  · rename_i e
    cases h
    split at e
    · cases e
    · rename_i e'; cases e; exact (rowSum _).trans (ordMT e').1

/-- aggregation with one matrix -/
theorem aggr {P D : Sp K} {m n : Nat} (hr : P.rows = m) (hc : P.cols = n) (evD : Except Err (Sp K))
    (hD : ∀ D, evD = .ok D → D.rows = m) {X Y : Dense K} :
    (do let Y ← P.mmD X; let D ← evD; D.mmD Y) = .ok Y → Spec.Passed n m X Y := by
  intro h
  simp only [bind, Except.bind] at h
  split at h
  · cases h
  · rename_i e1
    cases e2 : evD with
    | error e => rw [e2] at h; cases h
    | ok D => rw [e2] at h; exact mean hr hc (hD _ e2) e1 h

theorem scaled {P : Sp K} {m n : Nat} (hr : P.rows = m) (hc : P.cols = n) {X Y : Dense K} {v : List K} :
    (do let Y ← P.mmD X; Except.ok (ε := Err) (Y.scaleRows v)) = .ok Y → Spec.Passed n m X Y := by
  intro h
  simp only [bind, Except.bind] at h
  split at h
  · cases h
  · rename_i e1
    cases h
    have := mmD hr hc e1
    exact ⟨this.input, this.rows, this.cols⟩

theorem graphV2v {r : GRaw K} {X Y : Dense K} {a : Aggr} {w : Option (List K)} {p : K} {keep : Nat → Bool}
    (h : Graph.evV2v X a w p keep r = .ok Y) : Spec.Passed r.numV r.numV X Y := by
  unfold Graph.evV2v at h
  split at h
  · cases h
  rename_i ha
  cases w with
  | none =>
    simp only [bind, Except.bind] at h
    split at h
    · cases h
    rename_i A hA
    split at h
    · cases h
    rename_i P hP
    have h1 : P.rows = r.numV := (drop hP).1.trans (graphA hA).1
    have h2 : P.cols = r.numV := (drop hP).2.trans (graphA hA).2
    cases a with
    | mean =>
      refine aggr (D := P) h1 h2 (Graph.evDvN1 r) (fun D hD => ?_) h
      unfold Graph.evDvN1 Graph.evDv at hD
      simp only [bind, Except.bind, hA] at hD
      cases hD
      exact (rowSum _).trans (graphA hA).1
    | sum => exact mmD h1 h2 h
    | softmax => cases h
    | other => exact absurd rfl ha
  | some w =>
    simp only [bind, Except.bind] at h
    split at h
    · cases h
    rename_i A hA
    split at h
    · split at h
      · cases h
      rename_i Q hQ
      split at h
      · cases h
      rename_i P hP
      have h1 : P.rows = r.numV := (drop hP).1.trans ((vals hQ).1.trans (graphA hA).1)
      have h2 : P.cols = r.numV := (drop hP).2.trans ((vals hQ).2.trans (graphA hA).2)
      cases a with
      | mean => exact scaled h1 h2 h
      | sum => exact mmD h1 h2 h
      | softmax => exact mmD (P := P.softmax) h1 h2 h
      | other => exact absurd rfl ha
    · cases h

theorem smooth {L : Except Err (Sp K)} {m n : Nat} (hL : ∀ M, L = .ok M → M.rows = m ∧ M.cols = n)
    {X Y : Dense K} {p : K} {keep : Nat → Bool}
    (h : (do let M ← L; let M ← Graph.evDrop M p keep; M.mmD X) = .ok Y) : Spec.Passed n m X Y := by
  cases L with
  | error e => cases h
  | ok M =>
    simp only [bind, Except.bind] at h
    split at h
    · cases h
    rename_i P hP
    obtain ⟨h1, h2⟩ := hL _ rfl
    exact mmD ((drop hP).1.trans h1) ((drop hP).2.trans h2) h

theorem graphLGCN {r : GRaw K} {L : Sp K} (h : Graph.evLGCN r = .ok L) : L.rows = r.numV ∧ L.cols = r.numV := by
  unfold Graph.evLGCN Graph.evNormA Graph.evDvN12 Graph.evDv at h
  simp only [bind, Except.bind] at h
  cases hA : Graph.evA (Graph.withExtra r) with
  | error e => rw [hA] at h; cases h
  | ok A =>
    rw [hA] at h
    dsimp only at h
    cases hD : (Sp.diag A.rowSum).rsqrt with
    | error e => rw [hD] at h; cases h
    | ok D =>
      rw [hD] at h
      dsimp only at h
      cases hM : D.mm A with
      | error e => rw [hM] at h; cases h
      | ok M =>
        rw [hM] at h
        dsimp only at h
        cases hN : M.mm D with
        | error e => rw [hN] at h; cases h
        | ok N =>
          rw [hN] at h
          cases h
          have hd : D.rows = r.numV ∧ D.cols = r.numV := by
            have := rsqrt hD
            rw [(diag _).1, (diag _).2, rowSum, (graphA hA).1] at this
            exact this
          exact ⟨(Sp.mm_shape hN).1.trans ((Sp.mm_shape hM).1.trans hd.1), (Sp.mm_shape hN).2.trans hd.2⟩

theorem ordPass {evP evD : GRaw K → Except Err (Sp K)} {r : GRaw K} {m n : Nat}
    (hP : ∀ P, evP r = .ok P → P.rows = m ∧ P.cols = n) (hD : ∀ D, evD r = .ok D → D.rows = m) {X Y : Dense K}
    {a : Aggr} (ha : a ≠ .other) {p : K} {keep : Nat → Bool} (h : Ord.evPass evP evD X a p keep r = .ok Y) :
    Spec.Passed n m X Y := by
  unfold Ord.evPass at h
  simp only [bind, Except.bind] at h
  split at h
  · cases h
  rename_i A hA
  split at h
  · cases h
  rename_i P hP'
  have h1 : P.rows = m := (drop hP').1.trans (hP _ hA).1
  have h2 : P.cols = n := (drop hP').2.trans (hP _ hA).2
  cases a with
  | mean => exact aggr (D := P) h1 h2 (evD r) hD h
  | sum => exact mmD h1 h2 h
  | softmax => exact mmD (P := P.softmax) h1 h2 h
  | other => exact absurd rfl ha

theorem ordPassW {c : Cls} {tr : Bool} {r : GRaw K} {w : List K} {X Y : Dense K}
    {a : Aggr} (ha : a ≠ .other) {p : K} {keep : Nat → Bool} (h : Ord.evPassW c tr w X a p keep r = .ok Y) :
    if tr then Spec.Passed (Ord.rows c r) r.numV X Y else Spec.Passed r.numV (Ord.rows c r) X Y := by
  unfold Ord.evPassW at h
  simp only [bind, Except.bind] at h
  split at h
  · cases h
  rename_i A hA
  split at h
  · split at h
    · cases h
    rename_i Q hQ
    split at h
    · cases h
    rename_i P hP
    have key : ∀ m n, P.rows = m → P.cols = n → Spec.Passed n m X Y := by
      intro m n h1 h2
      cases a with
      | mean => exact scaled h1 h2 h
      | sum => exact mmD h1 h2 h
      | softmax => exact mmD (P := P.softmax) h1 h2 h
      | other => exact absurd rfl ha
    have a1 := (vals hQ).1.trans (ordM hA).1
    have a2 := (vals hQ).2.trans (ordM hA).2
    cases tr with
    | true =>
      rw [if_pos rfl]
      exact key _ _ ((drop hP).1.trans a2) ((drop hP).2.trans a1)
    | false =>
      rw [if_neg (by simp)]
      exact key _ _ ((drop hP).1.trans a1) ((drop hP).2.trans a2)
  · cases h

theorem toRows {c : Cls} {r : GRaw K} {w : Option (List K)} {X Y : Dense K} {a : Aggr} (ha : a ≠ .other) {p : K}
    {keep : Nat → Bool} (h : Ord.evToRows c X a w p keep r = .ok Y) : Spec.Passed r.numV (Ord.rows c r) X Y := by
  cases w with
  | none => exact ordPass (fun _ => ordM) (fun _ => ordDr) ha h
  | some w => exact ordPassW (tr := false) ha h

theorem toCols {c : Cls} {r : GRaw K} {w : Option (List K)} {X Y : Dense K} {a : Aggr} (ha : a ≠ .other) {p : K}
    {keep : Nat → Bool} (h : Ord.evToCols c X a w p keep r = .ok Y) : Spec.Passed (Ord.rows c r) r.numV X Y := by
  cases w with
  | none => exact ordPass (fun _ => ordMT) (fun _ => ordDc) ha h
  | some w => exact ordPassW (tr := true) ha h

theorem gcnOf {n : Nat} {A L : Sp K} (h : BiGraph.gcnOf n A = .ok L) : L.rows = n ∧ L.cols = n := by
  unfold BiGraph.gcnOf at h
  dsimp only at h
  simp only [bind, Except.bind] at h
  split at h
  · cases h
  rename_i D hD
  split at h
  · cases h
  rename_i M hM
  split at h
  · cases h
  rename_i N hN
  cases h
  have hd : D.rows = n ∧ D.cols = n := by
    have := rsqrt hD
    rw [(diag _).1, (diag _).2, rowSum] at this
    exact this
  exact ⟨(Sp.mm_shape hN).1.trans ((Sp.mm_shape hM).1.trans hd.1), (Sp.mm_shape hN).2.trans hd.2⟩

theorem map_feat {r : Except Err (Dense K)} {Y : Dense K} (h : r.map GAns.feat = .ok (.feat Y)) : r = .ok Y := by
  cases r with
  | error e => cases h
  | ok Z => cases h; rfl

end Shape
open Shape

variable [PyReal K]

/-- features used in the examples: `n` rows, two columns -/
noncomputable def exFeat (n : Nat) : Dense ℝ := { rows := n, cols := 2, at_ := fun i c => i + c }

/-- C100 (Graph). Whatever the history, the aggregation, the weights and the dropout: a call of `v2v` or of
the GCN smoothing that returns was given one row per vertex, and returns one row per vertex with the
columns of the input. -/
theorem C100_graph {P : EArg K → Prop} {g : GSt K} (hg : Graph.Built P g) {n : Nat}
    (hn : (Graph.ask .numV g).1 = .ok (.num n)) (X Y : Dense K) (p : K) (keep : Nat → Bool) :
    (∀ a w, (Graph.ask (.v2v X a w p keep) g).1 = .ok (.feat Y) → Spec.Passed n n X Y) ∧
    ((Graph.ask (.smoothGCN X p keep) g).1 = .ok (.feat Y) → Spec.Passed n n X Y) := by
  have hn' := numV_eq hn
  subst hn'
  constructor
  · intro a w h
    rw [ask_eq hg] at h
    exact graphV2v (map_feat h)
  · intro h
    rw [ask_eq hg] at h
    exact smooth (fun _ => graphLGCN) (map_feat h)

/-- an input of the right height gets through, an input that is one row short does not -/
example : (∃ Y : Dense ℝ, (Graph.ask (.v2v (exFeat 3) .sum none 0 fun _ => true) exG).1 = .ok (.feat Y) ∧
      Y.rows = 3 ∧ Y.cols = 2) ∧
    ∀ Y : Dense ℝ, (Graph.ask (.v2v (exFeat 2) .sum none 0 fun _ => true) exG).1 ≠ .ok (.feat Y) := by
  refine ⟨?_, fun Y h => ?_⟩
  · obtain ⟨Y, hY, _⟩ := C12_graph_v2v_sum exG_nonneg exG_numV (exFeat 3) rfl fun _ => true
    have := (C100_graph exG_nonneg exG_numV _ _ _ _).1 _ _ hY
    exact ⟨Y, hY, this.rows, this.cols⟩
  · have := ((C100_graph exG_nonneg exG_numV _ _ _ _).1 _ _ h).input
    exact absurd this (by simp [exFeat])

/-- C100 (DiGraph). The same for both directions of `v2v`. -/
theorem C100_digraph {P : EArg K → Prop} {b : Bool} {g : DSt K} (hg : DiGraph.Built P b g) {n : Nat}
    (hn : (DiGraph.ask .numV g).1 = .ok (.num n)) (X Y : Dense K) (p : K) (keep : Nat → Bool) (a : Aggr)
    (w : Option (List K)) (dir : Dir) (h : (DiGraph.ask (.v2v X a w dir p keep) g).1 = .ok (.feat Y)) :
    Spec.Passed n n X Y := by
  have hn' := Di.numV_eq hg.any hn
  subst hn'
  rw [hg.ask] at h
  have h := map_feat h
  unfold DiGraph.evV2v at h
  split at h
  · cases h
  rename_i ha
  cases dir with
  | dst2src => exact toRows ha h
  | src2dst => exact toCols ha h
  | other => cases h

example : ∃ Y : Dense ℝ,
    (DiGraph.ask (.v2v (exFeat 3) .sum none .src2dst 0 fun _ => true) exD).1 = .ok (.feat Y) ∧
      Spec.Passed 3 3 (exFeat 3) Y := by
  obtain ⟨Y, hY, _⟩ := (C24_digraph_v2v_sum exD_nonneg exD_numV (exFeat 3) rfl fun _ => true).2
  exact ⟨Y, hY, C100_digraph exD_nonneg exD_numV _ _ _ _ _ _ _ hY⟩

/-- C100 (BiGraph). `u2v` takes one row per `u` vertex and returns one per `v` vertex, `v2u` the other way
round, and the smoothing works with one row per vertex of either side. -/
theorem C100_bigraph {P : EArg K → Prop} {g : BSt K} (hg : BiGraph.Built P g) {m n : Nat}
    (hm : (BiGraph.ask .numU g).1 = .ok (.num m)) (hn : (BiGraph.ask .numV g).1 = .ok (.num n))
    (X Y : Dense K) (p : K) (keep : Nat → Bool) :
    (∀ a w, (BiGraph.ask (.u2v X a w p keep) g).1 = .ok (.feat Y) → Spec.Passed m n X Y) ∧
    (∀ a w, (BiGraph.ask (.v2u X a w p keep) g).1 = .ok (.feat Y) → Spec.Passed n m X Y) ∧
    ((BiGraph.ask (.smoothGCN X p keep) g).1 = .ok (.feat Y) → Spec.Passed (m + n) (m + n) X Y) := by
  have hn' := Bi.numV_eq hn
  have hm' := Bi.numU_eq hm
  subst hn' hm'
  refine ⟨fun a w h => ?_, fun a w h => ?_, fun h => ?_⟩
  · rw [hg.ask] at h
    have h := map_feat h
    unfold BiGraph.evU2v at h
    split at h
    · cases h
    · rename_i ha; exact toCols (c := .bi) ha h
  · rw [hg.ask] at h
    have h := map_feat h
    unfold BiGraph.evV2u at h
    split at h
    · cases h
    · rename_i ha; exact toRows (c := .bi) ha h
  · rw [hg.ask] at h
    refine smooth (fun M hM => ?_) (map_feat h)
    unfold Ord.evLGCN at hM
    simp only [bind, Except.bind] at hM
    split at hM
    · cases hM
    · exact gcnOf hM

example : ∃ P Q : Dense ℝ, (BiGraph.ask (.u2v (exFeat 2) .sum none 0 fun _ => true) exB).1 = .ok (.feat P) ∧
    (BiGraph.ask (.v2u (exFeat 3) .sum none 0 fun _ => true) exB).1 = .ok (.feat Q) ∧
      Spec.Passed 2 3 (exFeat 2) P ∧ Spec.Passed 3 2 (exFeat 3) Q := by
  obtain ⟨_, P, Q, _, hP, _, _, _, hQ, _⟩ := C27_bigraph_sum exB_nonneg exB_numU exB_numV exB_flag (exFeat 2)
    (exFeat 3) rfl rfl fun _ => true
  exact ⟨P, Q, hP, hQ, (C100_bigraph exB_nonneg exB_numU exB_numV _ _ _ _).1 _ _ hP,
    (C100_bigraph exB_nonneg exB_numU exB_numV _ _ _ _).2.1 _ _ hQ⟩

/-! ### hypergraphs -/

namespace Shape
variable {b : Bool}

theorem agg {evP evD : HRaw K → Except Err (Sp K)} {r : HRaw K} {m n : Nat}
    (hP : ∀ P, evP r = .ok P → P.rows = m ∧ P.cols = n) (hD : ∀ D, evD r = .ok D → D.rows = m) {X Y : Dense K}
    {a : Aggr} {w : Option (List K)} {p : K} {keep : Nat → Bool} (h : Hyper.evAgg evP evD X a w p keep r = .ok Y) :
    Spec.Passed n m X Y := by
  unfold Hyper.evAgg at h
  split at h
  · cases h
  rename_i ha
  cases w with
  | none =>
    simp only [bind, Except.bind] at h
    split at h
    · cases h
    rename_i A hA
    split at h
    · cases h
    rename_i P hP'
    have h1 : P.rows = m := (drop hP').1.trans (hP _ hA).1
    have h2 : P.cols = n := (drop hP').2.trans (hP _ hA).2
    cases a with
    | mean => exact aggr (D := P) h1 h2 (evD r) hD h
    | sum => exact mmD h1 h2 h
    | softmax => exact mmD (P := P.softmax) h1 h2 h
    | other => exact absurd rfl ha
  | some w =>
    simp only [bind, Except.bind] at h
    split at h
    · cases h
    rename_i A hA
    split at h
    · split at h
      · cases h
      rename_i Q hQ
      split at h
      · cases h
      rename_i P hP'
      have h1 : P.rows = m := (drop hP').1.trans ((vals hQ).1.trans (hP _ hA).1)
      have h2 : P.cols = n := (drop hP').2.trans ((vals hQ).2.trans (hP _ hA).2)
      cases a with
      | mean => exact scaled h1 h2 h
      | sum => exact mmD h1 h2 h
      | softmax => exact mmD (P := P.softmax) h1 h2 h
      | other => exact absurd rfl ha
    · cases h

theorem chain {A : Sp K} : ∀ {Bs : List (Sp K)} {L : Sp K}, Hyper.mmChain A Bs = .ok L →
    L.rows = A.rows ∧ L.cols = (Bs.getLast?.getD A).cols := by
  intro Bs
  induction Bs generalizing A with
  | nil => intro L h; cases h; exact ⟨rfl, rfl⟩
  | cons B Bs ih =>
    intro L h
    simp only [Hyper.mmChain, bind, Except.bind] at h
    split at h
    · cases h
    rename_i C hC
    obtain ⟨h1, h2⟩ := ih h
    refine ⟨h1.trans (Sp.mm_shape hC).1, ?_⟩
    cases Bs with
    | nil => exact h2.trans (Sp.mm_shape hC).2
    | cons B' Bs =>
      rw [h2]
      rw [List.getLast?_cons_cons, List.getLast?_eq_getLast_of_ne_nil (List.cons_ne_nil _ _)]
      rfl

theorem mulCol {w : List K} {X Y : Dense K} (h : X.mulCol w = .ok Y) (hr : X.rows = w.length) :
    Spec.Passed w.length w.length X Y := by
  unfold Dense.mulCol at h
  rw [if_pos hr.symm] at h
  cases h
  exact ⟨hr, hr, rfl⟩

theorem map_hfeat {r : Except Err (Dense K)} {Y : Dense K} (h : r.map HAns.feat = .ok (.feat Y)) : r = .ok Y := by
  cases r with
  | error e => cases h
  | ok Z => cases h; rfl

section
variable {r : HRaw K} (hi : Hyper.Inv r) (hr : Hyper.InRange r) {sc : Option String} (hh : Hyper.Has sc r)
include hi hr hh

theorem v2eAggr {X Y : Dense K} {a : Aggr} {w : Option (List K)} {p : K} {keep : Nat → Bool}
    (h : Hyper.evV2eAggr sc X a w p keep r = .ok Y) :
    Spec.Passed r.numV (Hyper.lstOf sc r).length X Y := by
  obtain ⟨M, hM, hT, hI⟩ := Hyper.evHT_spec hi hr hh
  unfold Hyper.evV2eAggr at h
  simp only [bind, Except.bind, Hy.chk_ok hh] at h
  refine agg (fun P hP => ?_) (fun D hD => ?_) h
  · rw [hT] at hP; cases hP; exact ⟨hI.cols, hI.rows⟩
  · rw [Hyper.evDeN1_spec hi hr hh] at hD; cases hD; simp [Sp.diag]

theorem e2vAggr {X Y : Dense K} {a : Aggr} {w : Option (List K)} {p : K} {keep : Nat → Bool}
    (h : Hyper.evE2vAggr sc X a w p keep r = .ok Y) :
    Spec.Passed (Hyper.lstOf sc r).length r.numV X Y := by
  obtain ⟨M, hM, hT, hI⟩ := Hyper.evHT_spec hi hr hh
  unfold Hyper.evE2vAggr at h
  simp only [bind, Except.bind, Hy.chk_ok hh] at h
  refine agg (fun P hP => ?_) (fun D hD => ?_) h
  · rw [hM] at hP; cases hP; exact ⟨hI.rows, hI.cols⟩
  · rw [Hyper.evDvN1_spec hi hr hh] at hD; cases hD; simp [Sp.diag]

theorem v2eUpd {X Y : Dense K} {ew : Option (List K)} (hX : X.rows = (Hyper.lstOf sc r).length)
    (h : Hyper.evV2eUpd sc X ew r = .ok Y) :
    Spec.Passed (Hyper.lstOf sc r).length (Hyper.lstOf sc r).length X Y := by
  unfold Hyper.evV2eUpd at h
  simp only [bind, Except.bind, Hy.chk_ok hh] at h
  cases ew with
  | none =>
    simp only [Hyper.evWe_spec hi hh] at h
    exact mmD (by simp [Sp.diag]) (by simp [Sp.diag]) h
  | some w =>
    simp only [Hyper.evNumE_spec (.inl hh)] at h
    split at h
    · rename_i hw
      have := mulCol h (hX.trans hw.symm)
      rwa [hw] at this
    · cases h

theorem v2e {X Y : Dense K} {a : Aggr} {w ew : Option (List K)} {p : K} {keep : Nat → Bool}
    (h : Hyper.evV2e sc X a w ew p keep r = .ok Y) :
    Spec.Passed r.numV (Hyper.lstOf sc r).length X Y := by
  unfold Hyper.evV2e at h
  simp only [bind, Except.bind, Hy.chk_ok hh] at h
  split at h
  · cases h
  rename_i Z hZ
  have h1 := v2eAggr hi hr hh hZ
  have h2 := v2eUpd hi hr hh h1.rows h
  exact ⟨h1.input, h2.rows, h2.cols.trans h1.cols⟩

theorem e2v {X Y : Dense K} {a : Aggr} {w : Option (List K)} {p : K} {keep : Nat → Bool}
    (h : Hyper.evE2v sc X a w p keep r = .ok Y) :
    Spec.Passed (Hyper.lstOf sc r).length r.numV X Y := by
  unfold Hyper.evE2v Hyper.evE2vUpd at h
  simp only [bind, Except.bind, Hy.chk_ok hh] at h
  split at h
  · cases h
  rename_i Z hZ
  cases h
  exact e2vAggr hi hr hh hZ

theorem v2v {X Y : Dense K} {a : Hyper.V2VArgs K} (h : Hyper.evV2v sc X a r = .ok Y) :
    Spec.Passed r.numV r.numV X Y := by
  unfold Hyper.evV2v at h
  simp only [bind, Except.bind, Hy.chk_ok hh] at h
  split at h
  · cases h
  rename_i Z hZ
  have h1 := v2e hi hr hh hZ
  have h2 := e2v hi hr hh h
  exact ⟨h1.input, h2.rows, h2.cols.trans h1.cols⟩

theorem hgnn {L : Sp K} (h : Hyper.evLHGNN sc r = .ok L) : L.rows = r.numV ∧ L.cols = r.numV := by
  unfold Hyper.evLHGNN Hyper.evDvN12 at h
  simp only [bind, Except.bind, Hyper.evDv_spec hi hr hh] at h
  split at h
  · cases h
  rename_i D hD
  have hd := rsqrt hD
  rw [(diag _).1, (diag _).2] at hd
  simp only [List.length_map, List.length_range] at hd
  repeat (split at h; · cases h)
  rename_i hL
  cases h
  obtain ⟨h1, h2⟩ := chain hL
  exact ⟨h1.trans hd.1, h2.trans hd.2⟩

end
end Shape

/-- C100 (Hypergraph). For the whole hypergraph and for every hyperedge group: vertices to hyperedges takes
one row per vertex and returns one per hyperedge, hyperedges to vertices the other way round, and `v2v` and
the HGNN smoothing work with one row per vertex. -/
theorem C100_hypergraph {b : Bool} {s : HSt K} (hs : Hyper.Built Hyper.Proper b s) {sc : Option String}
    (hsc : Spec.HasScope s sc) {n m : Nat} (hn : (Hyper.ask .numV s).1 = .ok (.num n))
    (hm : (Hyper.ask (.numE sc) s).1 = .ok (.num m)) (X Y : Dense K) (p : K) (keep : Nat → Bool) :
    (∀ a w, (Hyper.ask (.v2eAggr sc X a w p keep) s).1 = .ok (.feat Y) → Spec.Passed n m X Y) ∧
    (∀ a w ew, (Hyper.ask (.v2e sc X a w ew p keep) s).1 = .ok (.feat Y) → Spec.Passed n m X Y) ∧
    (∀ a w, (Hyper.ask (.e2vAggr sc X a w p keep) s).1 = .ok (.feat Y) → Spec.Passed m n X Y) ∧
    (∀ a w, (Hyper.ask (.e2v sc X a w p keep) s).1 = .ok (.feat Y) → Spec.Passed m n X Y) ∧
    (∀ a, (Hyper.ask (.v2v sc X a) s).1 = .ok (.feat Y) → Spec.Passed n n X Y) ∧
    ((Hyper.ask (.smoothHGNN sc X p keep) s).1 = .ok (.feat Y) → Spec.Passed n n X Y) := by
  obtain ⟨hi, hc⟩ := (hs.mono (Q := Hyper.AnyH) fun _ _ _ => trivial).inv
  have hh := Hy.has_of_scope hsc
  have hr := hs.inRange
  have hn' := Hy.numV_eq hn
  rw [Hyper.ask_eq _ hc (.inr (by simp))] at hm
  simp only [Hyper.evAsk, Hyper.evNumE_spec (.inl hh)] at hm
  cases hm
  subst hn'
  refine ⟨fun a w h => ?_, fun a w ew h => ?_, fun a w h => ?_, fun a w h => ?_, fun a h => ?_, fun h => ?_⟩ <;>
    rw [Hyper.ask_eq _ hc (.inr (by simp))] at h
  · exact v2eAggr hi hr hh (map_hfeat h)
  · exact v2e hi hr hh (map_hfeat h)
  · exact e2vAggr hi hr hh (map_hfeat h)
  · exact e2v hi hr hh (map_hfeat h)
  · exact v2v hi hr hh (map_hfeat h)
  · exact smooth (fun _ => hgnn hi hr hh) (map_hfeat h)

example : ∃ Y : Dense ℝ,
    (Hyper.ask (.v2e (some "main") (exFeat 4) .mean none none 0 fun _ => true) exH).1 = .ok (.feat Y) ∧
      Spec.Passed 4 2 (exFeat 4) Y := by
  have hsc : Spec.HasScope exH (some "main") := List.mem_cons_self
  obtain ⟨Y, hY, _⟩ := (C37_hypergraph_v2e_partial exH_proper hsc rfl (exFeat 4) rfl fun _ => true).2
  exact ⟨Y, hY, (C100_hypergraph exH_proper hsc rfl rfl _ _ 0 fun _ => true).2.1 _ _ _ hY⟩

/-- C100 fails for the update step called on its own with explicit hyperedge weights: features with a
number of rows different from the number of hyperedges are accepted and broadcast. -/
theorem C100_update_false :
    ∃ (s : HSt ℝ), Hyper.Built Hyper.Proper true s ∧ Spec.HasScope s none ∧
      (Hyper.ask (.numE none) s).1 = .ok (.num 3) ∧
      ∀ c : Nat, ∃ X Y : Dense ℝ, X.rows = 1 ∧ X.cols = c ∧
        (Hyper.ask (.v2eUpd none X (some [2, 3, 5])) s).1 = .ok (.feat Y) ∧ Y.rows = 3 :=
  ⟨exH, exH_proper, List.cons_ne_nil _ _, rfl, fun c =>
    ⟨{ rows := 1, cols := c, at_ := fun _ _ => 1 }, { rows := 3, cols := c, at_ := _ }, rfl, rfl, rfl, rfl⟩⟩

end Props
end DHG
