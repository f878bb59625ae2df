import Verif.Props.GraphMessages
import Verif.Props.DiGraphMatrices
import Verif.Props.BiGraphMatrices
import Verif.Props.HyperMessages
import Verif.Props.Contract

/-!
# Message passing and smoothing are linear in the features (C113)
-/

set_option linter.unusedSectionVars false
set_option autoImplicit false

namespace DHG

variable {K : Type} [Field K] [LinearOrder K]

/-! ## Specification -/

namespace Spec

/-- `a * X + b * X'` -/
def comb (a b : K) (X X' : Dense K) : Dense K :=
  { rows := X.rows, cols := X.cols, at_ := fun i c => a * X.at_ i c + b * X'.at_ i c }

/-- a call that maps features to features (`feat` wraps them as an answer) is linear: for features of the same shape
it either raises the same error for each of them and their combinations, or it maps combinations to the combinations
of the results -/
def Linear {A : Type} (feat : Dense K → A) (F : Dense K → Except Err A) : Prop :=
  ∀ X X' : Dense K, X'.rows = X.rows → X'.cols = X.cols → ∀ a b : K,
    (∃ Y Y', F X = .ok (feat Y) ∧ F X' = .ok (feat Y') ∧ Y'.rows = Y.rows ∧ Y'.cols = Y.cols ∧
      F (comb a b X X') = .ok (feat (comb a b Y Y'))) ∨
    ∃ e, F X = .error e ∧ F X' = .error e ∧ F (comb a b X X') = .error e

end Spec

namespace Props

namespace Linr

/-- linear, without the wrapping -/
abbrev Lin (F : Dense K → Except Err (Dense K)) : Prop := Spec.Linear id F

theorem wrap {A : Type} {feat : Dense K → A} {F : Dense K → Except Err (Dense K)} {G : Dense K → Except Err A}
    (h : Lin F) (hG : ∀ X, G X = (F X).map feat) : Spec.Linear feat G := by
  intro X X' h1 h2 a b
  rcases h X X' h1 h2 a b with ⟨Y, Y', e1, e2, e3, e4, e5⟩ | ⟨e, e1, e2, e3⟩
  · exact .inl ⟨Y, Y', by rw [hG, e1]; rfl, by rw [hG, e2]; rfl, e3, e4, by rw [hG, e5]; rfl⟩
  · exact .inr ⟨e, by rw [hG, e1]; rfl, by rw [hG, e2]; rfl, by rw [hG, e3]; rfl⟩

theorem err (e : Err) : Lin (K := K) fun _ => .error e := fun _ _ _ _ _ _ => .inr ⟨e, rfl, rfl, rfl⟩

theorem ident : Lin (K := K) fun X => .ok X := fun X X' h1 h2 _ _ => .inl ⟨X, X', rfl, rfl, h1, h2, rfl⟩

theorem const {α : Type} {x : Except Err α} {F : α → Dense K → Except Err (Dense K)} (h : ∀ y, Lin (F y)) :
    Lin fun X => x >>= fun y => F y X := by
  rcases x with e | y
  · exact err e
  · exact h y

theorem comp {F G : Dense K → Except Err (Dense K)} (hF : Lin F) (hG : Lin G) : Lin fun X => F X >>= G := by
  intro X X' h1 h2 a b
  rcases hF X X' h1 h2 a b with ⟨Y, Y', e1, e2, e3, e4, e5⟩ | ⟨e, e1, e2, e3⟩
  · rcases hG Y Y' e3 e4 a b with ⟨Z, Z', f1, f2, f3, f4, f5⟩ | ⟨e, f1, f2, f3⟩
    · refine .inl ⟨Z, Z', ?_, ?_, f3, f4, ?_⟩
      · simp only [e1, bind, Except.bind]; exact f1
      · simp only [e2, bind, Except.bind]; exact f2
      · simp only [e5, bind, Except.bind]; exact f5
    · refine .inr ⟨e, ?_, ?_, ?_⟩
      · simp only [e1, bind, Except.bind]; exact f1
      · simp only [e2, bind, Except.bind]; exact f2
      · simp only [e5, bind, Except.bind]; exact f3
  · refine .inr ⟨e, ?_, ?_, ?_⟩
    · simp only [e1, bind, Except.bind]
    · simp only [e2, bind, Except.bind]
    · simp only [e3, bind, Except.bind]

theorem ite {c : Prop} [Decidable c] {F G : Dense K → Except Err (Dense K)} (hF : Lin F) (hG : Lin G) :
    Lin fun X => if c then F X else G X := by
  by_cases h : c
  · simpa only [if_pos h] using hF
  · simpa only [if_neg h] using hG

theorem sum_comb {ι : Type} (l : List ι) (f g : ι → K) (a b : K) :
    (l.map fun e => a * f e + b * g e).sum = a * (l.map f).sum + b * (l.map g).sum := by
  induction l with
  | nil => simp
  | cons x l ih => simp only [List.map_cons, List.sum_cons, ih]; ring

theorem mm (P : Sp K) : Lin P.mmD := by
  intro X X' h1 h2 a b
  by_cases h : P.cols = X.rows
  · refine .inl ⟨_, _, if_pos h, if_pos (h.trans h1.symm), rfl, h2, ?_⟩
    refine (if_pos h).trans (congrArg Except.ok ?_)
    simp only [Spec.comb, id, Dense.mk.injEq, true_and]
    funext i c
    rw [← sum_comb]
    congr 2
    funext e
    split <;> ring
  · exact .inr ⟨_, if_neg h, if_neg (h1 ▸ h), if_neg h⟩

theorem scale (v : List K) : Lin (K := K) fun X => .ok (X.scaleRows v) := by
  intro X X' h1 h2 a b
  refine .inl ⟨_, _, rfl, rfl, h1, h2, congrArg Except.ok ?_⟩
  simp only [Spec.comb, id, Dense.scaleRows, Dense.mk.injEq, true_and]
  funext i c
  ring

theorem mulCol (w : List K) : Lin (K := K) fun X => X.mulCol w := by
  intro X X' h1 h2 a b
  show (∃ Y Y', X.mulCol w = .ok Y ∧ X'.mulCol w = .ok Y' ∧ Y'.rows = Y.rows ∧ Y'.cols = Y.cols ∧
    (Spec.comb a b X X').mulCol w = .ok (Spec.comb a b Y Y')) ∨ _
  unfold Dense.mulCol
  have e : (Spec.comb a b X X').rows = X.rows := rfl
  simp only [h1, e]
  split
  · refine .inl ⟨_, _, rfl, rfl, rfl, h2, congrArg Except.ok ?_⟩
    simp only [Spec.comb, Dense.mk.injEq, true_and]
    funext i c; ring
  · split
    · refine .inl ⟨_, _, rfl, rfl, rfl, h2, congrArg Except.ok ?_⟩
      simp only [Spec.comb, Dense.mk.injEq, true_and]
      funext i c; ring
    · split
      · refine .inl ⟨_, _, rfl, rfl, rfl, h2, congrArg Except.ok ?_⟩
        simp only [Spec.comb, Dense.mk.injEq, true_and]
        funext i c; ring
      · exact .inr ⟨_, rfl, rfl, rfl⟩

theorem smooth (L : Sp K) (lamb : K) : Lin fun X => Graph.smoothing X L lamb := by
  intro X X' h1 h2 a b
  show (∃ Y Y', Graph.smoothing X L lamb = .ok Y ∧ Graph.smoothing X' L lamb = .ok Y' ∧ Y'.rows = Y.rows ∧
    Y'.cols = Y.cols ∧ Graph.smoothing (Spec.comb a b X X') L lamb = .ok (Spec.comb a b Y Y')) ∨ _
  unfold Graph.smoothing
  rcases mm L X X' h1 h2 a b with ⟨Y, Y', e1, e2, e3, e4, e5⟩ | ⟨e, e1, e2, e3⟩
  · have e : (Spec.comb a b X X').rows = X.rows := rfl
    have e' : (Spec.comb a b Y Y').rows = Y.rows := rfl
    simp only [id] at e1 e2 e5
    simp only [e1, e2, e5, bind, Except.bind, h1, e3, e, e']
    split
    · refine .inl ⟨_, _, rfl, rfl, rfl, h2, congrArg Except.ok ?_⟩
      simp only [Spec.comb, Dense.mk.injEq, true_and]
      funext i c; ring
    · split
      · refine .inl ⟨_, _, rfl, rfl, rfl, h2, congrArg Except.ok ?_⟩
        simp only [Spec.comb, Dense.mk.injEq, true_and]
        funext i c; ring
      · split
        · refine .inl ⟨_, _, rfl, rfl, rfl, h2, congrArg Except.ok ?_⟩
          simp only [Spec.comb, Dense.mk.injEq, true_and]
          funext i c; ring
        · exact .inr ⟨_, rfl, rfl, rfl⟩
  · refine .inr ⟨e, ?_, ?_, ?_⟩
    · simp only [e1, bind, Except.bind]
    · simp only [e2, bind, Except.bind]
    · simp only [e3, bind, Except.bind]

variable [PyReal K]

theorem graphV2v (aggr : Aggr) (ew : Option (List K)) (p : K) (keep : Nat → Bool) (r : GRaw K) :
    Lin fun X => Graph.evV2v X aggr ew p keep r := by
  refine ite (err _) ?_
  rcases ew with _ | w
  · refine const fun A => const fun P => ?_
    cases aggr
    · exact comp (mm P) (const fun D => mm D)
    · exact mm P
    · exact err _
    · exact ident
  · refine const fun A => ite (const fun P => const fun P => ?_) (err _)
    cases aggr
    · exact comp (mm P) (scale _)
    · exact mm P
    · exact mm P.softmax
    · exact ident

theorem pass (evP evD : GRaw K → Except Err (Sp K)) (aggr : Aggr) (p : K) (keep : Nat → Bool) (r : GRaw K) :
    Lin fun X => Ord.evPass evP evD X aggr p keep r := by
  refine const fun A => const fun P => ?_
  cases aggr
  · exact comp (mm P) (const fun D => mm D)
  · exact mm P
  · exact mm P.softmax
  · exact ident

theorem passW (c : Cls) (tr : Bool) (w : List K) (aggr : Aggr) (p : K) (keep : Nat → Bool) (r : GRaw K) :
    Lin fun X => Ord.evPassW c tr w X aggr p keep r := by
  refine const fun A => ite (const fun P => const fun P => ?_) (err _)
  cases aggr
  · exact comp (mm P) (scale _)
  · exact mm P
  · exact mm P.softmax
  · exact ident

theorem toRows (c : Cls) (aggr : Aggr) (ew : Option (List K)) (p : K) (keep : Nat → Bool) (r : GRaw K) :
    Lin fun X => Ord.evToRows c X aggr ew p keep r := by
  rcases ew with _ | w
  · exact pass _ _ _ _ _ _
  · exact passW _ _ _ _ _ _ _

theorem toCols (c : Cls) (aggr : Aggr) (ew : Option (List K)) (p : K) (keep : Nat → Bool) (r : GRaw K) :
    Lin fun X => Ord.evToCols c X aggr ew p keep r := by
  rcases ew with _ | w
  · exact pass _ _ _ _ _ _
  · exact passW _ _ _ _ _ _ _

theorem agg (evP evD : HRaw K → Except Err (Sp K)) (aggr : Aggr) (w : Option (List K)) (p : K) (keep : Nat → Bool)
    (r : HRaw K) : Lin fun X => Hyper.evAgg evP evD X aggr w p keep r := by
  refine ite (err _) ?_
  rcases w with _ | w
  · refine const fun A => const fun P => ?_
    cases aggr
    · exact comp (mm P) (const fun D => mm D)
    · exact mm P
    · exact mm P.softmax
    · exact err _
  · refine const fun A => ite (const fun P => const fun P => ?_) (err _)
    cases aggr
    · exact comp (mm P) (scale _)
    · exact mm P
    · exact mm P.softmax
    · exact err _

theorem v2eUpd (sc : Option String) (ew : Option (List K)) (r : HRaw K) : Lin fun X => Hyper.evV2eUpd sc X ew r := by
  refine const fun _ => ?_
  rcases ew with _ | w
  · exact const fun W => mm W
  · exact const fun n => ite (mulCol w) (err _)

theorem v2e (sc : Option String) (aggr : Aggr) (w ew : Option (List K)) (p : K) (keep : Nat → Bool) (r : HRaw K) :
    Lin fun X => Hyper.evV2e sc X aggr w ew p keep r :=
  const fun _ => comp (const fun _ => agg _ _ _ _ _ _ _) (v2eUpd sc ew r)

theorem e2v (sc : Option String) (aggr : Aggr) (w : Option (List K)) (p : K) (keep : Nat → Bool) (r : HRaw K) :
    Lin fun X => Hyper.evE2v sc X aggr w p keep r :=
  const fun _ => comp (const fun _ => agg _ _ _ _ _ _ _) (const fun _ => ident)

end Linr

open Linr

variable [PyReal K]

/-! ## C113 -/

/-- C113 for simple graphs with any history: `v2v` with every aggregation, explicit weights and dropped messages, and
`smoothing_with_GCN`. -/
theorem C113_graph {g : GSt K} (hg : Graph.Built Graph.AnyArg g) (aggr : Aggr) (ew : Option (List K)) (p : K)
    (keep : Nat → Bool) :
    Spec.Linear GAns.feat (fun X => (Graph.ask (.v2v X aggr ew p keep) g).1) ∧
    Spec.Linear GAns.feat (fun X => (Graph.ask (.smoothGCN X p keep) g).1) :=
  ⟨wrap (graphV2v aggr ew p keep g.raw) fun X => (Graph.reads_ask (.v2v X aggr ew p keep) g hg.inv.2).1,
    wrap (F := fun X => Graph.evSmoothGCN X p keep g.raw) (const fun _ => const fun L => mm L)
      fun X => (Graph.reads_ask (.smoothGCN X p keep) g hg.inv.2).1⟩

/-- C113 for directed graphs: `v2v` in both directions. -/
theorem C113_digraph {w : Bool} {g : DSt K} (hg : DiGraph.Built Graph.AnyArg w g) (aggr : Aggr) (ew : Option (List K))
    (dir : Dir) (p : K) (keep : Nat → Bool) :
    Spec.Linear GAns.feat (fun X => (DiGraph.ask (.v2v X aggr ew dir p keep) g).1) := by
  refine wrap (F := fun X => DiGraph.evV2v X aggr ew dir p keep g.raw) (ite (err _) ?_) fun _ => hg.ask _
  cases dir
  · exact toRows _ _ _ _ _ _
  · exact toCols _ _ _ _ _ _
  · exact err _

/-- C113 for bipartite graphs: `u2v`, `v2u` and `smoothing_with_GCN`. -/
theorem C113_bigraph {g : BSt K} (hg : BiGraph.Built Graph.AnyArg g) (aggr : Aggr) (ew : Option (List K)) (p : K)
    (keep : Nat → Bool) :
    Spec.Linear GAns.feat (fun X => (BiGraph.ask (.u2v X aggr ew p keep) g).1) ∧
    Spec.Linear GAns.feat (fun X => (BiGraph.ask (.v2u X aggr ew p keep) g).1) ∧
    Spec.Linear GAns.feat (fun X => (BiGraph.ask (.smoothGCN X p keep) g).1) :=
  ⟨wrap (F := fun X => BiGraph.evU2v X aggr ew p keep g.raw) (ite (err _) (toCols _ _ _ _ _ _)) fun _ => hg.ask _,
    wrap (F := fun X => BiGraph.evV2u X aggr ew p keep g.raw) (ite (err _) (toRows _ _ _ _ _ _)) fun _ => hg.ask _,
    wrap (F := fun X => BiGraph.evSmoothGCN X p keep g.raw) (const fun _ => const fun L => mm L) fun _ => hg.ask _⟩

/-- C113 for hypergraphs, for all groups or one: every half of message passing, `v2v`, and `smoothing_with_HGNN`. -/
theorem C113_hypergraph {b : Bool} {s : HSt K} (hs : Hyper.Built Hyper.AnyH b s) (sc : Option String) (aggr : Aggr)
    (w ew : Option (List K)) (p : K) (keep : Nat → Bool) (args : Hyper.V2VArgs K) :
    Spec.Linear HAns.feat (fun X => (Hyper.ask (.v2eAggr sc X aggr w p keep) s).1) ∧
    Spec.Linear HAns.feat (fun X => (Hyper.ask (.v2eUpd sc X ew) s).1) ∧
    Spec.Linear HAns.feat (fun X => (Hyper.ask (.v2e sc X aggr w ew p keep) s).1) ∧
    Spec.Linear HAns.feat (fun X => (Hyper.ask (.e2vAggr sc X aggr w p keep) s).1) ∧
    Spec.Linear HAns.feat (fun X => (Hyper.ask (.e2vUpd sc X) s).1) ∧
    Spec.Linear HAns.feat (fun X => (Hyper.ask (.e2v sc X aggr w p keep) s).1) ∧
    Spec.Linear HAns.feat (fun X => (Hyper.ask (.v2v sc X args) s).1) ∧
    Spec.Linear HAns.feat (fun X => (Hyper.ask (.smoothHGNN sc X p keep) s).1) := by
  obtain ⟨hi, hc⟩ := hs.inv
  have hm : ∀ x : Except Err (Dense K), (do let Y ← x; .ok (HAns.feat Y)) = x.map HAns.feat := by
    intro x; cases x <;> rfl
  refine ⟨wrap (F := fun X => Hyper.evV2eAggr sc X aggr w p keep s.raw) (const fun _ => agg _ _ _ _ _ _ _) fun X => ?_,
    wrap (v2eUpd sc ew s.raw) fun X => ?_, wrap (v2e sc aggr w ew p keep s.raw) fun X => ?_,
    wrap (F := fun X => Hyper.evE2vAggr sc X aggr w p keep s.raw) (const fun _ => agg _ _ _ _ _ _ _) fun X => ?_,
    wrap (F := fun X => Hyper.evE2vUpd sc X s.raw) (const fun _ => ident) fun X => ?_,
    wrap (e2v sc aggr w p keep s.raw) fun X => ?_,
    wrap (F := fun X => Hyper.evV2v sc X args s.raw) (const fun _ => comp (v2e _ _ _ _ _ _ _) (e2v _ _ _ _ _ _)) fun X => ?_,
    wrap (F := fun X => Hyper.evSmooth sc X p keep s.raw) (const fun _ => const fun L => mm L) fun X => ?_⟩ <;>
  exact (Hyper.ask_eq _ hc (.inr (by simp))).trans (hm _)

/-- C113 for `smoothing(X, L, lamb)` of graphs and hypergraphs, with any matrix. -/
theorem C113_smoothing (L : Sp K) (lamb : K) : Spec.Linear id fun X => Graph.smoothing X L lamb := smooth L lamb

/-! ## Examples -/

example : Graph.Built Graph.AnyArg exG ∧ DiGraph.Built Graph.AnyArg false exD ∧ BiGraph.Built Graph.AnyArg exB ∧
    Hyper.Built Hyper.AnyH true exH :=
  ⟨exG_built, exD_built, exB_built,
    exH_proper.mono fun _ _ _ => trivial⟩

/-- the first case of `Spec.Linear` is met by features with a row for every vertex -/
example (X : Dense ℝ) (hX : X.rows = exG.raw.numV) :
    ∃ Y, (Graph.ask (.smoothGCN X 0 fun _ => true) exG).1 = .ok (.feat Y) := by
  obtain ⟨Y, h, _⟩ := C110_graph exG_nonneg rfl exG_nonnegWeights X hX fun _ => true
  exact ⟨Y, h⟩

/-- sums are linear, squares are not -/
example : ¬ Spec.Linear id fun X : Dense ℝ => .ok { X with at_ := fun i c => X.at_ i c * X.at_ i c } := by
  intro h
  rcases h ⟨1, 1, fun _ _ => 1⟩ ⟨1, 1, fun _ _ => 1⟩ rfl rfl 1 1 with ⟨Y, Y', e1, e2, _, _, e5⟩ | ⟨e, e1, _, _⟩
  · simp only [id, Except.ok.injEq] at e1 e2 e5
    subst e1 e2
    have := congrFun (congrFun (congrArg Dense.at_ e5) 0) 0
    norm_num [Spec.comb] at this
  · cases e1

end Props
end DHG
