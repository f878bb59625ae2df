import Verif.Props.GraphMessages
import Verif.Props.DiGraphMatrices
import Verif.Props.BiGraphMatrices
import Verif.Props.HyperMessages
import Verif.Props.Kernel

/-!
# Message passing carries information one step per call (C120)
-/

set_option linter.unusedSectionVars false
set_option autoImplicit false

namespace DHG

variable {K : Type} [Field K] [LinearOrder K]

/-! ## Specification -/

namespace Spec

/-- row `i` is the same in both -/
def SameRow (X X' : Dense K) (i : Nat) : Prop := ∀ c, c < X.cols → X.at_ i c = X'.at_ i c

/-- a call that maps features to features (`feat` wraps them as an answer) computes row `i` from the rows `j` with
`R i j` only: for features of the same shape it raises the same error, or it returns results of the same shape that
agree in every row `i` such that the features agree in all rows `j` with `R i j` -/
def Local {A : Type} (feat : Dense K → A) (R : Nat → Nat → Prop) (F : Dense K → Except Err A) : Prop :=
  ∀ X X' : Dense K, X'.rows = X.rows → X'.cols = X.cols →
    (∃ Y Y', F X = .ok (feat Y) ∧ F X' = .ok (feat Y') ∧ Y'.rows = Y.rows ∧ Y'.cols = Y.cols ∧
      ∀ i, (∀ j, R i j → SameRow X X' j) → SameRow Y Y' i) ∨
    ∃ e, F X = .error e ∧ F X' = .error e

/-- `j` can be reached from `i` in at most `k` steps of `R` -/
def Ball (R : Nat → Nat → Prop) : Nat → Nat → Nat → Prop
  | 0, i, j => i = j
  | k + 1, i, j => Ball R k i j ∨ ∃ m, Ball R k i m ∧ R m j

/-- a layer of a network: a call on the structure, or a function applied to each row (a linear layer, bias,
activation, normalisation of a row, ...) -/
inductive Layer (K Q : Type) where
  | call (q : Q)
  | rows (cols : Nat) (f : List K → Nat → K)

/-- apply `f` to each row -/
def mapRows (cols : Nat) (f : List K → Nat → K) (X : Dense K) : Dense K :=
  { rows := X.rows, cols, at_ := fun i c => f ((List.range X.cols).map (X.at_ i)) c }

/-- run the layers one after the other on the same object -/
def net {Q σ : Type} (call : Q → Dense K → PyM σ (Dense K)) : List (Layer K Q) → Dense K → PyM σ (Dense K)
  | [], X => pure X
  | .call q :: ls, X => call q X >>= net call ls
  | .rows cols f :: ls, X => net call ls (mapRows cols f X)

/-- the number of calls on the structure -/
def hops {Q : Type} : List (Layer K Q) → Nat
  | [] => 0
  | .call _ :: ls => hops ls + 1
  | .rows _ _ :: ls => hops ls

/-- the message passing calls of `Graph` -/
inductive GCall (K : Type) where
  | v2v (aggr : Aggr) (ew : Option (List K)) (p : K) (keep : Nat → Bool)
  | gcn (p : K) (keep : Nat → Bool)

/-- the message passing calls of `Hypergraph`, on all groups or one -/
inductive HCall (K : Type) where
  | v2v (sc : Option String) (a : Hyper.V2VArgs K)
  | hgnn (sc : Option String) (p : K) (keep : Nat → Bool)

/-- the arguments of `v2v` of `DiGraph`, except for the direction -/
structure DCall (K : Type) where
  aggr : Aggr
  ew : Option (List K)
  p : K
  keep : Nat → Bool

/-- an edge from `i` to `j` is listed -/
def Arc (l : List ((Int × Int) × K)) (i j : Nat) : Prop := ∃ w, (((i : Int), (j : Int)), w) ∈ l

/-- the listed edges between the `nu` vertices of the first part and the vertices of the second part, numbered after
those of the first -/
def Cross (nu : Nat) (l : List ((Int × Int) × K)) (i j : Nat) : Prop :=
  ∃ u v : Nat, Arc l u v ∧ (i = u ∧ j = nu + v ∨ j = u ∧ i = nu + v)

/-- the groups a call is about -/
def HCall.scope : HCall K → Option String
  | .v2v sc _ => sc
  | .hgnn sc _ _ => sc

variable [PyReal K]

/-- calls on a graph -/
def GCall.run : GCall K → Dense K → PyM (GSt K) (Dense K)
  | .v2v aggr ew p keep, X => Graph.v2v X aggr ew p keep
  | .gcn p keep, X => Graph.smoothGCN X p keep

/-- calls on a directed graph -/
def DCall.run (dir : Dir) (q : DCall K) (X : Dense K) : PyM (DSt K) (Dense K) :=
  DiGraph.v2v X q.aggr q.ew dir q.p q.keep

/-- calls on a hypergraph -/
def HCall.run : HCall K → Dense K → PyM (HSt K) (Dense K)
  | .v2v sc a, X => Hyper.v2v sc X a
  | .hgnn sc p keep, X => Hyper.smoothHGNN sc X p keep

end Spec

namespace Props

namespace Loca

/-- local, without the wrapping -/
abbrev Loc (R : Nat → Nat → Prop) (F : Dense K → Except Err (Dense K)) : Prop := Spec.Local id R F

variable {R S : Nat → Nat → Prop}

theorem wrap {A : Type} {feat : Dense K → A} {F : Dense K → Except Err (Dense K)} {G : Dense K → Except Err A}
    (h : Loc R F) (hG : ∀ X, G X = (F X).map feat) : Spec.Local feat R G := by
  intro X X' h1 h2
  rcases h X X' h1 h2 with ⟨Y, Y', e1, e2, e3⟩ | ⟨e, e1, e2⟩
  · exact .inl ⟨Y, Y', by rw [hG, e1]; rfl, by rw [hG, e2]; rfl, e3⟩
  · exact .inr ⟨e, by rw [hG, e1]; rfl, by rw [hG, e2]; rfl⟩

theorem mono {A : Type} {feat : Dense K → A} {F : Dense K → Except Err A} (h : Spec.Local feat R F)
    (hRS : ∀ i j, R i j → S i j) : Spec.Local feat S F := by
  intro X X' h1 h2
  rcases h X X' h1 h2 with ⟨Y, Y', e1, e2, e3, e4, e5⟩ | h
  · exact .inl ⟨Y, Y', e1, e2, e3, e4, fun i hi => e5 i fun j hj => hi j (hRS i j hj)⟩
  · exact .inr h

theorem err (e : Err) : Loc (K := K) R fun _ => .error e := fun _ _ _ _ => .inr ⟨e, rfl, rfl⟩

theorem ident : Loc (K := K) Eq fun X => .ok X := fun X X' h1 h2 =>
  .inl ⟨X, X', rfl, rfl, h1, h2, fun i hi => hi i rfl⟩

theorem const {α : Type} {x : Except Err α} {F : α → Dense K → Except Err (Dense K)}
    (h : ∀ y, x = .ok y → Loc R (F y)) : Loc R fun X => x >>= fun y => F y X := by
  rcases x with e | y
  · exact err e
  · exact h y rfl

theorem comp {F G : Dense K → Except Err (Dense K)} (hF : Loc R F) (hG : Loc S G) :
    Loc (fun i j => ∃ m, S i m ∧ R m j) fun X => F X >>= G := by
  intro X X' h1 h2
  rcases hF X X' h1 h2 with ⟨Y, Y', e1, e2, e3, e4, e5⟩ | ⟨e, e1, e2⟩
  · simp only [id] at e1 e2
    rcases hG Y Y' e3 e4 with ⟨Z, Z', f1, f2, f3, f4, f5⟩ | ⟨e, f1, f2⟩
    · refine .inl ⟨Z, Z', ?_, ?_, f3, f4, fun i hi => f5 i fun m hm => e5 m fun j hj => hi j ⟨m, hm, hj⟩⟩
      · simp only [e1, bind, Except.bind]; exact f1
      · simp only [e2, bind, Except.bind]; exact f2
    · refine .inr ⟨e, ?_, ?_⟩
      · simp only [e1, bind, Except.bind]; exact f1
      · simp only [e2, bind, Except.bind]; exact f2
  · refine .inr ⟨e, ?_, ?_⟩
    · simp only [e1, bind, Except.bind]
    · simp only [e2, bind, Except.bind]

/-- a second step that mixes no rows -/
theorem comp_eq {F G : Dense K → Except Err (Dense K)} (hF : Loc R F) (hG : Loc Eq G) : Loc R fun X => F X >>= G :=
  mono (comp hF hG) fun i j ⟨_, h1, h2⟩ => by rw [h1]; exact h2

theorem ite {c : Prop} [Decidable c] {F G : Dense K → Except Err (Dense K)} (hF : c → Loc R F) (hG : ¬ c → Loc R G) :
    Loc R fun X => if c then F X else G X := by
  by_cases h : c
  · simpa only [if_pos h] using hF h
  · simpa only [if_neg h] using hG h

/-- the stored entries of `P` are in `R` -/
def Sup (R : Nat → Nat → Prop) (P : Sp K) : Prop := ∀ i j, (i, j) ∈ P.ents.map Prod.fst → R i j

theorem mm {P : Sp K} (hP : Sup R P) : Loc R P.mmD := by
  intro X X' h1 h2
  by_cases h : P.cols = X.rows
  · refine .inl ⟨_, _, if_pos h, if_pos (h.trans h1.symm), rfl, h2, fun i hi c hc => ?_⟩
    show (List.map _ _).sum = (List.map _ _).sum
    congr 1
    refine List.map_congr_left fun e he => ?_
    by_cases hr : e.1.1 = i
    · rw [if_pos hr, if_pos hr, hi e.1.2 (hP _ _ (List.mem_map.2 ⟨e, he, Prod.ext hr rfl⟩)) c hc]
    · rw [if_neg hr, if_neg hr]
  · exact .inr ⟨_, if_neg h, if_neg (h1 ▸ h)⟩

theorem scale (v : List K) : Loc (K := K) Eq fun X => .ok (X.scaleRows v) := by
  intro X X' h1 h2
  refine .inl ⟨_, _, rfl, rfl, h1, h2, fun i hi c hc => ?_⟩
  show v.getD i 0 * X.at_ i c = v.getD i 0 * X'.at_ i c
  rw [hi i rfl c hc]

theorem mapRows (cols : Nat) (f : List K → Nat → K) : Loc (K := K) Eq fun X => .ok (Spec.mapRows cols f X) := by
  intro X X' h1 h2
  refine .inl ⟨_, _, rfl, rfl, h1, rfl, fun i hi c _ => ?_⟩
  show f _ c = f _ c
  rw [h2]
  congr 1
  exact List.map_congr_left fun c hc => hi i rfl c (List.mem_range.1 hc)

/-! ### the stored entries -/

theorem Sup.mono {P : Sp K} (h : Sup R P) (hRS : ∀ i j, R i j → S i j) : Sup S P := fun i j hij => hRS i j (h i j hij)

theorem sup_of_keys {P Q : Sp K} (h : Sup R P) (hk : Q.ents.map Prod.fst = P.ents.map Prod.fst) : Sup R Q :=
  fun i j hij => h i j (hk ▸ hij)

theorem Sup.coalesce {P : Sp K} (h : Sup R P) : Sup R P.coalesce := fun i j hij =>
  h i j ((mem_keys_coalesce P.ents (i, j)).1 hij)

theorem Sup.t {P : Sp K} (h : Sup R P) : Sup (fun i j => R j i) P.t := by
  intro i j hij
  simp only [Sp.t, List.map_map, List.mem_map, Function.comp, Prod.mk.injEq] at hij
  obtain ⟨e, he, h1, h2⟩ := hij
  exact h j i (List.mem_map.2 ⟨e, he, Prod.ext h2 h1⟩)

theorem Sup.mm {P Q M : Sp K} (hP : Sup R P) (hQ : Sup S Q) (h : P.mm Q = .ok M) :
    Sup (fun i j => ∃ m, R i m ∧ S m j) M := by
  intro i j hij
  obtain ⟨k, h1, h2⟩ := (Sp.mm_keys h i j).1 hij
  exact ⟨k, hP i k h1, hQ k j h2⟩

theorem sup_diag (v : List K) : Sup Eq (Sp.diag v) := by
  intro i j hij
  obtain ⟨e, he, h⟩ := List.mem_map.1 hij
  simp only [Sp.diag] at he
  rw [← List.map_uncurry_zip_eq_zipWith] at he
  obtain ⟨⟨a, b⟩, _, rfl⟩ := List.mem_map.1 he
  simp only [Function.uncurry, Prod.mk.injEq] at h
  exact h.1.symm.trans h.2

theorem Sup.inv {P : Sp K} (h : Sup R P) : Sup R P.inv :=
  sup_of_keys h (by simp [Sp.inv, Sp.mapVals, List.map_map, Function.comp_def])

theorem Sup.withVals {P Q : Sp K} (h : Sup R P) {w : List K} (hQ : P.withVals w = .ok Q) : Sup R Q := by
  unfold Sp.withVals at hQ
  by_cases hl : P.ents.length = w.length
  · rw [if_pos hl] at hQ
    cases hQ
    exact sup_of_keys h (List.map_fst_zip (by rw [List.length_map, hl]))
  · rw [if_neg hl] at hQ; cases hQ

theorem Sup.drop {P Q : Sp K} (h : Sup R P) {p : K} {keep : Nat → Bool} (hQ : Graph.evDrop P p keep = .ok Q) :
    Sup R Q := by
  unfold Graph.evDrop at hQ
  split at hQ
  · unfold sparseDropout at hQ
    simp only at hQ
    split at hQ
    · split at hQ
      · cases hQ; exact h.coalesce
      · cases hQ
        refine sup_of_keys h.coalesce ?_
        simp only [List.map_map, Function.comp_def]
        rw [show (fun x : ((Nat × Nat) × K) × Nat => x.1.1) = Prod.fst ∘ Prod.fst from rfl, ← List.map_map,
          List.zipIdx_map_fst]
    · cases hQ
  · cases hQ; exact h

variable [PyReal K]

theorem Sup.softmax {P : Sp K} (h : Sup R P) : Sup R P.softmax :=
  sup_of_keys h.coalesce (by simp [Sp.softmax, List.map_map, Function.comp_def])

theorem rsqrt_keys : ∀ {l l' : Ents K}, l.mapM rsqrtEnt = .ok l' → l'.map Prod.fst = l.map Prod.fst
  | [], l', h => by
    simp only [List.mapM_nil, pure, Except.pure, Except.ok.injEq] at h
    subst h; rfl
  | e :: l, l', h => by
    rw [List.mapM_cons] at h
    rcases he : rsqrtEnt e with x | e'
    · rw [he] at h; cases h
    · rw [he] at h
      rcases ht : l.mapM rsqrtEnt with x | t
      · rw [ht] at h; cases h
      · rw [ht] at h
        cases h
        have : e'.1 = e.1 := by
          unfold rsqrtEnt at he
          split at he <;> cases he
          rfl
        simp only [List.map_cons, this, rsqrt_keys ht]

theorem Sup.rsqrt {P Q : Sp K} (h : Sup R P) (hQ : P.rsqrt = .ok Q) : Sup R Q := by
  unfold Sp.rsqrt at hQ
  rcases he : P.ents.mapM rsqrtEnt with x | es
  · rw [he] at hQ; cases hQ
  · rw [he] at hQ
    cases hQ
    exact sup_of_keys h (rsqrt_keys he)

/-- `D A D` with diagonal `D` -/
theorem sup_norm {D A M N : Sp K} (hD : Sup Eq D) (hA : Sup R A) (h1 : D.mm A = .ok M) (h2 : M.mm D = .ok N) :
    Sup R N :=
  ((hD.mm hA h1).mm hD h2).mono fun i j ⟨_, ⟨_, e1, h⟩, e2⟩ => by rw [e1, ← e2]; exact h

/-! ### graphs -/

theorem graphV2v {r : GRaw K} (hA : ∀ A, Graph.evA r = .ok A → Sup R A) (aggr : Aggr) (ew : Option (List K)) (p : K)
    (keep : Nat → Bool) : Loc R fun X => Graph.evV2v X aggr ew p keep r := by
  refine ite (fun _ => err _) fun ha => ?_
  have hD : ∀ D, Graph.evDvN1 r = .ok D → Sup Eq D := by
    intro D h
    unfold Graph.evDvN1 Graph.evDv at h
    rcases hA' : Graph.evA r with e | A
    · rw [hA'] at h; cases h
    · rw [hA'] at h
      cases h
      exact (sup_diag _).inv
  rcases ew with _ | w
  · refine const fun A h1 => const fun P h2 => ?_
    have hP := (hA A h1).drop h2
    cases aggr
    · exact comp_eq (mm hP) (const fun D h => mm (hD D h))
    · exact mm hP
    · exact err _
    · exact absurd rfl ha
  · refine const fun A h1 => ite (fun _ => const fun P h2 => const fun P h3 => ?_) fun _ => err _
    have hP := ((hA A h1).withVals h2).coalesce.drop h3
    cases aggr
    · exact comp_eq (mm hP) (scale _)
    · exact mm hP
    · exact mm hP.softmax
    · exact absurd rfl ha

theorem bok {α β : Type} {x : Except Err α} {f : α → Except Err β} {y : β} (h : (x >>= f) = .ok y) :
    ∃ a, x = .ok a ∧ f a = .ok y := by
  rcases x with e | a
  · cases h
  · exact ⟨a, rfl, h⟩

theorem graphGCN {r : GRaw K} (hA : ∀ A, Graph.evA (Graph.withExtra r) = .ok A → Sup R A) (p : K)
    (keep : Nat → Bool) : Loc R fun X => Graph.evSmoothGCN X p keep r := by
  refine const fun L h1 => const fun P h2 => mm ((?_ : Sup R L).drop h2)
  obtain ⟨N, h3, h4⟩ := bok h1
  cases h4
  obtain ⟨D, h5, h6⟩ := bok h3
  obtain ⟨A, h7, h8⟩ := bok h6
  obtain ⟨M, h9, h10⟩ := bok h8
  obtain ⟨E, h11, h12⟩ := bok h5
  obtain ⟨A', _, h13⟩ := bok h11
  cases h13
  exact (sup_norm ((sup_diag _).rsqrt h12) (hA A h7) h9 h10).coalesce

/-! ### directed and bipartite graphs -/

theorem pass {evP evD : GRaw K → Except Err (Sp K)} {r : GRaw K} (hP : ∀ P, evP r = .ok P → Sup R P)
    (hD : ∀ D, evD r = .ok D → Sup Eq D) {aggr : Aggr} (ha : aggr ≠ .other) (p : K) (keep : Nat → Bool) :
    Loc R fun X => Ord.evPass evP evD X aggr p keep r := by
  refine const fun A h1 => const fun P h2 => ?_
  have hP := (hP A h1).drop h2
  cases aggr
  · exact comp_eq (mm hP) (const fun D h => mm (hD D h))
  · exact mm hP
  · exact mm hP.softmax
  · exact absurd rfl ha

theorem passW {c : Cls} {r : GRaw K} (hM : ∀ M, Ord.evM c r = .ok M → Sup R M) (tr : Bool) (w : List K)
    {aggr : Aggr} (ha : aggr ≠ .other) (p : K) (keep : Nat → Bool) :
    Loc (fun i j => if tr then R j i else R i j) fun X => Ord.evPassW c tr w X aggr p keep r := by
  refine const fun A h1 => ite (fun _ => const fun P h2 => const fun P' h3 => ?_) fun _ => err _
  have hP : Sup (fun i j => if tr then R j i else R i j) P' := by
    have h := (hM A h1).withVals h2
    cases tr
    · exact h.coalesce.drop h3
    · exact h.t.coalesce.drop h3
  cases aggr
  · exact comp_eq (mm hP) (scale _)
  · exact mm hP
  · exact mm hP.softmax
  · exact absurd rfl ha

theorem toRows {c : Cls} {r : GRaw K} (hM : ∀ M, Ord.evM c r = .ok M → Sup R M) {aggr : Aggr} (ha : aggr ≠ .other)
    (ew : Option (List K)) (p : K) (keep : Nat → Bool) : Loc R fun X => Ord.evToRows c X aggr ew p keep r := by
  rcases ew with _ | w
  · refine pass hM (fun D h => ?_) ha p keep
    obtain ⟨E, h1, h2⟩ := bok h
    obtain ⟨M, _, h3⟩ := bok h1
    cases h2; cases h3
    exact (sup_diag _).inv
  · exact passW hM false w ha p keep

theorem toCols {c : Cls} {r : GRaw K} (hM : ∀ M, Ord.evM c r = .ok M → Sup R M) {aggr : Aggr} (ha : aggr ≠ .other)
    (ew : Option (List K)) (p : K) (keep : Nat → Bool) :
    Loc (fun i j => R j i) fun X => Ord.evToCols c X aggr ew p keep r := by
  rcases ew with _ | w
  · refine pass (fun P h => ?_) (fun D h => ?_) ha p keep
    · obtain ⟨M, h1, h2⟩ := bok h
      cases h2
      exact (hM M h1).t.coalesce
    · obtain ⟨E, h1, h2⟩ := bok h
      obtain ⟨M, _, h3⟩ := bok h1
      cases h2; cases h3
      exact (sup_diag _).inv
  · exact passW hM true w ha p keep

theorem sup_hcat {P Q M : Sp K} (hP : Sup R P) (hQ : Sup S Q) (h : P.hcat Q = .ok M) :
    Sup (fun i j => R i j ∨ P.cols ≤ j ∧ S i (j - P.cols)) M := by
  unfold Sp.hcat at h
  split at h
  · cases h
    intro i j hij
    simp only [List.map_append, List.map_map, List.mem_append] at hij
    rcases hij with hij | hij
    · exact .inl (hP i j hij)
    · obtain ⟨e, he, h⟩ := List.mem_map.1 hij
      simp only [Function.comp, Prod.mk.injEq] at h
      obtain ⟨h1, rfl⟩ := h
      refine .inr ⟨by omega, hQ _ _ (List.mem_map.2 ⟨e, he, Prod.ext h1 (by simp)⟩)⟩
  · cases h

theorem sup_vcat {P Q M : Sp K} (hP : Sup R P) (hQ : Sup S Q) (h : Sp.vcat P Q = .ok M) :
    Sup (fun i j => R i j ∨ P.rows ≤ i ∧ S (i - P.rows) j) M := by
  unfold Sp.vcat at h
  split at h
  · cases h
    intro i j hij
    simp only [List.map_append, List.map_map, List.mem_append] at hij
    rcases hij with hij | hij
    · exact .inl (hP i j hij)
    · obtain ⟨e, he, h⟩ := List.mem_map.1 hij
      simp only [Function.comp, Prod.mk.injEq] at h
      obtain ⟨rfl, h1⟩ := h
      refine .inr ⟨by omega, hQ _ _ (List.mem_map.2 ⟨e, he, Prod.ext (by simp) h1⟩)⟩
  · cases h

theorem sup_empty (m n : Nat) : Sup (fun _ _ => False) (Sp.empty m n : Sp K) := by
  intro i j h
  simp [Sp.empty] at h

theorem sup_biA {r : GRaw K} {B A : Sp K} (hB : Ord.evM .bi r = .ok B) (hr : B.rows = r.numU) (hM : Sup R B)
    (hA : Ord.evA r = .ok A) :
    Sup (fun i j => r.numU ≤ j ∧ R i (j - r.numU) ∨ r.numU ≤ i ∧ R j (i - r.numU)) A := by
  obtain ⟨B', h1, h2⟩ := bok hA
  rw [hB] at h1; cases h1
  obtain ⟨up, h3, h4⟩ := bok h2
  obtain ⟨BT, h5, h6⟩ := bok h4
  obtain ⟨down, h7, h8⟩ := bok h6
  obtain ⟨M, h9, h10⟩ := bok h8
  cases h10
  obtain ⟨B', h11, h12⟩ := bok h5
  rw [hB] at h11; cases h11; cases h12
  have hup : up.rows = r.numU := by
    unfold Sp.hcat at h3
    split at h3
    · cases h3; rfl
    · cases h3
  refine (sup_vcat (sup_hcat (sup_empty _ _) hM h3) (sup_hcat hM.t.coalesce (sup_empty _ _) h7) h9).coalesce.mono ?_
  rintro i j (h | ⟨h, h' | h'⟩)
  · rcases h with h | h
    · exact h.elim
    · exact .inl h
  · rw [hup] at h h'
    exact .inr ⟨h, h'⟩
  · exact h'.2.elim

theorem sup_gcnOf {n : Nat} {A L : Sp K} (hA : Sup R A) (h : BiGraph.gcnOf n A = .ok L) :
    Sup (fun i j => i = j ∨ R i j) L := by
  obtain ⟨D, h1, h2⟩ := bok h
  obtain ⟨M, h3, h4⟩ := bok h2
  obtain ⟨N, h5, h6⟩ := bok h4
  cases h6
  refine (sup_norm ((sup_diag _).rsqrt h1) (Sup.coalesce ?_) h3 h5).coalesce
  intro i j hij
  simp only [List.map_append, List.map_map, List.mem_append] at hij
  rcases hij with hij | hij
  · exact .inr (hA i j hij)
  · obtain ⟨e, he, h⟩ := List.mem_map.1 hij
    simp only [Function.comp, Prod.mk.injEq] at h
    exact .inl (h.1.symm.trans h.2)

/-! ### hypergraphs -/

theorem agg {evP evD : HRaw K → Except Err (Sp K)} {r : HRaw K} (hP : ∀ P, evP r = .ok P → Sup R P)
    (hD : ∀ D, evD r = .ok D → Sup Eq D) (aggr : Aggr) (w : Option (List K)) (p : K) (keep : Nat → Bool) :
    Loc R fun X => Hyper.evAgg evP evD X aggr w p keep r := by
  refine ite (fun _ => err _) fun ha => ?_
  rcases w with _ | w
  · refine const fun A h1 => const fun P h2 => ?_
    have hP := (hP A h1).drop h2
    cases aggr
    · exact comp_eq (mm hP) (const fun D h => mm (hD D h))
    · exact mm hP
    · exact mm hP.softmax
    · exact err _
  · refine const fun A h1 => ite (fun _ => const fun P h2 => const fun P h3 => ?_) fun _ => err _
    have hP := ((hP A h1).withVals h2).drop h3
    cases aggr
    · exact comp_eq (mm hP) (scale _)
    · exact mm hP
    · exact mm hP.softmax
    · exact err _

theorem mmD_rows {P : Sp K} {X Y : Dense K} (h : P.mmD X = .ok Y) : Y.rows = P.rows := by
  unfold Sp.mmD at h
  split at h
  · cases h; rfl
  · cases h

theorem drop_rows {P Q : Sp K} {p : K} {keep : Nat → Bool} (h : Graph.evDrop P p keep = .ok Q) : Q.rows = P.rows := by
  unfold Graph.evDrop at h
  split at h
  · unfold sparseDropout at h
    simp only at h
    split at h
    · split at h <;> cases h <;> rfl
    · cases h
  · cases h; rfl

theorem withVals_rows {P Q : Sp K} {w : List K} (h : P.withVals w = .ok Q) : Q.rows = P.rows := by
  unfold Sp.withVals at h
  split at h
  · cases h; rfl
  · cases h

/-- the shape of what is aggregated -/
theorem agg_rows {evP evD : HRaw K → Except Err (Sp K)} {r : HRaw K} {n : Nat} (hP : ∀ P, evP r = .ok P → P.rows = n)
    (hD : ∀ D, evD r = .ok D → D.rows = n) {aggr : Aggr} {w : Option (List K)} {p : K} {keep : Nat → Bool}
    {X Y : Dense K} (h : Hyper.evAgg evP evD X aggr w p keep r = .ok Y) : Y.rows = n := by
  unfold Hyper.evAgg at h
  split at h
  · cases h
  · rcases w with _ | w
    · obtain ⟨A, h1, h⟩ := bok h
      obtain ⟨P, h2, h⟩ := bok h
      have hp : P.rows = n := (drop_rows h2).trans (hP A h1)
      cases aggr
      · obtain ⟨Z, h3, h⟩ := bok h
        obtain ⟨D, h4, h⟩ := bok h
        exact (mmD_rows h).trans (hD D h4)
      · exact (mmD_rows h).trans hp
      · exact (mmD_rows h).trans hp
      · cases h
    · obtain ⟨A, h1, h⟩ := bok h
      split at h
      · obtain ⟨P, h2, h⟩ := bok h
        obtain ⟨P', h3, h⟩ := bok h
        have hp : P'.rows = n := (drop_rows h3).trans ((withVals_rows h2).trans (hP A h1))
        cases aggr
        · obtain ⟨Z, h4, h⟩ := bok h
          cases h
          exact (mmD_rows h4).trans hp
        · exact (mmD_rows h).trans hp
        · exact (mmD_rows h).trans hp
        · cases h
      · cases h

/-- a second step that mixes no rows of results with `n` rows -/
theorem comp_at {F G : Dense K → Except Err (Dense K)} {n : Nat} (hF : Loc R F)
    (hn : ∀ X Y, F X = .ok Y → Y.rows = n) (hG : Loc Eq fun X => if X.rows = n then G X else .error .runtime) :
    Loc R fun X => F X >>= G := by
  intro X X' h1 h2
  have h := comp_eq hF hG X X' h1 h2
  have e : ∀ X, (F X >>= fun X => if X.rows = n then G X else .error .runtime) = F X >>= G := by
    intro X
    rcases hX : F X with e | Y
    · rfl
    · exact if_pos (hn X Y hX)
  simpa only [e] using h

theorem mulCol (w : List K) : Loc (K := K) Eq fun X => if X.rows = w.length then X.mulCol w else .error .runtime := by
  intro X X' h1 h2
  by_cases h : X.rows = w.length
  · have e1 : X.mulCol w = _ := if_pos h.symm
    have e2 : X'.mulCol w = _ := if_pos (h1.trans h).symm
    refine .inl ⟨_, _, (if_pos h).trans e1, (if_pos (h1.trans h)).trans e2, h1, h2, fun i hi c hc => ?_⟩
    show w.getD i 0 * X.at_ i c = w.getD i 0 * X'.at_ i c
    rw [hi i rfl c hc]
  · exact .inr ⟨_, if_neg h, if_neg fun h' => h (h1.symm.trans h')⟩

open Hyper in
/-- `v2e` -/
theorem v2e {r : HRaw K} (hi : Hyper.Inv r) (hr : InRange r) {sc : Option String} (h : Has sc r) (aggr : Aggr)
    (w ew : Option (List K)) (p : K) (keep : Nat → Bool) :
    Loc (fun j v => (v : Int) ∈ Spec.hAt (lstOf sc r) j) fun X => evV2e sc X aggr w ew p keep r := by
  obtain ⟨M, hM, hT, hI⟩ := evHT_spec hi hr h
  refine const fun _ _ => ?_
  have hP : ∀ P, evHT sc r = .ok P → Sup (fun j v => (v : Int) ∈ Spec.hAt (lstOf sc r) j) P := by
    intro P hP
    rw [hT] at hP; cases hP
    refine Sup.t (R := fun v j => (v : Int) ∈ Spec.hAt (lstOf sc r) j) fun i j hij => ((hI.keys i j).1 hij).2.2
  have hD : ∀ D, evDeN1 sc r = .ok D → Sup Eq D ∧ D.rows = (lstOf sc r).length := by
    intro D hD
    rw [evDeN1_spec hi hr h] at hD; cases hD
    exact ⟨sup_diag _, by simp [Sp.diag]⟩
  have hagg : Loc (fun j v => (v : Int) ∈ Spec.hAt (lstOf sc r) j) fun X => evV2eAggr sc X aggr w p keep r :=
    const fun _ _ => agg hP (fun D h => (hD D h).1) aggr w p keep
  have hrows : ∀ X Y, evV2eAggr sc X aggr w p keep r = .ok Y → Y.rows = (lstOf sc r).length := by
    intro X Y hY
    obtain ⟨_, _, hY⟩ := bok hY
    refine agg_rows (fun P hP => ?_) (fun D h => (hD D h).2) hY
    rw [hT] at hP; cases hP
    exact hI.cols
  refine comp_at hagg hrows ?_
  rcases ew with _ | w'
  · have : Loc (K := K) Eq fun X => evV2eUpd sc X none r := const fun _ _ => const fun W hW => mm (by
      rw [evWe_spec hi h] at hW; cases hW; exact sup_diag _)
    intro X X' h1 h2
    by_cases hn : X.rows = (lstOf sc r).length
    · simpa only [if_pos hn, if_pos (h1.trans hn)] using this X X' h1 h2
    · exact .inr ⟨_, if_neg hn, if_neg fun h' => hn (h1.symm.trans h')⟩
  · have e : ∀ X : Dense K, evV2eUpd sc X (some w') r =
        if w'.length = (lstOf sc r).length then X.mulCol w' else .error .assertion := by
      intro X
      simp only [evV2eUpd, Hy.chk_ok h, evNumE_spec (.inl h), bind, Except.bind]
    by_cases hl : w'.length = (lstOf sc r).length
    · simp only [e, if_pos hl]
      rw [← hl]
      exact mulCol w'
    · simp only [e, if_neg hl]
      intro X X' h1 h2
      by_cases hn : X.rows = (lstOf sc r).length
      · exact .inr ⟨_, if_pos hn, if_pos (h1.trans hn)⟩
      · exact .inr ⟨_, if_neg hn, if_neg fun h' => hn (h1.symm.trans h')⟩

open Hyper in
/-- `e2v` -/
theorem e2v {r : HRaw K} (hi : Hyper.Inv r) (hr : InRange r) {sc : Option String} (h : Has sc r) (aggr : Aggr)
    (w : Option (List K)) (p : K) (keep : Nat → Bool) :
    Loc (fun v j => (v : Int) ∈ Spec.hAt (lstOf sc r) j) fun X => evE2v sc X aggr w p keep r := by
  obtain ⟨M, hM, hI⟩ := evH_spec hi hr h
  refine const fun _ _ => comp_eq (const fun _ _ => agg (fun P hP => ?_) (fun D hD => ?_) aggr w p keep)
    (const fun _ _ => ident)
  · rw [hM] at hP; cases hP
    exact fun i j hij => ((hI.keys i j).1 hij).2.2
  · rw [evDvN1_spec hi hr h] at hD; cases hD
    exact sup_diag _

theorem adj_of_common {l : List (List Int × K)} {i j k : Nat} (h1 : (i : Int) ∈ Spec.hAt l k)
    (h2 : (j : Int) ∈ Spec.hAt l k) : Spec.HAdj l i j := by
  by_cases hk : k < l.length
  · rw [Hyper.hAt_of_lt hk] at h1 h2
    exact ⟨_, List.getElem_mem hk, h1, h2⟩
  · rw [Hyper.hAt_of_ge (by omega)] at h1
    cases h1

open Hyper in
/-- `v2v` -/
theorem hyperV2v {r : HRaw K} (hi : Hyper.Inv r) (hr : InRange r) {sc : Option String} (h : Has sc r)
    (a : V2VArgs K) : Loc (Spec.HAdj (lstOf sc r)) fun X => evV2v sc X a r :=
  const fun _ _ => mono (comp (v2e hi hr h _ _ _ _ _) (e2v hi hr h _ _ _ _))
    fun _ _ ⟨_, h1, h2⟩ => adj_of_common h1 h2

open Hyper in
/-- `smoothing_with_HGNN` -/
theorem hyperHGNN {r : HRaw K} (hi : Hyper.Inv r) (hr : InRange r) {sc : Option String} (h : Has sc r)
    (p : K) (keep : Nat → Bool) : Loc (Spec.HAdj (lstOf sc r)) fun X => evSmooth sc X p keep r := by
  obtain ⟨M, hM, hT, hI⟩ := evHT_spec hi hr h
  refine const fun L h1 => const fun P h2 => mm ((?_ : Sup (Spec.HAdj (lstOf sc r)) L).drop h2)
  have hH : Sup (fun v j => (v : Int) ∈ Spec.hAt (lstOf sc r) j) M := fun i j hij => ((hI.keys i j).1 hij).2.2
  obtain ⟨D, h3, h1⟩ := bok h1
  obtain ⟨M', h4, h1⟩ := bok h1
  obtain ⟨W, h5, h1⟩ := bok h1
  obtain ⟨E, h6, h1⟩ := bok h1
  obtain ⟨T, h7, h1⟩ := bok h1
  obtain ⟨L', h8, h1⟩ := bok h1
  cases h1
  rw [hM] at h4; cases h4
  rw [hT] at h7; cases h7
  rw [evWe_spec hi h] at h5; cases h5
  rw [evDeN1_spec hi hr h] at h6; cases h6
  obtain ⟨D', h9, h10⟩ := bok h3
  rw [evDv_spec hi hr h] at h9; cases h9
  have hD := (sup_diag _).rsqrt h10
  obtain ⟨A1, g1, h8⟩ := bok h8
  obtain ⟨A2, g2, h8⟩ := bok h8
  obtain ⟨A3, g3, h8⟩ := bok h8
  obtain ⟨A4, g4, h8⟩ := bok h8
  obtain ⟨A5, g5, h8⟩ := bok h8
  cases h8
  refine ((((((hD.mm hH g1).mm (sup_diag _) g2).mm (sup_diag _) g3).mm hH.t g4).mm hD g5).mono ?_).coalesce
  rintro i j ⟨_, ⟨k, ⟨_, ⟨_, ⟨_, rfl, q1⟩, rfl⟩, rfl⟩, q2⟩, rfl⟩
  exact adj_of_common q1 q2

/-! ### networks -/

/-- networks from raw fields -/
def evNet {Q ρ : Type} (ev : Q → Dense K → ρ → Except Err (Dense K)) :
    List (Spec.Layer K Q) → Dense K → ρ → Except Err (Dense K)
  | [], X, _ => .ok X
  | .call q :: ls, X, r => do
    let Y ← ev q X r
    evNet ev ls Y r
  | .rows cols f :: ls, X, r => evNet ev ls (Spec.mapRows cols f X) r

theorem net_local {Q ρ : Type} {ev : Q → Dense K → ρ → Except Err (Dense K)} {r : ρ} :
    ∀ (ls : List (Spec.Layer K Q)),
      (∀ q, .call q ∈ ls → Loc (fun i j => i = j ∨ R i j) fun X => ev q X r) →
      Loc (Spec.Ball R (Spec.hops ls)) fun X => evNet ev ls X r
  | [], _ => ident
  | .call q :: ls, h =>
    mono (comp (h q (List.mem_cons_self ..)) (net_local ls fun q hq => h q (List.mem_cons_of_mem _ hq)))
      fun i j ⟨m, h1, h2⟩ => h2.elim (fun e => .inl (e ▸ h1)) fun h2 => .inr ⟨m, h1, h2⟩
  | .rows cols f :: ls, h =>
    mono (comp (mapRows cols f) (net_local ls fun q hq => h q (List.mem_cons_of_mem _ hq)))
      fun _ _ ⟨_, h1, h2⟩ => h2 ▸ h1

theorem near_joined : ∀ {k i j : Nat}, Spec.Ball R k i j → Spec.Joined R i j
  | 0, _, _, h => by cases h; exact .refl
  | _ + 1, _, _, .inl h => near_joined h
  | _ + 1, _, _, .inr ⟨_, h1, h2⟩ => (near_joined h1).tail h2

theorem net_reads {Q ρ κ ν : Type} {f : κ → ρ → Except Err ν} {call : Q → Dense K → PyM (Cached ρ κ ν) (Dense K)}
    {ev : Q → Dense K → ρ → Except Err (Dense K)} [DecidableEq κ] (h : ∀ q X, Reads f (call q X) (ev q X)) :
    ∀ (ls : List (Spec.Layer K Q)) (X : Dense K), Reads f (Spec.net call ls X) (evNet ev ls X)
  | [], X => Reads.pure X
  | .call q :: ls, X => Reads.bind (h q X) fun Y => net_reads h ls Y
  | .rows cols f :: ls, X => net_reads h ls _

theorem net_readsOn {Q ρ κ ν : Type} {T : κ → Prop} {f : κ → ρ → Except Err ν}
    {call : Q → Dense K → PyM (Cached ρ κ ν) (Dense K)}
    {ev : Q → Dense K → ρ → Except Err (Dense K)} [DecidableEq κ] (h : ∀ q X, ReadsOn T f (call q X) (ev q X)) :
    ∀ (ls : List (Spec.Layer K Q)) (X : Dense K), ReadsOn T f (Spec.net call ls X) (evNet ev ls X)
  | [], X => ReadsOn.pure X
  | .call q :: ls, X => ReadsOn.bind (h q X) fun Y => net_readsOn h ls Y
  | .rows cols f :: ls, X => net_readsOn h ls _

theorem map_id {x : Except Err (Dense K)} : x.map id = x := by cases x <;> rfl

/-- calls on a graph from raw fields -/
def evG : Spec.GCall K → Dense K → GRaw K → Except Err (Dense K)
  | .v2v aggr ew p keep, X, r => Graph.evV2v X aggr ew p keep r
  | .gcn p keep, X, r => Graph.evSmoothGCN X p keep r

/-- calls on a directed graph from raw fields -/
def evD (dir : Dir) (q : Spec.DCall K) (X : Dense K) (r : GRaw K) : Except Err (Dense K) :=
  DiGraph.evV2v X q.aggr q.ew dir q.p q.keep r

/-- calls on a hypergraph from raw fields -/
def evH : Spec.HCall K → Dense K → HRaw K → Except Err (Dense K)
  | .v2v sc a, X, r => Hyper.evV2v sc X a r
  | .hgnn sc p keep, X, r => Hyper.evSmooth sc X p keep r

open Graph in
theorem sup_graphA {g : GSt K} (hg : Graph.Built NonNeg g) {A : Sp K} (hA : Graph.evA g.raw = .ok A) :
    Sup (Spec.Adj (Spec.listing g)) A := by
  obtain ⟨A', hA', h⟩ := evA_spec hg.inv.1 hg.pos
  rw [hA'] at hA; cases hA
  rw [listing_lst hg]
  exact fun i j => (h.keys i j).1

open Graph in
theorem sup_graphA' {g : GSt K} (hg : Graph.Built NonNeg g) {A : Sp K} (hA : Graph.evA (withExtra g.raw) = .ok A) :
    Sup (fun i j => i = j ∨ Spec.Adj (Spec.listing g) i j) A := by
  obtain ⟨A', hA', h⟩ := evA_spec hg.inv.1.withExtra hg.pos.withExtra
  rw [hA'] at hA; cases hA
  rw [listing_lst hg]
  intro i j hij
  obtain ⟨e, he, h1⟩ := (h.keys i j).1 hij
  unfold lst at he
  rw [zip_listing] at he
  rcases List.mem_append.1 he with he | he
  · refine .inr ⟨e, ?_, h1⟩
    unfold lst
    rw [zip_listing]
    exact List.mem_append_left _ he
  · refine .inl ?_
    simp only [withExtra, if_true] at he
    obtain ⟨v, _, rfl⟩ := List.mem_map.1 he
    simp only [Prod.mk.injEq] at h1
    omega

theorem sup_di {w : Bool} {g : DSt K} (hg : DiGraph.Built Graph.NonNeg w g) {M : Sp K}
    (hM : Ord.evM .di g.raw = .ok M) : Sup (Spec.Arc (Spec.listingD g)) M := by
  obtain ⟨M', hM', h⟩ := Ord.evM_spec (Di.fits hg)
  rw [hM'] at hM; cases hM
  rw [Di.listing_lst hg]
  exact fun i j => (h.keys i j).1

theorem sup_bi {g : BSt K} (hg : BiGraph.Built Graph.NonNeg g) {M : Sp K} (hM : Ord.evM .bi g.raw = .ok M) :
    Sup (Spec.Arc (Spec.listingB g)) M ∧ M.rows = g.raw.numU := by
  obtain ⟨M', hM', h⟩ := Ord.evM_spec (Bi.fits hg (Bi.bipartite_of_evM hg hM))
  rw [hM'] at hM; cases hM
  rw [Bi.listing_lst hg]
  exact ⟨fun i j => (h.keys i j).1, h.rows⟩

theorem v2vD {w : Bool} {g : DSt K} (hg : DiGraph.Built Graph.NonNeg w g) (aggr : Aggr) (ew : Option (List K)) (p : K)
    (keep : Nat → Bool) :
    Loc (Spec.Arc (Spec.listingD g)) (fun X => DiGraph.evV2v X aggr ew .dst2src p keep g.raw) ∧
    Loc (fun i j => Spec.Arc (Spec.listingD g) j i) (fun X => DiGraph.evV2v X aggr ew .src2dst p keep g.raw) :=
  ⟨ite (fun _ => err _) fun ha => toRows (fun _ hM => sup_di hg hM) ha ew p keep,
    ite (fun _ => err _) fun ha => toCols (fun _ hM => sup_di hg hM) ha ew p keep⟩

end Loca

open Loca

variable [PyReal K]

/-! ## C120 -/

/-- C120 for one call on a graph: what `v2v` computes at `i`, with any aggregation, edge weights and dropped messages,
depends only on the features of the neighbours of `i`; `smoothing_with_GCN` also looks at `i` itself. -/
theorem C120_graph_call {g : GSt K} (hg : Graph.Built Graph.NonNeg g) (aggr : Aggr) (ew : Option (List K)) (p : K)
    (keep : Nat → Bool) :
    Spec.Local GAns.feat (Spec.Adj (Spec.listing g)) (fun X => (Graph.ask (.v2v X aggr ew p keep) g).1) ∧
    Spec.Local GAns.feat (fun i j => i = j ∨ Spec.Adj (Spec.listing g) i j)
      (fun X => (Graph.ask (.smoothGCN X p keep) g).1) :=
  ⟨wrap (graphV2v (fun _ hA => sup_graphA hg hA) aggr ew p keep)
      fun X => (Graph.reads_ask (.v2v X aggr ew p keep) g hg.inv.2).1,
    wrap (graphGCN (fun _ hA => sup_graphA' hg hA) p keep)
      fun X => (Graph.reads_ask (.smoothGCN X p keep) g hg.inv.2).1⟩

/-- C120 for networks on a graph: with `k` message passing calls and any row-wise functions between them, the result at
`i` depends only on the features of the vertices at most `k` steps away. -/
theorem C120_graph_network {g : GSt K} (hg : Graph.Built Graph.NonNeg g) (ls : List (Spec.Layer K (Spec.GCall K))) :
    Spec.Local id (Spec.Ball (Spec.Adj (Spec.listing g)) (Spec.hops ls))
      (fun X => (Spec.net Spec.GCall.run ls X g).1) := by
  refine wrap (net_local (ev := evG) (r := g.raw) ls fun q _ => ?_) fun X =>
    ((net_reads (f := Graph.evKey) (ev := evG) (fun q X => ?_) ls X g hg.inv.2).1).trans map_id.symm
  · cases q with
    | v2v aggr ew p keep => exact mono (graphV2v (fun _ hA => sup_graphA hg hA) aggr ew p keep) fun _ _ => .inr
    | gcn p keep => exact graphGCN (fun _ hA => sup_graphA' hg hA) p keep
  · cases q with
    | v2v aggr ew p keep => exact Graph.reads_v2v X aggr ew p keep
    | gcn p keep => exact Graph.reads_smoothGCN X p keep

/-- C120: connected components of a graph do not influence each other, however many layers there are. -/
theorem C120_graph_components {g : GSt K} (hg : Graph.Built Graph.NonNeg g)
    (ls : List (Spec.Layer K (Spec.GCall K))) :
    Spec.Local id (Spec.Joined (Spec.Adj (Spec.listing g))) (fun X => (Spec.net Spec.GCall.run ls X g).1) :=
  mono (C120_graph_network hg ls) fun _ _ => near_joined

/-- C120 for one call on a directed graph: `dst2src` looks at the targets of the edges leaving `i`, `src2dst` at the
sources of the edges entering it. -/
theorem C120_digraph_call {w : Bool} {g : DSt K} (hg : DiGraph.Built Graph.NonNeg w g) (aggr : Aggr)
    (ew : Option (List K)) (p : K) (keep : Nat → Bool) :
    Spec.Local GAns.feat (Spec.Arc (Spec.listingD g))
      (fun X => (DiGraph.ask (.v2v X aggr ew .dst2src p keep) g).1) ∧
    Spec.Local GAns.feat (fun i j => Spec.Arc (Spec.listingD g) j i)
      (fun X => (DiGraph.ask (.v2v X aggr ew .src2dst p keep) g).1) :=
  ⟨wrap (v2vD hg aggr ew p keep).1 fun _ => hg.ask _, wrap (v2vD hg aggr ew p keep).2 fun _ => hg.ask _⟩

/-- C120 for networks on a directed graph that pass messages in one direction: the result at `i` depends only on the
features of the vertices reached along (`dst2src`) or against (`src2dst`) at most as many edges as there are calls. -/
theorem C120_digraph_network {w : Bool} {g : DSt K} (hg : DiGraph.Built Graph.NonNeg w g)
    (ls : List (Spec.Layer K (Spec.DCall K))) :
    Spec.Local id (Spec.Ball (Spec.Arc (Spec.listingD g)) (Spec.hops ls))
      (fun X => (Spec.net (Spec.DCall.run .dst2src) ls X g).1) ∧
    Spec.Local id (Spec.Ball (fun i j => Spec.Arc (Spec.listingD g) j i) (Spec.hops ls))
      (fun X => (Spec.net (Spec.DCall.run .src2dst) ls X g).1) := by
  refine ⟨wrap (net_local (ev := evD .dst2src) (r := g.raw) ls fun q _ => ?_) fun X =>
    ((net_reads (f := Ord.evKey .di) (ev := evD .dst2src) (fun q X => ?_) ls X g hg.coh.1).1).trans map_id.symm,
    wrap (net_local (ev := evD .src2dst) (r := g.raw) ls fun q _ => ?_) fun X =>
    ((net_reads (f := Ord.evKey .di) (ev := evD .src2dst) (fun q X => ?_) ls X g hg.coh.1).1).trans map_id.symm⟩
  · exact mono (v2vD hg q.aggr q.ew q.p q.keep).1 fun _ _ => .inr
  · exact DiGraph.reads_v2v X _ _ _ _ _
  · exact mono (v2vD hg q.aggr q.ew q.p q.keep).2 fun _ _ => .inr
  · exact DiGraph.reads_v2v X _ _ _ _ _

/-- C120 for bipartite graphs: `u2v` computes the result at a vertex of the second part from its neighbours in the first,
`v2u` the other way round, and `smoothing_with_GCN` at any vertex from itself and its neighbours in the other part. -/
theorem C120_bigraph_call {g : BSt K} (hg : BiGraph.Built Graph.NonNeg g) {nu : Nat}
    (hn : (BiGraph.ask .numU g).1 = .ok (.num nu)) (aggr : Aggr) (ew : Option (List K)) (p : K)
    (keep : Nat → Bool) :
    Spec.Local GAns.feat (fun v u => Spec.Arc (Spec.listingB g) u v)
      (fun X => (BiGraph.ask (.u2v X aggr ew p keep) g).1) ∧
    Spec.Local GAns.feat (Spec.Arc (Spec.listingB g)) (fun X => (BiGraph.ask (.v2u X aggr ew p keep) g).1) ∧
    Spec.Local GAns.feat (fun i j => i = j ∨ Spec.Cross nu (Spec.listingB g) i j)
      (fun X => (BiGraph.ask (.smoothGCN X p keep) g).1) := by
  have hu : g.raw.numU = nu := by
    have := hg.ask .numU
    rw [hn] at this; cases this; rfl
  refine ⟨wrap (F := fun X => BiGraph.evU2v X aggr ew p keep g.raw)
      (ite (fun _ => err _) fun ha => toCols (fun _ hM => (sup_bi hg hM).1) ha ew p keep) fun _ => hg.ask _,
    wrap (F := fun X => BiGraph.evV2u X aggr ew p keep g.raw)
      (ite (fun _ => err _) fun ha => toRows (fun _ hM => (sup_bi hg hM).1) ha ew p keep) fun _ => hg.ask _,
    wrap (F := fun X => BiGraph.evSmoothGCN X p keep g.raw) (const fun L h1 => const fun P h2 => mm (Sup.drop ?_ h2))
      fun _ => hg.ask _⟩
  obtain ⟨A, h3, h4⟩ := bok h1
  obtain ⟨B, h5, _⟩ := bok h3
  refine (sup_gcnOf (sup_biA h5 (sup_bi hg h5).2 (sup_bi hg h5).1 h3) h4).mono fun i j h => ?_
  rw [hu] at h
  rcases h with h | ⟨h, h'⟩ | ⟨h, h'⟩
  · exact .inl h
  · exact .inr ⟨_, _, h', .inl ⟨rfl, by omega⟩⟩
  · exact .inr ⟨_, _, h', .inr ⟨rfl, by omega⟩⟩

/-- C120 for one call on a hypergraph, on all groups or one: `v2e` computes the result of a hyperedge from its vertices,
`e2v` that of a vertex from the hyperedges containing it, `v2v` and `smoothing_with_HGNN` that of a vertex from the
vertices sharing a hyperedge with it. -/
theorem C120_hypergraph_call {b : Bool} {s : HSt K} (hs : Hyper.Built Hyper.Proper b s) {sc : Option String}
    (hsc : Spec.HasScope s sc) (aggr : Aggr) (w ew : Option (List K)) (p : K) (keep : Nat → Bool)
    (args : Hyper.V2VArgs K) :
    Spec.Local HAns.feat (fun j v => (v : Int) ∈ Spec.hAt (Spec.hListing s sc) j)
      (fun X => (Hyper.ask (.v2e sc X aggr w ew p keep) s).1) ∧
    Spec.Local HAns.feat (fun v j => (v : Int) ∈ Spec.hAt (Spec.hListing s sc) j)
      (fun X => (Hyper.ask (.e2v sc X aggr w p keep) s).1) ∧
    Spec.Local HAns.feat (Spec.HAdj (Spec.hListing s sc)) (fun X => (Hyper.ask (.v2v sc X args) s).1) ∧
    Spec.Local HAns.feat (Spec.HAdj (Spec.hListing s sc)) (fun X => (Hyper.ask (.smoothHGNN sc X p keep) s).1) := by
  have hs' := hs.mono (Q := Hyper.AnyH) fun _ _ _ => trivial
  obtain ⟨hi, hc⟩ := hs'.inv
  have hh := Hy.has_of_scope hsc
  have hm : ∀ x : Except Err (Dense K), (do let Y ← x; .ok (HAns.feat Y)) = x.map HAns.feat := by
    intro x; cases x <;> rfl
  rw [Hy.listing_eq hs']
  refine ⟨wrap (v2e hi hs.inRange hh aggr w ew p keep) fun X => ?_,
    wrap (e2v hi hs.inRange hh aggr w p keep) fun X => ?_,
    wrap (hyperV2v hi hs.inRange hh args) fun X => ?_,
    wrap (hyperHGNN hi hs.inRange hh p keep) fun X => ?_⟩ <;>
  exact (Hyper.ask_eq _ hc (.inr (by simp))).trans (hm _)

/-- C120 for networks on a hypergraph, each call on all groups or one: the result at `i` depends only on the features of
the vertices that can be reached by stepping through at most as many hyperedges as there are calls. -/
theorem C120_hypergraph_network {b : Bool} {s : HSt K} (hs : Hyper.Built Hyper.Proper b s)
    (ls : List (Spec.Layer K (Spec.HCall K))) (hsc : ∀ q, .call q ∈ ls → Spec.HasScope s q.scope) :
    Spec.Local id (Spec.Ball (Spec.HAdj (Spec.hListing s none)) (Spec.hops ls))
      (fun X => (Spec.net Spec.HCall.run ls X s).1) := by
  have hs' := hs.mono (Q := Hyper.AnyH) fun _ _ _ => trivial
  obtain ⟨hi, hc⟩ := hs'.inv
  have hall : ∀ q : Spec.HCall K, Spec.Layer.call q ∈ ls → ∀ i j, Spec.HAdj (Hyper.lstOf q.scope s.raw) i j →
      i = j ∨ Spec.HAdj (Spec.hListing s none) i j := by
    intro q hq i j h
    have hq := hsc q hq
    rw [← Hy.listing_eq hs'] at h
    refine .inr ?_
    cases hx : q.scope with
    | none => rw [hx] at h; exact h
    | some g =>
      rw [hx] at h hq
      obtain ⟨e, he, h⟩ := h
      rw [C33_hypergraph_group_order hs']
      exact ⟨e, List.mem_flatMap.2 ⟨g, hq, he⟩, h⟩
  refine wrap (net_local (ev := evH) (r := s.raw) ls fun q hq => ?_) fun X =>
    ((net_readsOn (T := Hyper.Tr b) (f := Hyper.evKey) (ev := evH) (fun q X => ?_) ls X s hc).1).trans map_id.symm
  · have hh := Hy.has_of_scope (hsc q hq)
    have ha := hall q hq
    cases q with
    | v2v sc a => exact mono (hyperV2v hi hs.inRange hh a) ha
    | hgnn sc p keep => exact mono (hyperHGNN hi hs.inRange hh p keep) ha
  · cases q with
    | v2v sc a => exact Hyper.reads_v2v sc X a
    | hgnn sc p keep => exact Hyper.reads_smooth sc X p keep

/-- C120: connected components of a hypergraph do not influence each other. -/
theorem C120_hypergraph_components {b : Bool} {s : HSt K} (hs : Hyper.Built Hyper.Proper b s)
    (ls : List (Spec.Layer K (Spec.HCall K))) (hsc : ∀ q, .call q ∈ ls → Spec.HasScope s q.scope) :
    Spec.Local id (Spec.Joined (Spec.HAdj (Spec.hListing s none))) (fun X => (Spec.net Spec.HCall.run ls X s).1) :=
  mono (C120_hypergraph_network hs ls hsc) fun _ _ => near_joined

/-! ## Examples -/

example : Graph.Built Graph.NonNeg exG ∧ DiGraph.Built Graph.NonNeg false exD ∧ BiGraph.Built Graph.NonNeg exB ∧
    (BiGraph.ask .numU exB).1 = .ok (.num 2) ∧ Hyper.Built Hyper.Proper true exH ∧ Spec.HasScope exH none ∧
    Spec.HasScope exH (some "main") :=
  ⟨exG_nonneg, exD_nonneg, exB_nonneg, rfl, exH_proper, List.cons_ne_nil _ _, List.mem_cons_self⟩

/-- in the path 0 - 1 - 2, vertex 2 is two steps from vertex 0, not one -/
example : Spec.Ball (Spec.Adj (Spec.listing exG)) 2 0 2 ∧ ¬ Spec.Ball (Spec.Adj (Spec.listing exG)) 1 0 2 := by
  rw [exG_listing]
  refine ⟨.inr ⟨1, .inr ⟨0, rfl, ?_⟩, ?_⟩, ?_⟩
  · exact ⟨_, List.mem_cons_self, .inl rfl⟩
  · exact ⟨_, List.mem_cons_of_mem _ List.mem_cons_self, .inl rfl⟩
  · simp [Spec.Ball, Spec.Adj]

/-- a layer with two calls and an activation between them -/
noncomputable def exNet : List (Spec.Layer ℝ (Spec.GCall ℝ)) :=
  [.call (.v2v .sum none 0 fun _ => true), .rows 1 (fun x _ => max 0 x.sum), .call (.v2v .sum none 0 fun _ => true)]

example : Spec.hops exNet = 2 := rfl

/-- the network runs, and features of the right shape are in the first case of `Spec.Local` -/
example (X : Dense ℝ) (hX : X.rows = 3) : ∃ Y, (Spec.net Spec.GCall.run exNet X exG).1 = .ok Y := by
  have h : ∀ X : Dense ℝ, X.rows = 3 → ∃ Y, Graph.evV2v X .sum none 0 (fun _ => true) exG.raw = .ok Y ∧ Y.rows = 3 := by
    intro X hX
    obtain ⟨Y, h1, h2, _⟩ := C12_graph_v2v_sum exG_nonneg exG_numV X hX fun _ => true
    refine ⟨Y, ?_, h2⟩
    rw [(Graph.reads_ask (.v2v X .sum none 0 fun _ => true) exG exG_nonneg.inv.2).1] at h1
    simp only [Graph.evAsk] at h1
    rcases hx : Graph.evV2v X .sum none 0 (fun _ => true) exG.raw with e | Z
    · rw [hx] at h1; cases h1
    · rw [hx] at h1; cases h1; rfl
  have e := (net_reads (f := Graph.evKey) (call := Spec.GCall.run (K := ℝ)) (ev := evG)
    (fun q X => by cases q with
      | v2v aggr ew p keep => exact Graph.reads_v2v X aggr ew p keep
      | gcn p keep => exact Graph.reads_smoothGCN X p keep) exNet X exG exG_nonneg.inv.2).1
  rw [e]
  obtain ⟨Y, h1, h2⟩ := h X hX
  obtain ⟨Z, h3, _⟩ := h (Spec.mapRows 1 (fun x _ => max 0 x.sum) Y) h2
  refine ⟨Z, ?_⟩
  simp only [exNet, evNet, evG, h1, h3, bind, Except.bind]

/-- taking the total of all rows is not local -/
example : ¬ Spec.Local id Eq fun X : Dense ℝ => .ok { X with at_ := fun _ c => X.at_ 0 c + X.at_ 1 c } := by
  intro h
  rcases h ⟨2, 1, fun i _ => i⟩ ⟨2, 1, fun _ _ => 0⟩ rfl rfl with ⟨Y, Y', e1, e2, _, _, e5⟩ | ⟨e, e1, _⟩
  · simp only [id, Except.ok.injEq] at e1 e2
    subst e1 e2
    have := e5 0 (fun j hj => by subst hj; intro c _; simp) 0 (by norm_num)
    norm_num at this
  · cases e1

end Props
end DHG
