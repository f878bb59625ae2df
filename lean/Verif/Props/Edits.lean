import Verif.Props.Local

/-!
# Editing a graph far away does not change what message passing computes (C121)
-/

set_option linter.unusedSectionVars false
set_option autoImplicit false

namespace DHG

variable {K : Type} [Field K] [LinearOrder K]

namespace Spec

/-- calls without dropout that use the weights of the graph -/
def PlainCall : GCall K → Prop
  | .v2v aggr ew p _ => (aggr = .sum ∨ aggr = .mean) ∧ ew = none ∧ p = 0
  | .gcn p _ => p = 0

/-- the call adds or removes edges, none of which has an endpoint in `T` -/
def AwayFrom (T : Nat → Prop) : GOp K → Prop
  | .addEdges arg _ => Graph.NonNeg arg ∧ ∀ e ∈ named arg, ∀ m : Nat, T m → e.1 ≠ m ∧ e.2 ≠ m
  | .removeEdges arg => ∀ e ∈ named arg, ∀ m : Nat, T m → e.1 ≠ m ∧ e.2 ≠ m
  | _ => False

end Spec

namespace Props
open Finset Graph Loca

variable [PyReal K]

namespace Edit

theorem near_head {R : Nat → Nat → Prop} : ∀ {k i j m : Nat}, R i j → Spec.Ball R k j m → Spec.Ball R (k + 1) i m
  | 0, _, _, _, h, e => by cases e; exact .inr ⟨_, rfl, h⟩
  | _ + 1, _, _, _, h, .inl h' => .inl (near_head h h')
  | _ + 1, _, _, _, h, .inr ⟨m, h1, h2⟩ => .inr ⟨m, near_head h h1, h2⟩

theorem near_self {R : Nat → Nat → Prop} : ∀ (k i : Nat), Spec.Ball R k i i
  | 0, _ => rfl
  | k + 1, i => .inl (near_self k i)

/-- the same row of two products -/
theorem same_mm {P P' : Sp K} (hP : P.WF) (hP' : P'.WF) (hc : P'.cols = P.cols) {X X' Y Y' : Dense K}
    (hX : X'.cols = X.cols) (h : P.mmD X = .ok Y) (h' : P'.mmD X' = .ok Y') {i : Nat}
    (hg : ∀ j, j < P.cols → P.get i j = P'.get i j)
    (hs : ∀ j, j < P.cols → P.get i j ≠ 0 → Spec.SameRow X X' j) : Spec.SameRow Y Y' i := by
  intro c hlt
  rw [(Sp.mmD_shape h).2.2] at hlt
  rw [Sp.mmD_at h hP, Sp.mmD_at h' hP', hc]
  refine sum_congr rfl fun j hj => ?_
  have hj := mem_range.1 hj
  by_cases h0 : P.get i j = 0
  · rw [← hg j hj, h0, zero_mul, zero_mul]
  · rw [← hg j hj, hs j hj h0 c hlt]

variable {r r' : GRaw K}

/-- the same weights at `m` -/
def Same (r r' : GRaw K) (m : Nat) : Prop := ∀ j : Nat, Spec.wt (lst r) (m : Int) (j : Int) = Spec.wt (lst r') (m : Int) (j : Int)

/-- the same weights at all vertices within `k` steps of `m` -/
def Good (r r' : GRaw K) (k m : Nat) : Prop := ∀ m', Spec.Ball (Spec.Adj (lst r)) k m m' → Same r r' m'

theorem Good.same {k m : Nat} (h : Good r r' k m) : Same r r' m := h m (near_self k m)

theorem Good.next {k m j : Nat} (h : Good r r' (k + 1) m) (ha : Spec.Adj (lst r) m j) : Good r r' k j :=
  fun m' hm => h m' (near_head ha hm)

theorem Good.less {k m : Nat} (h : Good r r' (k + 1) m) : Good r r' k m := fun m' hm => h m' (.inl hm)

theorem same_degs (hr : Graph.Inv r) (hp : Pos r) (hr' : Graph.Inv r') (hp' : Pos r') (hn : r'.numV = r.numV) {m : Nat}
    (h : Same r r' m) : degs r m = degs r' m := by
  unfold degs
  rw [← sum_wt_deg (lst_InR hr hp), ← sum_wt_deg (lst_InR hr' hp'), hn]
  exact sum_congr rfl fun j _ => h j

theorem wt_extra (hr : Graph.Inv r) {i j : Nat} (hi : i < r.numV) :
    Spec.wt (lst (withExtra r)) (i : Int) (j : Int) =
      Spec.wt (lst r) (i : Int) (j : Int) + if i = j ∧ r.extra = false then 1 else 0 := by
  rw [wt_absR hr.withExtra, wt_absR hr]
  show (absR r i j).getD 0 + _ = _
  rw [add_assoc]
  congr 1
  by_cases hij : i = j
  · subst hij
    cases he : r.extra <;> simp [withExtra, hi]
  · simp [hij]

theorem same_extra (hr : Graph.Inv r) (hr' : Graph.Inv r') (hn : r'.numV = r.numV) (he : r'.extra = r.extra) {m : Nat}
    (hm : m < r.numV) (h : Same r r' m) : Same (withExtra r) (withExtra r') m := by
  intro j
  rw [wt_extra hr hm, wt_extra hr' (hn ▸ hm), he, h j]

theorem adj_extra (hr : Graph.Inv r) {i j : Nat} (hi : i < r.numV)
    (h : Spec.wt (lst (withExtra r)) (i : Int) (j : Int) ≠ 0) : i = j ∨ Spec.Adj (lst r) i j := by
  by_contra hc
  rw [not_or] at hc
  exact h (by rw [wt_extra hr hi, wt_eq_zero_of_not_adj hc.2, if_neg fun h => hc.1 h.1, add_zero])

/-- one call -/
theorem step (hr : Graph.Inv r) (hp : Pos r) (hr' : Graph.Inv r') (hp' : Pos r') (hn : r'.numV = r.numV)
    (he : r'.extra = r.extra) {q : Spec.GCall K} (hq : Spec.PlainCall q) {X X' Y Y' : Dense K} {k : Nat}
    (hc : X'.cols = X.cols) (hX : ∀ m, m < r.numV → Good r r' k m → Spec.SameRow X X' m)
    (hY : evG q X r = .ok Y) (hY' : evG q X' r' = .ok Y') :
    Y'.rows = Y.rows ∧ Y'.cols = Y.cols ∧ ∀ m, m < r.numV → Good r r' (k + 1) m → Spec.SameRow Y Y' m := by
  obtain ⟨A, hA, a⟩ := evA_spec hr hp
  obtain ⟨A', hA', a'⟩ := evA_spec hr' hp'
  have hlt : ∀ m j, Spec.Adj (lst r) m j → j < r.numV := fun m j h => by
    have := a.wf
    obtain ⟨e, h1, h2⟩ := List.mem_map.1 ((a.keys m j).2 h)
    have h3 := (this e h1).2
    rw [h2, a.cols] at h3
    exact h3
  have hsum : ∀ {Z Z' : Dense K}, A.mmD X = .ok Z → A'.mmD X' = .ok Z' →
      ∀ m, m < r.numV → Good r r' (k + 1) m → Spec.SameRow Z Z' m := by
    intro Z Z' hZ hZ' m _ hm
    refine same_mm a.wf a'.wf (a'.cols.trans (hn.trans a.cols.symm)) hc hZ hZ' (fun j _ => ?_) fun j hj h0 => ?_
    · rw [a.get, a'.get]; exact hm.same j
    · have : Spec.Adj (lst r) m j := by
        by_contra h; exact h0 (by rw [a.get]; exact wt_eq_zero_of_not_adj h)
      exact hX j (hlt m j this) (hm.next this)
  cases q with
  | v2v aggr ew p keep =>
    obtain ⟨ha, rfl, rfl⟩ := hq
    simp only [evG, evV2v, hA, hA', evDrop, lt_self_iff_false, if_false, bind, Except.bind] at hY hY'
    rcases ha with rfl | rfl
    · have s := Sp.mmD_shape hY
      have s' := Sp.mmD_shape hY'
      exact ⟨s'.2.1.trans ((a'.rows.trans (hn.trans a.rows.symm)).trans s.2.1.symm),
        s'.2.2.trans (hc.trans s.2.2.symm), hsum hY hY'⟩
    · simp only [reduceCtorEq, if_false] at hY hY'
      rcases hZ : A.mmD X with e | Z
      · rw [hZ] at hY; cases hY
      rcases hZ' : A'.mmD X' with e | Z'
      · rw [hZ'] at hY'; cases hY'
      rw [hZ, evDvN1_spec hr hp] at hY
      rw [hZ', evDvN1_spec hr' hp'] at hY'
      simp only at hY hY'
      have s := Sp.mmD_shape hY
      have s' := Sp.mmD_shape hY'
      have t := Sp.mmD_shape hZ
      have t' := Sp.mmD_shape hZ'
      refine ⟨s'.2.1.trans (Eq.trans ?_ s.2.1.symm), (s'.2.2.trans (t'.2.2.trans hc)).trans (s.2.2.trans t.2.2).symm,
        fun m hlt hm => ?_⟩
      · simp [Sp.diag_rows, hn]
      · refine same_mm (Sp.diag_WF _) (Sp.diag_WF _) (by simp [Sp.diag_cols, hn])
          (t'.2.2.trans (hc.trans t.2.2.symm)) hY hY' (fun j _ => ?_) fun j _ h0 => ?_
        · rw [Sp.diag_get, Sp.diag_get]
          simp [List.getD_eq_getElem?_getD, hlt, hn, same_degs hr hp hr' hp' hn hm.same]
        · rw [Sp.diag_get] at h0
          have : m = j := by by_contra h; exact h0 (if_neg h)
          subst this
          exact hsum hZ hZ' m hlt hm
  | gcn p keep =>
    cases hq
    have hdeg : ∀ {r : GRaw K}, Graph.Inv r → Pos r → ∀ {L}, evLGCN r = .ok L →
        Spec.IsMat r.numV r.numV (fun i j => negHalf (degs (withExtra r) i) *
          Spec.wt (lst (withExtra r)) (i : Int) (j : Int) * negHalf (degs (withExtra r) j)) L := by
      intro r hr hp L hL
      obtain ⟨N, h1, h2⟩ := bok hL
      cases h2
      have h0 : ∀ i, i < (withExtra r).numV → ¬ degs (withExtra r) i < 0 := by
        obtain ⟨D, h3, _⟩ := bok h1
        obtain ⟨E, h4, h5⟩ := bok h3
        rw [evDv_spec hr.withExtra hp.withExtra] at h4; cases h4
        rw [Sp.rsqrt_diag] at h5
        split at h5
        · next h => exact fun i hi => h _ (List.mem_map.2 ⟨i, List.mem_range.2 hi, rfl⟩)
        · cases h5
      obtain ⟨M, hM, _, h⟩ := evNormA_spec hr.withExtra hp.withExtra h0
      rw [h1] at hM; cases hM
      exact ⟨h.rows, h.cols, h.wf.coalesce, fun i j hi hj => by rw [Sp.get_coalesce]; exact h.get i j hi hj⟩
    simp only [evG] at hY hY'
    obtain ⟨L, h1, h2⟩ := bok hY
    obtain ⟨L', h1', h2'⟩ := bok hY'
    simp only [evDrop, lt_self_iff_false, if_false, bind, Except.bind] at h2 h2'
    have l := hdeg hr hp h1
    have l' := hdeg hr' hp' h1'
    have s := Sp.mmD_shape h2
    have s' := Sp.mmD_shape h2'
    refine ⟨s'.2.1.trans ((l'.rows.trans (hn.trans l.rows.symm)).trans s.2.1.symm),
        s'.2.2.trans (hc.trans s.2.2.symm), fun m hm hgood => ?_⟩
    have hex : ∀ j, j < r.numV → Same r r' j → degs (withExtra r) j = degs (withExtra r') j := fun j hj h =>
      same_degs hr.withExtra hp.withExtra hr'.withExtra hp'.withExtra hn (same_extra hr hr' hn he hj h)
    refine same_mm l.wf l'.wf (l'.cols.trans (hn.trans l.cols.symm)) hc h2 h2' (fun j hj => ?_) fun j hj h0 => ?_
    · rw [l.cols] at hj
      rw [l.get m j hm hj, l'.get m j (hn ▸ hm) (hn ▸ hj), hex m hm hgood.same,
        ← same_extra hr hr' hn he hm hgood.same j]
      by_cases hw : Spec.wt (lst (withExtra r)) (m : Int) (j : Int) = 0
      · rw [hw]; ring
      · rcases adj_extra hr hm hw with rfl | ha
        · rw [hex _ hm hgood.same]
        · rw [hex j hj (hgood.next ha).same]
    · rw [l.cols] at hj
      rw [l.get m j hm hj] at h0
      have hw : Spec.wt (lst (withExtra r)) (m : Int) (j : Int) ≠ 0 := fun h => h0 (by rw [h]; ring)
      rcases adj_extra hr hm hw with rfl | ha
      · exact hX _ hm hgood.less
      · exact hX j hj (hgood.next ha)

/-- networks -/
theorem steps (hr : Graph.Inv r) (hp : Pos r) (hr' : Graph.Inv r') (hp' : Pos r') (hn : r'.numV = r.numV)
    (he : r'.extra = r.extra) : ∀ (ls : List (Spec.Layer K (Spec.GCall K))), (∀ q, .call q ∈ ls → Spec.PlainCall q) →
    ∀ {X X' Y Y' : Dense K} {k : Nat}, X'.rows = X.rows → X'.cols = X.cols →
    (∀ m, m < r.numV → Good r r' k m → Spec.SameRow X X' m) →
    evNet evG ls X r = .ok Y → evNet evG ls X' r' = .ok Y' →
    Y'.rows = Y.rows ∧ Y'.cols = Y.cols ∧ ∀ m, m < r.numV → Good r r' (k + Spec.hops ls) m → Spec.SameRow Y Y' m
  | [], _, X, X', Y, Y', k, h1, h2, h3, h4, h5 => by
    cases h4; cases h5
    exact ⟨h1, h2, h3⟩
  | .call q :: ls, hq, X, X', Y, Y', k, h1, h2, h3, h4, h5 => by
    obtain ⟨Z, h6, h7⟩ := bok h4
    obtain ⟨Z', h8, h9⟩ := bok h5
    obtain ⟨i1, i2, i3⟩ := step hr hp hr' hp' hn he (hq q (List.mem_cons_self ..)) h2 h3 h6 h8
    obtain ⟨j1, j2, j3⟩ := steps hr hp hr' hp' hn he ls (fun q h => hq q (List.mem_cons_of_mem _ h)) i1 i2 i3 h7 h9
    refine ⟨j1, j2, fun m hm hg => j3 m hm ?_⟩
    rwa [show k + 1 + Spec.hops ls = k + Spec.hops (.call q :: ls) by simp only [Spec.hops]; omega]
  | .rows cols f :: ls, hq, X, X', Y, Y', k, h1, h2, h3, h4, h5 => by
    refine steps hr hp hr' hp' hn he ls (fun q h => hq q (List.mem_cons_of_mem _ h)) (X := Spec.mapRows cols f X)
      (X' := Spec.mapRows cols f X') h1 rfl (fun m hm hg c hc => ?_) h4 h5
    show f _ c = f _ c
    rw [h2]
    congr 1
    exact List.map_congr_left fun c hc => h3 m hm hg c (List.mem_range.1 hc)

theorem net_ev {g : GSt K} {P : EArg K → Prop} (hg : Built P g) (ls : List (Spec.Layer K (Spec.GCall K)))
    (X : Dense K) : (Spec.net Spec.GCall.run ls X g).1 = evNet evG ls X g.raw := by
  refine (net_reads (f := Graph.evKey) (ev := evG) (fun q X => ?_) ls X g hg.inv.2).1
  cases q with
  | v2v aggr ew p keep => exact Graph.reads_v2v X aggr ew p keep
  | gcn p keep => exact Graph.reads_smoothGCN X p keep

end Edit

open Edit

/-- C121. Two graphs with the same number of vertices and the same extra-loop flag: if at every vertex within `k` steps of
`i` they have the same weights, then a network with `k` message passing calls computes the same at `i`. -/
theorem C121_graph_around {g g' : GSt K} (hg : Built NonNeg g) (hg' : Built NonNeg g') {n : Nat}
    (hn : (ask .numV g).1 = .ok (.num n)) (hn' : (ask .numV g').1 = .ok (.num n))
    (he : (stateDict g').extra = (stateDict g).extra) (ls : List (Spec.Layer K (Spec.GCall K)))
    (hp : ∀ q, .call q ∈ ls → Spec.PlainCall q) (X : Dense K) {Y Y' : Dense K}
    (hY : (Spec.net Spec.GCall.run ls X g).1 = .ok Y) (hY' : (Spec.net Spec.GCall.run ls X g').1 = .ok Y')
    {i : Nat} (hi : i < n)
    (hs : ∀ m, Spec.Ball (Spec.Adj (Spec.listing g)) (Spec.hops ls) i m →
      ∀ j : Nat, Spec.wt (Spec.listing g) (m : Int) (j : Int) = Spec.wt (Spec.listing g') (m : Int) (j : Int)) :
    Y'.rows = Y.rows ∧ Y'.cols = Y.cols ∧ Spec.SameRow Y Y' i := by
  have e := numV_eq hn
  have e' := numV_eq hn'
  rw [net_ev hg] at hY
  rw [net_ev hg'] at hY'
  rw [listing_lst hg, listing_lst hg'] at hs
  obtain ⟨h1, h2, h3⟩ := steps hg.inv.1 hg.pos hg'.inv.1 hg'.pos (e'.trans e.symm) he ls hp (k := 0) rfl rfl
    (fun m _ _ c _ => rfl) hY hY'
  exact ⟨h1, h2, h3 i (e ▸ hi) (by rw [Nat.zero_add]; exact hs)⟩

namespace Edit

theorem weighted_named {arg : EArg K} {l : List (Int × Int × K)} (h : Spec.weighted arg = some l) {e : Int × Int × K}
    (he : e ∈ l) : (e.1, e.2.1) ∈ Spec.named arg := by
  rcases arg with ⟨a, b, w⟩ | ⟨es, _ | c | ws⟩ <;> simp only [Spec.weighted, Option.some.injEq, reduceCtorEq] at h <;> subst h
  · rw [List.mem_singleton] at he
    subst he
    exact List.mem_singleton.2 rfl
  · obtain ⟨x, hx, rfl⟩ := List.mem_map.1 he
    exact hx
  · obtain ⟨x, hx, rfl⟩ := List.mem_map.1 he
    exact (List.of_mem_zip (a := x.1) (b := x.2) hx).1

theorem add_frame {n : Nat} {m : Spec.WMap K} {arg : EArg K} {op : MergeOp} {a b : Int}
    (h : ∀ e ∈ Spec.named arg, e.1 ≠ a ∧ e.2 ≠ a) : Spec.add n m arg op a b = m a b := by
  unfold Spec.add
  split
  · cases hl : Spec.weighted arg with
    | some l =>
      have : ∀ (l' : List (Int × Int × K)), (∀ e ∈ l', e ∈ l) → ∀ m : Spec.WMap K,
          (l'.foldl (fun m e => Spec.put m op e.1 e.2.1 e.2.2) m) a b = m a b := by
        intro l'
        induction l' with
        | nil => intro _ m; rfl
        | cons e l' ih =>
          intro hsub m
          rw [List.foldl_cons, ih (fun e he => hsub e (List.mem_cons_of_mem _ he))]
          have := h _ (weighted_named hl (hsub e (List.mem_cons_self ..)))
          unfold Spec.put
          rw [if_neg]
          rintro (⟨h1, _⟩ | ⟨h1, _⟩)
          · exact this.1 h1.symm
          · exact this.2 h1.symm
      exact this l (fun _ h => h) m
    | none => rfl
  · rfl

theorem remove_frame {n : Nat} {m : Spec.WMap K} {arg : EArg K} {a b : Int}
    (h : ∀ e ∈ Spec.named arg, e.1 ≠ a ∧ e.2 ≠ a) : Spec.remove n m arg a b = m a b := by
  unfold Spec.remove
  split
  · have : ∀ (l : List (Int × Int)), (∀ e ∈ l, e ∈ Spec.named arg) → ∀ m : Spec.WMap K,
        (l.foldl (fun m e => Spec.erase m e.1 e.2) m) a b = m a b := by
      intro l
      induction l with
      | nil => intro _ m; rfl
      | cons e l ih =>
        intro hsub m
        rw [List.foldl_cons, ih (fun e he => hsub e (List.mem_cons_of_mem _ he))]
        have := h e (hsub e (List.mem_cons_self ..))
        unfold Spec.erase
        rw [if_neg]
        rintro (⟨h1, _⟩ | ⟨h1, _⟩)
        · exact this.1 h1.symm
        · exact this.2 h1.symm
    exact this _ (fun _ h => h) m
  · rfl

theorem avoid_one {g : GSt K} (hg : Built NonNeg g) {T : Nat → Prop} {o : GOp K} (ho : Spec.AwayFrom T o) :
    Built NonNeg (apply o g).2 ∧ (apply o g).2.raw.numV = g.raw.numV ∧ (apply o g).2.raw.extra = g.raw.extra ∧
      ∀ m, T m → ∀ j : Nat, Spec.wt (lst (apply o g).2.raw) (m : Int) (j : Int) = Spec.wt (lst g.raw) (m : Int) (j : Int) := by
  have hb : Built NonNeg (apply o g).2 := .op o hg fun a op h => by subst h; exact ho.1
  obtain ⟨h1, h2⟩ := absS_apply o g hg.inv.1
  have key : (apply o g).2.raw.extra = g.raw.extra ∧
      ∀ m, T m → ∀ j : Nat, absR (apply o g).2.raw (m : Int) (j : Int) = absR g.raw (m : Int) (j : Int) := by
    have hx : (apply o g).2.raw.extra = (Spec.apply g.raw.numV (absS g) o).extra := congrArg Spec.GState.extra h1
    have hm : absR (apply o g).2.raw = (Spec.apply g.raw.numV (absS g) o).map := congrArg Spec.GState.map h1
    rw [hx, hm]
    cases o with
    | addEdges arg op =>
      refine ⟨rfl, fun m hT j => ?_⟩
      exact add_frame fun e he => ho.2 e he m hT
    | removeEdges arg =>
      refine ⟨rfl, fun m hT j => ?_⟩
      exact remove_frame fun e he => ho e he m hT
    | _ => exact ho.elim
  refine ⟨hb, h2, key.1, fun m hT j => ?_⟩
  rw [wt_absR hb.inv.1, wt_absR hg.inv.1, h2, key.1, key.2 m hT j]

theorem avoid_all {T : Nat → Prop} : ∀ (os : List (GOp K)) {g : GSt K}, Built NonNeg g → (∀ o ∈ os, Spec.AwayFrom T o) →
    Built NonNeg (run g (os.map .op)) ∧ (run g (os.map .op)).raw.numV = g.raw.numV ∧
      (run g (os.map .op)).raw.extra = g.raw.extra ∧ ∀ m, T m → ∀ j : Nat,
        Spec.wt (lst (run g (os.map .op)).raw) (m : Int) (j : Int) = Spec.wt (lst g.raw) (m : Int) (j : Int)
  | [], g, hg, _ => ⟨hg, rfl, rfl, fun _ _ _ => rfl⟩
  | o :: os, g, hg, ho => by
    obtain ⟨a1, a2, a3, a4⟩ := avoid_one hg (ho o (List.mem_cons_self ..))
    obtain ⟨b1, b2, b3, b4⟩ := avoid_all os a1 fun o h => ho o (List.mem_cons_of_mem _ h)
    exact ⟨b1, b2.trans a2, b3.trans a3, fun m hT j => (b4 m hT j).trans (a4 m hT j)⟩

end Edit

/-- C121. Adding and removing edges in any number of calls, none of them at a vertex within `k` steps of `i`, does not
change what a network with `k` message passing calls computes at `i`. -/
theorem C121_graph_edits {g : GSt K} (hg : Built NonNeg g) {n : Nat} (hn : (ask .numV g).1 = .ok (.num n))
    (ls : List (Spec.Layer K (Spec.GCall K))) (hp : ∀ q, .call q ∈ ls → Spec.PlainCall q) {i : Nat} (hi : i < n)
    (os : List (GOp K))
    (ho : ∀ o ∈ os, Spec.AwayFrom (Spec.Ball (Spec.Adj (Spec.listing g)) (Spec.hops ls) i) o) (X : Dense K)
    {Y Y' : Dense K} (hY : (Spec.net Spec.GCall.run ls X g).1 = .ok Y)
    (hY' : (Spec.net Spec.GCall.run ls X (run g (os.map .op))).1 = .ok Y') :
    Y'.rows = Y.rows ∧ Y'.cols = Y.cols ∧ Spec.SameRow Y Y' i := by
  obtain ⟨h1, h2, h3, h4⟩ := avoid_all os hg ho
  refine C121_graph_around hg h1 hn ?_ h3 ls hp X hY hY' hi fun m hm j => ?_
  · have : (ask .numV (run g (os.map .op))).1 = .ok (.num (run g (os.map .op)).raw.numV) := rfl
    rw [this, h2, numV_eq hn]
  · rw [listing_lst hg, listing_lst h1]
    exact (h4 m hm j).symm

/-- C121. The exact effect of adding the edge `{a,b}` with weight `w` (merged by adding) on `v2v` with `aggr="sum"`:
`w` times the features of `b` are added at `a`, `w` times those of `a` at `b`, and nothing changes elsewhere. -/
theorem C121_graph_add_edge {g : GSt K} (hg : Built NonNeg g) {n : Nat} (hn : (ask .numV g).1 = .ok (.num n))
    {a b : Nat} (ha : a < n) (hb : b < n) (hab : a ≠ b) (w : K) (X : Dense K) (hX : X.rows = n) (keep : Nat → Bool) :
    ∃ Y Y', (ask (.v2v X .sum none 0 keep) g).1 = .ok (.feat Y) ∧
      (ask (.v2v X .sum none 0 keep) (apply (.addEdges (.single a b (some w)) .sum) g).2).1 = .ok (.feat Y') ∧
      ∀ i c, Y'.at_ i c = Y.at_ i c + (if i = a then w * X.at_ b c else 0) + (if i = b then w * X.at_ a c else 0) := by
  have hb' : Built NonNeg (apply (.addEdges (.single a b (some w)) .sum) g).2 :=
    .op _ hg fun x op h => by cases h; exact ⟨Int.natCast_nonneg _, Int.natCast_nonneg _⟩
  obtain ⟨h1, h2⟩ := absS_apply (.addEdges (.single a b (some w)) .sum) g hg.inv.1
  have hn' := numV_eq hn
  obtain ⟨Y, hY, _, _, y⟩ := C12_graph_v2v_sum hg hn X hX keep
  obtain ⟨Y', hY', _, _, y'⟩ := C12_graph_v2v_sum hb' (n := n) (by
    rw [← hn', ← h2]; rfl) X hX keep
  refine ⟨Y, Y', hY, hY', fun i c => ?_⟩
  have hwt : ∀ i j : Nat, Spec.wt (Spec.listing (apply (.addEdges (.single a b (some w)) .sum) g).2) (i : Int) (j : Int) =
      Spec.wt (Spec.listing g) (i : Int) (j : Int) + (if j = b then (if i = a then w else 0) else 0) +
        (if j = a then (if i = b then w else 0) else 0) := by
    intro i j
    have hx : (apply (.addEdges (.single a b (some w)) .sum) g).2.raw.extra = g.raw.extra :=
      congrArg Spec.GState.extra h1
    have hm : absR (apply (.addEdges (.single a b (some w)) .sum) g).2.raw =
        Spec.add g.raw.numV (absR g.raw) (.single a b (some w)) .sum := congrArg Spec.GState.map h1
    rw [listing_lst hg, listing_lst hb', wt_absR hb'.inv.1, wt_absR hg.inv.1, h2, hx, hm]
    have hadd : Spec.add g.raw.numV (absR g.raw) (.single a b (some w)) .sum =
        Spec.put (absR g.raw) .sum (a : Int) (b : Int) w := by
      unfold Spec.add
      rw [if_pos]
      · rfl
      · refine ⟨fun e he => ?_, by decide⟩
        rw [Spec.named, List.mem_singleton] at he
        subst he
        rw [hn']
        exact ⟨Int.ofNat_lt.2 ha, Int.ofNat_lt.2 hb⟩
    have hput : (Spec.put (absR g.raw) .sum (a : Int) (b : Int) w (i : Int) (j : Int)).getD 0 =
        (absR g.raw (i : Int) (j : Int)).getD 0 + ((if j = b then (if i = a then w else 0) else 0) +
        (if j = a then (if i = b then w else 0) else 0)) := by
      have hval : (Spec.put (absR g.raw) .sum (a : Int) (b : Int) w (a : Int) (b : Int)).getD 0 =
          (absR g.raw (a : Int) (b : Int)).getD 0 + w := by
        unfold Spec.put
        rw [if_pos (.inl ⟨rfl, rfl⟩)]
        cases absR g.raw (a : Int) (b : Int) <;> simp [Spec.merge]
      by_cases c1 : i = a ∧ j = b
      · obtain ⟨rfl, rfl⟩ := c1
        rw [hval]
        simp [hab]
      · by_cases c2 : i = b ∧ j = a
        · obtain ⟨rfl, rfl⟩ := c2
          have hsw : Spec.put (absR g.raw) .sum (j : Int) (i : Int) w (i : Int) (j : Int) =
              Spec.put (absR g.raw) .sum (j : Int) (i : Int) w (j : Int) (i : Int) := by
            unfold Spec.put
            rw [if_pos (.inr ⟨rfl, rfl⟩), if_pos (.inl ⟨rfl, rfl⟩)]
          have hsym : absR g.raw (j : Int) (i : Int) = absR g.raw (i : Int) (j : Int) := absR_symm _ _ _
          rw [hsw, hval, hsym]
          simp [hab]
        · unfold Spec.put
          rw [if_neg (by omega)]
          have e1 : (if j = b then (if i = a then w else 0) else 0) = (0 : K) := by
            split
            · split
              · omega
              · rfl
            · rfl
          have e2 : (if j = a then (if i = b then w else 0) else 0) = (0 : K) := by
            split
            · split
              · omega
              · rfl
            · rfl
          rw [e1, e2, add_zero, add_zero]
    rw [hadd, hput]
    ring
  rw [y' i c, y i c]
  have : ∀ j ∈ range n, Spec.wt (Spec.listing (apply (.addEdges (.single a b (some w)) .sum) g).2) (i : Int) (j : Int) *
      X.at_ j c = Spec.wt (Spec.listing g) (i : Int) (j : Int) * X.at_ j c +
        (if j = b then (if i = a then w * X.at_ b c else 0) else 0) +
        (if j = a then (if i = b then w * X.at_ a c else 0) else 0) := by
    intro j _
    rw [hwt, add_mul, add_mul]
    congr 1
    · congr 1
      by_cases hj : j = b
      · subst hj; split <;> simp
      · simp [hj]
    · by_cases hj : j = a
      · subst hj; split <;> simp
      · simp [hj]
  rw [sum_congr rfl this, sum_add_distrib, sum_add_distrib, sum_ite_eq' (range n), sum_ite_eq' (range n),
    if_pos (mem_range.2 hb), if_pos (mem_range.2 ha)]

/-! ## Examples -/

/-- an edge list that stays away from vertex 0 for one call: the loop at 2 -/
example : Spec.AwayFrom (K := ℝ) (Spec.Ball (Spec.Adj (Spec.listing exG)) 1 0) (.removeEdges (.many [(2, 2)] .none)) := by
  intro e he m hm
  rw [exG_listing] at hm
  simp only [Spec.named, List.mem_singleton] at he
  subst he
  simp [Spec.Ball, Spec.Adj] at hm
  constructor <;> omega

example : Built NonNeg exG ∧ (ask .numV exG).1 = .ok (.num 3) ∧ (∀ q, .call q ∈ exNet → Spec.PlainCall q) :=
  ⟨exG_nonneg, exG_numV, fun q hq => by
    simp only [exNet, List.mem_cons, List.not_mem_nil, or_false, Spec.Layer.call.injEq, reduceCtorEq, false_or] at hq
    rcases hq with rfl | rfl <;> exact ⟨.inl rfl, rfl, rfl⟩⟩

end Props
end DHG
