import Verif.OrderedLemmas

/-!
# Invariants of `DiGraph` objects
-/

set_option linter.unusedSectionVars false
set_option autoImplicit false

namespace DHG
namespace DiGraph

variable {K : Type} [Field K] [LinearOrder K]

theorem reverse_ok (s : DSt K) (h : s.raw.eDict.keys.Nodup) :
    reverseDirection s =
      (.ok (), { s with raw := { s.raw with eDict := Ord.swapE s.raw.eDict } }) := by
  simp [reverseDirection, setRaw, Ord.ofPairs_swapE h]

theorem Inv.swap {r : GRaw K} (h : Ord.Inv .di r) :
    Ord.Inv .di { r with eDict := Ord.swapE r.eDict } :=
  { h with
    nodupE := Ord.nodup_swapE h.nodupE
    ne := by
      intro _ p hp heq
      exact h.ne rfl _ ((Ord.mem_keys_swapE _ _).1 hp) heq.symm
    ltE := by
      intro p hp
      have := h.ltE _ ((Ord.mem_keys_swapE _ _).1 hp)
      exact ⟨this.2, this.1⟩ }

theorem absO_swap {r : GRaw K} :
    Ord.absO { r with eDict := Ord.swapE r.eDict } = fun a b => Ord.absO r b a := by
  funext a b
  unfold Ord.absO
  simp only [Ord.get?_swapE]
  cases Dict.get? r.eDict (b, a) with
  | some w => rfl
  | none =>
    simp only
    by_cases h : a = b
    · subst h; rfl
    · rw [if_neg h, if_neg (Ne.symm h)]

theorem apply_inv (o : DOp K) {s : DSt K} (h : Ord.Inv .di s.raw) : Ord.Inv .di (apply o s).2.raw := by
  cases o with
  | addEdges arg op => exact Ord.addEdges_inv arg op h
  | removeEdges arg => exact Ord.removeEdges_inv arg h
  | addExtraSelfloop => exact { h with }
  | removeExtraSelfloop => exact { h with }
  | removeSelfloop =>
    exact { h with nodupL := List.nodup_nil, noL := fun _ => rfl, ltL := fun v hv => by cases hv }
  | clear =>
    exact { h with
      nodupL := List.nodup_nil, noL := fun _ => rfl, ltL := fun v hv => by cases hv
      nodupE := List.nodup_nil, ne := fun _ v hv => (by cases hv)
      ltE := fun v hv => by cases hv }
  | reverseDirection =>
    show Ord.Inv .di (reverseDirection s).2.raw
    rw [reverse_ok s h.nodupE]
    exact Inv.swap h

theorem apply_pos (o : DOp K) {s : DSt K} (hi : s.raw.eDict.keys.Nodup) (h : Graph.Pos s.raw)
    (ho : ∀ a op, o = .addEdges a op → Graph.NonNeg a) : Graph.Pos (apply o s).2.raw := by
  cases o with
  | addEdges arg op => exact Ord.addEdges_pos arg op h (ho _ _ rfl)
  | removeEdges arg => exact Ord.removeEdges_pos arg h
  | addExtraSelfloop => exact { h with }
  | removeExtraSelfloop => exact { h with }
  | removeSelfloop => exact { h with L := fun v hv => by cases hv }
  | clear => exact ⟨fun v hv => (by cases hv), fun v hv => (by cases hv)⟩
  | reverseDirection =>
    show Graph.Pos (reverseDirection s).2.raw
    rw [reverse_ok s hi]
    exact { h with
      E := by
        intro p hp
        have := h.E _ ((Ord.mem_keys_swapE _ _).1 hp)
        exact ⟨this.2, this.1⟩ }

theorem apply_sizes (o : DOp K) (s : DSt K) :
    (apply o s).2.raw.numV = s.raw.numV := by
  cases o with
  | addEdges arg op => exact (Ord.addEdges_sizes arg op s).1
  | removeEdges arg => exact (Ord.removeEdges_sizes arg s).1
  | _ => rfl

/-- mutators other than `reverse_direction` either do nothing or clear the cache -/
theorem apply_cache (o : DOp K) (s : DSt K) (ho : o ≠ .reverseDirection) :
    (apply o s).2 = s ∨ (apply o s).2.cache = [] := by
  cases o with
  | addEdges arg op => exact Ord.addEdges_cache arg op s
  | removeEdges arg => exact Ord.removeEdges_cache arg s
  | reverseDirection => exact absurd rfl ho
  | _ => exact .inr rfl

theorem apply_clears (o : DOp K) (s : DSt K) (hc : Clears o) (hok : (apply o s).1 = .ok ()) :
    (apply o s).2.cache = [] := by
  cases o with
  | addEdges arg op => exact Ord.addEdges_clears arg op s hc hok
  | removeEdges arg => exact Ord.removeEdges_clears arg s hok
  | reverseDirection => exact hc.elim
  | _ => rfl

theorem init_inv {n : Int} {extra : Bool} {r : GRaw K} (h : GRaw.init n extra = .ok r) :
    Ord.Inv .di r ∧ Graph.Pos r ∧ r = { numV := n.toNat, eDict := [], loops := [], extra } ∧ 0 < n := by
  unfold GRaw.init at h
  split at h
  · cases h
    refine ⟨{ numU := fun _ => rfl, pos := fun _ => by show 0 < n.toNat; omega
              nodupE := List.nodup_nil, nodupL := List.nodup_nil, ne := fun _ _ hv => (by cases hv)
              noL := fun _ => rfl, ltE := ?_, ltL := ?_ }, ⟨?_, ?_⟩, rfl, by assumption⟩ <;>
      (intro v hv; cases hv)
  · cases h

theorem new_eq {n : Int} {arg : Option (EArg K)} {extra : Bool} {op : MergeOp} {g : DSt K}
    (h : DiGraph.new n arg extra op = .ok g) :
    0 < n ∧ g.cache = [] ∧
    g.raw = match arg with
      | none => { numV := n.toNat, eDict := [], loops := [], extra }
      | some a => (Ord.addEdges .di a op
          { raw := { numV := n.toNat, eDict := [], loops := [], extra }, cache := [] }).2.raw := by
  unfold DiGraph.new at h
  cases hi : GRaw.init (K := K) n extra with
  | error e => rw [hi] at h; cases h
  | ok r =>
    rw [hi] at h
    simp only [bind, Except.bind] at h
    obtain ⟨_, _, rfl, hn⟩ := init_inv hi
    cases arg with
    | none => cases h; exact ⟨hn, rfl, rfl⟩
    | some a =>
      simp only at h
      split at h
      · rename_i s hs
        cases h
        refine ⟨hn, ?_, by simp only [hs]⟩
        rcases Ord.addEdges_cache (c := .di) a op
          { raw := { numV := n.toNat, eDict := [], loops := [], extra }, cache := [] } with h' | h'
        · rw [hs] at h'; simp only at h'; rw [h']
        · rw [hs] at h'; exact h'
      · cases h

theorem new_inv {n : Int} {arg : Option (EArg K)} {extra : Bool} {op : MergeOp} {g : DSt K}
    (h : DiGraph.new n arg extra op = .ok g) : Ord.Inv .di g.raw ∧ g.cache = [] := by
  obtain ⟨hn, hc, hr⟩ := new_eq h
  refine ⟨?_, hc⟩
  have hi : Ord.Inv .di ({ numV := n.toNat, eDict := [], loops := [], extra } : GRaw K) :=
    (init_inv (n := n) (extra := extra) (by unfold GRaw.init; rw [if_pos hn])).1
  rw [hr]
  cases arg with
  | none => exact hi
  | some a => exact Ord.addEdges_inv a op hi

theorem new_pos {n : Int} {arg : Option (EArg K)} {extra : Bool} {op : MergeOp} {g : DSt K}
    (h : DiGraph.new n arg extra op = .ok g) (hP : ∀ a, arg = some a → Graph.NonNeg a) :
    Graph.Pos g.raw := by
  obtain ⟨hn, hc, hr⟩ := new_eq h
  have hi : Graph.Pos ({ numV := n.toNat, eDict := [], loops := [], extra } : GRaw K) :=
    (init_inv (n := n) (extra := extra) (by unfold GRaw.init; rw [if_pos hn])).2.1
  rw [hr]
  cases arg with
  | none => exact hi
  | some a => exact Ord.addEdges_pos a op hi (hP a rfl)

theorem fromStateDict_ok {d : StateDict K} {g : DSt K} (h : fromStateDict d = .ok g) :
    g = { raw := { numV := d.numV, eDict := d.eDict, loops := d.loops, extra := d.extra }, cache := [] } ∧
      0 < d.numV := by
  unfold fromStateDict at h
  unfold GRaw.init at h
  split at h
  · simp only [bind, Except.bind] at h
    cases h
    exact ⟨rfl, by omega⟩
  · cases h

theorem fromStateDict_stateDict {g : DSt K} (h : Ord.Inv .di g.raw) :
    fromStateDict (stateDict g) = .ok { raw := g.raw, cache := [] } := by
  unfold fromStateDict stateDict GRaw.init
  have h0 := h.pos rfl
  have h1 := h.numU rfl
  have h2 : (0 : Int) < (g.raw.numV : Int) := by omega
  rw [if_pos h2]
  obtain ⟨⟨u, n, e, l, x⟩, c⟩ := g
  simp only at h1
  subst h1
  rfl

theorem drop_raw {g g' : DSt K} {rate uniform rnd} (h : dropEdges rate uniform rnd g = .ok g') :
    g' = { raw := { numV := g.raw.numV, eDict := Graph.dropFilter rate rnd 0 g.raw.eDict
                    loops := Graph.dropFilter rate rnd g.raw.eDict.length g.raw.loops
                    extra := g.raw.extra }, cache := [] } ∧ uniform = true := by
  unfold dropEdges at h
  split at h
  · exact ⟨(fromStateDict_ok h).1, by assumption⟩
  · cases h

theorem drop_inv {g g' : DSt K} {rate uniform rnd} (h : dropEdges rate uniform rnd g = .ok g')
    (hg : Ord.Inv .di g.raw) : Ord.Inv .di g'.raw ∧ g'.cache = [] := by
  obtain ⟨rfl, _⟩ := drop_raw h
  refine ⟨?_, rfl⟩
  have hE := (Graph.dropFilter_sublist rate rnd 0 g.raw.eDict).map Prod.fst
  have hL := (Graph.dropFilter_sublist rate rnd g.raw.eDict.length g.raw.loops).map Prod.fst
  exact { numU := fun _ => rfl, pos := fun _ => hg.pos rfl, nodupE := hg.nodupE.sublist hE
          nodupL := hg.nodupL.sublist hL, ne := fun _ p hp => hg.ne rfl p (hE.subset hp)
          noL := fun hc => (by cases hc)
          ltE := fun p hp => hg.ltE p (hE.subset hp)
          ltL := fun p hp => hg.ltL p (hL.subset hp) }

theorem drop_pos {g g' : DSt K} {rate uniform rnd} (h : dropEdges rate uniform rnd g = .ok g')
    (hg : Graph.Pos g.raw) : Graph.Pos g'.raw := by
  obtain ⟨rfl, _⟩ := drop_raw h
  have hE := (Graph.dropFilter_sublist rate rnd 0 g.raw.eDict).map Prod.fst
  have hL := (Graph.dropFilter_sublist rate rnd g.raw.eDict.length g.raw.loops).map Prod.fst
  exact ⟨fun p hp => hg.E p (hE.subset hp), fun p hp => hg.L p (hL.subset hp)⟩

variable [PyReal K]

theorem keeps_ask (q : DQuery K) : Ord.Keeps (ask q) := by
  cases q with
  | e => exact Ord.keeps_getE.map _
  | numV => exact (Ord.Keeps.readRaw _).map _
  | numE => exact (Ord.Keeps.readRaw _).map _
  | A => exact Ord.keeps_getM.map _
  | AT => exact Ord.keeps_getMT.map _
  | DvOut => exact Ord.keeps_getDr.map _
  | DvIn => exact Ord.keeps_getDc.map _
  | DvOutN1 => exact Ord.keeps_getDrN1.map _
  | DvInN1 => exact Ord.keeps_getDcN1.map _
  | Nout v => exact (Ord.keeps_getM.bind fun _ => Ord.Keeps.lift _).map _
  | Nin v => exact (Ord.keeps_getMT.bind fun _ => Ord.Keeps.lift _).map _
  | degOut => exact Ord.keeps_getDr.map _
  | degIn => exact Ord.keeps_getDc.map _
  | eSrc => exact (Ord.keeps_getM.map _).map _
  | eDst => exact (Ord.keeps_getM.map _).map _
  | eWeight => exact (Ord.keeps_getM.map _).map _
  | v2v X aggr ew dir p keep =>
    refine Ord.Keeps.map (Ord.Keeps.bind (Ord.Keeps.assert _) fun _ => ?_) _
    cases dir
    · exact Ord.keeps_toRows X aggr ew p keep
    · exact Ord.keeps_toCols X aggr ew p keep
    · exact Ord.Keeps.raise _

/-- the raw fields of every obtainable object satisfy the invariant -/
theorem Any.inv {P : EArg K → Prop} {g : DSt K} (h : Any P g) : Ord.Inv .di g.raw := by
  induction h with
  | new h _ => exact (new_inv h).1
  | adj h _ => exact (new_inv h).1
  | op o _ _ ih => exact apply_inv o ih
  | @read g q hg ih => rw [keeps_ask q g]; exact ih
  | clone _ ih => exact ih
  | state _ h ih =>
    rw [fromStateDict_stateDict ih] at h; cases h; exact ih
  | drop _ h ih => exact (drop_inv h ih).1

theorem Any.pos {g : DSt K} (h : Any Graph.NonNeg g) : Graph.Pos g.raw := by
  induction h with
  | new h hP => exact new_pos h hP
  | adj h hP => exact new_pos h (by intro a ha; cases ha; exact hP)
  | op o hg ho ih => exact apply_pos o hg.inv.nodupE ih ho
  | @read g q hg ih => rw [keeps_ask q g]; exact ih
  | clone _ ih => exact ih
  | state hg h ih =>
    rw [fromStateDict_stateDict hg.inv] at h; cases h; exact ih
  | drop _ h ih => exact drop_pos h ih

theorem Built.any {P : EArg K → Prop} {w : Bool} {g : DSt K} (h : Built P w g) : Any P g := by
  induction h with
  | new h hP => exact .new h hP
  | adj h hP => exact .adj h hP
  | refresh o hg _ _ hP => exact .op o hg hP
  | op o _ _ hP ih => exact .op o ih hP
  | reverse _ ih => exact .op .reverseDirection ih (by intro _ _ h; cases h)
  | read q _ ih => exact .read q ih
  | clone _ ih => exact .clone ih
  | state hg h => exact .state hg h
  | drop hg h => exact .drop hg h

theorem coherent_of_nil {c : Cls} {s : OSt K} (h : s.cache = []) : Coherent (Ord.evKey c) s := by
  intro k v hk; rw [h] at hk; simp at hk

theorem Built.coh {P : EArg K → Prop} {w : Bool} {g : DSt K} (h : Built P w g) :
    Coherent (Ord.evKey .di) g ∧ (w = false → g.cache = []) := by
  induction h with
  | new h _ => exact ⟨coherent_of_nil (new_inv h).2, fun _ => (new_inv h).2⟩
  | adj h _ => exact ⟨coherent_of_nil (new_inv h).2, fun _ => (new_inv h).2⟩
  | refresh o hg hc hok _ =>
    have := apply_clears o _ hc hok
    exact ⟨coherent_of_nil this, fun _ => this⟩
  | @op w g o hg ho _ ih =>
    rcases apply_cache o g ho with h | h
    · rw [h]; exact ih
    · exact ⟨coherent_of_nil h, fun _ => h⟩
  | reverse hg ih =>
    have : (apply (K := K) .reverseDirection _).2.cache = [] := ih.2 rfl
    exact ⟨coherent_of_nil this, fun _ => this⟩
  | @read w g q hg ih =>
    exact ⟨(reads_ask q g ih.1).2.2, fun h => by cases h⟩
  | clone _ ih => exact ih
  | state hg h =>
    obtain ⟨rfl, _⟩ := fromStateDict_ok h
    exact ⟨coherent_of_nil rfl, fun _ => rfl⟩
  | drop hg h =>
    obtain ⟨rfl, _⟩ := drop_raw h
    exact ⟨coherent_of_nil rfl, fun _ => rfl⟩

theorem Built.inv {P : EArg K → Prop} {w : Bool} {g : DSt K} (h : Built P w g) :
    Ord.Inv .di g.raw := h.any.inv

theorem Built.pos {w : Bool} {g : DSt K} (h : Built Graph.NonNeg w g) : Graph.Pos g.raw :=
  h.any.pos

/-- answers of coherent objects -/
theorem Built.ask {P : EArg K → Prop} {w : Bool} {g : DSt K} (h : Built P w g) (q : DQuery K) :
    (ask q g).1 = evAsk q g.raw := (reads_ask q g h.coh.1).1

theorem absS_apply (o : DOp K) (s : DSt K) (hs : Ord.Inv .di s.raw) :
    Ord.absS (apply o s).2 = Spec.O.applyD s.raw.numV (Ord.absS s) o := by
  cases o with
  | addEdges arg op =>
    have h1 := Ord.absO_addEdges arg op s hs
    have h2 := Ord.addEdges_sizes (c := .di) arg op s
    show Ord.absS (Ord.addEdges .di arg op s).2 = _
    simp only [Ord.absS, Spec.O.applyD, h1, h2.2.2]; rfl
  | removeEdges arg =>
    have h1 := Ord.absO_removeEdges arg s hs
    have h2 := Ord.removeEdges_sizes (c := .di) arg s
    show Ord.absS (Ord.removeEdges .di arg s).2 = _
    simp only [Ord.absS, Spec.O.applyD, h1, h2.2.2]; rfl
  | addExtraSelfloop => rfl
  | removeExtraSelfloop => rfl
  | removeSelfloop =>
    have : Ord.absO (apply DOp.removeSelfloop s).2.raw =
        fun a b => if a = b then none else Ord.absO s.raw a b := by
      funext a b
      show (match Dict.get? s.raw.eDict (a, b) with
        | some w => some w | none => if a = b then Dict.get? [] a else none) = _
      by_cases h : a = b
      · subst h; simp [hs.get_diag]
      · unfold Ord.absO; simp only [h, if_false]
        cases Dict.get? s.raw.eDict (a, b) <;> rfl
    unfold Ord.absS
    rw [this]
    rfl
  | clear =>
    have : Ord.absO (apply (K := K) DOp.clear s).2.raw = fun a b => none := by
      funext a b
      show (match Dict.get? (ν := K) [] (a, b) with
        | some w => some w | none => if a = b then Dict.get? (ν := K) [] a else none) = _
      simp
    unfold Ord.absS
    rw [this]
    rfl
  | reverseDirection =>
    show Ord.absS (reverseDirection s).2 = _
    rw [reverse_ok s hs.nodupE]
    unfold Ord.absS
    simp only [absO_swap]
    rfl

theorem run_inv {g : DSt K} (hg : Ord.Inv .di g.raw) (h : List (Step K)) :
    Ord.Inv .di (run g h).raw := by
  induction h generalizing g with
  | nil => exact hg
  | cons st h ih =>
    cases st with
    | op o => exact ih (g := (apply o g).2) (apply_inv o hg)
    | read q => exact ih (g := (DiGraph.ask q g).2) (by rw [keeps_ask q g]; exact hg)

theorem absS_run {g : DSt K} (hg : Ord.Inv .di g.raw) (h : List (Step K)) :
    Ord.absS (run g h) = Spec.O.runD g.raw.numV (Ord.absS g) h ∧
      (run g h).raw.numV = g.raw.numV := by
  induction h generalizing g with
  | nil => exact ⟨rfl, rfl⟩
  | cons st h ih =>
    cases st with
    | op o =>
      have h1 := absS_apply o g hg
      have h2 := apply_sizes o g
      obtain ⟨h5, h6⟩ := ih (apply_inv o hg)
      refine ⟨?_, h6.trans h2⟩
      show Ord.absS (run (apply o g).2 h) = _
      rw [h5, h1, h2]
      rfl
    | read q =>
      have h2 := keeps_ask q g
      have hr : Ord.absS (DiGraph.ask q g).2 = Ord.absS g := by unfold Ord.absS; rw [h2]
      obtain ⟨h5, h6⟩ := ih (g := (DiGraph.ask q g).2) (by rw [h2]; exact hg)
      refine ⟨?_, h6.trans (by rw [h2])⟩
      show Ord.absS (run (DiGraph.ask q g).2 h) = _
      rw [h5, hr, h2]
      rfl

theorem absS_new {n : Int} {arg : Option (EArg K)} {extra : Bool} {op : MergeOp} {g : DSt K}
    (h : DiGraph.new n arg extra op = .ok g) :
    Ord.absS g = Spec.O.new n.toNat n.toNat arg extra op ∧ g.raw.numV = n.toNat ∧ 0 < n := by
  obtain ⟨hn, _, hr⟩ := new_eq h
  have h0 : Ord.absO ({ numV := n.toNat, eDict := [], loops := [], extra } : GRaw K) =
      fun _ _ => none := by
    funext a b; unfold Ord.absO; simp
  have hi : Ord.Inv .di ({ numV := n.toNat, eDict := [], loops := [], extra } : GRaw K) :=
    (init_inv (n := n) (extra := extra) (by unfold GRaw.init; rw [if_pos hn])).1
  unfold Ord.absS Spec.O.new
  cases arg with
  | none => rw [hr]; simp only [h0]; exact ⟨by first | rfl | trivial, by first | rfl | trivial, hn⟩
  | some a =>
    simp only at hr
    have h1 := Ord.absO_addEdges a op
      { raw := ({ numV := n.toNat, eDict := [], loops := [], extra } : GRaw K), cache := [] } hi
    have h2 := Ord.addEdges_sizes (c := .di) a op
      { raw := ({ numV := n.toNat, eDict := [], loops := [], extra } : GRaw K), cache := [] }
    rw [hr, h1, h2.1, h2.2.2]
    simp only [h0]
    exact ⟨by first | rfl | trivial, by first | rfl | trivial, hn⟩

theorem listing_eq {g : DSt K} (h : Coherent (Ord.evKey .di) g) :
    Spec.listingD g = g.raw.edgeList.zip g.raw.edgeWts := by
  unfold Spec.listingD
  rw [(reads_ask .e g h).1]
  rfl

end DiGraph
end DHG
