import Verif.OrderedLemmas

/-!
# Invariants of `BiGraph` objects
-/

set_option linter.unusedSectionVars false
set_option autoImplicit false

namespace DHG
namespace BiGraph

variable {K : Type} [Field K] [LinearOrder K]

theorem apply_inv (o : BOp K) {s : BSt K} (h : Ord.Inv .bi s.raw) : Ord.Inv .bi (apply o s).2.raw := by
  cases o with
  | addEdges arg op => exact Ord.addEdges_inv arg op h
  | removeEdges arg => exact Ord.removeEdges_inv arg h
  | addExtraSelfloop => exact { h with }
  | removeExtraSelfloop => exact { h with }
  | removeSelfloop =>
    exact { h with nodupL := List.nodup_nil, noL := fun _ => rfl, ltL := fun v hv => by cases hv }
  | clear =>
    exact { h with
      nodupL := List.nodup_nil, noL := fun _ => rfl, ltL := fun v hv => by cases hv
      nodupE := List.nodup_nil, ne := fun _ v hv => (by cases hv)
      ltE := fun v hv => by cases hv }

theorem apply_pos (o : BOp K) {s : BSt K} (h : Graph.Pos s.raw)
    (ho : ∀ a op, o = .addEdges a op → Graph.NonNeg a) : Graph.Pos (apply o s).2.raw := by
  cases o with
  | addEdges arg op => exact Ord.addEdges_pos arg op h (ho _ _ rfl)
  | removeEdges arg => exact Ord.removeEdges_pos arg h
  | addExtraSelfloop => exact { h with }
  | removeExtraSelfloop => exact { h with }
  | removeSelfloop => exact { h with L := fun v hv => by cases hv }
  | clear => exact ⟨fun v hv => (by cases hv), fun v hv => (by cases hv)⟩

theorem apply_sizes (o : BOp K) (s : BSt K) :
    (apply o s).2.raw.numV = s.raw.numV ∧ (apply o s).2.raw.numU = s.raw.numU := by
  cases o with
  | addEdges arg op => exact ⟨(Ord.addEdges_sizes arg op s).1, (Ord.addEdges_sizes arg op s).2.1⟩
  | removeEdges arg => exact ⟨(Ord.removeEdges_sizes arg s).1, (Ord.removeEdges_sizes arg s).2.1⟩
  | _ => exact ⟨rfl, rfl⟩

/-- mutators either do nothing or clear the cache -/
theorem apply_cache (o : BOp K) (s : BSt K) :
    (apply o s).2 = s ∨ (apply o s).2.cache = [] := by
  cases o with
  | addEdges arg op => exact Ord.addEdges_cache arg op s
  | removeEdges arg => exact Ord.removeEdges_cache arg s
  | _ => exact .inr rfl

theorem apply_clears (o : BOp K) (s : BSt K) (hc : Clears o) (hok : (apply o s).1 = .ok ()) :
    (apply o s).2.cache = [] := by
  cases o with
  | addEdges arg op => exact Ord.addEdges_clears arg op s hc hok
  | removeEdges arg => exact Ord.removeEdges_clears arg s hok
  | _ => rfl

/-- the object before edges are added -/
abbrev base (m n : Nat) : GRaw K := { numU := m, numV := n, eDict := [], loops := [], extra := false }

theorem base_inv (m n : Nat) : Ord.Inv .bi (base (K := K) m n) :=
  { numU := fun h => (by cases h), pos := fun h => (by cases h)
    nodupE := List.nodup_nil, nodupL := List.nodup_nil, ne := fun h => (by cases h)
    noL := fun _ => rfl, ltE := fun v hv => (by cases hv), ltL := fun v hv => (by cases hv) }

theorem base_pos (m n : Nat) : Graph.Pos (base (K := K) m n) :=
  ⟨fun v hv => (by cases hv), fun v hv => (by cases hv)⟩

theorem init_ok {m : Nat} {n : Int} {r : GRaw K} (h : initRaw m n = .ok r) :
    r = base m n.toNat ∧ 0 < n := by
  unfold initRaw GRaw.init at h
  split at h
  · simp only [bind, Except.bind] at h
    cases h
    exact ⟨rfl, by assumption⟩
  · cases h

theorem init_of_pos {m : Nat} {n : Int} (h : 0 < n) : initRaw (K := K) m n = .ok (base m n.toNat) := by
  unfold initRaw GRaw.init
  rw [if_pos h]
  rfl

theorem new_eq {m : Nat} {n : Int} {arg : Option (EArg K)} {op : MergeOp} {g : BSt K}
    (h : BiGraph.new m n arg op = .ok g) :
    0 < n ∧ g.cache = [] ∧
    g.raw = match arg with
      | none => base m n.toNat
      | some a => (Ord.addEdges .bi a op { raw := base m n.toNat, cache := [] }).2.raw := by
  unfold BiGraph.new at h
  cases hi : initRaw (K := K) m n with
  | error e => rw [hi] at h; cases h
  | ok r =>
    rw [hi] at h
    simp only [bind, Except.bind] at h
    obtain ⟨rfl, hn⟩ := init_ok hi
    cases arg with
    | none => cases h; exact ⟨hn, rfl, rfl⟩
    | some a =>
      simp only at h
      split at h
      · rename_i s hs
        cases h
        refine ⟨hn, ?_, by simp only [hs]⟩
        rcases Ord.addEdges_cache (c := .bi) a op { raw := base m n.toNat, cache := [] } with h' | h'
        · rw [hs] at h'; simp only at h'; rw [h']
        · rw [hs] at h'; exact h'
      · cases h

theorem new_inv {m : Nat} {n : Int} {arg : Option (EArg K)} {op : MergeOp} {g : BSt K}
    (h : BiGraph.new m n arg op = .ok g) : Ord.Inv .bi g.raw ∧ g.cache = [] := by
  obtain ⟨hn, hc, hr⟩ := new_eq h
  refine ⟨?_, hc⟩
  rw [hr]
  cases arg with
  | none => exact base_inv _ _
  | some a => exact Ord.addEdges_inv a op (base_inv _ _)

theorem new_pos {m : Nat} {n : Int} {arg : Option (EArg K)} {op : MergeOp} {g : BSt K}
    (h : BiGraph.new m n arg op = .ok g) (hP : ∀ a, arg = some a → Graph.NonNeg a) :
    Graph.Pos g.raw := by
  obtain ⟨hn, hc, hr⟩ := new_eq h
  rw [hr]
  cases arg with
  | none => exact base_pos _ _
  | some a => exact Ord.addEdges_pos a op (base_pos _ _) (hP a rfl)

theorem fromStateDict_ok {d : StateDict K} {g : BSt K} (h : fromStateDict d = .ok g) :
    g = { raw := { numU := d.numU, numV := d.numV, eDict := d.eDict, loops := [], extra := false }, cache := [] } ∧
      0 < d.numV := by
  unfold fromStateDict at h
  cases hi : initRaw (K := K) d.numU d.numV with
  | error e => rw [hi] at h; cases h
  | ok r =>
    rw [hi] at h
    obtain ⟨rfl, hn⟩ := init_ok hi
    simp only [bind, Except.bind] at h
    cases h
    exact ⟨rfl, by omega⟩

theorem fromStateDict_of_pos {d : StateDict K} (h : 0 < d.numV) : fromStateDict d =
    .ok { raw := { numU := d.numU, numV := d.numV, eDict := d.eDict, loops := [], extra := false }, cache := [] } := by
  unfold fromStateDict
  rw [init_of_pos (by omega)]
  rfl

/-- the raw fields without the self loop flag -/
theorem strip_eq {r : GRaw K} (h : Ord.Inv .bi r) (hx : r.extra = false) :
    ({ numU := r.numU, numV := r.numV, eDict := r.eDict, loops := [], extra := false } : GRaw K) = r := by
  have := h.noL rfl
  obtain ⟨u, n, e, l, x⟩ := r
  simp only at this hx
  subst this; subst hx; rfl

theorem strip_inv {r : GRaw K} (h : Ord.Inv .bi r) :
    Ord.Inv .bi ({ numU := r.numU, numV := r.numV, eDict := r.eDict, loops := [], extra := false } : GRaw K) :=
  { numU := fun h => (by cases h), pos := fun h => (by cases h)
    nodupE := h.nodupE, nodupL := List.nodup_nil, ne := fun h => (by cases h)
    noL := fun _ => rfl, ltE := h.ltE, ltL := fun v hv => (by cases hv) }

theorem clone_ok {g g' : BSt K} (h : clone g = .ok g') :
    g' = { raw := { numU := g.raw.numU, numV := g.raw.numV, eDict := g.raw.eDict, loops := [], extra := false }
           cache := g.cache } ∧ 0 < g.raw.numV := by
  unfold clone at h
  cases hi : initRaw (K := K) g.raw.numU g.raw.numV with
  | error e => rw [hi] at h; cases h
  | ok r =>
    rw [hi] at h
    obtain ⟨rfl, hn⟩ := init_ok hi
    simp only [bind, Except.bind] at h
    cases h
    exact ⟨rfl, by omega⟩

theorem clone_of_pos {g : BSt K} (h : 0 < g.raw.numV) : clone g =
    .ok { raw := { numU := g.raw.numU, numV := g.raw.numV, eDict := g.raw.eDict, loops := [], extra := false }
          cache := g.cache } := by
  unfold clone
  rw [init_of_pos (by omega)]
  rfl

theorem switch_ok {g g' : BSt K} (hg : g.raw.eDict.keys.Nodup) (h : switchUv g = .ok g') :
    g' = { raw := { numU := g.raw.numV, numV := g.raw.numU, eDict := Ord.swapE g.raw.eDict, loops := []
                    extra := false }
           cache := [] } ∧ 0 < g.raw.numV := by
  unfold switchUv at h
  cases hi : clone g with
  | error e => rw [hi] at h; cases h
  | ok r =>
    rw [hi] at h
    obtain ⟨rfl, hn⟩ := clone_ok hi
    simp only [bind, Except.bind] at h
    cases h
    exact ⟨by rw [Ord.ofPairs_swapE hg], hn⟩

theorem switch_of_pos {g : BSt K} (hg : g.raw.eDict.keys.Nodup) (h : 0 < g.raw.numV) : switchUv g =
    .ok { raw := { numU := g.raw.numV, numV := g.raw.numU, eDict := Ord.swapE g.raw.eDict, loops := []
                   extra := false }
          cache := [] } := by
  unfold switchUv
  rw [clone_of_pos h]
  simp only [bind, Except.bind]
  rw [Ord.ofPairs_swapE hg]

theorem switch_inv {g g' : BSt K} (hg : Ord.Inv .bi g.raw) (h : switchUv g = .ok g') :
    Ord.Inv .bi g'.raw ∧ g'.cache = [] := by
  obtain ⟨rfl, hn⟩ := switch_ok hg.nodupE h
  refine ⟨{ numU := fun h => (by cases h), pos := fun h => (by cases h)
            nodupE := Ord.nodup_swapE hg.nodupE, nodupL := List.nodup_nil, ne := fun h => (by cases h)
            noL := fun _ => rfl, ltE := ?_, ltL := fun v hv => (by cases hv) }, rfl⟩
  intro p hp
  have := hg.ltE _ ((Ord.mem_keys_swapE _ _).1 hp)
  exact ⟨this.2, this.1⟩

theorem switch_pos {g g' : BSt K} (hi : Ord.Inv .bi g.raw) (hg : Graph.Pos g.raw)
    (h : switchUv g = .ok g') : Graph.Pos g'.raw := by
  obtain ⟨rfl, hn⟩ := switch_ok hi.nodupE h
  refine ⟨?_, fun v hv => (by cases hv)⟩
  intro p hp
  have := hg.E _ ((Ord.mem_keys_swapE _ _).1 hp)
  exact ⟨this.2, this.1⟩

theorem drop_raw {g g' : BSt K} {rate uniform rnd} (h : dropEdges rate uniform rnd g = .ok g') :
    g' = { raw := { numU := g.raw.numU, numV := g.raw.numV, eDict := Graph.dropFilter rate rnd 0 g.raw.eDict
                    loops := [], extra := false }, cache := [] } ∧ uniform = true ∧ 0 < g.raw.numV := by
  unfold dropEdges at h
  split at h
  · exact ⟨(fromStateDict_ok h).1, by assumption, (fromStateDict_ok h).2⟩
  · cases h

theorem drop_inv {g g' : BSt K} {rate uniform rnd} (h : dropEdges rate uniform rnd g = .ok g')
    (hg : Ord.Inv .bi g.raw) : Ord.Inv .bi g'.raw ∧ g'.cache = [] := by
  obtain ⟨rfl, _⟩ := drop_raw h
  have hE := (Graph.dropFilter_sublist rate rnd 0 g.raw.eDict).map Prod.fst
  exact ⟨{ numU := fun h => (by cases h), pos := fun h => (by cases h), nodupE := hg.nodupE.sublist hE
           nodupL := List.nodup_nil, ne := fun h => (by cases h)
           noL := fun hc => rfl
           ltE := fun p hp => hg.ltE p (hE.subset hp)
           ltL := fun v hv => (by cases hv) }, rfl⟩

theorem drop_pos {g g' : BSt K} {rate uniform rnd} (h : dropEdges rate uniform rnd g = .ok g')
    (hg : Graph.Pos g.raw) : Graph.Pos g'.raw := by
  obtain ⟨rfl, _⟩ := drop_raw h
  have hE := (Graph.dropFilter_sublist rate rnd 0 g.raw.eDict).map Prod.fst
  exact ⟨fun p hp => hg.E p (hE.subset hp), fun v hv => (by cases hv)⟩

theorem keeps_getA : Ord.Keeps (K := K) getA :=
  (Ord.Keeps.bind (Ord.Keeps.readRaw _) fun _ => (Ord.Keeps.readRaw _).bind fun _ =>
    Ord.keeps_getM.bind fun _ => (Ord.Keeps.lift _).bind fun _ => Ord.keeps_getMT.bind fun _ =>
    (Ord.Keeps.lift _).bind fun _ => (Ord.Keeps.lift _).bind fun _ => Ord.Keeps.pure _).memo.bind Ord.keeps_asMat

variable [PyReal K]

theorem keeps_getLGCN : Ord.Keeps (K := K) getLGCN :=
  (Ord.Keeps.bind (Ord.Keeps.readRaw _) fun _ => (Ord.Keeps.readRaw _).bind fun _ =>
    keeps_getA.bind fun _ => (Ord.Keeps.lift _).bind fun _ => Ord.Keeps.pure _).memo.bind Ord.keeps_asMat

theorem keeps_ask (q : BQuery K) : Ord.Keeps (ask q) := by
  cases q with
  | e => exact Ord.keeps_getE.map _
  | numU => exact (Ord.Keeps.readRaw _).map _
  | numV => exact (Ord.Keeps.readRaw _).map _
  | numE => exact (Ord.Keeps.readRaw _).map _
  | A => exact keeps_getA.map _
  | B => exact Ord.keeps_getM.map _
  | BT => exact Ord.keeps_getMT.map _
  | Du => exact Ord.keeps_getDr.map _
  | Dv => exact Ord.keeps_getDc.map _
  | DuN1 => exact Ord.keeps_getDrN1.map _
  | DvN1 => exact Ord.keeps_getDcN1.map _
  | Nv v => exact (Ord.keeps_getM.bind fun _ => Ord.Keeps.lift _).map _
  | Nu v => exact (Ord.keeps_getMT.bind fun _ => Ord.Keeps.lift _).map _
  | degU => exact Ord.keeps_getDr.map _
  | degV => exact Ord.keeps_getDc.map _
  | eU => exact (Ord.keeps_getM.map _).map _
  | eV => exact (Ord.keeps_getM.map _).map _
  | eWeight => exact (Ord.keeps_getM.map _).map _
  | LGCN => exact keeps_getLGCN.map _
  | smoothGCN X p keep =>
    exact (keeps_getLGCN.bind fun L => (Ord.keeps_drop L p keep).bind fun _ => Ord.Keeps.lift _).map _
  | u2v X aggr ew p keep =>
    exact Ord.Keeps.map (Ord.Keeps.bind (Ord.Keeps.assert _) fun _ => Ord.keeps_toCols X aggr ew p keep) _
  | v2u X aggr ew p keep =>
    exact Ord.Keeps.map (Ord.Keeps.bind (Ord.Keeps.assert _) fun _ => Ord.keeps_toRows X aggr ew p keep) _

/-- the raw fields of every obtainable object satisfy the invariant -/
theorem Any.inv {P : EArg K → Prop} {g : BSt K} (h : Any P g) : Ord.Inv .bi g.raw := by
  induction h with
  | new h _ => exact (new_inv h).1
  | adj h _ => exact (new_inv h).1
  | op o _ _ ih => exact apply_inv o ih
  | @read g q hg ih => rw [keeps_ask q g]; exact ih
  | clone _ h ih => obtain ⟨rfl, _⟩ := clone_ok h; exact strip_inv ih
  | switch _ h ih => exact (switch_inv ih h).1
  | state _ h ih => obtain ⟨rfl, _⟩ := fromStateDict_ok h; exact strip_inv ih
  | drop _ h ih => exact (drop_inv h ih).1

theorem Any.pos {g : BSt K} (h : Any Graph.NonNeg g) : Graph.Pos g.raw := by
  induction h with
  | new h hP => exact new_pos h hP
  | adj h hP => exact new_pos h (by intro a ha; cases ha; exact hP)
  | op o hg ho ih => exact apply_pos o ih ho
  | @read g q hg ih => rw [keeps_ask q g]; exact ih
  | clone _ h ih => obtain ⟨rfl, _⟩ := clone_ok h; exact ⟨ih.E, fun v hv => (by cases hv)⟩
  | switch hg h ih => exact switch_pos hg.inv ih h
  | state hg h ih => obtain ⟨rfl, _⟩ := fromStateDict_ok h; exact ⟨ih.E, fun v hv => (by cases hv)⟩
  | drop _ h ih => exact drop_pos h ih

theorem Built.any {P : EArg K → Prop} {g : BSt K} (h : Built P g) : Any P g := by
  induction h with
  | new h hP => exact .new h hP
  | adj h hP => exact .adj h hP
  | refresh o hg _ _ hP => exact .op o hg hP
  | op o _ hP ih => exact .op o ih hP
  | read q _ ih => exact .read q ih
  | clone _ _ h ih => exact .clone ih h
  | switch hg h => exact .switch hg h
  | state hg h => exact .state hg h
  | drop hg h => exact .drop hg h

theorem coherent_of_nil {c : Cls} {s : OSt K} (h : s.cache = []) : Coherent (Ord.evKey c) s := by
  intro k v hk; rw [h] at hk; simp at hk

theorem apply_coh {s : BSt K} (o : BOp K)
    (h : Coherent (Ord.evKey .bi) s) : Coherent (Ord.evKey .bi) (apply o s).2 := by
  rcases apply_cache o s with h1 | h1
  · rw [h1]; exact h
  · exact coherent_of_nil h1

theorem Built.coh {P : EArg K → Prop} {g : BSt K} (h : Built P g) :
    Coherent (Ord.evKey .bi) g := by
  induction h with
  | new h _ => exact coherent_of_nil (new_inv h).2
  | adj h _ => exact coherent_of_nil (new_inv h).2
  | refresh o hg hc hok _ => exact coherent_of_nil (apply_clears o _ hc hok)
  | op o hg _ ih => exact apply_coh o ih
  | @read g q hg ih => exact (reads_ask q g ih).2.2
  | clone hg hf h ih =>
    obtain ⟨rfl, _⟩ := clone_ok h
    rw [strip_eq hg.any.inv hf]
    exact ih
  | switch hg h => exact coherent_of_nil (switch_inv hg.inv h).2
  | state hg h =>
    obtain ⟨rfl, _⟩ := fromStateDict_ok h
    exact coherent_of_nil rfl
  | drop hg h =>
    obtain ⟨rfl, _⟩ := drop_raw h
    exact coherent_of_nil rfl

theorem Built.inv {P : EArg K → Prop} {g : BSt K} (h : Built P g) : Ord.Inv .bi g.raw := h.any.inv

theorem Built.pos {g : BSt K} (h : Built Graph.NonNeg g) : Graph.Pos g.raw := h.any.pos

/-- answers of coherent objects -/
theorem Built.ask {P : EArg K → Prop} {g : BSt K} (h : Built P g) (q : BQuery K) :
    (ask q g).1 = evAsk q g.raw := (reads_ask q g h.coh).1

theorem absS_apply (o : BOp K) (s : BSt K) (hs : Ord.Inv .bi s.raw) :
    Ord.absS (apply o s).2 = Spec.O.applyB s.raw.numU s.raw.numV (Ord.absS s) o := by
  cases o with
  | addEdges arg op =>
    have h1 := Ord.absO_addEdges arg op s hs
    have h2 := Ord.addEdges_sizes (c := .bi) arg op s
    show Ord.absS (Ord.addEdges .bi arg op s).2 = _
    simp only [Ord.absS, Spec.O.applyB, h1, h2.2.2]; rfl
  | removeEdges arg =>
    have h1 := Ord.absO_removeEdges arg s hs
    have h2 := Ord.removeEdges_sizes (c := .bi) arg s
    show Ord.absS (Ord.removeEdges .bi arg s).2 = _
    simp only [Ord.absS, Spec.O.applyB, h1, h2.2.2]; rfl
  | addExtraSelfloop => rfl
  | removeExtraSelfloop => rfl
  | removeSelfloop =>
    have h1 := hs.noL rfl
    have : Ord.absO (apply (K := K) BOp.removeSelfloop s).2.raw = Ord.absO s.raw := by
      funext a b
      show (match Dict.get? s.raw.eDict (a, b) with
        | some w => some w | none => if a = b then Dict.get? (ν := K) [] a else none) = _
      unfold Ord.absO
      rw [h1]
      cases Dict.get? s.raw.eDict (a, b) <;> rfl
    unfold Ord.absS
    rw [this]
    rfl
  | clear =>
    have : Ord.absO (apply (K := K) BOp.clear s).2.raw = fun a b => none := by
      funext a b
      show (match Dict.get? (ν := K) [] (a, b) with
        | some w => some w | none => if a = b then Dict.get? (ν := K) [] a else none) = _
      simp
    unfold Ord.absS
    rw [this]
    rfl

theorem run_inv {g : BSt K} (hg : Ord.Inv .bi g.raw) (h : List (Step K)) :
    Ord.Inv .bi (run g h).raw := by
  induction h generalizing g with
  | nil => exact hg
  | cons st h ih =>
    cases st with
    | op o => exact ih (g := (apply o g).2) (apply_inv o hg)
    | read q => exact ih (g := (BiGraph.ask q g).2) (by rw [keeps_ask q g]; exact hg)

theorem absS_run {g : BSt K} (hg : Ord.Inv .bi g.raw) (h : List (Step K)) :
    Ord.absS (run g h) = Spec.O.runB g.raw.numU g.raw.numV (Ord.absS g) h ∧
      (run g h).raw.numV = g.raw.numV ∧ (run g h).raw.numU = g.raw.numU := by
  induction h generalizing g with
  | nil => exact ⟨rfl, rfl, rfl⟩
  | cons st h ih =>
    cases st with
    | op o =>
      have h1 := absS_apply o g hg
      have h2 := apply_sizes o g
      obtain ⟨h5, h6, h7⟩ := ih (apply_inv o hg)
      refine ⟨?_, h6.trans h2.1, h7.trans h2.2⟩
      show Ord.absS (run (apply o g).2 h) = _
      rw [h5, h1, h2.1, h2.2]
      rfl
    | read q =>
      have h2 := keeps_ask q g
      have hr : Ord.absS (BiGraph.ask q g).2 = Ord.absS g := by unfold Ord.absS; rw [h2]
      obtain ⟨h5, h6, h7⟩ := ih (g := (BiGraph.ask q g).2) (by rw [h2]; exact hg)
      refine ⟨?_, h6.trans (by rw [h2]), h7.trans (by rw [h2])⟩
      show Ord.absS (run (BiGraph.ask q g).2 h) = _
      rw [h5, hr, h2]
      rfl

theorem absS_new {m : Nat} {n : Int} {arg : Option (EArg K)} {op : MergeOp} {g : BSt K}
    (h : BiGraph.new m n arg op = .ok g) :
    Ord.absS g = Spec.O.new m n.toNat arg false op ∧ g.raw.numV = n.toNat ∧ g.raw.numU = m ∧ 0 < n := by
  obtain ⟨hn, _, hr⟩ := new_eq h
  have h0 : Ord.absO (base (K := K) m n.toNat) = fun _ _ => none := by
    funext a b; unfold Ord.absO; simp
  unfold Ord.absS Spec.O.new
  cases arg with
  | none => rw [hr]; simp only [h0]; exact ⟨by first | rfl | trivial, by first | rfl | trivial, by first | rfl | trivial, hn⟩
  | some a =>
    simp only at hr
    have h1 := Ord.absO_addEdges (c := .bi) a op { raw := base (K := K) m n.toNat, cache := [] } (base_inv _ _)
    have h2 := Ord.addEdges_sizes (c := .bi) a op { raw := base (K := K) m n.toNat, cache := [] }
    rw [hr, h1, h2.1, h2.2.1, h2.2.2]
    simp only [h0]
    exact ⟨by first | rfl | trivial, by first | rfl | trivial, by first | rfl | trivial, hn⟩

theorem listing_eq {g : BSt K} (h : Coherent (Ord.evKey .bi) g) :
    Spec.listingB g = g.raw.edgeList.zip g.raw.edgeWts := by
  unfold Spec.listingB
  rw [(reads_ask .e g h).1]
  rfl

end BiGraph
end DHG
