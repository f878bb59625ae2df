import Verif.HyperApi

/-!
# Which calls on a hypergraph look at the vertex weights

Two hypergraphs that differ in the values of their vertex weights only (and in the cached `W_v`) behave alike, except
for `v_weight` and `W_v` themselves.
-/

set_option linter.unusedSectionVars false
set_option autoImplicit false

namespace DHG

variable {K : Type} [Field K] [LinearOrder K]

/-- the same attributes, up to the values of the vertex weights -/
def RawLike (r r' : HRaw K) : Prop :=
  r.numV = r'.numV ∧ r.groups = r'.groups ∧ r.vWeight.map List.length = r'.vWeight.map List.length

/-- the cache without `W_v` -/
def others (c : Dict HKey (HVal K)) : Dict HKey (HVal K) := c.filter fun p => decide (p.1 ≠ (none, HName.Wv))

/-- the same hypergraph, up to the values of the vertex weights and the cached `W_v` -/
structure Like (s s' : HSt K) : Prop where
  raw : RawLike s.raw s'.raw
  cache : others s.cache = others s'.cache

theorem others_get? (c : Dict HKey (HVal K)) {k : HKey} (hk : k ≠ (none, HName.Wv)) :
    (others c).get? k = c.get? k := by
  induction c with
  | nil => rfl
  | cons p c ih =>
    obtain ⟨k', v⟩ := p
    unfold others at ih ⊢
    rw [List.filter_cons]
    by_cases h : k' = (none, HName.Wv)
    · simp only [ne_eq, h, not_true_eq_false, decide_false, Bool.false_eq_true, if_false, Dict.get?]
      rw [if_neg (Ne.symm hk)]
      exact ih
    · simp only [ne_eq, h, not_false_eq_true, decide_true, if_true, Dict.get?]
      split
      · rfl
      · exact ih

theorem others_set (c : Dict HKey (HVal K)) {k : HKey} (v : HVal K) (hk : k ≠ (none, HName.Wv)) :
    others (c.set k v) = (others c).set k v := by
  induction c with
  | nil => simp [others, Dict.set, hk]
  | cons p c ih =>
    obtain ⟨k', v'⟩ := p
    unfold others at ih ⊢
    simp only [Dict.set]
    by_cases h : k' = (none, HName.Wv)
    · have h2 : ¬ k' = k := fun h3 => hk (h3 ▸ h)
      rw [if_neg h2, List.filter_cons, List.filter_cons]
      simp only [ne_eq, h, not_true_eq_false, decide_false, Bool.false_eq_true, if_false]
      exact ih
    · by_cases h2 : k' = k
      · rw [if_pos h2, List.filter_cons, List.filter_cons]
        simp only [ne_eq, h, not_false_eq_true, decide_true, if_true, Dict.set]
        rw [if_pos h2]
      · rw [if_neg h2, List.filter_cons, List.filter_cons]
        simp only [ne_eq, h, not_false_eq_true, decide_true, if_true, Dict.set]
        rw [if_neg h2, ih]

theorem others_set_Wv (c : Dict HKey (HVal K)) (v : HVal K) : others (c.set (none, HName.Wv) v) = others c := by
  induction c with
  | nil => simp [others, Dict.set]
  | cons p c ih =>
    obtain ⟨k', v'⟩ := p
    unfold others at ih ⊢
    simp only [Dict.set]
    by_cases h : k' = (none, HName.Wv)
    · rw [if_pos h, List.filter_cons, List.filter_cons]
      simp [h]
    · rw [if_neg h, List.filter_cons, List.filter_cons, ih]

/-- the computation gives the same answer on hypergraphs that are alike, and they remain alike -/
structure Ignores {α : Type} (m : PyM (HSt K) α) : Prop where
  ans : ∀ s s', Like s s' → (m s).1 = (m s').1
  like : ∀ s s', Like s s' → Like (m s).2 (m s').2

namespace Ignores

variable {α β : Type}

theorem id_of {m : PyM (HSt K) α} {x : Except Err α} (h : ∀ s, m s = (x, s)) : Ignores m :=
  ⟨fun s s' _ => by rw [h, h], fun s s' hs => by rw [h, h]; exact hs⟩
theorem pure' (a : α) : Ignores (pure a : PyM (HSt K) α) := id_of fun _ => rfl
theorem raise' (e : Err) : Ignores (PyM.raise e : PyM (HSt K) α) := id_of fun _ => rfl
theorem lift' (x : Except Err α) : Ignores (PyM.lift x : PyM (HSt K) α) := id_of fun _ => rfl
theorem readRaw' {f : HRaw K → α} (hf : ∀ {r r'}, RawLike r r' → f r = f r') :
    Ignores (readRaw f : PyM (HSt K) α) :=
  ⟨fun _ _ h => congrArg Except.ok (hf h.raw), fun _ _ h => h⟩
theorem numV' : Ignores (readRaw HRaw.numV : PyM (HSt K) Nat) := readRaw' fun h => h.1
theorem assert' (b : Bool) : Ignores (PyM.assert b : PyM (HSt K) Unit) := by
  cases b
  · exact raise' _
  · exact pure' _
theorem bind' {m : PyM (HSt K) α} {g : α → PyM (HSt K) β} (hm : Ignores m)
    (hg : ∀ a, Ignores (g a)) : Ignores (m >>= g) := by
  refine ⟨fun s s' h => ?_, fun s s' h => ?_⟩ <;>
  · simp only [PyM.bind_apply]
    have h1 := hm.ans s s' h
    have h2 := hm.like s s' h
    rcases hms : m s with ⟨x, t⟩
    rcases hms' : m s' with ⟨x', t'⟩
    rw [hms, hms'] at h1 h2
    simp only at h1 h2
    subst h1
    cases x with
    | error e => first | rfl | exact h2
    | ok a => first | exact (hg a).ans t t' h2 | exact (hg a).like t t' h2
theorem readBind' {g : HRaw K → PyM (HSt K) β} (hg : ∀ r, Ignores (g r))
    (he : ∀ {r r'}, RawLike r r' → g r = g r') : Ignores (readRaw id >>= g) := by
  refine ⟨fun s s' h => ?_, fun s s' h => ?_⟩
  · show (g s.raw s).1 = (g s'.raw s').1
    rw [he h.raw]
    exact (hg _).ans s s' h
  · show Like (g s.raw s).2 (g s'.raw s').2
    rw [he h.raw]
    exact (hg _).like s s' h
theorem memo' {k : HKey} {m : PyM (HSt K) (HVal K)} (hk : k ≠ (none, HName.Wv)) (hm : Ignores m) : Ignores (memo k m) := by
  refine ⟨fun s s' h => ?_, fun s s' h => ?_⟩ <;>
  · unfold memo
    have hc : s.cache.get? k = s'.cache.get? k := by
      rw [← others_get? s.cache hk, ← others_get? s'.cache hk, h.cache]
    rw [hc]
    cases s'.cache.get? k with
    | some v => first | rfl | exact h
    | none =>
      have h1 := hm.ans s s' h
      have h2 := hm.like s s' h
      rcases hms : m s with ⟨x, t⟩
      rcases hms' : m s' with ⟨x', t'⟩
      rw [hms, hms'] at h1 h2
      simp only at h1 h2
      subst h1
      cases x with
      | error e => first | rfl | exact h2
      | ok a =>
        first
        | rfl
        | exact ⟨h2.raw, by
            show others (t.cache.set k a) = others (t'.cache.set k a)
            rw [others_set _ _ hk, others_set _ _ hk, h2.cache]⟩
theorem collect' {xs : List β} {f : β → PyM (HSt K) α} (hf : ∀ x, Ignores (f x)) :
    Ignores (PyM.collect xs f) := by
  induction xs with
  | nil => exact id_of fun _ => rfl
  | cons x xs ih =>
    unfold PyM.collect
    exact bind' (hf x) fun _ => bind' ih fun _ => pure' _
theorem forM' {xs : List β} {f : β → PyM (HSt K) Unit} (hf : ∀ x, Ignores (f x)) : Ignores (PyM.forM xs f) := by
  induction xs with
  | nil => exact id_of fun _ => rfl
  | cons x xs ih => exact bind' (hf x) fun _ => ih

end Ignores

theorem ne_Wv {sc : Option String} {n : HName} (h : n ≠ HName.Wv) : ((sc, n) : HKey) ≠ (none, HName.Wv) :=
  fun h' => h (congrArg Prod.snd h')

/-- one step of a proof of `Ignores` -/
syntax "ignores1" : tactic
macro_rules | `(tactic| ignores1) => `(tactic| with_reducible apply Ignores.bind')
macro_rules | `(tactic| ignores1) => `(tactic| with_reducible exact Ignores.pure' _)
macro_rules | `(tactic| ignores1) => `(tactic| with_reducible exact Ignores.raise' _)
macro_rules | `(tactic| ignores1) => `(tactic| with_reducible exact Ignores.lift' _)
macro_rules | `(tactic| ignores1) => `(tactic| with_reducible exact Ignores.numV')
macro_rules | `(tactic| ignores1) => `(tactic| with_reducible exact Ignores.assert' _)
macro_rules | `(tactic| ignores1) => `(tactic| with_reducible apply Ignores.memo')
macro_rules | `(tactic| ignores1) => `(tactic| with_reducible apply Ignores.collect')
macro_rules | `(tactic| ignores1) => `(tactic| assumption)
macro_rules | `(tactic| ignores1) => `(tactic| intro _)
macro_rules | `(tactic| ignores1) => `(tactic| split)
macro_rules | `(tactic| ignores1) => `(tactic| exact ne_Wv (by decide))

macro "ignores" : tactic => `(tactic| repeat ignores1)

theorem ignores_dropMaybe (M : Sp K) (r : K) (keep : Nat → Bool) :
    Ignores (Graph.dropMaybe M r keep : PyM (HSt K) (Sp K)) := by unfold Graph.dropMaybe; ignores
macro_rules | `(tactic| ignores1) => `(tactic| with_reducible exact ignores_dropMaybe _ _ _)

section HyperReads
namespace Hyper

theorem ignores_check (sc : Option String) : Ignores (check (K := K) sc) := by
  cases sc with
  | none => exact .pure' ()
  | some g => exact .readBind' (fun _ => .assert' _) fun h => by rw [h.2.1]
macro_rules | `(tactic| ignores1) => `(tactic| with_reducible exact ignores_check _)
theorem ignores_asMat (v : HVal K) : Ignores (asMat (K := K) v) := by unfold asMat; ignores
macro_rules | `(tactic| ignores1) => `(tactic| with_reducible exact ignores_asMat _)
theorem ignores_asEdges (v : HVal K) : Ignores (asEdges (K := K) v) := by unfold asEdges; ignores
macro_rules | `(tactic| ignores1) => `(tactic| with_reducible exact ignores_asEdges _)
theorem ignores_asVerts (v : HVal K) : Ignores (asVerts (K := K) v) := by unfold asVerts; ignores
macro_rules | `(tactic| ignores1) => `(tactic| with_reducible exact ignores_asVerts _)
theorem ignores_names : Ignores (names (K := K)) := .readRaw' fun h => by rw [h.2.1]
macro_rules | `(tactic| ignores1) => `(tactic| with_reducible exact ignores_names)
theorem ignores_groupOf (g : String) : Ignores (groupOf (K := K) g) :=
  .readBind' (fun r => by ignores) fun h => by rw [h.2.1]
macro_rules | `(tactic| ignores1) => `(tactic| with_reducible exact ignores_groupOf _)
theorem ignores_getV : Ignores (getV (K := K)) := by
  have h : Ignores (readRaw fun r : HRaw K => HVal.verts (K := K) (List.range r.numV)) := .readRaw' fun h => by rw [h.1]
  unfold getV; ignores
macro_rules | `(tactic| ignores1) => `(tactic| with_reducible exact ignores_getV)
theorem ignores_getEOf (g : String) : Ignores (getEOf (K := K) g) := by unfold getEOf; ignores
macro_rules | `(tactic| ignores1) => `(tactic| with_reducible exact ignores_getEOf _)
theorem ignores_getE (sc : Option String) : Ignores (getE (K := K) sc) := by unfold getE; ignores
macro_rules | `(tactic| ignores1) => `(tactic| with_reducible exact ignores_getE _)
theorem ignores_getNumE (sc : Option String) : Ignores (getNumE (K := K) sc) := by
  cases sc with
  | none => exact .readRaw' (f := fun r : HRaw K => (r.groups.map fun p => p.2.length).sum) fun h => by rw [h.2.1]
  | some g => exact .bind' (ignores_groupOf g) fun _ => .pure' _
macro_rules | `(tactic| ignores1) => `(tactic| with_reducible exact ignores_getNumE _)
theorem ignores_getHv2eOf (g : String) : Ignores (getHv2eOf (K := K) g) := by unfold getHv2eOf; ignores
macro_rules | `(tactic| ignores1) => `(tactic| with_reducible exact ignores_getHv2eOf _)
theorem ignores_getHv2e (sc : Option String) : Ignores (getHv2e (K := K) sc) := by unfold getHv2e; ignores
macro_rules | `(tactic| ignores1) => `(tactic| with_reducible exact ignores_getHv2e _)
theorem ignores_getH (sc : Option String) : Ignores (getH (K := K) sc) := by unfold getH; ignores
macro_rules | `(tactic| ignores1) => `(tactic| with_reducible exact ignores_getH _)
theorem ignores_getHT (sc : Option String) : Ignores (getHT (K := K) sc) := by unfold getHT; ignores
macro_rules | `(tactic| ignores1) => `(tactic| with_reducible exact ignores_getHT _)
theorem ignores_getWeOf (g : String) : Ignores (getWeOf (K := K) g) := by unfold getWeOf; ignores
macro_rules | `(tactic| ignores1) => `(tactic| with_reducible exact ignores_getWeOf _)
theorem ignores_getWe (sc : Option String) : Ignores (getWe (K := K) sc) := by unfold getWe; ignores
macro_rules | `(tactic| ignores1) => `(tactic| with_reducible exact ignores_getWe _)
theorem ignores_getDvOf (g : String) : Ignores (getDvOf (K := K) g) := by unfold getDvOf; ignores
macro_rules | `(tactic| ignores1) => `(tactic| with_reducible exact ignores_getDvOf _)
theorem ignores_getDv (sc : Option String) : Ignores (getDv (K := K) sc) := by unfold getDv; ignores
macro_rules | `(tactic| ignores1) => `(tactic| with_reducible exact ignores_getDv _)
theorem ignores_getDvN1 (sc : Option String) : Ignores (getDvN1 (K := K) sc) := by unfold getDvN1; ignores
macro_rules | `(tactic| ignores1) => `(tactic| with_reducible exact ignores_getDvN1 _)
theorem ignores_getDeOf (g : String) : Ignores (getDeOf (K := K) g) := by unfold getDeOf; ignores
macro_rules | `(tactic| ignores1) => `(tactic| with_reducible exact ignores_getDeOf _)
theorem ignores_getDe (sc : Option String) : Ignores (getDe (K := K) sc) := by unfold getDe; ignores
macro_rules | `(tactic| ignores1) => `(tactic| with_reducible exact ignores_getDe _)
theorem ignores_getDeN1 (sc : Option String) : Ignores (getDeN1 (K := K) sc) := by unfold getDeN1; ignores
macro_rules | `(tactic| ignores1) => `(tactic| with_reducible exact ignores_getDeN1 _)
theorem ignores_getNeOf (v : Int) (g : String) : Ignores (getNeOf (K := K) v g) := by unfold getNeOf; ignores
macro_rules | `(tactic| ignores1) => `(tactic| with_reducible exact ignores_getNeOf _ _)
theorem ignores_getNe (v : Int) (sc : Option String) : Ignores (getNe (K := K) v sc) := by unfold getNe; ignores
macro_rules | `(tactic| ignores1) => `(tactic| with_reducible exact ignores_getNe _ _)
theorem ignores_getNvOf (e : Int) (g : String) : Ignores (getNvOf (K := K) e g) := by unfold getNvOf; ignores
macro_rules | `(tactic| ignores1) => `(tactic| with_reducible exact ignores_getNvOf _ _)
theorem ignores_findNv (e : Int) (l : List String) : Ignores (findNv (K := K) e l) := by
  induction l generalizing e with
  | nil => unfold findNv; ignores
  | cons g gs ih =>
    unfold findNv
    have := fun n : Nat => ih (e - n)
    refine .bind' (ignores_getNumE _) fun n => ?_
    split
    · exact ignores_getNvOf _ _
    · exact this n
macro_rules | `(tactic| ignores1) => `(tactic| with_reducible exact ignores_findNv _ _)
theorem ignores_getNv (e : Int) (sc : Option String) : Ignores (getNv (K := K) e sc) := by unfold getNv; ignores
macro_rules | `(tactic| ignores1) => `(tactic| with_reducible exact ignores_getNv _ _)

variable [PyReal K]

theorem ignores_getDvN12 (sc : Option String) : Ignores (getDvN12 (K := K) sc) := by unfold getDvN12; ignores
macro_rules | `(tactic| ignores1) => `(tactic| with_reducible exact ignores_getDvN12 _)
theorem ignores_getLHGNN (sc : Option String) : Ignores (getLHGNN (K := K) sc) := by unfold getLHGNN; ignores
macro_rules | `(tactic| ignores1) => `(tactic| with_reducible exact ignores_getLHGNN _)
theorem ignores_getLsym (sc : Option String) : Ignores (getLsym (K := K) sc) := by unfold getLsym; ignores
macro_rules | `(tactic| ignores1) => `(tactic| with_reducible exact ignores_getLsym _)
theorem ignores_getLrw (sc : Option String) : Ignores (getLrw (K := K) sc) := by unfold getLrw; ignores
macro_rules | `(tactic| ignores1) => `(tactic| with_reducible exact ignores_getLrw _)
theorem ignores_smoothHGNN (sc : Option String) (X : Dense K) (r : K) (keep : Nat → Bool) : Ignores (smoothHGNN (K := K) sc X r keep) := by unfold smoothHGNN; ignores
macro_rules | `(tactic| ignores1) => `(tactic| with_reducible exact ignores_smoothHGNN _ _ _ _)
theorem ignores_aggregate {P D : PyM (HSt K) (Sp K)} (hP : Ignores P) (hD : Ignores D) (X : Dense K) (aggr : Aggr)
    (w : Option (List K)) (r : K) (keep : Nat → Bool) : Ignores (aggregate P D X aggr w r keep) := by
  unfold aggregate; ignores
macro_rules | `(tactic| ignores1) => `(tactic| with_reducible apply ignores_aggregate)
theorem ignores_v2eAggr (sc : Option String) (X : Dense K) (aggr : Aggr) (w : Option (List K)) (r : K) (keep : Nat → Bool) : Ignores (v2eAggr (K := K) sc X aggr w r keep) := by unfold v2eAggr; ignores
macro_rules | `(tactic| ignores1) => `(tactic| with_reducible exact ignores_v2eAggr _ _ _ _ _ _)
theorem ignores_v2eUpd (sc : Option String) (X : Dense K) (w : Option (List K)) : Ignores (v2eUpd (K := K) sc X w) := by unfold v2eUpd; ignores
macro_rules | `(tactic| ignores1) => `(tactic| with_reducible exact ignores_v2eUpd _ _ _)
theorem ignores_v2e (sc : Option String) (X : Dense K) (aggr : Aggr) (w : Option (List K)) (ew : Option (List K)) (r : K) (keep : Nat → Bool) : Ignores (v2e (K := K) sc X aggr w ew r keep) := by unfold v2e; ignores
macro_rules | `(tactic| ignores1) => `(tactic| with_reducible exact ignores_v2e _ _ _ _ _ _ _)
theorem ignores_e2vAggr (sc : Option String) (X : Dense K) (aggr : Aggr) (w : Option (List K)) (r : K) (keep : Nat → Bool) : Ignores (e2vAggr (K := K) sc X aggr w r keep) := by unfold e2vAggr; ignores
macro_rules | `(tactic| ignores1) => `(tactic| with_reducible exact ignores_e2vAggr _ _ _ _ _ _)
theorem ignores_e2vUpd (sc : Option String) (X : Dense K) : Ignores (e2vUpd (K := K) sc X) := by unfold e2vUpd; ignores
macro_rules | `(tactic| ignores1) => `(tactic| with_reducible exact ignores_e2vUpd _ _)
theorem ignores_e2v (sc : Option String) (X : Dense K) (aggr : Aggr) (w : Option (List K)) (r : K) (keep : Nat → Bool) : Ignores (e2v (K := K) sc X aggr w r keep) := by unfold e2v; ignores
macro_rules | `(tactic| ignores1) => `(tactic| with_reducible exact ignores_e2v _ _ _ _ _ _)
theorem ignores_v2v (sc : Option String) (X : Dense K) (a : V2VArgs K) : Ignores (v2v (K := K) sc X a) := by unfold v2v; ignores
macro_rules | `(tactic| ignores1) => `(tactic| with_reducible exact ignores_v2v _ _ _)


theorem ignores_ask (q : HQuery K) (h1 : q ≠ .vWeight) (h2 : q ≠ .Wv) : Ignores (ask q) := by
  cases q with
  | vWeight => exact absurd rfl h1
  | Wv => exact absurd rfl h2
  | numV => exact .readBind' (fun _ => .pure' _) fun h => by rw [h.1]
  | numGroups => exact .readBind' (fun _ => .pure' _) fun h => by rw [h.2.1]
  | _ => dsimp only [ask]; ignores

/-- hypergraphs that are alike remain so when the same property is read of both -/
theorem ask_like (q : HQuery K) {s s' : HSt K} (h : Like s s') : Like (ask q s).2 (ask q s').2 := by
  by_cases h1 : q = .vWeight
  · subst h1; exact h
  by_cases h2 : q = .Wv
  · subst h2
    have hm : ∀ t : HSt K, Like (ask .Wv t).2 t := by
      intro t
      have ht : Like t t := ⟨⟨rfl, rfl, rfl⟩, rfl⟩
      simp only [ask, getWv, PyM.bind_apply, memo]
      cases t.cache.get? (none, HName.Wv) with
      | some v => cases v <;> exact ht
      | none =>
        simp only [computeWv, PyM.bind_apply, readRaw]
        cases hw : t.raw.vWeight with
        | none => simp only [id, hw]; exact ht
        | some w =>
          simp only [id, hw]
          exact ⟨⟨rfl, rfl, rfl⟩, others_set_Wv _ _⟩
    have a := hm s
    have b := hm s'
    exact ⟨⟨a.raw.1.trans (h.raw.1.trans b.raw.1.symm), a.raw.2.1.trans (h.raw.2.1.trans b.raw.2.1.symm),
      a.raw.2.2.trans (h.raw.2.2.trans b.raw.2.2.symm)⟩, a.cache.trans (h.cache.trans b.cache.symm)⟩
  exact (ignores_ask q h1 h2).like s s' h

/-! ### Changes -/

theorem ignores_setRawH {f : HRaw K → HRaw K} (hf : ∀ {r r'}, RawLike r r' → RawLike (f r) (f r')) :
    Ignores (setRawH f) := ⟨fun _ _ _ => rfl, fun _ _ h => ⟨hf h.raw, h.cache⟩⟩

theorem ignores_setGroups {f : Dict String (HGroup K) → Dict String (HGroup K)} :
    Ignores (setRawH fun r : HRaw K => { r with groups := f r.groups }) :=
  ignores_setRawH fun h => ⟨h.1, congrArg f h.2.1, h.2.2⟩

theorem ignores_clearCacheH (g : Option String) : Ignores (clearCacheH (K := K) g) := by
  cases g with
  | none => exact ⟨fun _ _ _ => rfl, fun _ _ h => ⟨h.raw, rfl⟩⟩
  | some g =>
    refine ⟨fun _ _ _ => rfl, fun s s' h => ⟨h.raw, ?_⟩⟩
    show others (s.cache.filter _) = others (s'.cache.filter _)
    have hcomm : ∀ (c : Dict HKey (HVal K)) (f : HKey × HVal K → Bool), others (c.filter f) = (others c).filter f := by
      intro c f
      unfold others
      rw [List.filter_filter, List.filter_filter]
      exact List.filter_congr fun x _ => Bool.and_comm _ _
    rw [hcomm, hcomm, h.cache]

theorem ignores_addHyperedge (e : List Int) (w : K) (op : MergeOp) (g : String) :
    Ignores (addHyperedge e w op g) := by
  refine .readBind' (fun r => ?_) fun h => by rw [h.2.1]
  split
  · exact ignores_setGroups (f := fun x => x.set g [(e, w)])
  · rename_i d _
    split
    · exact ignores_setGroups (f := fun x => x.set g (d.set e w))
    · rename_i o _
      exact .bind' (.lift' _) fun f => ignores_setGroups (f := fun x => x.set g (d.set e (f o w)))

theorem ignores_removeOne (g : Option String) (e : List Int) : Ignores (removeOne (K := K) g e) := by
  cases g with
  | none => exact ignores_setGroups (f := popAll e)
  | some g => exact ignores_setGroups (f := popOne g e)

theorem ignores_apply (o : HOp K) : Ignores (apply o) := by
  cases o with
  | addHyperedges arg ew op g =>
    exact .bind' (.lift' _) fun es => .bind' (.lift' _) fun ws => .bind' (.assert' _) fun _ =>
      .bind' (.forM' fun p => ignores_addHyperedge _ _ _ _) fun _ => ignores_clearCacheH _
  | removeHyperedges arg g =>
    refine .readBind' (fun r => .bind' (.assert' _) fun _ => .bind' (.lift' _) fun es =>
      .bind' (.forM' fun p => ignores_removeOne _ _) fun _ => ignores_clearCacheH _) fun {r r'} h => ?_
    have : knownGroup g r = knownGroup g r' := by unfold knownGroup; rw [h.2.1]
    simp only [this]
  | removeGroup g =>
    exact .bind' (ignores_setGroups (f := fun x => x.del g)) fun _ => ignores_clearCacheH _
  | clear =>
    exact .bind' (ignores_setRawH fun h => ⟨h.1, rfl, rfl⟩) fun _ => ignores_clearCacheH _
  | setVWeight w => exact .raise' _

end Hyper
end HyperReads
end DHG
