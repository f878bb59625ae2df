import Verif.HyperApi

/-!
# Reading calls of a hypergraph store results only under groups that exist, whatever the cache contains
-/

set_option linter.unusedSectionVars false
set_option autoImplicit false

namespace DHG

variable {K : Type} [Field K] [LinearOrder K]

/-- cached results belong to the whole hypergraph or to one of its groups -/
def Hyper.KeysOk (r : HRaw K) (ks : List HKey) : Prop := ∀ k ∈ ks, ∀ g, k.1 = some g → r.groups.has g = true

/-- the computation keeps the raw attributes and stores results only under groups that exist -/
structure Scoped {α : Type} (m : PyM (HSt K) α) : Prop where
  keep : ∀ s, (m s).2.raw = s.raw
  keys : ∀ s, Hyper.KeysOk s.raw s.cache.keys → Hyper.KeysOk (m s).2.raw (m s).2.cache.keys

namespace Scoped

variable {α β : Type}

theorem id_of {m : PyM (HSt K) α} (h : ∀ s, (m s).2 = s) : Scoped m :=
  ⟨fun s => by rw [h s], fun s hs => by rw [h s]; exact hs⟩
theorem pure' (a : α) : Scoped (pure a : PyM (HSt K) α) := id_of fun _ => rfl
theorem raise' (e : Err) : Scoped (PyM.raise e : PyM (HSt K) α) := id_of fun _ => rfl
theorem lift' (x : Except Err α) : Scoped (PyM.lift x : PyM (HSt K) α) := id_of fun _ => rfl
theorem readRaw' (g : HRaw K → α) : Scoped (readRaw g : PyM (HSt K) α) := id_of fun _ => rfl
theorem assert' (b : Bool) : Scoped (PyM.assert b : PyM (HSt K) Unit) := by
  cases b <;> exact id_of fun _ => rfl
theorem bind' {m : PyM (HSt K) α} {g : α → PyM (HSt K) β} (hm : Scoped m)
    (hg : ∀ a, Scoped (g a)) : Scoped (m >>= g) := by
  refine ⟨fun s => ?_, fun s hs => ?_⟩
  · simp only [PyM.bind_apply]
    have := hm.keep s
    rcases hms : m s with ⟨_ | a, s'⟩ <;> rw [hms] at this
    · exact this
    · exact ((hg a).keep s').trans this
  · simp only [PyM.bind_apply]
    have := hm.keys s hs
    rcases hms : m s with ⟨_ | a, s'⟩ <;> rw [hms] at this
    · exact this
    · exact (hg a).keys s' this
theorem memo_of {k : HKey} {m : PyM (HSt K) (HVal K)} (hm : Scoped m) (s : HSt K)
    (hk : ∀ g, k.1 = some g → s.raw.groups.has g = true) (hs : Hyper.KeysOk s.raw s.cache.keys) :
    Hyper.KeysOk (memo k m s).2.raw (memo k m s).2.cache.keys := by
  unfold memo
  have h1 := hm.keep s
  have h2 := hm.keys s hs
  cases hg : s.cache.get? k with
  | some v => exact hs
  | none =>
    rcases hms : m s with ⟨_ | a, s'⟩ <;> rw [hms] at h1 h2
    · exact h2
    · intro k' hk' g hkg
      simp only at h1 h2 hk' ⊢
      rcases (Dict.mem_keys_set _ _ _ _).1 hk' with h | h
      · subst h; rw [h1]; exact hk g hkg
      · exact h2 k' h g hkg
theorem memo_keep {k : HKey} {m : PyM (HSt K) (HVal K)} (hm : Scoped m) (s : HSt K) : (memo k m s).2.raw = s.raw := by
  unfold memo
  have h1 := hm.keep s
  cases hg : s.cache.get? k with
  | some v => rfl
  | none => rcases hms : m s with ⟨_ | a, s'⟩ <;> rw [hms] at h1 <;> exact h1
theorem memo' {n : HName} {m : PyM (HSt K) (HVal K)} (hm : Scoped m) : Scoped (memo (none, n) m) :=
  ⟨fun s => memo_keep hm s, fun s hs => memo_of hm s (fun g h => by cases h) hs⟩
theorem check' (sc : Option String) : Scoped (Hyper.check (K := K) sc) := by
  cases sc with
  | none => exact pure' _
  | some g =>
    refine id_of fun s => ?_
    simp only [Hyper.check, PyM.bind_apply, readRaw, PyM.assert]
    split <;> rfl
theorem checkMemo' {sc : Option String} {n : HName} {m : PyM (HSt K) (HVal K)} {k : HVal K → PyM (HSt K) β}
    (hm : Scoped m) (hk : ∀ x, Scoped (k x)) :
    Scoped (Hyper.check sc >>= fun _ => memo (sc, n) m >>= k) := by
  cases sc with
  | none => exact bind' (check' _) fun _ => bind' (memo' hm) hk
  | some g =>
    have hcheck : ∀ s : HSt K, (Hyper.check (K := K) (some g) s) =
        (if s.raw.groups.has g then .ok () else .error .assertion, s) := by
      intro s
      simp only [Hyper.check, PyM.bind_apply, readRaw, PyM.assert, id]
      split <;> rfl
    refine ⟨fun s => ?_, fun s hs => ?_⟩
    · rw [PyM.bind_apply, hcheck]
      by_cases hg : s.raw.groups.has g = true
      · simp only [hg, if_true, PyM.bind_apply]
        have := memo_keep (k := (some g, n)) hm s
        rcases hms : memo (some g, n) m s with ⟨_ | a, s'⟩ <;> rw [hms] at this
        · exact this
        · exact ((hk a).keep s').trans this
      · simp only [hg, Bool.false_eq_true, if_false]
    · rw [PyM.bind_apply, hcheck]
      by_cases hg : s.raw.groups.has g = true
      · simp only [hg, if_true, PyM.bind_apply]
        have := memo_of (k := (some g, n)) hm s (fun g' h => by cases h; exact hg) hs
        rcases hms : memo (some g, n) m s with ⟨_ | a, s'⟩ <;> rw [hms] at this
        · exact this
        · exact (hk a).keys s' this
      · simp only [hg, Bool.false_eq_true, if_false]; exact hs
theorem collect' {xs : List β} {f : β → PyM (HSt K) α} (hf : ∀ x, Scoped (f x)) :
    Scoped (PyM.collect xs f) := by
  induction xs with
  | nil => exact id_of fun _ => rfl
  | cons x xs ih =>
    unfold PyM.collect
    exact bind' (hf x) fun _ => bind' ih fun _ => pure' _

end Scoped

/-- one step of a proof of `Scoped` -/
syntax "scoped1" : tactic
macro_rules | `(tactic| scoped1) => `(tactic| with_reducible apply Scoped.bind')
macro_rules | `(tactic| scoped1) => `(tactic| with_reducible apply Scoped.checkMemo')
macro_rules | `(tactic| scoped1) => `(tactic| with_reducible exact Scoped.pure' _)
macro_rules | `(tactic| scoped1) => `(tactic| with_reducible exact Scoped.raise' _)
macro_rules | `(tactic| scoped1) => `(tactic| with_reducible exact Scoped.lift' _)
macro_rules | `(tactic| scoped1) => `(tactic| with_reducible exact Scoped.readRaw' _)
macro_rules | `(tactic| scoped1) => `(tactic| with_reducible exact Scoped.assert' _)
macro_rules | `(tactic| scoped1) => `(tactic| with_reducible apply Scoped.memo')
macro_rules | `(tactic| scoped1) => `(tactic| with_reducible apply Scoped.collect')
macro_rules | `(tactic| scoped1) => `(tactic| assumption)
macro_rules | `(tactic| scoped1) => `(tactic| intro _)
macro_rules | `(tactic| scoped1) => `(tactic| split)

macro "scoped" : tactic => `(tactic| repeat scoped1)

theorem scoped_dropMaybe (M : Sp K) (r : K) (keep : Nat → Bool) :
    Scoped (Graph.dropMaybe M r keep : PyM (HSt K) (Sp K)) := by unfold Graph.dropMaybe; scoped
macro_rules | `(tactic| scoped1) => `(tactic| with_reducible exact scoped_dropMaybe _ _ _)

section HyperReads
namespace Hyper

theorem scoped_check (sc : Option String) : Scoped (check (K := K) sc) := Scoped.check' sc
macro_rules | `(tactic| scoped1) => `(tactic| with_reducible exact scoped_check _)
theorem scoped_asMat (v : HVal K) : Scoped (asMat (K := K) v) := by unfold asMat; scoped
macro_rules | `(tactic| scoped1) => `(tactic| with_reducible exact scoped_asMat _)
theorem scoped_asEdges (v : HVal K) : Scoped (asEdges (K := K) v) := by unfold asEdges; scoped
macro_rules | `(tactic| scoped1) => `(tactic| with_reducible exact scoped_asEdges _)
theorem scoped_asVerts (v : HVal K) : Scoped (asVerts (K := K) v) := by unfold asVerts; scoped
macro_rules | `(tactic| scoped1) => `(tactic| with_reducible exact scoped_asVerts _)
theorem scoped_names : Scoped (names (K := K)) := by unfold names; scoped
macro_rules | `(tactic| scoped1) => `(tactic| with_reducible exact scoped_names)
theorem scoped_groupOf (g : String) : Scoped (groupOf (K := K) g) := by unfold groupOf; scoped
macro_rules | `(tactic| scoped1) => `(tactic| with_reducible exact scoped_groupOf _)
theorem scoped_getV : Scoped (getV (K := K)) := by unfold getV; scoped
macro_rules | `(tactic| scoped1) => `(tactic| with_reducible exact scoped_getV)
theorem scoped_getEOf (g : String) : Scoped (getEOf (K := K) g) := by unfold getEOf; scoped
macro_rules | `(tactic| scoped1) => `(tactic| with_reducible exact scoped_getEOf _)
theorem scoped_getE (sc : Option String) : Scoped (getE (K := K) sc) := by unfold getE; scoped
macro_rules | `(tactic| scoped1) => `(tactic| with_reducible exact scoped_getE _)
theorem scoped_getNumE (sc : Option String) : Scoped (getNumE (K := K) sc) := by unfold getNumE; scoped
macro_rules | `(tactic| scoped1) => `(tactic| with_reducible exact scoped_getNumE _)
theorem scoped_getHv2eOf (g : String) : Scoped (getHv2eOf (K := K) g) := by unfold getHv2eOf; scoped
macro_rules | `(tactic| scoped1) => `(tactic| with_reducible exact scoped_getHv2eOf _)
theorem scoped_getHv2e (sc : Option String) : Scoped (getHv2e (K := K) sc) := by unfold getHv2e; scoped
macro_rules | `(tactic| scoped1) => `(tactic| with_reducible exact scoped_getHv2e _)
theorem scoped_getH (sc : Option String) : Scoped (getH (K := K) sc) := by unfold getH; scoped
macro_rules | `(tactic| scoped1) => `(tactic| with_reducible exact scoped_getH _)
theorem scoped_getHT (sc : Option String) : Scoped (getHT (K := K) sc) := by unfold getHT; scoped
macro_rules | `(tactic| scoped1) => `(tactic| with_reducible exact scoped_getHT _)
theorem scoped_computeWv : Scoped (computeWv (K := K)) := by unfold computeWv; scoped
macro_rules | `(tactic| scoped1) => `(tactic| with_reducible exact scoped_computeWv)
theorem scoped_getWv : Scoped (getWv (K := K)) := by unfold getWv; scoped
macro_rules | `(tactic| scoped1) => `(tactic| with_reducible exact scoped_getWv)
theorem scoped_getWeOf (g : String) : Scoped (getWeOf (K := K) g) := by unfold getWeOf; scoped
macro_rules | `(tactic| scoped1) => `(tactic| with_reducible exact scoped_getWeOf _)
theorem scoped_getWe (sc : Option String) : Scoped (getWe (K := K) sc) := by unfold getWe; scoped
macro_rules | `(tactic| scoped1) => `(tactic| with_reducible exact scoped_getWe _)
theorem scoped_getDvOf (g : String) : Scoped (getDvOf (K := K) g) := by unfold getDvOf; scoped
macro_rules | `(tactic| scoped1) => `(tactic| with_reducible exact scoped_getDvOf _)
theorem scoped_getDv (sc : Option String) : Scoped (getDv (K := K) sc) := by unfold getDv; scoped
macro_rules | `(tactic| scoped1) => `(tactic| with_reducible exact scoped_getDv _)
theorem scoped_getDvN1 (sc : Option String) : Scoped (getDvN1 (K := K) sc) := by unfold getDvN1; scoped
macro_rules | `(tactic| scoped1) => `(tactic| with_reducible exact scoped_getDvN1 _)
theorem scoped_getDeOf (g : String) : Scoped (getDeOf (K := K) g) := by unfold getDeOf; scoped
macro_rules | `(tactic| scoped1) => `(tactic| with_reducible exact scoped_getDeOf _)
theorem scoped_getDe (sc : Option String) : Scoped (getDe (K := K) sc) := by unfold getDe; scoped
macro_rules | `(tactic| scoped1) => `(tactic| with_reducible exact scoped_getDe _)
theorem scoped_getDeN1 (sc : Option String) : Scoped (getDeN1 (K := K) sc) := by unfold getDeN1; scoped
macro_rules | `(tactic| scoped1) => `(tactic| with_reducible exact scoped_getDeN1 _)
theorem scoped_getNeOf (v : Int) (g : String) : Scoped (getNeOf (K := K) v g) := by unfold getNeOf; scoped
macro_rules | `(tactic| scoped1) => `(tactic| with_reducible exact scoped_getNeOf _ _)
theorem scoped_getNe (v : Int) (sc : Option String) : Scoped (getNe (K := K) v sc) := by unfold getNe; scoped
macro_rules | `(tactic| scoped1) => `(tactic| with_reducible exact scoped_getNe _ _)
theorem scoped_getNvOf (e : Int) (g : String) : Scoped (getNvOf (K := K) e g) := by unfold getNvOf; scoped
macro_rules | `(tactic| scoped1) => `(tactic| with_reducible exact scoped_getNvOf _ _)
theorem scoped_findNv (e : Int) (l : List String) : Scoped (findNv (K := K) e l) := by
  induction l generalizing e with
  | nil => unfold findNv; scoped
  | cons g gs ih =>
    unfold findNv
    have := fun n : Nat => ih (e - n)
    refine .bind' (scoped_getNumE _) fun n => ?_
    split
    · exact scoped_getNvOf _ _
    · exact this n
macro_rules | `(tactic| scoped1) => `(tactic| with_reducible exact scoped_findNv _ _)
theorem scoped_getNv (e : Int) (sc : Option String) : Scoped (getNv (K := K) e sc) := by unfold getNv; scoped
macro_rules | `(tactic| scoped1) => `(tactic| with_reducible exact scoped_getNv _ _)

variable [PyReal K]

theorem scoped_getDvN12 (sc : Option String) : Scoped (getDvN12 (K := K) sc) := by unfold getDvN12; scoped
macro_rules | `(tactic| scoped1) => `(tactic| with_reducible exact scoped_getDvN12 _)
theorem scoped_getLHGNN (sc : Option String) : Scoped (getLHGNN (K := K) sc) := by unfold getLHGNN; scoped
macro_rules | `(tactic| scoped1) => `(tactic| with_reducible exact scoped_getLHGNN _)
theorem scoped_getLsym (sc : Option String) : Scoped (getLsym (K := K) sc) := by unfold getLsym; scoped
macro_rules | `(tactic| scoped1) => `(tactic| with_reducible exact scoped_getLsym _)
theorem scoped_getLrw (sc : Option String) : Scoped (getLrw (K := K) sc) := by unfold getLrw; scoped
macro_rules | `(tactic| scoped1) => `(tactic| with_reducible exact scoped_getLrw _)
theorem scoped_smoothHGNN (sc : Option String) (X : Dense K) (r : K) (keep : Nat → Bool) : Scoped (smoothHGNN (K := K) sc X r keep) := by unfold smoothHGNN; scoped
macro_rules | `(tactic| scoped1) => `(tactic| with_reducible exact scoped_smoothHGNN _ _ _ _)
theorem scoped_aggregate {P D : PyM (HSt K) (Sp K)} (hP : Scoped P) (hD : Scoped D) (X : Dense K) (aggr : Aggr)
    (w : Option (List K)) (r : K) (keep : Nat → Bool) : Scoped (aggregate P D X aggr w r keep) := by
  unfold aggregate; scoped
macro_rules | `(tactic| scoped1) => `(tactic| with_reducible apply scoped_aggregate)
theorem scoped_v2eAggr (sc : Option String) (X : Dense K) (aggr : Aggr) (w : Option (List K)) (r : K) (keep : Nat → Bool) : Scoped (v2eAggr (K := K) sc X aggr w r keep) := by unfold v2eAggr; scoped
macro_rules | `(tactic| scoped1) => `(tactic| with_reducible exact scoped_v2eAggr _ _ _ _ _ _)
theorem scoped_v2eUpd (sc : Option String) (X : Dense K) (w : Option (List K)) : Scoped (v2eUpd (K := K) sc X w) := by unfold v2eUpd; scoped
macro_rules | `(tactic| scoped1) => `(tactic| with_reducible exact scoped_v2eUpd _ _ _)
theorem scoped_v2e (sc : Option String) (X : Dense K) (aggr : Aggr) (w : Option (List K)) (ew : Option (List K)) (r : K) (keep : Nat → Bool) : Scoped (v2e (K := K) sc X aggr w ew r keep) := by unfold v2e; scoped
macro_rules | `(tactic| scoped1) => `(tactic| with_reducible exact scoped_v2e _ _ _ _ _ _ _)
theorem scoped_e2vAggr (sc : Option String) (X : Dense K) (aggr : Aggr) (w : Option (List K)) (r : K) (keep : Nat → Bool) : Scoped (e2vAggr (K := K) sc X aggr w r keep) := by unfold e2vAggr; scoped
macro_rules | `(tactic| scoped1) => `(tactic| with_reducible exact scoped_e2vAggr _ _ _ _ _ _)
theorem scoped_e2vUpd (sc : Option String) (X : Dense K) : Scoped (e2vUpd (K := K) sc X) := by unfold e2vUpd; scoped
macro_rules | `(tactic| scoped1) => `(tactic| with_reducible exact scoped_e2vUpd _ _)
theorem scoped_e2v (sc : Option String) (X : Dense K) (aggr : Aggr) (w : Option (List K)) (r : K) (keep : Nat → Bool) : Scoped (e2v (K := K) sc X aggr w r keep) := by unfold e2v; scoped
macro_rules | `(tactic| scoped1) => `(tactic| with_reducible exact scoped_e2v _ _ _ _ _ _)
theorem scoped_v2v (sc : Option String) (X : Dense K) (a : V2VArgs K) : Scoped (v2v (K := K) sc X a) := by unfold v2v; scoped
macro_rules | `(tactic| scoped1) => `(tactic| with_reducible exact scoped_v2v _ _ _)

theorem scoped_ask (q : HQuery K) : Scoped (ask q) := by
  cases q <;> dsimp only [ask] <;> scoped

end Hyper
end HyperReads
end DHG
