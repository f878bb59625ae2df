import Verif.GraphApi
import Verif.HyperApi

/-!
# Reading calls change no raw attribute, whatever the cache contains
-/

set_option linter.unusedSectionVars false
set_option autoImplicit false

namespace DHG

/-- the computation leaves the raw attributes alone -/
structure KeepsRaw {R κ ν α : Type} (m : PyM (Cached R κ ν) α) : Prop where
  keep : ∀ s, (m s).2.raw = s.raw

namespace KeepsRaw

variable {R κ ν α β : Type}

theorem pure' (a : α) : KeepsRaw (pure a : PyM (Cached R κ ν) α) := ⟨fun _ => rfl⟩
theorem raise' (e : Err) : KeepsRaw (PyM.raise e : PyM (Cached R κ ν) α) := ⟨fun _ => rfl⟩
theorem lift' (x : Except Err α) : KeepsRaw (PyM.lift x : PyM (Cached R κ ν) α) := ⟨fun _ => rfl⟩
theorem readRaw' (g : R → α) : KeepsRaw (readRaw g : PyM (Cached R κ ν) α) := ⟨fun _ => rfl⟩
theorem onClone' (p : PyM (Cached R κ ν) Unit) (m : PyM (Cached R κ ν) α) : KeepsRaw (onClone p m) := ⟨fun _ => rfl⟩
theorem assert' (b : Bool) : KeepsRaw (PyM.assert b : PyM (Cached R κ ν) Unit) := by
  cases b <;> exact ⟨fun _ => rfl⟩
theorem bind' {m : PyM (Cached R κ ν) α} {g : α → PyM (Cached R κ ν) β} (hm : KeepsRaw m)
    (hg : ∀ a, KeepsRaw (g a)) : KeepsRaw (m >>= g) := by
  refine ⟨fun s => ?_⟩
  show (PyM.bind m g s).2.raw = s.raw
  unfold PyM.bind
  have := hm.keep s
  rcases hms : m s with ⟨_ | a, s'⟩ <;> rw [hms] at this
  · exact this
  · exact ((hg a).keep s').trans this
theorem memo' [DecidableEq κ] {k : κ} {m : PyM (Cached R κ ν) ν} (hm : KeepsRaw m) : KeepsRaw (memo k m) := by
  refine ⟨fun s => ?_⟩
  unfold memo
  have := hm.keep s
  cases s.cache.get? k with
  | some v => rfl
  | none =>
    rcases hms : m s with ⟨_ | a, s'⟩ <;> rw [hms] at this <;> exact this
theorem collect' {xs : List β} {f : β → PyM (Cached R κ ν) α} (hf : ∀ x, KeepsRaw (f x)) :
    KeepsRaw (PyM.collect xs f) := by
  induction xs with
  | nil => exact ⟨fun _ => rfl⟩
  | cons x xs ih =>
    unfold PyM.collect
    exact bind' (hf x) fun _ => bind' ih fun _ => pure' _

end KeepsRaw

/-- one step of a proof of `KeepsRaw` -/
syntax "keeps1" : tactic
macro_rules | `(tactic| keeps1) => `(tactic| with_reducible apply KeepsRaw.bind')
macro_rules | `(tactic| keeps1) => `(tactic| with_reducible exact KeepsRaw.pure' _)
macro_rules | `(tactic| keeps1) => `(tactic| with_reducible exact KeepsRaw.raise' _)
macro_rules | `(tactic| keeps1) => `(tactic| with_reducible exact KeepsRaw.lift' _)
macro_rules | `(tactic| keeps1) => `(tactic| with_reducible exact KeepsRaw.readRaw' _)
macro_rules | `(tactic| keeps1) => `(tactic| with_reducible exact KeepsRaw.onClone' _ _)
macro_rules | `(tactic| keeps1) => `(tactic| with_reducible exact KeepsRaw.assert' _)
macro_rules | `(tactic| keeps1) => `(tactic| with_reducible apply KeepsRaw.memo')
macro_rules | `(tactic| keeps1) => `(tactic| with_reducible apply KeepsRaw.collect')
macro_rules | `(tactic| keeps1) => `(tactic| assumption)
macro_rules | `(tactic| keeps1) => `(tactic| intro _)
macro_rules | `(tactic| keeps1) => `(tactic| split)

macro "keeps" : tactic => `(tactic| repeat keeps1)

variable {K : Type} [Field K] [LinearOrder K]

theorem keeps_dropMaybe {R κ ν : Type} (M : Sp K) (r : K) (keep : Nat → Bool) :
    KeepsRaw (Graph.dropMaybe M r keep : PyM (Cached R κ ν) (Sp K)) := by unfold Graph.dropMaybe; keeps
macro_rules | `(tactic| keeps1) => `(tactic| with_reducible exact keeps_dropMaybe _ _ _)

section GraphReads
namespace Graph

theorem keeps_asEdges (v : GVal K) : KeepsRaw (asEdges v) := by unfold asEdges; keeps
theorem keeps_asMat (v : GVal K) : KeepsRaw (asMat v) := by unfold asMat; keeps
macro_rules | `(tactic| keeps1) => `(tactic| with_reducible exact keeps_asEdges _)
macro_rules | `(tactic| keeps1) => `(tactic| with_reducible exact keeps_asMat _)
theorem keeps_getE : KeepsRaw (getE (K := K)) := by unfold getE; keeps
macro_rules | `(tactic| keeps1) => `(tactic| with_reducible exact keeps_getE)
theorem keeps_getEBoth : KeepsRaw (getEBoth (K := K)) := by unfold getEBoth; keeps
macro_rules | `(tactic| keeps1) => `(tactic| with_reducible exact keeps_getEBoth)
theorem keeps_getNumE : KeepsRaw (getNumE (K := K)) := by unfold getNumE; keeps
macro_rules | `(tactic| keeps1) => `(tactic| with_reducible exact keeps_getNumE)
theorem keeps_getA : KeepsRaw (getA (K := K)) := by unfold getA; keeps
macro_rules | `(tactic| keeps1) => `(tactic| with_reducible exact keeps_getA)
theorem keeps_getDv : KeepsRaw (getDv (K := K)) := by unfold getDv; keeps
macro_rules | `(tactic| keeps1) => `(tactic| with_reducible exact keeps_getDv)
theorem keeps_getDvN1 : KeepsRaw (getDvN1 (K := K)) := by unfold getDvN1; keeps
macro_rules | `(tactic| keeps1) => `(tactic| with_reducible exact keeps_getDvN1)
theorem keeps_getDegV : KeepsRaw (getDegV (K := K)) := by unfold getDegV; keeps
macro_rules | `(tactic| keeps1) => `(tactic| with_reducible exact keeps_getDegV)
theorem keeps_getApow (hop : Nat) : KeepsRaw (getApow (K := K) hop) := by unfold getApow; keeps
macro_rules | `(tactic| keeps1) => `(tactic| with_reducible exact keeps_getApow _)
theorem keeps_getNv (v : Int) (hop : Int) : KeepsRaw (getNv (K := K) v hop) := by unfold getNv; keeps
macro_rules | `(tactic| keeps1) => `(tactic| with_reducible exact keeps_getNv _ _)
theorem keeps_getESrc : KeepsRaw (getESrc (K := K)) := by unfold getESrc; keeps
macro_rules | `(tactic| keeps1) => `(tactic| with_reducible exact keeps_getESrc)
theorem keeps_getEDst : KeepsRaw (getEDst (K := K)) := by unfold getEDst; keeps
macro_rules | `(tactic| keeps1) => `(tactic| with_reducible exact keeps_getEDst)
theorem keeps_getEWeight : KeepsRaw (getEWeight (K := K)) := by unfold getEWeight; keeps
macro_rules | `(tactic| keeps1) => `(tactic| with_reducible exact keeps_getEWeight)
theorem keeps_getL : KeepsRaw (getL (K := K)) := by unfold getL; keeps
macro_rules | `(tactic| keeps1) => `(tactic| with_reducible exact keeps_getL)
theorem keeps_getLrw : KeepsRaw (getLrw (K := K)) := by unfold getLrw; keeps
macro_rules | `(tactic| keeps1) => `(tactic| with_reducible exact keeps_getLrw)

variable [PyReal K]

theorem keeps_getDvN12 : KeepsRaw (getDvN12 (K := K)) := by unfold getDvN12; keeps
macro_rules | `(tactic| keeps1) => `(tactic| with_reducible exact keeps_getDvN12)
theorem keeps_normA : KeepsRaw (normA (K := K)) := by unfold normA; keeps
macro_rules | `(tactic| keeps1) => `(tactic| with_reducible exact keeps_normA)
theorem keeps_getLsym : KeepsRaw (getLsym (K := K)) := by unfold getLsym; keeps
macro_rules | `(tactic| keeps1) => `(tactic| with_reducible exact keeps_getLsym)
theorem keeps_getLGCN : KeepsRaw (getLGCN (K := K)) := by unfold getLGCN; keeps
macro_rules | `(tactic| keeps1) => `(tactic| with_reducible exact keeps_getLGCN)
theorem keeps_smoothGCN (X : Dense K) (r : K) (keep : Nat → Bool) : KeepsRaw (smoothGCN (K := K) X r keep) := by unfold smoothGCN; keeps
macro_rules | `(tactic| keeps1) => `(tactic| with_reducible exact keeps_smoothGCN _ _ _)
theorem keeps_v2v (X : Dense K) (aggr : Aggr) (ew : Option (List K)) (r : K) (keep : Nat → Bool) : KeepsRaw (v2v (K := K) X aggr ew r keep) := by unfold v2v; keeps
macro_rules | `(tactic| keeps1) => `(tactic| with_reducible exact keeps_v2v _ _ _ _ _)

theorem keeps_ask (q : GQuery K) : KeepsRaw (ask q) := by
  cases q <;> dsimp only [ask] <;> keeps

end Graph
end GraphReads

section HyperReads
namespace Hyper

theorem keeps_check (sc : Option String) : KeepsRaw (check (K := K) sc) := by unfold check; keeps
macro_rules | `(tactic| keeps1) => `(tactic| with_reducible exact keeps_check _)
theorem keeps_asMat (v : HVal K) : KeepsRaw (asMat (K := K) v) := by unfold asMat; keeps
macro_rules | `(tactic| keeps1) => `(tactic| with_reducible exact keeps_asMat _)
theorem keeps_asEdges (v : HVal K) : KeepsRaw (asEdges (K := K) v) := by unfold asEdges; keeps
macro_rules | `(tactic| keeps1) => `(tactic| with_reducible exact keeps_asEdges _)
theorem keeps_asVerts (v : HVal K) : KeepsRaw (asVerts (K := K) v) := by unfold asVerts; keeps
macro_rules | `(tactic| keeps1) => `(tactic| with_reducible exact keeps_asVerts _)
theorem keeps_names : KeepsRaw (names (K := K)) := by unfold names; keeps
macro_rules | `(tactic| keeps1) => `(tactic| with_reducible exact keeps_names)
theorem keeps_groupOf (g : String) : KeepsRaw (groupOf (K := K) g) := by unfold groupOf; keeps
macro_rules | `(tactic| keeps1) => `(tactic| with_reducible exact keeps_groupOf _)
theorem keeps_getV : KeepsRaw (getV (K := K)) := by unfold getV; keeps
macro_rules | `(tactic| keeps1) => `(tactic| with_reducible exact keeps_getV)
theorem keeps_getEOf (g : String) : KeepsRaw (getEOf (K := K) g) := by unfold getEOf; keeps
macro_rules | `(tactic| keeps1) => `(tactic| with_reducible exact keeps_getEOf _)
theorem keeps_getE (sc : Option String) : KeepsRaw (getE (K := K) sc) := by unfold getE; keeps
macro_rules | `(tactic| keeps1) => `(tactic| with_reducible exact keeps_getE _)
theorem keeps_getNumE (sc : Option String) : KeepsRaw (getNumE (K := K) sc) := by unfold getNumE; keeps
macro_rules | `(tactic| keeps1) => `(tactic| with_reducible exact keeps_getNumE _)
theorem keeps_getHv2eOf (g : String) : KeepsRaw (getHv2eOf (K := K) g) := by unfold getHv2eOf; keeps
macro_rules | `(tactic| keeps1) => `(tactic| with_reducible exact keeps_getHv2eOf _)
theorem keeps_getHv2e (sc : Option String) : KeepsRaw (getHv2e (K := K) sc) := by unfold getHv2e; keeps
macro_rules | `(tactic| keeps1) => `(tactic| with_reducible exact keeps_getHv2e _)
theorem keeps_getH (sc : Option String) : KeepsRaw (getH (K := K) sc) := by unfold getH; keeps
macro_rules | `(tactic| keeps1) => `(tactic| with_reducible exact keeps_getH _)
theorem keeps_getHT (sc : Option String) : KeepsRaw (getHT (K := K) sc) := by unfold getHT; keeps
macro_rules | `(tactic| keeps1) => `(tactic| with_reducible exact keeps_getHT _)
theorem keeps_computeWv : KeepsRaw (computeWv (K := K)) := by unfold computeWv; keeps
macro_rules | `(tactic| keeps1) => `(tactic| with_reducible exact keeps_computeWv)
theorem keeps_getWv : KeepsRaw (getWv (K := K)) := by unfold getWv; keeps
macro_rules | `(tactic| keeps1) => `(tactic| with_reducible exact keeps_getWv)
theorem keeps_getWeOf (g : String) : KeepsRaw (getWeOf (K := K) g) := by unfold getWeOf; keeps
macro_rules | `(tactic| keeps1) => `(tactic| with_reducible exact keeps_getWeOf _)
theorem keeps_getWe (sc : Option String) : KeepsRaw (getWe (K := K) sc) := by unfold getWe; keeps
macro_rules | `(tactic| keeps1) => `(tactic| with_reducible exact keeps_getWe _)
theorem keeps_getDvOf (g : String) : KeepsRaw (getDvOf (K := K) g) := by unfold getDvOf; keeps
macro_rules | `(tactic| keeps1) => `(tactic| with_reducible exact keeps_getDvOf _)
theorem keeps_getDv (sc : Option String) : KeepsRaw (getDv (K := K) sc) := by unfold getDv; keeps
macro_rules | `(tactic| keeps1) => `(tactic| with_reducible exact keeps_getDv _)
theorem keeps_getDvN1 (sc : Option String) : KeepsRaw (getDvN1 (K := K) sc) := by unfold getDvN1; keeps
macro_rules | `(tactic| keeps1) => `(tactic| with_reducible exact keeps_getDvN1 _)
theorem keeps_getDeOf (g : String) : KeepsRaw (getDeOf (K := K) g) := by unfold getDeOf; keeps
macro_rules | `(tactic| keeps1) => `(tactic| with_reducible exact keeps_getDeOf _)
theorem keeps_getDe (sc : Option String) : KeepsRaw (getDe (K := K) sc) := by unfold getDe; keeps
macro_rules | `(tactic| keeps1) => `(tactic| with_reducible exact keeps_getDe _)
theorem keeps_getDeN1 (sc : Option String) : KeepsRaw (getDeN1 (K := K) sc) := by unfold getDeN1; keeps
macro_rules | `(tactic| keeps1) => `(tactic| with_reducible exact keeps_getDeN1 _)
theorem keeps_getNeOf (v : Int) (g : String) : KeepsRaw (getNeOf (K := K) v g) := by unfold getNeOf; keeps
macro_rules | `(tactic| keeps1) => `(tactic| with_reducible exact keeps_getNeOf _ _)
theorem keeps_getNe (v : Int) (sc : Option String) : KeepsRaw (getNe (K := K) v sc) := by unfold getNe; keeps
macro_rules | `(tactic| keeps1) => `(tactic| with_reducible exact keeps_getNe _ _)
theorem keeps_getNvOf (e : Int) (g : String) : KeepsRaw (getNvOf (K := K) e g) := by unfold getNvOf; keeps
macro_rules | `(tactic| keeps1) => `(tactic| with_reducible exact keeps_getNvOf _ _)
theorem keeps_findNv (e : Int) (l : List String) : KeepsRaw (findNv (K := K) e l) := by
  induction l generalizing e with
  | nil => unfold findNv; keeps
  | cons g gs ih =>
    unfold findNv
    have := fun n : Nat => ih (e - n)
    refine .bind' (keeps_getNumE _) fun n => ?_
    split
    · exact keeps_getNvOf _ _
    · exact this n
macro_rules | `(tactic| keeps1) => `(tactic| with_reducible exact keeps_findNv _ _)
theorem keeps_getNv (e : Int) (sc : Option String) : KeepsRaw (getNv (K := K) e sc) := by unfold getNv; keeps
macro_rules | `(tactic| keeps1) => `(tactic| with_reducible exact keeps_getNv _ _)

variable [PyReal K]

theorem keeps_getDvN12 (sc : Option String) : KeepsRaw (getDvN12 (K := K) sc) := by unfold getDvN12; keeps
macro_rules | `(tactic| keeps1) => `(tactic| with_reducible exact keeps_getDvN12 _)
theorem keeps_getLHGNN (sc : Option String) : KeepsRaw (getLHGNN (K := K) sc) := by unfold getLHGNN; keeps
macro_rules | `(tactic| keeps1) => `(tactic| with_reducible exact keeps_getLHGNN _)
theorem keeps_getLsym (sc : Option String) : KeepsRaw (getLsym (K := K) sc) := by unfold getLsym; keeps
macro_rules | `(tactic| keeps1) => `(tactic| with_reducible exact keeps_getLsym _)
theorem keeps_getLrw (sc : Option String) : KeepsRaw (getLrw (K := K) sc) := by unfold getLrw; keeps
macro_rules | `(tactic| keeps1) => `(tactic| with_reducible exact keeps_getLrw _)
theorem keeps_smoothHGNN (sc : Option String) (X : Dense K) (r : K) (keep : Nat → Bool) : KeepsRaw (smoothHGNN (K := K) sc X r keep) := by unfold smoothHGNN; keeps
macro_rules | `(tactic| keeps1) => `(tactic| with_reducible exact keeps_smoothHGNN _ _ _ _)
theorem keeps_aggregate {P D : PyM (HSt K) (Sp K)} (hP : KeepsRaw P) (hD : KeepsRaw D) (X : Dense K) (aggr : Aggr)
    (w : Option (List K)) (r : K) (keep : Nat → Bool) : KeepsRaw (aggregate P D X aggr w r keep) := by
  unfold aggregate; keeps
macro_rules | `(tactic| keeps1) => `(tactic| with_reducible apply keeps_aggregate)
theorem keeps_v2eAggr (sc : Option String) (X : Dense K) (aggr : Aggr) (w : Option (List K)) (r : K) (keep : Nat → Bool) : KeepsRaw (v2eAggr (K := K) sc X aggr w r keep) := by unfold v2eAggr; keeps
macro_rules | `(tactic| keeps1) => `(tactic| with_reducible exact keeps_v2eAggr _ _ _ _ _ _)
theorem keeps_v2eUpd (sc : Option String) (X : Dense K) (w : Option (List K)) : KeepsRaw (v2eUpd (K := K) sc X w) := by unfold v2eUpd; keeps
macro_rules | `(tactic| keeps1) => `(tactic| with_reducible exact keeps_v2eUpd _ _ _)
theorem keeps_v2e (sc : Option String) (X : Dense K) (aggr : Aggr) (w : Option (List K)) (ew : Option (List K)) (r : K) (keep : Nat → Bool) : KeepsRaw (v2e (K := K) sc X aggr w ew r keep) := by unfold v2e; keeps
macro_rules | `(tactic| keeps1) => `(tactic| with_reducible exact keeps_v2e _ _ _ _ _ _ _)
theorem keeps_e2vAggr (sc : Option String) (X : Dense K) (aggr : Aggr) (w : Option (List K)) (r : K) (keep : Nat → Bool) : KeepsRaw (e2vAggr (K := K) sc X aggr w r keep) := by unfold e2vAggr; keeps
macro_rules | `(tactic| keeps1) => `(tactic| with_reducible exact keeps_e2vAggr _ _ _ _ _ _)
theorem keeps_e2vUpd (sc : Option String) (X : Dense K) : KeepsRaw (e2vUpd (K := K) sc X) := by unfold e2vUpd; keeps
macro_rules | `(tactic| keeps1) => `(tactic| with_reducible exact keeps_e2vUpd _ _)
theorem keeps_e2v (sc : Option String) (X : Dense K) (aggr : Aggr) (w : Option (List K)) (r : K) (keep : Nat → Bool) : KeepsRaw (e2v (K := K) sc X aggr w r keep) := by unfold e2v; keeps
macro_rules | `(tactic| keeps1) => `(tactic| with_reducible exact keeps_e2v _ _ _ _ _ _)
theorem keeps_v2v (sc : Option String) (X : Dense K) (a : V2VArgs K) : KeepsRaw (v2v (K := K) sc X a) := by unfold v2v; keeps
macro_rules | `(tactic| keeps1) => `(tactic| with_reducible exact keeps_v2v _ _ _)

theorem keeps_ask (q : HQuery K) : KeepsRaw (ask q) := by
  cases q <;> dsimp only [ask] <;> keeps

end Hyper
end HyperReads
end DHG
