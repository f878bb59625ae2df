import Verif.GraphApi
import Verif.DiGraph
import Verif.BiGraph
import Verif.HyperApi

/-!
# Reading calls only add entries to the cache, whatever it contains
-/

set_option linter.unusedSectionVars false
set_option autoImplicit false

namespace DHG

theorem Dict.set_prefix {κ ν : Type} [DecidableEq κ] {d d' : Dict κ ν} {k : κ} (v : ν) (h : d <+: d')
    (hk : d.get? k = none) : d <+: d'.set k v := by
  induction d generalizing d' with
  | nil => exact List.nil_prefix
  | cons p d ih =>
    obtain ⟨t, rfl⟩ := h
    obtain ⟨k', v'⟩ := p
    simp only [Dict.get?] at hk
    split at hk
    · cases hk
    · rename_i hne
      simp only [List.cons_append, Dict.set, if_neg hne]
      exact (List.cons_prefix_cons).2 ⟨rfl, ih (List.prefix_append _ _) hk⟩

/-- the computation only adds entries to the cache, under keys that were missing -/
structure Grows {R κ ν α : Type} (m : PyM (Cached R κ ν) α) : Prop where
  grow : ∀ s, s.cache <+: (m s).2.cache
  nodup : ∀ s, s.cache.keys.Nodup → (m s).2.cache.keys.Nodup

namespace Grows

variable {R κ ν α β : Type}

theorem id_of {m : PyM (Cached R κ ν) α} (h : ∀ s, (m s).2 = s) : Grows m :=
  ⟨fun s => by rw [h s], fun s hs => by rw [h s]; exact hs⟩
theorem pure' (a : α) : Grows (pure a : PyM (Cached R κ ν) α) := id_of fun _ => rfl
theorem raise' (e : Err) : Grows (PyM.raise e : PyM (Cached R κ ν) α) := id_of fun _ => rfl
theorem lift' (x : Except Err α) : Grows (PyM.lift x : PyM (Cached R κ ν) α) := id_of fun _ => rfl
theorem readRaw' (g : R → α) : Grows (readRaw g : PyM (Cached R κ ν) α) := id_of fun _ => rfl
theorem onClone' (p : PyM (Cached R κ ν) Unit) (m : PyM (Cached R κ ν) α) : Grows (onClone p m) := id_of fun _ => rfl
theorem assert' (b : Bool) : Grows (PyM.assert b : PyM (Cached R κ ν) Unit) := by
  cases b <;> exact id_of fun _ => rfl
theorem bind' {m : PyM (Cached R κ ν) α} {g : α → PyM (Cached R κ ν) β} (hm : Grows m)
    (hg : ∀ a, Grows (g a)) : Grows (m >>= g) := by
  refine ⟨fun s => ?_, fun s hs => ?_⟩
  · show s.cache <+: (PyM.bind m g s).2.cache
    unfold PyM.bind
    have := hm.grow s
    rcases hms : m s with ⟨_ | a, s'⟩ <;> rw [hms] at this
    · exact this
    · exact this.trans ((hg a).grow s')
  · show (PyM.bind m g s).2.cache.keys.Nodup
    unfold PyM.bind
    have := hm.nodup s hs
    rcases hms : m s with ⟨_ | a, s'⟩ <;> rw [hms] at this
    · exact this
    · exact (hg a).nodup s' this
theorem memo' [DecidableEq κ] {k : κ} {m : PyM (Cached R κ ν) ν} (hm : Grows m) : Grows (memo k m) := by
  refine ⟨fun s => ?_, fun s hs => ?_⟩
  · unfold memo
    have := hm.grow s
    cases hk : s.cache.get? k with
    | some v => exact List.prefix_rfl
    | none =>
      rcases hms : m s with ⟨_ | a, s'⟩ <;> rw [hms] at this
      · exact this
      · exact Dict.set_prefix a this hk
  · unfold memo
    have := hm.nodup s hs
    cases hk : s.cache.get? k with
    | some v => exact hs
    | none =>
      rcases hms : m s with ⟨_ | a, s'⟩ <;> rw [hms] at this
      · exact this
      · exact Dict.nodup_set _ _ _ this
theorem collect' {xs : List β} {f : β → PyM (Cached R κ ν) α} (hf : ∀ x, Grows (f x)) :
    Grows (PyM.collect xs f) := by
  induction xs with
  | nil => exact id_of fun _ => rfl
  | cons x xs ih =>
    unfold PyM.collect
    exact bind' (hf x) fun _ => bind' ih fun _ => pure' _

end Grows

/-- one step of a proof of `Grows` -/
syntax "grows1" : tactic
macro_rules | `(tactic| grows1) => `(tactic| with_reducible apply Grows.bind')
macro_rules | `(tactic| grows1) => `(tactic| with_reducible exact Grows.pure' _)
macro_rules | `(tactic| grows1) => `(tactic| with_reducible exact Grows.raise' _)
macro_rules | `(tactic| grows1) => `(tactic| with_reducible exact Grows.lift' _)
macro_rules | `(tactic| grows1) => `(tactic| with_reducible exact Grows.readRaw' _)
macro_rules | `(tactic| grows1) => `(tactic| with_reducible exact Grows.onClone' _ _)
macro_rules | `(tactic| grows1) => `(tactic| with_reducible exact Grows.assert' _)
macro_rules | `(tactic| grows1) => `(tactic| with_reducible apply Grows.memo')
macro_rules | `(tactic| grows1) => `(tactic| with_reducible apply Grows.collect')
macro_rules | `(tactic| grows1) => `(tactic| assumption)
macro_rules | `(tactic| grows1) => `(tactic| intro _)
macro_rules | `(tactic| grows1) => `(tactic| split)

macro "grows" : tactic => `(tactic| repeat grows1)

variable {K : Type} [Field K] [LinearOrder K]

theorem grows_dropMaybe {R κ ν : Type} (M : Sp K) (r : K) (keep : Nat → Bool) :
    Grows (Graph.dropMaybe M r keep : PyM (Cached R κ ν) (Sp K)) := by unfold Graph.dropMaybe; grows
macro_rules | `(tactic| grows1) => `(tactic| with_reducible exact grows_dropMaybe _ _ _)

section GraphReads
namespace Graph

theorem grows_asEdges (v : GVal K) : Grows (asEdges v) := by unfold asEdges; grows
theorem grows_asMat (v : GVal K) : Grows (asMat v) := by unfold asMat; grows
macro_rules | `(tactic| grows1) => `(tactic| with_reducible exact grows_asEdges _)
macro_rules | `(tactic| grows1) => `(tactic| with_reducible exact grows_asMat _)
theorem grows_getE : Grows (getE (K := K)) := by unfold getE; grows
macro_rules | `(tactic| grows1) => `(tactic| with_reducible exact grows_getE)
theorem grows_getEBoth : Grows (getEBoth (K := K)) := by unfold getEBoth; grows
macro_rules | `(tactic| grows1) => `(tactic| with_reducible exact grows_getEBoth)
theorem grows_getNumE : Grows (getNumE (K := K)) := by unfold getNumE; grows
macro_rules | `(tactic| grows1) => `(tactic| with_reducible exact grows_getNumE)
theorem grows_getA : Grows (getA (K := K)) := by unfold getA; grows
macro_rules | `(tactic| grows1) => `(tactic| with_reducible exact grows_getA)
theorem grows_getDv : Grows (getDv (K := K)) := by unfold getDv; grows
macro_rules | `(tactic| grows1) => `(tactic| with_reducible exact grows_getDv)
theorem grows_getDvN1 : Grows (getDvN1 (K := K)) := by unfold getDvN1; grows
macro_rules | `(tactic| grows1) => `(tactic| with_reducible exact grows_getDvN1)
theorem grows_getDegV : Grows (getDegV (K := K)) := by unfold getDegV; grows
macro_rules | `(tactic| grows1) => `(tactic| with_reducible exact grows_getDegV)
theorem grows_getApow (hop : Nat) : Grows (getApow (K := K) hop) := by unfold getApow; grows
macro_rules | `(tactic| grows1) => `(tactic| with_reducible exact grows_getApow _)
theorem grows_getNv (v : Int) (hop : Int) : Grows (getNv (K := K) v hop) := by unfold getNv; grows
macro_rules | `(tactic| grows1) => `(tactic| with_reducible exact grows_getNv _ _)
theorem grows_getESrc : Grows (getESrc (K := K)) := by unfold getESrc; grows
macro_rules | `(tactic| grows1) => `(tactic| with_reducible exact grows_getESrc)
theorem grows_getEDst : Grows (getEDst (K := K)) := by unfold getEDst; grows
macro_rules | `(tactic| grows1) => `(tactic| with_reducible exact grows_getEDst)
theorem grows_getEWeight : Grows (getEWeight (K := K)) := by unfold getEWeight; grows
macro_rules | `(tactic| grows1) => `(tactic| with_reducible exact grows_getEWeight)
theorem grows_getL : Grows (getL (K := K)) := by unfold getL; grows
macro_rules | `(tactic| grows1) => `(tactic| with_reducible exact grows_getL)
theorem grows_getLrw : Grows (getLrw (K := K)) := by unfold getLrw; grows
macro_rules | `(tactic| grows1) => `(tactic| with_reducible exact grows_getLrw)

variable [PyReal K]

theorem grows_getDvN12 : Grows (getDvN12 (K := K)) := by unfold getDvN12; grows
macro_rules | `(tactic| grows1) => `(tactic| with_reducible exact grows_getDvN12)
theorem grows_normA : Grows (normA (K := K)) := by unfold normA; grows
macro_rules | `(tactic| grows1) => `(tactic| with_reducible exact grows_normA)
theorem grows_getLsym : Grows (getLsym (K := K)) := by unfold getLsym; grows
macro_rules | `(tactic| grows1) => `(tactic| with_reducible exact grows_getLsym)
theorem grows_getLGCN : Grows (getLGCN (K := K)) := by unfold getLGCN; grows
macro_rules | `(tactic| grows1) => `(tactic| with_reducible exact grows_getLGCN)
theorem grows_smoothGCN (X : Dense K) (r : K) (keep : Nat → Bool) : Grows (smoothGCN (K := K) X r keep) := by unfold smoothGCN; grows
macro_rules | `(tactic| grows1) => `(tactic| with_reducible exact grows_smoothGCN _ _ _)
theorem grows_v2v (X : Dense K) (aggr : Aggr) (ew : Option (List K)) (r : K) (keep : Nat → Bool) : Grows (v2v (K := K) X aggr ew r keep) := by unfold v2v; grows
macro_rules | `(tactic| grows1) => `(tactic| with_reducible exact grows_v2v _ _ _ _ _)

theorem grows_ask (q : GQuery K) : Grows (ask q) := by
  cases q <;> dsimp only [ask] <;> grows

end Graph
end GraphReads

section OrderedReads
namespace Ord

variable {c : Cls}

theorem grows_asEdges (v : GVal K) : Grows (asEdges v) := by unfold asEdges; grows
macro_rules | `(tactic| grows1) => `(tactic| with_reducible exact grows_asEdges _)
theorem grows_asMat (v : GVal K) : Grows (asMat v) := by unfold asMat; grows
macro_rules | `(tactic| grows1) => `(tactic| with_reducible exact grows_asMat _)
theorem grows_getE : Grows (getE (K := K) ) := by unfold getE; grows
macro_rules | `(tactic| grows1) => `(tactic| with_reducible exact grows_getE)
theorem grows_getM (c : Cls) : Grows (getM (K := K) c) := by unfold getM; grows
macro_rules | `(tactic| grows1) => `(tactic| with_reducible exact grows_getM _)
theorem grows_getMT (c : Cls) : Grows (getMT (K := K) c) := by unfold getMT; grows
macro_rules | `(tactic| grows1) => `(tactic| with_reducible exact grows_getMT _)
theorem grows_getDr (c : Cls) : Grows (getDr (K := K) c) := by unfold getDr; grows
macro_rules | `(tactic| grows1) => `(tactic| with_reducible exact grows_getDr _)
theorem grows_getDc (c : Cls) : Grows (getDc (K := K) c) := by unfold getDc; grows
macro_rules | `(tactic| grows1) => `(tactic| with_reducible exact grows_getDc _)
theorem grows_getDrN1 (c : Cls) : Grows (getDrN1 (K := K) c) := by unfold getDrN1; grows
macro_rules | `(tactic| grows1) => `(tactic| with_reducible exact grows_getDrN1 _)
theorem grows_getDcN1 (c : Cls) : Grows (getDcN1 (K := K) c) := by unfold getDcN1; grows
macro_rules | `(tactic| grows1) => `(tactic| with_reducible exact grows_getDcN1 _)
theorem grows_getNr (c : Cls) (i : Int) : Grows (getNr (K := K) c i) := by unfold getNr; grows
macro_rules | `(tactic| grows1) => `(tactic| with_reducible exact grows_getNr _ _)
theorem grows_getNc (c : Cls) (i : Int) : Grows (getNc (K := K) c i) := by unfold getNc; grows
macro_rules | `(tactic| grows1) => `(tactic| with_reducible exact grows_getNc _ _)
theorem grows_getERow (c : Cls) : Grows (getERow (K := K) c) := by unfold getERow; grows
macro_rules | `(tactic| grows1) => `(tactic| with_reducible exact grows_getERow _)
theorem grows_getECol (c : Cls) : Grows (getECol (K := K) c) := by unfold getECol; grows
macro_rules | `(tactic| grows1) => `(tactic| with_reducible exact grows_getECol _)
theorem grows_getEWeight (c : Cls) : Grows (getEWeight (K := K) c) := by unfold getEWeight; grows
macro_rules | `(tactic| grows1) => `(tactic| with_reducible exact grows_getEWeight _)

variable [PyReal K]

theorem grows_passDefault {P D : PyM (OSt K) (Sp K)} (hP : Grows P) (hD : Grows D) (X : Dense K) (aggr : Aggr)
    (r : K) (keep : Nat → Bool) : Grows (passDefault P D X aggr r keep) := by
  unfold passDefault; grows
macro_rules | `(tactic| grows1) => `(tactic| with_reducible apply grows_passDefault)
theorem grows_passWeighted (c : Cls) (tr : Bool) (w : List K) (X : Dense K) (aggr : Aggr) (p : K)
    (keep : Nat → Bool) : Grows (passWeighted c tr w X aggr p keep) := by unfold passWeighted; grows
macro_rules | `(tactic| grows1) => `(tactic| with_reducible exact grows_passWeighted _ _ _ _ _ _ _)
theorem grows_toRows (c : Cls) (X : Dense K) (aggr : Aggr) (ew : Option (List K)) (p : K)
    (keep : Nat → Bool) : Grows (toRows c X aggr ew p keep) := by unfold toRows; grows
macro_rules | `(tactic| grows1) => `(tactic| with_reducible exact grows_toRows _ _ _ _ _ _)
theorem grows_toCols (c : Cls) (X : Dense K) (aggr : Aggr) (ew : Option (List K)) (p : K)
    (keep : Nat → Bool) : Grows (toCols c X aggr ew p keep) := by unfold toCols; grows
macro_rules | `(tactic| grows1) => `(tactic| with_reducible exact grows_toCols _ _ _ _ _ _)

end Ord

namespace DiGraph
variable [PyReal K]

theorem grows_v2v (X : Dense K) (aggr : Aggr) (ew : Option (List K)) (dir : Dir) (r : K) (keep : Nat → Bool) : Grows (v2v (K := K) X aggr ew dir r keep) := by unfold v2v; grows
macro_rules | `(tactic| grows1) => `(tactic| with_reducible exact grows_v2v _ _ _ _ _ _)
theorem grows_ask (q : DQuery K) : Grows (ask q) := by
  cases q <;> dsimp only [ask] <;> grows

end DiGraph

namespace BiGraph

theorem grows_getA : Grows (getA (K := K)) := by unfold getA; grows
macro_rules | `(tactic| grows1) => `(tactic| with_reducible exact grows_getA)

variable [PyReal K]

theorem grows_getLGCN : Grows (getLGCN (K := K)) := by unfold getLGCN; grows
macro_rules | `(tactic| grows1) => `(tactic| with_reducible exact grows_getLGCN)
theorem grows_smoothGCN (X : Dense K) (r : K) (keep : Nat → Bool) : Grows (smoothGCN (K := K) X r keep) := by unfold smoothGCN; grows
macro_rules | `(tactic| grows1) => `(tactic| with_reducible exact grows_smoothGCN _ _ _)
theorem grows_u2v (X : Dense K) (aggr : Aggr) (ew : Option (List K)) (r : K) (keep : Nat → Bool) : Grows (u2v (K := K) X aggr ew r keep) := by unfold u2v; grows
macro_rules | `(tactic| grows1) => `(tactic| with_reducible exact grows_u2v _ _ _ _ _)
theorem grows_v2u (X : Dense K) (aggr : Aggr) (ew : Option (List K)) (r : K) (keep : Nat → Bool) : Grows (v2u (K := K) X aggr ew r keep) := by unfold v2u; grows
macro_rules | `(tactic| grows1) => `(tactic| with_reducible exact grows_v2u _ _ _ _ _)
theorem grows_ask (q : BQuery K) : Grows (ask q) := by
  cases q <;> dsimp only [ask] <;> grows

end BiGraph
end OrderedReads

section HyperReads
namespace Hyper

theorem grows_check (sc : Option String) : Grows (check (K := K) sc) := by unfold check; grows
macro_rules | `(tactic| grows1) => `(tactic| with_reducible exact grows_check _)
theorem grows_asMat (v : HVal K) : Grows (asMat (K := K) v) := by unfold asMat; grows
macro_rules | `(tactic| grows1) => `(tactic| with_reducible exact grows_asMat _)
theorem grows_asEdges (v : HVal K) : Grows (asEdges (K := K) v) := by unfold asEdges; grows
macro_rules | `(tactic| grows1) => `(tactic| with_reducible exact grows_asEdges _)
theorem grows_asVerts (v : HVal K) : Grows (asVerts (K := K) v) := by unfold asVerts; grows
macro_rules | `(tactic| grows1) => `(tactic| with_reducible exact grows_asVerts _)
theorem grows_names : Grows (names (K := K)) := by unfold names; grows
macro_rules | `(tactic| grows1) => `(tactic| with_reducible exact grows_names)
theorem grows_groupOf (g : String) : Grows (groupOf (K := K) g) := by unfold groupOf; grows
macro_rules | `(tactic| grows1) => `(tactic| with_reducible exact grows_groupOf _)
theorem grows_getV : Grows (getV (K := K)) := by unfold getV; grows
macro_rules | `(tactic| grows1) => `(tactic| with_reducible exact grows_getV)
theorem grows_getEOf (g : String) : Grows (getEOf (K := K) g) := by unfold getEOf; grows
macro_rules | `(tactic| grows1) => `(tactic| with_reducible exact grows_getEOf _)
theorem grows_getE (sc : Option String) : Grows (getE (K := K) sc) := by unfold getE; grows
macro_rules | `(tactic| grows1) => `(tactic| with_reducible exact grows_getE _)
theorem grows_getNumE (sc : Option String) : Grows (getNumE (K := K) sc) := by unfold getNumE; grows
macro_rules | `(tactic| grows1) => `(tactic| with_reducible exact grows_getNumE _)
theorem grows_getHv2eOf (g : String) : Grows (getHv2eOf (K := K) g) := by unfold getHv2eOf; grows
macro_rules | `(tactic| grows1) => `(tactic| with_reducible exact grows_getHv2eOf _)
theorem grows_getHv2e (sc : Option String) : Grows (getHv2e (K := K) sc) := by unfold getHv2e; grows
macro_rules | `(tactic| grows1) => `(tactic| with_reducible exact grows_getHv2e _)
theorem grows_getH (sc : Option String) : Grows (getH (K := K) sc) := by unfold getH; grows
macro_rules | `(tactic| grows1) => `(tactic| with_reducible exact grows_getH _)
theorem grows_getHT (sc : Option String) : Grows (getHT (K := K) sc) := by unfold getHT; grows
macro_rules | `(tactic| grows1) => `(tactic| with_reducible exact grows_getHT _)
theorem grows_computeWv : Grows (computeWv (K := K)) := by unfold computeWv; grows
macro_rules | `(tactic| grows1) => `(tactic| with_reducible exact grows_computeWv)
theorem grows_getWv : Grows (getWv (K := K)) := by unfold getWv; grows
macro_rules | `(tactic| grows1) => `(tactic| with_reducible exact grows_getWv)
theorem grows_getWeOf (g : String) : Grows (getWeOf (K := K) g) := by unfold getWeOf; grows
macro_rules | `(tactic| grows1) => `(tactic| with_reducible exact grows_getWeOf _)
theorem grows_getWe (sc : Option String) : Grows (getWe (K := K) sc) := by unfold getWe; grows
macro_rules | `(tactic| grows1) => `(tactic| with_reducible exact grows_getWe _)
theorem grows_getDvOf (g : String) : Grows (getDvOf (K := K) g) := by unfold getDvOf; grows
macro_rules | `(tactic| grows1) => `(tactic| with_reducible exact grows_getDvOf _)
theorem grows_getDv (sc : Option String) : Grows (getDv (K := K) sc) := by unfold getDv; grows
macro_rules | `(tactic| grows1) => `(tactic| with_reducible exact grows_getDv _)
theorem grows_getDvN1 (sc : Option String) : Grows (getDvN1 (K := K) sc) := by unfold getDvN1; grows
macro_rules | `(tactic| grows1) => `(tactic| with_reducible exact grows_getDvN1 _)
theorem grows_getDeOf (g : String) : Grows (getDeOf (K := K) g) := by unfold getDeOf; grows
macro_rules | `(tactic| grows1) => `(tactic| with_reducible exact grows_getDeOf _)
theorem grows_getDe (sc : Option String) : Grows (getDe (K := K) sc) := by unfold getDe; grows
macro_rules | `(tactic| grows1) => `(tactic| with_reducible exact grows_getDe _)
theorem grows_getDeN1 (sc : Option String) : Grows (getDeN1 (K := K) sc) := by unfold getDeN1; grows
macro_rules | `(tactic| grows1) => `(tactic| with_reducible exact grows_getDeN1 _)
theorem grows_getNeOf (v : Int) (g : String) : Grows (getNeOf (K := K) v g) := by unfold getNeOf; grows
macro_rules | `(tactic| grows1) => `(tactic| with_reducible exact grows_getNeOf _ _)
theorem grows_getNe (v : Int) (sc : Option String) : Grows (getNe (K := K) v sc) := by unfold getNe; grows
macro_rules | `(tactic| grows1) => `(tactic| with_reducible exact grows_getNe _ _)
theorem grows_getNvOf (e : Int) (g : String) : Grows (getNvOf (K := K) e g) := by unfold getNvOf; grows
macro_rules | `(tactic| grows1) => `(tactic| with_reducible exact grows_getNvOf _ _)
theorem grows_findNv (e : Int) (l : List String) : Grows (findNv (K := K) e l) := by
  induction l generalizing e with
  | nil => unfold findNv; grows
  | cons g gs ih =>
    unfold findNv
    have := fun n : Nat => ih (e - n)
    refine .bind' (grows_getNumE _) fun n => ?_
    split
    · exact grows_getNvOf _ _
    · exact this n
macro_rules | `(tactic| grows1) => `(tactic| with_reducible exact grows_findNv _ _)
theorem grows_getNv (e : Int) (sc : Option String) : Grows (getNv (K := K) e sc) := by unfold getNv; grows
macro_rules | `(tactic| grows1) => `(tactic| with_reducible exact grows_getNv _ _)

variable [PyReal K]

theorem grows_getDvN12 (sc : Option String) : Grows (getDvN12 (K := K) sc) := by unfold getDvN12; grows
macro_rules | `(tactic| grows1) => `(tactic| with_reducible exact grows_getDvN12 _)
theorem grows_getLHGNN (sc : Option String) : Grows (getLHGNN (K := K) sc) := by unfold getLHGNN; grows
macro_rules | `(tactic| grows1) => `(tactic| with_reducible exact grows_getLHGNN _)
theorem grows_getLsym (sc : Option String) : Grows (getLsym (K := K) sc) := by unfold getLsym; grows
macro_rules | `(tactic| grows1) => `(tactic| with_reducible exact grows_getLsym _)
theorem grows_getLrw (sc : Option String) : Grows (getLrw (K := K) sc) := by unfold getLrw; grows
macro_rules | `(tactic| grows1) => `(tactic| with_reducible exact grows_getLrw _)
theorem grows_smoothHGNN (sc : Option String) (X : Dense K) (r : K) (keep : Nat → Bool) : Grows (smoothHGNN (K := K) sc X r keep) := by unfold smoothHGNN; grows
macro_rules | `(tactic| grows1) => `(tactic| with_reducible exact grows_smoothHGNN _ _ _ _)
theorem grows_aggregate {P D : PyM (HSt K) (Sp K)} (hP : Grows P) (hD : Grows D) (X : Dense K) (aggr : Aggr)
    (w : Option (List K)) (r : K) (keep : Nat → Bool) : Grows (aggregate P D X aggr w r keep) := by
  unfold aggregate; grows
macro_rules | `(tactic| grows1) => `(tactic| with_reducible apply grows_aggregate)
theorem grows_v2eAggr (sc : Option String) (X : Dense K) (aggr : Aggr) (w : Option (List K)) (r : K) (keep : Nat → Bool) : Grows (v2eAggr (K := K) sc X aggr w r keep) := by unfold v2eAggr; grows
macro_rules | `(tactic| grows1) => `(tactic| with_reducible exact grows_v2eAggr _ _ _ _ _ _)
theorem grows_v2eUpd (sc : Option String) (X : Dense K) (w : Option (List K)) : Grows (v2eUpd (K := K) sc X w) := by unfold v2eUpd; grows
macro_rules | `(tactic| grows1) => `(tactic| with_reducible exact grows_v2eUpd _ _ _)
theorem grows_v2e (sc : Option String) (X : Dense K) (aggr : Aggr) (w : Option (List K)) (ew : Option (List K)) (r : K) (keep : Nat → Bool) : Grows (v2e (K := K) sc X aggr w ew r keep) := by unfold v2e; grows
macro_rules | `(tactic| grows1) => `(tactic| with_reducible exact grows_v2e _ _ _ _ _ _ _)
theorem grows_e2vAggr (sc : Option String) (X : Dense K) (aggr : Aggr) (w : Option (List K)) (r : K) (keep : Nat → Bool) : Grows (e2vAggr (K := K) sc X aggr w r keep) := by unfold e2vAggr; grows
macro_rules | `(tactic| grows1) => `(tactic| with_reducible exact grows_e2vAggr _ _ _ _ _ _)
theorem grows_e2vUpd (sc : Option String) (X : Dense K) : Grows (e2vUpd (K := K) sc X) := by unfold e2vUpd; grows
macro_rules | `(tactic| grows1) => `(tactic| with_reducible exact grows_e2vUpd _ _)
theorem grows_e2v (sc : Option String) (X : Dense K) (aggr : Aggr) (w : Option (List K)) (r : K) (keep : Nat → Bool) : Grows (e2v (K := K) sc X aggr w r keep) := by unfold e2v; grows
macro_rules | `(tactic| grows1) => `(tactic| with_reducible exact grows_e2v _ _ _ _ _ _)
theorem grows_v2v (sc : Option String) (X : Dense K) (a : V2VArgs K) : Grows (v2v (K := K) sc X a) := by unfold v2v; grows
macro_rules | `(tactic| grows1) => `(tactic| with_reducible exact grows_v2v _ _ _)

theorem grows_ask (q : HQuery K) : Grows (ask q) := by
  cases q <;> dsimp only [ask] <;> grows

end Hyper
end HyperReads
end DHG
