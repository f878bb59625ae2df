import Verif.GraphApi
import Verif.DiGraph
import Verif.BiGraph
import Verif.HyperApi

/-!
# Mutating calls do not look at the cache and only remove entries from it
-/

set_option linter.unusedSectionVars false
set_option autoImplicit false

namespace DHG

/-- the outcome depends on the raw attributes only, and cache entries are at most removed -/
structure Blind {R κ ν α : Type} (m : PyM (Cached R κ ν) α) : Prop where
  ans : ∀ s s', s.raw = s'.raw → (m s).1 = (m s').1
  raw : ∀ s s', s.raw = s'.raw → (m s).2.raw = (m s').2.raw
  sub : ∀ s, (m s).2.cache.Sublist s.cache

/-- a run that does not raise leaves the cache empty -/
structure Wipes {R κ ν α : Type} (m : PyM (Cached R κ ν) α) : Prop where
  wipe : ∀ s a, (m s).1 = .ok a → (m s).2.cache = []

namespace Blind

variable {R κ ν α β : Type}

theorem pure' (a : α) : Blind (pure a : PyM (Cached R κ ν) α) :=
  ⟨fun _ _ _ => rfl, fun _ _ h => h, fun _ => List.Sublist.refl _⟩
theorem raise' (e : Err) : Blind (PyM.raise e : PyM (Cached R κ ν) α) :=
  ⟨fun _ _ _ => rfl, fun _ _ h => h, fun _ => List.Sublist.refl _⟩
theorem lift' (x : Except Err α) : Blind (PyM.lift x : PyM (Cached R κ ν) α) :=
  ⟨fun _ _ _ => rfl, fun _ _ h => h, fun _ => List.Sublist.refl _⟩
theorem readRaw' (g : R → α) : Blind (readRaw g : PyM (Cached R κ ν) α) :=
  ⟨fun _ _ h => congrArg (fun r => Except.ok (g r)) h, fun _ _ h => h, fun _ => List.Sublist.refl _⟩
theorem assert' (b : Bool) : Blind (PyM.assert b : PyM (Cached R κ ν) Unit) := by
  cases b
  · exact raise' _
  · exact pure' _
theorem bind' {m : PyM (Cached R κ ν) α} {g : α → PyM (Cached R κ ν) β} (hm : Blind m)
    (hg : ∀ a, Blind (g a)) : Blind (m >>= g) := by
  refine ⟨fun s s' h => ?_, fun s s' h => ?_, fun s => ?_⟩
  · simp only [PyM.bind_apply]
    have h1 := hm.ans s s' h
    have h2 := hm.raw s s' h
    rcases hms : m s with ⟨x, t⟩
    rcases hms' : m s' with ⟨x', t'⟩
    rw [hms, hms'] at h1 h2
    simp only at h1 h2
    subst h1
    cases x with
    | error e => rfl
    | ok a => exact (hg a).ans t t' h2
  · simp only [PyM.bind_apply]
    have h1 := hm.ans s s' h
    have h2 := hm.raw s s' h
    rcases hms : m s with ⟨x, t⟩
    rcases hms' : m s' with ⟨x', t'⟩
    rw [hms, hms'] at h1 h2
    simp only at h1 h2
    subst h1
    cases x with
    | error e => exact h2
    | ok a => exact (hg a).raw t t' h2
  · simp only [PyM.bind_apply]
    have h1 := hm.sub s
    rcases hms : m s with ⟨_ | a, t⟩ <;> rw [hms] at h1
    · exact h1
    · exact ((hg a).sub t).trans h1
theorem forM' {xs : List β} {f : β → PyM (Cached R κ ν) Unit} (hf : ∀ x, Blind (f x)) :
    Blind (PyM.forM xs f) := by
  induction xs with
  | nil => exact pure' ()
  | cons x xs ih => exact bind' (hf x) fun _ => ih
theorem modify' {f : Cached R κ ν → Cached R κ ν} (hr : ∀ s s', s.raw = s'.raw → (f s).raw = (f s').raw)
    (hc : ∀ s, (f s).cache.Sublist s.cache) : Blind (PyM.modify f) :=
  ⟨fun _ _ _ => rfl, hr, hc⟩

end Blind

namespace Wipes

variable {R κ ν α β : Type}

theorem bind' {m : PyM (Cached R κ ν) α} {g : α → PyM (Cached R κ ν) β} (hg : ∀ a, Wipes (g a)) :
    Wipes (m >>= g) := by
  refine ⟨fun s b h => ?_⟩
  simp only [PyM.bind_apply] at h ⊢
  rcases hms : m s with ⟨_ | a, t⟩ <;> rw [hms] at h
  · cases h
  · exact (hg a).wipe t b h

end Wipes

variable {K : Type} [Field K] [LinearOrder K] {κ ν : Type}

theorem blind_clearCache : Blind (clearCache : PyM (Cached (GRaw K) κ ν) Unit) :=
  .modify' (fun _ _ h => h) fun _ => List.nil_sublist _
theorem blind_setRaw (f : GRaw K → GRaw K) : Blind (setRaw f : PyM (Cached (GRaw K) κ ν) Unit) :=
  .modify' (fun _ _ h => congrArg f h) fun _ => List.Sublist.refl _
theorem wipes_clearCache : Wipes (clearCache : PyM (Cached (GRaw K) κ ν) Unit) := ⟨fun _ _ _ => rfl⟩
theorem blind_setRawH (f : HRaw K → HRaw K) : Blind (Hyper.setRawH f) :=
  .modify' (fun _ _ h => congrArg f h) fun _ => List.Sublist.refl _
theorem blind_clearCacheH (g : Option String) : Blind (Hyper.clearCacheH (K := K) g) := by
  cases g
  · exact .modify' (fun _ _ h => h) fun _ => List.nil_sublist _
  · exact .modify' (fun _ _ h => h) fun _ => List.filter_sublist
theorem wipes_clearCacheH : Wipes (Hyper.clearCacheH (K := K) none) := ⟨fun _ _ _ => rfl⟩

/-- one step of a proof of `Blind` or `Wipes` -/
syntax "blind1" : tactic
macro_rules | `(tactic| blind1) => `(tactic| with_reducible apply Blind.bind')
macro_rules | `(tactic| blind1) => `(tactic| with_reducible apply Wipes.bind')
macro_rules | `(tactic| blind1) => `(tactic| with_reducible apply Blind.forM')
macro_rules | `(tactic| blind1) => `(tactic| with_reducible exact Blind.pure' _)
macro_rules | `(tactic| blind1) => `(tactic| with_reducible exact Blind.raise' _)
macro_rules | `(tactic| blind1) => `(tactic| with_reducible exact Blind.lift' _)
macro_rules | `(tactic| blind1) => `(tactic| with_reducible exact Blind.readRaw' _)
macro_rules | `(tactic| blind1) => `(tactic| with_reducible exact Blind.assert' _)
macro_rules | `(tactic| blind1) => `(tactic| with_reducible exact blind_clearCache)
macro_rules | `(tactic| blind1) => `(tactic| with_reducible exact blind_setRaw _)
macro_rules | `(tactic| blind1) => `(tactic| with_reducible exact blind_setRawH _)
macro_rules | `(tactic| blind1) => `(tactic| with_reducible exact blind_clearCacheH _)
macro_rules | `(tactic| blind1) => `(tactic| with_reducible exact wipes_clearCache)
macro_rules | `(tactic| blind1) => `(tactic| with_reducible exact wipes_clearCacheH)
macro_rules | `(tactic| blind1) => `(tactic| intro _)
macro_rules | `(tactic| blind1) => `(tactic| split)

macro "blind" : tactic => `(tactic| repeat blind1)

theorem Graph.blind_apply (o : GOp K) : Blind (Graph.apply o) := by
  cases o <;> dsimp only [Graph.apply]
  · unfold Graph.addEdges DHG.addEdge; blind
  · unfold Graph.removeEdges DHG.removeEdge; blind
  · unfold DHG.addExtraSelfloop; blind
  · unfold DHG.removeExtraSelfloop; blind
  · unfold DHG.removeSelfloop DHG.removeExtraSelfloop; blind
  · unfold clearAll; blind

theorem DiGraph.blind_apply (o : DOp K) : Blind (DiGraph.apply o) := by
  cases o <;> dsimp only [DiGraph.apply]
  · unfold Ord.addEdges Ord.addEdge; blind
  · unfold Ord.removeEdges DHG.removeEdge; blind
  · unfold DHG.addExtraSelfloop; blind
  · unfold DHG.removeExtraSelfloop; blind
  · unfold DHG.removeSelfloop DHG.removeExtraSelfloop; blind
  · unfold clearAll; blind
  · unfold DiGraph.reverseDirection; blind

theorem BiGraph.blind_apply (o : BOp K) : Blind (BiGraph.apply o) := by
  cases o <;> dsimp only [BiGraph.apply]
  · unfold Ord.addEdges Ord.addEdge; blind
  · unfold Ord.removeEdges DHG.removeEdge; blind
  · unfold DHG.addExtraSelfloop; blind
  · unfold DHG.removeExtraSelfloop; blind
  · unfold DHG.removeSelfloop DHG.removeExtraSelfloop; blind
  · unfold clearAll; blind

theorem Hyper.blind_apply (o : HOp K) : Blind (Hyper.apply o) := by
  cases o <;> dsimp only [Hyper.apply]
  · unfold Hyper.addHyperedges Hyper.addHyperedge; blind
  · unfold Hyper.removeHyperedges Hyper.removeOne; blind
  · unfold Hyper.removeGroup; blind
  · unfold Hyper.clear; blind
  · unfold Hyper.setVWeight; blind

theorem Ord.wipes_add (c : Cls) (arg : EArg K) (op : MergeOp) (h : arg.isEmpty = false) :
    Wipes (Ord.addEdges c arg op) := by
  unfold Ord.addEdges; rw [h]; simp only [Bool.false_eq_true, if_false]; blind

theorem Graph.wipes_add (arg : EArg K) (op : MergeOp) (h : arg.isEmpty = false) : Wipes (Graph.addEdges arg op) := by
  unfold Graph.addEdges; rw [h]; simp only [Bool.false_eq_true, if_false]; blind

end DHG
