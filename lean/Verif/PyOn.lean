import Verif.Py

/-!
# Reads of objects some of whose cache entries may be stale

Same notions as in `Py.lean`, restricted to the cache keys satisfying `S`.
-/

set_option linter.unusedSectionVars false
set_option autoImplicit false

namespace DHG

section
variable {R κ ν α β : Type} [DecidableEq κ]

/-- entries under the keys in `S` are what a computation from the raw fields would give
(used in proofs only: no counterpart in the code) -/
def CoherentOn (S : κ → Prop) (f : κ → R → Except Err ν) (s : Cached R κ ν) : Prop :=
  ∀ k v, S k → s.cache.get? k = some v → f k s.raw = .ok v

/-- `m` answers as the cache-free reader `p` on every object whose entries under `S` are right,
changes no raw field and keeps these entries right
(used in proofs only: no counterpart in the code) -/
def ReadsOn (S : κ → Prop) (f : κ → R → Except Err ν) (m : PyM (Cached R κ ν) α)
    (p : R → Except Err α) : Prop :=
  ∀ s, CoherentOn S f s → (m s).1 = p s.raw ∧ (m s).2.raw = s.raw ∧ CoherentOn S f (m s).2

variable {S : κ → Prop} {f : κ → R → Except Err ν}

theorem coherentOn_nil {r : R} : CoherentOn S f { raw := r, cache := [] } := by
  intro k v _ h; simp at h

namespace ReadsOn

theorem pure (a : α) : ReadsOn S f (pure a) (fun _ => .ok a) :=
  fun _ hs => ⟨rfl, rfl, hs⟩

theorem raise (e : Err) : ReadsOn S f (PyM.raise e : PyM _ α) (fun _ => .error e) :=
  fun _ hs => ⟨rfl, rfl, hs⟩

theorem lift (x : Except Err α) : ReadsOn S f (PyM.lift x) (fun _ => x) :=
  fun _ hs => ⟨rfl, rfl, hs⟩

theorem readRaw (g : R → α) : ReadsOn S f (DHG.readRaw g) (fun r => .ok (g r)) :=
  fun _ hs => ⟨rfl, rfl, hs⟩

theorem bind {m : PyM (Cached R κ ν) α} {p : R → Except Err α}
    {g : α → PyM (Cached R κ ν) β} {q : α → R → Except Err β}
    (hm : ReadsOn S f m p) (hg : ∀ a, ReadsOn S f (g a) (q a)) :
    ReadsOn S f (m >>= g) (fun r => p r >>= fun a => q a r) := by
  intro s hs
  obtain ⟨h1, h2, h3⟩ := hm s hs
  simp only [PyM.bind_apply]
  rcases hms : m s with ⟨_ | a, s'⟩
  · rw [hms] at h1 h2 h3
    simp only at h1 h2 h3 ⊢
    rw [← h1]; exact ⟨rfl, h2, h3⟩
  · rw [hms] at h1 h2 h3
    simp only at h1 h2 h3 ⊢
    obtain ⟨g1, g2, g3⟩ := hg a s' h3
    rw [← h1]
    refine ⟨?_, g2.trans h2, g3⟩
    rw [g1, h2]; rfl

/-- as `bind`, for a continuation whose answer may depend on the raw fields read before -/
theorem bindRaw {m : R → PyM (Cached R κ ν) α} {p : R → R → Except Err α}
    (hm : ∀ r, ReadsOn S f (m r) (p r)) :
    ReadsOn S f (DHG.readRaw id >>= m) (fun r => p r r) :=
  fun s hs => hm s.raw s hs

theorem ite {c : Prop} [Decidable c] {m m' : PyM (Cached R κ ν) α}
    {p p' : R → Except Err α} (h : ReadsOn S f m p) (h' : ReadsOn S f m' p') :
    ReadsOn S f (if c then m else m') (fun r => if c then p r else p' r) := by
  split <;> assumption

theorem congr {m : PyM (Cached R κ ν) α} {p p' : R → Except Err α}
    (h : ReadsOn S f m p) (e : ∀ r, p r = p' r) : ReadsOn S f m p' := by
  intro s hs; rw [← e]; exact h s hs

theorem memo {k : κ} {m : PyM (Cached R κ ν) ν} (hk : S k) (h : ReadsOn S f m (f k)) :
    ReadsOn S f (memo k m) (f k) := by
  intro s hs
  unfold DHG.memo
  split
  · rename_i v hv
    exact ⟨(hs k v hk hv).symm, rfl, hs⟩
  · obtain ⟨h1, h2, h3⟩ := h s hs
    rcases hms : m s with ⟨_ | v, s'⟩
    · rw [hms] at h1 h2 h3; exact ⟨h1, h2, h3⟩
    · rw [hms] at h1 h2 h3
      refine ⟨h1, h2, ?_⟩
      intro k' v' hS hk'
      simp only at h1 h2 h3 hk' ⊢
      rw [Dict.get?_set] at hk'
      split at hk'
      · subst_vars; cases hk'; rw [h2]; exact h1.symm
      · exact h3 k' v' hS hk'

/-- a memoised read whose key is not tracked changes nothing that is tracked -/
theorem memo_untracked {k : κ} {m : PyM (Cached R κ ν) ν} {p : R → Except Err ν} (hk : ¬ S k)
    (h : ReadsOn S f m p) (s : Cached R κ ν) (hs : CoherentOn S f s) :
    (DHG.memo k m s).2.raw = s.raw ∧ CoherentOn S f (DHG.memo k m s).2 := by
  unfold DHG.memo
  split
  · exact ⟨rfl, hs⟩
  · obtain ⟨h1, h2, h3⟩ := h s hs
    rcases hms : m s with ⟨_ | v, s'⟩
    · rw [hms] at h2 h3; exact ⟨h2, h3⟩
    · rw [hms] at h2 h3
      refine ⟨h2, ?_⟩
      intro k' v' hS hk'
      simp only at h2 h3 hk' ⊢
      rw [Dict.get?_set] at hk'
      split at hk'
      · subst_vars; exact absurd hS hk
      · exact h3 k' v' hS hk'

end ReadsOn

end

section Collect
variable {σ α β : Type}

/-- `[f(x) for x in xs]` with a method call `f` (e.g. structure/base.py:923) -/
def PyM.collect (xs : List β) (f : β → PyM σ α) : PyM σ (List α) :=
  match xs with
  | [] => Pure.pure []
  | x :: xs => do
    let a ← f x
    let as ← PyM.collect xs f
    Pure.pure (a :: as)

/-- the same without state (e.g. hypergraph.py:249) -/
def collectE (xs : List β) (f : β → Except Err α) : Except Err (List α) :=
  match xs with
  | [] => .ok []
  | x :: xs => do
    let a ← f x
    let as ← collectE xs f
    .ok (a :: as)

theorem collectE_congr {xs : List β} {f g : β → Except Err α} (h : ∀ x ∈ xs, f x = g x) :
    collectE xs f = collectE xs g := by
  induction xs with
  | nil => rfl
  | cons x xs ih =>
    unfold collectE
    rw [h x List.mem_cons_self, ih fun y hy => h y (List.mem_cons_of_mem _ hy)]

theorem collectE_ok {xs : List β} {f : β → Except Err α} {g : β → α} (h : ∀ x ∈ xs, f x = .ok (g x)) :
    collectE xs f = .ok (xs.map g) := by
  induction xs with
  | nil => rfl
  | cons x xs ih =>
    unfold collectE
    rw [h x List.mem_cons_self, ih fun y hy => h y (List.mem_cons_of_mem _ hy)]
    rfl

theorem collectE_ok_iff {xs : List β} {f : β → Except Err α} {ys : List α} :
    collectE xs f = .ok ys ↔ List.Forall₂ (fun x y => f x = .ok y) xs ys := by
  induction xs generalizing ys with
  | nil =>
    simp only [collectE]
    constructor
    · intro h; cases h; exact .nil
    · intro h; cases h; rfl
  | cons x xs ih =>
    unfold collectE
    constructor
    · intro h
      cases hx : f x with
      | error e => rw [hx] at h; cases h
      | ok a =>
        cases hxs : collectE xs f with
        | error e => rw [hx, hxs] at h; cases h
        | ok as =>
          rw [hx, hxs] at h; cases h
          exact .cons hx (ih.1 hxs)
    · intro h
      cases h with
      | cons h1 h2 => rw [h1, ih.2 h2]; rfl

theorem ReadsOn.collect {R κ ν : Type} [DecidableEq κ] {S : κ → Prop} {f : κ → R → Except Err ν}
    {xs : List β} {g : β → PyM (Cached R κ ν) α} {q : β → R → Except Err α}
    (h : ∀ x, ReadsOn S f (g x) (q x)) :
    ReadsOn S f (PyM.collect xs g) (fun r => collectE xs fun x => q x r) := by
  induction xs with
  | nil => exact ReadsOn.pure _
  | cons x xs ih =>
    refine (ReadsOn.bind (h x) fun a => ReadsOn.bind ih fun as => ReadsOn.pure _).congr ?_
    intro r; rfl

end Collect

end DHG
