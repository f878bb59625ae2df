import Mathlib.Data.List.Basic
import Mathlib.Data.List.Nodup
import Mathlib.Data.List.Perm.Basic

/-!
# Python substrate

Exceptions, mutating methods, insertion-ordered dictionaries and the `self.cache` idiom used by
all structure classes of dhg.
-/

set_option linter.unusedSectionVars false
set_option autoImplicit false

namespace DHG

/-- Python exception classes raised by the modelled code.  `nan` is not an exception: it marks a
result that contains NaN (see `Sp.rsqrt`).
(the `assert` and `raise` statements of the package, e.g. structure/base.py:136, 206;
`RuntimeError`, `IndexError`, ... come from torch and numpy) -/
inductive Err
  | assertion | index | key | value | type | attribute | name | runtime | zeroDiv | nan
  | fileNotFound | http | stopIteration
  deriving DecidableEq, Repr

/-- A method body: it may raise, and the object state after raising is kept (Python does not roll
back). (every method modelled here, e.g. `_add_edge`, structure/base.py:190-219) -/
def PyM (σ α : Type) : Type := σ → Except Err α × σ

namespace PyM
variable {σ α β : Type}

/-- `return a`. (Python statement, no line of its own) -/
protected def pure (a : α) : PyM σ α := fun s => (.ok a, s)

/-- Sequencing; an exception skips the rest but keeps the mutations made so far.
(Python statement, no line of its own) -/
protected def bind (m : PyM σ α) (f : α → PyM σ β) : PyM σ β := fun s =>
  match m s with
  | (.ok a, s') => f a s'
  | (.error e, s') => (.error e, s')

/-- Python statements in sequence, no line of its own -/
instance : Monad (PyM σ) where
  pure := PyM.pure
  bind := PyM.bind

/-- `raise`. (e.g. structure/base.py:206) -/
def raise (e : Err) : PyM σ α := fun s => (.error e, s)

/-- read the object (e.g. `self._raw_e_dict`, structure/base.py:283) -/
def get : PyM σ σ := fun s => (.ok s, s)

/-- overwrite the object (e.g. structure/base.py:89-91) -/
def modify (f : σ → σ) : PyM σ Unit := fun s => (.ok (), f s)

/-- a computation that does not touch the object
(calls of torch and Python functions, e.g. graph.py:476-482) -/
def lift (x : Except Err α) : PyM σ α := fun s => (x, s)

/-- `assert b` (e.g. structure/base.py:136) -/
def assert (b : Bool) : PyM σ Unit := if b then PyM.pure () else raise .assertion

/-- `for x in xs: f(x)` (e.g. structure/base.py:186-187) -/
def forM (xs : List β) (f : β → PyM σ Unit) : PyM σ Unit :=
  match xs with
  | [] => PyM.pure ()
  | x :: xs => PyM.bind (f x) fun _ => forM xs f

@[simp] theorem pure_apply (a : α) (s : σ) : (pure a : PyM σ α) s = (.ok a, s) := rfl
@[simp] theorem bind_apply (m : PyM σ α) (f : α → PyM σ β) (s : σ) :
    (m >>= f) s = match m s with
      | (.ok a, s') => f a s'
      | (.error e, s') => (.error e, s') := rfl
theorem forM_nil (f : β → PyM σ Unit) (s : σ) : forM [] f s = (.ok (), s) := rfl
theorem forM_cons (x : β) (xs : List β) (f : β → PyM σ Unit) (s : σ) :
    forM (x :: xs) f s =
      match f x s with
      | (.ok _, s') => forM xs f s'
      | (.error e, s') => (.error e, s') := by
  show PyM.bind (f x) (fun _ => forM xs f) s = _
  unfold PyM.bind
  rcases f x s with ⟨_ | _, _⟩ <;> rfl
@[simp] theorem raise_apply (e : Err) (s : σ) : (raise e : PyM σ α) s = (.error e, s) := rfl
@[simp] theorem get_apply (s : σ) : (get : PyM σ σ) s = (.ok s, s) := rfl
@[simp] theorem modify_apply (f : σ → σ) (s : σ) : (modify f) s = (.ok (), f s) := rfl
@[simp] theorem lift_apply (x : Except Err α) (s : σ) : (lift x : PyM σ α) s = (x, s) := rfl

end PyM

/-- Python `dict`: pairs in insertion order. (e.g. `_raw_e_dict`, structure/base.py:89) -/
abbrev Dict (κ ν : Type) : Type := List (κ × ν)

namespace Dict
variable {κ ν μ : Type} [DecidableEq κ]

/-- `d.get(k)` (e.g. structure/base.py:282) -/
def get? : Dict κ ν → κ → Option ν
  | [], _ => none
  | (k', v) :: d, k => if k' = k then some v else get? d k

/-- `k in d` (e.g. structure/base.py:210, 215) -/
def has (d : Dict κ ν) (k : κ) : Bool := (get? d k).isSome

/-- `d[k] = v`: an existing key keeps its position, a new key goes to the end.
(e.g. structure/base.py:213, 218) -/
def set : Dict κ ν → κ → ν → Dict κ ν
  | [], k, v => [(k, v)]
  | (k', v') :: d, k, v => if k' = k then (k', v) :: d else (k', v') :: set d k v

/-- `del d[k]` / `d.pop(k, None)` (e.g. structure/base.py:237, 239, 438) -/
def del : Dict κ ν → κ → Dict κ ν
  | [], _ => []
  | (k', v') :: d, k => if k' = k then d else (k', v') :: del d k

/-- `d.keys()` (e.g. structure/base.py:283) -/
def keys (d : Dict κ ν) : List κ := d.map Prod.fst
/-- `d.values()` (e.g. structure/base.py:284) -/
def vals (d : Dict κ ν) : List ν := d.map Prod.snd

@[simp] theorem get?_nil (k : κ) : get? ([] : Dict κ ν) k = none := rfl
@[simp] theorem keys_nil : keys ([] : Dict κ ν) = [] := rfl
@[simp] theorem keys_cons (p : κ × ν) (d : Dict κ ν) : keys (p :: d) = p.1 :: keys d := rfl
@[simp] theorem vals_nil : vals ([] : Dict κ ν) = [] := rfl
@[simp] theorem vals_cons (p : κ × ν) (d : Dict κ ν) : vals (p :: d) = p.2 :: vals d := rfl

theorem get?_set (d : Dict κ ν) (k k' : κ) (v : ν) :
    get? (set d k v) k' = if k = k' then some v else get? d k' := by
  induction d with
  | nil => simp [set, get?]
  | cons p d ih =>
    obtain ⟨a, b⟩ := p
    simp only [set]
    split
    · subst_vars; simp only [get?]; split <;> rfl
    · simp only [get?, ih]
      split
      · subst_vars; rw [if_neg]; rintro rfl; contradiction
      · rfl

theorem get?_eq_none_iff (d : Dict κ ν) (k : κ) : get? d k = none ↔ k ∉ keys d := by
  induction d with
  | nil => simp
  | cons p d ih =>
    obtain ⟨a, b⟩ := p
    simp only [get?, keys_cons, List.mem_cons, not_or]
    split
    · subst_vars; simp
    · rw [ih]; constructor
      · intro h; exact ⟨fun h' => by subst h'; contradiction, h⟩
      · exact And.right

theorem get?_isSome_iff (d : Dict κ ν) (k : κ) : (get? d k).isSome ↔ k ∈ keys d := by
  rw [← not_iff_not, ← get?_eq_none_iff]; simp

theorem has_iff (d : Dict κ ν) (k : κ) : has d k = true ↔ k ∈ keys d := get?_isSome_iff d k

theorem mem_keys_set (d : Dict κ ν) (k k' : κ) (v : ν) :
    k' ∈ keys (set d k v) ↔ k' = k ∨ k' ∈ keys d := by
  rw [← get?_isSome_iff, get?_set, ← get?_isSome_iff]
  split
  · subst_vars; simp
  · constructor
    · exact Or.inr
    · rintro (h | h)
      · subst h; contradiction
      · exact h

theorem keys_set_of_mem (d : Dict κ ν) (k : κ) (v : ν) (h : k ∈ keys d) :
    keys (set d k v) = keys d := by
  induction d with
  | nil => simp at h
  | cons p d ih =>
    obtain ⟨a, b⟩ := p
    simp only [set]
    split
    · rfl
    · rename_i hne
      simp only [keys_cons, List.mem_cons] at h ⊢
      rw [ih]
      rcases h with h | h
      · exact absurd h.symm hne
      · exact h

theorem set_of_notMem (d : Dict κ ν) (k : κ) (v : ν) (h : k ∉ keys d) :
    set d k v = d ++ [(k, v)] := by
  induction d with
  | nil => rfl
  | cons p d ih =>
    obtain ⟨a, b⟩ := p
    simp only [keys_cons, List.mem_cons, not_or] at h
    simp only [set, if_neg (Ne.symm h.1), ih h.2, List.cons_append]

theorem nodup_set (d : Dict κ ν) (k : κ) (v : ν) (h : (keys d).Nodup) :
    (keys (set d k v)).Nodup := by
  by_cases hk : k ∈ keys d
  · rw [keys_set_of_mem d k v hk]; exact h
  · rw [set_of_notMem d k v hk]
    simp only [keys, List.map_append, List.map_cons, List.map_nil]
    rw [List.nodup_append]
    refine ⟨h, List.nodup_singleton _, ?_⟩
    intro a ha b hb
    simp only [List.mem_singleton] at hb
    subst hb
    intro hab; subst hab; exact hk ha

theorem keys_del_sublist (d : Dict κ ν) (k : κ) : (keys (del d k)).Sublist (keys d) := by
  induction d with
  | nil => simp [del]
  | cons p d ih =>
    obtain ⟨a, b⟩ := p
    simp only [del]
    split
    · exact List.sublist_cons_self _ _
    · simp only [keys_cons]; exact ih.cons_cons _

theorem nodup_del (d : Dict κ ν) (k : κ) (h : (keys d).Nodup) : (keys (del d k)).Nodup :=
  h.sublist (keys_del_sublist d k)

theorem get?_del (d : Dict κ ν) (k k' : κ) (h : (keys d).Nodup) :
    get? (del d k) k' = if k = k' then none else get? d k' := by
  induction d with
  | nil => simp [del]
  | cons p d ih =>
    obtain ⟨a, b⟩ := p
    simp only [keys_cons, List.nodup_cons] at h
    simp only [del]
    split
    · subst_vars
      split
      · subst_vars; exact (get?_eq_none_iff _ _).2 h.1
      · simp only [get?]; rw [if_neg ‹_›]
    · simp only [get?, ih h.2]
      split
      · subst_vars; rw [if_neg]; rintro rfl; contradiction
      · rfl

theorem del_of_notMem (d : Dict κ ν) (k : κ) (h : k ∉ keys d) : del d k = d := by
  induction d with
  | nil => rfl
  | cons p d ih =>
    obtain ⟨a, b⟩ := p
    simp only [keys_cons, List.mem_cons, not_or] at h
    simp only [del, if_neg (Ne.symm h.1), ih h.2]

theorem get?_eq_some_iff (d : Dict κ ν) (h : (keys d).Nodup) (k : κ) (v : ν) :
    get? d k = some v ↔ (k, v) ∈ d := by
  induction d with
  | nil => simp
  | cons p d ih =>
    obtain ⟨a, b⟩ := p
    simp only [keys_cons, List.nodup_cons] at h
    simp only [get?, List.mem_cons, Prod.mk.injEq]
    split
    · subst_vars
      constructor
      · intro h'; left; exact ⟨rfl, (Option.some.inj h').symm⟩
      · rintro (⟨_, h'⟩ | h')
        · rw [h']
        · exact absurd (List.mem_map_of_mem (f := Prod.fst) h') h.1
    · rw [ih h.2]
      constructor
      · exact Or.inr
      · rintro (⟨h', _⟩ | h')
        · exact absurd h'.symm ‹_›
        · exact h'

theorem del_append_single (d : Dict κ ν) (k : κ) (v : ν) (h : k ∉ keys d) :
    del (d ++ [(k, v)]) k = d := by
  induction d with
  | nil => simp [del]
  | cons p d ih =>
    obtain ⟨a, b⟩ := p
    simp only [keys_cons, List.mem_cons, not_or] at h
    simp only [List.cons_append, del, if_neg (Ne.symm h.1), ih h.2]

theorem length_keys (d : Dict κ ν) : (keys d).length = d.length := by simp [keys]
theorem length_vals (d : Dict κ ν) : (vals d).length = d.length := by simp [vals]

theorem zip_keys_vals (d : Dict κ ν) : (keys d).zip (vals d) = d := by
  induction d with
  | nil => rfl
  | cons p d ih => simp [ih]

end Dict

/-- An object with raw fields `R` and a memo table `self.cache`.
(`self.cache`, structure/base.py:94-97) -/
structure Cached (R κ ν : Type) where
  raw : R
  cache : Dict κ ν

section Memo
variable {R κ ν α β : Type} [DecidableEq κ]

/-- The idiom
`if self.cache.get(k) is None: self.cache[k] = <compute>` / `return self.cache[k]`
(e.g. `base.py:283-291`, `graph.py:472-483`). -/
def memo (k : κ) (compute : PyM (Cached R κ ν) ν) : PyM (Cached R κ ν) ν := fun s =>
  match s.cache.get? k with
  | some v => (.ok v, s)
  | none =>
    match compute s with
    | (.ok v, s') => (.ok v, { s' with cache := s'.cache.set k v })
    | (.error e, s') => (.error e, s')

/-- reading a raw attribute (e.g. `num_v`, structure/base.py:294-297) -/
def readRaw (f : R → α) : PyM (Cached R κ ν) α := fun s => (.ok (f s.raw), s)

/-- `_tmp = self.clone(); prep(_tmp); return m(_tmp)`: the copy gets the raw fields and the cache
(deep copies), the original object is not touched. (e.g. graph.py:591-593) -/
def onClone (prep : PyM (Cached R κ ν) Unit) (m : PyM (Cached R κ ν) α) :
    PyM (Cached R κ ν) α := fun s =>
  ((PyM.bind prep fun _ => m) { raw := s.raw, cache := s.cache } |>.1, s)

/-- every stored cache entry is what a computation from the raw fields would give
(used in proofs only: no counterpart in the code) -/
def Coherent (f : κ → R → Except Err ν) (s : Cached R κ ν) : Prop :=
  ∀ k v, s.cache.get? k = some v → f k s.raw = .ok v

/-- `m` answers as the cache-free reader `p` does, changes no raw field and keeps the cache
coherent. (used in proofs only: no counterpart in the code) -/
def Reads (f : κ → R → Except Err ν) (m : PyM (Cached R κ ν) α) (p : R → Except Err α) : Prop :=
  ∀ s, Coherent f s → (m s).1 = p s.raw ∧ (m s).2.raw = s.raw ∧ Coherent f (m s).2

variable {f : κ → R → Except Err ν}

theorem coherent_nil (r : R) : Coherent f { raw := r, cache := [] } := by
  intro k v h; simp at h

theorem Reads.pure (a : α) : Reads f (pure a) (fun _ => .ok a) :=
  fun _ hs => ⟨rfl, rfl, hs⟩

theorem Reads.raise (e : Err) : Reads f (PyM.raise e : PyM _ α) (fun _ => .error e) :=
  fun _ hs => ⟨rfl, rfl, hs⟩

theorem Reads.lift (x : Except Err α) : Reads f (PyM.lift x) (fun _ => x) :=
  fun _ hs => ⟨rfl, rfl, hs⟩

theorem Reads.readRaw (g : R → α) : Reads f (readRaw g) (fun r => .ok (g r)) :=
  fun _ hs => ⟨rfl, rfl, hs⟩

theorem Reads.bind {m : PyM (Cached R κ ν) α} {p : R → Except Err α}
    {g : α → PyM (Cached R κ ν) β} {q : α → R → Except Err β}
    (hm : Reads f m p) (hg : ∀ a, Reads f (g a) (q a)) :
    Reads f (m >>= g) (fun r => p r >>= fun a => q a r) := by
  intro s hs
  obtain ⟨h1, h2, h3⟩ := hm s hs
  simp only [PyM.bind_apply]
  rcases hms : m s with ⟨_ | a, s'⟩
  · rw [hms] at h1 h2 h3
    simp only at h1 h2 h3 ⊢
    rw [← h1]; exact ⟨rfl, h2, h3⟩
  · rw [hms] at h1 h2 h3
    simp only at h1 h2 h3 ⊢
    obtain ⟨g1, g2, g3⟩ := hg a s' h3
    rw [← h1]
    refine ⟨?_, g2.trans h2, g3⟩
    rw [g1, h2]; rfl

theorem Reads.ite {c : Prop} [Decidable c] {m m' : PyM (Cached R κ ν) α}
    {p p' : R → Except Err α} (h : Reads f m p) (h' : Reads f m' p') :
    Reads f (if c then m else m') (fun r => if c then p r else p' r) := by
  split <;> assumption

theorem Reads.congr {m : PyM (Cached R κ ν) α} {p p' : R → Except Err α}
    (h : Reads f m p) (e : ∀ r, p r = p' r) : Reads f m p' := by
  intro s hs; rw [← e]; exact h s hs

theorem Reads.memo {k : κ} {m : PyM (Cached R κ ν) ν} (h : Reads f m (f k)) :
    Reads f (memo k m) (f k) := by
  intro s hs
  unfold DHG.memo
  split
  · rename_i v hv
    exact ⟨(hs k v hv).symm, rfl, hs⟩
  · obtain ⟨h1, h2, h3⟩ := h s hs
    rcases hms : m s with ⟨_ | v, s'⟩
    · rw [hms] at h1 h2 h3; exact ⟨h1, h2, h3⟩
    · rw [hms] at h1 h2 h3
      refine ⟨h1, h2, ?_⟩
      intro k' v' hk'
      simp only at h1 h2 h3 hk' ⊢
      rw [Dict.get?_set] at hk'
      split at hk'
      · subst_vars; cases hk'; rw [h2]; exact h1.symm
      · exact h3 k' v' hk'

theorem Reads.onClone {prep : PyM (Cached R κ ν) Unit} {m : PyM (Cached R κ ν) α}
    {p : R → Except Err α} (t : R → R)
    (hprep : ∀ s, Coherent f s → ∃ s', prep s = (.ok (), s') ∧ s'.raw = t s.raw ∧ Coherent f s')
    (hm : Reads f m p) : Reads f (onClone prep m) (fun r => p (t r)) := by
  intro s hs
  obtain ⟨s', h1, h2, h3⟩ := hprep { raw := s.raw, cache := s.cache } hs
  refine ⟨?_, rfl, hs⟩
  simp only [DHG.onClone, PyM.bind, h1]
  rw [(hm s' h3).1, h2]

end Memo

end DHG
