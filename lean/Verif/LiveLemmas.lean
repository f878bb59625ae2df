import Verif.LiveSpec
import Mathlib.Data.List.Infix

/-!
# Lemmas about the machine of `Live.lean`
-/

set_option linter.unusedSectionVars false
set_option autoImplicit false

namespace DHG
namespace Live

variable {R κ V A B D Op Q Ans New Der : Type} [DecidableEq κ]

/-- what is used of a class -/
structure Lawful (C : Heap.Klass (Cached R κ V) A B D Op Q Ans New Der) (refresh : R → Op → Bool)
    (ok : R → List κ → Prop) : Prop where
  call_cache : ∀ o s, (C.call o s).2.cache.Sublist s.cache
  call_fresh : ∀ o s, ok s.raw (s.cache.map Prod.fst) → refresh s.raw o = true → (C.call o s).1 = .ok () →
    (C.call o s).2.cache = []
  call_raw : ∀ o s s', s.raw = s'.raw → (C.call o s).2.raw = (C.call o s').2.raw
  call_ok : ∀ o s s', s.raw = s'.raw → (C.call o s).1 = (C.call o s').1
  read_raw : ∀ q s, (C.read q s).2.raw = s.raw
  read_cache : ∀ q s, s.cache <+: (C.read q s).2.cache
  read_nodup : ∀ q s, (s.cache.map Prod.fst).Nodup → ((C.read q s).2.cache.map Prod.fst).Nodup
  make_cache : ∀ x s, C.make x = .ok s → s.cache = []
  derive_cache : ∀ d s s', C.derive d s = .ok s' → s'.cache = []
  derive_eq : ∀ d s s', s.raw = s'.raw → C.derive d s = C.derive d s'
  clone_cache : ∀ s s', C.clone s = .ok s' → s'.cache = s.cache
  ok_nil : ∀ r, ok r []
  call_inv : ∀ o s, ok s.raw (s.cache.map Prod.fst) → ok (C.call o s).2.raw ((C.call o s).2.cache.map Prod.fst)
  read_inv : ∀ q s, ok s.raw (s.cache.map Prod.fst) → ok (C.read q s).2.raw ((C.read q s).2.cache.map Prod.fst)
  clone_inv : ∀ s s', C.clone s = .ok s' → ok s.raw (s.cache.map Prod.fst) → ok s'.raw (s'.cache.map Prod.fst)
  clone_raw : ∀ s s', s.raw = s'.raw → (C.clone s).map (·.raw) = (C.clone s').map (·.raw)

/-! ### Placing a cache -/

theorem place_next (old : Dict κ Nat) (h : Nat → V) (n : Nat) (c : Dict κ V) : n ≤ (place old h n c).2.2 := by
  induction c generalizing h n with
  | nil => exact Nat.le_refl _
  | cons p c ih =>
    obtain ⟨k, v⟩ := p
    unfold place
    split
    · exact ih h n
    · exact Nat.le_trans (Nat.le_succ n) (ih _ _)

theorem place_heap (old : Dict κ Nat) (h : Nat → V) (n : Nat) (c : Dict κ V) {r : Nat} (hr : r < n) :
    (place old h n c).2.1 r = h r := by
  induction c generalizing h n with
  | nil => rfl
  | cons p c ih =>
    obtain ⟨k, v⟩ := p
    unfold place
    split
    · exact ih h n hr
    · rw [ih (Function.update h n v) (n + 1) (Nat.lt_succ_of_lt hr)]
      exact Function.update_of_ne (Nat.ne_of_lt hr) _ _

theorem place_keys (old : Dict κ Nat) (h : Nat → V) (n : Nat) (c : Dict κ V) :
    (place old h n c).1.map Prod.fst = c.map Prod.fst := by
  induction c generalizing h n with
  | nil => rfl
  | cons p c ih =>
    obtain ⟨k, v⟩ := p
    unfold place
    split
    · simp only [List.map_cons, ih h n]
    · simp only [List.map_cons, ih _ _]

theorem place_refs (old : Dict κ Nat) (h : Nat → V) (n : Nat) (c : Dict κ V) {k : κ} {r : Nat}
    (hr : (k, r) ∈ (place old h n c).1) :
    old.get? k = some r ∨ n ≤ r ∧ r < (place old h n c).2.2 := by
  induction c generalizing h n with
  | nil => exact absurd hr List.not_mem_nil
  | cons p c ih =>
    obtain ⟨k', v⟩ := p
    unfold place at hr ⊢
    split at hr
    · rename_i r' hr'
      rcases List.mem_cons.1 hr with h1 | h1
      · cases h1; exact .inl hr'
      · exact ih h n h1
    · rename_i hr'
      rcases List.mem_cons.1 hr with h1 | h1
      · cases h1
        exact .inr ⟨Nat.le_refl _, place_next old _ _ c⟩
      · rcases ih _ _ h1 with h2 | h2
        · exact .inl h2
        · exact .inr ⟨by omega, h2.2⟩

theorem place_view (old : Dict κ Nat) (h : Nat → V) (n : Nat) (c : Dict κ V)
    (hold : ∀ k r, old.get? k = some r → r < n)
    (hc : ∀ p ∈ c, ∀ r, old.get? p.1 = some r → h r = p.2) :
    (place old h n c).1.map (fun p => (p.1, (place old h n c).2.1 p.2)) = c := by
  induction c generalizing h n with
  | nil => rfl
  | cons p c ih =>
    obtain ⟨k, v⟩ := p
    unfold place
    split
    · rename_i r hr
      simp only [List.map_cons]
      rw [ih h n hold fun q hq => hc q (List.mem_cons_of_mem _ hq),
        place_heap old h n c (hold k r hr), hc (k, v) List.mem_cons_self r hr]
    · rename_i hr
      simp only [List.map_cons]
      have h1 := ih (Function.update h n v) (n + 1) (fun k r hk => Nat.lt_succ_of_lt (hold k r hk))
        fun q hq r hqr => by
          rw [Function.update_of_ne (Nat.ne_of_lt (hold _ _ hqr))]
          exact hc q (List.mem_cons_of_mem _ hq) r hqr
      rw [h1, place_heap old _ (n + 1) c (Nat.lt_succ_self n), Function.update_self]

/-! ### The invariant -/

/-- references are to existing cells, keys are distinct, and different objects share no cell -/
structure Inv (ok : R → List κ → Prop) (w : World R κ V) : Prop where
  ok : ∀ (i : Nat) (o : Obj R κ), w.objs[i]? = some (some o) → ok o.raw (o.refs.map Prod.fst)
  lt : ∀ (i : Nat) (o : Obj R κ), w.objs[i]? = some (some o) → ∀ p ∈ o.refs, p.2 < w.next
  nodup : ∀ (i : Nat) (o : Obj R κ), w.objs[i]? = some (some o) → (o.refs.map Prod.fst).Nodup
  apart : ∀ (i j : Nat) (o o' : Obj R κ), w.objs[i]? = some (some o) → w.objs[j]? = some (some o') →
    ∀ p ∈ o.refs, ∀ p' ∈ o'.refs, p.2 = p'.2 → i = j

/-- what is kept: a cell of an object can only be one that was kept of this object -/
def Kept (w : World R κ V) (m : Spec.Marks) : Prop :=
  m.owner.length = w.held.length ∧
  ∀ (h r : Nat), w.held[h]? = some (some r) → r < w.next ∧
    ∀ (i : Nat) (o : Obj R κ), w.objs[i]? = some (some o) → ∀ p ∈ o.refs, p.2 = r → m.owner[h]? = some (some i)

theorem join_some {α : Type} {l : List (Option α)} {i : Nat} {x : α} (h : l[i]?.join = some x) :
    l[i]? = some (some x) := by
  cases hx : l[i]? with
  | none => rw [hx] at h; cases h
  | some y => rw [hx] at h; simp only [Option.join_some] at h; rw [h]

theorem some_join {α : Type} {l : List (Option α)} {i : Nat} {x : α} (h : l[i]? = some (some x)) :
    l[i]?.join = some x := by rw [h]; rfl

theorem get_mem {d : Dict κ Nat} {k : κ} {r : Nat} (h : d.get? k = some r) : (k, r) ∈ d := by
  induction d with
  | nil => cases h
  | cons p d ih =>
    obtain ⟨k', r'⟩ := p
    simp only [Dict.get?] at h
    split at h
    · rename_i hk; cases h; rw [hk]; exact List.mem_cons_self
    · exact List.mem_cons_of_mem _ (ih h)

/-- the new cache agrees with the old one where both have a key -/
def Compat (o : Obj R κ) (h : Nat → V) (c : Dict κ V) : Prop :=
  ∀ p ∈ c, ∀ r, o.refs.get? p.1 = some r → h r = p.2

theorem compat_of_mem {o : Obj R κ} {h : Nat → V} (hn : (o.refs.map Prod.fst).Nodup) {p : κ × V}
    (hp : p ∈ (o.view h).cache) {r : Nat} (hr : o.refs.get? p.1 = some r) : h r = p.2 := by
  obtain ⟨q, hq, rfl⟩ := List.mem_map.1 hp
  have : o.refs.get? q.1 = some q.2 := (Dict.get?_eq_some_iff _ hn _ _).2 hq
  rw [this] at hr
  cases hr; rfl

theorem view_keys (o : Obj R κ) (h : Nat → V) : (o.view h).cache.map Prod.fst = o.refs.map Prod.fst := by
  simp only [Obj.view, List.map_map, Function.comp_def]

theorem compat_sublist {o : Obj R κ} {h : Nat → V} (hn : (o.refs.map Prod.fst).Nodup) {c : Dict κ V}
    (hc : c.Sublist (o.view h).cache) : Compat o h c :=
  fun _ hp _ hr => compat_of_mem hn (hc.subset hp) hr

theorem compat_prefix {o : Obj R κ} {h : Nat → V} (hn : (o.refs.map Prod.fst).Nodup) {c : Dict κ V}
    (hc : (o.view h).cache <+: c) (hd : (c.map Prod.fst).Nodup) : Compat o h c := by
  obtain ⟨t, rfl⟩ := hc
  intro p hp r hr
  rcases List.mem_append.1 hp with h1 | h1
  · exact compat_of_mem hn h1 hr
  · exfalso
    rw [List.map_append, List.nodup_append] at hd
    refine hd.2.2 p.1 ?_ p.1 (List.mem_map_of_mem h1) rfl
    rw [view_keys]
    exact List.mem_map_of_mem (get_mem hr)

section
variable {w : World R κ V} {ok : R → List κ → Prop}

theorem view_eq {i : Nat} {o : Obj R κ} (h : w.objs[i]? = some (some o)) : view w i = some (o.view w.heap) := by
  unfold view; rw [h]; rfl

theorem view_some {i : Nat} {s : Cached R κ V} (h : view w i = some s) :
    ∃ o, w.objs[i]? = some (some o) ∧ s = o.view w.heap := by
  unfold view at h
  cases ho : w.objs[i]?.join with
  | none => rw [ho] at h; cases h
  | some o => rw [ho] at h; cases h; exact ⟨o, join_some ho, rfl⟩

theorem view_heap_congr {o : Obj R κ} {h h' : Nat → V} (hh : ∀ p ∈ o.refs, h p.2 = h' p.2) : o.view h = o.view h' := by
  unfold Obj.view
  congr 1
  exact List.map_congr_left fun p hp => by rw [hh p hp]

theorem view_write_self {i : Nat} {o : Obj R κ} (hw : Inv ok w) (ho : w.objs[i]? = some (some o)) {s : Cached R κ V}
    (hs : Compat o w.heap s.cache) : view (write w i o s) i = some s := by
  have hi : i < w.objs.length := by
    by_contra hn
    rw [List.getElem?_eq_none (by omega)] at ho; cases ho
  unfold view write
  simp only [List.getElem?_set_self hi, Option.join_some, Option.map_some]
  refine congrArg some ?_
  unfold Obj.view
  simp only
  rw [place_view _ _ _ _ (fun k r hr => hw.lt i o ho (k, r) (get_mem hr)) hs]

theorem view_write_other {i j : Nat} {o : Obj R κ} (hw : Inv ok w) (hij : i ≠ j) (s : Cached R κ V) :
    view (write w i o s) j = view w j := by
  unfold view write
  simp only [List.getElem?_set_ne hij]
  cases hj : w.objs[j]?.join with
  | none => rfl
  | some o' =>
    simp only [Option.map_some]
    refine congrArg some (view_heap_congr fun p hp => ?_)
    exact place_heap _ _ _ _ (hw.lt j o' (join_some hj) p hp)

theorem view_alloc_old {j : Nat} (hw : Inv ok w) (hj : j < w.objs.length) (x : Except Err (Cached R κ V)) :
    view (alloc w x) j = view w j := by
  cases x with
  | error e => unfold view alloc; simp only [List.getElem?_append_left hj]
  | ok s =>
    unfold view alloc
    simp only [List.getElem?_append_left hj]
    cases hj : w.objs[j]?.join with
    | none => rfl
    | some o' =>
      simp only [Option.map_some]
      refine congrArg some (view_heap_congr fun p hp => ?_)
      exact place_heap _ _ _ _ (hw.lt j o' (join_some hj) p hp)

theorem view_alloc_new (x : Except Err (Cached R κ V)) :
    view (alloc w x) w.objs.length = x.toOption := by
  cases x with
  | error e => unfold view alloc; simp [Except.toOption]
  | ok s =>
    unfold view alloc
    simp only [List.getElem?_concat_length, Option.join_some, Option.map_some, Except.toOption]
    refine congrArg some ?_
    unfold Obj.view
    simp only
    rw [place_view _ _ _ _ (fun k r hr => by cases hr) (fun p _ r hr => by cases hr)]

theorem alloc_length (x : Except Err (Cached R κ V)) : (alloc w x).objs.length = w.objs.length + 1 := by
  cases x <;> simp [alloc]

theorem write_length (i : Nat) (o : Obj R κ) (s : Cached R κ V) : (write w i o s).objs.length = w.objs.length := by
  simp [write]

theorem get_set_cases {α : Type} {l : List α} {x y : α} {i j : Nat} (h : (l.set i x)[j]? = some y) :
    (i = j ∧ y = x) ∨ (i ≠ j ∧ l[j]? = some y) := by
  rw [List.getElem?_set] at h
  split at h
  · rename_i hij
    split at h
    · cases h; exact .inl ⟨hij, rfl⟩
    · cases h
  · rename_i hij; exact .inr ⟨hij, h⟩

theorem get_append_cases {α : Type} {l : List α} {x y : α} {j : Nat} (h : (l ++ [x])[j]? = some y) :
    (j = l.length ∧ y = x) ∨ l[j]? = some y := by
  rw [List.getElem?_append] at h
  split at h
  · exact .inr h
  · rename_i hj
    have : j - l.length = 0 := by
      by_contra hne
      rw [List.getElem?_eq_none (by simp; omega)] at h; cases h
    rw [this] at h
    simp only [List.getElem?_cons_zero] at h
    cases h
    exact .inl ⟨by omega, rfl⟩

theorem write_inv {i : Nat} {o : Obj R κ} (hw : Inv ok w) (ho : w.objs[i]? = some (some o)) {s : Cached R κ V}
    (hd : (s.cache.map Prod.fst).Nodup) (hok : ok s.raw (s.cache.map Prod.fst)) : Inv ok (write w i o s) := by
  have hle := place_next o.refs w.heap w.next s.cache
  have href : ∀ p ∈ (place o.refs w.heap w.next s.cache).1,
      (∃ q ∈ o.refs, q.2 = p.2) ∨ w.next ≤ p.2 ∧ p.2 < (place o.refs w.heap w.next s.cache).2.2 := by
    intro p hp
    rcases place_refs _ _ _ _ hp with h | h
    · exact .inl ⟨_, get_mem h, rfl⟩
    · exact .inr h
  refine ⟨fun j o' hj => ?_, fun j o' hj p hp => ?_, fun j o' hj => ?_, fun j k o' o'' hj hk p hp p' hp' hpp => ?_⟩
  · rcases get_set_cases hj with ⟨_, h⟩ | ⟨_, h⟩
    · cases h
      simp only
      rw [place_keys]; exact hok
    · exact hw.ok j o' h
  · rcases get_set_cases hj with ⟨_, h⟩ | ⟨_, h⟩
    · cases h
      rcases href p hp with ⟨q, hq, h⟩ | h
      · exact h ▸ Nat.lt_of_lt_of_le (hw.lt i o ho q hq) hle
      · exact h.2
    · exact Nat.lt_of_lt_of_le (hw.lt j o' h p hp) hle
  · rcases get_set_cases hj with ⟨_, h⟩ | ⟨_, h⟩
    · cases h
      simp only
      rw [place_keys]; exact hd
    · exact hw.nodup j o' h
  · rcases get_set_cases hj with ⟨h1, h⟩ | ⟨h1, h⟩ <;> rcases get_set_cases hk with ⟨h1', h'⟩ | ⟨h1', h'⟩
    · exact h1.symm.trans h1'
    · cases h
      rcases href p hp with ⟨q, hq, hqp⟩ | hlt
      · exact h1.symm.trans (hw.apart i k o o'' ho h' q hq p' hp' (hqp.trans hpp))
      · have := hw.lt k o'' h' p' hp'; omega
    · cases h'
      rcases href p' hp' with ⟨q, hq, hqp⟩ | hlt
      · exact (hw.apart j i o' o h ho p hp q hq (hpp.trans hqp.symm)).trans h1'
      · have := hw.lt j o' h p hp; omega
    · exact hw.apart j k o' o'' h h' p hp p' hp' hpp

theorem write_kept {i : Nat} {o : Obj R κ} {m : Spec.Marks} (hw : Kept w m) (ho : w.objs[i]? = some (some o))
    (s : Cached R κ V) : Kept (write w i o s) m := by
  refine ⟨hw.1, fun h r hr => ⟨Nat.lt_of_lt_of_le (hw.2 h r hr).1 (place_next _ _ _ _), fun j o' hj p hp hpr => ?_⟩⟩
  rcases get_set_cases hj with ⟨h1, h2⟩ | ⟨_, h2⟩
  · cases h2
    rcases place_refs _ _ _ _ hp with h3 | h3
    · rw [← h1]
      exact (hw.2 h r hr).2 i o ho _ (get_mem h3) hpr
    · have := (hw.2 h r hr).1; omega
  · exact (hw.2 h r hr).2 j o' h2 p hp hpr

theorem alloc_inv (hw : Inv ok w) {x : Except Err (Cached R κ V)}
    (hd : ∀ s, x = .ok s → (s.cache.map Prod.fst).Nodup ∧ ok s.raw (s.cache.map Prod.fst)) : Inv ok (alloc w x) := by
  cases x with
  | error e =>
    refine ⟨fun j o' hj => ?_, fun j o' hj p hp => ?_, fun j o' hj => ?_, fun j k o' o'' hj hk p hp p' hp' hpp => ?_⟩
    · rcases get_append_cases hj with ⟨_, h⟩ | h
      · cases h
      · exact hw.ok j o' h
    · rcases get_append_cases hj with ⟨_, h⟩ | h
      · cases h
      · exact hw.lt j o' h p hp
    · rcases get_append_cases hj with ⟨_, h⟩ | h
      · cases h
      · exact hw.nodup j o' h
    · rcases get_append_cases hj with ⟨_, h⟩ | h <;> rcases get_append_cases hk with ⟨_, h'⟩ | h'
      · cases h
      · cases h
      · cases h'
      · exact hw.apart j k o' o'' h h' p hp p' hp' hpp
  | ok s =>
    have hle := place_next ([] : Dict κ Nat) w.heap w.next s.cache
    have href : ∀ p ∈ (place ([] : Dict κ Nat) w.heap w.next s.cache).1,
        w.next ≤ p.2 ∧ p.2 < (place ([] : Dict κ Nat) w.heap w.next s.cache).2.2 := by
      intro p hp
      rcases place_refs _ _ _ _ hp with h | h
      · cases h
      · exact h
    refine ⟨fun j o' hj => ?_, fun j o' hj p hp => ?_, fun j o' hj => ?_, fun j k o' o'' hj hk p hp p' hp' hpp => ?_⟩
    · rcases get_append_cases hj with ⟨_, h⟩ | h
      · cases h
        simp only
        rw [place_keys]; exact (hd s rfl).2
      · exact hw.ok j o' h
    · rcases get_append_cases hj with ⟨_, h⟩ | h
      · cases h; exact (href p hp).2
      · exact Nat.lt_of_lt_of_le (hw.lt j o' h p hp) hle
    · rcases get_append_cases hj with ⟨_, h⟩ | h
      · cases h
        simp only
        rw [place_keys]; exact (hd s rfl).1
      · exact hw.nodup j o' h
    · rcases get_append_cases hj with ⟨h1, h⟩ | h <;> rcases get_append_cases hk with ⟨h1', h'⟩ | h'
      · exact h1.trans h1'.symm
      · cases h
        have := hw.lt k o'' h' p' hp'; have := (href p hp).1; omega
      · cases h'
        have := hw.lt j o' h p hp; have := (href p' hp').1; omega
      · exact hw.apart j k o' o'' h h' p hp p' hp' hpp

theorem alloc_kept {m : Spec.Marks} (hw : Kept w m) (t : List Bool) (x : Except Err (Cached R κ V)) :
    Kept (alloc w x) { m with touched := t } := by
  cases x with
  | error e =>
    refine ⟨hw.1, fun h r hr => ⟨(hw.2 h r hr).1, fun j o' hj p hp hpr => ?_⟩⟩
    rcases get_append_cases hj with ⟨_, h2⟩ | h2
    · cases h2
    · exact (hw.2 h r hr).2 j o' h2 p hp hpr
  | ok s =>
    refine ⟨hw.1, fun h r hr => ⟨Nat.lt_of_lt_of_le (hw.2 h r hr).1 (place_next _ _ _ _),
      fun j o' hj p hp hpr => ?_⟩⟩
    rcases get_append_cases hj with ⟨_, h2⟩ | h2
    · cases h2
      rcases place_refs _ _ _ _ hp with h3 | h3
      · cases h3
      · have := (hw.2 h r hr).1; omega
    · exact (hw.2 h r hr).2 j o' h2 p hp hpr

end

/-! ### Two worlds, one with and one without edits -/

/-- the same objects hold the same raw attributes; untouched ones are the same altogether -/
structure Rel (w w' : World R κ V) (m : Spec.Marks) : Prop where
  len : w.objs.length = w'.objs.length
  tlen : m.touched.length = w.objs.length
  raw : ∀ i : Nat, (view w i).map (·.raw) = (view w' i).map (·.raw)
  same : ∀ i : Nat, m.touched[i]? ≠ some true → view w i = view w' i

/-- all invariants together -/
structure Good (ok : R → List κ → Prop) (w w' : World R κ V) (m : Spec.Marks) : Prop where
  rel : Rel w w' m
  inv : Inv ok w
  inv' : Inv ok w'
  kept : Kept w m

variable {C : Heap.Klass (Cached R κ V) A B D Op Q Ans New Der} {refresh : R → Op → Bool} {ok : R → List κ → Prop}

theorem Good.empty [Inhabited V] : Good ok (.empty : World R κ V) .empty ⟨[], []⟩ :=
  ⟨⟨rfl, rfl, fun _ => rfl, fun _ _ => rfl⟩, ⟨fun _ _ h => (by simp [World.empty] at h), fun _ _ h => (by simp [World.empty] at h), fun _ _ h => (by simp [World.empty] at h),
    fun _ _ _ _ h => (by simp [World.empty] at h)⟩,
    ⟨fun _ _ h => (by simp [World.empty] at h), fun _ _ h => (by simp [World.empty] at h), fun _ _ h => (by simp [World.empty] at h),
    fun _ _ _ _ h => (by simp [World.empty] at h)⟩, rfl, fun _ _ h => (by simp [World.empty] at h)⟩

theorem view_none {w : World R κ V} {i : Nat} (h : view w i = none) : w.objs[i]?.join = none := by
  unfold view at h
  cases ho : w.objs[i]?.join with
  | none => rfl
  | some o => rw [ho] at h; cases h

/-- the two worlds after a call on the object `i`, given what the call makes of it in both -/
theorem Good.write {w w' : World R κ V} {m : Spec.Marks} (hg : Good ok w w' m) {i : Nat} {o o' : Obj R κ}
    (ho : w.objs[i]? = some (some o)) (ho' : w'.objs[i]? = some (some o')) {s s' : Cached R κ V}
    (hs : Compat o w.heap s.cache) (hs' : Compat o' w'.heap s'.cache)
    (hd : (s.cache.map Prod.fst).Nodup) (hd' : (s'.cache.map Prod.fst).Nodup)
    (hok : ok s.raw (s.cache.map Prod.fst)) (hok' : ok s'.raw (s'.cache.map Prod.fst))
    (hraw : s.raw = s'.raw) (hsame : m.touched[i]? ≠ some true → s = s') :
    Good ok (write w i o s) (write w' i o' s') m := by
  refine ⟨⟨?_, ?_, fun j => ?_, fun j hj => ?_⟩, write_inv hg.inv ho hd hok, write_inv hg.inv' ho' hd' hok', write_kept hg.kept ho s⟩
  · rw [write_length, write_length, hg.rel.len]
  · rw [write_length, hg.rel.tlen]
  · by_cases hij : i = j
    · subst hij
      rw [view_write_self hg.inv ho hs, view_write_self hg.inv' ho' hs']
      simp only [Option.map_some, hraw]
    · rw [view_write_other hg.inv hij, view_write_other hg.inv' hij]
      exact hg.rel.raw j
  · by_cases hij : i = j
    · subst hij
      rw [view_write_self hg.inv ho hs, view_write_self hg.inv' ho' hs', hsame hj]
    · rw [view_write_other hg.inv hij, view_write_other hg.inv' hij]
      exact hg.rel.same j hj

/-- the two worlds after creating an object -/
theorem Good.alloc {w w' : World R κ V} {m : Spec.Marks} (hg : Good ok w w' m) {x x' : Except Err (Cached R κ V)}
    {t : Bool} (hd : ∀ s, x = .ok s → (s.cache.map Prod.fst).Nodup ∧ ok s.raw (s.cache.map Prod.fst))
    (hd' : ∀ s, x' = .ok s → (s.cache.map Prod.fst).Nodup ∧ ok s.raw (s.cache.map Prod.fst))
    (hraw : x.toOption.map (·.raw) = x'.toOption.map (·.raw)) (hsame : t = false → x.toOption = x'.toOption) :
    Good ok (alloc w x) (alloc w' x') { m with touched := m.touched ++ [t] } := by
  refine ⟨⟨?_, ?_, fun j => ?_, fun j hj => ?_⟩, alloc_inv hg.inv hd, alloc_inv hg.inv' hd', alloc_kept hg.kept _ x⟩
  · rw [alloc_length, alloc_length, hg.rel.len]
  · rw [alloc_length, List.length_append, hg.rel.tlen]; rfl
  · rcases Nat.lt_trichotomy j w.objs.length with h | h | h
    · rw [view_alloc_old hg.inv h, view_alloc_old hg.inv' (hg.rel.len ▸ h)]
      exact hg.rel.raw j
    · subst h
      rw [view_alloc_new, hg.rel.len, view_alloc_new, hraw]
    · have h1 : view (Live.alloc w x) j = none := by
        unfold view; rw [List.getElem?_eq_none (by rw [alloc_length]; omega)]; rfl
      have h2 : view (Live.alloc w' x') j = none := by
        unfold view; rw [List.getElem?_eq_none (by rw [alloc_length]; have := hg.rel.len; omega)]; rfl
      rw [h1, h2]
  · rcases Nat.lt_trichotomy j w.objs.length with h | h | h
    · rw [view_alloc_old hg.inv h, view_alloc_old hg.inv' (hg.rel.len ▸ h)]
      refine hg.rel.same j fun hx => hj ?_
      rw [List.getElem?_append_left (hg.rel.tlen ▸ h)]; exact hx
    · subst h
      rw [view_alloc_new, hg.rel.len, view_alloc_new]
      apply hsame
      rw [← hg.rel.tlen] at hj
      simp only [List.getElem?_concat_length, ne_eq, Option.some.injEq, Bool.not_eq_true] at hj
      exact hj
    · have h1 : view (Live.alloc w x) j = none := by
        unfold view; rw [List.getElem?_eq_none (by rw [alloc_length]; omega)]; rfl
      have h2 : view (Live.alloc w' x') j = none := by
        unfold view; rw [List.getElem?_eq_none (by rw [alloc_length]; have := hg.rel.len; omega)]; rfl
      rw [h1, h2]

/-- the object `i` exists in both worlds or in neither -/
theorem Good.both {w w' : World R κ V} {m : Spec.Marks} (hg : Good ok w w' m) (i : Nat) :
    (w.objs[i]?.join = none ∧ w'.objs[i]?.join = none) ∨
    ∃ o o', w.objs[i]? = some (some o) ∧ w'.objs[i]? = some (some o') ∧ o.raw = o'.raw ∧
      (m.touched[i]? ≠ some true → o.view w.heap = o'.view w'.heap) := by
  have hr := hg.rel.raw i
  cases h : view w i with
  | none =>
    cases h' : view w' i with
    | none => exact .inl ⟨view_none h, view_none h'⟩
    | some s' => rw [h, h'] at hr; cases hr
  | some s =>
    cases h' : view w' i with
    | none => rw [h, h'] at hr; cases hr
    | some s' =>
      obtain ⟨o, ho, rfl⟩ := view_some h
      obtain ⟨o', ho', rfl⟩ := view_some h'
      rw [h, h'] at hr
      refine .inr ⟨o, o', ho, ho', Option.some.inj hr, fun ht => ?_⟩
      have := hg.rel.same i ht
      rw [h, h'] at this
      exact Option.some.inj this

theorem renews_eq {w : World R κ V} {i : Nat} {o : Obj R κ} (ho : w.objs[i]? = some (some o)) (op : Op) :
    Spec.renews C refresh w i op = true ↔ refresh o.raw op = true ∧ (C.call op (o.view w.heap)).1 = .ok () := by
  unfold Spec.renews
  rw [view_eq ho]
  simp only [Bool.and_eq_true]
  refine and_congr Iff.rfl ?_
  split
  · rename_i u hu; rw [hu]; simp
  · rename_i e he; rw [he]; simp

/-- executing a command that is not an edit in both worlds -/
theorem Good.step {w w' : World R κ V} {m : Spec.Marks} (hC : Lawful C refresh ok) (hg : Good ok w w' m)
    (c : Cmd κ V Op Q New Der) (hc : ∀ h v, c ≠ .edit h v) :
    Good ok (exec C w c) (exec C w' c) (Spec.mark C refresh w m c) := by
  cases c with
  | make x =>
    have hd : ∀ s, C.make x = .ok s → (s.cache.map Prod.fst).Nodup ∧ ok s.raw (s.cache.map Prod.fst) := fun s hs => by
      rw [hC.make_cache x s hs]; exact ⟨List.nodup_nil, hC.ok_nil _⟩
    exact hg.alloc hd hd rfl fun _ => rfl
  | derive i d =>
    rcases hg.both i with ⟨h, h'⟩ | ⟨o, o', ho, ho', hraw, _⟩
    · simp only [exec, h, h', Spec.mark]
      exact hg.alloc (x := .error .assertion) (x' := .error .assertion) (fun _ h => by cases h)
        (fun _ h => by cases h) rfl fun _ => rfl
    · simp only [exec, some_join ho, some_join ho', Spec.mark]
      rw [hC.derive_eq d (o.view w.heap) (o'.view w'.heap) hraw]
      have hd : ∀ s, C.derive d (o'.view w'.heap) = .ok s → (s.cache.map Prod.fst).Nodup ∧ ok s.raw (s.cache.map Prod.fst) := fun s hs => by
        rw [hC.derive_cache d _ s hs]; exact ⟨List.nodup_nil, hC.ok_nil _⟩
      exact hg.alloc hd hd rfl fun _ => rfl
  | clone i =>
    rcases hg.both i with ⟨h, h'⟩ | ⟨o, o', ho, ho', hraw, hsame⟩
    · simp only [exec, h, h', Spec.mark]
      exact hg.alloc (x := .error .assertion) (x' := .error .assertion) (fun _ h => by cases h)
        (fun _ h => by cases h) rfl fun _ => rfl
    · simp only [exec, some_join ho, some_join ho', Spec.mark]
      refine hg.alloc (fun s hs => ?_) (fun s hs => ?_) ?_ fun ht => ?_
      · refine ⟨?_, hC.clone_inv _ s hs (by rw [view_keys]; exact hg.inv.ok i o ho)⟩
        rw [hC.clone_cache _ s hs, view_keys]; exact hg.inv.nodup i o ho
      · refine ⟨?_, hC.clone_inv _ s hs (by rw [view_keys]; exact hg.inv'.ok i o' ho')⟩
        rw [hC.clone_cache _ s hs, view_keys]; exact hg.inv'.nodup i o' ho'
      · have := hC.clone_raw (o.view w.heap) (o'.view w'.heap) hraw
        revert this
        cases C.clone (o.view w.heap) <;> cases C.clone (o'.view w'.heap) <;> intro this <;>
          simp_all [Except.toOption, Except.map]
      · rw [hsame]
        intro hx
        rw [hx] at ht
        cases ht
  | read i q =>
    rcases hg.both i with ⟨h, h'⟩ | ⟨o, o', ho, ho', hraw, hsame⟩
    · simp only [exec, h, h', Spec.mark]; exact hg
    · simp only [exec, some_join ho, some_join ho', Spec.mark]
      have hn := hC.read_nodup q (o.view w.heap) (by rw [view_keys]; exact hg.inv.nodup i o ho)
      have hn' := hC.read_nodup q (o'.view w'.heap) (by rw [view_keys]; exact hg.inv'.nodup i o' ho')
      refine hg.write ho ho' (compat_prefix (hg.inv.nodup i o ho) (hC.read_cache q _) hn)
        (compat_prefix (hg.inv'.nodup i o' ho') (hC.read_cache q _) hn') hn hn'
        (hC.read_inv q _ (by rw [view_keys]; exact hg.inv.ok i o ho))
        (hC.read_inv q _ (by rw [view_keys]; exact hg.inv'.ok i o' ho')) ?_ fun ht => ?_
      · rw [hC.read_raw, hC.read_raw]; exact hraw
      · rw [hsame ht]
  | call i op =>
    rcases hg.both i with ⟨h, h'⟩ | ⟨o, o', ho, ho', hraw, hsame⟩
    · have : Spec.renews C refresh w i op = false := by
        unfold Spec.renews
        have : view w i = none := by unfold view; rw [h]; rfl
        rw [this]
      simp only [exec, h, h', Spec.mark, this, Bool.false_eq_true, if_false]; exact hg
    · simp only [exec, some_join ho, some_join ho', Spec.mark]
      have hk := hC.call_cache op (o.view w.heap)
      have hk' := hC.call_cache op (o'.view w'.heap)
      have hn : ((C.call op (o.view w.heap)).2.cache.map Prod.fst).Nodup :=
        (hk.map _).nodup (by rw [view_keys]; exact hg.inv.nodup i o ho)
      have hn' : ((C.call op (o'.view w'.heap)).2.cache.map Prod.fst).Nodup :=
        (hk'.map _).nodup (by rw [view_keys]; exact hg.inv'.nodup i o' ho')
      have hr := hC.call_raw op (o.view w.heap) (o'.view w'.heap) hraw
      have hgood := hg.write ho ho' (compat_sublist (hg.inv.nodup i o ho) hk)
        (compat_sublist (hg.inv'.nodup i o' ho') hk') hn hn'
        (hC.call_inv op _ (by rw [view_keys]; exact hg.inv.ok i o ho))
        (hC.call_inv op _ (by rw [view_keys]; exact hg.inv'.ok i o' ho')) hr fun ht => by rw [hsame ht]
      split
      · rename_i hx
        obtain ⟨hre, hok⟩ := (renews_eq ho op).1 hx
        have hok' : (C.call op (o'.view w'.heap)).1 = .ok () :=
          (hC.call_ok op (o.view w.heap) (o'.view w'.heap) hraw) ▸ hok
        have he := hC.call_fresh op _ (by rw [view_keys]; exact hg.inv.ok i o ho) hre hok
        have he' := hC.call_fresh op _ (by rw [view_keys]; exact hg.inv'.ok i o' ho') (by show refresh o'.raw op = true; rw [← hraw]; exact hre) hok'
        have heq : (C.call op (o.view w.heap)).2 = (C.call op (o'.view w'.heap)).2 := by
          rcases h1 : (C.call op (o.view w.heap)).2 with ⟨r, c⟩
          rcases h2 : (C.call op (o'.view w'.heap)).2 with ⟨r', c'⟩
          rw [h1] at he hr; rw [h2] at he' hr
          simp only at he he' hr
          rw [he, he', hr]
        refine ⟨⟨hgood.rel.len, ?_, hgood.rel.raw, fun j hj => ?_⟩, hgood.inv, hgood.inv', ?_, fun h r hr => ?_⟩
        · rw [List.length_set]; exact hgood.rel.tlen
        · by_cases hij : i = j
          · subst hij
            rw [view_write_self hg.inv ho (compat_sublist (hg.inv.nodup i o ho) hk),
              view_write_self hg.inv' ho' (compat_sublist (hg.inv'.nodup i o' ho') hk'), heq]
          · refine hgood.rel.same j fun hx => hj ?_
            rw [List.getElem?_set_ne hij]; exact hx
        · rw [List.length_map]; exact hgood.kept.1
        · refine ⟨(hgood.kept.2 h r hr).1, fun j o'' hj p hp hpr => ?_⟩
          have hown := (hgood.kept.2 h r hr).2 j o'' hj p hp hpr
          rcases get_set_cases hj with ⟨_, h2⟩ | ⟨hij, _⟩
          · cases h2
            rw [he] at hp
            exact absurd hp List.not_mem_nil
          · rw [List.getElem?_map, hown]
            simp only [Option.map_some, Option.some.injEq, if_neg (Ne.symm hij)]
      · exact hgood
  | keep i k =>
    refine ⟨⟨hg.rel.len, hg.rel.tlen, hg.rel.raw, hg.rel.same⟩, ⟨hg.inv.ok, hg.inv.lt, hg.inv.nodup, hg.inv.apart⟩,
      ⟨hg.inv'.ok, hg.inv'.lt, hg.inv'.nodup, hg.inv'.apart⟩, ?_, fun h r hr => ?_⟩
    · simp only [exec, Spec.mark, List.length_append, hg.kept.1, List.length_singleton]
    · rcases get_append_cases hr with ⟨h1, h2⟩ | h2
      · cases ho : w.objs[i]?.join with
        | none => rw [ho] at h2; cases h2
        | some o =>
          rw [ho] at h2
          have hmem := get_mem h2.symm
          refine ⟨hg.inv.lt i o (join_some ho) _ hmem, fun j o' hj p hp hpr => ?_⟩
          have := hg.inv.apart i j o o' (join_some ho) hj _ hmem p hp hpr.symm
          simp only [Spec.mark]
          rw [h1, ← hg.kept.1, List.getElem?_concat_length, this]
      · refine ⟨(hg.kept.2 h r h2).1, fun j o' hj p hp hpr => ?_⟩
        have := (hg.kept.2 h r h2).2 j o' hj p hp hpr
        simp only [Spec.mark]
        rw [List.getElem?_append_left]
        · exact this
        · by_contra hn
          rw [List.getElem?_eq_none (by omega)] at this; cases this
  | edit h v => exact absurd rfl (hc h v)

/-- executing an edit in one of the worlds only -/
theorem Good.edit {w w' : World R κ V} {m : Spec.Marks} (hg : Good ok w w' m) (h : Nat) (v : V) :
    Good ok (exec C w (.edit h v)) w' (Spec.mark C refresh w m (.edit h v)) := by
  simp only [exec, Spec.mark]
  have hview : ∀ (r : Nat) (j : Nat), (∀ o, w.objs[j]? = some (some o) → ∀ p ∈ o.refs, p.2 ≠ r) →
      view { w with heap := Function.update w.heap r v } j = view w j := by
    intro r j hj
    unfold view
    cases ho : w.objs[j]?.join with
    | none => rfl
    | some o =>
      refine congrArg some (view_heap_congr fun p hp => ?_)
      exact Function.update_of_ne (hj o (join_some ho) p hp) _ _
  have hrawv : ∀ (hp : Nat → V) (j : Nat), (view { w with heap := hp } j).map (·.raw) = (view w j).map (·.raw) := by
    intro hp j
    unfold view
    cases ho : w.objs[j]?.join <;> rfl
  cases hr : w.held[h]?.join with
  | none =>
    simp only
    cases hm : m.owner[h]?.join with
    | none => exact hg
    | some i =>
      refine ⟨⟨hg.rel.len, by simp only [List.length_set]; exact hg.rel.tlen, hg.rel.raw, fun j hj => ?_⟩,
        hg.inv, hg.inv', hg.kept.1, hg.kept.2⟩
      refine hg.rel.same j fun hx => hj ?_
      simp only
      rw [List.getElem?_set]
      split
      · rename_i hij
        rw [if_pos]
        rw [hij]
        by_contra hn
        rw [List.getElem?_eq_none (by omega)] at hx; cases hx
      · exact hx
  | some r =>
    have hk := hg.kept.2 h r (join_some hr)
    simp only
    cases hm : m.owner[h]?.join with
    | none =>
      refine ⟨⟨hg.rel.len, hg.rel.tlen, fun j => (hrawv _ j).trans (hg.rel.raw j), fun j hj => ?_⟩,
        ⟨hg.inv.ok, hg.inv.lt, hg.inv.nodup, hg.inv.apart⟩, hg.inv', hg.kept.1, hg.kept.2⟩
      refine (hview r j fun o ho p hp hpr => ?_).trans (hg.rel.same j hj)
      rw [some_join (hk.2 j o ho p hp hpr)] at hm; cases hm
    | some i =>
      refine ⟨⟨hg.rel.len, by simp only [List.length_set]; exact hg.rel.tlen,
        fun j => (hrawv _ j).trans (hg.rel.raw j), fun j hj => ?_⟩,
        ⟨hg.inv.ok, hg.inv.lt, hg.inv.nodup, hg.inv.apart⟩, hg.inv', hg.kept.1, hg.kept.2⟩
      simp only at hj
      by_cases hij : i = j
      · subst hij
        rw [List.getElem?_set] at hj
        simp only [if_true] at hj
        split at hj
        · exact absurd rfl hj
        · rename_i hlt
          have h1 : w.objs[i]?.join = none := by
            rw [List.getElem?_eq_none (by have := hg.rel.tlen; omega)]; rfl
          have h2 : view w' i = none := by
            unfold view; rw [List.getElem?_eq_none (by have := hg.rel.tlen; have := hg.rel.len; omega)]; rfl
          rw [h2]; unfold view; simp only; rw [h1]; rfl
      · refine (hview r j fun o ho p hp hpr => ?_).trans (hg.rel.same j fun hx => hj ?_)
        · rw [some_join (hk.2 j o ho p hp hpr)] at hm
          cases hm; exact hij rfl
        · rw [List.getElem?_set_ne hij]; exact hx

theorem Good.run {w w' : World R κ V} {m : Spec.Marks} (hC : Lawful C refresh ok) (hg : Good ok w w' m)
    (p : List (Cmd κ V Op Q New Der)) :
    Good ok (execAll C w p) (execAll C w' (Spec.noEdits p)) (Spec.marksFrom C refresh w m p) := by
  induction p generalizing w w' m with
  | nil => exact hg
  | cons c p ih =>
    unfold Spec.noEdits
    cases c with
    | edit h v =>
      rw [List.filter_cons_of_neg (by simp)]
      exact ih (hg.edit h v)
    | _ =>
      rw [List.filter_cons_of_pos (by simp)]
      exact ih (hg.step hC _ (by intro h v hx; cases hx))

end Live
end DHG
