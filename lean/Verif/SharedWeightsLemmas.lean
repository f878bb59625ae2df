import Verif.SharedWeightsSpec
import Verif.Unweighted

/-!
# Lemmas about the machine of `SharedWeights.lean`
-/

set_option linter.unusedSectionVars false
set_option autoImplicit false

namespace DHG
namespace Shared

variable {K : Type} [Field K] [LinearOrder K]

/-- alike up to the weights and the cached `W_v` -/
structure ObjLike (o o' : Obj K) : Prop where
  numV : o.base.raw.numV = o'.base.raw.numV
  groups : o.base.raw.groups = o'.base.raw.groups
  cache : others o.base.cache = others o'.base.cache
  ref : o.ref = o'.ref

/-- `ObjLike` where objects exist -/
def OptLike : Option (Obj K) → Option (Obj K) → Prop
  | none, none => True
  | some o, some o' => ObjLike o o'
  | _, _ => False

theorem map_len {h h' : Nat → List K} (hl : ∀ r, (h r).length = (h' r).length) (x : Option Nat) :
    (x.map h).map List.length = (x.map h').map List.length := by
  cases x with
  | none => rfl
  | some r => exact congrArg some (hl r)

theorem ObjLike.view {o o' : Obj K} (h : ObjLike o o') {m m' : Nat → List K}
    (hl : ∀ r, (m r).length = (m' r).length) : Like (o.view m) (o'.view m') :=
  ⟨⟨h.numV, h.groups, by
    show (o.ref.map m).map List.length = (o'.ref.map m').map List.length
    rw [h.ref]; exact map_len hl _⟩, h.cache⟩

theorem like_refl (s : HSt K) : Like s s := ⟨⟨rfl, rfl, rfl⟩, rfl⟩

/-- the relation between the program and the program without the assignments -/
structure Good (w w' : World K) (m : Spec.ListMarks) : Prop where
  next : w.next = m.count
  next' : w'.next = m.count
  held : w.held = w'.held
  klen : w.held.length = m.kept.length
  kept : ∀ (h r : Nat), w.held[h]?.join = some r → m.kept[h]? = some r
  len : w.objs.length = m.used.length
  len' : w'.objs.length = m.used.length
  used : ∀ (i : Nat) (o : Obj K) (r : Nat), w.objs[i]?.join = some o → o.ref = some r → m.used[i]? = some r
  like : ∀ (i : Nat), OptLike (w.objs[i]?.join) (w'.objs[i]?.join)
  same : ∀ (i l : Nat), m.used[i]? = some l → l ∉ m.changed →
    (w.objs[i]?.join).map (fun o => (o.base.raw.numV, o.base.raw.groups, o.base.cache)) =
      (w'.objs[i]?.join).map (fun o => (o.base.raw.numV, o.base.raw.groups, o.base.cache))
  lens : ∀ (r : Nat), (w.heap r).length = (w'.heap r).length
  heap : ∀ (r : Nat), r ∉ m.changed → w.heap r = w'.heap r
  klt : ∀ l ∈ m.kept, l < m.count
  ult : ∀ l ∈ m.used, l < m.count
  clt : ∀ l ∈ m.changed, l < m.count

theorem OptLike.none_iff {x y : Option (Obj K)} (h : OptLike x y) : x = none ↔ y = none := by
  cases x <;> cases y <;> simp_all [OptLike]

theorem OptLike.some_left {x y : Option (Obj K)} (h : OptLike x y) {o : Obj K} (hx : x = some o) :
    ∃ o', y = some o' ∧ ObjLike o o' := by
  subst hx
  cases y with
  | none => exact h.elim
  | some o' => exact ⟨o', rfl, h⟩

/-- objects whose list did not change are the same -/
theorem Good.view_eq {w w' : World K} {m : Spec.ListMarks} (g : Good w w' m) {i : Nat}
    (hi : ∀ l, m.used[i]? = some l → l ∉ m.changed) : view w i = view w' i := by
  unfold view
  cases hx : w.objs[i]?.join with
  | none => rw [(g.like i).none_iff.1 hx]; rfl
  | some o =>
    obtain ⟨o', ho', hl⟩ := (g.like i).some_left hx
    rw [ho']
    have hlen : i < w.objs.length := by
      by_contra hc
      rw [List.getElem?_eq_none (by omega)] at hx
      cases hx
    obtain ⟨l, hl'⟩ : ∃ l, m.used[i]? = some l := ⟨_, List.getElem?_eq_getElem (by rw [← g.len]; exact hlen)⟩
    have hs := g.same i l hl' (hi l hl')
    rw [hx, ho'] at hs
    simp only [Option.map_some, Option.some.injEq, Prod.mk.injEq] at hs
    obtain ⟨h1, h2, h3⟩ := hs
    have h4 : o.ref.map w.heap = o'.ref.map w'.heap := by
      rw [← hl.ref]
      cases hr : o.ref with
      | none => rfl
      | some r =>
        have := g.used i o r hx hr
        exact congrArg some (g.heap r (hi r this))
    simp only [Option.map_some, Option.some.injEq]
    unfold Obj.view
    rw [h4]
    rcases o with ⟨⟨⟨n, v, gr⟩, c⟩, rf⟩
    rcases o' with ⟨⟨⟨n', v', gr'⟩, c'⟩, rf'⟩
    simp only at h1 h2 h3
    subst h1 h2 h3
    rfl

theorem Good.view_like {w w' : World K} {m : Spec.ListMarks} (g : Good w w' m) {i : Nat} {s : HSt K}
    (h : view w i = some s) : ∃ s', view w' i = some s' ∧ Like s s' := by
  unfold view at h ⊢
  cases hx : w.objs[i]?.join with
  | none => rw [hx] at h; cases h
  | some o =>
    rw [hx] at h
    cases h
    obtain ⟨o', ho', hl⟩ := (g.like i).some_left hx
    exact ⟨o'.view w'.heap, by rw [ho']; rfl, hl.view g.lens⟩

theorem Good.view_none {w w' : World K} {m : Spec.ListMarks} (g : Good w w' m) {i : Nat}
    (h : view w i = none) : view w' i = none := by
  unfold view at h ⊢
  rw [Option.map_eq_none_iff] at h ⊢
  exact (g.like i).none_iff.1 h

theorem Good.empty : Good (.empty : World K) .empty ⟨0, [], [], []⟩ where
  next := rfl
  next' := rfl
  held := rfl
  klen := rfl
  kept h r hr := by cases hr
  len := rfl
  len' := rfl
  used i o r hr := by cases hr
  like i := trivial
  same i l hl := by cases hl
  lens r := rfl
  heap r _ := rfl
  klt l hl := by cases hl
  ult l hl := by cases hl
  clt l hl := by cases hl

/-! ### Single commands -/

theorem get_push {α : Type} (l : List α) (a : α) (i : Nat) (x : α) :
    (l ++ [a])[i]? = some x ↔ l[i]? = some x ∨ i = l.length ∧ x = a := by
  rcases Nat.lt_trichotomy i l.length with h | h | h
  · rw [List.getElem?_append_left h]
    constructor
    · exact .inl
    · rintro (h1 | ⟨h1, _⟩)
      · exact h1
      · omega
  · subst h
    rw [List.getElem?_append_right (Nat.le_refl _), Nat.sub_self, List.getElem?_eq_none (Nat.le_refl l.length)]
    simp [eq_comm]
  · rw [List.getElem?_eq_none (by simp; omega), List.getElem?_eq_none (by omega)]
    constructor
    · intro h; cases h
    · rintro (h1 | ⟨h1, _⟩)
      · cases h1
      · omega

theorem join_push {α : Type} (l : List (Option α)) (a : Option α) (i : Nat) :
    (l ++ [a])[i]?.join = if i = l.length then a else l[i]?.join := by
  rcases Nat.lt_trichotomy i l.length with h | h | h
  · rw [List.getElem?_append_left h, if_neg (by omega)]
  · subst h
    rw [List.getElem?_append_right (Nat.le_refl _), Nat.sub_self, if_pos rfl]
    rfl
  · rw [List.getElem?_eq_none (by simp; omega), List.getElem?_eq_none (by omega), if_neg (by omega)]

/-- one more object -/
theorem Good.push {w w' : World K} {m : Spec.ListMarks} (g : Good w w' m) {x x' : Option (Obj K)}
    {l : Nat} {ch : List Nat} {hp hp' : Nat → List K}
    (hx : OptLike x x') (hxr : ∀ o r, x = some o → o.ref = some r → r = l)
    (hl : l ≤ m.count)
    (hsame : l ∉ ch → x.map (fun o => (o.base.raw.numV, o.base.raw.groups, o.base.cache)) =
      x'.map (fun o => (o.base.raw.numV, o.base.raw.groups, o.base.cache)))
    (hch : ∀ l ∈ ch, l < m.count + 1) (hsub : ∀ l ∈ m.changed, l ∈ ch)
    (hlens : ∀ r, (hp r).length = (hp' r).length) (hheap : ∀ r, r ∉ ch → hp r = hp' r) :
    Good { w with heap := hp, next := w.next + 1, objs := w.objs ++ [x] }
      { w' with heap := hp', next := w'.next + 1, objs := w'.objs ++ [x'] }
      { m with count := m.count + 1, used := m.used ++ [l], changed := ch } where
  next := congrArg (· + 1) g.next
  next' := congrArg (· + 1) g.next'
  held := g.held
  klen := g.klen
  kept := g.kept
  len := by simp [g.len]
  len' := by simp [g.len']
  used i o r ho hr := by
    simp only [join_push] at ho
    refine (get_push _ _ _ _).2 ?_
    split at ho
    · rename_i hi
      exact .inr ⟨hi.trans g.len, hxr o r ho hr⟩
    · exact .inl (g.used i o r ho hr)
  like i := by
    simp only [join_push, g.len, g.len']
    split
    · exact hx
    · exact g.like i
  same i l' hl' hn := by
    simp only [join_push, g.len, g.len']
    rcases (get_push _ _ _ _).1 hl' with h | ⟨h, rfl⟩
    · rw [if_neg, if_neg]
      · exact g.same i l' h fun h2 => hn (hsub _ h2)
      · intro hi; rw [List.getElem?_eq_none (by omega)] at h; cases h
      · intro hi; rw [List.getElem?_eq_none (by omega)] at h; cases h
    · rw [if_pos h, if_pos h]
      exact hsame hn
  lens := hlens
  heap := hheap
  klt l hl := Nat.lt_succ_of_lt (g.klt l hl)
  ult l' hl' := by
    rcases List.mem_append.1 hl' with h | h
    · exact Nat.lt_succ_of_lt (g.ult l' h)
    · rw [List.mem_singleton.1 h]; exact Nat.lt_succ_of_le hl
  clt := hch

/-- one more kept list -/
theorem Good.keep {w w' : World K} {m : Spec.ListMarks} (g : Good w w' m) {x : Option Nat} {l : Nat}
    {hp hp' : Nat → List K} (hx : ∀ r, x = some r → r = l) (hl : l ≤ m.count)
    (hlens : ∀ r, (hp r).length = (hp' r).length) (hheap : ∀ r, r ∉ m.changed → hp r = hp' r) :
    Good { w with heap := hp, next := w.next + 1, held := w.held ++ [x] }
      { w' with heap := hp', next := w'.next + 1, held := w'.held ++ [x] }
      { m with count := m.count + 1, kept := m.kept ++ [l] } where
  next := congrArg (· + 1) g.next
  next' := congrArg (· + 1) g.next'
  held := by rw [g.held]
  klen := by simp [g.klen]
  kept h r hr := by
    simp only [join_push] at hr
    refine (get_push _ _ _ _).2 ?_
    split at hr
    · rename_i hi
      exact .inr ⟨hi.trans g.klen, hx r hr⟩
    · exact .inl (g.kept h r hr)
  len := g.len
  len' := g.len'
  used := g.used
  like := g.like
  same := g.same
  lens := hlens
  heap := hheap
  klt l' hl' := by
    rcases List.mem_append.1 hl' with h | h
    · exact Nat.lt_succ_of_lt (g.klt l' h)
    · rw [List.mem_singleton.1 h]; exact Nat.lt_succ_of_le hl
  ult l hl := Nat.lt_succ_of_lt (g.ult l hl)
  clt l hl := Nat.lt_succ_of_lt (g.clt l hl)

theorem Good.skip {w w' : World K} {m : Spec.ListMarks} (g : Good w w' m) :
    Good (Shared.skip w) (Shared.skip w') { m with count := m.count + 1 } :=
  { g with
    next := congrArg (· + 1) g.next
    next' := congrArg (· + 1) g.next'
    klt := fun l hl => Nat.lt_succ_of_lt (g.klt l hl)
    ult := fun l hl => Nat.lt_succ_of_lt (g.ult l hl)
    clt := fun l hl => Nat.lt_succ_of_lt (g.clt l hl) }

theorem join_set {α : Type} (l : List (Option α)) (i j : Nat) (a : α) (hi : l[i]?.join ≠ none) :
    (l.set i (some a))[j]?.join = if j = i then some a else l[j]?.join := by
  rw [List.getElem?_set]
  have hlt : i < l.length := by
    by_contra hc
    rw [List.getElem?_eq_none (by omega)] at hi
    exact hi rfl
  by_cases h : i = j
  · subst h
    rw [if_pos rfl, if_pos rfl, if_pos hlt]
    rfl
  · rw [if_neg h, if_neg (Ne.symm h)]

theorem Good.write {w w' : World K} {m : Spec.ListMarks} (g : Good w w' m) {i : Nat} {x x' : Obj K} {t t' : HSt K}
    (hx : w.objs[i]?.join = some x) (hx' : w'.objs[i]?.join = some x') (ht : Like t t')
    (hs : x.view w.heap = x'.view w'.heap → t = t') :
    Good (Shared.write w i x t) (Shared.write w' i x' t') { m with count := m.count + 1 } := by
  have hl : ObjLike x x' := by
    obtain ⟨o, ho, hl⟩ := (g.like i).some_left hx
    rw [hx'] at ho
    cases ho
    exact hl
  have hvw : (match t.raw.vWeight with
      | none => none
      | some _ => x.ref) = (match t'.raw.vWeight with
      | none => none
      | some _ => x'.ref) := by
    have := ht.raw.2.2
    rw [hl.ref]
    cases h : t.raw.vWeight <;> cases h' : t'.raw.vWeight <;> rw [h, h'] at this
    · cases this
    · cases this
  refine
    { g.skip with
      len := by simp [Shared.write, g.len]
      len' := by simp [Shared.write, g.len']
      used := ?_
      like := ?_
      same := ?_ }
  · intro j o r ho hr
    simp only [Shared.write] at ho
    rw [join_set _ _ _ _ (by rw [hx]; simp)] at ho
    split at ho
    · rename_i hj
      subst hj
      cases ho
      simp only at hr
      split at hr
      · cases hr
      · exact g.used j x r hx hr
    · exact g.used j o r ho hr
  · intro j
    simp only [Shared.write]
    rw [join_set _ _ _ _ (by rw [hx]; simp), join_set _ _ _ _ (by rw [hx']; simp)]
    split
    · exact ⟨ht.raw.1, ht.raw.2.1, ht.cache, hvw⟩
    · exact g.like j
  · intro j l hl' hn
    simp only [Shared.write]
    rw [join_set _ _ _ _ (by rw [hx]; simp), join_set _ _ _ _ (by rw [hx']; simp)]
    split
    · rename_i hj
      subst hj
      have hv := g.view_eq (i := j) (fun l2 h2 => by
        have : l2 = l := by
          have h3 : m.used[j]? = some l := hl'
          rw [h2] at h3
          exact Option.some.inj h3
        rw [this]
        exact hn)
      unfold view at hv
      rw [hx, hx'] at hv
      have := hs (Option.some.inj hv)
      rw [this]
      rfl
    · exact g.same j l hl' hn


/-- outcomes of calls that return hypergraphs that are alike -/
def ResLike : Except Err (HSt K) → Except Err (HSt K) → Prop
  | .ok s, .ok s' => Like s s'
  | .error _, .error _ => True
  | _, _ => False

theorem Good.fresh {w w' : World K} {m : Spec.ListMarks} (g : Good w w' m) {x x' : Except Err (HSt K)}
    {ch : List Nat} (hx : ResLike x x') (hch : ch = m.changed ∨ ch = m.count :: m.changed)
    (he : m.count ∉ ch → x = x') :
    Good (Shared.fresh w x) (Shared.fresh w' x')
      { m with count := m.count + 1, used := m.used ++ [m.count], changed := ch } := by
  have hlt : ∀ l ∈ ch, l < m.count + 1 := by
    intro l hl
    rcases hch with h | h <;> subst h
    · exact Nat.lt_succ_of_lt (g.clt l hl)
    · rcases List.mem_cons.1 hl with h | h
      · omega
      · exact Nat.lt_succ_of_lt (g.clt l h)
  have hsub : ∀ l ∈ m.changed, l ∈ ch := by
    intro l hl
    rcases hch with h | h <;> subst h
    · exact hl
    · exact List.mem_cons_of_mem _ hl
  have hheap : ∀ r, r ∉ ch → w.heap r = w'.heap r := fun r hr => g.heap r fun h => hr (hsub r h)
  cases x with
  | error e =>
    cases x' with
    | ok s' => exact hx.elim
    | error e' =>
      exact g.push (x := none) (x' := none) trivial (fun _ _ h => by cases h) (Nat.le_refl _) (fun _ => rfl) hlt hsub
        g.lens hheap
  | ok s =>
    cases x' with
    | error e' => exact hx.elim
    | ok s' =>
      have hx : Like s s' := hx
      have hvw := hx.raw.2.2
      unfold Shared.fresh
      cases hv : s.raw.vWeight with
      | none =>
        cases hv' : s'.raw.vWeight with
        | some l' => rw [hv, hv'] at hvw; cases hvw
        | none =>
          simp only [hv, hv']
          refine g.push (x := some ⟨s, none⟩) (x' := some ⟨s', none⟩) ⟨hx.raw.1, hx.raw.2.1, hx.cache, rfl⟩
            (fun o r h h2 => by cases h; cases h2) (Nat.le_refl _) (fun h => ?_) hlt hsub g.lens hheap
          have := Except.ok.inj (he h)
          rw [this]
      | some l =>
        cases hv' : s'.raw.vWeight with
        | none => rw [hv, hv'] at hvw; cases hvw
        | some l' =>
          simp only [hv, hv']
          have hll : l.length = l'.length := by rw [hv, hv'] at hvw; exact Option.some.inj hvw
          refine g.push (x := some ⟨s, some w.next⟩) (x' := some ⟨s', some w'.next⟩)
            ⟨hx.raw.1, hx.raw.2.1, hx.cache, by rw [g.next, g.next']⟩
            (fun o r h h2 => by cases h; cases h2; exact g.next) (Nat.le_refl _) (fun h => ?_) hlt hsub ?_ ?_
          · have := Except.ok.inj (he h)
            rw [this]
            rfl
          · intro r
            rw [g.next, g.next']
            by_cases hr : r = m.count
            · subst hr; rw [Function.update_self, Function.update_self]; exact hll
            · rw [Function.update_of_ne hr, Function.update_of_ne hr]; exact g.lens r
          · intro r hr
            rw [g.next, g.next']
            by_cases h : r = m.count
            · subst h
              rw [Function.update_self, Function.update_self]
              have h1 := Except.ok.inj (he hr)
              rw [h1, hv'] at hv
              exact (Option.some.inj hv).symm
            · rw [Function.update_of_ne h, Function.update_of_ne h]; exact hheap r hr

theorem Good.given {w w' : World K} {m : Spec.ListMarks} (g : Good w w' m) {x x' : Except Err (HSt K)} {h r : Nat}
    (hr : w.held[h]?.join = some r) (hx : ResLike x x') (he : r ∉ m.changed → x = x') :
    Good (Shared.given w r x) (Shared.given w' r x')
      { m with count := m.count + 1, used := m.used ++ [m.kept.getD h m.count] } := by
  have hk := g.kept h r hr
  have hg : m.kept.getD h m.count = r := by rw [List.getD_eq_getElem?_getD, hk]; rfl
  rw [hg]
  have hrl : r ≤ m.count := Nat.le_of_lt (g.klt r (List.mem_of_getElem? hk))
  have hch : ∀ l ∈ m.changed, l < m.count + 1 := fun l hl => Nat.lt_succ_of_lt (g.clt l hl)
  cases x with
  | error e =>
    cases x' with
    | ok s' => exact hx.elim
    | error e' =>
      exact g.push (x := none) (x' := none) trivial (fun _ _ h => by cases h) hrl (fun _ => rfl) hch (fun _ h => h)
        g.lens g.heap
  | ok s =>
    cases x' with
    | error e' => exact hx.elim
    | ok s' =>
      have hx : Like s s' := hx
      refine g.push (x := some ⟨s, some r⟩) (x' := some ⟨s', some r⟩) ⟨hx.raw.1, hx.raw.2.1, hx.cache, rfl⟩
        (fun o r' h h2 => by cases h; cases h2; rfl) hrl (fun h => ?_) hch (fun _ h => h) g.lens g.heap
      have := Except.ok.inj (he h)
      rw [this]

/-- a creation that fails for both -/
theorem Good.pushNone {w w' : World K} {m : Spec.ListMarks} (g : Good w w' m) {l : Nat} {ch : List Nat}
    (hl : l ≤ m.count) (hch : ch = m.changed ∨ ch = m.count :: m.changed) :
    Good { w with next := w.next + 1, objs := w.objs ++ [none] }
      { w' with next := w'.next + 1, objs := w'.objs ++ [none] }
      { m with count := m.count + 1, used := m.used ++ [l], changed := ch } := by
  have hsub : ∀ l ∈ m.changed, l ∈ ch := by
    intro l hl
    rcases hch with h | h <;> subst h
    · exact hl
    · exact List.mem_cons_of_mem _ hl
  refine g.push (x := none) (x' := none) trivial (fun _ _ h => by cases h) hl (fun _ => rfl) ?_ hsub g.lens
    fun r hr => g.heap r fun h => hr (hsub r h)
  intro l hl
  rcases hch with h | h <;> subst h
  · exact Nat.lt_succ_of_lt (g.clt l hl)
  · rcases List.mem_cons.1 hl with h | h
    · omega
    · exact Nat.lt_succ_of_lt (g.clt l h)

/-! ### The calls that return hypergraphs -/

theorem new_like [PyReal K] (n : Int) (arg : Option HArg) (ew : HW K) (op : MergeOp) {l l' : List K}
    (hl : l.length = l'.length) : ResLike (Hyper.new n arg ew (some l) op) (Hyper.new n arg ew (some l') op) := by
  unfold Hyper.new Hyper.initRaw
  by_cases hn : 0 < n
  · simp only [if_pos hn]
    by_cases h : l'.length = n.toNat
    · rw [if_pos (hl.trans h), if_pos h]
      simp only [bind, Except.bind]
      have hlike : Like (K := K) { raw := { numV := n.toNat, vWeight := some l, groups := [] }, cache := [] }
          { raw := { numV := n.toNat, vWeight := some l', groups := [] }, cache := [] } :=
        ⟨⟨rfl, rfl, congrArg some hl⟩, rfl⟩
      cases arg with
      | none => exact hlike
      | some a =>
        have h1 := (Hyper.ignores_apply (.addHyperedges a ew op "main")).ans _ _ hlike
        have h2 := (Hyper.ignores_apply (.addHyperedges a ew op "main")).like _ _ hlike
        simp only [Hyper.apply] at h1 h2 ⊢
        rcases hm : Hyper.addHyperedges a ew op "main"
          { raw := { numV := n.toNat, vWeight := some l, groups := [] }, cache := [] } with ⟨x, t⟩
        rcases hm' : Hyper.addHyperedges a ew op "main"
          { raw := { numV := n.toNat, vWeight := some l', groups := [] }, cache := [] } with ⟨x', t'⟩
        rw [hm, hm'] at h1 h2
        simp only at h1 h2
        subst h1
        cases x with
        | error e => trivial
        | ok _ => exact h2
    · rw [if_neg (fun h2 => h (hl.symm.trans h2)), if_neg h]
      trivial
  · simp only [if_neg hn]
    trivial

theorem clone_like {s s' : HSt K} (h : Like s s') : ResLike (Hyper.clone s) (Hyper.clone s') := by
  unfold Hyper.clone
  rw [h.raw.1, h.raw.2.1]
  cases Hyper.initRaw (K := K) (s'.raw.numV : Int) none with
  | error e => trivial
  | ok r => exact ⟨⟨rfl, rfl, rfl⟩, h.cache⟩

theorem resLike_refl (x : Except Err (HSt K)) : ResLike x x := by
  cases x with
  | error e => trivial
  | ok s => exact like_refl s

/-- is the call `subgraph`? -/
def isSub : Heap.DerH K → Bool
  | .sub _ _ => true
  | _ => false

theorem derived_eq {s s' : HSt K} (h : Like s s') (d : Heap.DerH K) (hd : isSub d = false) :
    derived d s = derived d s' := by
  cases d with
  | drop d => simp only [derived, Hyper.dropHyperedges, h.raw.1, h.raw.2.1]
  | dropGroup g d => simp only [derived, Hyper.dropHyperedgesOfGroup, h.raw.1, h.raw.2.1]
  | sub vs k => cases hd

theorem derived_like {s s' : HSt K} (h : Like s s') (d : Heap.DerH K) : ResLike (derived d s) (derived d s') := by
  cases hd : isSub d with
  | false => rw [derived_eq h d hd]; exact resLike_refl _
  | true =>
    cases d with
    | drop d => cases hd
    | dropGroup g d => cases hd
    | sub vs k =>
      simp only [derived, Hyper.subgraph, h.raw.1, h.raw.2.1]
      split
      · split
        · cases Hyper.fromStateDict (K := K)
            { numV := (Hyper.sortedSet vs).length
              groups := s'.raw.groups.map fun p => (p.1, Hyper.subGroup (Hyper.sortedSet vs) k p.2) } with
          | error e => trivial
          | ok t =>
            simp only [bind, Except.bind]
            have hvw := h.raw.2.2
            cases hv : s.raw.vWeight <;> cases hv' : s'.raw.vWeight <;> rw [hv, hv'] at hvw
            · exact like_refl t
            · cases hvw
            · cases hvw
            · refine ⟨⟨rfl, rfl, ?_⟩, rfl⟩
              simp [Hyper.subWeights]
        · trivial
      · trivial

/-! ### Programs -/

theorem Good.set {w w' : World K} {m : Spec.ListMarks} [PyReal K] (g : Good w w' m) (h j : Nat) (x : K) :
    Good (exec w (.set h j x)) w' (Spec.listMark m (.set h j x)) := by
  simp only [exec, Spec.listMark]
  cases hr : w.held[h]?.join with
  | none =>
    cases hk : m.kept[h]? with
    | none => exact g
    | some l =>
      exact { g with
        same := fun i l' hl' hn => g.same i l' hl' fun h2 => hn (List.mem_cons_of_mem _ h2)
        heap := fun r hr => g.heap r fun h2 => hr (List.mem_cons_of_mem _ h2)
        clt := fun l' hl' => by
          rcases List.mem_cons.1 hl' with h2 | h2
          · rw [h2]; exact g.klt l (List.mem_of_getElem? hk)
          · exact g.clt l' h2 }
  | some r =>
    have hk := g.kept h r hr
    simp only [hk]
    exact { g with
      same := fun i l' hl' hn => g.same i l' hl' fun h2 => hn (List.mem_cons_of_mem _ h2)
      lens := fun r' => by
        by_cases h2 : r' = r
        · subst h2
          simp only [Function.update_self, List.length_set]
          exact g.lens r'
        · simp only [Function.update_of_ne h2]
          exact g.lens r'
      heap := fun r' hr' => by
        have h2 : r' ≠ r := fun h2 => hr' (h2 ▸ List.mem_cons_self)
        simp only [Function.update_of_ne h2]
        exact g.heap r' fun h3 => hr' (List.mem_cons_of_mem _ h3)
      clt := fun l' hl' => by
        rcases List.mem_cons.1 hl' with h2 | h2
        · rw [h2]; exact g.klt r (List.mem_of_getElem? hk)
        · exact g.clt l' h2 }

theorem getD_le {w w' : World K} {m : Spec.ListMarks} (g : Good w w' m) (i : Nat) : m.used.getD i m.count ≤ m.count := by
  rw [List.getD_eq_getElem?_getD]
  cases h : m.used[i]? with
  | none => exact Nat.le_refl _
  | some l => exact Nat.le_of_lt (g.ult l (List.mem_of_getElem? h))

/-- objects whose mark is not changed are the same -/
theorem Good.obj_eq {w w' : World K} {m : Spec.ListMarks} (g : Good w w' m) {i : Nat} {x x' : Obj K}
    (hx : w.objs[i]?.join = some x) (hx' : w'.objs[i]?.join = some x') (hn : m.used.getD i m.count ∉ m.changed) :
    x.view w.heap = x'.view w'.heap := by
  have hv := g.view_eq (i := i) fun l hl => by
    rw [List.getD_eq_getElem?_getD, hl] at hn
    exact hn
  unfold view at hv
  rw [hx, hx'] at hv
  exact Option.some.inj hv

theorem Good.step [PyReal K] {w w' : World K} {m : Spec.ListMarks} (g : Good w w' m) (c : Cmd K)
    (hc : ∀ h j x, c ≠ .set h j x) : Good (exec w c) (exec w' c) (Spec.listMark m c) := by
  cases c with
  | list l =>
    simp only [exec, Spec.listMark]
    rw [g.next']
    conv => arg 1; rw [g.next]
    have := g.keep (x := some m.count) (l := m.count) (hp := Function.update w.heap m.count l)
      (hp' := Function.update w'.heap m.count l) (fun r h => by cases h; rfl) (Nat.le_refl _)
      (fun r => by
        by_cases hr : r = m.count
        · subst hr; rw [Function.update_self, Function.update_self]
        · rw [Function.update_of_ne hr, Function.update_of_ne hr]; exact g.lens r)
      (fun r hr => by
        by_cases h : r = m.count
        · subst h; rw [Function.update_self, Function.update_self]
        · rw [Function.update_of_ne h, Function.update_of_ne h]; exact g.heap r hr)
    rw [g.next, g.next'] at this
    exact this
  | make n arg ew op h =>
    cases h with
    | none => exact g.fresh (resLike_refl _) (.inl rfl) fun _ => rfl
    | some h =>
      simp only [exec, Spec.listMark]
      have hh : w'.held[h]?.join = w.held[h]?.join := by rw [g.held]
      rw [hh]
      cases hr : w.held[h]?.join with
      | none =>
        refine g.pushNone ?_ (.inl rfl)
        rw [List.getD_eq_getElem?_getD]
        cases hk : m.kept[h]? with
        | none => exact Nat.le_refl _
        | some l => exact Nat.le_of_lt (g.klt l (List.mem_of_getElem? hk))
      | some r => exact g.given hr (new_like n arg ew op (g.lens r)) fun hn => by rw [g.heap r hn]
  | call i o =>
    simp only [exec, Spec.listMark]
    cases hx : w.objs[i]?.join with
    | none => rw [(g.like i).none_iff.1 hx]; exact g.skip
    | some x =>
      obtain ⟨x', hx', hl⟩ := (g.like i).some_left hx
      rw [hx']
      exact g.write hx hx' ((Hyper.ignores_apply o).like _ _ (hl.view g.lens)) fun h => by rw [h]
  | read i q =>
    simp only [exec, Spec.listMark]
    cases hx : w.objs[i]?.join with
    | none => rw [(g.like i).none_iff.1 hx]; exact g.skip
    | some x =>
      obtain ⟨x', hx', hl⟩ := (g.like i).some_left hx
      rw [hx']
      exact g.write hx hx' (Hyper.ask_like q (hl.view g.lens)) fun h => by rw [h]
  | clone i =>
    simp only [exec, Spec.listMark]
    cases hx : w.objs[i]?.join with
    | none =>
      rw [(g.like i).none_iff.1 hx]
      refine g.pushNone (Nat.le_refl _) ?_
      split
      · exact .inr rfl
      · exact .inl rfl
    | some x =>
      obtain ⟨x', hx', hl⟩ := (g.like i).some_left hx
      rw [hx']
      refine g.fresh (clone_like (hl.view g.lens)) ?_ ?_
      · split
        · exact .inr rfl
        · exact .inl rfl
      · split
        · intro h; exact absurd List.mem_cons_self h
        · rename_i hn
          intro _
          rw [g.obj_eq hx hx' hn]
  | derive i d =>
    have key : ∀ ch : List Nat, (ch = m.changed ∨ ch = m.count :: m.changed) →
        (m.count ∉ ch → isSub d = true → m.used.getD i m.count ∉ m.changed) →
        Good (exec w (.derive i d)) (exec w' (.derive i d))
          { m with count := m.count + 1, used := m.used ++ [m.count], changed := ch } := by
      intro ch hch hsub
      simp only [exec]
      cases hx : w.objs[i]?.join with
      | none =>
        rw [(g.like i).none_iff.1 hx]
        exact g.pushNone (Nat.le_refl _) hch
      | some x =>
        obtain ⟨x', hx', hl⟩ := (g.like i).some_left hx
        rw [hx']
        refine g.fresh (derived_like (hl.view g.lens) d) hch fun hn => ?_
        cases hd : isSub d with
        | false => exact derived_eq (hl.view g.lens) d hd
        | true => rw [g.obj_eq hx hx' (hsub hn hd)]
    cases d with
    | drop d => exact key m.changed (.inl rfl) fun _ h => by cases h
    | dropGroup s d => exact key m.changed (.inl rfl) fun _ h => by cases h
    | sub vs k =>
      refine key _ ?_ ?_
      · split
        · exact .inr rfl
        · exact .inl rfl
      · split
        · intro h; exact absurd List.mem_cons_self h
        · rename_i hn
          intro _ _
          exact hn
  | weights i =>
    simp only [exec, Spec.listMark]
    have href : w'.objs[i]?.join.bind (·.ref) = w.objs[i]?.join.bind (·.ref) := by
      cases hx : w.objs[i]?.join with
      | none => rw [(g.like i).none_iff.1 hx]
      | some x =>
        obtain ⟨x', hx', hl⟩ := (g.like i).some_left hx
        rw [hx']
        exact hl.ref.symm
    rw [href]
    refine g.keep (fun r hr => ?_) (getD_le g i) g.lens g.heap
    cases hx : w.objs[i]?.join with
    | none => rw [hx] at hr; cases hr
    | some x =>
      rw [hx] at hr
      have := g.used i x r hx hr
      rw [List.getD_eq_getElem?_getD, this]
      rfl
  | set h j x => exact absurd rfl (hc h j x)

theorem Good.run [PyReal K] {w w' : World K} {m : Spec.ListMarks} (g : Good w w' m) (p : List (Cmd K)) :
    Good (execAll w p) (execAll w' (Spec.noSets p)) (p.foldl Spec.listMark m) := by
  induction p generalizing w w' m with
  | nil => exact g
  | cons c p ih =>
    by_cases hc : ∃ h j x, c = .set h j x
    · obtain ⟨h, j, x, rfl⟩ := hc
      exact ih (g.set h j x)
    · have hc' : ∀ h j x, c ≠ .set h j x := fun h j x e => hc ⟨h, j, x, e⟩
      have : Spec.noSets (c :: p) = c :: Spec.noSets p := by
        unfold Spec.noSets
        cases c <;> first | rfl | exact absurd rfl (hc' _ _ _)
      rw [this]
      exact ih (g.step c hc')

end Shared
end DHG
