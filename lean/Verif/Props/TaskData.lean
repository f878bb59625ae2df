import Verif.TaskDevice

/-!
# The data of a task and its device (C125, C126)
-/

set_option linter.unusedSectionVars false
set_option autoImplicit false

namespace DHG
open TaskDev
open Device (Dev cpu)

namespace Spec

/-- the tensor or structure is on the device -/
def OnDevice (w : World) (d : Dev) : Val → Prop
  | .tensor _ d' => d' = d
  | .struct r => w.structs[r]? = some d
  | .other _ => False

/-- whatever of features, structure, labels and masks the data of the task has is on the device of the task -/
def DataReady (w : World) (t : Task) : Prop :=
  ∀ n ∈ ["features", "structure", "labels", "train_mask", "val_mask", "test_mask"], ∀ v,
    (w.dict t.data).get? n = some v → OnDevice w t.device v

/-- the structure is in the data under one of the six names -/
def InData (w : World) (D r : Nat) : Prop :=
  ∃ n ∈ ["features", "structure", "labels", "train_mask", "val_mask", "test_mask"],
    (w.dict D).get? n = some (.struct r)

/-- the structure is in the data of the task or its best structure -/
def HoldsStruct (w : World) (t : Task) (r : Nat) : Prop := InData w t.data r ∨ t.best = some r

/-- The caller keeps the objects of tasks to the tasks: entries refer to structures that exist; no entry of the dictionary of a task
is assigned and no structure of a task is moved; a task gets a dictionary that no task has, with structures that no
task has; a task is not moved to another device after it was run; and data given to `test` does not
have structures of another task. -/
def Separate (w : World) : Op → Prop
  | .dict d => ∀ n r, d.get? n = some (.struct r) → r < w.structs.length
  | .struct _ => True
  | .put D _ v => (∀ t ∈ w.tasks, t.data ≠ D) ∧ ∀ r, v = .struct r → r < w.structs.length
  | .move r _ => ∀ t ∈ w.tasks, ¬ HoldsStruct w t r
  | .task D _ _ => D < w.dicts.length ∧ (∀ t ∈ w.tasks, t.data ≠ D) ∧
      ∀ r, InData w D r → ∀ t ∈ w.tasks, ¬ HoldsStruct w t r
  | .to i d => ∀ t, w.tasks[i]? = some t → t.best = none ∨ d = t.device
  | .run _ _ => True
  | .test _ => True
  | .testOn i D => ∀ r, InData w D r → ∀ j t, j ≠ i → w.tasks[j]? = some t → ¬ HoldsStruct w t r

/-- the objects that the call names exist -/
def RefsExist (w : World) : Op → Prop
  | .dict d => ∀ n r, d.get? n = some (.struct r) → r < w.structs.length
  | .struct _ => True
  | .put D _ v => D < w.dicts.length ∧ ∀ r, v = .struct r → r < w.structs.length
  | .move r _ => r < w.structs.length
  | .task D _ _ => D < w.dicts.length
  | .to i _ => i < w.tasks.length
  | .run i _ => i < w.tasks.length
  | .test i => i < w.tasks.length
  | .testOn i D => i < w.tasks.length ∧ D < w.dicts.length

/-- the objects after a program of calls with `P`; calls may fail -/
inductive TaskProgram (fwd : Fwd) (P : World → Op → Prop) : World → Prop
  | start : TaskProgram fwd P TaskDev.start
  | call {w : World} (o : Op) (h : TaskProgram fwd P w) (hs : P w o) : TaskProgram fwd P (TaskDev.apply fwd o w).2

/-- a model called with everything on one device works there -/
def WorksOnOneDevice (fwd : Fwd) : Prop := ∀ d, fwd d d d = .ok (d, d)

/-- what is in the entry, forgetting the device of a tensor -/
def forgetDev : Val → Val
  | .tensor id _ => .tensor id 0
  | v => v

/-- the keys and entries of a dictionary, forgetting the devices of tensors -/
def contents (d : Dict String Val) : List (String × Val) := d.map fun p => (p.1, forgetDev p.2)

end Spec

namespace Props
namespace TD
open Spec

/-! ### calls that keep an assertion -/

/-- from states with `P`, `m` ends in a value and state with `Q` or an exception and state with `E` -/
def Ht {α : Type} (P : World → Prop) (m : PyM World α) (Q : α → World → Prop) (E : Err → World → Prop) : Prop :=
  ∀ w, P w → match m w with
    | (.ok a, w') => Q a w'
    | (.error e, w') => E e w'

variable {α β : Type} {P : World → Prop} {E : Err → World → Prop}

theorem Ht.bind {m : PyM World α} {f : α → PyM World β} {Q : α → World → Prop} {R : β → World → Prop}
    (h1 : Ht P m Q E) (h2 : ∀ a, Ht (Q a) (f a) R E) : Ht P (m >>= f) R E := by
  intro w hw
  have := h1 w hw
  rw [PyM.bind_apply]
  rcases hm : m w with ⟨_ | a, w'⟩
  · rw [hm] at this; exact this
  · rw [hm] at this; exact h2 a w' this

theorem Ht.pure {a : α} {Q : α → World → Prop} (h : ∀ w, P w → Q a w) : Ht P (Pure.pure a) Q E := fun w hw => h w hw

theorem Ht.raise {e : Err} {Q : α → World → Prop} (h : ∀ w, P w → E e w) : Ht P (PyM.raise e) Q E := fun w hw => h w hw

theorem Ht.pre {P' : World → Prop} {m : PyM World α} {Q : α → World → Prop} (h : Ht P m Q E) (hp : ∀ w, P' w → P w) :
    Ht P' m Q E := fun w hw => h w (hp w hw)

theorem Ht.post {m : PyM World α} {Q Q' : α → World → Prop} (h : Ht P m Q E) (hq : ∀ a w, Q a w → Q' a w) :
    Ht P m Q' E := by
  intro w hw
  have := h w hw
  rcases hm : m w with ⟨_ | a, w'⟩
  · rw [hm] at this; exact this
  · rw [hm] at this; exact hq a w' this

theorem Ht.use {m : PyM World α} {Q : α → World → Prop} {G : Except Err α × World → Prop} {w : World} (h : Ht P m Q E)
    (hw : P w) (h1 : ∀ a w', Q a w' → G (.ok a, w')) (h2 : ∀ e w', E e w' → G (.error e, w')) : G (m w) := by
  have := h w hw
  rcases hm : m w with ⟨e | a, w'⟩
  · rw [hm] at this; exact h2 e w' this
  · rw [hm] at this; exact h1 a w' this

theorem Ht.modify {f : World → World} {Q : Unit → World → Prop} (h : ∀ w, P w → Q () (f w)) : Ht P (PyM.modify f) Q E :=
  fun w hw => h w hw

/-! ### what a call changes -/

/-- only the dictionary `D` and the structures `S` differ, besides new objects -/
structure Frame (D : Nat) (S : Nat → Prop) (w0 w : World) : Prop where
  dlen : w0.dicts.length ≤ w.dicts.length
  dict : ∀ k, k ≠ D → w.dict k = w0.dict k
  slen : w0.structs.length ≤ w.structs.length
  structs : ∀ r, r < w0.structs.length → ¬ S r → w.structs[r]? = w0.structs[r]?
  refs : ∀ n r, (w.dict D).get? n = some (.struct r) → r < w.structs.length

/-- the structures in `D` are among `S` or new -/
def Within (D : Nat) (S : Nat → Prop) (w0 w : World) : Prop :=
  ∀ r, InData w D r → S r ∨ w0.structs.length ≤ r

/-- the entries with these names are on the device -/
def OnFor (L : List String) (D : Nat) (d : Dev) (w : World) : Prop :=
  ∀ n ∈ L, ∀ v, (w.dict D).get? n = some v → OnDevice w d v

theorem dict_setEntry (w : World) (D k : Nat) (x : Dict String Val) (hD : D < w.dicts.length) :
    World.dict { w with dicts := w.dicts.set D x } k = if k = D then x else w.dict k := by
  unfold World.dict
  simp only [List.getD_eq_getElem?_getD, List.getElem?_set]
  by_cases h : k = D
  · subst h; simp [hD]
  · rw [if_neg (fun e => h e.symm), if_neg h]

theorem onDevice_move {w : World} {d : Dev} {v : Val} (r : Nat) (h : OnDevice w d v) :
    OnDevice { w with structs := w.structs.set r d } d v := by
  cases v with
  | tensor id d' => exact h
  | other id => exact h
  | struct r' =>
    show (w.structs.set r d)[r']? = some d
    have h' : w.structs[r']? = some d := h
    rw [List.getElem?_set]
    split
    · next e =>
      subst e
      rw [if_pos]
      by_contra hc
      rw [List.getElem?_eq_none (by omega)] at h'
      cases h'
    · exact h'

theorem onDevice_new {w w' : World} {d : Dev} {v : Val} {l : List Dev} (hs : w'.structs = w.structs ++ l)
    (h : OnDevice w d v) : OnDevice w' d v := by
  cases v with
  | tensor id d' => exact h
  | other id => exact h
  | struct r' =>
    show w'.structs[r']? = some d
    have h' : w.structs[r']? = some d := h
    rw [hs, List.getElem?_append_left, h']
    by_contra hc
    rw [List.getElem?_eq_none (by omega)] at h'
    cases h'

/-! ### the loop of `to` -/

/-- what holds during the loop of `to`, after the names `L`; `C` is what an entry without `to` would mean, and `V` are
things known to be on the device -/
structure LoopInv (D : Nat) (d : Dev) (S : Nat → Prop) (w0 : World) (T : List Task) (C : Prop) (V : Val → Prop)
    (L : List String) (w : World) : Prop where
  hD : D < w.dicts.length
  frame : Frame D S w0 w
  within : Within D S w0 w
  on : OnFor L D d w
  tasks : w.tasks = T
  others : ∀ n ∈ vars, ∀ x, (w.dict D).get? n = some (.other x) → C
  known : ∀ v, V v → OnDevice w d v

theorem moveEntry_ht {D : Nat} {d : Dev} {S : Nat → Prop} {w0 : World} {T : List Task} {C : Prop} {V : Val → Prop} (k : String) (hk : k ∈ vars) (L : List String) :
    Ht (LoopInv D d S w0 T C V L)
      (moveEntry D d k)
      (fun _ w => LoopInv D d S w0 T C V (k :: L) w)
      (fun e w => e = .attribute ∧ Frame D S w0 w ∧ w.tasks = T ∧ C) := by
  rintro w ⟨hD, hF, hW, hO, hT, hC, hV⟩
  unfold moveEntry
  cases hv : (w.dict D).get? k with
  | none =>
    refine ⟨hD, hF, hW, fun n hn v h => ?_, hT, hC, hV⟩
    rcases List.mem_cons.1 hn with rfl | hn
    · rw [hv] at h; cases h
    · exact hO n hn v h
  | some v =>
    cases v with
    | other x => exact ⟨rfl, hF, hT, hC k hk x hv⟩
    | tensor id d0 =>
      have hdk := fun k' => dict_setEntry w D k' ((w.dict D).set k (.tensor id d)) hD
      show LoopInv D d S w0 T C V (k :: L)
        { w with dicts := w.dicts.set D ((w.dict D).set k (.tensor id d)) }
      have hget : ∀ n, (World.dict { w with dicts := w.dicts.set D ((w.dict D).set k (.tensor id d)) } D).get? n =
          if k = n then some (.tensor id d) else (w.dict D).get? n := by
        intro n
        rw [hdk, if_pos rfl, Dict.get?_set]
      refine ⟨by simpa using hD, ⟨by simpa using hF.dlen, fun k' hk' => ?_, hF.slen, hF.structs, fun n r h => ?_⟩,
        fun r h => ?_, fun n hn v h => ?_, hT, fun n hn x h => ?_, hV⟩
      · rw [hdk, if_neg hk']; exact hF.dict k' hk'
      · rw [hget] at h
        split at h
        · cases h
        · exact hF.refs n r h
      · obtain ⟨n, hn, h⟩ := h
        rw [hget] at h
        split at h
        · cases h
        · exact hW r ⟨n, hn, h⟩
      · rw [hget] at h
        split at h
        · cases h; exact rfl
        · next hne =>
          rcases List.mem_cons.1 hn with rfl | hn
          · exact absurd rfl hne
          · exact hO n hn v h
      · rw [hget] at h
        split at h
        · cases h
        · exact hC n hn x h
    | struct r =>
      have hr := hF.refs k r hv
      show LoopInv D d S w0 T C V (k :: L)
        { { w with structs := w.structs.set r d } with dicts := w.dicts.set D ((w.dict D).set k (.struct r)) }
      have hdk := fun k' => dict_setEntry { w with structs := w.structs.set r d } D k' ((w.dict D).set k (.struct r)) hD
      have hget : ∀ n, (World.dict { { w with structs := w.structs.set r d } with
            dicts := w.dicts.set D ((w.dict D).set k (.struct r)) } D).get? n = (w.dict D).get? n := by
        intro n
        rw [hdk, if_pos rfl, Dict.get?_set]
        split
        · next e => rw [← e, hv]
        · rfl
      refine ⟨by simpa using hD, ⟨by simpa using hF.dlen, fun k' hk' => ?_, by simpa using hF.slen, fun r' hr' hS => ?_,
        fun n r' h => ?_⟩, fun r' h => ?_, fun n hn v h => ?_, hT, fun n hn x h => ?_, fun v hv' => onDevice_move (w := w) r (hV v hv')⟩
      · rw [hdk, if_neg hk']; exact hF.dict k' hk'
      · show (w.structs.set r d)[r']? = _
        rw [List.getElem?_set, if_neg]
        · exact hF.structs r' hr' hS
        · rintro rfl
          rcases hW r ⟨k, hk, hv⟩ with h | h
          · exact hS h
          · omega
      · rw [hget] at h
        simpa using hF.refs n r' h
      · obtain ⟨n, hn, h⟩ := h
        rw [hget] at h
        exact hW r' ⟨n, hn, h⟩
      · rw [hget] at h
        rcases List.mem_cons.1 hn with rfl | hn
        · rw [hv] at h; cases h
          show (w.structs.set r d)[r]? = some d
          rw [List.getElem?_set, if_pos rfl, if_pos hr]
        · exact onDevice_move (w := w) r (hO n hn v h)
      · rw [hget] at h
        exact hC n hn x h

theorem moveAll_ht {D : Nat} {d : Dev} {S : Nat → Prop} {w0 : World} {T : List Task} {C : Prop} {V : Val → Prop} : ∀ (ks : List String) (L : List String),
    (∀ k ∈ ks, k ∈ vars) →
    Ht (LoopInv D d S w0 T C V L)
      (moveAll ks D d)
      (fun _ w => LoopInv D d S w0 T C V (ks ++ L) w)
      (fun e w => e = .attribute ∧ Frame D S w0 w ∧ w.tasks = T ∧ C)
  | [], L, _ => fun w hw => hw
  | k :: ks, L, hks => by
    refine Ht.bind (moveEntry_ht k (hks k List.mem_cons_self) L) fun _ => ?_
    refine (moveAll_ht ks (k :: L) fun k' h => hks k' (List.mem_cons_of_mem _ h)).post fun _ w ⟨h1, h2, h3, h4, h5, h6, h7⟩ => ?_
    refine ⟨h1, h2, h3, fun n hn => h4 n ?_, h5, h6, h7⟩
    simp only [List.mem_append, List.mem_cons] at hn ⊢
    tauto

/-! ### the invariant -/

structure Inv (w : World) : Prop where
  refs : ∀ D n r, (w.dict D).get? n = some (.struct r) → r < w.structs.length
  data : ∀ (i : Nat) t, w.tasks[i]? = some t → t.data < w.dicts.length
  ready : ∀ (i : Nat) t, w.tasks[i]? = some t → DataReady w t
  best : ∀ (i : Nat) t, w.tasks[i]? = some t → ∀ r, t.best = some r → w.structs[r]? = some t.device
  apart : ∀ (i j : Nat) t u, i ≠ j → w.tasks[i]? = some t → w.tasks[j]? = some u →
    t.data ≠ u.data ∧ ∀ r, HoldsStruct w t r → ¬ HoldsStruct w u r

theorem lt_of_get {α : Type} {l : List α} {r : Nat} {d : α} (h : l[r]? = some d) : r < l.length := by
  by_contra hc
  rw [List.getElem?_eq_none (by omega)] at h
  cases h

theorem Inv.holds_lt {w : World} (h : Inv w) {i : Nat} {t : Task} (ht : w.tasks[i]? = some t) {r : Nat}
    (hr : HoldsStruct w t r) : r < w.structs.length := by
  rcases hr with ⟨n, _, hn⟩ | hr
  · exact h.refs _ _ _ hn
  · exact lt_of_get (h.best i t ht r hr)

/-- one task, or none, is touched; the others have nothing to do with what changes -/
theorem inv_of {D : Nat} {S : Nat → Prop} {w0 w : World} (h0 : Inv w0) (hF : Frame D S w0 w) (i0 : Nat)
    (hrest : ∀ i t, i ≠ i0 → w.tasks[i]? = some t →
      w0.tasks[i]? = some t ∧ t.data ≠ D ∧ ∀ r, HoldsStruct w0 t r → ¬ S r)
    (hi0 : ∀ t, w.tasks[i0]? = some t →
      (w0.tasks[i0]? = some t ∧ t.data ≠ D ∧ ∀ r, HoldsStruct w0 t r → ¬ S r) ∨
      (t.data = D ∧ D < w.dicts.length ∧ OnFor vars D t.device w ∧ Within D S w0 w ∧
        ∀ r, t.best = some r → w.structs[r]? = some t.device ∧ (S r ∨ w0.structs.length ≤ r))) : Inv w := by
  -- tasks that are not touched
  have hsame : ∀ (i : Nat) t, w0.tasks[i]? = some t → t.data ≠ D → (∀ r, HoldsStruct w0 t r → ¬ S r) →
      (∀ r, HoldsStruct w t r → HoldsStruct w0 t r) ∧ DataReady w t ∧
        ∀ r, t.best = some r → w.structs[r]? = some t.device := by
    intro i t ht hd hS
    have hdict := hF.dict _ hd
    have hst : ∀ r, HoldsStruct w0 t r → w.structs[r]? = w0.structs[r]? := fun r hr =>
      hF.structs r (h0.holds_lt ht hr) (hS r hr)
    refine ⟨fun r hr => ?_, fun n hn v hv => ?_, fun r hr => ?_⟩
    · rcases hr with ⟨n, hn, h⟩ | hr
      · rw [hdict] at h; exact .inl ⟨n, hn, h⟩
      · exact .inr hr
    · rw [hdict] at hv
      have := h0.ready i t ht n hn v hv
      cases v with
      | tensor id d => exact this
      | other id => exact this
      | struct r =>
        show w.structs[r]? = some _
        rw [hst r (.inl ⟨n, hn, hv⟩)]
        exact this
    · rw [hst r (.inr hr)]
      exact h0.best i t ht r hr
  have hcase : ∀ (i : Nat) t, w.tasks[i]? = some t →
      (w0.tasks[i]? = some t ∧ t.data ≠ D ∧ ∀ r, HoldsStruct w0 t r → ¬ S r) ∨
      (i = i0 ∧ t.data = D ∧ D < w.dicts.length ∧ OnFor vars D t.device w ∧ Within D S w0 w ∧
        ∀ r, t.best = some r → w.structs[r]? = some t.device ∧ (S r ∨ w0.structs.length ≤ r)) := by
    intro i t ht
    by_cases hi : i = i0
    · subst hi
      rcases hi0 t ht with h | h
      · exact .inl h
      · exact .inr ⟨rfl, h⟩
    · exact .inl (hrest i t hi ht)
  refine ⟨fun D' n r h => ?_, fun i t ht => ?_, fun i t ht => ?_, fun i t ht => ?_, fun i j t u hij ht hu => ?_⟩
  · by_cases hD : D' = D
    · subst hD; exact hF.refs n r h
    · rw [hF.dict _ hD] at h
      exact lt_of_lt_of_le (h0.refs _ _ _ h) hF.slen
  · rcases hcase i t ht with ⟨h, _, _⟩ | ⟨_, h, h', _⟩
    · exact lt_of_lt_of_le (h0.data i t h) hF.dlen
    · rw [h]; exact h'
  · rcases hcase i t ht with ⟨h, h1, h2⟩ | ⟨_, h, _, h', _⟩
    · exact (hsame i t h h1 h2).2.1
    · intro n hn v hv
      rw [h] at hv
      exact h' n hn v hv
  · rcases hcase i t ht with ⟨h, h1, h2⟩ | ⟨_, _, _, _, _, h⟩
    · exact (hsame i t h h1 h2).2.2
    · exact fun r hr => (h r hr).1
  · have hbad : ∀ (a b : Nat) (t u : Task), (w0.tasks[a]? = some t ∧ t.data ≠ D ∧ ∀ r, HoldsStruct w0 t r → ¬ S r) →
        (u.data = D ∧ D < w.dicts.length ∧ OnFor vars D u.device w ∧ Within D S w0 w ∧
        ∀ r, u.best = some r → w.structs[r]? = some u.device ∧ (S r ∨ w0.structs.length ≤ r)) →
        t.data ≠ u.data ∧ ∀ r, HoldsStruct w t r → ¬ HoldsStruct w u r := by
      rintro a b t u ⟨ha, h1, h2⟩ ⟨hb, _, _, hW, hB⟩
      refine ⟨by rw [hb]; exact h1, fun r hr hu => ?_⟩
      have hr0 := (hsame a t ha h1 h2).1 r hr
      have hlt := h0.holds_lt ha hr0
      have : S r ∨ w0.structs.length ≤ r := by
        rcases hu with hu | hu
        · rw [hb] at hu; exact hW r hu
        · exact (hB r hu).2
      rcases this with h | h
      · exact h2 r hr0 h
      · omega
    rcases hcase i t ht with h | ⟨hi, h⟩
    · rcases hcase j u hu with h' | ⟨hj, h'⟩
      · obtain ⟨a1, a2⟩ := h0.apart i j t u hij h.1 h'.1
        exact ⟨a1, fun r hr hr' => a2 r ((hsame i t h.1 h.2.1 h.2.2).1 r hr) ((hsame j u h'.1 h'.2.1 h'.2.2).1 r hr')⟩
      · exact hbad i j t u h h'
    · rcases hcase j u hu with h' | ⟨hj, h'⟩
      · obtain ⟨a1, a2⟩ := hbad j i u t h' h
        exact ⟨fun e => a1 e.symm, fun r hr hr' => a2 r hr' hr⟩
      · exact absurd (hi.trans hj.symm) hij

/-- nothing changed yet -/
theorem Frame.refl {D : Nat} {S : Nat → Prop} {w : World} (h : Inv w) : Frame D S w w :=
  ⟨le_rfl, fun _ _ => rfl, le_rfl, fun _ _ _ => rfl, fun n r => h.refs D n r⟩

/-! ### calls that change nothing -/

/-- `m` changes nothing, does not complain about devices, and its value has `Q` -/
def RO (m : PyM World α) (w : World) (Q : α → Prop) : Prop :=
  ∃ r, m w = (r, w) ∧ r ≠ .error .runtime ∧ ∀ a, r = .ok a → Q a

theorem RO.bind {m : PyM World α} {f : α → PyM World β} {w : World} {Q : α → Prop} {R : β → Prop}
    (h1 : RO m w Q) (h2 : ∀ a, Q a → RO (f a) w R) : RO (m >>= f) w R := by
  obtain ⟨r, hr, hn, hq⟩ := h1
  rcases r with e | a
  · exact ⟨.error e, by rw [PyM.bind_apply, hr], fun h => hn (by cases h; rfl), fun a h => by cases h⟩
  · obtain ⟨r', h', hn', hq'⟩ := h2 a (hq a rfl)
    exact ⟨r', by rw [PyM.bind_apply, hr]; exact h', hn', hq'⟩

theorem RO.pure {a : α} {w : World} {Q : α → Prop} (h : Q a) : RO (Pure.pure a) w Q :=
  ⟨.ok a, rfl, by simp, fun a' h' => by cases h'; exact h⟩

theorem RO.raise {e : Err} {w : World} {Q : α → Prop} (h : e ≠ .runtime) : RO (PyM.raise e) w Q :=
  ⟨.error e, rfl, fun h' => h (by cases h'; rfl), fun a h' => by cases h'⟩

theorem RO.mono {m : PyM World α} {w : World} {Q R : α → Prop} (h : RO m w Q) (hq : ∀ a, Q a → R a) : RO m w R := by
  obtain ⟨r, h1, h2, h3⟩ := h
  exact ⟨r, h1, h2, fun a ha => hq a (h3 a ha)⟩

theorem RO.ht {m : PyM World α} {P : World → Prop} (h : ∀ w, P w → RO m w fun _ => True) :
    Ht P m (fun _ w => P w) (fun e w => e ≠ .runtime ∧ P w) := by
  intro w hw
  obtain ⟨r, h1, h2, _⟩ := h w hw
  rw [h1]
  rcases r with e | a
  · exact ⟨fun he => h2 (by rw [he]), hw⟩
  · exact hw

variable {fwd : Fwd} {d : Dev} {w : World} {D : Nat}

theorem ro_entry_any (k : String) : RO (entry D k) w (fun v => (w.dict D).get? k = some v) := by
  unfold entry
  cases h : (w.dict D).get? k with
  | none => exact ⟨.error .key, by simp [h], by simp, fun a h => by cases h⟩
  | some v => exact ⟨.ok v, by simp [h], by simp, fun a h' => by cases h'; rfl⟩

theorem ro_entry (h : OnFor vars D d w) {k : String} (hk : k ∈ vars) : RO (entry D k) w (OnDevice w d) :=
  (ro_entry_any k).mono fun v hv => h k hk v hv

theorem ro_devOf {v : Val} (h : OnDevice w d v) : RO (devOf v) w (· = d) := by
  cases v with
  | tensor id d' => exact .pure h
  | other id => exact h.elim
  | struct r =>
    have h' : w.structs[r]? = some d := h
    exact ⟨.ok d, by unfold devOf; simp [h'], by simp, fun a ha => by cases ha; rfl⟩

theorem ro_call (hf : WorksOnOneDevice fwd) {f s : Val} (h1 : OnDevice w d f) (h2 : OnDevice w d s) :
    RO (callModel fwd d f s) w (· = d) := by
  unfold callModel
  refine (ro_devOf h1).bind fun df hdf => (ro_devOf h2).bind fun ds hds => ?_
  rw [hdf, hds]
  refine RO.bind (Q := fun r => r = (d, d)) ⟨.ok (d, d), by rw [PyM.lift_apply, hf], by simp, fun a h => by cases h; rfl⟩
    fun r hr => ?_
  subst hr
  cases s with
  | struct r =>
    have h' : w.structs[r]? = some d := h2
    have hset : w.structs.set r d = w.structs := by
      apply List.ext_getElem?
      intro j
      rw [List.getElem?_set]
      split
      · next e => subst e; rw [if_pos (lt_of_get h'), h']
      · rfl
    refine ⟨.ok d, ?_, by simp, fun a h => by cases h; rfl⟩
    show (Except.ok d, ({ w with structs := w.structs.set r d } : World)) = _
    rw [hset]
  | tensor id d' => exact .pure rfl
  | other id => exact .pure rfl

theorem ro_pick {x k : Dev} (h1 : x = d) (h2 : k = d) : RO (TaskDev.pick x k) w (· = d) := by
  unfold TaskDev.pick
  rw [if_pos (.inr (h2.trans h1.symm))]
  exact .pure h1

theorem ro_train (hf : WorksOnOneDevice fwd) (h : OnFor vars D d w) : RO (train fwd D d) w fun _ => True := by
  refine (ro_entry h (by decide)).bind fun f hff => (ro_entry h (by decide)).bind fun s hs =>
    (ro_entry h (by decide)).bind fun mask hm => (ro_entry h (by decide)).bind fun l hl =>
    (ro_call hf hff hs).bind fun o ho => (ro_devOf hm).bind fun k hk => (ro_devOf hl).bind fun dl hdl =>
    (ro_pick ho hk).bind fun a ha => (ro_pick hdl hk).bind fun b hb => ?_
  unfold join
  rw [if_pos (ha.trans hb.symm)]
  exact .pure trivial

theorem ro_validate (hf : WorksOnOneDevice fwd) (h : OnFor vars D d w) : RO (validate fwd D d) w fun _ => True :=
  (ro_entry h (by decide)).bind fun _ hff => (ro_entry h (by decide)).bind fun _ hs =>
    (ro_entry h (by decide)).bind fun _ hm => (ro_entry h (by decide)).bind fun _ hl =>
    (ro_call hf hff hs).bind fun _ ho => (ro_devOf hm).bind fun _ hk => (ro_devOf hl).bind fun _ hdl =>
    (ro_pick hdl hk).bind fun _ _ => (ro_pick ho hk).bind fun _ _ => .pure trivial

theorem ro_epochs (hf : WorksOnOneDevice fwd) (h : OnFor vars D d w) : ∀ n, RO (epochs fwd D d n) w fun _ => True
  | 0 => .pure trivial
  | n + 1 => (ro_train hf h).bind fun _ _ => (ro_validate hf h).bind fun _ _ => ro_epochs hf h n

theorem ro_finish (hf : WorksOnOneDevice fwd) {f s mask l : Val} (h1 : OnDevice w d f) (h2 : OnDevice w d s)
    (h3 : OnDevice w d mask) (h4 : OnDevice w d l) : RO (finish fwd d f s mask l) w fun _ => True :=
  (ro_call hf h1 h2).bind fun _ ho => (ro_devOf h3).bind fun _ hk => (ro_devOf h4).bind fun _ hdl =>
    (ro_pick hdl hk).bind fun _ _ => (ro_pick ho hk).bind fun _ _ => .pure trivial

theorem ro_testOwn (hf : WorksOnOneDevice fwd) {i : Nat} {t : Task} (ht : w.tasks[i]? = some t)
    (h : OnFor vars t.data t.device w) (hb : ∀ r, t.best = some r → w.structs[r]? = some t.device) :
    RO (testOwn fwd i) w fun _ => True := by
  unfold testOwn
  refine RO.bind (Q := fun t' => t' = t) ⟨.ok t, by unfold theTask; simp [ht], by simp, fun a h => by cases h; rfl⟩ fun t' e => ?_
  subst e
  refine (ro_entry h (by decide)).bind fun f hff => ?_
  cases hbt : t'.best with
  | none => exact .raise (by decide)
  | some r =>
    exact (ro_entry h (by decide)).bind fun mask hm => (ro_entry h (by decide)).bind fun l hl =>
      ro_finish hf hff (hb r hbt) hm hl

/-! ### a run -/

/-- what holds during a run of a task with the data `D` on the device `d` -/
structure J (D : Nat) (d : Dev) (S : Nat → Prop) (w0 w : World) : Prop where
  hD : D < w.dicts.length
  frame : Frame D S w0 w
  within : Within D S w0 w
  on : OnFor vars D d w
  held : ∀ r, S r → w.structs[r]? = some d
  tasks : w.tasks = w0.tasks

variable {S : Nat → Prop} {w0 : World}

/-- the structure added last -/
theorem set_last (l : List Dev) (x y : Dev) : (l ++ [x]).set l.length y = l ++ [y] := by
  rw [List.set_append_right _ _ le_rfl]; simp

theorem Frame.grow (h : Frame D S w0 w) (x : Dev) {T : List Task} :
    Frame D S w0 { w with structs := w.structs ++ [x], tasks := T } :=
  ⟨h.dlen, h.dict, by simpa using Nat.le_succ_of_le h.slen, fun r hr hS => by
    show (w.structs ++ [x])[r]? = _
    rw [List.getElem?_append_left (lt_of_lt_of_le hr h.slen)]
    exact h.structs r hr hS, fun n r hr => by
    have := h.refs n r hr
    show r < (w.structs ++ [x]).length
    rw [List.length_append]
    omega⟩

theorem rebuild_ht (on : Dev) {E : Err → World → Prop} : Ht (J D d S w0) (rebuild D d on) (fun _ w => J D d S w0 w) E := by
  intro w hw
  show J D d S w0 { { w with structs := (w.structs ++ [on]).set w.structs.length d } with
    dicts := w.dicts.set D ((w.dict D).set "structure" (.struct w.structs.length)) }
  rw [set_last]
  have hdk := fun k' => dict_setEntry { w with structs := w.structs ++ [d] } D k'
    ((w.dict D).set "structure" (.struct w.structs.length)) hw.hD
  have hget : ∀ n, (World.dict { { w with structs := w.structs ++ [d] } with
        dicts := w.dicts.set D ((w.dict D).set "structure" (.struct w.structs.length)) } D).get? n =
      if "structure" = n then some (.struct w.structs.length) else (w.dict D).get? n := by
    intro n
    rw [hdk, if_pos rfl, Dict.get?_set]
  have hg := hw.frame.grow d (T := w.tasks)
  refine ⟨by simpa using hw.hD, ⟨by simpa using hg.dlen, fun k hk => ?_, hg.slen, hg.structs, fun n r h => ?_⟩,
    fun r h => ?_, fun n hn v h => ?_, fun r hr => ?_, hw.tasks⟩
  · rw [hdk, if_neg hk]; exact hw.frame.dict k hk
  · rw [hget] at h
    split at h
    · cases h; simp
    · exact hg.refs n r h
  · obtain ⟨n, hn, h⟩ := h
    rw [hget] at h
    split at h
    · cases h; exact .inr hw.frame.slen
    · exact hw.within r ⟨n, hn, h⟩
  · rw [hget] at h
    split at h
    · cases h
      show (w.structs ++ [d])[w.structs.length]? = some d
      simp
    · exact onDevice_new (w := w) rfl (hw.on n hn v h)
  · exact onDevice_new (w := w) (v := .struct r) rfl (hw.held r hr)

theorem experiment_ht (hf : WorksOnOneDevice fwd) {t : Task} (x : Trial) :
    Ht (J t.data t.device S w0) (experiment fwd t x) (fun _ w => J t.data t.device S w0 w)
      (fun e w => e ≠ .runtime ∧ J t.data t.device S w0 w) := by
  unfold experiment
  refine Ht.bind (Q := fun _ w => J t.data t.device S w0 w) ?_ fun _ => ?_
  · split
    · exact rebuild_ht _
    · exact .pure fun _ h => h
  · refine Ht.bind (RO.ht fun w hw => ro_epochs hf hw.on _) fun _ => ?_
    split
    · exact .pure fun _ h => h
    · split
      · refine Ht.bind (RO.ht fun w hw => (ro_entry_any _).mono fun _ _ => trivial) fun s => ?_
        cases s with
        | struct r => exact .pure fun _ h => h
        | tensor id d => exact .raise fun _ h => ⟨by decide, h⟩
        | other id => exact .raise fun _ h => ⟨by decide, h⟩
      · exact .raise fun _ h => ⟨by decide, h⟩

theorem trials_ht (hf : WorksOnOneDevice fwd) {t : Task} : ∀ xs : List Trial,
    Ht (J t.data t.device S w0) (trials fwd t xs) (fun _ w => J t.data t.device S w0 w)
      (fun e w => e ≠ .runtime ∧ J t.data t.device S w0 w)
  | [] => .pure fun _ h => h
  | x :: xs => Ht.bind (experiment_ht hf x) fun _ => Ht.bind (trials_ht hf xs) fun _ => .pure fun _ h => h

/-- the beginning of a call of a task -/
theorem J.init (h : Inv w) {i : Nat} {t : Task} (ht : w.tasks[i]? = some t) :
    J t.data t.device (HoldsStruct w t) w w :=
  ⟨h.data i t ht, Frame.refl h, fun _ hr => .inl (.inl hr), fun n hn v hv => h.ready i t ht n hn v hv,
    fun r hr => by
      rcases hr with ⟨n, hn, hr⟩ | hr
      · exact h.ready i t ht n hn _ hr
      · exact h.best i t ht r hr, rfl⟩

/-- the end of a call of a task that leaves the tasks as they are -/
theorem J.inv (h0 : Inv w0) {i : Nat} {t : Task} (ht : w0.tasks[i]? = some t)
    (hJ : J t.data t.device (HoldsStruct w0 t) w0 w) : Inv w := by
  refine inv_of h0 hJ.frame i (fun j u hj hu => ?_) fun u hu => ?_
  · rw [hJ.tasks] at hu
    obtain ⟨a, b⟩ := h0.apart i j t u (fun e => hj e.symm) ht hu
    exact ⟨hu, fun e => a e.symm, fun r hr hr' => b r hr' hr⟩
  · rw [hJ.tasks, ht] at hu
    cases hu
    exact .inr ⟨rfl, hJ.hD, hJ.on, hJ.within, fun r hr => ⟨hJ.held r (.inr hr), .inl (.inr hr)⟩⟩

theorem run_step (hf : WorksOnOneDevice fwd) (h0 : Inv w0) (i : Nat) (xs : List Trial) :
    Inv (run fwd i xs w0).2 ∧ (run fwd i xs w0).1 ≠ .error .runtime := by
  unfold run
  cases ht : w0.tasks[i]? with
  | none =>
    have : theTask i w0 = (.error .name, w0) := by unfold theTask; rw [ht]
    rw [PyM.bind_apply, this]
    exact ⟨h0, by simp⟩
  | some t =>
    have : theTask i w0 = (.ok t, w0) := by unfold theTask; rw [ht]
    rw [PyM.bind_apply, this]
    simp only
    have hJ := trials_ht hf (t := t) (S := HoldsStruct w0 t) (w0 := w0) xs w0 (J.init h0 ht)
    rw [PyM.bind_apply]
    rcases htr : trials fwd t xs w0 with ⟨e | a, w1⟩
    · rw [htr] at hJ
      exact ⟨hJ.2.inv h0 ht, fun h => hJ.1 (by cases h; rfl)⟩
    · rw [htr] at hJ
      simp only at hJ ⊢
      cases a with
      | false => exact ⟨hJ.inv h0 ht, by simp⟩
      | true =>
        simp only [if_true]
        show Inv (testOwn fwd i { w1 with
            structs := (w1.structs ++ [cpu]).set w1.structs.length t.device
            tasks := w1.tasks.set i { t with best := some w1.structs.length } }).2 ∧
          (testOwn fwd i { w1 with
            structs := (w1.structs ++ [cpu]).set w1.structs.length t.device
            tasks := w1.tasks.set i { t with best := some w1.structs.length } }).1 ≠ _
        rw [set_last]
        have hi : i < w1.tasks.length := by rw [hJ.tasks]; exact lt_of_get ht
        have hon : OnFor vars t.data t.device { w1 with
            structs := w1.structs ++ [t.device]
            tasks := w1.tasks.set i { t with best := some w1.structs.length } } :=
          fun n hn v hv => onDevice_new (w := w1) rfl (hJ.on n hn v hv)
        have hbest : (w1.structs ++ [t.device])[w1.structs.length]? = some t.device := by simp
        have hti : (w1.tasks.set i { t with best := some w1.structs.length })[i]? =
            some { t with best := some w1.structs.length } := by
          rw [List.getElem?_set, if_pos rfl, if_pos hi]
        obtain ⟨r, hr, hn, _⟩ := ro_testOwn (fwd := fwd) hf (w := { w1 with
            structs := w1.structs ++ [t.device]
            tasks := w1.tasks.set i { t with best := some w1.structs.length } }) hti hon
          (fun r hr => by cases hr; exact hbest)
        rw [hr]
        refine ⟨?_, hn⟩
        refine inv_of h0 (hJ.frame.grow t.device) i (fun j u hj hu => ?_) fun u hu => ?_
        · have hu' : (w1.tasks.set i { t with best := some w1.structs.length })[j]? = some u := hu
          rw [List.getElem?_set, if_neg (fun e => hj e.symm), hJ.tasks] at hu'
          obtain ⟨a, b⟩ := h0.apart i j t u (fun e => hj e.symm) ht hu'
          exact ⟨hu', fun e => a e.symm, fun r hr hr' => b r hr' hr⟩
        · have hu' : (w1.tasks.set i { t with best := some w1.structs.length })[i]? = some u := hu
          rw [hti] at hu'
          cases hu'
          exact .inr ⟨rfl, hJ.hD, hon, hJ.within, fun r hr => by
            cases hr; exact ⟨hbest, .inr hJ.frame.slen⟩⟩

/-! ### moving -/

theorem task_step (h0 : Inv w0) {D : Nat} {d : Dev} {b : Bool} (hs : Separate w0 (.task D d b)) :
    Inv (newTask D d b w0).2 ∧ (newTask D d b w0).1 ≠ .error .runtime := by
  obtain ⟨hD, hfree, hst⟩ := hs
  have h := moveAll_ht (D := D) (d := d) (S := InData w0 D) (w0 := w0) (T := w0.tasks) (C := True) (V := fun _ => False)
    vars [] (fun _ h => h) w0
    ⟨hD, Frame.refl h0, fun _ hr => .inl hr, (fun _ h => by cases h), rfl, fun _ _ _ _ => trivial, fun _ h => h.elim⟩
  unfold newTask
  rw [PyM.bind_apply]
  have hrest : ∀ (i : Nat) t, w0.tasks[i]? = some t → t.data ≠ D ∧ ∀ r, HoldsStruct w0 t r → ¬ InData w0 D r := by
    intro i t ht
    have hm : t ∈ w0.tasks := List.mem_of_getElem? ht
    exact ⟨hfree t hm, fun r hr hr' => hst r hr' t hm hr⟩
  rcases hm : moveAll vars D d w0 with ⟨e | _, w1⟩
  · rw [hm] at h
    obtain ⟨he, hF, hT, _⟩ := h
    refine ⟨inv_of h0 hF 0 (fun i t _ ht => ?_) fun t ht => .inl ?_, fun h => by rw [he] at h; cases h⟩
    · rw [hT] at ht; exact ⟨ht, hrest i t ht⟩
    · rw [hT] at ht; exact ⟨ht, hrest 0 t ht⟩
  · rw [hm] at h
    obtain ⟨h1, hF, hW, hO, hT, _, _⟩ := h
    rw [List.append_nil] at hO
    refine ⟨inv_of h0 (w := { w1 with tasks := w1.tasks ++ [{ data := D, device := d, builder := b, best := none }] })
      ⟨hF.dlen, hF.dict, hF.slen, hF.structs, hF.refs⟩ w0.tasks.length (fun i t hi ht => ?_) fun t ht => .inr ?_,
      by simp⟩
    · have ht' : (w1.tasks ++ [{ data := D, device := d, builder := b, best := none }])[i]? = some t := ht
      rw [hT] at ht'
      have hlt := lt_of_get ht'
      rw [List.length_append, List.length_singleton] at hlt
      rw [List.getElem?_append_left (by omega)] at ht'
      exact ⟨ht', hrest i t ht'⟩
    · have ht' : (w1.tasks ++ [{ data := D, device := d, builder := b, best := none }])[w0.tasks.length]? = some t := ht
      rw [hT] at ht'
      simp only [List.getElem?_append_right le_rfl, Nat.sub_self, List.getElem?_cons_zero, Option.some.injEq] at ht'
      subst ht'
      exact ⟨rfl, h1, hO, hW, fun r hr => by cases hr⟩

theorem to_step (h0 : Inv w0) {i : Nat} {d : Dev} (hs : Separate w0 (.to i d)) :
    Inv (toTask i d w0).2 ∧ (toTask i d w0).1 ≠ .error .runtime := by
  unfold toTask
  cases ht : w0.tasks[i]? with
  | none =>
    have : theTask i w0 = (.error .name, w0) := by unfold theTask; rw [ht]
    rw [PyM.bind_apply, this]
    exact ⟨h0, by simp⟩
  | some t =>
    have : theTask i w0 = (.ok t, w0) := by unfold theTask; rw [ht]
    rw [PyM.bind_apply, this]
    show Inv (moveAll vars t.data d { w0 with tasks := w0.tasks.set i { t with device := d } }).2 ∧
      (moveAll vars t.data d { w0 with tasks := w0.tasks.set i { t with device := d } }).1 ≠ _
    have hF0 : Frame t.data (HoldsStruct w0 t) w0 { w0 with tasks := w0.tasks.set i { t with device := d } } :=
      ⟨le_rfl, fun _ _ => rfl, le_rfl, fun _ _ _ => rfl, fun n r h => h0.refs _ _ _ h⟩
    have h := moveAll_ht (D := t.data) (d := d) (S := HoldsStruct w0 t) (w0 := w0)
      (T := w0.tasks.set i { t with device := d }) (C := False) (V := fun v => ∃ r, t.best = some r ∧ v = .struct r)
      vars [] (fun _ h => h)
      { w0 with tasks := w0.tasks.set i { t with device := d } }
      ⟨h0.data i t ht, hF0, fun _ hr => .inl (.inl hr), (fun _ h => by cases h), rfl,
        fun n hn x hx => (h0.ready i t ht n hn _ hx).elim, fun v ⟨r, hr, hv⟩ => by
          subst hv
          rcases hs t ht with h | h
          · rw [h] at hr; cases hr
          · rw [h]; exact h0.best i t ht r hr⟩
    rcases hm : moveAll vars t.data d { w0 with tasks := w0.tasks.set i { t with device := d } } with ⟨e | _, w1⟩
    · rw [hm] at h
      exact h.2.2.2.elim
    · rw [hm] at h
      obtain ⟨h1, hF, hW, hO, hT, _, hV⟩ := h
      rw [List.append_nil] at hO
      refine ⟨inv_of h0 hF i (fun j u hj hu => ?_) fun u hu => .inr ?_, by simp⟩
      · rw [hT, List.getElem?_set, if_neg (fun e => hj e.symm)] at hu
        obtain ⟨a, b⟩ := h0.apart i j t u (fun e => hj e.symm) ht hu
        exact ⟨hu, fun e => a e.symm, fun r hr hr' => b r hr' hr⟩
      · rw [hT, List.getElem?_set, if_pos rfl, if_pos (lt_of_get ht)] at hu
        cases hu
        exact ⟨rfl, h1, hO, hW, fun r hr => ⟨hV (.struct r) ⟨r, hr, rfl⟩, .inl (.inr hr)⟩⟩

/-! ### `test(data)` -/

/-- what holds while `test(data)` moves the entries: `L` are the values moved so far -/
structure K (S : Nat → Prop) (d : Dev) (w0 : World) (L : List Val) (w : World) : Prop where
  dicts : w.dicts = w0.dicts
  tasks : w.tasks = w0.tasks
  len : w.structs.length = w0.structs.length
  structs : ∀ r : Nat, w.structs[r]? = w0.structs[r]? ∨ (S r ∧ w.structs[r]? = some d)
  on : ∀ v ∈ L, OnDevice w d v

theorem move_ht (h0 : Inv w0) (k : String) (hk : k ∈ vars) (L : List Val) {R : β → World → Prop} {f : Val → PyM World β}
    (hf : ∀ v, Ht (K (InData w0 D) d w0 (v :: L)) (f v) R (fun e w => e ≠ .runtime ∧ K (InData w0 D) d w0 [] w)) :
    Ht (K (InData w0 D) d w0 L) (do let v ← entry D k; let v ← moveVal d v; f v) R
      (fun e w => e ≠ .runtime ∧ K (InData w0 D) d w0 [] w) := by
  intro w hw
  have hw' : K (InData w0 D) d w0 [] w := ⟨hw.dicts, hw.tasks, hw.len, hw.structs, fun _ h => by cases h⟩
  have hdict : w.dict D = w0.dict D := by unfold World.dict; rw [hw.dicts]
  rw [PyM.bind_apply]
  unfold entry
  cases hv : (w.dict D).get? k with
  | none => exact ⟨by decide, hw'⟩
  | some v =>
    rw [hdict] at hv
    cases v with
    | other x => exact ⟨by decide, hw'⟩
    | tensor id d0 =>
      exact hf (.tensor id d) w ⟨hw.dicts, hw.tasks, hw.len, hw.structs, fun v hv => by
        rcases List.mem_cons.1 hv with rfl | hv
        · exact rfl
        · exact hw.on v hv⟩
    | struct r =>
      have hr := h0.refs _ _ _ hv
      refine hf (.struct r) { w with structs := w.structs.set r d } ⟨hw.dicts, hw.tasks, by simpa using hw.len, fun r' => ?_,
        fun v hv => ?_⟩
      · show (w.structs.set r d)[r']? = _ ∨ _ ∧ (w.structs.set r d)[r']? = _
        rw [List.getElem?_set]
        split
        · next e =>
          subst e
          rw [if_pos (by rw [hw.len]; exact hr)]
          exact .inr ⟨⟨k, hk, hv⟩, rfl⟩
        · exact hw.structs r'
      · rcases List.mem_cons.1 hv with rfl | hv
        · show (w.structs.set r d)[r]? = some d
          rw [List.getElem?_set, if_pos rfl, if_pos (by rw [hw.len]; exact hr)]
        · exact onDevice_move (w := w) r (hw.on v hv)

theorem fin_ht (hf : WorksOnOneDevice fwd) {S : Nat → Prop} {f s mask l : Val} :
    Ht (K S d w0 [l, mask, s, f]) (finish fwd d f s mask l) (fun _ w => K S d w0 [] w)
      (fun e w => e ≠ .runtime ∧ K S d w0 [] w) := by
  intro w hw
  obtain ⟨r, h1, h2, _⟩ := ro_finish (fwd := fwd) hf (hw.on f (by simp)) (hw.on s (by simp))
    (hw.on mask (by simp)) (hw.on l (by simp))
  have hw' : K S d w0 [] w := ⟨hw.dicts, hw.tasks, hw.len, hw.structs, fun _ h => by cases h⟩
  rw [h1]
  rcases r with e | a
  · exact ⟨fun he => h2 (by rw [he]), hw'⟩
  · exact hw'

theorem testOn_step (hf : WorksOnOneDevice fwd) (h0 : Inv w0) {i D : Nat} (hs : Separate w0 (.testOn i D)) :
    Inv (testOn fwd i D w0).2 ∧ (testOn fwd i D w0).1 ≠ .error .runtime := by
  unfold testOn
  cases ht : w0.tasks[i]? with
  | none =>
    have : theTask i w0 = (.error .name, w0) := by unfold theTask; rw [ht]
    rw [PyM.bind_apply, this]
    exact ⟨h0, by simp⟩
  | some t =>
    have : theTask i w0 = (.ok t, w0) := by unfold theTask; rw [ht]
    rw [PyM.bind_apply, this]
    simp only
    have key := move_ht (β := Unit) (d := t.device) (D := D) h0 "features" (by decide) []
      (R := fun _ w => K (InData w0 D) t.device w0 [] w)
      (fun f => move_ht h0 "structure" (by decide) [f] fun s => move_ht h0 "test_mask" (by decide) [s, f] fun mask =>
        move_ht h0 "labels" (by decide) [mask, s, f] fun l => fin_ht hf)
    have hend : ∀ w, K (InData w0 D) t.device w0 [] w → Inv w := by
      intro w hw
      have hd : ∀ k, w.dict k = w0.dict k := fun k => by unfold World.dict; rw [hw.dicts]
      refine inv_of (D := t.data) (S := fun r => InData w0 D r ∨ HoldsStruct w0 t r) h0
        ⟨by rw [hw.dicts], fun k _ => hd k, by rw [hw.len], fun r _ hr => ?_, fun n r h => ?_⟩ i (fun j u hj hu => ?_) fun u hu => ?_
      · rcases hw.structs r with h | h
        · exact h
        · exact absurd (.inl h.1) hr
      · rw [hd] at h
        rw [hw.len]; exact h0.refs _ _ _ h
      · rw [hw.tasks] at hu
        obtain ⟨a, b⟩ := h0.apart i j t u (fun e => hj e.symm) ht hu
        refine ⟨hu, fun e => a e.symm, fun r hr hr' => ?_⟩
        rcases hr' with h | h
        · exact hs r h j u hj hu hr
        · exact b r h hr
      · rw [hw.tasks, ht] at hu
        cases hu
        have hst : ∀ r : Nat, w0.structs[r]? = some t.device → w.structs[r]? = some t.device := by
          intro r hr
          rcases hw.structs r with h | h
          · rw [h, hr]
          · exact h.2
        refine .inr ⟨rfl, by rw [hw.dicts]; exact h0.data i t ht, fun n hn v hv => ?_, fun r hr => ?_, fun r hr => ?_⟩
        · rw [hd] at hv
          have := h0.ready i t ht n hn v hv
          cases v with
          | tensor id d => exact this
          | other id => exact this
          | struct r => exact hst r this
        · obtain ⟨n, hn, h⟩ := hr
          rw [hd] at h
          exact .inl (.inr (.inl ⟨n, hn, h⟩))
        · exact ⟨hst r (h0.best i t ht r hr), .inl (.inr (.inr hr))⟩
    exact key.use (G := fun x => Inv x.2 ∧ x.1 ≠ .error .runtime)
      ⟨rfl, rfl, rfl, fun _ => .inl rfl, fun _ h => by cases h⟩ (fun a w h => ⟨hend w h, by simp⟩)
      (fun e w h => ⟨hend w h.2, fun h' => h.1 (by cases h'; rfl)⟩)

/-- every call keeps the invariant and complains about no device -/
theorem step (hf : WorksOnOneDevice fwd) (h0 : Inv w0) (o : Op) (hs : Separate w0 o) :
    Inv (TaskDev.apply fwd o w0).2 ∧ (TaskDev.apply fwd o w0).1 ≠ .error .runtime := by
  have hlen : ∀ (i : Nat) t, w0.tasks[i]? = some t → t.data ≠ w0.dicts.length := fun i t ht => by
    have := h0.data i t ht; omega
  cases o with
  | dict d =>
    have hdict : ∀ k, World.dict { w0 with dicts := w0.dicts ++ [d] } k = if k = w0.dicts.length then d else w0.dict k := by
      intro k
      unfold World.dict
      simp only [List.getD_eq_getElem?_getD]
      split
      · next e => subst e; simp
      · next e =>
        by_cases h : k < w0.dicts.length
        · rw [List.getElem?_append_left h]
        · rw [List.getElem?_eq_none (by rw [List.length_append, List.length_singleton]; omega), List.getElem?_eq_none (by omega)]
    refine ⟨inv_of (D := w0.dicts.length) (S := fun _ => False) (w := { w0 with dicts := w0.dicts ++ [d] }) h0
      ⟨by simp, fun k hk => by rw [hdict, if_neg hk], le_rfl, fun _ _ _ => rfl, fun n r h => ?_⟩ 0
      (fun i t _ ht => ⟨ht, hlen i t ht, fun _ _ h => h⟩) fun t ht => .inl ⟨ht, hlen 0 t ht, fun _ _ h => h⟩, by
        show (Except.ok () : Except Err Unit) ≠ _; simp⟩
    rw [hdict, if_pos rfl] at h
    exact hs n r h
  | struct d =>
    have hF : Frame w0.dicts.length (fun _ => False) w0 { w0 with structs := w0.structs ++ [d] } :=
      (Frame.refl h0).grow d
    exact ⟨inv_of h0 hF 0 (fun i t _ ht => ⟨ht, hlen i t ht, fun _ _ h => h⟩)
      fun t ht => .inl ⟨ht, hlen 0 t ht, fun _ _ h => h⟩, by show (Except.ok () : Except Err Unit) ≠ _; simp⟩
  | put D k v =>
    have hfree : ∀ (i : Nat) t, w0.tasks[i]? = some t → t.data ≠ D := fun i t ht => hs.1 t (List.mem_of_getElem? ht)
    refine ⟨inv_of (D := D) (S := fun _ => False) (w := { w0 with dicts := w0.dicts.set D ((w0.dict D).set k v) }) h0
      ⟨by simp, fun k' hk' => ?_, le_rfl, fun _ _ _ => rfl, fun n r h => ?_⟩ 0
      (fun i t _ ht => ⟨ht, hfree i t ht, fun _ _ h => h⟩) fun t ht => .inl ⟨ht, hfree 0 t ht, fun _ _ h => h⟩, by
        show (Except.ok () : Except Err Unit) ≠ _; simp⟩
    · by_cases hD : D < w0.dicts.length
      · rw [dict_setEntry _ _ _ _ hD, if_neg hk']
      · unfold World.dict
        rw [List.set_eq_of_length_le (by omega)]
    · by_cases hD : D < w0.dicts.length
      · rw [dict_setEntry _ _ _ _ hD, if_pos rfl, Dict.get?_set] at h
        split at h
        · exact hs.2 r (by simpa using h)
        · exact h0.refs _ _ _ h
      · unfold World.dict at h
        simp only [List.set_eq_of_length_le (Nat.le_of_not_lt hD)] at h
        exact h0.refs D n r h
  | move r d =>
    have hS : ∀ (i : Nat) t, w0.tasks[i]? = some t → ∀ r', HoldsStruct w0 t r' → ¬ r' = r := fun i t ht r' hr' e => by
      subst e; exact hs t (List.mem_of_getElem? ht) hr'
    refine ⟨inv_of (D := w0.dicts.length) (S := fun r' => r' = r) (w := { w0 with structs := w0.structs.set r d }) h0
      ⟨le_rfl, fun _ _ => rfl, by simp, fun r' _ hr' => ?_, fun n r' h => ?_⟩ 0
      (fun i t _ ht => ⟨ht, hlen i t ht, hS i t ht⟩) fun t ht => .inl ⟨ht, hlen 0 t ht, hS 0 t ht⟩, by
        show (Except.ok () : Except Err Unit) ≠ _; simp⟩
    · show (w0.structs.set r d)[r']? = _
      rw [List.getElem?_set, if_neg fun e => hr' e.symm]
    · simpa using h0.refs _ _ _ h
  | task D d b => exact task_step h0 hs
  | «to» i d => exact to_step h0 hs
  | run i xs => exact run_step hf h0 i xs
  | test i =>
    cases ht : w0.tasks[i]? with
    | none =>
      have h : theTask i w0 = (.error .name, w0) := by unfold theTask; rw [ht]
      have : testOwn fwd i w0 = (.error .name, w0) := by unfold testOwn; rw [PyM.bind_apply, h]
      show Inv (testOwn fwd i w0).2 ∧ (testOwn fwd i w0).1 ≠ _
      rw [this]
      exact ⟨h0, by simp⟩
    | some t =>
      obtain ⟨r, hr, hn, _⟩ := ro_testOwn (fwd := fwd) hf ht (fun n hn v hv => h0.ready i t ht n hn v hv) (h0.best i t ht)
      show Inv (testOwn fwd i w0).2 ∧ (testOwn fwd i w0).1 ≠ _
      rw [hr]
      exact ⟨h0, hn⟩
  | testOn i D => exact testOn_step hf h0 hs

theorem inv_program (hf : WorksOnOneDevice fwd) {w : World} (h : TaskProgram fwd Separate w) : Inv w := by
  induction h with
  | start =>
    refine ⟨fun D n r h => ?_, fun i t h => ?_, fun i t h => ?_, fun i t h => ?_, fun i j t u _ h => ?_⟩
    · have : World.dict start D = [] := by unfold World.dict start; simp
      rw [this] at h; cases h
    all_goals simp [start] at h
  | call o h hs ih => exact (step hf ih o hs).1

end TD
open Spec TD

variable {fwd : Fwd}

/-- C125. After any program that keeps the objects of tasks to the tasks, what a task has of features, structure, labels and
masks is on its device.  Missing: tasks that share data (`C125_shared_data_false`), entries that the caller assigns after making
the task, and moving a task after a run. -/
theorem C125_data_on_device_partial (hf : Spec.WorksOnOneDevice fwd) {w : World} (h : Spec.TaskProgram fwd Spec.Separate w) {i : Nat} {t : Task}
    (ht : w.tasks[i]? = some t) : Spec.DataReady w t := (inv_program hf h).ready i t ht

/-- C125. In such a program no call of a task, nor any other one, ever fails because tensors are on
different devices.  Missing: other programs, for which it is false (`C125_shared_data_false`). -/
theorem C125_no_mismatch_partial (hf : Spec.WorksOnOneDevice fwd) {w : World} (h : Spec.TaskProgram fwd Spec.Separate w) (o : Op)
    (hs : Spec.Separate w o) : (TaskDev.apply fwd o w).1 ≠ .error .runtime := (step hf (inv_program hf h) o hs).2

/-- a model that needs its parameters and the features on one device, and moves the structure there -/
def exFwd : Fwd := fun m f _ => if m = f then .ok (m, m) else .error .runtime

theorem exFwd_works : Spec.WorksOnOneDevice exFwd := fun d => by simp [exFwd]

/-- data with all six entries on the CPU -/
def exData : Dict String Val :=
  [("features", .tensor 10 0), ("structure", .struct 0), ("labels", .tensor 11 0), ("train_mask", .tensor 12 0),
   ("val_mask", .tensor 13 0), ("test_mask", .tensor 14 0), ("name", .other 15)]

/-- a structure and a dictionary -/
def exW0 : World := (TaskDev.apply exFwd (.dict exData) (TaskDev.apply exFwd (.struct 0) TaskDev.start).2).2
/-- and a task for it on the device 1 -/
def exW1 : World := (TaskDev.apply exFwd (.task 0 1 false) exW0).2
/-- and a second task for the same data, on the device 2 -/
def exW2 : World := (TaskDev.apply exFwd (.task 0 2 false) exW1).2

theorem exData_refs (n : String) (r : Nat) (h : exData.get? n = some (.struct r)) : r = 0 := by
  unfold exData at h
  simp only [Dict.get?] at h
  repeat' split at h
  all_goals first
    | cases h; rfl
    | cases h

/-- C125 is false for tasks that share their data: after a second task is made for the same dictionary on another device,
running the first one fails, which worked before. -/
theorem C125_shared_data_false :
    ¬ ∀ (fwd : Fwd), Spec.WorksOnOneDevice fwd → ∀ w, Spec.TaskProgram fwd Spec.RefsExist w → ∀ o, Spec.RefsExist w o →
      (TaskDev.apply fwd o w).1 ≠ .error .runtime := by
  intro h
  have h0 : Spec.TaskProgram exFwd Spec.RefsExist exW0 :=
    .call _ (.call _ .start trivial) fun n r hr => by rw [exData_refs n r hr]; decide
  have h2 : Spec.TaskProgram exFwd Spec.RefsExist exW2 := .call _ (.call _ h0 Nat.zero_lt_one) Nat.zero_lt_one
  exact h exFwd exFwd_works exW2 h2 (.run 0 [⟨0, 1, false, true⟩]) (show 0 < 2 by decide) (by decide +kernel)

/-- the first task alone runs -/
example : (TaskDev.apply exFwd (.run 0 [⟨0, 1, false, true⟩]) exW1).1 = .ok () := by decide +kernel

example : Spec.WorksOnOneDevice exFwd ∧ Spec.TaskProgram exFwd Spec.Separate exW1 ∧
    exW1.tasks[0]? = some ⟨0, 1, false, none⟩ ∧ Spec.Separate exW1 (.run 0 [⟨0, 1, false, true⟩]) := by
  refine ⟨exFwd_works, .call _ (.call _ (.call _ .start trivial) fun n r hr => ?_) ⟨by decide, ?_, ?_⟩, by decide +kernel, trivial⟩
  · rw [exData_refs n r hr]; decide
  · intro t ht; cases ht
  · intro r _ t ht; cases ht

/-! ### C126 -/

namespace TD

theorem contents_set {l : Dict String Val} {k : String} {v v' : Val} (h : l.get? k = some v)
    (hv : Spec.forgetDev v' = Spec.forgetDev v) : Spec.contents (l.set k v') = Spec.contents l := by
  induction l with
  | nil => cases h
  | cons p l ih =>
    obtain ⟨k', x⟩ := p
    simp only [Dict.get?] at h
    simp only [Dict.set]
    split
    · next e =>
      rw [if_pos e] at h
      cases h
      show (k', _) :: _ = (k', _) :: _
      rw [hv]
    · next e =>
      rw [if_neg e] at h
      show (k', _) :: Spec.contents _ = (k', _) :: Spec.contents _
      rw [ih h]

/-- what the loop of `to` leaves alone -/
structure Left (D : Nat) (names : List String) (w0 w : World) : Prop where
  len : w.dicts.length = w0.dicts.length
  others : ∀ k, k ≠ D → w.dict k = w0.dict k
  same : Spec.contents (w.dict D) = Spec.contents (w0.dict D)
  keep : ∀ n, n ∉ names → (w.dict D).get? n = (w0.dict D).get? n
  refs : ∀ n r, (w.dict D).get? n = some (.struct r) → (w0.dict D).get? n = some (.struct r)
  slen : w.structs.length = w0.structs.length
  structs : ∀ r : Nat, (∀ n ∈ names, (w0.dict D).get? n ≠ some (.struct r)) → w.structs[r]? = w0.structs[r]?
  tasks : w.tasks = w0.tasks

theorem moveEntry_left {D : Nat} {d : Dev} {names : List String} {w0 w : World} {k : String} (hk : k ∈ names)
    (h : Left D names w0 w) : Left D names w0 (moveEntry D d k w).2 := by
  unfold moveEntry
  cases hv : (w.dict D).get? k with
  | none => exact h
  | some v =>
    have hD : D < w.dicts.length := by
      by_contra hc
      have : w.dict D = [] := by unfold World.dict; rw [List.getD_eq_getElem?_getD, List.getElem?_eq_none (by omega)]; rfl
      rw [this] at hv; cases hv
    cases v with
    | other x => exact h
    | tensor id d0 =>
      show Left D names w0 { w with dicts := w.dicts.set D ((w.dict D).set k (.tensor id d)) }
      have hdk := fun k' => dict_setEntry w D k' ((w.dict D).set k (.tensor id d)) hD
      refine ⟨by simpa using h.len, fun k' hk' => ?_, ?_, fun n hn => ?_, fun n r hr => ?_, h.slen, h.structs, h.tasks⟩
      · rw [hdk, if_neg hk']; exact h.others k' hk'
      · rw [hdk, if_pos rfl, contents_set (v' := .tensor id d) hv rfl]; exact h.same
      · rw [hdk, if_pos rfl, Dict.get?_set, if_neg fun e => hn (by rw [← e]; exact hk)]; exact h.keep n hn
      · rw [hdk, if_pos rfl, Dict.get?_set] at hr
        split at hr
        · cases hr
        · exact h.refs n r hr
    | struct r =>
      show Left D names w0 { { w with structs := w.structs.set r d } with dicts := w.dicts.set D ((w.dict D).set k (.struct r)) }
      have hdk := fun k' => dict_setEntry { w with structs := w.structs.set r d } D k' ((w.dict D).set k (.struct r)) hD
      refine ⟨by simpa using h.len, fun k' hk' => ?_, ?_, fun n hn => ?_, fun n r' hr => ?_, by simpa using h.slen,
        fun r' hr' => ?_, h.tasks⟩
      · rw [hdk, if_neg hk']; exact h.others k' hk'
      · rw [hdk, if_pos rfl, contents_set (v' := .struct r) hv rfl]; exact h.same
      · rw [hdk, if_pos rfl, Dict.get?_set, if_neg fun e => hn (by rw [← e]; exact hk)]; exact h.keep n hn
      · rw [hdk, if_pos rfl, Dict.get?_set] at hr
        split at hr
        · next e => cases hr; rw [← e]; exact h.refs k r hv
        · exact h.refs n r' hr
      · show (w.structs.set r d)[r']? = _
        rw [List.getElem?_set, if_neg]
        · exact h.structs r' hr'
        · rintro rfl
          exact hr' k hk (h.refs k r hv)

theorem moveAll_left {D : Nat} {d : Dev} {names : List String} {w0 : World} : ∀ (ks : List String) (w : World),
    (∀ k ∈ ks, k ∈ names) → Left D names w0 w → Left D names w0 (moveAll ks D d w).2
  | [], _, _, h => h
  | k :: ks, w, hks, h => by
    have h1 := moveEntry_left (d := d) (hks k List.mem_cons_self) h
    show Left D names w0 (PyM.forM (k :: ks) (moveEntry D d) w).2
    rw [PyM.forM_cons]
    rcases hm : moveEntry D d k w with ⟨e | _, w'⟩
    · rw [hm] at h1; exact h1
    · rw [hm] at h1
      exact moveAll_left ks w' (fun k' h' => hks k' (List.mem_cons_of_mem _ h')) h1

theorem Left.refl (D : Nat) (names : List String) (w : World) : Left D names w w :=
  ⟨rfl, fun _ _ => rfl, rfl, fun _ _ => rfl, fun _ _ h => h, rfl, fun _ _ => rfl, rfl⟩

/-- `m` leaves the dictionaries alone -/
def KD {α : Type} (m : PyM World α) : Prop := ∀ w, (m w).2.dicts = w.dicts

theorem KD.bind {α β : Type} {m : PyM World α} {f : α → PyM World β} (h1 : KD m) (h2 : ∀ a, KD (f a)) : KD (m >>= f) := by
  intro w
  have := h1 w
  rw [PyM.bind_apply]
  rcases hm : m w with ⟨e | a, w'⟩
  · rw [hm] at this; exact this
  · rw [hm] at this; exact (h2 a w').trans this

theorem KD.pure {α : Type} (a : α) : KD (Pure.pure a : PyM World α) := fun _ => rfl
theorem KD.raise {α : Type} (e : Err) : KD (PyM.raise e : PyM World α) := fun _ => rfl
theorem KD.lift {α : Type} (x : Except Err α) : KD (PyM.lift x : PyM World α) := fun _ => rfl

theorem kd_entry (D : Nat) (k : String) : KD (entry D k) := fun w => by
  unfold entry; cases (w.dict D).get? k <;> rfl

theorem kd_task (i : Nat) : KD (theTask i) := fun w => by
  unfold theTask; cases w.tasks[i]? <;> rfl

theorem kd_devOf (v : Val) : KD (devOf v) := by
  cases v with
  | tensor id d => exact .pure _
  | other id => exact .raise _
  | struct r => intro w; unfold devOf; simp only; cases w.structs[r]? <;> rfl

theorem kd_moveVal (d : Dev) (v : Val) : KD (moveVal d v) := by
  cases v with
  | tensor id d => exact .pure _
  | other id => exact .raise _
  | struct r => exact fun _ => rfl

theorem kd_call (fwd : Fwd) (m : Dev) (f s : Val) : KD (callModel fwd m f s) := by
  unfold callModel
  refine (kd_devOf f).bind fun _ => (kd_devOf s).bind fun _ => (KD.lift _).bind fun r => ?_
  cases s with
  | struct ref => exact fun _ => rfl
  | tensor id d => exact .pure _
  | other id => exact .pure _

theorem kd_pick (x k : Dev) : KD (TaskDev.pick x k) := by
  unfold TaskDev.pick; split
  · exact .pure _
  · exact .raise _

theorem kd_join (x k : Dev) : KD (join x k) := by
  unfold join; split
  · exact .pure _
  · exact .raise _

theorem kd_train (fwd : Fwd) (D : Nat) (m : Dev) : KD (train fwd D m) :=
  (kd_entry _ _).bind fun _ => (kd_entry _ _).bind fun _ => (kd_entry _ _).bind fun _ => (kd_entry _ _).bind fun _ =>
    (kd_call _ _ _ _).bind fun _ => (kd_devOf _).bind fun _ => (kd_devOf _).bind fun _ => (kd_pick _ _).bind fun _ =>
    (kd_pick _ _).bind fun _ => kd_join _ _

theorem kd_validate (fwd : Fwd) (D : Nat) (m : Dev) : KD (validate fwd D m) :=
  (kd_entry _ _).bind fun _ => (kd_entry _ _).bind fun _ => (kd_entry _ _).bind fun _ => (kd_entry _ _).bind fun _ =>
    (kd_call _ _ _ _).bind fun _ => (kd_devOf _).bind fun _ => (kd_devOf _).bind fun _ => (kd_pick _ _).bind fun _ =>
    (kd_pick _ _).bind fun _ => .pure _

theorem kd_epochs (fwd : Fwd) (D : Nat) (m : Dev) : ∀ n, KD (epochs fwd D m n)
  | 0 => .pure _
  | n + 1 => (kd_train _ _ _).bind fun _ => (kd_validate _ _ _).bind fun _ => kd_epochs fwd D m n

theorem kd_finish (fwd : Fwd) (d : Dev) (f s mask l : Val) : KD (finish fwd d f s mask l) :=
  (kd_call _ _ _ _).bind fun _ => (kd_devOf _).bind fun _ => (kd_devOf _).bind fun _ => (kd_pick _ _).bind fun _ =>
    (kd_pick _ _).bind fun _ => .pure _

theorem kd_testOwn (fwd : Fwd) (i : Nat) : KD (testOwn fwd i) := by
  unfold testOwn
  refine (kd_task i).bind fun t => (kd_entry _ _).bind fun _ => ?_
  split
  · exact .raise _
  · exact (kd_entry _ _).bind fun _ => (kd_entry _ _).bind fun _ => kd_finish _ _ _ _ _ _

theorem kd_testOn (fwd : Fwd) (i D : Nat) : KD (testOn fwd i D) :=
  (kd_task i).bind fun _ => (kd_entry _ _).bind fun _ => (kd_moveVal _ _).bind fun _ => (kd_entry _ _).bind fun _ =>
    (kd_moveVal _ _).bind fun _ => (kd_entry _ _).bind fun _ => (kd_moveVal _ _).bind fun _ => (kd_entry _ _).bind fun _ =>
    (kd_moveVal _ _).bind fun _ => kd_finish _ _ _ _ _ _

/-- `m` changes no dictionary but `D`, and there only the entry `structure`, and nothing if `b` is false -/
structure OnlyStructure (D : Nat) (b : Bool) (w0 w : World) : Prop where
  others : ∀ k, k ≠ D → w.dict k = w0.dict k
  keep : ∀ n, n ≠ "structure" → (w.dict D).get? n = (w0.dict D).get? n
  all : b = false → w.dicts = w0.dicts

theorem OnlyStructure.of_eq {D : Nat} {b : Bool} {w0 w w' : World} (h : OnlyStructure D b w0 w) (he : w'.dicts = w.dicts) :
    OnlyStructure D b w0 w' := by
  have hd : ∀ k, w'.dict k = w.dict k := fun k => by unfold World.dict; rw [he]
  exact ⟨fun k hk => (hd k).trans (h.others k hk), fun n hn => by rw [hd]; exact h.keep n hn, fun hb => he.trans (h.all hb)⟩

theorem OnlyStructure.kd {α : Type} {D : Nat} {b : Bool} {w0 : World} {m : PyM World α} (h : KD m) :
    Ht (OnlyStructure D b w0) m (fun _ => OnlyStructure D b w0) (fun _ => OnlyStructure D b w0) := by
  intro w hw
  have := h w
  rcases hm : m w with ⟨e | a, w'⟩
  · rw [hm] at this; exact hw.of_eq this
  · rw [hm] at this; exact hw.of_eq this

theorem rebuild_only (D : Nat) (d on : Dev) {w0 : World} {E : Err → World → Prop} :
    Ht (OnlyStructure D true w0) (rebuild D d on) (fun _ => OnlyStructure D true w0) E := by
  intro w hw
  show OnlyStructure D true w0 { { w with structs := (w.structs ++ [on]).set w.structs.length d } with
    dicts := w.dicts.set D ((w.dict D).set "structure" (.struct w.structs.length)) }
  by_cases hD : D < w.dicts.length
  · have hdk := fun k' => dict_setEntry { w with structs := (w.structs ++ [on]).set w.structs.length d } D k'
      ((w.dict D).set "structure" (.struct w.structs.length)) hD
    refine ⟨fun k hk => ?_, fun n hn => ?_, fun hb => by cases hb⟩
    · rw [hdk, if_neg hk]; exact hw.others k hk
    · rw [hdk, if_pos rfl, Dict.get?_set, if_neg (Ne.symm hn)]; exact hw.keep n hn
  · refine hw.of_eq ?_
    show w.dicts.set D _ = w.dicts
    rw [List.set_eq_of_length_le (by omega)]

theorem experiment_only (fwd : Fwd) (t : Task) (x : Trial) {w0 : World} :
    Ht (OnlyStructure t.data t.builder w0) (experiment fwd t x) (fun _ => OnlyStructure t.data t.builder w0)
      (fun _ => OnlyStructure t.data t.builder w0) := by
  unfold experiment
  refine Ht.bind (Q := fun _ => OnlyStructure t.data t.builder w0) ?_ fun _ => ?_
  · cases h : t.builder with
    | false => exact .pure fun _ h => h
    | true => exact rebuild_only _ _ _
  · refine OnlyStructure.kd ((kd_epochs _ _ _ _).bind fun _ => ?_)
    split
    · exact .pure _
    · split
      · refine (kd_entry _ _).bind fun s => ?_
        cases s with
        | struct r => exact .pure _
        | tensor id d => exact .raise _
        | other id => exact .raise _
      · exact .raise _

theorem trials_only (fwd : Fwd) (t : Task) {w0 : World} : ∀ xs : List Trial,
    Ht (OnlyStructure t.data t.builder w0) (trials fwd t xs) (fun _ => OnlyStructure t.data t.builder w0)
      (fun _ => OnlyStructure t.data t.builder w0)
  | [] => .pure fun _ h => h
  | x :: xs => Ht.bind (experiment_only fwd t x) fun _ => Ht.bind (trials_only fwd t xs) fun _ => .pure fun _ h => h

end TD

/-- C126. Making a task, whether it succeeds or not, leaves in the caller's dictionary the same keys with the same contents, but for
the devices of the six variables; it leaves alone the other entries, the other dictionaries, and the structures that are not among the
six variables.  Missing: the devices (`C126_task_false`). -/
theorem C126_task_partial (fwd : Fwd) (w : World) (D : Nat) (d : Dev) (b : Bool) :
    Spec.contents ((TaskDev.apply fwd (.task D d b) w).2.dict D) = Spec.contents (w.dict D) ∧
    (∀ n, n ∉ ["features", "structure", "labels", "train_mask", "val_mask", "test_mask"] →
      ((TaskDev.apply fwd (.task D d b) w).2.dict D).get? n = (w.dict D).get? n) ∧
    (∀ k, k ≠ D → (TaskDev.apply fwd (.task D d b) w).2.dict k = w.dict k) ∧
    ∀ r : Nat, ¬ Spec.InData w D r → (TaskDev.apply fwd (.task D d b) w).2.structs[r]? = w.structs[r]? := by
  have h := moveAll_left (D := D) (d := d) (names := vars) (w0 := w) vars w (fun _ h => h) (Left.refl _ _ _)
  have e : (TaskDev.apply fwd (.task D d b) w).2.dicts = (moveAll vars D d w).2.dicts ∧
      (TaskDev.apply fwd (.task D d b) w).2.structs = (moveAll vars D d w).2.structs := by
    show (newTask D d b w).2.dicts = _ ∧ (newTask D d b w).2.structs = _
    unfold newTask
    rw [PyM.bind_apply]
    rcases moveAll vars D d w with ⟨e | _, w'⟩ <;> exact ⟨rfl, rfl⟩
  have hd : ∀ k, (TaskDev.apply fwd (.task D d b) w).2.dict k = (moveAll vars D d w).2.dict k := fun k => by
    unfold World.dict; rw [e.1]
  refine ⟨by rw [hd]; exact h.same, fun n hn => by rw [hd]; exact h.keep n hn, fun k hk => by rw [hd]; exact h.others k hk,
    fun r hr => ?_⟩
  rw [e.2]
  exact h.structs r fun n hn hc => hr ⟨n, hn, hc⟩

/-- C126. The same for `to`, which otherwise changes only the device of the task.  Missing: the devices (`C126_task_false`). -/
theorem C126_to_partial (fwd : Fwd) (w : World) {i : Nat} {t : Task} (ht : w.tasks[i]? = some t) (d : Dev) :
    Spec.contents ((TaskDev.apply fwd (.to i d) w).2.dict t.data) = Spec.contents (w.dict t.data) ∧
    (∀ n, n ∉ ["features", "structure", "labels", "train_mask", "val_mask", "test_mask"] →
      ((TaskDev.apply fwd (.to i d) w).2.dict t.data).get? n = (w.dict t.data).get? n) ∧
    (∀ k, k ≠ t.data → (TaskDev.apply fwd (.to i d) w).2.dict k = w.dict k) ∧
    (∀ r : Nat, ¬ Spec.InData w t.data r → (TaskDev.apply fwd (.to i d) w).2.structs[r]? = w.structs[r]?) ∧
    (TaskDev.apply fwd (.to i d) w).2.tasks = w.tasks.set i { t with device := d } := by
  have h := moveAll_left (D := t.data) (d := d) (names := vars) (w0 := { w with tasks := w.tasks.set i { t with device := d } })
    vars _ (fun _ h => h) (Left.refl _ _ _)
  have htk : theTask i w = (.ok t, w) := by unfold theTask; rw [ht]
  have e : TaskDev.apply fwd (.to i d) w = moveAll vars t.data d { w with tasks := w.tasks.set i { t with device := d } } := by
    show toTask i d w = _
    unfold toTask
    rw [PyM.bind_apply, htk]
    rfl
  rw [e]
  exact ⟨h.same, fun n hn => h.keep n hn, fun k hk => h.others k hk, fun r hr => h.structs r fun n hn hc => hr ⟨n, hn, hc⟩,
    h.tasks⟩

/-- C126. A run, whether it succeeds or not, changes no entry of any dictionary but `structure` in that of the task, and none at
all without a `structure_builder`; testing changes no dictionary.  Missing: `structure` with a builder (`C126_run_false`). -/
theorem C126_run_partial (fwd : Fwd) (w : World) {i : Nat} {t : Task} (ht : w.tasks[i]? = some t) (xs : List Trial) :
    (∀ k, k ≠ t.data → (TaskDev.apply fwd (.run i xs) w).2.dict k = w.dict k) ∧
    (∀ n, n ≠ "structure" → ((TaskDev.apply fwd (.run i xs) w).2.dict t.data).get? n = (w.dict t.data).get? n) ∧
    (t.builder = false → (TaskDev.apply fwd (.run i xs) w).2.dicts = w.dicts) ∧
    (TaskDev.apply fwd (.test i) w).2.dicts = w.dicts ∧ ∀ D, (TaskDev.apply fwd (.testOn i D) w).2.dicts = w.dicts := by
  have htk : theTask i w = (.ok t, w) := by unfold theTask; rw [ht]
  have h : OnlyStructure t.data t.builder w (run fwd i xs w).2 := by
    unfold run
    rw [PyM.bind_apply, htk]
    simp only
    refine Ht.use (P := OnlyStructure t.data t.builder w) (Q := fun _ => OnlyStructure t.data t.builder w)
      (E := fun _ => OnlyStructure t.data t.builder w) (G := fun x => OnlyStructure t.data t.builder w x.2)
      (Ht.bind (trials_only fwd t xs) fun any => ?_) ⟨fun _ _ => rfl, fun _ _ => rfl, fun _ => rfl⟩
      (fun _ _ h => h) (fun _ _ h => h)
    cases any with
    | false => exact .raise fun _ h => h
    | true =>
      refine OnlyStructure.kd ?_
      exact KD.bind (fun _ => rfl) fun _ => KD.bind (fun _ => rfl) fun _ => KD.bind (fun _ => rfl) fun _ =>
        KD.bind (fun _ => rfl) fun _ => kd_testOwn fwd i
  exact ⟨h.others, h.keep, h.all, kd_testOwn fwd i w, fun D => kd_testOn fwd i D w⟩

/-- C126 is false for the devices: making a task moves the tensors of the caller's dictionary, and the caller's structure. -/
theorem C126_task_false :
    ¬ ∀ (fwd : Fwd), Spec.WorksOnOneDevice fwd → ∀ w, Spec.TaskProgram fwd Spec.Separate w → ∀ D d b,
      Spec.Separate w (.task D d b) →
      (TaskDev.apply fwd (.task D d b) w).2.dict D = w.dict D ∨ (TaskDev.apply fwd (.task D d b) w).2.structs = w.structs := by
  intro h
  have h0 : Spec.TaskProgram exFwd Spec.Separate exW0 :=
    .call _ (.call _ .start trivial) fun n r hr => by rw [exData_refs n r hr]; decide
  have := h exFwd exFwd_works exW0 h0 0 1 false ⟨by decide, (fun t ht => by cases ht), fun r _ t ht => by cases ht⟩
  revert this
  decide +kernel

/-- C126 is false for `structure` when the task builds structures itself: after a run the caller's dictionary has the structure of the last
trial in place of the caller's one. -/
theorem C126_run_false :
    ¬ ∀ (fwd : Fwd), Spec.WorksOnOneDevice fwd → ∀ w, Spec.TaskProgram fwd Spec.Separate w → ∀ i t, w.tasks[i]? = some t →
      ∀ xs, (TaskDev.apply fwd (.run i xs) w).1 = .ok () →
        ((TaskDev.apply fwd (.run i xs) w).2.dict t.data).get? "structure" = (w.dict t.data).get? "structure" := by
  intro h
  have h0 : Spec.TaskProgram exFwd Spec.Separate exW0 :=
    .call _ (.call _ .start trivial) fun n r hr => by rw [exData_refs n r hr]; decide
  have h1 := Spec.TaskProgram.call (.task 0 1 true) h0 ⟨by decide, (fun t ht => by cases ht), fun r _ t ht => by cases ht⟩
  have := h exFwd exFwd_works _ h1 0 ⟨0, 1, true, none⟩ (by decide +kernel) [⟨0, 1, false, true⟩, ⟨0, 1, false, true⟩] (by decide +kernel)
  revert this
  decide +kernel

example : exW1.tasks[0]? = some ⟨0, 1, false, none⟩ ∧ Spec.contents (exW1.dict 0) = Spec.contents exData ∧
    exW1.structs = [1] ∧ (exW1.dict 0).get? "features" = some (.tensor 10 1) := by decide +kernel

end Props
end DHG
