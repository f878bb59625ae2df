import Verif.Heap
import Mathlib.Logic.Function.Basic
import Mathlib.Tactic.Basic

/-!
# Separation of the objects of a program
-/

set_option linter.unusedSectionVars false
set_option autoImplicit false

namespace DHG
namespace Heap

variable {σ A B D Op Q Ans New Der : Type} {C : Klass σ A B D Op Q Ans New Der} {w : World σ A B D}

/-- references are in use, and no two objects have one in common -/
structure Inv (w : World σ A B D) : Prop where
  used : ∀ (i : Nat) (o : Obj σ), w.objs[i]? = some o → o.a < w.next ∧ o.b < w.next
  usedD : ∀ (j : Nat) (d : D × Nat × Nat), w.dicts[j]? = some d → d.2.1 < w.next ∧ d.2.2 < w.next
  apart : ∀ (i j : Nat) (o p : Obj σ), w.objs[i]? = some o → w.objs[j]? = some p → i ≠ j → o.a ≠ p.a ∧ o.b ≠ p.b

theorem Inv.empty [Inhabited A] [Inhabited B] : Inv (World.empty : World σ A B D) :=
  ⟨by intro i o h; simp [World.empty] at h, by intro i o h; simp [World.empty] at h,
    by intro i j o p h; simp [World.empty] at h⟩

theorem append_get {α : Type} {l : List α} {x y : α} {i : Nat} (h : (l ++ [x])[i]? = some y) :
    l[i]? = some y ∨ (i = l.length ∧ x = y) := by
  rcases Nat.lt_trichotomy i l.length with hi | hi | hi
  · rw [List.getElem?_append_left hi] at h
    exact .inl h
  · subst hi
    simp at h
    exact .inr ⟨rfl, h⟩
  · rw [List.getElem?_append_right (by omega)] at h
    have : 0 < i - l.length := by omega
    rw [List.getElem?_eq_none (by simp; omega)] at h
    cases h

theorem set_get {α : Type} {l : List α} {x y : α} {i j : Nat} (h : (l.set i x)[j]? = some y) :
    (j = i ∧ i < l.length ∧ x = y) ∨ (j ≠ i ∧ l[j]? = some y) := by
  by_cases hj : j = i
  · subst hj
    by_cases hl : j < l.length
    · rw [List.getElem?_set_self hl] at h
      exact .inl ⟨rfl, hl, by simpa using h⟩
    · rw [List.getElem?_eq_none (by simpa using hl)] at h
      cases h
  · rw [List.getElem?_set_ne (Ne.symm hj)] at h
    exact .inr ⟨hj, h⟩

theorem alloc_inv (hw : Inv w) (r : Except Err σ) : Inv (alloc C w r) := by
  cases r with
  | error e => exact hw
  | ok s =>
    refine ⟨fun i o h => ?_, fun j d h => ?_, fun i j o p h h' hij => ?_⟩
    · rcases append_get h with h | ⟨_, rfl⟩
      · have := hw.used i o h
        exact ⟨Nat.lt_succ_of_lt this.1, Nat.lt_succ_of_lt this.2⟩
      · exact ⟨Nat.lt_succ_self _, Nat.lt_succ_self _⟩
    · have := hw.usedD j d h
      exact ⟨Nat.lt_succ_of_lt this.1, Nat.lt_succ_of_lt this.2⟩
    · rcases append_get h with h | ⟨hi, rfl⟩ <;> rcases append_get h' with h' | ⟨hj, rfl⟩
      · exact hw.apart i j o p h h' hij
      · have := hw.used i o h
        exact ⟨Nat.ne_of_lt this.1, Nat.ne_of_lt this.2⟩
      · have := hw.used j p h'
        exact ⟨Nat.ne_of_gt this.1, Nat.ne_of_gt this.2⟩
      · omega

theorem write_inv (hw : Inv w) {i : Nat} {o : Obj σ} (ho : w.objs[i]? = some o) (s : σ) (re : Bool × Bool) :
    Inv (write C w i o s re) := by
  have ho' := hw.used i o ho
  refine ⟨fun k p h => ?_, fun j d h => ?_, fun k j p q h h' hij => ?_⟩
  · rcases set_get h with ⟨_, _, rfl⟩ | ⟨_, h⟩
    · constructor
      · show (if re.1 then w.next else o.a) < w.next + 1
        split <;> omega
      · show (if re.2 then w.next else o.b) < w.next + 1
        split <;> omega
    · have := hw.used k p h
      exact ⟨Nat.lt_succ_of_lt this.1, Nat.lt_succ_of_lt this.2⟩
  · have := hw.usedD j d h
    exact ⟨Nat.lt_succ_of_lt this.1, Nat.lt_succ_of_lt this.2⟩
  · have key : ∀ (k : Nat) (p : Obj σ), w.objs[k]? = some p → k ≠ i →
        (if re.1 then w.next else o.a) ≠ p.a ∧ (if re.2 then w.next else o.b) ≠ p.b := by
      intro k p hp hk
      have h1 := hw.used k p hp
      have h2 := hw.apart i k o p ho hp (Ne.symm hk)
      constructor
      · split
        · omega
        · exact h2.1
      · split
        · omega
        · exact h2.2
    rcases set_get h with ⟨hk, _, rfl⟩ | ⟨hk, h⟩ <;> rcases set_get h' with ⟨hj, _, rfl⟩ | ⟨hj, h'⟩
    · omega
    · exact key j q h' hj
    · have := key k p h hk
      exact ⟨this.1.symm, this.2.symm⟩
    · exact hw.apart k j p q h h' hij

theorem exec_inv (hw : Inv w) (c : Cmd Op Q New Der) : Inv (exec C w c) := by
  cases c with
  | make x => exact alloc_inv hw _
  | call i o =>
    simp only [exec]
    cases h : w.objs[i]? with
    | none => exact hw
    | some x => exact write_inv hw h _ _
  | read i q =>
    simp only [exec]
    cases h : w.objs[i]? with
    | none => exact hw
    | some x => exact write_inv hw h _ _
  | clone i =>
    simp only [exec]
    cases h : w.objs[i]? with
    | none => exact hw
    | some x => exact alloc_inv hw _
  | derive i d =>
    simp only [exec]
    cases h : w.objs[i]? with
    | none => exact hw
    | some x => exact alloc_inv hw _
  | stateDict i =>
    simp only [exec]
    cases h : w.objs[i]? with
    | none => exact hw
    | some x =>
      refine ⟨hw.used, fun j d hd => ?_, hw.apart⟩
      rcases append_get hd with hd | ⟨_, rfl⟩
      · exact hw.usedD j d hd
      · exact hw.used i x h
  | fromStateDict j =>
    simp only [exec]
    cases h : w.dicts[j]? with
    | none => exact hw
    | some d => exact alloc_inv hw _

theorem execAll_inv (hw : Inv w) (cs : List (Cmd Op Q New Der)) : Inv (execAll C w cs) := by
  induction cs generalizing w with
  | nil => exact hw
  | cons c cs ih => exact ih (exec_inv hw c)

/-! ### What is seen of an object -/

theorem alloc_view_old (hw : Inv w) (r : Except Err σ) {i : Nat} {s : σ} (h : view C w i = some s) :
    view C (alloc C w r) i = some s := by
  cases r with
  | error e => exact h
  | ok t =>
    obtain ⟨o, ho, hs⟩ := Option.map_eq_some_iff.1 h
    have hu := hw.used i o ho
    have hi : i < w.objs.length := (List.getElem?_eq_some_iff.1 ho).1
    unfold view alloc
    rw [List.getElem?_append_left hi, ho, Option.map_some, ← hs]
    simp only [Obj.view]
    rw [Function.update_of_ne (Nat.ne_of_lt hu.1), Function.update_of_ne (Nat.ne_of_lt hu.2)]

theorem alloc_view_new (s : σ) : view C (alloc C w (.ok s)) w.objs.length = some s := by
  unfold view alloc
  simp [Obj.view, C.store_cells]

theorem write_view_self {i : Nat} {o : Obj σ} (ho : w.objs[i]? = some o) (s : σ) (re : Bool × Bool) :
    view C (write C w i o s re) i = some s := by
  have hi : i < w.objs.length := (List.getElem?_eq_some_iff.1 ho).1
  unfold view write
  simp only [List.getElem?_set_self hi, Option.map_some, Obj.view, Function.update_self]
  exact congrArg some (C.store_cells s)

theorem write_view_other (hw : Inv w) {i k : Nat} {o : Obj σ} (ho : w.objs[i]? = some o) (s : σ) (re : Bool × Bool)
    (hk : k ≠ i) : view C (write C w i o s re) k = view C w k := by
  unfold view write
  simp only [List.getElem?_set_ne (Ne.symm hk)]
  cases hp : w.objs[k]? with
  | none => rfl
  | some p =>
    have h1 := hw.used k p hp
    have h2 := hw.apart i k o p ho hp (Ne.symm hk)
    simp only [Option.map_some, Obj.view]
    rw [Function.update_of_ne, Function.update_of_ne]
    · split
      · exact Nat.ne_of_lt h1.2
      · exact h2.2.symm
    · split
      · exact Nat.ne_of_lt h1.1
      · exact h2.1.symm

/-! ### State dictionaries -/

/-- no object outside `P` has a dictionary in common with the `j`-th state dictionary -/
def Off (P : Nat → Prop) (j : Nat) (w : World σ A B D) : Prop :=
  ∀ (i : Nat) (o : Obj σ) (d : D × Nat × Nat), ¬ P i → w.objs[i]? = some o → w.dicts[j]? = some d →
    o.a ≠ d.2.1 ∧ o.b ≠ d.2.2

theorem alloc_off {P : Nat → Prop} {j : Nat} (hw : Inv w) (h : Off P j w) (r : Except Err σ) : Off P j (alloc C w r) := by
  cases r with
  | error e => exact h
  | ok s =>
    intro i o d hi ho hd
    rcases append_get ho with ho | ⟨_, rfl⟩
    · exact h i o d hi ho hd
    · have := hw.usedD j d hd
      exact ⟨Nat.ne_of_gt this.1, Nat.ne_of_gt this.2⟩

theorem write_off {P : Nat → Prop} {j : Nat} (hw : Inv w) (h : Off P j w) {i : Nat} {o : Obj σ}
    (ho : w.objs[i]? = some o) (s : σ) (re : Bool × Bool) : Off P j (write C w i o s re) := by
  intro k p d hk hp hd
  rcases set_get hp with ⟨hki, _, rfl⟩ | ⟨_, hp⟩
  · subst hki
    have h1 := hw.usedD j d hd
    have h2 := h k o d hk ho hd
    constructor
    · show (if re.1 then w.next else o.a) ≠ _
      split
      · exact Nat.ne_of_gt h1.1
      · exact h2.1
    · show (if re.2 then w.next else o.b) ≠ _
      split
      · exact Nat.ne_of_gt h1.2
      · exact h2.2
  · exact h k p d hk hp hd

/-- a call that binds both dictionaries anew leaves every earlier state dictionary alone -/
theorem write_off_rebind {P : Nat → Prop} {j : Nat} (hw : Inv w) {i : Nat} (h : Off (fun k => P k ∨ k = i) j w) {o : Obj σ} (s : σ) : Off P j (write C w i o s (true, true)) := by
  intro k p d hk hp hd
  rcases set_get hp with ⟨hki, _, rfl⟩ | ⟨hki, hp⟩
  · have h1 := hw.usedD j d hd
    exact ⟨Nat.ne_of_gt h1.1, Nat.ne_of_gt h1.2⟩
  · exact h k p d (by rintro (h | h); exacts [hk h, hki h]) hp hd

theorem exec_off {P : Nat → Prop} {j : Nat} (hw : Inv w) (hj : j < w.dicts.length) (h : Off P j w) (c : Cmd Op Q New Der) :
    Off P j (exec C w c) ∧ j < (exec C w c).dicts.length := by
  have key : ∀ r, j < (alloc C w r).dicts.length := fun r => by cases r <;> exact hj
  cases c with
  | make x => exact ⟨alloc_off hw h _, key _⟩
  | call i o =>
    simp only [exec]
    cases ho : w.objs[i]? with
    | none => exact ⟨h, hj⟩
    | some x => exact ⟨write_off hw h ho _ _, hj⟩
  | read i q =>
    simp only [exec]
    cases ho : w.objs[i]? with
    | none => exact ⟨h, hj⟩
    | some x => exact ⟨write_off hw h ho _ _, hj⟩
  | clone i =>
    simp only [exec]
    cases ho : w.objs[i]? with
    | none => exact ⟨h, hj⟩
    | some x => exact ⟨alloc_off hw h _, key _⟩
  | derive i d =>
    simp only [exec]
    cases ho : w.objs[i]? with
    | none => exact ⟨h, hj⟩
    | some x => exact ⟨alloc_off hw h _, key _⟩
  | stateDict i =>
    simp only [exec]
    cases ho : w.objs[i]? with
    | none => exact ⟨h, hj⟩
    | some x =>
      refine ⟨fun k o d hk hok hd => h k o d hk hok ?_, by simp; omega⟩
      rcases append_get hd with hd | ⟨hj', _⟩
      · exact hd
      · omega
  | fromStateDict j =>
    simp only [exec]
    cases hd : w.dicts[j]? with
    | none => exact ⟨h, hj⟩
    | some d => exact ⟨alloc_off hw h _, key _⟩

theorem alloc_dict {j : Nat} (hw : Inv w) (r : Except Err σ) : dictView (alloc C w r) j = dictView w j := by
  cases r with
  | error e => rfl
  | ok s =>
    unfold dictView alloc
    cases hd : w.dicts[j]? with
    | none => rfl
    | some d =>
      have := hw.usedD j d hd
      simp only [Option.map_some]
      rw [Function.update_of_ne (Nat.ne_of_lt this.1), Function.update_of_ne (Nat.ne_of_lt this.2)]

theorem write_dict {j i : Nat} (hw : Inv w) {o : Obj σ} {s : σ} {re : Bool × Bool}
    (ho : ∀ d, w.dicts[j]? = some d → (re.1 = true ∨ o.a ≠ d.2.1) ∧ (re.2 = true ∨ o.b ≠ d.2.2)) :
    dictView (write C w i o s re) j = dictView w j := by
  unfold dictView write
  cases hd : w.dicts[j]? with
  | none => rfl
  | some d =>
    have h1 := hw.usedD j d hd
    have h2 := ho d hd
    simp only [Option.map_some]
    rw [Function.update_of_ne, Function.update_of_ne]
    · split
      · exact Nat.ne_of_lt h1.2
      · rename_i hr
        exact (h2.2.resolve_left hr).symm
    · split
      · exact Nat.ne_of_lt h1.1
      · rename_i hr
        exact (h2.1.resolve_left hr).symm

theorem write_dict_same {j i : Nat} {o : Obj σ} {s : σ} (hs : C.cells s = (w.ha o.a, w.hb o.b)) :
    dictView (write C w i o s (false, false)) j = dictView w j := by
  unfold dictView write
  have h1 : (C.cells s).1 = w.ha o.a := by rw [hs]
  have h2 : (C.cells s).2 = w.hb o.b := by rw [hs]
  simp only [Bool.false_eq_true, if_false, h1, h2, Function.update_eq_self]

/-- what reading calls and stored dictionaries satisfy in the four classes -/
structure Lawful (C : Klass σ A B D Op Q Ans New Der) : Prop where
  read_cells : ∀ q s, C.cells (C.read q s).2 = C.cells s
  cells_store : ∀ s c, C.cells (C.store s c) = c

theorem exec_dict {P : Nat → Prop} {j : Nat} (hC : Lawful C) (hw : Inv w) (hj : j < w.dicts.length) (h : Off P j w)
    (c : Cmd Op Q New Der) (hc : ∀ i o, c = .call i o → ¬ P i) :
    dictView (exec C w c) j = dictView w j := by
  cases c with
  | make x => exact alloc_dict hw _
  | call i o =>
    simp only [exec]
    cases ho : w.objs[i]? with
    | none => rfl
    | some x =>
      refine write_dict hw fun d hd => ?_
      have := h i x d (hc i o rfl) ho hd
      exact ⟨.inr this.1, .inr this.2⟩
  | read i q =>
    simp only [exec]
    cases ho : w.objs[i]? with
    | none => rfl
    | some x =>
      refine write_dict_same ?_
      rw [hC.read_cells, Obj.view, hC.cells_store]
  | clone i =>
    simp only [exec]
    cases ho : w.objs[i]? with
    | none => rfl
    | some x => exact alloc_dict hw _
  | derive i d =>
    simp only [exec]
    cases ho : w.objs[i]? with
    | none => rfl
    | some x => exact alloc_dict hw _
  | stateDict i =>
    simp only [exec]
    cases ho : w.objs[i]? with
    | none => rfl
    | some x =>
      simp only [dictView]
      rw [List.getElem?_append_left hj]
  | fromStateDict j =>
    simp only [exec]
    cases hd : w.dicts[j]? with
    | none => rfl
    | some d => exact alloc_dict hw _

theorem execAll_dict {P : Nat → Prop} {j : Nat} (hC : Lawful C) (cs : List (Cmd Op Q New Der)) (hw : Inv w)
    (hj : j < w.dicts.length) (h : Off P j w) (hc : ∀ i o, Cmd.call i o ∈ cs → ¬ P i) :
    dictView (execAll C w cs) j = dictView w j ∧ Off P j (execAll C w cs) ∧ j < (execAll C w cs).dicts.length := by
  induction cs generalizing w with
  | nil => exact ⟨rfl, h, hj⟩
  | cons c cs ih =>
    have h1 := exec_off (C := C) hw hj h c
    have h2 := ih (exec_inv (C := C) hw c) h1.2 h1.1 fun i o ho => hc i o (List.mem_cons_of_mem _ ho)
    refine ⟨h2.1.trans ?_, h2.2⟩
    exact exec_dict hC hw hj h c fun i o he => hc i o (he ▸ List.mem_cons_self)

theorem stateDict_off {i : Nat} (hw : Inv w) {o : Obj σ} (ho : w.objs[i]? = some o) :
    Off (· = i) w.dicts.length (exec C w (.stateDict i)) ∧
    w.dicts.length < (exec C w (.stateDict i)).dicts.length := by
  simp only [exec, ho]
  refine ⟨fun k p d hk hp hd => ?_, by simp⟩
  simp at hd
  subst hd
  exact hw.apart k i p o hp ho hk

end Heap
end DHG
