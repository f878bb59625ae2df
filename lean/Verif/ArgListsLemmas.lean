import Verif.ArgListsSpec
import Verif.HyperInv

/-!
# Lemmas on lists of hyperedges that the caller keeps
-/

set_option linter.unusedSectionVars false
set_option autoImplicit false

namespace DHG
namespace Args

variable {K : Type} [Field K] [LinearOrder K]

theorem overwrite_pre (pre es : List PySeq) :
    overwrite (pre ++ es) pre.length es.length = pre ++ es.map fun s => ⟨true, sortV s.items⟩ := by
  induction es generalizing pre with
  | nil => rfl
  | cons x es ih =>
    have h1 : (pre ++ x :: es).set pre.length ⟨true, sortV ((pre ++ x :: es).getD pre.length ⟨true, []⟩).items⟩ =
        (pre ++ [⟨true, sortV x.items⟩]) ++ es := by
      simp
    rw [List.length_cons, overwrite, h1]
    have := ih (pre ++ [⟨true, sortV x.items⟩])
    rw [List.length_append, List.length_singleton] at this
    rw [this]
    simp

theorem overwrite_eq (es : List PySeq) :
    overwrite es 0 es.length = es.map fun s => ⟨true, sortV s.items⟩ := overwrite_pre [] es

theorem format_eq (r : Nat) (m : Mem) : format r m = ((m r).format, Function.update m r (m r).after) := by
  unfold format
  have hself : ∀ {a : HArg}, m r = a → Function.update m r a = m := fun h => by
    rw [← h]; exact Function.update_eq_self r m
  split
  · next h => rw [h]; exact Prod.ext rfl (hself h).symm
  · next h => rw [h]; exact Prod.ext rfl (hself h).symm
  · next h =>
    rw [h, overwrite_eq]
    refine Prod.ext ?_ (hself h).symm
    show Except.ok _ = Except.ok _
    rw [List.map_map]; rfl
  · next h =>
    rw [h, overwrite_eq]
    refine Prod.ext ?_ rfl
    show Except.ok _ = Except.ok _
    rw [List.map_map]; rfl
  · next h => rw [h]; exact Prod.ext rfl (hself h).symm

theorem addHyperedges_eq (r : Nat) (ew : HW K) (op : MergeOp) (g : String) (s : HSt K) (m : Mem) :
    addHyperedges r ew op g (s, m) =
      ((Hyper.addHyperedges (m r) ew op g s).1,
        ((Hyper.addHyperedges (m r) ew op g s).2, Function.update m r (m r).after)) := by
  unfold addHyperedges Hyper.addHyperedges
  simp only [PyM.bind_apply, PyM.snd, PyM.fst, format_eq, PyM.lift]
  cases (m r).format with
  | error e => rfl
  | ok es =>
    simp only
    cases ew.expand es.length with
    | error e => rfl
    | ok ws =>
      simp only [PyM.assert]
      by_cases h : es.length = ws.length
      · simp only [h, decide_true, if_true, PyM.pure]
        generalize PyM.forM (es.zip ws) (fun p => Hyper.addHyperedge p.1 p.2 op g) s = x
        obtain ⟨x1, x2⟩ := x
        cases x1 <;> rfl
      · simp only [h, decide_false]
        rfl

theorem removeHyperedges_eq (r : Nat) (g : Option String) (s : HSt K) (m : Mem) :
    removeHyperedges r g (s, m) =
      ((Hyper.removeHyperedges (m r) g s).1,
        ((Hyper.removeHyperedges (m r) g s).2,
          if Hyper.knownGroup g s.raw then Function.update m r (m r).after else m)) := by
  unfold removeHyperedges Hyper.removeHyperedges
  simp only [PyM.bind_apply, PyM.snd, PyM.fst, format_eq, PyM.lift, readRaw, id, PyM.assert]
  cases Hyper.knownGroup g s.raw with
  | false => rfl
  | true =>
    simp only [if_true, PyM.pure]
    cases (m r).format with
    | error e => rfl
    | ok es =>
      simp only
      generalize PyM.forM es (Hyper.removeOne g) s = x
      obtain ⟨x1, x2⟩ := x
      cases x1 <;> rfl

theorem new_eq (n : Int) (r : Option Nat) (ew : HW K) (vw : Option (List K)) (op : MergeOp) (m : Mem) :
    (new n r ew vw op m).1 = Hyper.new n (r.map m) ew vw op := by
  unfold new Hyper.new
  cases Hyper.initRaw n vw with
  | error e => rfl
  | ok x =>
    cases r with
    | none => rfl
    | some r =>
      simp only [addHyperedges_eq, Option.map_some, bind, Except.bind]
      generalize Hyper.addHyperedges (m r) ew op "main" _ = y
      obtain ⟨y1, y2⟩ := y
      cases y1 <;> rfl

theorem new_mem (n : Int) (r : Nat) (ew : HW K) (vw : Option (List K)) (op : MergeOp) (m : Mem) :
    (new n (some r) ew vw op m).2 = m ∨ (new n (some r) ew vw op m).2 = Function.update m r (m r).after := by
  unfold new
  cases Hyper.initRaw n vw with
  | error e => exact .inl rfl
  | ok x =>
    right
    simp only [addHyperedges_eq]
    generalize Hyper.addHyperedges (m r) ew op "main" _ = y
    obtain ⟨y1, y2⟩ := y
    cases y1 <;> rfl

theorem new_mem_ok {n : Int} {r : Nat} {ew : HW K} {vw : Option (List K)} {op : MergeOp} {m : Mem} {s : HSt K}
    (h : (new n (some r) ew vw op m).1 = .ok s) :
    (new n (some r) ew vw op m).2 = Function.update m r (m r).after := by
  unfold new at h ⊢
  cases hx : Hyper.initRaw n vw with
  | error e => rw [hx] at h; cases h
  | ok x =>
    simp only [addHyperedges_eq]
    generalize Hyper.addHyperedges (m r) ew op "main" _ = y
    obtain ⟨y1, y2⟩ := y
    cases y1 <;> rfl

theorem after_after (a : HArg) : a.after.after = a.after := by
  cases a with
  | many t es =>
    cases t with
    | true => rfl
    | false =>
      simp only [HArg.after, List.map_map]
      congr 1
      exact List.map_congr_left fun x _ => by simp [sortV_sortV]
  | _ => rfl

/-! ## two objects with the same hyperedges -/

/-- the first as the caller wrote it, the second as it is now -/
def Seq1 (s s' : PySeq) : Prop := s' = s ∨ s' = ⟨true, sortV s.items⟩

/-- the first as the caller wrote it, the second as it is now -/
inductive Like : HArg → HArg → Prop
  | refl (a : HArg) : Like a a
  | many (es es' : List PySeq) (h : List.Forall₂ Seq1 es es') : Like (.many false es) (.many false es')

theorem seq1_sort {s s' : PySeq} (h : Seq1 s s') : sortV s'.items = sortV s.items := by
  rcases h with rfl | rfl
  · rfl
  · exact sortV_sortV _

theorem Like.format {a a' : HArg} (h : Like a a') : a'.format = a.format := by
  cases h with
  | refl => rfl
  | many es es' h =>
    refine congrArg Except.ok ?_
    induction h with
    | nil => rfl
    | cons h1 _ ih => rw [List.map_cons, List.map_cons, ih, seq1_sort h1]

theorem Like.after {a a' : HArg} (h : Like a a') : Like a a'.after := by
  have h1 : ∀ es : List PySeq, List.Forall₂ Seq1 es (es.map fun s => ⟨true, sortV s.items⟩) := fun es => by
    induction es with
    | nil => exact .nil
    | cons x es ih => exact .cons (.inr rfl) ih
  cases h with
  | refl =>
    cases a with
    | many t es =>
      cases t with
      | true => exact .refl _
      | false => exact .many _ _ (h1 es)
    | _ => exact .refl _
  | many es es' h =>
    refine .many _ _ ?_
    induction h with
    | nil => exact .nil
    | cons h _ ih => exact .cons (.inr (congrArg (PySeq.mk true) (seq1_sort h))) ih

theorem Edit.run_rel {α : Type} {R : α → α → Prop} (hR : ∀ x, R x x) (d : Edit α) {l l' : List α}
    (h : List.Forall₂ R l l') : List.Forall₂ R (d.run l) (d.run l') := by
  have hl := h.length_eq
  cases d with
  | append x => exact List.rel_append h (.cons (hR x) .nil)
  | insert j x => exact List.rel_append (List.forall₂_take j h) (.cons (hR x) (List.forall₂_drop j h))
  | set j x =>
    rw [List.forall₂_iff_get] at h ⊢
    refine ⟨by simp [Edit.run, hl], fun i h1 h2 => ?_⟩
    simp only [Edit.run, List.get_eq_getElem, List.getElem_set]
    split
    · exact hR x
    · simp only [Edit.run, List.length_set] at h1 h2
      exact h.2 i h1 h2
  | del j =>
    rw [List.forall₂_iff_get] at h ⊢
    refine ⟨by simp [Edit.run, List.length_eraseIdx, hl], fun i h1 h2 => ?_⟩
    have h3 := h.2
    simp only [List.get_eq_getElem] at h3
    have h4 : i < l.length ∧ (¬ i < j → i + 1 < l.length) := by
      simp only [Edit.run, List.length_eraseIdx] at h1
      split at h1 <;> omega
    simp only [Edit.run, List.get_eq_getElem, List.getElem_eraseIdx]
    split
    · exact h3 _ h4.1 (hl ▸ h4.1)
    · next hij => exact h3 _ (h4.2 hij) (hl ▸ h4.2 hij)
  | reverse => exact List.forall₂_reverse_iff.2 h
  | clear => exact .nil

theorem Like.editSeqs {a a' : HArg} (h : Like a a') (d : Edit PySeq) : Like (editSeqs d a) (editSeqs d a') := by
  cases h with
  | refl => exact .refl _
  | many es es' h => exact .many _ _ (d.run_rel (fun _ => .inl rfl) h)

theorem Like.editVerts {a a' : HArg} (h : Like a a') (d : Edit Int) : Like (editVerts d a) (editVerts d a') := by
  cases h with
  | refl => exact .refl _
  | many es es' h => exact .many _ _ h

/-- the calls depend on the formatted argument only -/
theorem add_congr {a a' : HArg} (h : a.format = a'.format) (ew : HW K) (op : MergeOp) (g : String) :
    Hyper.addHyperedges a ew op g = Hyper.addHyperedges a' ew op g := by
  unfold Hyper.addHyperedges; rw [h]

theorem remove_congr {a a' : HArg} (h : a.format = a'.format) (g : Option String) :
    Hyper.removeHyperedges (K := K) a g = Hyper.removeHyperedges a' g := by
  unfold Hyper.removeHyperedges; rw [h]

theorem hnew_congr {a a' : HArg} (h : a.format = a'.format) (n : Int) (ew : HW K) (vw : Option (List K))
    (op : MergeOp) : Hyper.new n (some a) ew vw op = Hyper.new n (some a') ew vw op := by
  unfold Hyper.new; simp only [add_congr h]

/-! ## programs -/

section Run
variable {w : World K}

theorem passing_add (p : Pass) (ew : HW K) (op : MergeOp) (g : String) (s : HSt K) :
    (passing w p (fun r => addHyperedges r ew op g) s).1 = (Hyper.addHyperedges (w.mem p.obj) ew op g s).2 ∧
      (passing w p (fun r => addHyperedges r ew op g) s).2 =
        if p.copied then w.mem else Function.update w.mem p.obj (w.mem p.obj).after := by
  unfold passing
  cases p.copied with
  | true => simp [addHyperedges_eq]
  | false => simp [addHyperedges_eq]

theorem passing_remove (p : Pass) (g : Option String) (s : HSt K) :
    (passing w p (fun r => removeHyperedges r g) s).1 = (Hyper.removeHyperedges (w.mem p.obj) g s).2 ∧
      ((passing w p (fun r => removeHyperedges r g) s).2 = w.mem ∨
        p.copied = false ∧
          (passing w p (fun r => removeHyperedges r g) s).2 = Function.update w.mem p.obj (w.mem p.obj).after) := by
  unfold passing
  cases p.copied with
  | true => simp [removeHyperedges_eq]
  | false =>
    simp only [removeHyperedges_eq]
    refine ⟨rfl, ?_⟩
    cases Hyper.knownGroup g s.raw with
    | true => exact .inr ⟨trivial, rfl⟩
    | false => exact .inl rfl

/-- a program beside the one that passes copies, and the objects as the caller wrote them -/
structure Sim (w w' : World K) (l : List HArg) : Prop where
  args : w.args = l.length
  args' : w'.args = l.length
  now : ∀ h a, l[h]? = some a → Like a (w.mem h)
  same : ∀ h a, l[h]? = some a → w'.mem h = a
  objs : w.objs = w'.objs

variable {w' : World K} {l : List HArg}

theorem Sim.lt {w : World K} {h : Nat} (e : w.args = l.length) (hh : ¬ w.args ≤ h) : ∃ a, l[h]? = some a := by
  rw [e] at hh
  exact ⟨_, List.getElem?_eq_getElem (by omega)⟩

/-- a list is overwritten by a call -/
theorem Sim.formatted (hs : Sim w w' l) (h : Nat) (x : List (Option (HSt K))) :
    Sim { w with mem := Function.update w.mem h (w.mem h).after, objs := x } { w' with objs := x } l := by
  refine ⟨hs.args, hs.args', fun k a hk => ?_, hs.same, rfl⟩
  show Like a (Function.update w.mem h (w.mem h).after k)
  by_cases e : k = h
  · subst e; rw [Function.update_self]; exact (hs.now k a hk).after
  · rw [Function.update_of_ne e]; exact hs.now k a hk

theorem Sim.objects (hs : Sim w w' l) (x : List (Option (HSt K))) : Sim { w with objs := x } { w' with objs := x } l :=
  ⟨hs.args, hs.args', hs.now, hs.same, rfl⟩

theorem Sim.fmt (hs : Sim w w' l) {h : Nat} (hh : ¬ w.args ≤ h) : (w.mem h).format = (w'.mem h).format := by
  obtain ⟨a, ha⟩ := Sim.lt hs.args hh
  rw [(hs.now h a ha).format, hs.same h a ha]

/-- a call on a hypergraph that may overwrite an argument -/
theorem Sim.on (hs : Sim w w' l) (i h : Nat) (f f' : HSt K → HSt K × Mem)
    (h1 : ∀ s, (f s).1 = (f' s).1) (h2 : ∀ s, (f' s).2 = w'.mem)
    (h3 : ∀ s, (f s).2 = w.mem ∨ (f s).2 = Function.update w.mem h (w.mem h).after) :
    Sim (Args.on w i f) (Args.on w' i f') l := by
  unfold Args.on
  rw [hs.objs]
  cases w'.objs[i]?.join with
  | none => exact hs
  | some s =>
    simp only [h1 s, h2 s]
    rcases h3 s with e | e <;> rw [e]
    · exact hs.objects _
    · exact hs.formatted h _

theorem Sim.edit (hs : Sim w w' l) (h : Nat) (f : HArg → HArg) (hf : ∀ {a a'}, Like a a' → Like (f a) (f a')) :
    Sim { w with mem := Function.update w.mem h (f (w.mem h)) } { w' with mem := Function.update w'.mem h (f (w'.mem h)) }
      (l.modify h f) := by
  refine ⟨?_, ?_, fun k a hk => ?_, fun k a hk => ?_, hs.objs⟩
  · rw [List.length_modify]; exact hs.args
  · rw [List.length_modify]; exact hs.args'
  · show Like a (Function.update w.mem h (f (w.mem h)) k)
    rw [List.getElem?_modify] at hk
    by_cases e : h = k
    · subst e
      simp only [if_true, Option.map_eq_map, Option.map_eq_some_iff] at hk
      obtain ⟨b, hb, rfl⟩ := hk
      rw [Function.update_self]
      exact hf (hs.now _ _ hb)
    · simp only [if_neg e, Option.map_eq_map, Option.map_id_fun', id] at hk
      rw [Function.update_of_ne fun e' => e e'.symm]
      exact hs.now _ _ hk
  · show Function.update w'.mem h (f (w'.mem h)) k = a
    rw [List.getElem?_modify] at hk
    by_cases e : h = k
    · subst e
      simp only [if_true, Option.map_eq_map, Option.map_eq_some_iff] at hk
      obtain ⟨b, hb, rfl⟩ := hk
      rw [Function.update_self, hs.same _ _ hb]
    · simp only [if_neg e, Option.map_eq_map, Option.map_id_fun', id] at hk
      rw [Function.update_of_ne fun e' => e e'.symm]
      exact hs.same _ _ hk

theorem modify_none {α : Type} (l : List α) (h : Nat) (f : α → α) (hh : l.length ≤ h) : l.modify h f = l :=
  List.modify_eq_self hh

variable [PyReal K]

theorem Sim.step (hs : Sim w w' l) (c : Cmd K) :
    Sim (exec w c) (exec w' (Spec.copied c)) (Spec.writes l c) := by
  have hargs : w'.args = w.args := hs.args'.trans hs.args.symm
  cases c with
  | arg a =>
    show Sim { w with mem := Function.update w.mem w.args a, args := w.args + 1 }
      { w' with mem := Function.update w'.mem w'.args a, args := w'.args + 1 } (l ++ [a])
    refine ⟨by simp [hs.args], by simp [hs.args'], fun k b hk => ?_, fun k b hk => ?_, hs.objs⟩
    · show Like b (Function.update w.mem w.args a k)
      rw [hs.args, List.getElem?_append] at *
      by_cases e : k < l.length
      · rw [if_pos e] at hk
        rw [Function.update_of_ne (by omega)]
        exact hs.now _ _ hk
      · rw [if_neg e] at hk
        have hk0 : k = l.length := by
          by_contra hne
          rw [List.getElem?_eq_none (by simp only [List.length_singleton]; omega)] at hk
          cases hk
        subst hk0
        rw [Nat.sub_self] at hk
        cases hk
        rw [Function.update_self]
        exact .refl _
    · show Function.update w'.mem w'.args a k = b
      rw [hs.args', List.getElem?_append] at *
      by_cases e : k < l.length
      · rw [if_pos e] at hk
        rw [Function.update_of_ne (by omega)]
        exact hs.same _ _ hk
      · rw [if_neg e] at hk
        have hk0 : k = l.length := by
          by_contra hne
          rw [List.getElem?_eq_none (by simp only [List.length_singleton]; omega)] at hk
          cases hk
        subst hk0
        rw [Nat.sub_self] at hk
        cases hk
        rw [Function.update_self]
  | make n a ew vw op =>
    cases a with
    | none =>
      show Sim (push w w.mem (new n none ew vw op w.mem).1) (push w' w'.mem (new n none ew vw op w'.mem).1) l
      simp only [new_eq, push, hs.objs]
      exact hs.objects _
    | some p =>
      show Sim (exec w (.make n (some p) ew vw op)) (exec w' (.make n (some ⟨p.obj, true⟩) ew vw op)) l
      simp only [exec, hargs, if_true]
      by_cases hp : w.args ≤ p.obj
      · simp only [if_pos hp]; exact hs
      · simp only [if_neg hp, new_eq, Option.map_some, Function.update_self, push]
        rw [hs.objs, hnew_congr (hs.fmt hp)]
        by_cases hc : p.copied = true
        · simp only [if_pos hc]; exact hs.objects _
        · simp only [if_neg hc]
          rcases new_mem n p.obj ew vw op w.mem with e | e <;> rw [e]
          · exact hs.objects _
          · exact hs.formatted _ _
  | add i p ew op g =>
    show Sim (exec w (.add i p ew op g)) (exec w' (.add i ⟨p.obj, true⟩ ew op g)) l
    simp only [exec, hargs]
    by_cases hp : w.args ≤ p.obj
    · simp only [if_pos hp]; exact hs
    · simp only [if_neg hp]
      refine hs.on i p.obj _ _ (fun s => ?_) (fun s => ?_) fun s => ?_
      · rw [(passing_add p ew op g s).1, (passing_add _ ew op g s).1, add_congr (hs.fmt hp)]
      · rw [(passing_add _ ew op g s).2, if_pos rfl]
      · rw [(passing_add p ew op g s).2]
        split
        · exact .inl rfl
        · exact .inr rfl
  | remove i p g =>
    show Sim (exec w (.remove i p g)) (exec w' (.remove i ⟨p.obj, true⟩ g)) l
    simp only [exec, hargs]
    by_cases hp : w.args ≤ p.obj
    · simp only [if_pos hp]; exact hs
    · simp only [if_neg hp]
      refine hs.on i p.obj _ _ (fun s => ?_) (fun s => ?_) fun s => ?_
      · rw [(passing_remove p g s).1, (passing_remove _ g s).1, remove_congr (hs.fmt hp)]
      · rcases (passing_remove (w := w') ⟨p.obj, true⟩ g s).2 with e | e
        · exact e
        · cases e.1
      · rcases (passing_remove (w := w) p g s).2 with e | e
        · exact .inl e
        · exact .inr e.2
  | call i o => exact hs.on i 0 _ _ (fun _ => rfl) (fun _ => rfl) fun _ => .inl rfl
  | read i q => exact hs.on i 0 _ _ (fun _ => rfl) (fun _ => rfl) fun _ => .inl rfl
  | clone i =>
    show Sim (pushOf w i Hyper.clone) (pushOf w' i Hyper.clone) l
    unfold pushOf push
    rw [hs.objs]
    split
    · exact hs.objects _
    · exact hs.objects _
  | derive i d =>
    show Sim (pushOf w i (derived d)) (pushOf w' i (derived d)) l
    unfold pushOf push
    rw [hs.objs]
    split
    · exact hs.objects _
    · exact hs.objects _
  | editSeqs h d =>
    show Sim (exec w (.editSeqs h d)) (exec w' (.editSeqs h d)) (l.modify h (Args.editSeqs d))
    simp only [exec, hargs]
    by_cases hp : w.args ≤ h
    · simp only [if_pos hp]
      rw [modify_none _ _ _ (by rw [← hs.args]; exact hp)]
      exact hs
    · simp only [if_neg hp]
      have := hs.edit h _ fun x => x.editSeqs d
      rwa [hargs] at this
  | editVerts h d =>
    show Sim (exec w (.editVerts h d)) (exec w' (.editVerts h d)) (l.modify h (Args.editVerts d))
    simp only [exec, hargs]
    by_cases hp : w.args ≤ h
    · simp only [if_pos hp]
      rw [modify_none _ _ _ (by rw [← hs.args]; exact hp)]
      exact hs
    · simp only [if_neg hp]
      have := hs.edit h _ fun x => x.editVerts d
      rwa [hargs] at this

theorem Sim.run (hs : Sim w w' l) (p : List (Cmd K)) :
    Sim (execAll w p) (execAll w' (p.map Spec.copied)) (p.foldl Spec.writes l) := by
  induction p generalizing w w' l with
  | nil => exact hs
  | cons c p ih => exact ih (hs.step c)

theorem Sim.start : Sim (World.empty : World K) .empty [] :=
  ⟨rfl, rfl, fun _ _ h => by simp at h, fun _ _ h => by simp at h, rfl⟩

end Run

end Args
end DHG
