import Verif.ArgListsLemmas
import Verif.GraphLemmas
import Verif.DiGraphLemmas
import Verif.BiGraphLemmas

/-!
# Lemmas on hypergraphs made of the list that another object keeps in its cache
-/

set_option linter.unusedSectionVars false
set_option autoImplicit false

namespace DHG
namespace Args

variable {K : Type} [Field K] [LinearOrder K]

theorem set_same {κ ν : Type} [DecidableEq κ] (d : Dict κ ν) (k : κ) (v : ν) (h : d.get? k = some v) :
    d.set k v = d := by
  induction d with
  | nil => cases h
  | cons p d ih =>
    obtain ⟨a, b⟩ := p
    simp only [Dict.get?] at h
    simp only [Dict.set]
    split
    · next e => rw [if_pos e] at h; cases h; rfl
    · next e => rw [if_neg e] at h; rw [ih h]

theorem memo_get {R κ ν : Type} [DecidableEq κ] (k : κ) (c : PyM (Cached R κ ν) ν) (s : Cached R κ ν) (v : ν)
    (h : (memo k c s).1 = .ok v) : (memo k c s).2.cache.get? k = some v := by
  unfold memo at h ⊢
  cases e : s.cache.get? k with
  | some x => simp only [e] at h ⊢; cases h; rfl
  | none =>
    simp only [e] at h ⊢
    rcases hx : c s with ⟨x1, x2⟩
    rw [hx] at h
    cases x1 with
    | error e => cases h
    | ok x => cases h; simp [Dict.get?_set]

/-! ## sorted lists are left alone -/

theorem newFrom_result (n : Int) (l : HArg) (ew : HW K) (vw : Option (List K)) (op : MergeOp) :
    (newFrom n l ew vw op).1 = Hyper.new n (some l) ew vw op := new_eq n (some 0) ew vw op fun _ => l

theorem newFrom_list (n : Int) (l : HArg) (ew : HW K) (vw : Option (List K)) (op : MergeOp) :
    (newFrom n l ew vw op).2 = l ∨ (newFrom n l ew vw op).2 = l.after := by
  unfold newFrom
  rcases new_mem n 0 ew vw op fun _ => l with e | e <;> rw [e]
  · exact .inl rfl
  · exact .inr (Function.update_self 0 l.after fun _ => l)

theorem after_sorted (es : List PySeq) (h : ∀ x ∈ es, x.tup = true ∧ sortV x.items = x.items) :
    (HArg.many false es).after = .many false es := by
  simp only [HArg.after]
  congr 1
  conv_rhs => rw [← List.map_id es]
  refine List.map_congr_left fun x hx => ?_
  obtain ⟨h1, h2⟩ := h x hx
  obtain ⟨t, l⟩ := x
  simp only [id]
  rw [h2]
  exact congrArg (fun t => PySeq.mk t l) h1.symm

theorem sortV_pair {a b : Int} (h : a ≤ b) : sortV [a, b] = [a, b] := sortV_of_sorted (by simpa using h)

theorem sortV_pair' {a b : Int} (h : b < a) : sortV [a, b] = [b, a] := by
  simp [sortV, List.insertionSort, List.orderedInsert, not_le.2 h]

theorem toPairs_ofPairs (es : List (Int × Int)) : toPairs (ofPairs es) = es := by
  simp [toPairs, ofPairs, Function.comp_def]

theorem toTuples_ofTuples (es : List (List Int)) : toTuples (ofTuples es) = es := by
  simp [toTuples, ofTuples, Function.comp_def]

theorem pairs_kept (n : Int) (es : List (Int × Int)) (h : ∀ e ∈ es, e.1 ≤ e.2) (ew : HW K) (vw : Option (List K))
    (op : MergeOp) : toPairs (newFrom n (ofPairs es) ew vw op).2 = es := by
  have h1 : (ofPairs es).after = ofPairs es := after_sorted _ fun x hx => by
    obtain ⟨e, he, rfl⟩ := List.mem_map.1 hx
    exact ⟨rfl, sortV_pair (h e he)⟩
  rcases newFrom_list n (ofPairs es) ew vw op with e | e <;> rw [e]
  · exact toPairs_ofPairs es
  · rw [h1]; exact toPairs_ofPairs es

theorem tuples_kept (n : Int) (es : List (List Int)) (h : ∀ e ∈ es, sortV e = e) (ew : HW K) (vw : Option (List K))
    (op : MergeOp) : toTuples (newFrom n (ofTuples es) ew vw op).2 = es := by
  have h1 : (ofTuples es).after = ofTuples es := after_sorted _ fun x hx => by
    obtain ⟨e, he, rfl⟩ := List.mem_map.1 hx
    exact ⟨rfl, h e he⟩
  rcases newFrom_list n (ofTuples es) ew vw op with e | e <;> rw [e]
  · exact toTuples_ofTuples es
  · rw [h1]; exact toTuples_ofTuples es

/-! ## the cached entry -/

theorem graph_entry (g : GSt K) {p : List (Int × Int) × List K} (h : (Graph.getE g).1 = .ok p) :
    (Graph.getE g).2.cache.get? .e = some (.edges p.1 p.2) := by
  unfold Graph.getE at h ⊢
  simp only [PyM.bind_apply] at h ⊢
  have := memo_get GKey.e (readRaw fun r : GRaw K => GVal.edges r.edgeList r.edgeWts) g
  rcases hx : memo GKey.e (readRaw fun r : GRaw K => GVal.edges r.edgeList r.edgeWts) g with ⟨x1, x2⟩
  rw [hx] at h this
  cases x1 with
  | error e => cases h
  | ok v =>
    cases v with
    | mat M => cases h
    | edges es ws => cases h; exact this _ rfl

theorem ord_entry (g : OSt K) {p : List (Int × Int) × List K} (h : (Ord.getE g).1 = .ok p) :
    (Ord.getE g).2.cache.get? .e = some (.edges p.1 p.2) := by
  unfold Ord.getE at h ⊢
  simp only [PyM.bind_apply] at h ⊢
  have := memo_get (R := GRaw K) OKey.e (readRaw fun r : GRaw K => GVal.edges r.edgeList r.edgeWts) g
  rcases hx : memo (R := GRaw K) OKey.e (readRaw fun r : GRaw K => GVal.edges r.edgeList r.edgeWts) g with ⟨x1, x2⟩
  rw [hx] at h this
  cases x1 with
  | error e => cases h
  | ok v =>
    cases v with
    | mat M => cases h
    | edges es ws => cases h; exact this _ rfl

theorem hyper_entry (sc : Option String) (s : HSt K) {p : List (List Int) × List K} (h : (Hyper.getE sc s).1 = .ok p) :
    (Hyper.getE sc s).2.cache.get? (sc, .e) = some (.edges p.1 p.2) := by
  have key : ∀ (k : HKey) (c : PyM (HSt K) (HVal K)) (s : HSt K) (p : List (List Int) × List K),
      ((memo k c >>= Hyper.asEdges) s).1 = .ok p →
        ((memo k c >>= Hyper.asEdges) s).2.cache.get? k = some (.edges p.1 p.2) := by
    intro k c s p h
    simp only [PyM.bind_apply] at h ⊢
    have := memo_get k c s
    rcases hx : memo k c s with ⟨x1, x2⟩
    rw [hx] at h this
    cases x1 with
    | error e => cases h
    | ok v =>
      cases v with
      | edges es ws => cases h; exact this _ rfl
      | _ => cases h
  cases sc with
  | none => exact key _ _ _ _ h
  | some g =>
    simp only [Hyper.getE, Hyper.getEOf] at h ⊢
    rw [PyM.bind_apply] at h ⊢
    rcases hx : Hyper.check (some g) s with ⟨x1, x2⟩
    rw [hx] at h
    cases x1 with
    | error e => cases h
    | ok v => exact key _ _ _ _ h

end Args
end DHG
