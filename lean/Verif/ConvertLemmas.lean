import Verif.Convert
import Verif.GraphAbs
import Verif.GraphHelpers
import Verif.GraphMat2
import Verif.HyperAbs
import Verif.HyperMat2
import Verif.BiMat
import Verif.ConvertSpec

/-!
# Lemmas about conversions
-/

set_option linter.unusedSectionVars false
set_option autoImplicit false

namespace DHG

variable {K : Type} [Field K] [LinearOrder K]

/-! ### folds of `put` on unordered pairs -/

namespace Graph

/-- the entry concerns the unordered pair -/
def Hits (e : Int × Int × K) (a b : Int) : Prop := (e.1 = a ∧ e.2.1 = b) ∨ (e.1 = b ∧ e.2.1 = a)

instance (e : Int × Int × K) (a b : Int) : Decidable (Hits e a b) := by unfold Hits; infer_instance

theorem put_apply (m : Spec.WMap K) (op : MergeOp) (e : Int × Int × K) (a b : Int)
    (hm : ∀ x y, m x y = m y x) :
    Spec.put m op e.1 e.2.1 e.2.2 a b =
      if Hits e a b then
        some (match m a b with | some old => Spec.merge op old e.2.2 | none => e.2.2)
      else m a b := by
  unfold Spec.put
  by_cases h : Hits e a b
  · have h' := h
    unfold Hits at h'
    rw [if_pos h, if_pos (by tauto)]
    have : m e.1 e.2.1 = m a b := by
      rcases h' with ⟨h1, h2⟩ | ⟨h1, h2⟩
      · rw [h1, h2]
      · rw [h1, h2]; exact hm _ _
    rw [this]
    cases m a b <;> rfl
  · have h' := h
    unfold Hits at h'
    rw [if_neg h, if_neg (by tauto)]

theorem put_sym {m : Spec.WMap K} (hm : ∀ x y, m x y = m y x) (op : MergeOp) (a b : Int) (w : K) :
    ∀ x y, Spec.put m op a b w x y = Spec.put m op a b w y x := by
  intro x y
  unfold Spec.put
  by_cases h : (x = a ∧ y = b) ∨ (x = b ∧ y = a)
  · rw [if_pos h, if_pos (by tauto)]
  · rw [if_neg h, if_neg (by tauto), hm]

/-- sums over all entries concerning a pair -/
theorem put_fold_sum (l : List (Int × Int × K)) (m : Spec.WMap K) (hm : ∀ x y, m x y = m y x)
    (a b : Int) :
    (l.foldl (fun m e => Spec.put m .sum e.1 e.2.1 e.2.2) m) a b =
      if ∃ e ∈ l, Hits e a b then
        some ((m a b).getD 0 + (l.map fun e => if Hits e a b then e.2.2 else 0).sum)
      else m a b := by
  induction l generalizing m with
  | nil => simp
  | cons e l ih =>
    rw [List.foldl_cons, ih _ (put_sym hm _ _ _ _), put_apply _ _ _ _ _ hm]
    simp only [List.mem_cons, exists_eq_or_imp, List.map_cons, List.sum_cons]
    by_cases h : Hits e a b
    · simp only [h, if_true, true_or]
      cases hv : m a b with
      | none => simp only [Option.getD_some, Option.getD_none]
                split
                · ring_nf
                · rename_i hn
                  have : (l.map fun e => if Hits e a b then e.2.2 else 0).sum = 0 := by
                    apply List.sum_eq_zero
                    intro x hx
                    obtain ⟨e', he', rfl⟩ := List.mem_map.1 hx
                    rw [if_neg fun hh => hn ⟨e', he', hh⟩]
                  rw [this]; ring_nf
      | some v => simp only [Option.getD_some, Spec.merge]
                  split
                  · ring_nf
                  · rename_i hn
                    have : (l.map fun e => if Hits e a b then e.2.2 else 0).sum = 0 := by
                      apply List.sum_eq_zero
                      intro x hx
                      obtain ⟨e', he', rfl⟩ := List.mem_map.1 hx
                      rw [if_neg fun hh => hn ⟨e', he', hh⟩]
                    rw [this]; ring_nf
    · simp only [h, if_false, false_or, zero_add]

/-- entries for different pairs -/
theorem put_fold_new (op : MergeOp) (l : List (Int × Int × K)) (m : Spec.WMap K)
    (hm : ∀ x y, m x y = m y x) (a b : Int)
    (hd : l.Pairwise fun e e' => ¬ (Hits e a b ∧ Hits e' a b)) (h0 : m a b = none) (w : K) :
    (l.foldl (fun m e => Spec.put m op e.1 e.2.1 e.2.2) m) a b = some w ↔
      ∃ e ∈ l, Hits e a b ∧ e.2.2 = w := by
  have key : ∀ (l : List (Int × Int × K)) (m : Spec.WMap K), (∀ x y, m x y = m y x) →
      (∀ e ∈ l, ¬ Hits e a b) →
      (l.foldl (fun m e => Spec.put m op e.1 e.2.1 e.2.2) m) a b = m a b := by
    intro l
    induction l with
    | nil => intro m _ _; rfl
    | cons e l ih =>
      intro m hm h
      rw [List.foldl_cons, ih _ (put_sym hm _ _ _ _) fun e' he' => h e' (List.mem_cons_of_mem _ he'),
        put_apply _ _ _ _ _ hm, if_neg (h e List.mem_cons_self)]
  induction l generalizing m with
  | nil => simp [h0]
  | cons e l ih =>
    rw [List.pairwise_cons] at hd
    rw [List.foldl_cons]
    by_cases h : Hits e a b
    · rw [key _ _ (put_sym hm _ _ _ _) fun e' he' h' => hd.1 e' he' ⟨h, h'⟩, put_apply _ _ _ _ _ hm,
        if_pos h, h0]
      simp only [List.mem_cons, exists_eq_or_imp, h, true_and, Option.some.injEq]
      constructor
      · exact Or.inl
      · rintro (h' | ⟨e', he', h', _⟩)
        · exact h'
        · exact absurd ⟨h, h'⟩ (hd.1 e' he')
    · refine (ih _ (put_sym hm op e.1 e.2.1 e.2.2) hd.2 (by rw [put_apply _ _ _ _ _ hm, if_neg h, h0])).trans ?_
      simp only [List.mem_cons, exists_eq_or_imp, h, false_and, false_or]

/-- entries for the same pair have the same weight -/
theorem put_fold_const [IsStrictOrderedRing K] {op : MergeOp} (hop : op = .mean ∨ op = .max)
    (l : List (Int × Int × K)) (m : Spec.WMap K) (hm : ∀ x y, m x y = m y x) (a b : Int) (c : K)
    (hl : ∀ e ∈ l, Hits e a b → e.2.2 = c) (h0 : ∀ v, m a b = some v → v = c) (w : K) :
    (l.foldl (fun m e => Spec.put m op e.1 e.2.1 e.2.2) m) a b = some w ↔
      w = c ∧ (m a b = some c ∨ ∃ e ∈ l, Hits e a b) := by
  have hc : Spec.merge op c c = c := by
    rcases hop with rfl | rfl
    · simp [Spec.merge]
    · simp [Spec.merge]
  induction l generalizing m with
  | nil =>
    simp only [List.foldl_nil, List.not_mem_nil, false_and, exists_false, or_false]
    constructor
    · intro h; have := h0 _ h; subst this; exact ⟨rfl, h⟩
    · rintro ⟨rfl, h⟩; exact h
  | cons e l ih =>
    rw [List.foldl_cons]
    refine (ih _ (put_sym hm op e.1 e.2.1 e.2.2) (fun e' he' => hl e' (List.mem_cons_of_mem _ he')) ?_).trans ?_
    rotate_left
    · rw [put_apply _ _ _ _ _ hm]
      simp only [List.mem_cons, exists_eq_or_imp]
      by_cases h : Hits e a b
      · simp only [h, if_true, true_or, or_true, and_true]
        have he := hl e List.mem_cons_self h
        cases hv : m a b with
        | none => simp [he]
        | some v => simp [he, h0 v hv, hc]
      · simp only [h, if_false, false_or]
    · intro v hv
      rw [put_apply _ _ _ _ _ hm] at hv
      by_cases h : Hits e a b
      · rw [if_pos h] at hv
        have he := hl e List.mem_cons_self h
        cases hv' : m a b with
        | none => rw [hv'] at hv; simp only [Option.some.injEq] at hv; rw [← hv]; exact he
        | some v' => rw [hv'] at hv; simp only [Option.some.injEq, he, h0 v' hv', hc] at hv; exact hv.symm
      · rw [if_neg h] at hv; exact h0 v hv

/-! ### the constructor on a list of edges -/

/-- the weighted entries -/
def entsOf (es : List (Int × Int)) (ws : WArg K) : List (Int × Int × K) :=
  match ws with
  | .none => es.map fun e => (e.1, e.2, 1)
  | .list ws => (es.zip ws).map fun e => (e.1.1, e.1.2, e.2)
  | .scalar _ => []

theorem new_many_ok {n : Nat} (hn : 0 < n) {es : List (Int × Int)} {ws : WArg K}
    (hb : ∀ e ∈ es, e.1 < (n : Int) ∧ e.2 < (n : Int)) {extra : Bool} {op : MergeOp}
    (hop : op ≠ .other ∨ es = []) (hw : ∀ w, ws ≠ .scalar w) :
    ∃ g, Graph.new n (some (.many es ws)) extra op = .ok g := by
  have hn' : (0 : Int) < (n : Int) := by omega
  unfold Graph.new GRaw.init
  rw [if_pos hn']
  simp only [bind, Except.bind]
  cases es with
  | nil => exact ⟨_, rfl⟩
  | cons e es =>
    have hop : op ≠ .other := by
      rcases hop with h | h
      · exact h
      · cases h
    obtain ⟨f, hf⟩ : ∃ f, mergeFn (K := K) op = .ok f := by
      cases op
      · exact ⟨_, rfl⟩
      · exact ⟨_, rfl⟩
      · exact ⟨_, rfl⟩
      · exact absurd rfl hop
    have hfmt : ∃ p, formatEdges (K := K) n (.many (e :: es) ws) = .ok p := by
      unfold formatEdges
      simp only []
      rw [if_pos hb]
      cases ws with
      | none => exact ⟨_, rfl⟩
      | list w => exact ⟨_, rfl⟩
      | scalar w => exact absurd rfl (hw w)
    obtain ⟨p, hp⟩ := hfmt
    have hem : (EArg.many (e :: es) ws).isEmpty = false := rfl
    unfold addEdges
    rw [hem]
    simp only [Bool.false_eq_true, if_false, PyM.bind_apply, readRaw, PyM.lift_apply, Int.toNat_natCast, hp]
    rw [forM_addEdge_ok hf]
    exact ⟨_, rfl⟩

theorem new_many_listed [PyReal K] {n : Nat} {es : List (Int × Int)} {ws : WArg K}
    (hb : ∀ e ∈ es, e.1 < (n : Int) ∧ e.2 < (n : Int)) {op : MergeOp}
    (hop : op ≠ .other) (hw : ∀ w, ws ≠ .scalar w) {g : GSt K}
    (h : Graph.new n (some (.many es ws)) false op = .ok g) (a b : Int) (w : K) :
    Spec.Listed g a b w ↔
      ((entsOf es ws).foldl (fun m e => Spec.put m op e.1 e.2.1 e.2.2) fun _ _ => none) a b = some w := by
  have hB : Built AnyArg g := .new h fun _ _ => trivial
  obtain ⟨h1, h2, h3⟩ := absS_new (K := K) h
  have hmap : absR g.raw = _ := congrArg Spec.GState.map h1
  have hex : g.raw.extra = false := congrArg Spec.GState.extra h1
  rw [hB.listed, hmap, hex]
  simp only [Bool.false_eq_true, false_and, or_false, Spec.new, Spec.add, Int.toNat_natCast]
  rw [if_pos ⟨hb, hop⟩]
  cases ws with
  | none => rfl
  | list ws => rfl
  | scalar w' => exact absurd rfl (hw w')

theorem new_numV [PyReal K] {n : Nat} {arg : Option (EArg K)} {extra : Bool} {op : MergeOp} {g : GSt K}
    (h : Graph.new n arg extra op = .ok g) : (ask .numV g).1 = .ok (.num n) := by
  obtain ⟨_, h2, _⟩ := absS_new (K := K) h
  show Except.ok (GAns.num g.raw.numV) = _
  rw [h2, Int.toNat_natCast]

end Graph

/-- reading inside a list loop -/
theorem Reads.collect {R κ ν α β : Type} [DecidableEq κ] {f : κ → R → Except Err ν}
    {xs : List β} {g : β → PyM (Cached R κ ν) α} {q : β → R → Except Err α}
    (h : ∀ x, Reads f (g x) (q x)) :
    Reads f (PyM.collect xs g) (fun r => collectE xs fun x => q x r) := by
  induction xs with
  | nil => exact Reads.pure _
  | cons x xs ih =>
    exact Reads.bind (h x) fun a => Reads.bind ih fun as => Reads.pure _

end DHG

namespace DHG

variable {K : Type} [Field K] [LinearOrder K]

namespace Graph
open Hyper (IncM Rng lstOf Has)

theorem entsOf_zip {α : Type} (l : List α) (f : α → Int × Int) (g : α → K) :
    entsOf (l.map f) (.list (l.map g)) = l.map fun e => ((f e).1, (f e).2, g e) := by
  simp only [entsOf, List.zip_map, List.map_map]
  induction l with
  | nil => rfl
  | cons a l ih => simp only [List.map_cons, List.zip_cons_cons, ih]; rfl

/-! ### star expansion -/

theorem star_ents {n : Nat} {l : List (List Int × K)} {H : Sp K} (h : IncM n l H) (weighted : Bool) :
    entsOf (starEdges n H) (starWts weighted H) =
      H.ents.map fun e => ((e.1.1 : Int), ((e.1.2 + n : Nat) : Int), (1 : K)) := by
  cases weighted with
  | false =>
    simp only [starWts, starEdges, Bool.false_eq_true, if_false, entsOf, List.map_map]; rfl
  | true =>
    simp only [starWts, starEdges, if_true]
    rw [entsOf_zip]
    exact List.map_congr_left fun e he => by rw [h.ones e he]

theorem star_fold {n : Nat} {l : List (List Int × K)} {H : Sp K} (h : IncM n l H) (op : MergeOp)
    (a b : Int) (w : K) :
    ((H.ents.map fun e => ((e.1.1 : Int), ((e.1.2 + n : Nat) : Int), (1 : K))).foldl
      (fun m e => Spec.put m op e.1 e.2.1 e.2.2) fun _ _ => none) a b = some w ↔
    w = 1 ∧ ∃ v j : Nat, v < n ∧ j < l.length ∧ (v : Int) ∈ Spec.hAt l j ∧
      ((a = v ∧ b = n + j) ∨ (a = n + j ∧ b = v)) := by
  rw [put_fold_new op _ _ (fun _ _ => rfl) a b _ rfl]
  · constructor
    · rintro ⟨e, he, hh, rfl⟩
      obtain ⟨e', he', rfl⟩ := List.mem_map.1 he
      obtain ⟨h1, h2, h3⟩ := (h.keys e'.1.1 e'.1.2).1 (List.mem_map_of_mem he')
      refine ⟨rfl, e'.1.1, e'.1.2, h1, h2, h3, ?_⟩
      unfold Hits at hh
      simp only at hh
      push_cast at hh
      omega
    · rintro ⟨rfl, v, j, h1, h2, h3, hh⟩
      obtain ⟨e', he', hk⟩ := List.mem_map.1 ((h.keys v j).2 ⟨h1, h2, h3⟩)
      refine ⟨_, List.mem_map_of_mem he', ?_, rfl⟩
      rw [hk]
      unfold Hits
      simp only
      push_cast
      omega
  · rw [List.pairwise_map]
    have hn := h.nodup
    rw [List.Nodup, List.pairwise_map] at hn
    have hwf := h.wf
    have hr := h.rows
    refine (List.Pairwise.and_mem.1 hn).imp ?_
    rintro x y ⟨hx, hy, hne⟩ ⟨h1, h2⟩
    apply hne
    have hx1 := (hwf x hx).1
    have hy1 := (hwf y hy).1
    unfold Hits at h1 h2
    simp only at h1 h2
    refine Prod.ext ?_ ?_ <;> omega

theorem star_bounds {n : Nat} {l : List (List Int × K)} {H : Sp K} (h : IncM n l H) :
    ∀ e ∈ starEdges n H, e.1 < ((n + l.length : Nat) : Int) ∧ e.2 < ((n + l.length : Nat) : Int) := by
  intro e he
  obtain ⟨e', he', rfl⟩ := List.mem_map.1 he
  obtain ⟨h1, h2, _⟩ := (h.keys e'.1.1 e'.1.2).1 (List.mem_map_of_mem he')
  simp only
  omega

theorem starWts_not_scalar (weighted : Bool) (H : Sp K) (w : K) : starWts weighted H ≠ .scalar w := by
  cases weighted <;> simp [starWts]

/-- cache-free star expansion -/
def evStar (weighted : Bool) (op : MergeOp) (r : HRaw K) : Except Err (GSt K × List Bool) := do
  let H ← Hyper.evH none r
  let ne ← Hyper.evNumE none r
  let g ← Graph.new ((r.numV + ne : Nat) : Int)
    (some (.many (starEdges r.numV H) (starWts weighted H))) false op
  .ok (g, List.replicate r.numV true ++ List.replicate ne false)

variable [PyReal K] {b : Bool}

theorem reads_star (weighted : Bool) (op : MergeOp) :
    Hyper.HReads (K := K) b (fromHypergraphStar weighted op) (evStar weighted op) :=
  (ReadsOn.bind (Hyper.reads_getH none) fun _ => ReadsOn.bind (ReadsOn.readRaw _) fun _ =>
    ReadsOn.bind (Hyper.reads_getNumE none) fun _ => ReadsOn.bind (ReadsOn.lift _) fun _ =>
      ReadsOn.pure _).congr fun _ => rfl

/-! ### clique expansion -/

theorem mm_HT {n : Nat} {l : List (List Int × K)} {H : Sp K} (h : IncM n l H) :
    ∃ P, H.mm H.t = .ok P ∧
      (∀ i j, (i, j) ∈ P.ents.map Prod.fst ↔
        i < n ∧ j < n ∧ ∃ e ∈ l, (i : Int) ∈ e.1 ∧ (j : Int) ∈ e.1) ∧
      (∀ i j, i < n → j < n → P.get i j = (Spec.together l i j : K)) := by
  obtain ⟨P, hP⟩ := Sp.mm_ok (P := H) (Q := H.t) rfl
  refine ⟨P, hP, ?_, ?_⟩
  · intro i j
    rw [Sp.mm_keys hP]
    constructor
    · rintro ⟨k, h1, h2⟩
      have h3 : (j, k) ∈ H.ents.map Prod.fst := by
        obtain ⟨e, he, hk⟩ := List.mem_map.1 h2
        obtain ⟨e', he', rfl⟩ := List.mem_map.1 he
        simp only [Prod.mk.injEq] at hk
        rw [← hk.1, ← hk.2]
        exact List.mem_map_of_mem he'
      obtain ⟨a1, a2, a3⟩ := (h.keys i k).1 h1
      obtain ⟨b1, b2, b3⟩ := (h.keys j k).1 h3
      rw [Hyper.hAt_of_lt a2] at a3 b3
      exact ⟨a1, b1, l[k], List.getElem_mem a2, a3, b3⟩
    · rintro ⟨h1, h2, e, he, h3, h4⟩
      obtain ⟨k, hk, rfl⟩ := List.getElem_of_mem he
      refine ⟨k, (h.keys i k).2 ⟨h1, hk, by rwa [Hyper.hAt_of_lt hk]⟩, ?_⟩
      have h5 := (h.keys j k).2 ⟨h2, hk, by rwa [Hyper.hAt_of_lt hk]⟩
      obtain ⟨e', he', hk'⟩ := List.mem_map.1 h5
      refine List.mem_map.2 ⟨((k, j), e'.2), List.mem_map.2 ⟨e', he', by rw [hk']⟩, rfl⟩
  · intro i j hi hj
    rw [Sp.mm_get hP h.wf]
    have : ∀ k, H.get i k * H.t.get k j = Spec.inc l i k * Spec.inc l j k := by
      intro k
      rw [Sp.get_t, h.get hi, h.get hj]
    rw [Finset.sum_congr rfl fun k _ => this k, h.cols]
    unfold Spec.together
    have key : ∀ l : List (List Int × K), ∑ k ∈ Finset.range l.length, Spec.inc l i k * Spec.inc l j k =
        ((l.filter fun e => decide ((i : Int) ∈ e.1 ∧ (j : Int) ∈ e.1)).length : K) := by
      intro l
      induction l with
      | nil => simp
      | cons e l ih =>
        rw [List.length_cons, Finset.sum_range_succ']
        have h1 : ∀ v k, Spec.inc (e :: l) v (k + 1) = Spec.inc l v k := fun v k => rfl
        have h2 : ∀ v, Spec.inc (e :: l) v 0 = if (v : Int) ∈ e.1 then (1 : K) else 0 := fun v => rfl
        simp only [h1, h2, ih, List.filter_cons]
        by_cases ha : (i : Int) ∈ e.1 <;> by_cases hb : (j : Int) ∈ e.1 <;> simp [ha, hb]
    exact key l

theorem mem_upper {P : Sp K} {e : (Nat × Nat) × K} : e ∈ upper P ↔ e ∈ P.ents ∧ e.1.1 < e.1.2 := by
  simp [upper]

/-- what the clique expansion knows about its matrix -/
structure CliqueM (n : Nat) (l : List (List Int × K)) (P : Sp K) : Prop where
  nodup : (P.ents.map Prod.fst).Nodup
  keys : ∀ i j, (i, j) ∈ P.ents.map Prod.fst ↔
        i < n ∧ j < n ∧ ∃ e ∈ l, (i : Int) ∈ e.1 ∧ (j : Int) ∈ e.1
  vals : ∀ e ∈ P.ents, e.2 = (Spec.together l e.1.1 e.1.2 : K)

theorem cliqueM_of {n : Nat} {l : List (List Int × K)} {H : Sp K} (h : IncM n l H) :
    ∃ P, H.mm H.t = .ok P ∧ CliqueM n l (P.coalesce.mapVals fun x => 1 * x) := by
  obtain ⟨P, hP, hk, hv⟩ := mm_HT h
  have hm : ∀ k, k ∈ ((P.coalesce.mapVals fun x => 1 * x).ents.map Prod.fst) ↔ k ∈ P.ents.map Prod.fst := by
    intro k
    have : (P.coalesce.mapVals fun x => 1 * x).ents.map Prod.fst = P.ents.coalesce.map Prod.fst := by
      simp only [Sp.mapVals, Sp.coalesce, List.map_map]; rfl
    rw [this, mem_keys_coalesce]
  refine ⟨P, hP, ?_, ?_, ?_⟩
  · have : (P.coalesce.mapVals fun x => 1 * x).ents.map Prod.fst = P.ents.coalesce.map Prod.fst := by
      simp only [Sp.mapVals, Sp.coalesce, List.map_map]; rfl
    rw [this]
    exact (sorted_coalesce P.ents).nodup
  · intro i j; rw [hm, hk]
  · intro e he
    have hk' := (hk e.1.1 e.1.2).1 ((hm _).1 (List.mem_map_of_mem he))
    obtain ⟨e', he', rfl⟩ := List.mem_map.1 he
    simp only [one_mul]
    rw [← hv _ _ hk'.1 hk'.2.1]
    show e'.2 = Ents.get P.ents e'.1.1 e'.1.2
    rw [← get_coalesce]
    exact (Ents.get_of_mem (sorted_coalesce P.ents).nodup he').symm

theorem clique_fold {n : Nat} {l : List (List Int × K)} {P : Sp K} (h : CliqueM n l P) (op : MergeOp)
    (hl : Rng n l) (f : (Nat × Nat) × K → K) (a b : Int) (w : K) :
    (((upper P).map fun e => ((e.1.1 : Int), (e.1.2 : Int), f e)).foldl
      (fun m e => Spec.put m op e.1 e.2.1 e.2.2) fun _ _ => none) a b = some w ↔
    ∃ e ∈ upper P, f e = w ∧ ((a = e.1.1 ∧ b = e.1.2) ∨ (a = e.1.2 ∧ b = e.1.1)) := by
  rw [put_fold_new op _ _ (fun _ _ => rfl) a b _ rfl]
  · constructor
    · rintro ⟨e, he, hh, rfl⟩
      obtain ⟨e', he', rfl⟩ := List.mem_map.1 he
      refine ⟨e', he', rfl, ?_⟩
      unfold Hits at hh
      simp only at hh
      omega
    · rintro ⟨e, he, rfl, hh⟩
      refine ⟨_, List.mem_map_of_mem he, ?_, rfl⟩
      unfold Hits
      simp only
      omega
  · rw [List.pairwise_map]
    have hn := h.nodup
    rw [List.Nodup, List.pairwise_map] at hn
    refine (List.Pairwise.and_mem.1 (hn.filter fun e => decide (e.1.1 < e.1.2))).imp ?_
    rintro x y ⟨hx, hy, hne⟩ ⟨h1, h2⟩
    apply hne
    have hx1 := (mem_upper.1 hx).2
    have hy1 := (mem_upper.1 hy).2
    unfold Hits at h1 h2
    simp only at h1 h2
    refine Prod.ext ?_ ?_ <;> omega

theorem clique_listed [IsStrictOrderedRing K] {n : Nat} (hn : 0 < n) {l : List (List Int × K)} {P : Sp K}
    (h : CliqueM n l P) (hl : Rng n l) (weighted : Bool) :
    ∃ g, cliqueGraph n weighted P = .ok g ∧ ∀ (a b : Int) (w : K), Spec.Listed g a b w ↔
      a ≠ b ∧ (∃ e ∈ l, a ∈ e.1 ∧ b ∈ e.1) ∧ w = if weighted then (Spec.together l a b : K) else 1 := by
  have hcomm : ∀ a b : Int, Spec.together l a b = Spec.together l b a := by
    intro a b; unfold Spec.together; congr 2; funext e; simp [and_comm]
  have hb : ∀ e ∈ (upper P).map fun e => ((e.1.1 : Int), (e.1.2 : Int)),
      e.1 < (n : Int) ∧ e.2 < (n : Int) := by
    intro e he
    obtain ⟨e', he', rfl⟩ := List.mem_map.1 he
    have := (h.keys e'.1.1 e'.1.2).1 (List.mem_map_of_mem (mem_upper.1 he').1)
    simp only; omega
  have conv : ∀ (f : (Nat × Nat) × K → K) (a b : Int) (w : K)
      (c : Int → Int → K) (_ : ∀ e ∈ upper P, f e = c e.1.1 e.1.2) (_ : ∀ a b, c a b = c b a),
      (∃ e ∈ upper P, f e = w ∧ ((a = e.1.1 ∧ b = e.1.2) ∨ (a = e.1.2 ∧ b = e.1.1))) ↔
      a ≠ b ∧ (∃ e ∈ l, a ∈ e.1 ∧ b ∈ e.1) ∧ w = c a b := by
    intro f a b w c hf hc
    constructor
    · rintro ⟨e, he, rfl, hh⟩
      have hlt := (mem_upper.1 he).2
      obtain ⟨h1, h2, x, hx, h3, h4⟩ := (h.keys e.1.1 e.1.2).1 (List.mem_map_of_mem (mem_upper.1 he).1)
      rcases hh with ⟨rfl, rfl⟩ | ⟨rfl, rfl⟩
      · exact ⟨by omega, ⟨x, hx, h3, h4⟩, hf e he⟩
      · exact ⟨by omega, ⟨x, hx, h4, h3⟩, by rw [hc]; exact hf e he⟩
    · rintro ⟨hne, ⟨x, hx, h1, h2⟩, rfl⟩
      obtain ⟨ha0, ha1⟩ := (hl x hx).2 a h1
      obtain ⟨hb0, hb1⟩ := (hl x hx).2 b h2
      obtain ⟨a, rfl⟩ := Int.eq_ofNat_of_zero_le ha0
      obtain ⟨b, rfl⟩ := Int.eq_ofNat_of_zero_le hb0
      rcases Nat.lt_or_ge a b with hab | hab
      · obtain ⟨e, he, hk⟩ := List.mem_map.1 ((h.keys a b).2 ⟨by omega, by omega, x, hx, h1, h2⟩)
        have he' : e ∈ upper P := mem_upper.2 ⟨he, by rw [hk]; exact hab⟩
        refine ⟨e, he', ?_, ?_⟩
        · rw [hf e he', hk]
        · rw [hk]; left; exact ⟨rfl, rfl⟩
      · have hab : b < a := by omega
        obtain ⟨e, he, hk⟩ := List.mem_map.1 ((h.keys b a).2 ⟨by omega, by omega, x, hx, h2, h1⟩)
        have he' : e ∈ upper P := mem_upper.2 ⟨he, by rw [hk]; exact hab⟩
        refine ⟨e, he', ?_, ?_⟩
        · rw [hf e he', hk, hc]
        · rw [hk]; right; exact ⟨rfl, rfl⟩
  cases weighted with
  | true =>
    obtain ⟨g, hg⟩ := new_many_ok (K := K) hn hb (extra := false) (op := .sum) (.inl (by decide))
      (ws := .list ((upper P).map Prod.snd)) (by simp)
    refine ⟨g, by simp only [cliqueGraph, if_true]; exact hg, ?_⟩
    intro a b w
    rw [new_many_listed hb (by decide) (by simp) hg, entsOf_zip, clique_fold h .sum hl Prod.snd]
    rw [conv Prod.snd a b w (fun a b => (Spec.together l a b : K)) ?_ ?_]
    · simp
    · intro e he; exact h.vals e (mem_upper.1 he).1
    · intro a b; rw [hcomm]
  | false =>
    obtain ⟨g, hg⟩ := new_many_ok (K := K) hn hb (extra := false) (op := .mean) (.inl (by decide))
      (ws := .none) (by simp)
    refine ⟨g, by simp only [cliqueGraph, Bool.false_eq_true, if_false]; exact hg, ?_⟩
    intro a b w
    rw [new_many_listed hb (by decide) (by simp) hg]
    have : entsOf ((upper P).map fun e => ((e.1.1 : Int), (e.1.2 : Int))) (.none : WArg K) =
        (upper P).map fun e => ((e.1.1 : Int), (e.1.2 : Int), (1 : K)) := by
      simp only [entsOf, List.map_map]; rfl
    rw [this, clique_fold h .mean hl fun _ => 1]
    rw [conv (fun _ => 1) a b w (fun _ _ => 1) (fun _ _ => rfl) (fun _ _ => rfl)]
    simp

/-- cache-free clique expansion -/
def evClique (weighted : Bool) (r : HRaw K) : Except Err (GSt K) := do
  let H ← Hyper.evH none r
  let HT ← Hyper.evHT none r
  let P ← H.mm HT
  cliqueGraph r.numV weighted (P.coalesce.mapVals fun x => 1 * x)

theorem reads_clique (weighted : Bool) (miu : K) :
    Hyper.HReads (K := K) b (fromHypergraphClique weighted miu) (evClique weighted) :=
  (ReadsOn.bind (ReadsOn.readRaw _) fun _ => ReadsOn.bind (Hyper.reads_getH none) fun _ =>
    ReadsOn.bind (Hyper.reads_getHT none) fun _ => ReadsOn.bind (ReadsOn.lift _) fun _ =>
      ReadsOn.lift _).congr fun _ => rfl

/-! ### HyperGCN expansion -/

theorem argmaxFrom_spec (i : Nat) (best : K) (j : Nat) (xs pre : List K) (hj : pre.length = j)
    (hi : pre[i]? = some best) (hb : ∀ x ∈ pre, x ≤ best) :
    ∃ y, (pre ++ xs)[argmaxFrom i best j xs]? = some y ∧ ∀ x ∈ pre ++ xs, x ≤ y := by
  induction xs generalizing i best j pre with
  | nil => exact ⟨best, by simpa [argmaxFrom] using hi, by simpa using hb⟩
  | cons x xs ih =>
    have hlt : i < pre.length := by
      by_contra hge
      rw [List.getElem?_eq_none (by omega)] at hi; cases hi
    simp only [argmaxFrom]
    by_cases h : best < x
    · rw [if_pos h]
      have := ih j x (j + 1) (pre ++ [x]) (by simp [hj]) (by simp [← hj]) (by
        intro y hy
        rcases List.mem_append.1 hy with hy | hy
        · exact (hb y hy).trans h.le
        · simp at hy; rw [hy])
      simpa using this
    · rw [if_neg h]
      have := ih i best (j + 1) (pre ++ [x]) (by simp [hj])
        (by rw [List.getElem?_append_left hlt]; exact hi) (by
        intro y hy
        rcases List.mem_append.1 hy with hy | hy
        · exact hb y hy
        · simp at hy; rw [hy]; exact not_lt.1 h)
      simpa using this

theorem argmax_spec {p : List K} (h : p ≠ []) : ∃ y, p[argmax p]? = some y ∧ ∀ x ∈ p, x ≤ y := by
  cases p with
  | nil => exact absurd rfl h
  | cons x xs =>
    have := argmaxFrom_spec 0 x 1 xs [x] rfl rfl (by simp)
    simpa [argmax] using this

theorem argmin_spec [IsStrictOrderedRing K] {p : List K} (h : p ≠ []) :
    ∃ y, p[argmin p]? = some y ∧ ∀ x ∈ p, y ≤ x := by
  obtain ⟨y, h1, h2⟩ := argmax_spec (p := p.map fun x => -x) (by simpa using h)
  rw [List.getElem?_map, Option.map_eq_some_iff] at h1
  obtain ⟨z, hz, rfl⟩ := h1
  refine ⟨z, hz, fun x hx => ?_⟩
  exact neg_le_neg_iff.1 (h2 (-x) (List.mem_map_of_mem hx))

theorem project_eq (X : Dense K) (rv : Nat → K) (v : Int) : project X rv v.toNat = Spec.proj X rv v := by
  unfold project Spec.proj
  generalize X.cols = n
  induction n with
  | zero => simp
  | succ n ih => rw [List.range_succ, Finset.sum_range_succ]; simp [ih]

/-- the vertex chosen by `argmax` / `argmin` -/
def pickA (X : Dense K) (rv : Nat → K) (e : List Int) : Int :=
  e.getD (argmax (e.map fun v => project X rv v.toNat)) 0
def pickB (X : Dense K) (rv : Nat → K) (e : List Int) : Int :=
  e.getD (argmin (e.map fun v => project X rv v.toNat)) 0

theorem pick_spec [IsStrictOrderedRing K] (X : Dense K) (rv : Nat → K) {e : List Int} (h : e ≠ []) :
    (argmax (e.map fun v => project X rv v.toNat) < e.length ∧
      argmin (e.map fun v => project X rv v.toNat) < e.length) ∧
    pickA X rv e ∈ e ∧ pickB X rv e ∈ e ∧
      ∀ v ∈ e, Spec.proj X rv v ≤ Spec.proj X rv (pickA X rv e) ∧
        Spec.proj X rv (pickB X rv e) ≤ Spec.proj X rv v := by
  obtain ⟨y, h1, h2⟩ := argmax_spec (p := e.map fun v => project X rv v.toNat) (by simpa using h)
  obtain ⟨z, h3, h4⟩ := argmin_spec (p := e.map fun v => project X rv v.toNat) (by simpa using h)
  rw [List.getElem?_map, Option.map_eq_some_iff] at h1 h3
  obtain ⟨u, hu, rfl⟩ := h1
  obtain ⟨v, hv, rfl⟩ := h3
  have hA : pickA X rv e = u := by unfold pickA; rw [List.getD_eq_getElem?_getD, hu]; rfl
  have hB : pickB X rv e = v := by unfold pickB; rw [List.getD_eq_getElem?_getD, hv]; rfl
  refine ⟨⟨?_, ?_⟩, ?_, ?_, ?_⟩
  · by_contra hge; rw [List.getElem?_eq_none (by omega)] at hu; cases hu
  · by_contra hge; rw [List.getElem?_eq_none (by omega)] at hv; cases hv
  · rw [hA]; exact List.mem_of_getElem? hu
  · rw [hB]; exact List.mem_of_getElem? hv
  · intro x hx
    rw [hA, hB, ← project_eq, ← project_eq, ← project_eq]
    exact ⟨h2 _ (List.mem_map_of_mem (f := fun v : Int => project X rv v.toNat) hx),
      h4 _ (List.mem_map_of_mem (f := fun v : Int => project X rv v.toNat) hx)⟩

/-- contributions of one hyperedge -/
def contrib (mediator : Bool) (A B : List Int → Int) (e : List Int) : List ((Int × Int) × K) :=
  if mediator then (Spec.mediators A B e).flatMap fun m =>
    [((A e, m), 1 / (2 * (e.length : K) - 3)), ((B e, m), 1 / (2 * (e.length : K) - 3))]
  else [((A e, B e), 1 / (e.length : K))]

theorem gcnHyperedge_eq [IsStrictOrderedRing K] {n : Nat} {X : Dense K} (hX : X.rows = n) (rv : Nat → K)
    (mediator : Bool) {e : List Int} (h2 : 2 ≤ e.length) (hn : e.Nodup)
    (hr : ∀ v ∈ e, 0 ≤ v ∧ v < (n : Int)) :
    gcnHyperedge X rv mediator e = .ok (contrib mediator (pickA X rv) (pickB X rv) e) := by
  have hne : e ≠ [] := by rintro rfl; simp at h2
  obtain ⟨⟨ha, hb⟩, _⟩ := pick_spec X rv hne
  unfold gcnHyperedge
  rw [if_pos h2, collectE_ok (g := fun v : Int => v.toNat) (by
    intro v hv
    obtain ⟨h0, h1⟩ := hr v hv
    unfold pyIdx
    rw [hX, if_pos ⟨by omega, h1⟩, if_pos h0])]
  simp only [bind, Except.bind, List.map_map, Except.ok.injEq]
  have hcomp : (project X rv ∘ fun v : Int => v.toNat) = fun v : Int => project X rv v.toNat := rfl
  rw [hcomp]
  cases mediator with
  | false => rfl
  | true =>
    simp only [gcnEdges, contrib, if_true, Spec.mediators]
    set ia := argmax (e.map fun v => project X rv v.toNat) with hia
    set ib := argmin (e.map fun v => project X rv v.toNat) with hib
    have hA : pickA X rv e = e.getD ia 0 := rfl
    have hB : pickB X rv e = e.getD ib 0 := rfl
    rw [hA, hB]
    have step1 : ∀ (g : Int → List ((Int × Int) × K)),
        (List.range e.length).flatMap (fun m => g (e.getD m 0)) = e.flatMap g := by
      intro g
      have : (List.range e.length).map (fun m => e.getD m 0) = e := by
        apply List.ext_getElem
        · simp
        · intro i h1 h2; simp [List.getD_eq_getElem?_getD, h2]
      conv_rhs => rw [← this, List.flatMap_map]
    have step2 : ∀ (q : Int → Bool) (g : Int → List ((Int × Int) × K)) (l : List Int),
        (l.filter q).flatMap g = l.flatMap fun m => if q m then g m else [] := by
      intro q g l
      induction l with
      | nil => rfl
      | cons x l ih =>
        rw [List.filter_cons]
        by_cases h : q x = true
        · rw [if_pos h, List.flatMap_cons, List.flatMap_cons, if_pos h, ih]
        · rw [if_neg h, List.flatMap_cons, if_neg h, ih, List.nil_append]
    rw [step2, ← step1]
    apply List.flatMap_congr
    intro m hm
    have hm := List.mem_range.1 hm
    have hinj : ∀ i, i < e.length → (e.getD m 0 ≠ e.getD i 0 ↔ m ≠ i) := by
      intro i hi
      have h1 : e.getD m 0 = e[m] := by simp [List.getD_eq_getElem?_getD, hm]
      have h2 : e.getD i 0 = e[i] := by simp [List.getD_eq_getElem?_getD, hi]
      rw [h1, h2, Ne, Ne, hn.getElem_inj_iff]
    by_cases hc : m ≠ ia ∧ m ≠ ib
    · rw [if_pos hc, if_pos]
      simp only [decide_eq_true_eq]
      exact ⟨(hinj ia ha).2 hc.1, (hinj ib hb).2 hc.2⟩
    · rw [if_neg hc, if_neg]
      simp only [decide_eq_true_eq]
      rintro ⟨h1, h2⟩
      exact hc ⟨(hinj ia ha).1 h1, (hinj ib hb).1 h2⟩

/-- cache-free HyperGCN expansion -/
def evGcn (X : Dense K) (mediator removeLoop : Bool) (rv : Nat → K) (r : HRaw K) :
    Except Err (GSt K) := do
  if r.numV = X.rows then
    let p ← Hyper.evE none r
    let ls ← collectE p.1 (gcnHyperedge X rv mediator)
    let l ← gcnFilter removeLoop ls.flatten
    Graph.new r.numV (some (.many (l.map Prod.fst) (.list (l.map Prod.snd)))) false .sum
  else .error .assertion

theorem reads_gcn (X : Dense K) (mediator removeLoop : Bool) (rv : Nat → K) :
    Hyper.HReads (K := K) b (fromHypergraphHypergcn X mediator removeLoop rv)
      (evGcn X mediator removeLoop rv) := by
  intro s hs
  unfold fromHypergraphHypergcn evGcn
  by_cases h : s.raw.numV = X.rows
  · rw [if_pos h]
    have := (ReadsOn.bind (Hyper.reads_getE (K := K) (b := b) none) fun p =>
      ReadsOn.bind (ReadsOn.lift (collectE p.1 (gcnHyperedge X rv mediator))) fun ls =>
      ReadsOn.bind (ReadsOn.lift (gcnFilter removeLoop ls.flatten)) fun l =>
      ReadsOn.lift (Graph.new s.raw.numV (some (.many (l.map Prod.fst) (.list (l.map Prod.snd)))) false
        .sum)) s hs
    simp only [PyM.bind_apply, readRaw, PyM.assert, decide_eq_true h, if_true] at this ⊢
    exact this
  · rw [if_neg h]
    simp only [PyM.bind_apply, readRaw, PyM.assert, h, decide_false, Bool.false_eq_true, if_false]
    exact ⟨rfl, rfl, hs⟩

/-- total weight of a list of weighted pairs for one pair -/
def pairWt (L : List ((Int × Int) × K)) (a b : Int) : K :=
  (L.map fun e => if Spec.SamePair e.1.1 e.1.2 a b then e.2 else 0).sum

theorem pairWt_append (L L' : List ((Int × Int) × K)) (a b : Int) :
    pairWt (L ++ L') a b = pairWt L a b + pairWt L' a b := by simp [pairWt]

theorem pairWt_flatten (Ls : List (List ((Int × Int) × K))) (a b : Int) :
    pairWt Ls.flatten a b = (Ls.map fun L => pairWt L a b).sum := by
  induction Ls with
  | nil => rfl
  | cons L Ls ih => rw [List.flatten_cons, pairWt_append, ih, List.map_cons, List.sum_cons]

theorem pairWt_filter {L : List ((Int × Int) × K)} {a b : Int} (h : a ≠ b) :
    pairWt (L.filter fun e => decide (e.1.1 ≠ e.1.2)) a b = pairWt L a b := by
  induction L with
  | nil => rfl
  | cons e L ih =>
    have hc : ∀ (e : (Int × Int) × K) L, pairWt (e :: L) a b =
        (if Spec.SamePair e.1.1 e.1.2 a b then e.2 else 0) + pairWt L a b := fun e L => rfl
    rw [List.filter_cons, hc]
    by_cases h1 : e.1.1 ≠ e.1.2
    · rw [if_pos (by simpa using h1), hc, ih]
    · rw [if_neg (by simpa using h1), ih, if_neg, zero_add]
      unfold Spec.SamePair
      push Not at h1
      omega

theorem sum_listed {n : Nat} (hn : 0 < n) {L : List ((Int × Int) × K)}
    (hb : ∀ e ∈ L, e.1.1 < (n : Int) ∧ e.1.2 < (n : Int)) :
    ∃ g, Graph.new n (some (.many (L.map Prod.fst) (.list (L.map Prod.snd)))) false .sum = .ok g ∧
      ∀ (a b : Int) (w : K), Spec.Listed g a b w ↔
        (∃ e ∈ L, Spec.SamePair e.1.1 e.1.2 a b) ∧ w = pairWt L a b := by
  have hb' : ∀ e ∈ L.map Prod.fst, e.1 < (n : Int) ∧ e.2 < (n : Int) := by
    intro e he
    obtain ⟨e', he', rfl⟩ := List.mem_map.1 he
    exact hb e' he'
  obtain ⟨g, hg⟩ := new_many_ok (K := K) hn hb' (extra := false) (op := .sum) (.inl (by decide))
      (ws := .list (L.map Prod.snd)) (by simp)
  refine ⟨g, hg, ?_⟩
  intro a b w
  rw [new_many_listed hb' (by decide) (by simp) hg, entsOf_zip, put_fold_sum _ _ (fun _ _ => rfl)]
  have he : (∃ e ∈ L.map fun e : (Int × Int) × K => (e.1.1, e.1.2, e.2), Hits e a b) ↔
      ∃ e ∈ L, Spec.SamePair e.1.1 e.1.2 a b := by
    constructor
    · rintro ⟨e, he, hh⟩
      obtain ⟨e', he', rfl⟩ := List.mem_map.1 he
      exact ⟨e', he', hh⟩
    · rintro ⟨e, he, hh⟩
      exact ⟨_, List.mem_map_of_mem he, hh⟩
  have hs : ((L.map fun e : (Int × Int) × K => (e.1.1, e.1.2, e.2)).map fun e =>
      if Hits e a b then e.2.2 else 0).sum = pairWt L a b := by
    rw [List.map_map]; rfl
  rw [hs]
  by_cases h : ∃ e ∈ L, Spec.SamePair e.1.1 e.1.2 a b
  · rw [if_pos (he.2 h)]
    simp only [Option.getD_none, zero_add, Option.some.injEq, h, true_and]
    exact eq_comm
  · rw [if_neg (fun h' => h (he.1 h'))]
    simp [h]

theorem contrib_wt (mediator : Bool) (A B : List Int → Int) (l : List (List Int × K)) (a b : Int) :
    pairWt (l.map fun e => contrib mediator A B e.1).flatten a b =
      if mediator then Spec.mediatorWt l A B a b else Spec.plainWt l A B a b := by
  rw [pairWt_flatten, List.map_map]
  cases mediator with
  | false =>
    simp only [Bool.false_eq_true, if_false, Spec.plainWt]
    congr 1
    apply List.map_congr_left
    intro e _
    simp [pairWt, contrib]
  | true =>
    simp only [if_true, Spec.mediatorWt]
    congr 1
    apply List.map_congr_left
    intro e _
    simp only [Function.comp_apply, contrib, if_true]
    have : ∀ ms : List Int, pairWt (ms.flatMap fun m =>
        [((A e.1, m), 1 / (2 * (e.1.length : K) - 3)), ((B e.1, m), 1 / (2 * (e.1.length : K) - 3))]) a b =
        (ms.map fun m =>
          (if Spec.SamePair (A e.1) m a b then 1 / (2 * (e.1.length : K) - 3) else 0) +
          (if Spec.SamePair (B e.1) m a b then 1 / (2 * (e.1.length : K) - 3) else 0)).sum := by
      intro ms
      induction ms with
      | nil => rfl
      | cons m ms ih =>
        rw [List.flatMap_cons, pairWt_append, ih, List.map_cons, List.sum_cons]
        simp [pairWt]
    exact this _

theorem contrib_mem {mediator : Bool} {A B : List Int → Int} {l : List (List Int × K)} {a b : Int} :
    (∃ x ∈ (l.map fun e => contrib (K := K) mediator A B e.1).flatten, Spec.SamePair x.1.1 x.1.2 a b) ↔
      if mediator then ∃ e ∈ l, ∃ m ∈ Spec.mediators A B e.1,
        Spec.SamePair (A e.1) m a b ∨ Spec.SamePair (B e.1) m a b
      else ∃ e ∈ l, Spec.SamePair (A e.1) (B e.1) a b := by
  cases mediator with
  | false =>
    simp only [Bool.false_eq_true, if_false, List.mem_flatten, List.mem_map, contrib]
    constructor
    · rintro ⟨x, ⟨_, ⟨e, he, rfl⟩, hx⟩, hh⟩
      simp only [List.mem_singleton] at hx
      subst hx
      exact ⟨e, he, hh⟩
    · rintro ⟨e, he, hh⟩
      exact ⟨((A e.1, B e.1), 1 / (e.1.length : K)), ⟨_, ⟨e, he, rfl⟩, by simp⟩, hh⟩
  | true =>
    simp only [if_true, List.mem_flatten, List.mem_map, contrib]
    constructor
    · rintro ⟨x, ⟨_, ⟨e, he, rfl⟩, hx⟩, hh⟩
      obtain ⟨m, hm, hx⟩ := List.mem_flatMap.1 hx
      refine ⟨e, he, m, hm, ?_⟩
      simp only [List.mem_cons, List.not_mem_nil, or_false] at hx
      rcases hx with rfl | rfl
      · left; exact hh
      · right; exact hh
    · rintro ⟨e, he, m, hm, hh | hh⟩
      · exact ⟨((A e.1, m), 1 / (2 * (e.1.length : K) - 3)), ⟨_, ⟨e, he, rfl⟩,
          List.mem_flatMap.2 ⟨m, hm, by simp⟩⟩, hh⟩
      · exact ⟨((B e.1, m), 1 / (2 * (e.1.length : K) - 3)), ⟨_, ⟨e, he, rfl⟩,
          List.mem_flatMap.2 ⟨m, hm, by simp⟩⟩, hh⟩

theorem contrib_bound {mediator : Bool} {A B : List Int → Int} {n : Nat} {l : List (List Int × K)}
    (hl : Rng n l) (hA : ∀ e ∈ l, A e.1 ∈ e.1 ∧ B e.1 ∈ e.1) :
    ∀ x ∈ (l.map fun e => contrib (K := K) mediator A B e.1).flatten,
      (0 ≤ x.1.1 ∧ x.1.1 < (n : Int)) ∧ (0 ≤ x.1.2 ∧ x.1.2 < (n : Int)) := by
  intro x hx
  obtain ⟨_, hL, hx⟩ := List.mem_flatten.1 hx
  obtain ⟨e, he, rfl⟩ := List.mem_map.1 hL
  have h1 := (hl e he).2 _ (hA e he).1
  have h2 := (hl e he).2 _ (hA e he).2
  unfold contrib at hx
  cases mediator with
  | false =>
    simp only [Bool.false_eq_true, if_false, List.mem_singleton] at hx
    subst hx; exact ⟨h1, h2⟩
  | true =>
    simp only [if_true] at hx
    obtain ⟨m, hm, hx⟩ := List.mem_flatMap.1 hx
    have h3 := (hl e he).2 m (List.mem_of_mem_filter hm)
    simp only [List.mem_cons, List.not_mem_nil, or_false] at hx
    rcases hx with rfl | rfl
    · exact ⟨h1, h3⟩
    · exact ⟨h2, h3⟩

theorem mem_filter_pair {L : List ((Int × Int) × K)} {a b : Int} :
    (∃ x ∈ L.filter fun e => decide (e.1.1 ≠ e.1.2), Spec.SamePair x.1.1 x.1.2 a b) ↔
      a ≠ b ∧ ∃ x ∈ L, Spec.SamePair x.1.1 x.1.2 a b := by
  constructor
  · rintro ⟨x, hx, hh⟩
    obtain ⟨h1, h2⟩ := List.mem_filter.1 hx
    simp only [decide_eq_true_eq] at h2
    refine ⟨?_, x, h1, hh⟩
    unfold Spec.SamePair at hh
    omega
  · rintro ⟨hne, x, hx, hh⟩
    refine ⟨x, List.mem_filter.2 ⟨hx, ?_⟩, hh⟩
    simp only [decide_eq_true_eq]
    unfold Spec.SamePair at hh
    omega

/-- the edges of the HyperGCN expansion -/
theorem gcn_listed {n : Nat} (hn : 0 < n) {l : List (List Int × K)} (hl : Rng n l)
    {A B : List Int → Int} (hA : ∀ e ∈ l, A e.1 ∈ e.1 ∧ B e.1 ∈ e.1) (mediator removeLoop : Bool)
    (hne : removeLoop = true → (l.map fun e => contrib (K := K) mediator A B e.1).flatten ≠ []) :
    ∃ L, gcnFilter removeLoop (l.map fun e => contrib (K := K) mediator A B e.1).flatten = .ok L ∧
      ∃ g, Graph.new n (some (.many (L.map Prod.fst) (.list (L.map Prod.snd)))) false .sum = .ok g ∧
        Built NonNeg g ∧
        ∀ (a b : Int) (w : K), Spec.Listed g a b w ↔
          (removeLoop = true → a ≠ b) ∧
          (if mediator then ∃ e ∈ l, ∃ m ∈ Spec.mediators A B e.1,
              Spec.SamePair (A e.1) m a b ∨ Spec.SamePair (B e.1) m a b
            else ∃ e ∈ l, Spec.SamePair (A e.1) (B e.1) a b) ∧
          w = if mediator then Spec.mediatorWt l A B a b else Spec.plainWt l A B a b := by
  have hb := contrib_bound (mediator := mediator) hl hA
  cases removeLoop with
  | false =>
    refine ⟨_, rfl, ?_⟩
    obtain ⟨g, hg, h⟩ := sum_listed hn fun e he => ⟨(hb e he).1.2, (hb e he).2.2⟩
    refine ⟨g, hg, .new hg (by
      intro a ha
      cases ha
      intro e he
      obtain ⟨x, hx, rfl⟩ := List.mem_map.1 he
      have := hb x hx
      exact ⟨this.1.1, this.2.1⟩), fun a b w => ?_⟩
    rw [h, contrib_mem, contrib_wt]
    simp
  | true =>
    refine ⟨_, by simp only [gcnFilter, if_true]; rw [if_neg (hne rfl)], ?_⟩
    obtain ⟨g, hg, h⟩ := sum_listed hn (L := (l.map fun e => contrib (K := K) mediator A B e.1).flatten.filter
      fun e => decide (e.1.1 ≠ e.1.2)) fun e he =>
        ⟨(hb e (List.mem_of_mem_filter he)).1.2, (hb e (List.mem_of_mem_filter he)).2.2⟩
    refine ⟨g, hg, .new hg (by
      intro a ha
      cases ha
      intro e he
      obtain ⟨x, hx, rfl⟩ := List.mem_map.1 he
      have := hb x (List.mem_of_mem_filter hx)
      exact ⟨this.1.1, this.2.1⟩), fun a b w => ?_⟩
    rw [h, mem_filter_pair, contrib_mem]
    constructor
    · rintro ⟨⟨h1, h2⟩, rfl⟩
      exact ⟨fun _ => h1, h2, by rw [pairWt_filter h1, contrib_wt]⟩
    · rintro ⟨h1, h2, rfl⟩
      exact ⟨⟨h1 rfl, h2⟩, by rw [pairWt_filter (h1 rfl), contrib_wt]⟩

end Graph
end DHG
