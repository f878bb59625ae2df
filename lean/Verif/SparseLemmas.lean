import Verif.Sparse

/-! # Lemmas about sparse tensors -/

set_option linter.unusedSectionVars false
set_option autoImplicit false

namespace DHG

open Finset

theorem lexLt_irrefl (a : Nat × Nat) : ¬ lexLt a a := by unfold lexLt; omega
theorem lexLt_trans {a b c : Nat × Nat} (h : lexLt a b) (h' : lexLt b c) : lexLt a c := by
  unfold lexLt at *; omega
theorem lexLt_total {a b : Nat × Nat} (h : a ≠ b) (h' : ¬ lexLt a b) : lexLt b a := by
  unfold lexLt at *
  have : a.1 ≠ b.1 ∨ a.2 ≠ b.2 := by
    by_contra hc
    simp only [not_or, not_not] at hc
    exact h (Prod.ext hc.1 hc.2)
  omega

section
variable {K : Type} [Field K]

@[simp] theorem Ents.get_nil (i j : Nat) : Ents.get ([] : Ents K) i j = 0 := rfl
@[simp] theorem Ents.get_cons (e : (Nat × Nat) × K) (l : Ents K) (i j : Nat) :
    Ents.get (e :: l) i j = (if e.1 = (i, j) then e.2 else 0) + Ents.get l i j := by
  simp [Ents.get]
@[simp] theorem Ents.get_append (l l' : Ents K) (i j : Nat) :
    Ents.get (l ++ l') i j = Ents.get l i j + Ents.get l' i j := by
  simp [Ents.get]

theorem Ents.get_eq_zero (l : Ents K) (i j : Nat) (h : (i, j) ∉ l.map Prod.fst) :
    Ents.get l i j = 0 := by
  induction l with
  | nil => rfl
  | cons e l ih =>
    simp only [List.map_cons, List.mem_cons, not_or] at h
    rw [Ents.get_cons, if_neg (Ne.symm h.1), ih h.2, add_zero]

theorem get_insertEnt (ij : Nat × Nat) (x : K) (l : Ents K) (i j : Nat) :
    Ents.get (insertEnt ij x l) i j = (if ij = (i, j) then x else 0) + Ents.get l i j := by
  induction l with
  | nil => simp [insertEnt]
  | cons e l ih =>
    obtain ⟨kl, y⟩ := e
    simp only [insertEnt]
    split
    · subst_vars; simp only [Ents.get_cons]; split <;> ring
    · split
      · simp only [Ents.get_cons]
      · simp only [Ents.get_cons, ih]; ring

/-- strictly increasing indices -/
def Ents.Sorted (l : Ents K) : Prop := (l.map Prod.fst).Pairwise lexLt

theorem mem_keys_insertEnt (ij kl : Nat × Nat) (x : K) (l : Ents K) :
    kl ∈ (insertEnt ij x l).map Prod.fst ↔ kl = ij ∨ kl ∈ l.map Prod.fst := by
  induction l with
  | nil => simp [insertEnt]
  | cons e l ih =>
    obtain ⟨k, y⟩ := e
    simp only [insertEnt]
    split
    · subst_vars; simp
    · split
      · simp
      · simp only [List.map_cons, List.mem_cons, ih]; tauto

theorem sorted_insertEnt (ij : Nat × Nat) (x : K) (l : Ents K) (h : Ents.Sorted l) :
    Ents.Sorted (insertEnt ij x l) := by
  induction l with
  | nil => simp [insertEnt, Ents.Sorted]
  | cons e l ih =>
    obtain ⟨k, y⟩ := e
    simp only [Ents.Sorted, List.map_cons, List.pairwise_cons] at h
    simp only [insertEnt]
    split
    · subst_vars
      simp only [Ents.Sorted, List.map_cons, List.pairwise_cons]; exact h
    · rename_i hne
      split
      · rename_i hlt
        simp only [Ents.Sorted, List.map_cons, List.pairwise_cons]
        refine ⟨?_, h⟩
        intro a ha
        simp only [List.mem_cons] at ha
        rcases ha with ha | ha
        · rw [ha]; exact hlt
        · exact lexLt_trans hlt (h.1 a ha)
      · rename_i hnlt
        simp only [Ents.Sorted, List.map_cons, List.pairwise_cons]
        refine ⟨?_, ih h.2⟩
        intro a ha
        rw [mem_keys_insertEnt] at ha
        rcases ha with ha | ha
        · rw [ha]; exact lexLt_total hne hnlt
        · exact h.1 a ha

theorem foldl_insert_get (l acc : Ents K) (i j : Nat) :
    Ents.get (l.foldl (fun acc e => insertEnt e.1 e.2 acc) acc) i j =
      Ents.get acc i j + Ents.get l i j := by
  induction l generalizing acc with
  | nil => simp
  | cons e l ih => rw [List.foldl_cons, ih, get_insertEnt, Ents.get_cons]; ring

theorem get_coalesce (l : Ents K) (i j : Nat) : Ents.get l.coalesce i j = Ents.get l i j := by
  unfold Ents.coalesce; rw [foldl_insert_get]; simp

theorem foldl_insert_keys (l acc : Ents K) (k : Nat × Nat) :
    k ∈ (l.foldl (fun acc e => insertEnt e.1 e.2 acc) acc).map Prod.fst ↔
      k ∈ acc.map Prod.fst ∨ k ∈ l.map Prod.fst := by
  induction l generalizing acc with
  | nil => simp
  | cons e l ih =>
    rw [List.foldl_cons, ih, mem_keys_insertEnt]
    simp only [List.map_cons, List.mem_cons]; tauto

theorem mem_keys_coalesce (l : Ents K) (k : Nat × Nat) :
    k ∈ l.coalesce.map Prod.fst ↔ k ∈ l.map Prod.fst := by
  unfold Ents.coalesce; rw [foldl_insert_keys]; simp

theorem foldl_insert_sorted (l acc : Ents K) (h : Ents.Sorted acc) :
    Ents.Sorted (l.foldl (fun acc e => insertEnt e.1 e.2 acc) acc) := by
  induction l generalizing acc with
  | nil => exact h
  | cons e l ih => rw [List.foldl_cons]; exact ih _ (sorted_insertEnt _ _ _ h)

theorem sorted_coalesce (l : Ents K) : Ents.Sorted l.coalesce :=
  foldl_insert_sorted l [] (by simp [Ents.Sorted])

theorem Ents.Sorted.nodup {l : Ents K} (h : Ents.Sorted l) : (l.map Prod.fst).Nodup :=
  List.Pairwise.imp (fun hab => by rintro rfl; exact lexLt_irrefl _ hab) h

/-- with distinct indices the value at a stored index is the stored value -/
theorem Ents.get_of_mem {l : Ents K} (h : (l.map Prod.fst).Nodup) {i j : Nat} {x : K}
    (hm : ((i, j), x) ∈ l) : Ents.get l i j = x := by
  induction l with
  | nil => simp at hm
  | cons e l ih =>
    simp only [List.map_cons, List.nodup_cons] at h
    rcases List.mem_cons.1 hm with hm | hm
    · subst hm
      rw [Ents.get_cons, if_pos rfl, Ents.get_eq_zero l i j h.1, add_zero]
    · have hne : e.1 ≠ (i, j) := by
        rintro he
        exact h.1 (he ▸ List.mem_map_of_mem (f := Prod.fst) hm)
      rw [Ents.get_cons, if_neg hne, ih h.2 hm, zero_add]

/-- a coalesced list is determined by its index set and its values -/
theorem Ents.Sorted.ext {l l' : Ents K} (h : Ents.Sorted l) (h' : Ents.Sorted l')
    (hk : ∀ k, k ∈ l.map Prod.fst ↔ k ∈ l'.map Prod.fst)
    (hg : ∀ i j, Ents.get l i j = Ents.get l' i j) : l = l' := by
  have hkeys : l.map Prod.fst = l'.map Prod.fst := by
    have hp : (l.map Prod.fst).Perm (l'.map Prod.fst) :=
      (List.perm_ext_iff_of_nodup h.nodup h'.nodup).2 hk
    exact hp.eq_of_pairwise (fun a b _ _ hab hba =>
      absurd (lexLt_trans hab hba) (lexLt_irrefl a)) h h'
  have hl : l.length = l'.length := by
    have := congrArg List.length hkeys; simpa using this
  apply List.ext_getElem hl
  intro n h1 h2
  have hf : (l[n]).1 = (l'[n]).1 := by
    have h3 : n < (l.map Prod.fst).length := by simpa using h1
    have : (l.map Prod.fst)[n] = (l'.map Prod.fst)[n]'(by simpa using h2) := by
      simp only [hkeys]
    simpa using this
  have e1 := Ents.get_of_mem h.nodup (i := l[n].1.1) (j := l[n].1.2) (x := l[n].2)
    (List.getElem_mem h1)
  have e2 := Ents.get_of_mem h'.nodup (i := l'[n].1.1) (j := l'[n].1.2) (x := l'[n].2)
    (List.getElem_mem h2)
  apply Prod.ext hf
  rw [← e1, ← e2, hg, hf]

@[simp] theorem Sp.get_coalesce (M : Sp K) (i j : Nat) : M.coalesce.get i j = M.get i j :=
  DHG.get_coalesce _ _ _

theorem Sp.WF.coalesce {M : Sp K} (h : M.WF) : M.coalesce.WF := by
  intro e he
  have : e.1 ∈ M.ents.map Prod.fst := by
    rw [← mem_keys_coalesce]; exact List.mem_map_of_mem (f := Prod.fst) he
  obtain ⟨e', he', heq⟩ := List.mem_map.1 this
  have := h e' he'
  rw [heq] at this; exact this

theorem Ents.get_swap (l : Ents K) (i j : Nat) :
    Ents.get (l.map fun e => ((e.1.2, e.1.1), e.2)) i j = Ents.get l j i := by
  induction l with
  | nil => rfl
  | cons e l ih =>
    rw [List.map_cons, Ents.get_cons, Ents.get_cons, ih]
    congr 1
    obtain ⟨⟨a, b⟩, x⟩ := e
    simp only [Prod.mk.injEq]
    split <;> split <;> first | rfl | (exfalso; tauto)

@[simp] theorem Sp.get_t (M : Sp K) (i j : Nat) : M.t.get i j = M.get j i :=
  Ents.get_swap _ _ _

theorem Sp.WF.t {M : Sp K} (h : M.WF) : M.t.WF := by
  intro e he
  simp only [Sp.t, List.mem_map] at he
  obtain ⟨e', he', rfl⟩ := he
  exact (h e' he').symm

theorem Sp.get_eq_zero_of_ge {M : Sp K} (h : M.WF) {i j : Nat} (hij : M.rows ≤ i ∨ M.cols ≤ j) :
    M.get i j = 0 := by
  apply Ents.get_eq_zero
  intro hm
  obtain ⟨e, he, heq⟩ := List.mem_map.1 hm
  have := h e he
  rw [heq] at this
  simp only at this
  omega

theorem Ents.get_neg (l : Ents K) (i j : Nat) :
    Ents.get (l.map fun e => (e.1, -e.2)) i j = -Ents.get l i j := by
  induction l with
  | nil => simp
  | cons e l ih =>
    rw [List.map_cons, Ents.get_cons, Ents.get_cons, ih]
    simp only
    split <;> ring

theorem sum_ite_pair (a : (Nat × Nat) × K) (i n : Nat) (f : Nat → K) (h : a.1.2 < n) :
    ∑ k ∈ range n, (if a.1 = (i, k) then a.2 else 0) * f k =
      if a.1.1 = i then a.2 * f a.1.2 else 0 := by
  obtain ⟨⟨p, q⟩, x⟩ := a
  simp only [Prod.mk.injEq] at h ⊢
  by_cases hp : p = i
  · simp only [hp, true_and, if_true]
    rw [Finset.sum_eq_single q]
    · simp
    · intro b _ hb; rw [if_neg (Ne.symm hb), zero_mul]
    · intro hq; exact absurd (mem_range.2 h) hq
  · simp [hp]

/-- weighted row sums over the stored entries are weighted sums over all columns -/
theorem Ents.sum_row (l : Ents K) (i n : Nat) (f : Nat → K) (h : ∀ e ∈ l, e.1.2 < n) :
    (l.map fun e => if e.1.1 = i then e.2 * f e.1.2 else 0).sum =
      ∑ k ∈ range n, Ents.get l i k * f k := by
  induction l with
  | nil => simp
  | cons e l ih =>
    rw [List.map_cons, List.sum_cons, ih fun e' he' => h e' (List.mem_cons_of_mem _ he')]
    simp only [Ents.get_cons, add_mul, Finset.sum_add_distrib]
    rw [sum_ite_pair e i n f (h e List.mem_cons_self)]

theorem Ents.get_prod (l₁ l₂ : Ents K) (i j n : Nat) (h : ∀ e ∈ l₁, e.1.2 < n) :
    Ents.get (prodEnts l₁ l₂) i j = ∑ k ∈ range n, Ents.get l₁ i k * Ents.get l₂ k j := by
  rw [← Ents.sum_row l₁ i n (fun k => Ents.get l₂ k j) h]
  induction l₁ with
  | nil => simp [prodEnts]
  | cons a l₁ ih =>
    have hc : prodEnts (a :: l₁) l₂ =
        ((l₂.filter fun b => b.1.1 = a.1.2).map fun b => ((a.1.1, b.1.2), a.2 * b.2)) ++
          prodEnts l₁ l₂ := by simp [prodEnts]
    rw [hc, Ents.get_append, ih fun e' he' => h e' (List.mem_cons_of_mem _ he'), List.map_cons,
      List.sum_cons]
    congr 1
    clear ih h hc
    induction l₂ with
    | nil => simp
    | cons b l₂ ih =>
      obtain ⟨⟨p, q⟩, y⟩ := b
      obtain ⟨⟨r, s⟩, x⟩ := a
      simp only [List.filter_cons, decide_eq_true_eq]
      by_cases h1 : p = s
      · subst h1
        simp only [if_true, List.map_cons, Ents.get_cons]
        rw [ih]
        simp only [Prod.mk.injEq, true_and]
        by_cases h2 : r = i <;> by_cases h3 : q = j <;> simp [h2, h3] <;> ring
      · simp only [h1, if_false, Ents.get_cons]
        rw [ih]
        simp [h1]

theorem Sp.mm_get {P Q R : Sp K} (h : P.mm Q = .ok R) (hP : P.WF) (i j : Nat) :
    R.get i j = ∑ k ∈ range P.cols, P.get i k * Q.get k j := by
  unfold Sp.mm at h
  split at h
  · cases h
    show Ents.get (Ents.coalesce (prodEnts P.ents Q.ents)) i j = _
    rw [DHG.get_coalesce]
    exact Ents.get_prod _ _ _ _ _ fun e he => (hP e he).2
  · cases h

theorem Sp.mm_shape {P Q R : Sp K} (h : P.mm Q = .ok R) : R.rows = P.rows ∧ R.cols = Q.cols := by
  unfold Sp.mm at h
  split at h
  · cases h; exact ⟨rfl, rfl⟩
  · cases h

theorem Sp.mm_ok {P Q : Sp K} (h : P.cols = Q.rows) : ∃ R, P.mm Q = .ok R := by
  unfold Sp.mm; rw [if_pos h]; exact ⟨_, rfl⟩

theorem mem_keys_prod (l₁ l₂ : Ents K) (i j : Nat) :
    (i, j) ∈ (prodEnts l₁ l₂).map Prod.fst ↔
      ∃ k, (i, k) ∈ l₁.map Prod.fst ∧ (k, j) ∈ l₂.map Prod.fst := by
  simp only [prodEnts, List.mem_map, List.mem_flatMap, List.mem_filter, decide_eq_true_eq]
  constructor
  · rintro ⟨e, ⟨a, ha, b, ⟨hb, hab⟩, rfl⟩, heq⟩
    simp only [Prod.mk.injEq] at heq
    refine ⟨a.1.2, ⟨a, ha, Prod.ext heq.1 rfl⟩, ⟨b, hb, Prod.ext hab heq.2⟩⟩
  · rintro ⟨k, ⟨a, ha, hae⟩, ⟨b, hb, hbe⟩⟩
    refine ⟨((i, j), a.2 * b.2), ⟨a, ha, b, ⟨hb, ?_⟩, ?_⟩, rfl⟩
    · rw [hae, hbe]
    · rw [hae, hbe]

theorem Sp.mm_keys {P Q R : Sp K} (h : P.mm Q = .ok R) (i j : Nat) :
    (i, j) ∈ R.ents.map Prod.fst ↔
      ∃ k, (i, k) ∈ P.ents.map Prod.fst ∧ (k, j) ∈ Q.ents.map Prod.fst := by
  unfold Sp.mm at h
  split at h
  · cases h
    rw [mem_keys_coalesce, mem_keys_prod]
  · cases h

theorem Sp.WF.mm {P Q R : Sp K} (hP : P.WF) (hQ : Q.WF) (h : P.mm Q = .ok R) : R.WF := by
  intro e he
  have hs := Sp.mm_shape h
  have : (e.1.1, e.1.2) ∈ R.ents.map Prod.fst := List.mem_map_of_mem (f := Prod.fst) he
  rw [Sp.mm_keys h] at this
  obtain ⟨k, h1, h2⟩ := this
  obtain ⟨a, ha, hae⟩ := List.mem_map.1 h1
  obtain ⟨b, hb, hbe⟩ := List.mem_map.1 h2
  have w1 := hP a ha
  have w2 := hQ b hb
  rw [hae] at w1; rw [hbe] at w2
  rw [hs.1, hs.2]; exact ⟨w1.1, w2.2⟩

theorem Sp.mmD_ok {P : Sp K} {X : Dense K} (h : P.cols = X.rows) : ∃ Y, P.mmD X = .ok Y := by
  unfold Sp.mmD; rw [if_pos h]; exact ⟨_, rfl⟩

theorem Sp.mmD_at {P : Sp K} {X Y : Dense K} (h : P.mmD X = .ok Y) (hP : P.WF) (i c : Nat) :
    Y.at_ i c = ∑ k ∈ range P.cols, P.get i k * X.at_ k c := by
  unfold Sp.mmD at h
  split at h
  · cases h
    exact Ents.sum_row _ _ _ (fun k => X.at_ k c) fun e he => (hP e he).2
  · cases h

theorem Sp.mmD_shape {P : Sp K} {X Y : Dense K} (h : P.mmD X = .ok Y) :
    P.cols = X.rows ∧ Y.rows = P.rows ∧ Y.cols = X.cols := by
  unfold Sp.mmD at h
  split at h
  · cases h; exact ⟨by assumption, rfl, rfl⟩
  · cases h

theorem Sp.sub_get {P Q R : Sp K} (h : P.sub Q = .ok R) (i j : Nat) :
    R.get i j = P.get i j - Q.get i j := by
  unfold Sp.sub at h
  split at h
  · cases h
    show Ents.get (Ents.coalesce _) i j = _
    rw [DHG.get_coalesce, Ents.get_append, Ents.get_neg]
    unfold Sp.get; ring
  · cases h

theorem Sp.add_get {P Q R : Sp K} (h : P.add Q = .ok R) (i j : Nat) :
    R.get i j = P.get i j + Q.get i j := by
  unfold Sp.add at h
  split at h
  · cases h
    show Ents.get (Ents.coalesce _) i j = _
    rw [DHG.get_coalesce, Ents.get_append]; rfl
  · cases h

theorem Sp.add_shape {P Q R : Sp K} (h : P.add Q = .ok R) : R.rows = P.rows ∧ R.cols = P.cols := by
  unfold Sp.add at h
  split at h
  · cases h; exact ⟨rfl, rfl⟩
  · cases h

theorem Sp.add_keys {P Q R : Sp K} (h : P.add Q = .ok R) (k : Nat × Nat) :
    k ∈ R.ents.map Prod.fst ↔ k ∈ P.ents.map Prod.fst ∨ k ∈ Q.ents.map Prod.fst := by
  unfold Sp.add at h
  split at h
  · cases h
    rw [mem_keys_coalesce, List.map_append, List.mem_append]
  · cases h

theorem Sp.WF.add {P Q R : Sp K} (hP : P.WF) (hQ : Q.WF) (h : P.add Q = .ok R) : R.WF := by
  have hs := Sp.add_shape h
  have hpq : P.rows = Q.rows ∧ P.cols = Q.cols := by
    by_contra hc; unfold Sp.add at h; rw [if_neg hc] at h; cases h
  intro e he
  have : e.1 ∈ R.ents.map Prod.fst := List.mem_map_of_mem (f := Prod.fst) he
  rw [Sp.add_keys h] at this
  rw [hs.1, hs.2]
  rcases this with h' | h'
  · obtain ⟨a, ha, hae⟩ := List.mem_map.1 h'
    have := hP a ha; rw [hae] at this; exact this
  · obtain ⟨a, ha, hae⟩ := List.mem_map.1 h'
    have := hQ a ha; rw [hae] at this; rw [hpq.1, hpq.2]; exact this

theorem Ents.get_range_one (n i j : Nat) :
    Ents.get ((List.range n).map fun k => ((k, k), (1 : K))) i j = if i = j ∧ i < n then 1 else 0 := by
  induction n with
  | zero => simp
  | succ n ih =>
    rw [List.range_succ, List.map_append, Ents.get_append, ih]
    simp only [List.map_cons, List.map_nil, Ents.get_cons, Ents.get_nil, Prod.mk.injEq, add_zero]
    by_cases h : i = j
    · subst h
      by_cases h2 : i < n
      · have : ¬ n = i := by omega
        simp [h2, this, Nat.lt_succ_of_lt h2]
      · by_cases h3 : n = i
        · subst h3; simp
        · have : ¬ i < n + 1 := by omega
          simp [h2, h3, this]
    · have : ¬ (n = i ∧ n = j) := by omega
      simp [h, this]

theorem Sp.eyeMinus_get (n : Nat) (L : Sp K) (i j : Nat) :
    (Sp.eyeMinus n L).get i j = (if i = j ∧ i < n then 1 else 0) - L.get i j := by
  show Ents.get (Ents.coalesce _) i j = _
  rw [DHG.get_coalesce, Ents.get_append, Ents.get_neg, Ents.get_range_one]
  unfold Sp.get; ring

theorem Sp.rowSum_length (M : Sp K) : M.rowSum.length = M.rows := by simp [Sp.rowSum]

theorem Sp.rowSum_getElem {M : Sp K} (h : M.WF) (i : Nat) (hi : i < M.rowSum.length) :
    M.rowSum[i] = ∑ j ∈ range M.cols, M.get i j := by
  simp only [Sp.rowSum, List.getElem_map, List.getElem_range]
  have := Ents.sum_row M.ents i M.cols (fun _ => 1) fun e he => (h e he).2
  simpa [Sp.get] using this

theorem Ents.get_zipWith_diag (v : List K) (s i j : Nat) :
    Ents.get ((List.range' s v.length).zipWith (fun i x => ((i, i), x)) v) i j =
      if i = j ∧ s ≤ i then v.getD (i - s) 0 else 0 := by
  induction v generalizing s with
  | nil => simp
  | cons x v ih =>
    rw [List.length_cons, List.range'_succ, List.zipWith_cons_cons, Ents.get_cons, ih]
    simp only [Prod.mk.injEq]
    by_cases hij : i = j
    · subst hij
      by_cases h1 : s = i
      · subst h1; simp
      · by_cases h2 : s ≤ i
        · have h3 : s + 1 ≤ i := by omega
          have h4 : i - s = (i - (s + 1)) + 1 := by omega
          simp [h1, h2, h3, h4]
        · have h3 : ¬ s + 1 ≤ i := by omega
          simp [h1, h2, h3]
    · have : ¬ (s = i ∧ s = j) := by omega
      simp [hij, this]

theorem Sp.diag_get (v : List K) (i j : Nat) :
    (Sp.diag v).get i j = if i = j then v.getD i 0 else 0 := by
  have := Ents.get_zipWith_diag v 0 i j
  simpa [Sp.get, Sp.diag, List.range_eq_range'] using this

theorem Sp.diag_WF (v : List K) : (Sp.diag v).WF := by
  intro e he
  obtain ⟨n, hn, rfl⟩ := List.mem_iff_getElem.1 he
  simp only [Sp.diag, List.getElem_zipWith, List.getElem_range, List.length_zipWith,
    List.length_range, Nat.min_self] at hn ⊢
  exact ⟨hn, hn⟩

theorem Sp.diag_mapVals (f : K → K) (v : List K) :
    (Sp.diag v).mapVals f = Sp.diag (v.map f) := by
  simp only [Sp.diag, Sp.mapVals, List.length_map, Sp.mk.injEq, true_and]
  rw [List.map_zipWith, List.zipWith_map_right]

theorem Sp.WF.mapVals {M : Sp K} (h : M.WF) (f : K → K) : (M.mapVals f).WF := by
  intro e he
  obtain ⟨e', he', rfl⟩ := List.mem_map.1 he
  exact h e' he'

theorem Sp.WF.sub {P Q R : Sp K} (hP : P.WF) (hQ : Q.WF) (h : P.sub Q = .ok R) : R.WF := by
  unfold Sp.sub at h
  split at h
  · rename_i hs
    cases h
    intro e he
    have : e.1 ∈ (P.ents ++ Q.ents.map fun e => (e.1, -e.2)).map Prod.fst := by
      rw [← mem_keys_coalesce]; exact List.mem_map_of_mem (f := Prod.fst) he
    simp only [List.map_append, List.map_map, List.mem_append, List.mem_map] at this
    rcases this with ⟨a, ha, hae⟩ | ⟨a, ha, hae⟩
    · have := hP a ha; rw [hae] at this; exact this
    · have := hQ a ha
      simp only [Function.comp] at hae
      rw [hae] at this
      show e.1.1 < P.rows ∧ e.1.2 < P.cols
      rw [hs.1, hs.2]; exact this
  · cases h

theorem Sp.WF.eyeMinus {L : Sp K} {n : Nat} (hL : L.WF) (h1 : L.rows = n) (h2 : L.cols = n) :
    (Sp.eyeMinus n L).WF := by
  intro e he
  have : e.1 ∈ ((List.range n).map (fun i => ((i, i), (1 : K))) ++
      L.ents.map fun e => (e.1, -e.2)).map Prod.fst := by
    rw [← mem_keys_coalesce]; exact List.mem_map_of_mem (f := Prod.fst) he
  simp only [List.map_append, List.map_map, List.mem_append, List.mem_map, Function.comp,
    List.mem_range] at this
  show e.1.1 < n ∧ e.1.2 < n
  rcases this with ⟨a, ha, hae⟩ | ⟨a, ha, hae⟩
  · rw [← hae]; exact ⟨ha, ha⟩
  · have := hL a ha; rw [hae, h1, h2] at this; exact this

/-- an index pair accepted for the shape -/
def InShape (rows cols : Nat) (ij : Int × Int) : Prop :=
  0 ≤ ij.1 ∧ ij.1 < rows ∧ 0 ≤ ij.2 ∧ ij.2 < cols

instance (rows cols : Nat) (ij : Int × Int) : Decidable (InShape rows cols ij) := by
  unfold InShape; infer_instance

theorem mapM_toIdx (rows cols : Nat) (idx : List (Int × Int)) :
    idx.mapM (toIdx rows cols) =
      if ∀ p ∈ idx, InShape rows cols p then .ok (idx.map fun p => (p.1.toNat, p.2.toNat))
      else .error .runtime := by
  induction idx with
  | nil => simp; rfl
  | cons p idx ih =>
    rw [List.mapM_cons, ih]
    by_cases hp : InShape rows cols p
    · have h1 : toIdx rows cols p = .ok (p.1.toNat, p.2.toNat) := if_pos hp
      rw [h1]
      by_cases hq : ∀ q ∈ idx, InShape rows cols q
      · rw [if_pos hq, if_pos (List.forall_mem_cons.2 ⟨hp, hq⟩)]; rfl
      · rw [if_neg hq, if_neg (fun h => hq (List.forall_mem_cons.1 h).2)]; rfl
    · have h1 : toIdx rows cols p = .error .runtime := if_neg hp
      rw [h1, if_neg (show ¬ ∀ q ∈ p :: idx, InShape rows cols q from
        fun h => hp (List.forall_mem_cons.1 h).1)]; rfl

theorem Sp.build_eq (rows cols : Nat) (idx : List (Int × Int)) (vals : List K) :
    Sp.build rows cols idx vals =
      if idx.length = vals.length ∧ ∀ p ∈ idx, InShape rows cols p then
        .ok { rows, cols, ents := (idx.map fun p => (p.1.toNat, p.2.toNat)).zip vals }
      else .error .runtime := by
  unfold Sp.build
  rw [mapM_toIdx]
  by_cases h1 : idx.length = vals.length
  · by_cases h2 : ∀ p ∈ idx, InShape rows cols p
    · rw [if_pos h1, if_pos h2, if_pos ⟨h1, h2⟩]; rfl
    · rw [if_pos h1, if_neg h2, if_neg (fun h => h2 h.2)]; rfl
  · rw [if_neg h1, if_neg (fun h => h1 h.1)]

theorem Sp.build_WF {rows cols : Nat} {idx : List (Int × Int)} {vals : List K} {M : Sp K}
    (h : Sp.build rows cols idx vals = .ok M) : M.WF ∧ M.rows = rows ∧ M.cols = cols := by
  rw [Sp.build_eq] at h
  split at h
  · rename_i hc
    cases h
    refine ⟨?_, rfl, rfl⟩
    intro e he
    have := (List.of_mem_zip (a := e.1) (b := e.2) he).1
    obtain ⟨p, hp, hpe⟩ := List.mem_map.1 this
    have hs := hc.2 p hp
    unfold InShape at hs
    rw [← hpe]
    constructor
    · show p.1.toNat < rows; omega
    · show p.2.toNat < cols; omega
  · cases h

theorem Ents.get_build (idx : List (Int × Int)) (vals : List K) (rows cols : Nat)
    (h : ∀ p ∈ idx, InShape rows cols p) (i j : Nat) :
    Ents.get ((idx.map fun p => (p.1.toNat, p.2.toNat)).zip vals) i j =
      ((idx.zip vals).map fun e => if e.1 = ((i : Int), (j : Int)) then e.2 else 0).sum := by
  induction idx generalizing vals with
  | nil => simp
  | cons p idx ih =>
    cases vals with
    | nil => simp
    | cons x vals =>
      rw [List.map_cons, List.zip_cons_cons, List.zip_cons_cons, Ents.get_cons, List.map_cons,
        List.sum_cons, ih vals fun q hq => h q (List.mem_cons_of_mem _ hq)]
      congr 1
      have hp := h p List.mem_cons_self
      unfold InShape at hp
      obtain ⟨a, b⟩ := p
      simp only [Prod.mk.injEq] at hp ⊢
      have : (a.toNat = i ∧ b.toNat = j) ↔ (a = i ∧ b = j) := by omega
      simp only [this]

theorem Sp.build_get {rows cols : Nat} {idx : List (Int × Int)} {vals : List K} {M : Sp K}
    (h : Sp.build rows cols idx vals = .ok M) (i j : Nat) :
    M.get i j =
      ((idx.zip vals).map fun e => if e.1 = ((i : Int), (j : Int)) then e.2 else 0).sum := by
  rw [Sp.build_eq] at h
  split at h
  · rename_i hc
    cases h
    exact Ents.get_build idx vals rows cols hc.2 i j
  · cases h

end

section Real
variable {K : Type} [Field K] [LinearOrder K] [PyReal K]

/-- `x ** -0.5` with 0 at 0 (specification; meant for `x ≥ 0`) -/
def negHalf (x : K) : K := if x = 0 then 0 else PyReal.rsqrt x

theorem Sp.rsqrt_diag (v : List K) :
    (Sp.diag v).rsqrt =
      if ∀ x ∈ v, ¬ x < 0 then .ok (Sp.diag (v.map negHalf)) else .error .nan := by
  have key : ∀ (s : Nat) (v : List K),
      ((List.range' s v.length).zipWith (fun i x => ((i, i), x)) v).mapM
        rsqrtEnt =
      if ∀ x ∈ v, ¬ x < 0 then
        .ok ((List.range' s v.length).zipWith (fun i x => ((i, i), x)) (v.map negHalf))
      else .error .nan := by
    intro s v
    induction v generalizing s with
    | nil => simp; rfl
    | cons x v ih =>
      rw [List.length_cons, List.range'_succ, List.zipWith_cons_cons, List.mapM_cons, ih]
      by_cases hx : x < 0
      · have : rsqrt0 x = none := if_pos hx
        simp only [rsqrtEnt, this]
        rw [if_neg (show ¬ ∀ y ∈ x :: v, ¬ y < 0 from fun h => h x List.mem_cons_self hx)]; rfl
      · have : rsqrt0 x = some (negHalf x) := by
          unfold rsqrt0 negHalf; rw [if_neg hx]; split <;> rfl
        simp only [rsqrtEnt, this]
        by_cases hv : ∀ y ∈ v, ¬ y < 0
        · rw [if_pos hv, if_pos (by simpa using ⟨not_lt.1 hx, fun y hy => not_lt.1 (hv y hy)⟩)]
          rfl
        · rw [if_neg hv, if_neg (fun h => hv fun y hy => h y (List.mem_cons_of_mem _ hy))]; rfl
  have h0 := key 0 v
  rw [← List.range_eq_range'] at h0
  unfold Sp.rsqrt
  have : (Sp.diag v).ents = (List.range v.length).zipWith (fun i x => ((i, i), x)) v := rfl
  rw [this, h0]
  split
  · simp [Sp.diag]; rfl
  · rfl

end Real

end DHG
