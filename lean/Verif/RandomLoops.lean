import Mathlib.Analysis.SpecialFunctions.Log.Basic
import Mathlib.Algebra.BigOperators.Fin
import Mathlib.Algebra.Order.Floor.Ring
import Mathlib.Tactic.Linarith
import Mathlib.Tactic.Ring
import Verif.RandomLemmas

set_option linter.unusedSectionVars false
set_option autoImplicit false

namespace DHG
namespace RandGen

/-! ### Rejection loops -/

section Fill
variable {σ α : Type} [DecidableEq α]

theorem fill_ok {pick : σ → Except Err (Option α × σ)} {m : Int} {P : α → Prop}
    (hP : ∀ s x s', pick s = .ok (some x, s') → P x) :
    ∀ (fuel : Nat) (acc : List α) (s : σ) (l : List α), fill pick m fuel acc s = some (.ok l) →
      acc.Nodup → (∀ x ∈ acc, P x) → (acc.length : Int) ≤ max m 0 →
      l.Nodup ∧ (∀ x ∈ l, P x) ∧ (l.length : Int) = max m 0 := by
  intro fuel
  induction fuel with
  | zero =>
    intro acc s l h hn hp hl
    unfold fill at h
    by_cases hc : (acc.length : Int) < m
    · rw [if_pos hc] at h; cases h
    · rw [if_neg hc] at h; cases h
      exact ⟨hn, hp, by omega⟩
  | succ fuel ih =>
    intro acc s l h hn hp hl
    unfold fill at h
    by_cases hc : (acc.length : Int) < m
    · rw [if_pos hc] at h
      cases hs : pick s with
      | error e => rw [hs] at h; cases h
      | ok q =>
        obtain ⟨x, s'⟩ := q
        rw [hs] at h
        cases x with
        | none => exact ih acc s' l h hn hp hl
        | some x =>
          simp only at h
          by_cases hx : x ∈ acc
          · rw [if_pos hx] at h; exact ih acc s' l h hn hp hl
          · rw [if_neg hx] at h
            refine ih _ s' l h ?_ ?_ ?_
            · rw [List.nodup_append]
              refine ⟨hn, by simp, ?_⟩
              intro a ha b hb hab
              rw [List.mem_singleton] at hb
              subst hab hb; exact hx ha
            · intro y hy
              rcases List.mem_append.1 hy with hy | hy
              · exact hp y hy
              · rw [List.mem_singleton] at hy; subst hy; exact hP _ _ _ hs
            · simp only [List.length_append, List.length_singleton]; push_cast; omega
    · rw [if_neg hc] at h; cases h
      exact ⟨hn, hp, by omega⟩

theorem fill_error {pick : σ → Except Err (Option α × σ)} {m : Int} {e : Err} :
    ∀ (fuel : Nat) (acc : List α) (s : σ), fill pick m fuel acc s = some (.error e) →
      ∃ s, pick s = .error e := by
  intro fuel
  induction fuel with
  | zero =>
    intro acc s h
    unfold fill at h
    split at h <;> cases h
  | succ fuel ih =>
    intro acc s h
    unfold fill at h
    by_cases hc : (acc.length : Int) < m
    · rw [if_pos hc] at h
      cases hs : pick s with
      | error e' => rw [hs] at h; cases h; exact ⟨s, hs⟩
      | ok q =>
        obtain ⟨x, s'⟩ := q
        rw [hs] at h
        cases x with
        | none => exact ih acc s' h
        | some x =>
          simp only at h
          by_cases hx : x ∈ acc
          · rw [if_pos hx] at h; exact ih acc s' h
          · rw [if_neg hx] at h; exact ih _ s' h
    · rw [if_neg hc] at h; cases h

theorem fill_mono {pick : σ → Except Err (Option α × σ)} {m : Int} {r : Except Err (List α)} :
    ∀ (fuel : Nat) (acc : List α) (s : σ), fill pick m fuel acc s = some r →
      fill pick m (fuel + 1) acc s = some r := by
  intro fuel
  induction fuel with
  | zero =>
    intro acc s h
    unfold fill at h ⊢
    by_cases hc : (acc.length : Int) < m
    · rw [if_pos hc] at h; cases h
    · rw [if_neg hc] at h ⊢; exact h
  | succ fuel ih =>
    intro acc s h
    rw [fill] at h ⊢
    by_cases hc : (acc.length : Int) < m
    · rw [if_pos hc] at h ⊢
      cases hs : pick s with
      | error e => rw [hs] at h; exact h
      | ok q =>
        obtain ⟨x, s'⟩ := q
        rw [hs] at h
        cases x with
        | none => exact ih acc s' h
        | some x =>
          simp only at h ⊢
          by_cases hx : x ∈ acc
          · rw [if_pos hx] at h ⊢; exact ih acc s' h
          · rw [if_neg hx] at h ⊢; exact ih _ s' h
    · rw [if_neg hc] at h ⊢; exact h

theorem fill_mono_le {pick : σ → Except Err (Option α × σ)} {m : Int} {r : Except Err (List α)}
    {fuel fuel' : Nat} (hf : fuel ≤ fuel') {acc : List α} {s : σ}
    (h : fill pick m fuel acc s = some r) : fill pick m fuel' acc s = some r := by
  induction hf with
  | refl => exact h
  | step _ ih => exact fill_mono _ _ _ ih

/-- the state before round `j` -/
def stateAt (f : σ → Option α × σ) (s : σ) : Nat → σ
  | 0 => s
  | j + 1 => (f (stateAt f s j)).2

theorem stateAt_tail (f : σ → Option α × σ) (s : σ) (j : Nat) :
    stateAt f (f s).2 j = stateAt f s (j + 1) := by
  induction j with
  | zero => rfl
  | succ j ih => simp only [stateAt] at ih ⊢; rw [ih]

/-- every element of `D` is drawn again and again -/
def Recurs (f : σ → Option α × σ) (D : List α) (s : σ) : Prop :=
  ∀ x ∈ D, ∀ k, ∃ j, k ≤ j ∧ (f (stateAt f s j)).1 = some x

theorem Recurs.tail {f : σ → Option α × σ} {D : List α} {s : σ} (h : Recurs f D s) :
    Recurs f D (f s).2 := by
  intro x hx k
  obtain ⟨j, hj, h1⟩ := h x hx (k + 1)
  obtain ⟨j, rfl⟩ : ∃ i, j = i + 1 := ⟨j - 1, by omega⟩
  exact ⟨j, by omega, by rw [stateAt_tail]; exact h1⟩

/-- the loop ends when enough different elements are drawn again and again -/
theorem fill_returns {pick : σ → Except Err (Option α × σ)} {f : σ → Option α × σ}
    (hf : ∀ s, pick s = .ok (f s)) {m : Int} {D : List α} (hD : D.Nodup) (hm : m ≤ D.length) :
    ∀ (d : Nat) (acc : List α) (s : σ), m - acc.length ≤ d → acc.Nodup → Recurs f D s →
      ∃ fuel l, fill pick m fuel acc s = some (.ok l) := by
  intro d
  induction d with
  | zero =>
    intro acc s hd _ _
    refine ⟨0, acc, ?_⟩
    unfold fill
    rw [if_neg (by omega)]
  | succ d ih =>
    intro acc s hd hn hr
    by_cases hc : (acc.length : Int) < m
    · obtain ⟨x, hx, hxa⟩ : ∃ x ∈ D, x ∉ acc := by
        by_contra hcon
        push Not at hcon
        have := (List.subperm_of_subset hD hcon).length_le
        omega
      obtain ⟨j, _, hj⟩ := hr x hx 0
      have inner : ∀ (j : Nat) (s : σ), Recurs f D s → (f (stateAt f s j)).1 = some x →
          ∃ fuel l, fill pick m fuel acc s = some (.ok l) := by
        intro j
        induction j with
        | zero =>
          intro s hr hj
          simp only [stateAt] at hj
          obtain ⟨fuel, l, h⟩ := ih (acc ++ [x]) (f s).2 (by simp; omega)
            (by
              rw [List.nodup_append]
              refine ⟨hn, by simp, ?_⟩
              intro a ha b hb hab
              rw [List.mem_singleton] at hb
              subst hab hb; exact hxa ha) hr.tail
          refine ⟨fuel + 1, l, ?_⟩
          rw [fill, if_pos hc, hf]
          rcases hfs : f s with ⟨y, s'⟩
          rw [hfs] at hj h
          simp only at hj h ⊢
          subst hj
          simp only
          rw [if_neg hxa]; exact h
        | succ j ihj =>
          intro s hr hj
          rw [← stateAt_tail] at hj
          rcases hfs : f s with ⟨y, s'⟩
          have hr' := hr.tail
          rw [hfs] at hj hr'
          simp only at hj hr'
          cases y with
          | none =>
            obtain ⟨fuel, l, h⟩ := ihj s' hr' hj
            exact ⟨fuel + 1, l, by rw [fill, if_pos hc, hf, hfs]; exact h⟩
          | some y =>
            by_cases hy : y ∈ acc
            · obtain ⟨fuel, l, h⟩ := ihj s' hr' hj
              refine ⟨fuel + 1, l, ?_⟩
              rw [fill, if_pos hc, hf, hfs]
              simp only
              rw [if_pos hy]; exact h
            · obtain ⟨fuel, l, h⟩ := ih (acc ++ [y]) s' (by simp; omega)
                (by
                  rw [List.nodup_append]
                  refine ⟨hn, by simp, ?_⟩
                  intro a ha b hb hab
                  rw [List.mem_singleton] at hb
                  subst hab hb; exact hy ha) hr'
              refine ⟨fuel + 1, l, ?_⟩
              rw [fill, if_pos hc, hf, hfs]
              simp only
              rw [if_neg hy]; exact h
      exact inner j s hr hj
    · refine ⟨0, acc, ?_⟩
      unfold fill
      rw [if_neg hc]

end Fill

/-! ### Draws -/

theorem choice_range {n : Nat} (hn : 0 < n) (ω : Draws) :
    choice (rangeI n) ω = .ok (((ω 0 % n : Nat) : Int), ω.tail) := by
  unfold choice
  have h1 : (randbelow (rangeI n).length ω).1 = ω 0 % n := by rw [rangeI_length]; rfl
  have hlt : ω 0 % n < n := Nat.mod_lt _ hn
  have h2 : (rangeI n)[ω 0 % n]? = some ((ω 0 % n : Nat) : Int) := by
    unfold rangeI
    rw [List.getElem?_map, List.getElem?_range hlt]
    rfl
  rw [h1, h2]
  simp only [rangeI_length]
  rfl

theorem choice2_eq {m n : Nat} (hm : 0 < m) (hn : 0 < n) (ω : Draws) :
    choice2 m n ω = .ok ((((ω 0 % m : Nat) : Int), ((ω 1 % n : Nat) : Int)), ω.tail.tail) := by
  unfold choice2
  rw [choice_range hm]
  simp only [bind, Except.bind]
  rw [choice_range hn]
  rfl

/-- `choice2` on a valid range -/
def pair2 (m n : Nat) (ω : Draws) : Int × Int := (((ω 0 % m : Nat) : Int), ((ω 1 % n : Nat) : Int))

theorem pair2_range {m n : Nat} (hm : 0 < m) (hn : 0 < n) (ω : Draws) :
    0 ≤ (pair2 m n ω).1 ∧ (pair2 m n ω).1 < m ∧ 0 ≤ (pair2 m n ω).2 ∧ (pair2 m n ω).2 < n := by
  have h1 : ω 0 % m < m := Nat.mod_lt _ hm
  have h2 : ω 1 % n < n := Nat.mod_lt _ hn
  simp only [pair2]
  omega

theorem pickGraph_eq {n : Nat} (hn : 0 < n) (ω : Draws) :
    pickGraph n ω = .ok (if (pair2 n n ω).1 = (pair2 n n ω).2 then none
      else some (Graph.sortPair (pair2 n n ω)), ω.tail.tail) := by
  unfold pickGraph
  rw [choice2_eq hn hn]
  simp only [bind, Except.bind]
  congr 2
  show _ = if (pair2 n n ω).1 = (pair2 n n ω).2 then none else some (Graph.sortPair (pair2 n n ω))
  have hp : ((((ω 0 % n : Nat) : Int), ((ω 1 % n : Nat) : Int)) : Int × Int) = pair2 n n ω := rfl
  rw [hp]
  have h1 : ((ω 0 % n : Nat) : Int) = (pair2 n n ω).1 := rfl
  have h2 : ((ω 1 % n : Nat) : Int) = (pair2 n n ω).2 := rfl
  rw [h1, h2]
  generalize pair2 n n ω = p
  obtain ⟨a, b⟩ := p
  unfold Graph.sortPair
  by_cases h : a > b
  · rw [if_pos h, if_neg (by simp only; omega), if_neg (by simp only; omega),
      if_neg (by simp only; omega)]
  · rw [if_neg h]
    simp only
    by_cases h' : a = b
    · rw [if_pos h', if_pos h']
    · rw [if_neg h', if_neg h', if_pos (by omega)]

theorem pickDigraph_eq {n : Nat} (hn : 0 < n) (ω : Draws) :
    pickDigraph n ω = .ok (if (pair2 n n ω).1 = (pair2 n n ω).2 then none
      else some (pair2 n n ω), ω.tail.tail) := by
  unfold pickDigraph
  rw [choice2_eq hn hn]
  rfl

theorem pickBigraph_eq {m n : Nat} (hm : 0 < m) (hn : 0 < n) (ω : Draws) :
    pickBigraph m n ω = .ok (some (pair2 m n ω), ω.tail.tail) := by
  unfold pickBigraph
  rw [choice2_eq hm hn]
  rfl

theorem sampleAux_spec : ∀ (k : Nat) (pool : List Int) (ω : Draws), k ≤ pool.length →
    (sampleAux k pool ω).1.length = k ∧ ∃ rest, ((sampleAux k pool ω).1 ++ rest).Perm pool := by
  intro k
  induction k with
  | zero => intro pool ω _; exact ⟨rfl, pool, by simp [sampleAux]⟩
  | succ k ih =>
    intro pool ω hk
    simp only [sampleAux]
    have hq := swapAt_perm pool (randbelow pool.length ω).1 (pool.length - 1)
    generalize swapAt pool (randbelow pool.length ω).1 (pool.length - 1) = q at hq
    have hql : q.length = pool.length := hq.length_eq
    have hne : q ≠ [] := by intro h; rw [h] at hql; simp at hql; omega
    obtain ⟨h1, rest, h2⟩ := ih q.dropLast (randbelow pool.length ω).2 (by simp [hql]; omega)
    rw [List.getLast?_eq_some_getLast hne]
    refine ⟨by simp [h1], rest, ?_⟩
    refine List.Perm.trans ?_ hq
    conv_rhs => rw [← List.dropLast_concat_getLast hne]
    simp only [Option.toList_some, List.cons_append]
    exact (List.Perm.cons _ h2).trans (List.perm_append_singleton _ _).symm

/-- `random.sample` followed by `sorted`: one of the combinations -/
theorem sample_mem {n : Nat} {k : Int} {ω : Draws} {r : List Int × Draws} (h : sample n k ω = .ok r) :
    sortV r.1 ∈ combinations k.toNat (rangeI n) := by
  unfold sample at h
  by_cases hk : 0 ≤ k ∧ k ≤ n
  · rw [if_pos hk] at h
    cases h
    obtain ⟨h1, rest, h2⟩ := sampleAux_spec k.toNat (rangeI n) ω (by rw [rangeI_length]; omega)
    have hnd : (sampleAux k.toNat (rangeI n) ω).1.Nodup := by
      have := h2.nodup_iff.2 (rangeI_nodup n)
      exact (List.nodup_append.1 this).1
    refine combinations_of_sorted ?_ ?_ ?_
    · have hnd' := (sortV_perm (sampleAux k.toNat (rangeI n) ω).1).nodup_iff.2 hnd
      exact ((sortV_sorted _).and hnd').imp fun h => lt_of_le_of_ne h.1 h.2
    · intro v hv
      rw [mem_sortV] at hv
      exact mem_rangeI.1 (h2.subset (List.mem_append_left _ hv))
    · rw [(sortV_perm _).length_eq, h1]
  · rw [if_neg hk] at h; cases h

/-! ### Weighted choice -/

section Choices
variable {K : Type} [Field K] [LinearOrder K] [IsStrictOrderedRing K]

theorem bisect_spec (a : List K) (x : K) (hi0 : Nat) : ∀ (fuel lo hi : Nat), hi - lo ≤ fuel → lo ≤ hi →
    hi ≤ hi0 → (lo = 0 ∨ a.getD (lo - 1) 0 ≤ x) → (hi = hi0 ∨ x < a.getD hi 0) →
    bisect a x fuel lo hi ≤ hi0 ∧
    (bisect a x fuel lo hi = 0 ∨ a.getD (bisect a x fuel lo hi - 1) 0 ≤ x) ∧
    (bisect a x fuel lo hi = hi0 ∨ x < a.getD (bisect a x fuel lo hi) 0) := by
  intro fuel
  induction fuel with
  | zero =>
    intro lo hi hf hle hh h1 h2
    have : lo = hi := by omega
    subst this
    exact ⟨hh, h1, h2⟩
  | succ fuel ih =>
    intro lo hi hf hle hh h1 h2
    unfold bisect
    by_cases hc : lo < hi
    · rw [if_pos hc]
      by_cases hx : x < a.getD ((lo + hi) / 2) 0
      · rw [if_pos hx]
        exact ih _ _ (by omega) (by omega) (by omega) h1 (.inr hx)
      · rw [if_neg hx]
        exact ih _ _ (by omega) (by omega) hh (.inr (by simpa using not_lt.1 hx)) h2
    · rw [if_neg hc]
      have : lo = hi := by omega
      subst this
      exact ⟨hh, h1, h2⟩

theorem accumulate_length (c : K) (ws : List K) : (accumulate c ws).length = ws.length := by
  induction ws generalizing c with
  | nil => rfl
  | cons w ws ih => simp [accumulate, ih]

theorem accumulate_getD (c : K) (ws : List K) (i : Nat) (hi : i < ws.length) :
    (accumulate c ws).getD i 0 = c + (ws.take (i + 1)).sum := by
  induction ws generalizing c i with
  | nil => simp at hi
  | cons w ws ih =>
    cases i with
    | zero => simp [accumulate]
    | succ i =>
      have := ih (c + w) i (by simpa using hi)
      simp only [accumulate, List.getD_cons_succ, this, List.take_succ_cons, List.sum_cons]
      ring

/-- the drawn index has positive weight -/
theorem choicesIdx_pos {ws : List K} {r : K} (h0 : 0 ≤ r) (h1 : r < 1) {i : Nat}
    (h : choicesIdx ws r = .ok i) : ∃ w, ws[i]? = some w ∧ 0 < w := by
  unfold choicesIdx at h
  cases hl : (accumulate 0 ws).getLast? with
  | none => rw [hl] at h; cases h
  | some total =>
    rw [hl] at h
    simp only at h
    by_cases ht : total ≤ 0
    · rw [if_pos ht] at h; cases h
    · rw [if_neg ht] at h
      cases h
      have ht : 0 < total := not_le.1 ht
      have hne : accumulate 0 ws ≠ [] := by rintro hn; rw [hn] at hl; cases hl
      have hpos : 0 < ws.length := by
        rw [← accumulate_length 0 ws]; exact List.length_pos_of_ne_nil hne
      obtain ⟨hb1, hb2, hb3⟩ := bisect_spec (accumulate 0 ws) (r * total) (ws.length - 1) ws.length 0
        (ws.length - 1) (by omega) (by omega) le_rfl (.inl rfl) (.inl rfl)
      generalize bisect (accumulate 0 ws) (r * total) ws.length 0 (ws.length - 1) = i at *
      have hi : i < ws.length := by omega
      have htot : (accumulate 0 ws).getD (ws.length - 1) 0 = total := by
        rw [List.getLast?_eq_getElem?, accumulate_length] at hl
        rw [List.getD_eq_getElem?_getD, hl]; rfl
      have hlt : r * total < (accumulate 0 ws).getD i 0 := by
        rcases hb3 with rfl | h
        · rw [htot]; exact mul_lt_of_lt_one_left ht h1
        · exact h
      rw [accumulate_getD 0 ws i hi, List.take_add_one, List.getElem?_eq_getElem hi] at hlt
      refine ⟨ws[i], List.getElem?_eq_getElem hi, ?_⟩
      simp only [Option.toList_some, List.sum_append, List.sum_singleton, zero_add] at hlt
      rcases hb2 with rfl | h
      · simp only [List.take_zero, List.sum_nil, zero_add] at hlt
        exact lt_of_le_of_lt (mul_nonneg h0 ht.le) hlt
      · by_cases hi0 : i = 0
        · subst hi0
          simp only [List.take_zero, List.sum_nil, zero_add] at hlt
          exact lt_of_le_of_lt (mul_nonneg h0 ht.le) hlt
        · rw [accumulate_getD 0 ws (i - 1) (by omega), Nat.sub_add_cancel (by omega), zero_add] at h
          linarith

end Choices

/-! ### Geometric skipping -/

/-- twice the position of the pair `(v, w)`, `w < v`, in the enumeration by rows -/
def rank2 (v w : Int) : Int := v * (v - 1) + 2 * w

theorem rank2_lt {n v w : Int} (h1 : 1 ≤ v) (h2 : w < v) (h3 : v < n) : rank2 v w < n * (n - 1) := by
  unfold rank2
  nlinarith

theorem rank2_inj {v w v' w' : Int} (h0 : 0 ≤ w) (h1 : w < v) (h0' : 0 ≤ w') (h1' : w' < v')
    (h : rank2 v w = rank2 v' w') : v = v' ∧ w = w' := by
  unfold rank2 at h
  have : v = v' := by
    rcases lt_trichotomy v v' with hlt | rfl | hlt
    · nlinarith
    · rfl
    · nlinarith
  subst this
  exact ⟨rfl, by linarith⟩

theorem skipRows_spec (n : Int) : ∀ (fuel : Nat) (v w : Int), n - v ≤ fuel → 1 ≤ v → v ≤ n → 0 ≤ w →
    rank2 (skipRows n fuel v w).1 (skipRows n fuel v w).2 = rank2 v w ∧
    v ≤ (skipRows n fuel v w).1 ∧ (skipRows n fuel v w).1 ≤ n ∧ 0 ≤ (skipRows n fuel v w).2 ∧
    ((skipRows n fuel v w).1 < n → (skipRows n fuel v w).2 < (skipRows n fuel v w).1) := by
  intro fuel
  induction fuel with
  | zero =>
    intro v w hf h1 hn h0
    refine ⟨rfl, le_rfl, hn, h0, fun h => ?_⟩
    simp only [skipRows] at h
    push_cast at hf
    omega
  | succ fuel ih =>
    intro v w hf h1 hn h0
    unfold skipRows
    by_cases hc : v ≤ w ∧ v < n
    · rw [if_pos hc]
      obtain ⟨a, b, c, d, e⟩ := ih (v + 1) (w - v) (by push_cast at hf; omega) (by omega) (by omega)
        (by omega)
      refine ⟨?_, by omega, c, d, e⟩
      rw [a]
      unfold rank2
      ring
    · rw [if_neg hc]
      exact ⟨rfl, le_rfl, hn, h0, fun h => by simp only at h ⊢; omega⟩

/-- the inner loop really ended: its condition is false -/
theorem skipRows_done (n v w : Int) (h1 : 1 ≤ v) (hn : v ≤ n) (h0 : 0 ≤ w) :
    ¬ ((skipRows n (n - v).toNat v w).1 ≤ (skipRows n (n - v).toNat v w).2 ∧
      (skipRows n (n - v).toNat v w).1 < n) := by
  obtain ⟨_, _, _, _, h⟩ := skipRows_spec n (n - v).toNat v w (by omega) h1 hn h0
  rintro ⟨h2, h3⟩
  exact absurd (h h3) (by omega)

/-- total advance of `k` draws starting with number `i` -/
def advance (S : Nat → Int) (i k : Nat) : Int := ((List.range k).map fun j => 1 + S (i + j)).sum

theorem advance_succ (S : Nat → Int) (i k : Nat) :
    advance S i (k + 1) = (1 + S i) + advance S (i + 1) k := by
  unfold advance
  rw [List.range_succ_eq_map, List.map_cons, List.sum_cons, List.map_map]
  congr 3
  funext j
  simp only [Function.comp]
  congr 2
  omega

theorem advance_nonneg {S : Nat → Int} (hS : ∀ i, 0 ≤ S i) (i k : Nat) : (k : Int) ≤ advance S i k := by
  induction k generalizing i with
  | zero => simp [advance]
  | succ k ih =>
    rw [advance_succ]
    have := ih (i + 1)
    have := hS i
    push_cast
    omega

theorem fastLoop_spec {n : Int} {lp : ℝ} {ρ : Nat → ℝ} {S : Nat → Int}
    (hS : ∀ i, skipOf lp (ρ i) = .ok (S i)) (hS0 : ∀ i, 0 ≤ S i) :
    ∀ (fuel i : Nat) (v w : Int), 1 ≤ v → v ≤ n → -1 ≤ w → (v < n → w < v) → (v = n → 0 ≤ w) →
      (v < n → (n - v) * n - w ≤ fuel) →
      ∃ l c, fastLoop n lp ρ fuel i v w = some (.ok (l, i + c)) ∧
        n * (n - 1) ≤ rank2 v w + 2 * advance S i c ∧
        (∀ t < c, rank2 v w + 2 * advance S i t < n * (n - 1)) ∧
        l.Pairwise (fun p q => rank2 p.1 p.2 < rank2 q.1 q.2) ∧
        (∀ p ∈ l, rank2 v w < rank2 p.1 p.2) ∧
        ∀ p : Int × Int, p ∈ l ↔ 0 ≤ p.2 ∧ p.2 < p.1 ∧ p.1 < n ∧
          ∃ k, rank2 p.1 p.2 = rank2 v w + 2 * advance S i (k + 1) := by
  intro fuel
  have stop : ∀ (i : Nat) (v w : Int), ¬ v < n → v ≤ n → (v = n → 0 ≤ w) →
      n * (n - 1) ≤ rank2 v w + 2 * advance S i 0 ∧
        (∀ t < 0, rank2 v w + 2 * advance S i t < n * (n - 1)) ∧
        ([] : List (Int × Int)).Pairwise (fun p q => rank2 p.1 p.2 < rank2 q.1 q.2) ∧
        (∀ p ∈ ([] : List (Int × Int)), rank2 v w < rank2 p.1 p.2) ∧
        ∀ p : Int × Int, p ∈ ([] : List (Int × Int)) ↔ 0 ≤ p.2 ∧ p.2 < p.1 ∧ p.1 < n ∧
          ∃ k, rank2 p.1 p.2 = rank2 v w + 2 * advance S i (k + 1) := by
    intro i v w h1 h2 h3
    obtain rfl : v = n := by omega
    have h3 := h3 rfl
    have hr : v * (v - 1) ≤ rank2 v w := by unfold rank2; linarith
    refine ⟨by simp only [advance, List.range_zero, List.map_nil, List.sum_nil]; linarith,
      fun t ht => absurd ht (by omega), List.Pairwise.nil, by simp, ?_⟩
    intro p
    simp only [List.not_mem_nil, false_iff]
    rintro ⟨a, b, c, k, d⟩
    have := rank2_lt (n := v) (by omega) b c
    have := advance_nonneg hS0 i (k + 1)
    push_cast at this
    omega
  induction fuel with
  | zero =>
    intro i v w h1 hn hw hwv hw0 hf
    unfold fastLoop
    by_cases hv : v < n
    · exfalso
      have := hf hv
      have h2 := hwv hv
      have : (n - v) * n ≥ 1 * n := mul_le_mul_of_nonneg_right (by omega) (by omega)
      push_cast at *
      linarith
    · rw [if_neg hv]
      exact ⟨[], 0, rfl, stop i v w hv hn hw0⟩
  | succ fuel ih =>
    intro i v w h1 hn hw hwv hw0 hf
    rw [fastLoop]
    by_cases hv : v < n
    · rw [if_pos hv, hS i]
      simp only
      have hs := hS0 i
      obtain ⟨q1, q2, q3, q4, q5⟩ := skipRows_spec n (n - v).toNat v (w + 1 + S i) (by omega) h1 hn
        (by omega)
      rcases hq : skipRows n (n - v).toNat v (w + 1 + S i) with ⟨a, b⟩
      rw [hq] at q1 q2 q3 q4 q5
      simp only at q1 q2 q3 q4 q5 ⊢
      have hrk : rank2 a b = rank2 v w + 2 * (1 + S i) := by
        rw [q1]; unfold rank2; ring
      have hf' : a < n → (n - a) * n - b ≤ fuel := by
        intro han
        have hf := hf hv
        have hwv := hwv hv
        push_cast at hf
        rcases eq_or_lt_of_le q2 with rfl | hlt
        · have : b = w + 1 + S i := by unfold rank2 at q1; linarith
          linarith
        · have : (n - a) * n ≤ (n - v - 1) * n := mul_le_mul_of_nonneg_right (by omega) (by omega)
          nlinarith
      obtain ⟨l, c, e1, e2, e3, e4, e5, e6⟩ := ih (i + 1) a b (by omega) q3 (by omega) q5 (fun _ => q4) hf'
      refine ⟨if a < n then (a, b) :: l else l, c + 1, ?_, ?_, ?_, ?_, ?_, ?_⟩
      · rw [e1]
        simp only [Option.map_some, Except.map]
        congr 3
        omega
      · rw [advance_succ]; linarith
      · intro t ht
        cases t with
        | zero =>
          have := rank2_lt h1 (hwv hv) hv
          simp only [advance, List.range_zero, List.map_nil, List.sum_nil]
          linarith
        | succ t =>
          rw [advance_succ]
          have := e3 t (by omega)
          linarith
      · split
        · exact List.pairwise_cons.2 ⟨e5, e4⟩
        · exact e4
      · intro p hp
        have hlt : rank2 v w < rank2 a b := by linarith
        split at hp
        · rcases List.mem_cons.1 hp with rfl | hp
          · exact hlt
          · exact hlt.trans (e5 p hp)
        · exact hlt.trans (e5 p hp)
      · intro p
        have hsplit : (∃ k, rank2 p.1 p.2 = rank2 v w + 2 * advance S i (k + 1)) ↔
            rank2 p.1 p.2 = rank2 a b ∨
              ∃ k, rank2 p.1 p.2 = rank2 a b + 2 * advance S (i + 1) (k + 1) := by
          constructor
          · rintro ⟨k, hk⟩
            cases k with
            | zero =>
              left
              rw [hk, hrk, advance_succ]
              simp [advance]
            | succ k =>
              right
              refine ⟨k, ?_⟩
              rw [hk, hrk, advance_succ]
              ring
          · rintro (hk | ⟨k, hk⟩)
            · refine ⟨0, ?_⟩
              rw [hk, hrk, advance_succ]
              simp [advance]
            · refine ⟨k + 1, ?_⟩
              rw [advance_succ, hk, hrk]
              ring
        rw [hsplit]
        by_cases han : a < n
        · rw [if_pos han, List.mem_cons, e6]
          constructor
          · rintro (rfl | ⟨x1, x2, x3, x4⟩)
            · exact ⟨q4, q5 han, han, .inl rfl⟩
            · exact ⟨x1, x2, x3, .inr x4⟩
          · rintro ⟨x1, x2, x3, x4 | x4⟩
            · left
              obtain ⟨y1, y2⟩ := rank2_inj x1 x2 q4 (q5 han) x4
              exact Prod.ext y1 y2
            · exact .inr ⟨x1, x2, x3, x4⟩
        · rw [if_neg han, e6]
          constructor
          · rintro ⟨x1, x2, x3, x4⟩; exact ⟨x1, x2, x3, .inr x4⟩
          · rintro ⟨x1, x2, x3, x4 | x4⟩
            · exfalso
              obtain rfl : a = n := by omega
              have h7 := rank2_lt (n := a) (by omega) x2 x3
              have h8 : a * (a - 1) ≤ rank2 a b := by unfold rank2; linarith
              linarith
            · exact ⟨x1, x2, x3, x4⟩
    · rw [if_neg hv]
      exact ⟨[], 0, rfl, stop i v w hv hn hw0⟩

/-- for `0 < prob < 1` and draws in `[0, 1)` the skips are natural numbers -/
theorem skipOf_eq {prob r : ℝ} (h0 : 0 < prob) (h1 : prob < 1) (hr0 : 0 ≤ r) (hr1 : r < 1) :
    skipOf (Real.log (1 - prob)) r = .ok ⌊Real.log (1 - r) / Real.log (1 - prob)⌋ ∧
      0 ≤ ⌊Real.log (1 - r) / Real.log (1 - prob)⌋ := by
  have hlp : Real.log (1 - prob) < 0 := Real.log_neg (by linarith) (by linarith)
  have hlr : Real.log (1 - r) ≤ 0 := Real.log_nonpos (by linarith) (by linarith)
  have hq : 0 ≤ Real.log (1 - r) / Real.log (1 - prob) := div_nonneg_of_nonpos hlr hlp.le
  refine ⟨?_, Int.floor_nonneg.2 hq⟩
  unfold skipOf Utils.mathLog
  rw [if_neg (by linarith)]
  simp only [bind, Except.bind]
  rw [if_neg hlp.ne]
  unfold pyInt
  rw [if_pos hq]

end RandGen
end DHG
