import Verif.Props.Random

/-!
# Properties of the random hypergraph generators and of geometric skipping (C71–C73)
-/

set_option linter.unusedSectionVars false
set_option autoImplicit false

namespace DHG
open RandGen

section Uniform
variable {K : Type} [Field K] [LinearOrder K] [PyReal K]

theorem hyper_of_fill {n : Int} (hn : 1 < n) {es : List (List Int)} (hd : es.Nodup)
    (hP : ∀ l ∈ es, ∃ k, l ∈ combinations k (rangeI n.toNat)) :
    ∃ s : HSt K, Hyper.new n (some (Hyper.listArg es)) .none none .mean = .ok s ∧
      Spec.HypergraphIs s n (fun e => ∃ l ∈ es, (l : Multiset Int) = e) ∧
      (Spec.hListing s none).length = es.length := by
  obtain ⟨s, hg, hG, hl⟩ := hyper_new (K := K) (by omega : 0 < n) (es := es)
    (fun e he => by obtain ⟨k, hk⟩ := hP e he; exact combinations_sortV hk) hd
  exact ⟨s, hg, hG, by rw [hl]; simp⟩

theorem pickUniform_mem {k : Int} {n : Nat} {ω ω' : Draws} {x : List Int}
    (h : pickUniform k n ω = .ok (some x, ω')) : x ∈ combinations k.toNat (rangeI n) := by
  unfold pickUniform at h
  simp only [bind, Except.bind] at h
  cases hs : sample n k ω with
  | error e => rw [hs] at h; cases h
  | ok r =>
    rw [hs] at h
    simp only [Except.ok.injEq, Prod.mk.injEq, Option.some.injEq] at h
    rw [← h.1]
    exact sample_mem hs

/-- C71 (`uniform_hypergraph_Gnm`). Whatever the draws, a returned hypergraph has exactly `num_e`
different hyperedges, each a set of `k` vertices below `num_v`. -/
theorem C71_uniform_hypergraph_Gnm {k n m : Int} {ord : List (List Int) → List (List Int)}
    (hord : ∀ l, (ord l).Perm l) {ω : Draws} {fuel : Nat} {s : HSt K}
    (h : uniformGnm k n m ord ω fuel = some (.ok s)) :
    (∃ E, Spec.HypergraphIs s n E ∧ ∀ e, E e → Spec.IsSubset n k e) ∧
      (Hyper.ask (.numE none) s).1 = .ok (.num m.toNat) := by
  unfold uniformGnm at h
  by_cases hk : 1 < k
  · rw [if_neg (not_not.2 hk)] at h
    by_cases hn : 1 < n
    · rw [if_neg (not_not.2 hn)] at h
      by_cases hm : 0 < m
      · rw [if_neg (not_not.2 hm)] at h
        obtain ⟨l, hl, hg⟩ := finish_ok h
        obtain ⟨h1, h2, h3⟩ := fill_ord (P := fun x => x ∈ combinations k.toNat (rangeI n.toNat))
          (fun s x s' hx => pickUniform_mem hx) hl hord
        obtain ⟨s', hs', hG, hlen⟩ := hyper_of_fill (K := K) hn h1 (fun l hl => ⟨_, h2 l hl⟩)
        rw [hs'] at hg
        cases hg
        refine ⟨⟨_, hG, ?_⟩, ?_⟩
        · rintro e ⟨l, hl, rfl⟩
          have := (combinations_subset _).1 ⟨l, h2 l hl, rfl⟩
          rwa [Int.toNat_of_nonneg (by omega), Int.toNat_of_nonneg (by omega)] at this
        · rw [hG.numE, hlen, h3]
      · rw [if_pos hm] at h; cases h
    · rw [if_pos hn] at h; cases h
  · rw [if_pos hk] at h; cases h

/-- a loop that can only collect elements of `D` never collects more of them -/
theorem fill_capacity {σ α : Type} [DecidableEq α] {pick : σ → Except Err (Option α × σ)} {m : Int}
    {D : List α} (hP : ∀ s x s', pick s = .ok (some x, s') → x ∈ D)
    (he : ∀ s e, pick s ≠ .error e) (hm : (D.length : Int) < m) (fuel : Nat) (s : σ) :
    fill pick m fuel [] s = none := by
  rcases h : fill pick m fuel [] s with _ | ⟨e | l⟩
  · rfl
  · obtain ⟨s, hs⟩ := fill_error fuel [] s h
    exact absurd hs (he s e)
  · obtain ⟨h1, h2, h3⟩ := fill_ok hP fuel [] s l h List.nodup_nil (by simp) (by simp)
    have := (List.subperm_of_subset h1 h2).length_le
    omega

/-- C71 (`uniform_hypergraph_Gnm`) fails for impossible counts: with more hyperedges than there are
sets of `k` vertices the call is not refused and never returns, whatever the draws. -/
theorem C71_uniform_hypergraph_Gnm_overfull_false {k n : Nat} {m : Int} (hk : 1 < k) (hn : 1 < n)
    (hkn : k ≤ n) (hm : (n.choose k : Int) < m) (ord : List (List Int) → List (List Int)) (ω : Draws)
    (fuel : Nat) : uniformGnm (K := K) k n m ord ω fuel = none := by
  unfold uniformGnm
  rw [if_neg (by omega), if_neg (by omega), if_neg (by omega)]
  rw [fill_capacity (D := combinations k (rangeI n))]
  · rfl
  · intro s x s' hx
    have := pickUniform_mem hx
    simpa using this
  · intro s e h
    unfold pickUniform sample at h
    rw [if_pos (by simp; omega)] at h
    cases h
  · rw [combinations_length, rangeI_length]; exact hm

/-- C71 (`uniform_hypergraph_Gnm`). Hyperedges with more vertices than there are raise `ValueError`
at the first draw. -/
theorem C71_uniform_hypergraph_Gnm_too_large {k n : Nat} {m : Int} (hk : 1 < k) (hn : 1 < n)
    (hkn : n < k) (hm : 0 < m) (ord : List (List Int) → List (List Int)) (ω : Draws) (fuel : Nat) :
    uniformGnm (K := K) k n m ord ω (fuel + 1) = some (.error .value) := by
  unfold uniformGnm
  rw [if_neg (by omega), if_neg (by omega), if_neg (by omega)]
  unfold fill
  rw [if_pos (by simpa using hm)]
  unfold pickUniform sample
  rw [if_neg (by omega)]
  rfl

/-- C71 (`uniform_hypergraph_Gnm`). -/
theorem C71_uniform_hypergraph_Gnm_refuses (k n m : Int) (ord : List (List Int) → List (List Int))
    (ω : Draws) (fuel : Nat) (h : k ≤ 1 ∨ n ≤ 1 ∨ m ≤ 0) :
    uniformGnm (K := K) k n m ord ω fuel = some (.error .assertion) := by
  unfold uniformGnm
  by_cases hk : 1 < k
  · by_cases hn : 1 < n
    · rw [if_neg (not_not.2 hk), if_neg (not_not.2 hn), if_pos (by omega)]
    · rw [if_neg (not_not.2 hk), if_pos hn]
  · rw [if_pos hk]

theorem sampleAux_draws : ∀ (k : Nat) (pool : List Int) (ω : Draws) (t : Nat),
    (sampleAux k pool ω).2 t = ω (k + t) := by
  intro k
  induction k with
  | zero => intro pool ω t; simp [sampleAux]
  | succ k ih =>
    intro pool ω t
    simp only [sampleAux]
    rw [ih]
    show ω (k + t + 1) = _
    congr 1
    omega

/-- C71 (`uniform_hypergraph_Gnm`). The generation ends whenever `random.sample`, called on the
successive blocks of `k` draws, keeps producing every set of `k` vertices. -/
theorem C71_uniform_hypergraph_Gnm_returns {k n : Nat} {m : Int} (hk : 1 < k) (hn : 1 < n)
    (hkn : k ≤ n) (hm0 : 0 < m) (hm : m ≤ n.choose k) {ord : List (List Int) → List (List Int)}
    (hord : ∀ l, (ord l).Perm l) {ω : Draws}
    (hω : ∀ e, Spec.IsSubset n k e → ∀ i, ∃ j, i ≤ j ∧
      ∃ r, sample n k (fun t => ω (k * j + t)) = .ok r ∧ (r.1 : Multiset Int) = e) :
    ∃ fuel s, ∀ fuel' ≥ fuel, uniformGnm (K := K) k n m ord ω fuel' = some (.ok s) := by
  let f : Draws → Option (List Int) × Draws := fun s =>
    (some (sortV (sampleAux k (rangeI n) s).1), (sampleAux k (rangeI n) s).2)
  have hsample : ∀ s, sample n k s = .ok (sampleAux k (rangeI n) s) := by
    intro s
    unfold sample
    rw [if_pos (by omega), Int.toNat_natCast]
  have hf : ∀ s, pickUniform k n s = .ok (f s) := by
    intro s
    unfold pickUniform
    rw [hsample]
    rfl
  have hst : ∀ j, stateAt f ω j = fun t => ω (k * j + t) := by
    intro j
    induction j with
    | zero => funext t; simp [stateAt]
    | succ j ih =>
      funext t
      simp only [stateAt]
      rw [ih]
      show (sampleAux k (rangeI n) _).2 t = _
      rw [sampleAux_draws]
      congr 1
      rw [Nat.mul_succ]
      omega
  have key := finish_returns hf (combinations_nodup k _ (rangeI_nodup n)) (m := m)
    (by rw [combinations_length, rangeI_length]; exact hm) (s := ω) ?_
    (mk := fun es => Hyper.new (K := K) n (some (Hyper.listArg (ord es))) .none none .mean) ?_
  · obtain ⟨fuel, g, h⟩ := key
    refine ⟨fuel, g, fun fuel' hge => ?_⟩
    unfold uniformGnm
    rw [if_neg (by omega), if_neg (by omega), if_neg (by omega)]
    exact h fuel' hge
  · intro x hx i
    obtain ⟨j, hj, r, hr, he⟩ := hω x ((combinations_subset _).1 ⟨x, hx, rfl⟩) i
    refine ⟨j, hj, ?_⟩
    rw [hst]
    rw [hsample] at hr
    cases hr
    show some (sortV _) = _
    rw [sortV_eq_iff.2 (Multiset.coe_eq_coe.1 he), combinations_sortV hx]
  · intro fuel l hl
    obtain ⟨h1, h2, h3⟩ := fill_ord (P := fun x => x ∈ combinations (k : Int).toNat (rangeI n))
          (fun s x s' hx => pickUniform_mem hx) hl hord
    obtain ⟨s', hs', _⟩ := hyper_of_fill (K := K) (by omega : (1 : Int) < n) h1 (fun l hl => ⟨_, h2 l hl⟩)
    exact ⟨s', hs'⟩

end Uniform

/-! ### `hypergraph_Gnm` -/

theorem pickSized_ok {ws : List ℝ} {n : Nat} {s s' : (Nat → ℝ) × Draws} {x : List Int}
    (h : pickSized ws n s = .ok (some x, s')) :
    ∃ i, choicesIdx ws (s.1 0) = .ok i ∧ x ∈ combinations (i + 2) (rangeI n) ∧ s'.1 = fun j => s.1 (j + 1) := by
  unfold pickSized at h
  simp only [bind, Except.bind] at h
  cases hc : choicesIdx ws (s.1 0) with
  | error e => rw [hc] at h; cases h
  | ok i =>
    rw [hc] at h
    simp only at h
    cases hs : sample n (i + 2 : Nat) s.2 with
    | error e => rw [hs] at h; cases h
    | ok r =>
      rw [hs] at h
      simp only [Except.ok.injEq, Prod.mk.injEq, Option.some.injEq] at h
      refine ⟨i, rfl, ?_, by rw [← h.2]⟩
      rw [← h.1]
      exact sample_mem hs

theorem combinations_le {k n : Nat} {x : List Int} (h : x ∈ combinations k (rangeI n)) : k ≤ n := by
  obtain ⟨h1, h2⟩ := (mem_combinations _ _ _).1 h
  have := h1.length_le
  rw [rangeI_length] at this
  omega

/-- unfolding a successful call -/
theorem hypergraphGnm_ok {n m : Int} {method : Method} {prob : Option (List ℝ)}
    {ord : List (List Int) → List (List Int)} {ρ : Nat → ℝ} {ω : Draws} {fuel : Nat} {s : HSt ℝ}
    (h : hypergraphGnm n m method prob ord ρ ω fuel = some (.ok s)) :
    1 < n ∧ 0 < m ∧ ∃ ws l, sizeWts n.toNat method prob = .ok ws ∧
      fill (pickSized ws n.toNat) m fuel [] (ρ, ω) = some (.ok l) ∧
      Hyper.new n (some (Hyper.listArg (ord l))) .none none .mean = .ok s := by
  unfold hypergraphGnm at h
  by_cases hn : 1 < n
  · rw [if_neg (not_not.2 hn)] at h
    by_cases hm : 0 < m
    · rw [if_neg (not_not.2 hm)] at h
      by_cases ho : method = .other
      · rw [if_pos ho] at h; cases h
      · rw [if_neg ho] at h
        cases hw : sizeWts n.toNat method prob with
        | error e => rw [hw] at h; cases h
        | ok ws =>
          rw [hw] at h
          obtain ⟨l, hl, hg⟩ := finish_ok h
          exact ⟨hn, hm, ws, l, rfl, hl, hg⟩
    · rw [if_pos hm] at h; cases h
  · rw [if_pos hn] at h; cases h

/-- C71 (`hypergraph_Gnm`). Whatever the method and the draws, a returned hypergraph has exactly
`num_e` different hyperedges, each a set of at least two vertices below `num_v`. -/
theorem C71_hypergraph_Gnm {n m : Int} {method : Method} {prob : Option (List ℝ)}
    {ord : List (List Int) → List (List Int)} (hord : ∀ l, (ord l).Perm l) {ρ : Nat → ℝ} {ω : Draws}
    {fuel : Nat} {s : HSt ℝ} (h : hypergraphGnm n m method prob ord ρ ω fuel = some (.ok s)) :
    (∃ E, Spec.HypergraphIs s n E ∧ ∀ e, E e → ∃ k, 2 ≤ k ∧ k ≤ n ∧ Spec.IsSubset n k e) ∧
      (Hyper.ask (.numE none) s).1 = .ok (.num m.toNat) := by
  obtain ⟨hn, hm, ws, l, _, hl, hg⟩ := hypergraphGnm_ok h
  obtain ⟨h1, h2, h3⟩ := fill_ord (P := fun x => ∃ i : Nat, x ∈ combinations (i + 2) (rangeI n.toNat))
    (fun s x s' hx => by obtain ⟨i, _, hi, _⟩ := pickSized_ok hx; exact ⟨i, hi⟩) hl hord
  obtain ⟨s', hs', hG, hlen⟩ := hyper_of_fill (K := ℝ) hn h1
    (fun l hl => by obtain ⟨i, hi⟩ := h2 l hl; exact ⟨_, hi⟩)
  rw [hs'] at hg
  cases hg
  refine ⟨⟨_, hG, ?_⟩, ?_⟩
  · rintro e ⟨l, hl, rfl⟩
    obtain ⟨i, hi⟩ := h2 l hl
    have h4 := (combinations_subset _).1 ⟨l, hi, rfl⟩
    have h5 := combinations_le hi
    rw [Int.toNat_of_nonneg (by omega)] at h4
    exact ⟨_, by omega, by omega, h4⟩
  · rw [hG.numE, hlen, h3]

theorem sized_capacity (n : Nat) (hn : 1 < n) :
    ((List.range (n - 1)).flatMap fun i => combinations (i + 2) (rangeI n)).length + (n + 1) = 2 ^ n := by
  obtain ⟨k, rfl⟩ : ∃ k, n = k + 1 := ⟨n - 1, by omega⟩
  rw [List.length_flatMap]
  simp only [combinations_length, rangeI_length, Nat.add_sub_cancel]
  have h := Nat.sum_range_choose (k + 1)
  rw [Finset.sum_range_succ', Finset.sum_range_succ'] at h
  rw [← h]
  simp only [Nat.choose_zero_right, zero_add, Nat.choose_one_right]
  rw [show ((List.range k).map fun a => (k + 1).choose (a + 2)).sum =
    ∑ i ∈ Finset.range k, (k + 1).choose (i + 1 + 1) from ?_]
  · omega
  · rw [Finset.sum_range, ← List.sum_ofFn]
    congr 1
    apply List.ext_getElem <;> simp

/-- C71 (`hypergraph_Gnm`) fails for impossible counts: a call asking for more hyperedges than there
are sets of at least two vertices never returns a hypergraph. -/
theorem C71_hypergraph_Gnm_overfull_false {n : Nat} {m : Int} (hm : (2 : Int) ^ n < m + n + 1)
    (method : Method) (prob : Option (List ℝ)) (ord : List (List Int) → List (List Int))
    (ρ : Nat → ℝ) (ω : Draws) (fuel : Nat) (s : HSt ℝ) :
    hypergraphGnm n m method prob ord ρ ω fuel ≠ some (.ok s) := by
  intro h
  obtain ⟨hn, hm0, ws, l, _, hl, hg⟩ := hypergraphGnm_ok h
  have hP : ∀ s x s', pickSized ws n s = .ok (some x, s') →
      x ∈ (List.range (n - 1)).flatMap fun i => combinations (i + 2) (rangeI n) := by
    intro s x s' hx
    obtain ⟨i, _, hi, _⟩ := pickSized_ok hx
    have := combinations_le hi
    exact List.mem_flatMap.2 ⟨i, List.mem_range.2 (by omega), hi⟩
  rw [Int.toNat_natCast] at hl
  obtain ⟨h1, h2, h3⟩ := fill_ok hP fuel [] _ l hl List.nodup_nil (by simp) (by simp)
  have h4 := (List.subperm_of_subset h1 h2).length_le
  have h5 := sized_capacity n (by omega)
  have h6 : ((2 ^ n : Nat) : Int) = 2 ^ n := by push_cast; rfl
  omega

theorem accumulate_getLast (c : ℝ) (ws : List ℝ) (h : ws ≠ []) :
    (accumulate c ws).getLast? = some (c + ws.sum) := by
  induction ws generalizing c with
  | nil => exact absurd rfl h
  | cons w ws ih =>
    unfold accumulate
    cases ws with
    | nil => simp [accumulate]
    | cons w' ws' =>
      have := ih (c + w) (by simp)
      rw [List.getLast?_cons, this]
      simp [add_assoc]

theorem choicesIdx_ok {ws : List ℝ} (h : 0 < ws.sum) (r : ℝ) : ∃ i, choicesIdx ws r = .ok i := by
  unfold choicesIdx
  rw [accumulate_getLast 0 ws (by rintro rfl; simp at h)]
  simp only [zero_add]
  rw [if_neg (not_le.2 h)]
  exact ⟨_, rfl⟩

theorem normWts_ok {ps : List ℝ} (h : 0 < ps.sum) :
    normWts ps = .ok (ps.map fun p => p / ps.sum) ∧ (ps.map fun p => p / ps.sum).sum = 1 := by
  refine ⟨?_, ?_⟩
  · unfold normWts
    rw [if_neg (fun hc => h.ne' hc.1)]
  · have : (ps.map fun p => p / ps.sum) = ps.map fun p => p * (ps.sum)⁻¹ := by simp [div_eq_mul_inv]
    rw [this, List.sum_map_mul_right]
    simp [h.ne']

theorem geomWts_sum_pos {k : Nat} (hk : 0 < k) : 0 < (geomWts k).sum := by
  unfold geomWts
  refine List.sum_pos _ ?_ ?_
  · intro x hx
    obtain ⟨i, _, rfl⟩ := List.mem_map.1 hx
    positivity
  · simp; omega

/-- the arguments `hypergraph_Gnm` accepts: a known method, and for the custom method one
non-negative weight per size, not all zero -/
def Spec.SizesGiven (n : Int) (method : Method) (prob : Option (List ℝ)) : Prop :=
  method ≠ .other ∧ (method = .custom → ∃ ps, prob = some ps ∧ (ps.length : Int) = n - 1 ∧
    (∀ p ∈ ps, 0 ≤ p) ∧ ∃ p ∈ ps, 0 < p)

theorem sum_pos_of {ps : List ℝ} (h0 : ∀ p ∈ ps, 0 ≤ p) (h1 : ∃ p ∈ ps, 0 < p) : 0 < ps.sum := by
  obtain ⟨p, hp, hpos⟩ := h1
  exact lt_of_lt_of_le hpos (List.single_le_sum h0 p hp)

theorem sizeWts_ok {n : Nat} (hn : 1 < n) {method : Method} {prob : Option (List ℝ)}
    (h : Spec.SizesGiven n method prob) :
    ∃ ws, sizeWts n method prob = .ok ws ∧ 0 < ws.sum ∧ ws.length = n - 1 := by
  obtain ⟨ho, hc⟩ := h
  cases method with
  | uniform =>
    have hb : ∀ i ∈ List.range (n - 1), (do
        let c ← Utils.binom n (i + 2 : Nat)
        .ok ((c : ℝ) / (2 ^ n - 1)) : Except Err ℝ) = .ok (((n.choose (i + 2) : Nat) : ℝ) / (2 ^ n - 1)) := by
      intro i hi
      have := List.mem_range.1 hi
      rw [Utils.binom_eq n (i + 2) (by omega)]
      simp [bind, Except.bind]
    refine ⟨(List.range (n - 1)).map fun i => ((n.choose (i + 2) : Nat) : ℝ) / (2 ^ n - 1), ?_, ?_, by simp⟩
    · show uniformWts n = _
      unfold uniformWts
      exact collectE_ok hb
    · have h2 : (0 : ℝ) < 2 ^ n - 1 := by
        have : (1 : ℝ) < 2 ^ n := one_lt_pow₀ (by norm_num) (by omega)
        linarith
      refine List.sum_pos _ ?_ (by simp; omega)
      intro x hx
      obtain ⟨i, hi, rfl⟩ := List.mem_map.1 hx
      have := List.mem_range.1 hi
      have h3 : 0 < n.choose (i + 2) := Nat.choose_pos (by omega)
      positivity
  | lowOrderFirst =>
    obtain ⟨h1, h2⟩ := normWts_ok (geomWts_sum_pos (by omega : 0 < n - 1))
    exact ⟨_, h1, by rw [h2]; norm_num, by simp [geomWts]⟩
  | highOrderFirst =>
    obtain ⟨h1, h2⟩ := normWts_ok (ps := (geomWts (n - 1)).reverse)
      (by rw [List.sum_reverse]; exact geomWts_sum_pos (by omega : 0 < n - 1))
    exact ⟨_, h1, by rw [h2]; norm_num, by simp [geomWts]⟩
  | custom =>
    obtain ⟨ps, rfl, hl, h0, h1⟩ := hc rfl
    obtain ⟨h2, h3⟩ := normWts_ok (sum_pos_of h0 h1)
    refine ⟨_, ?_, by rw [h3]; norm_num, by simp; omega⟩
    show (if ps.length = n - 1 then normWts ps else _) = _
    rw [if_pos (by omega)]
    exact h2
  | other => exact absurd rfl ho

theorem fill_error_inv {σ α : Type} [DecidableEq α] {pick : σ → Except Err (Option α × σ)} {m : Int}
    {e : Err} {I : σ → Prop} (hI : ∀ s x s', I s → pick s = .ok (x, s') → I s') :
    ∀ (fuel : Nat) (acc : List α) (s : σ), I s → fill pick m fuel acc s = some (.error e) →
      ∃ s, I s ∧ pick s = .error e := by
  intro fuel
  induction fuel with
  | zero =>
    intro acc s _ h
    unfold fill at h
    split at h <;> cases h
  | succ fuel ih =>
    intro acc s hs h
    unfold fill at h
    split at h
    · rcases hp : pick s with e' | ⟨x, s'⟩
      · rw [hp] at h
        cases h
        exact ⟨s, hs, hp⟩
      · rw [hp] at h
        have hs' := hI s x s' hs hp
        cases x with
        | none => exact ih _ _ hs' h
        | some x =>
          simp only at h
          split at h
          · exact ih _ _ hs' h
          · exact ih _ _ hs' h
    · cases h

theorem pickSized_inv (ws : List ℝ) (n : Nat) (s : (Nat → ℝ) × Draws) (x : Option (List Int))
    (s' : (Nat → ℝ) × Draws) (hI : ∀ i, 0 ≤ s.1 i ∧ s.1 i < 1) (hx : pickSized ws n s = .ok (x, s')) :
    ∀ i, 0 ≤ s'.1 i ∧ s'.1 i < 1 := by
  intro i
  unfold pickSized at hx
  simp only [bind, Except.bind] at hx
  cases hc : choicesIdx ws (s.1 0) with
  | error e => rw [hc] at hx; cases hx
  | ok j =>
    rw [hc] at hx
    simp only at hx
    cases hs : sample n (j + 2 : Nat) s.2 with
    | error e => rw [hs] at hx; cases hx
    | ok r =>
      rw [hs] at hx
      simp only [Except.ok.injEq, Prod.mk.injEq] at hx
      rw [← hx.2]
      exact hI (i + 1)

/-- C71 (`hypergraph_Gnm`). With valid arguments the generation never raises, whatever the draws
from `[0, 1)`: it returns or it is still drawing. -/
theorem C71_hypergraph_Gnm_no_error {n m : Int} (hn : 1 < n) (hm : 0 < m) {method : Method}
    {prob : Option (List ℝ)} (hs : Spec.SizesGiven n method prob)
    {ord : List (List Int) → List (List Int)} (hord : ∀ l, (ord l).Perm l) {ρ : Nat → ℝ}
    (hρ : ∀ i, 0 ≤ ρ i ∧ ρ i < 1) (ω : Draws) (fuel : Nat) (e : Err) :
    hypergraphGnm n m method prob ord ρ ω fuel ≠ some (.error e) := by
  obtain ⟨n, rfl⟩ : ∃ a : Nat, n = a := ⟨n.toNat, by omega⟩
  obtain ⟨ws, hw, hpos, hlen⟩ := sizeWts_ok (by omega : 1 < n) hs
  intro h
  unfold hypergraphGnm at h
  rw [if_neg (by omega), if_neg (by omega), if_neg hs.1, Int.toNat_natCast, hw] at h
  simp only at h
  rcases hf : fill (pickSized ws n) m fuel [] (ρ, ω) with _ | ⟨e' | l⟩
  · rw [hf] at h; cases h
  · obtain ⟨s, hsI, hse⟩ := fill_error_inv (I := fun s : (Nat → ℝ) × Draws => ∀ i, 0 ≤ s.1 i ∧ s.1 i < 1)
      (pickSized_inv ws n) fuel [] (ρ, ω) hρ hf
    obtain ⟨i, hi⟩ := choicesIdx_ok hpos (s.1 0)
    obtain ⟨w, hw1, _⟩ := choicesIdx_pos (hsI 0).1 (hsI 0).2 hi
    have hil : i < ws.length := (List.getElem?_eq_some_iff.1 hw1).1
    unfold pickSized at hse
    rw [hi] at hse
    simp only [bind, Except.bind] at hse
    unfold sample at hse
    rw [if_pos (by omega)] at hse
    cases hse
  · rw [hf] at h
    obtain ⟨h1, h2, h3⟩ := fill_ord (P := fun x => ∃ i : Nat, x ∈ combinations (i + 2) (rangeI n))
      (fun s x s' hx => by obtain ⟨i, _, hi, _⟩ := pickSized_ok hx; exact ⟨i, hi⟩) hf hord
    obtain ⟨s', hs', _⟩ := hyper_of_fill (K := ℝ) (n := n) (by omega) h1
      (fun l hl => by obtain ⟨i, hi⟩ := h2 l hl; exact ⟨_, by rw [Int.toNat_natCast]; exact hi⟩)
    simp only [finish, Option.map_some, Except.bind, hs'] at h
    cases h

/-! ## C73 -/

theorem fill_mem_inv {σ α : Type} [DecidableEq α] {pick : σ → Except Err (Option α × σ)} {m : Int}
    {I : σ → Prop} {P : α → Prop} (hP : ∀ s x s', I s → pick s = .ok (some x, s') → P x)
    (hI : ∀ s x s', I s → pick s = .ok (x, s') → I s') :
    ∀ (fuel : Nat) (acc : List α) (s : σ) (l : List α), I s → (∀ x ∈ acc, P x) →
      fill pick m fuel acc s = some (.ok l) → ∀ x ∈ l, P x := by
  intro fuel
  induction fuel with
  | zero =>
    intro acc s l _ ha h
    unfold fill at h
    split at h <;> cases h
    exact ha
  | succ fuel ih =>
    intro acc s l hs ha h
    unfold fill at h
    split at h
    · rcases hp : pick s with e' | ⟨x, s'⟩
      · rw [hp] at h; cases h
      · rw [hp] at h
        have hs' := hI s x s' hs hp
        cases x with
        | none => exact ih _ _ _ hs' ha h
        | some x =>
          simp only at h
          split at h
          · exact ih _ _ _ hs' ha h
          · refine ih _ _ _ hs' ?_ h
            intro y hy
            rcases List.mem_append.1 hy with hy | hy
            · exact ha y hy
            · obtain rfl := List.mem_singleton.1 hy
              exact hP s y s' hs hp
    · cases h
      exact ha

/-- C73. With `method = 'custom'` every hyperedge has a size whose weight is positive: sizes of weight
zero never occur, for every stream of draws from `[0, 1)`.  Entry `i` belongs to size `i + 2`. -/
theorem C73_custom_sizes {n m : Int} {ps : List ℝ} (hps : ∀ p ∈ ps, 0 ≤ p)
    {ord : List (List Int) → List (List Int)} (hord : ∀ l, (ord l).Perm l) {ρ : Nat → ℝ}
    (hρ : ∀ i, 0 ≤ ρ i ∧ ρ i < 1) {ω : Draws} {fuel : Nat} {s : HSt ℝ}
    (h : hypergraphGnm n m .custom (some ps) ord ρ ω fuel = some (.ok s)) :
    ∃ E, Spec.HypergraphIs s n E ∧ ∀ e, E e → 2 ≤ e.card ∧ ∃ p, ps[e.card - 2]? = some p ∧ 0 < p := by
  obtain ⟨hn, hm, ws, l, hw, hl, hg⟩ := hypergraphGnm_ok h
  have hws : ws = ps.map fun p => p / ps.sum := by
    simp only [sizeWts] at hw
    split at hw
    · unfold normWts at hw
      split at hw <;> cases hw
      rfl
    · cases hw
  have hP := fill_mem_inv (I := fun s : (Nat → ℝ) × Draws => ∀ i, 0 ≤ s.1 i ∧ s.1 i < 1)
    (P := fun x => ∃ i : Nat, x ∈ combinations (i + 2) (rangeI n.toNat) ∧ ∃ w, ws[i]? = some w ∧ 0 < w)
    (by
      intro s x s' hI hx
      obtain ⟨i, hi, hc, h4⟩ := pickSized_ok hx
      exact ⟨i, hc, choicesIdx_pos (hI 0).1 (hI 0).2 hi⟩)
    (pickSized_inv ws n.toNat) fuel [] (ρ, ω) l hρ (by simp) hl
  have hsum : 0 ≤ ps.sum := List.sum_nonneg hps
  obtain ⟨h1, h2, h3⟩ := fill_ord (P := fun x => ∃ i : Nat, x ∈ combinations (i + 2) (rangeI n.toNat))
    (fun s x s' hx => by obtain ⟨i, _, hi, _⟩ := pickSized_ok hx; exact ⟨i, hi⟩) hl hord
  obtain ⟨s', hs', hG, hlen⟩ := hyper_of_fill (K := ℝ) hn h1
    (fun l hl => by obtain ⟨i, hi⟩ := h2 l hl; exact ⟨_, hi⟩)
  rw [hs'] at hg
  cases hg
  refine ⟨_, hG, ?_⟩
  rintro e ⟨x, hx, rfl⟩
  obtain ⟨i, hi, w, hw1, hw2⟩ := hP x ((hord l).subset hx)
  have hlen := ((mem_combinations _ _ _).1 hi).2
  rw [Multiset.coe_card, hlen]
  refine ⟨by omega, ?_⟩
  rw [hws, List.getElem?_map] at hw1
  cases hq : ps[i]? with
  | none => rw [hq] at hw1; cases hw1
  | some q =>
    rw [hq] at hw1
    simp only [Option.map_some, Option.some.injEq] at hw1
    refine ⟨q, by rw [Nat.add_sub_cancel]; exact hq, ?_⟩
    rw [← hw1] at hw2
    rcases div_pos_iff.1 hw2 with h | h
    · exact h.1
    · exact absurd hsum (not_le.2 h.2)

/-- C73. A list of weights of the wrong length, or none at all, is refused; an unknown method is
refused; weights that sum to zero raise `ZeroDivisionError`. -/
theorem C73_refuses (n m : Int) (hn : 1 < n) (hm : 0 < m) (ord : List (List Int) → List (List Int))
    (ρ : Nat → ℝ) (ω : Draws) (fuel : Nat) :
    (∀ prob, hypergraphGnm n m .other prob ord ρ ω fuel = some (.error .assertion)) ∧
    hypergraphGnm n m .custom none ord ρ ω fuel = some (.error .assertion) ∧
    (∀ ps : List ℝ, (ps.length : Int) ≠ n - 1 →
      hypergraphGnm n m .custom (some ps) ord ρ ω fuel = some (.error .assertion)) ∧
    (∀ ps : List ℝ, (ps.length : Int) = n - 1 → ps.sum = 0 →
      hypergraphGnm n m .custom (some ps) ord ρ ω fuel = some (.error .zeroDiv)) := by
  refine ⟨fun prob => ?_, ?_, fun ps hl => ?_, fun ps hl h0 => ?_⟩
  · unfold hypergraphGnm
    rw [if_neg (not_not.2 hn), if_neg (not_not.2 hm), if_pos rfl]
  · unfold hypergraphGnm
    rw [if_neg (not_not.2 hn), if_neg (not_not.2 hm), if_neg (by decide)]
    rfl
  · unfold hypergraphGnm
    rw [if_neg (not_not.2 hn), if_neg (not_not.2 hm), if_neg (by decide)]
    simp only [sizeWts]
    rw [if_neg (by omega)]
  · unfold hypergraphGnm
    rw [if_neg (not_not.2 hn), if_neg (not_not.2 hm), if_neg (by decide)]
    simp only [sizeWts]
    rw [if_pos (by omega)]
    unfold normWts
    rw [if_pos ⟨h0, by rintro rfl; simp at hl; omega⟩]

/-- three vertices and pairs only: the hypotheses of C73 and of the no-error theorem -/
example : Spec.SizesGiven 3 .custom (some [1, 0]) := by
  refine ⟨by decide, fun _ => ⟨_, rfl, by norm_num, ?_, 1, by simp, by norm_num⟩⟩
  intro p hp
  simp at hp
  rcases hp with rfl | rfl <;> norm_num

/-! ## C72 -/

theorem landing_eq (prob : ℝ) (ρ : Nat → ℝ) (i k : Nat) :
    advance (fun j => ⌊Real.log (1 - ρ j) / Real.log (1 - prob)⌋) i (k + 1) =
      Spec.landing prob (fun j => ρ (i + j)) k + 1 := by
  unfold advance Spec.landing
  beta_reduce
  omega

theorem position_rank {a b : Int} : 2 * Spec.position (a, b) = rank2 b a := by
  unfold Spec.position rank2
  have : (2 : Int) ∣ b * (b - 1) := by
    rcases Int.even_or_odd b with ⟨k, hk⟩ | ⟨k, hk⟩
    · exact ⟨k * (b - 1), by rw [hk]; ring⟩
    · exact ⟨b * k, by rw [hk]; ring⟩
  simp only
  omega

theorem fastLoop_mono {n : Int} {lp : ℝ} {ρ : Nat → ℝ} {r : Except Err (List (Int × Int) × Nat)} :
    ∀ (fuel i : Nat) (v w : Int), fastLoop n lp ρ fuel i v w = some r →
      fastLoop n lp ρ (fuel + 1) i v w = some r := by
  intro fuel
  induction fuel generalizing r with
  | zero =>
    intro i v w h
    unfold fastLoop at h ⊢
    split at h
    · cases h
    · rename_i hv
      rw [if_neg hv]; exact h
  | succ fuel ih =>
    intro i v w h
    unfold fastLoop at h ⊢
    split at h
    · rename_i hv
      rw [if_pos hv]
      cases hs : skipOf lp (ρ i) with
      | error e => rw [hs] at h; exact h
      | ok s =>
        rw [hs] at h
        simp only at h ⊢
        rcases hq : fastLoop n lp ρ fuel (i + 1) (skipRows n (n - v).toNat v (w + 1 + s)).1
          (skipRows n (n - v).toNat v (w + 1 + s)).2 with _ | x
        · rw [hq] at h; cases h
        · rw [ih _ _ _ hq]
          rw [hq] at h
          exact h
    · rename_i hv
      rw [if_neg hv]; exact h

theorem fastLoop_mono_le {n : Int} {lp : ℝ} {ρ : Nat → ℝ} {r : Except Err (List (Int × Int) × Nat)}
    {fuel fuel' i : Nat} {v w : Int} (hf : fuel ≤ fuel') (h : fastLoop n lp ρ fuel i v w = some r) :
    fastLoop n lp ρ fuel' i v w = some r := by
  induction hf with
  | refl => exact h
  | step _ ih => exact fastLoop_mono _ _ _ _ ih

/-- one pass over the pairs -/
theorem pass_spec {n : Int} (hn : 1 < n) {prob : ℝ} (h0 : 0 < prob) (h1 : prob < 1) {ρ : Nat → ℝ}
    (hρ : ∀ i, 0 ≤ ρ i ∧ ρ i < 1) (i : Nat) {fuel : Nat} (hf : n * n ≤ fuel) :
    ∃ l c, fastLoop n (Real.log (1 - prob)) ρ fuel i 1 (-1) = some (.ok (l, i + (c + 1))) ∧
      n * (n - 1) / 2 ≤ Spec.landing prob (fun j => ρ (i + j)) c ∧
      (∀ t < c, Spec.landing prob (fun j => ρ (i + j)) t < n * (n - 1) / 2) ∧
      l.Nodup ∧ ∀ p : Int × Int, p ∈ l ↔ 0 ≤ p.2 ∧ p.2 < p.1 ∧ p.1 < n ∧
        ∃ k, Spec.position (p.2, p.1) = Spec.landing prob (fun j => ρ (i + j)) k := by
  have hS := fun i => (skipOf_eq h0 h1 (hρ i).1 (hρ i).2)
  obtain ⟨l, c, h2, h3, h4, h5, h6, h7⟩ := fastLoop_spec (n := n) (fun i => (hS i).1) (fun i => (hS i).2)
    fuel i 1 (-1) le_rfl hn.le le_rfl (by omega) (by omega) (by intro _; nlinarith)
  have hr : rank2 1 (-1) = -2 := by unfold rank2; norm_num
  rw [hr] at h3 h4 h7
  have hpos : 0 ≤ n * (n - 1) := by nlinarith
  obtain ⟨c, rfl⟩ : ∃ d, c = d + 1 := by
    cases c with
    | zero =>
      have : advance (fun j => ⌊Real.log (1 - ρ j) / Real.log (1 - prob)⌋) i 0 = 0 := by simp [advance]
      rw [this] at h3
      omega
    | succ c => exact ⟨c, rfl⟩
  rw [landing_eq] at h3
  refine ⟨l, c, h2, by omega, ?_, ?_, ?_⟩
  · intro t ht
    have := h4 (t + 1) (by omega)
    rw [landing_eq] at this
    have h2 : n * (n - 1) = 2 * Spec.position (0, n) := by rw [position_rank]; unfold rank2; ring
    omega
  · exact h5.imp fun h => by rintro rfl; exact lt_irrefl _ h
  · intro p
    rw [h7]
    refine and_congr_right fun _ => and_congr_right fun _ => and_congr_right fun _ => exists_congr fun k => ?_
    rw [landing_eq, ← position_rank]
    omega

/-- C72 (`graph_Gnp_fast`), probabilities strictly between zero and one. The call returns on every
stream of draws from `[0, 1)`, within `num_v²` rounds; the graph has exactly the pairs whose position
is reached by some draw.  Missing: the probabilities 0 and 1, see the two theorems below. -/
theorem C72_graph_Gnp_fast_partial {n : Int} (hn : 1 < n) {prob : ℝ} (h0 : 0 < prob) (h1 : prob < 1)
    {ρ : Nat → ℝ} (hρ : ∀ i, 0 ≤ ρ i ∧ ρ i < 1) :
    ∃ g, (∀ fuel : Nat, n * n ≤ fuel → graphGnpFast n prob ρ fuel = some (.ok g)) ∧
      Spec.GraphIs g n fun p => (0 ≤ p.1 ∧ p.1 < p.2 ∧ p.2 < n) ∧
        ∃ k, Spec.position p = Spec.landing prob ρ k := by
  obtain ⟨l, c, hl, _, _, hnd, hmem⟩ := pass_spec hn h0 h1 hρ 0 (fuel := (n * n).toNat) (by omega)
  simp only [Nat.zero_add] at hmem
  have hlog : Utils.mathLog (1 - prob) = .ok (Real.log (1 - prob)) := by
    unfold Utils.mathLog
    rw [if_neg (by linarith)]
  have hE : ∀ p : Int × Int, p ∈ l.map Graph.sortPair ↔
      (0 ≤ p.1 ∧ p.1 < p.2 ∧ p.2 < n) ∧ ∃ k, Spec.position p = Spec.landing prob ρ k := by
    intro p
    rw [List.mem_map]
    constructor
    · rintro ⟨q, hq, rfl⟩
      obtain ⟨h2, h3, h4, h5⟩ := (hmem q).1 hq
      unfold Graph.sortPair
      rw [if_neg (by omega)]
      exact ⟨⟨h2, h3, h4⟩, h5⟩
    · rintro ⟨⟨h2, h3, h4⟩, h5⟩
      refine ⟨(p.2, p.1), (hmem _).2 ⟨h2, h3, h4, h5⟩, ?_⟩
      unfold Graph.sortPair
      rw [if_neg (by simp only; omega)]
  have hsnd : (l.map Graph.sortPair).Nodup := by
    refine List.Nodup.map_on ?_ hnd
    intro x hx y hy hxy
    have h2 := (hmem x).1 hx
    have h3 := (hmem y).1 hy
    unfold Graph.sortPair at hxy
    rw [if_neg (by omega), if_neg (by omega)] at hxy
    simp only [Prod.mk.injEq] at hxy
    exact Prod.ext hxy.2 hxy.1
  obtain ⟨g, hg, hG, _⟩ := graph_new (K := ℝ) (by omega : 0 < n) (es := l)
    (fun e he => by have := (hmem e).1 he; omega) (fun e he => by have := (hmem e).1 he; omega) hsnd
  refine ⟨g, fun fuel hf => ?_, ShowsEdges_congr hG hE⟩
  unfold graphGnpFast
  rw [if_neg (not_not.2 hn), if_neg (not_not.2 ⟨h0.le, h1.le⟩), hlog]
  simp only
  rw [fastLoop_mono_le (by omega : (n * n).toNat ≤ fuel) hl]
  simp [Except.bind, hg]

/-- C72 (`digraph_Gnp_fast`), probabilities strictly between zero and one. Two passes: the arcs
pointing to the larger vertex come from the first, those pointing to the smaller vertex from the
second, which continues with the draw after the one that left the first pass.  Missing: the
probabilities 0 and 1. -/
theorem C72_digraph_Gnp_fast_partial {n : Int} (hn : 1 < n) {prob : ℝ} (h0 : 0 < prob) (h1 : prob < 1)
    {ρ : Nat → ℝ} (hρ : ∀ i, 0 ≤ ρ i ∧ ρ i < 1) :
    ∃ c, n * (n - 1) / 2 ≤ Spec.landing prob ρ c ∧
      (∀ t < c, Spec.landing prob ρ t < n * (n - 1) / 2) ∧
      ∃ g, (∀ fuel : Nat, n * n ≤ fuel → digraphGnpFast n prob ρ fuel = some (.ok g)) ∧
        Spec.DigraphIs g n fun p => (0 ≤ p.1 ∧ p.1 < n ∧ 0 ≤ p.2 ∧ p.2 < n) ∧
          ((p.1 < p.2 ∧ ∃ k, Spec.position p = Spec.landing prob ρ k) ∨
           (p.2 < p.1 ∧ ∃ k, Spec.position (p.2, p.1) =
              Spec.landing prob (fun j => ρ (c + 1 + j)) k)) := by
  obtain ⟨l, c, hl, hc, hc', hnd, hmem⟩ := pass_spec hn h0 h1 hρ 0 (fuel := (n * n).toNat) (by omega)
  simp only [Nat.zero_add] at hmem hl hc hc'
  obtain ⟨l', c', hl', _, _, hnd', hmem'⟩ := pass_spec hn h0 h1 hρ (c + 1) (fuel := (n * n).toNat) (by omega)
  have hlog : Utils.mathLog (1 - prob) = .ok (Real.log (1 - prob)) := by
    unfold Utils.mathLog
    rw [if_neg (by linarith)]
  refine ⟨c, hc, hc', ?_⟩
  have hE : ∀ p : Int × Int, p ∈ (l.map fun e => (e.2, e.1)) ++ l' ↔
      (0 ≤ p.1 ∧ p.1 < n ∧ 0 ≤ p.2 ∧ p.2 < n) ∧
          ((p.1 < p.2 ∧ ∃ k, Spec.position p = Spec.landing prob ρ k) ∨
           (p.2 < p.1 ∧ ∃ k, Spec.position (p.2, p.1) =
              Spec.landing prob (fun j => ρ (c + 1 + j)) k)) := by
    intro p
    rw [List.mem_append, List.mem_map]
    constructor
    · rintro (⟨q, hq, rfl⟩ | hq)
      · obtain ⟨h2, h3, h4, h5⟩ := (hmem q).1 hq
        exact ⟨by simp only; omega, .inl ⟨h3, h5⟩⟩
      · obtain ⟨h2, h3, h4, h5⟩ := (hmem' p).1 hq
        exact ⟨by omega, .inr ⟨h3, h5⟩⟩
    · rintro ⟨⟨h2, h3, h4, h5⟩, (⟨h6, h7⟩ | ⟨h6, h7⟩)⟩
      · exact .inl ⟨(p.2, p.1), (hmem _).2 ⟨h2, h6, h5, h7⟩, rfl⟩
      · exact .inr ((hmem' p).2 ⟨h4, h6, h3, h7⟩)
  have hnd2 : ((l.map fun e => (e.2, e.1)) ++ l').Nodup := by
    refine List.Nodup.append (hnd.map ?_) hnd' ?_
    · intro x y hxy
      simp only [Prod.mk.injEq] at hxy
      exact Prod.ext hxy.2 hxy.1
    · intro x hx hx'
      obtain ⟨q, hq, rfl⟩ := List.mem_map.1 hx
      have h2 := (hmem q).1 hq
      have h3 := (hmem' _).1 hx'
      simp only at h3
      omega
  obtain ⟨g, hg, hG, _⟩ := digraph_new (K := ℝ) (by omega : 0 < n)
    (es := (l.map fun e => (e.2, e.1)) ++ l')
    (fun e he => by have := (hE e).1 he; omega) (fun e he => by have := (hE e).1 he; omega) hnd2
  refine ⟨g, fun fuel hf => ?_, ShowsEdges_congr hG hE⟩
  unfold digraphGnpFast
  rw [if_neg (not_not.2 hn), if_neg (not_not.2 ⟨h0.le, h1.le⟩), hlog]
  simp only
  rw [fastLoop_mono_le (by omega : (n * n).toNat ≤ fuel) hl]
  simp only
  rw [fastLoop_mono_le (by omega : (n * n).toNat ≤ fuel) hl']
  simp [Except.bind, hg]

/-- C72 fails at probability one: the documented value is accepted by the check and then raises
`ValueError` (`log 0`), whatever the draws. -/
theorem C72_prob_one_false {n : Int} (hn : 1 < n) (ρ : Nat → ℝ) (fuel : Nat) :
    graphGnpFast n 1 ρ fuel = some (.error .value) ∧ digraphGnpFast n 1 ρ fuel = some (.error .value) := by
  have hlog : Utils.mathLog (1 - 1) = .error .value := by
    unfold Utils.mathLog
    rw [if_pos (by norm_num)]
  unfold graphGnpFast digraphGnpFast
  rw [if_neg (not_not.2 hn), if_neg (by norm_num), if_neg (not_not.2 hn), if_neg (by norm_num), hlog]
  exact ⟨rfl, rfl⟩

/-- C72 fails at probability zero: the call raises `ZeroDivisionError` at the first draw instead of
returning a graph without edges. -/
theorem C72_prob_zero_false {n : Int} (hn : 1 < n) (ρ : Nat → ℝ) (hρ : ρ 0 < 1) (fuel : Nat) :
    graphGnpFast n 0 ρ (fuel + 1) = some (.error .zeroDiv) ∧
      digraphGnpFast n 0 ρ (fuel + 1) = some (.error .zeroDiv) := by
  have hlog : Utils.mathLog (1 - 0) = .ok 0 := by
    unfold Utils.mathLog
    rw [if_neg (by norm_num)]
    simp
  have hskip : skipOf 0 (ρ 0) = .error .zeroDiv := by
    unfold skipOf Utils.mathLog
    rw [if_neg (by linarith)]
    simp [bind, Except.bind]
  have hloop : fastLoop n 0 ρ (fuel + 1) 0 1 (-1) = some (.error .zeroDiv) := by
    unfold fastLoop
    rw [if_pos hn, hskip]
  unfold graphGnpFast digraphGnpFast
  rw [if_neg (not_not.2 hn), if_neg (by norm_num), if_neg (not_not.2 hn), if_neg (by norm_num), hlog]
  simp only
  rw [hloop]
  exact ⟨rfl, rfl⟩

/-- a run with probability one half in which every draw is zero: no candidate is ever skipped, so the
graph is complete -/
example : ∃ g, (∀ fuel : Nat, (3 : Int) * 3 ≤ fuel →
      graphGnpFast 3 (1 / 2) (fun _ => 0) fuel = some (.ok g)) ∧
    Spec.GraphIs g 3 fun p => (0 ≤ p.1 ∧ p.1 < p.2 ∧ p.2 < 3) ∧
      ∃ k, Spec.position p = Spec.landing (1 / 2) (fun _ => 0) k :=
  C72_graph_Gnp_fast_partial (by norm_num) (by norm_num) (by norm_num) (fun _ => ⟨le_rfl, by norm_num⟩)

end DHG
