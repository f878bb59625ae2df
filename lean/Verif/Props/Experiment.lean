import Verif.Experiment
import Mathlib.Data.Nat.Digits.Lemmas
import Mathlib.Tactic.Linarith

/-!
# Experiments (C84, C85)
-/

set_option linter.unusedSectionVars false
set_option autoImplicit false

namespace DHG
open Exper

variable {S M St K : Type} [LinearOrder K]

/-! ## Specification -/

/-- the state after training epoch `e` from state `s`, if training does not raise -/
def Spec.trainStep (t : Trial S M St K) (e : Nat) (s : S) : S :=
  match t.train e s with
  | .ok s' => s'
  | .error _ => s

/-- the state after validating in epoch `e`, if validation does not raise -/
def Spec.validated (t : Trial S M St K) (e : Nat) (s : S) : S :=
  match t.validate e s with
  | .ok (_, s') => s'
  | .error _ => s

/-- the training state of a trial after the training of epoch `e` -/
def Spec.trained (t : Trial S M St K) : Nat → S
  | 0 => Spec.trainStep t 0 t.init
  | e + 1 => Spec.trainStep t (e + 1) (t.step (Spec.validated t e (Spec.trained t e)))

/-- the validation score of epoch `e` -/
def Spec.score (t : Trial S M St K) (e : Nat) : Option K :=
  match t.validate e (Spec.trained t e) with
  | .ok (v, _) => v
  | .error _ => none

/-- epoch `e` is the first one among the first `n` that attains the greatest score, which is `b` -/
def Spec.FirstBest (n : Nat) (score : Nat → Option K) (e : Nat) (b : K) : Prop :=
  e < n ∧ score e = some b ∧ (∀ j < n, ∀ c, score j = some c → c ≤ b) ∧ ∀ j < e, ∀ c, score j = some c → c < b

/-- the trial's configuration is complete, training and validation do not raise, and validation and the
scheduler leave the model alone -/
structure Spec.ProperTrial (t : Trial S M St K) : Prop where
  opt : t.hasOptimizer = true
  crit : t.hasCriterion = true
  trains : ∀ e s, ∃ s', t.train e s = .ok s'
  validates : ∀ e s, ∃ v s', t.validate e s = .ok (v, s') ∧ t.modelOf s' = t.modelOf s
  sched : ∀ s, t.modelOf (t.step s) = t.modelOf s

/-! ## C84 -/

/-- the best so far after `e` epochs -/
def BestIs (t : Trial S M St K) (e : Nat) (best : Option (K × M)) : Prop :=
  (best = none ∧ ∀ j < e, Spec.score t j = none) ∨
    ∃ i b, best = some (b, t.modelOf (Spec.trained t i)) ∧ Spec.FirstBest e (Spec.score t) i b

theorem keepBest_step (t : Trial S M St K) (e : Nat) (best : Option (K × M)) (h : BestIs t e best)
    (m : M) (hm : m = t.modelOf (Spec.trained t e)) :
    BestIs t (e + 1) (keepBest true (Spec.score t e) m best) := by
  subst hm
  unfold keepBest
  simp only [if_true]
  rcases hs : Spec.score t e with _ | x
  · rcases h with ⟨h1, h2⟩ | ⟨i, b, h1, h2, h3, h4, h5⟩
    · refine .inl ⟨h1, fun j hj => ?_⟩
      rcases Nat.lt_succ_iff_lt_or_eq.1 hj with h | rfl
      · exact h2 j h
      · exact hs
    · refine .inr ⟨i, b, h1, by omega, h3, ?_, h5⟩
      intro j hj c hc
      rcases Nat.lt_succ_iff_lt_or_eq.1 hj with h | rfl
      · exact h4 j h c hc
      · rw [hs] at hc; cases hc
  · rcases h with ⟨h1, h2⟩ | ⟨i, b, h1, h2, h3, h4, h5⟩
    · subst h1
      refine .inr ⟨e, x, rfl, by omega, hs, ?_, ?_⟩
      · intro j hj c hc
        rcases Nat.lt_succ_iff_lt_or_eq.1 hj with h | rfl
        · rw [h2 j h] at hc; cases hc
        · rw [hs] at hc; cases hc; exact le_rfl
      · intro j hj c hc
        rw [h2 j hj] at hc; cases hc
    · subst h1
      simp only
      split
      · rename_i hlt
        refine .inr ⟨e, x, rfl, by omega, hs, ?_, ?_⟩
        · intro j hj c hc
          rcases Nat.lt_succ_iff_lt_or_eq.1 hj with h | rfl
          · exact le_trans (h4 j h c hc) hlt.le
          · rw [hs] at hc; cases hc; exact le_rfl
        · intro j hj c hc
          exact lt_of_le_of_lt (h4 j hj c hc) hlt
      · rename_i hlt
        refine .inr ⟨i, b, rfl, by omega, h3, ?_, h5⟩
        intro j hj c hc
        rcases Nat.lt_succ_iff_lt_or_eq.1 hj with h | rfl
        · exact h4 j h c hc
        · rw [hs] at hc; cases hc; exact not_lt.1 hlt

theorem epochs_ok (t : Trial S M St K) (ht : Spec.ProperTrial t) (n : Nat)
    (hp : ∀ e < n, t.prune e = false) : ∀ todo e s best, e + todo = n →
    Spec.trainStep t e s = Spec.trained t e → BestIs t e best →
    ∃ b, epochs true t todo e s best = .ok b ∧ BestIs t n b := by
  intro todo
  induction todo with
  | zero =>
    intro e s best he _ hb
    simp only [Nat.add_zero] at he
    subst he
    exact ⟨best, rfl, hb⟩
  | succ todo ih =>
    intro e s best he hs hb
    obtain ⟨s1, h1⟩ := ht.trains e s
    obtain ⟨v, s2, h2, h3⟩ := ht.validates e s1
    have e1 : Spec.trained t e = s1 := by rw [← hs, Spec.trainStep, h1]
    have e2 : Spec.score t e = v := by rw [Spec.score, e1, h2]
    have e3 : Spec.validated t e s1 = s2 := by rw [Spec.validated, h2]
    rw [epochs, h1]
    simp only [h2, hp e (by omega), Bool.false_eq_true, if_false]
    refine ih (e + 1) _ _ (by omega) ?_ ?_
    · rw [Spec.trained, e1, e3]
    · rw [← e2]
      exact keepBest_step t e best hb _ (by rw [ht.sched, h3, e1])

theorem epochs_pruned (mx : Bool) (t : Trial S M St K) (ht : Spec.ProperTrial t) (n : Nat) (h : ∃ e < n, t.prune e = true) :
    ∀ todo e s best, e + todo = n → (∀ j < e, t.prune j = false) →
    epochs mx t todo e s best = .error .pruned := by
  intro todo
  induction todo with
  | zero =>
    intro e s best he hall
    obtain ⟨j, hj, hjp⟩ := h
    rw [hall j (by omega)] at hjp
    cases hjp
  | succ todo ih =>
    intro e s best he hall
    obtain ⟨s1, h1⟩ := ht.trains e s
    obtain ⟨v, s2, h2, _⟩ := ht.validates e s1
    rw [epochs, h1]
    simp only [h2]
    by_cases hpe : t.prune e = true
    · simp [hpe]
    · simp only [Bool.not_eq_true] at hpe
      simp only [hpe, Bool.false_eq_true, if_false]
      refine ih (e + 1) _ _ (by omega) ?_
      intro j hj
      rcases Nat.lt_succ_iff_lt_or_eq.1 hj with h | rfl
      · exact hall j h
      · exact hpe

theorem modelName_ne (i j : Nat) : modelName i ≠ structName j := by
  intro h
  have h1 := congrArg List.getLast? h
  unfold modelName structName at h1
  rw [List.getLast?_append, List.getLast?_append,
    show "_model.pth".toList.getLast? = some 'h' by decide,
    show "_structure.dhg".toList.getLast? = some 'g' by decide] at h1
  simp at h1

theorem put_self (c : Cache M St) (n : List Char) (v : Option (FileC M St)) : put c n v n = v := by simp [put]

theorem put_ne (c : Cache M St) {n q : List Char} (v : Option (FileC M St)) (h : q ≠ n) :
    put c n v q = c q := by simp [put, h]

/-- C84. An experiment with direction `maximize` that is not pruned, and has at least one score that is
a number, returns the greatest score and saves the model as it was after training the first epoch that
attained it, together with the structure; no other file is touched. -/
theorem C84_maximize (t : Trial S M St K) (ht : Spec.ProperTrial t) (st : St) (hst : t.struct? = some st)
    (n number : Nat) (hp : ∀ e < n, t.prune e = false) (hs : ∃ e < n, Spec.score t e ≠ none)
    (c : Cache M St) :
    ∃ e b, Spec.FirstBest n (Spec.score t) e b ∧
      (experiment "maximize" n number t c).1 = .ok b ∧
      (experiment "maximize" n number t c).2 (modelName number) = some (.model (t.modelOf (Spec.trained t e))) ∧
      (experiment "maximize" n number t c).2 (structName number) = some (.struct st) ∧
      ∀ q, q ≠ modelName number → q ≠ structName number → (experiment "maximize" n number t c).2 q = c q := by
  obtain ⟨best, hb, hbest⟩ := epochs_ok t ht n hp n 0 t.init none (by omega) rfl
    (.inl ⟨rfl, fun j hj => by omega⟩)
  rcases hbest with ⟨_, h2⟩ | ⟨i, b, h1, h2⟩
  · obtain ⟨e, he, hne⟩ := hs
    exact absurd (h2 e he) hne
  · refine ⟨i, b, h2, ?_⟩
    have hx : experiment "maximize" n number t c =
        (.ok b, put (put c (modelName number) (some (.model (t.modelOf (Spec.trained t i)))))
          (structName number) (some (.struct st))) := by
      unfold experiment
      simp only [ht.opt, ht.crit, Bool.not_true, Bool.false_eq_true, if_false, decide_true, hb, h1, hst]
    rw [hx]
    refine ⟨rfl, ?_, put_self _ _ _, ?_⟩
    · simp only
      rw [put_ne _ _ (modelName_ne _ _), put_self]
    · intro q h3 h4
      simp only
      rw [put_ne _ _ h4, put_ne _ _ h3]

/-- C84. A pruned experiment raises `TrialPruned` and writes nothing, in both directions. -/
theorem C84_pruned (d : String) (t : Trial S M St K) (ht : Spec.ProperTrial t) (n number : Nat)
    (h : ∃ e < n, t.prune e = true) (c : Cache M St) :
    experiment d n number t c = (.error .pruned, c) := by
  unfold experiment
  simp only [ht.opt, ht.crit, Bool.not_true, Bool.false_eq_true, if_false]
  rw [epochs_pruned _ t ht n h n 0 t.init none (by omega) (fun j hj => by omega)]

/-- C84. Without an optimizer or a criterion the experiment is refused before any training. -/
theorem C84_config (d : String) (t : Trial S M St K) (n number : Nat)
    (h : t.hasOptimizer = false ∨ t.hasCriterion = false) (c : Cache M St) :
    experiment d n number t c = (.error .assertion, c) := by
  unfold experiment
  rcases h with h | h
  · simp [h]
  · cases t.hasOptimizer <;> simp [h]

theorem epochs_min (t : Trial S M St K) (ht : Spec.ProperTrial t) (n : Nat) (hp : ∀ e < n, t.prune e = false) :
    ∀ todo e s best, e + todo = n → epochs false t todo e s best = .ok best := by
  intro todo
  induction todo with
  | zero => intro e s best _; rfl
  | succ todo ih =>
    intro e s best he
    obtain ⟨s1, h1⟩ := ht.trains e s
    obtain ⟨v, s2, h2, _⟩ := ht.validates e s1
    rw [epochs, h1]
    simp only [h2, hp e (by omega), Bool.false_eq_true, if_false]
    rw [ih (e + 1) _ _ (by omega)]
    rfl

/-- C84. The part about `minimize` is false: whatever the scores, an experiment that is not pruned
raises an `AttributeError` after the last epoch and leaves an empty file in place of the model. -/
theorem C84_minimize_false (t : Trial S M St K) (ht : Spec.ProperTrial t) (n number : Nat)
    (hp : ∀ e < n, t.prune e = false) (c : Cache M St) :
    (experiment "minimize" n number t c).1 = .error .attribute ∧
      (experiment "minimize" n number t c).2 (modelName number) = some .empty := by
  have hx : experiment "minimize" n number t c =
      (.error .attribute, put c (modelName number) (some .empty)) := by
    unfold experiment
    have : decide ("minimize" = "maximize") = false := by decide
    simp only [ht.opt, ht.crit, Bool.not_true, Bool.false_eq_true, if_false, this]
    rw [epochs_min t ht n hp n 0 t.init none (by omega)]
  rw [hx]
  exact ⟨rfl, put_self _ _ _⟩

/-- C84. So does an experiment whose scores are all NaN, or that has no epoch. -/
theorem C84_no_score_false (t : Trial S M St K) (ht : Spec.ProperTrial t) (n number : Nat)
    (hp : ∀ e < n, t.prune e = false) (hs : ∀ e < n, Spec.score t e = none) (c : Cache M St) :
    (experiment "maximize" n number t c).1 = .error .attribute := by
  obtain ⟨best, hb, hbest⟩ := epochs_ok t ht n hp n 0 t.init none (by omega) rfl
    (.inl ⟨rfl, fun j hj => by omega⟩)
  rcases hbest with ⟨h1, _⟩ | ⟨i, b, _, h2, h3, _⟩
  · unfold experiment
    simp only [ht.opt, ht.crit, Bool.not_true, Bool.false_eq_true, if_false, decide_true, hb, h1]
  · rw [hs i h2] at h3; cases h3

/-! ## C85 -/

theorem digit_char (d : Nat) (h : d < 10) :
    Char.ofNat (48 + d) ≠ '_' ∧ Char.ofNat (48 + d) ≠ '.' ∧ (Char.ofNat (48 + d)).toNat = 48 + d := by
  interval_cases d <;> decide

theorem dec_chars (n : Nat) : ∀ c ∈ dec n, c ≠ '_' ∧ c ≠ '.' := by
  intro c hc
  unfold dec at hc
  split at hc
  · simp only [List.mem_singleton] at hc
    subst hc; decide
  · obtain ⟨d, hd, rfl⟩ := List.mem_map.1 hc
    have := digit_char d (Nat.digits_lt_base (by decide) (List.mem_reverse.1 hd))
    exact ⟨this.1, this.2.1⟩

theorem dec_inj {m n : Nat} (h : dec m = dec n) : m = n := by
  have key : ∀ n, n ≠ 0 → (dec n).map (fun c => c.toNat - 48) = (Nat.digits 10 n).reverse := by
    intro n hn
    unfold dec
    rw [if_neg hn, List.map_map]
    conv => rhs; rw [← List.map_id (Nat.digits 10 n).reverse]
    refine List.map_congr_left fun d hd => ?_
    have := (digit_char d (Nat.digits_lt_base (by decide) (List.mem_reverse.1 hd))).2.2
    simp only [Function.comp, this, id]
    omega
  have h0 : ∀ n, n ≠ 0 → dec n ≠ ['0'] := by
    intro n hn he
    have h1 := key n hn
    rw [he] at h1
    have h2 : Nat.digits 10 n = [0] := by
      have := congrArg List.reverse h1
      simpa using this.symm
    have h3 := Nat.ofDigits_digits 10 n
    rw [h2] at h3
    exact hn (by simpa using h3.symm)
  by_cases hm : m = 0
  · by_cases hn : n = 0
    · rw [hm, hn]
    · subst hm
      exact absurd h.symm (h0 n hn)
  · by_cases hn : n = 0
    · subst hn
      exact absurd h (h0 m hm)
    · have h1 := key m hm
      rw [h, key n hn] at h1
      have h2 := List.reverse_injective h1
      rw [← Nat.ofDigits_digits 10 m, ← Nat.ofDigits_digits 10 n, h2]

theorem takeWhile_dec (n : Nat) (rest : List Char) :
    (dec n ++ '_' :: rest).takeWhile (· ≠ '_') = dec n := by
  rw [List.takeWhile_append_of_pos]
  · simp
  · intro c hc
    simpa using (dec_chars n c hc).1

theorem stem_of (a ext : List Char) (ha : a ≠ []) (hext : ext ≠ []) (h : '.' ∉ ext) :
    stem (a ++ '.' :: ext) = a := by
  unfold stem
  have h1 : (a ++ '.' :: ext).reverse.dropWhile (· ≠ '.') = '.' :: a.reverse := by
    rw [List.reverse_append, List.reverse_cons, List.append_assoc,
      List.dropWhile_append_of_pos]
    · simp
    · intro c hc
      rw [List.mem_reverse] at hc
      simp only [ne_eq, decide_not, Bool.not_eq_true', decide_eq_false_iff_not]
      rintro rfl
      exact h hc
  rw [h1]
  simp only
  rw [if_neg, List.reverse_reverse]
  rintro (h2 | h2)
  · exact ha (by simpa using h2)
  · rw [List.getLast?_append, List.getLast?_cons] at h2
    obtain ⟨x, hx⟩ : ∃ x, ext.getLast? = some x := by
      rw [← Option.ne_none_iff_exists']; simpa using hext
    rw [hx] at h2
    simp only [Option.getD_some, Option.some_or, Option.some.injEq] at h2
    subst h2
    exact h (List.mem_of_getLast? hx)

theorem prefix_model (n : Nat) : prefixOf (modelName n) = dec n := by
  unfold prefixOf
  have : modelName n = (dec n ++ '_' :: "model".toList) ++ '.' :: "pth".toList := by
    unfold modelName; rw [List.append_assoc]; rfl
  rw [this, stem_of _ _ (by simp) (by decide) (by decide), takeWhile_dec]

theorem prefix_struct (n : Nat) : prefixOf (structName n) = dec n := by
  unfold prefixOf
  have : structName n = (dec n ++ '_' :: "structure".toList) ++ '.' :: "dhg".toList := by
    unfold structName; rw [List.append_assoc]; rfl
  rw [this, stem_of _ _ (by simp) (by decide) (by decide), takeWhile_dec]

/-- C85. If the cache directory only holds models and structures of trials, exactly the files of the
best trial remain, unchanged. -/
theorem C85_removal (best : Nat) (c : Cache M St)
    (h : ∀ q, c q ≠ none → ∃ k, q = modelName k ∨ q = structName k) :
    (∀ q, removeCached best c q ≠ none ↔ (q = modelName best ∨ q = structName best) ∧ c q ≠ none) ∧
    removeCached best c (modelName best) = c (modelName best) ∧
    removeCached best c (structName best) = c (structName best) := by
  have e1 : removeCached best c (modelName best) = c (modelName best) := by
    unfold removeCached; rw [if_neg]; rw [prefix_model]; simp
  have e2 : removeCached best c (structName best) = c (structName best) := by
    unfold removeCached; rw [if_neg]; rw [prefix_struct]; simp
  refine ⟨fun q => ⟨?_, ?_⟩, e1, e2⟩
  · intro hq
    unfold removeCached at hq
    split at hq
    · exact absurd rfl hq
    · rename_i hp
      simp only [ne_eq, not_not] at hp
      refine ⟨?_, hq⟩
      obtain ⟨k, rfl | rfl⟩ := h q hq
      · rw [prefix_model] at hp
        rw [dec_inj hp]; exact .inl rfl
      · rw [prefix_struct] at hp
        rw [dec_inj hp]; exact .inr rfl
  · rintro ⟨rfl | rfl, hq⟩
    · rw [e1]; exact hq
    · rw [e2]; exact hq

theorem modelName_inj {i j : Nat} (h : modelName i = modelName j) : i = j := by
  have := congrArg prefixOf h
  rw [prefix_model, prefix_model] at this
  exact dec_inj this

theorem structName_inj {i j : Nat} (h : structName i = structName j) : i = j := by
  have := congrArg prefixOf h
  rw [prefix_struct, prefix_struct] at this
  exact dec_inj this

/-- no epoch of the trial asks for pruning -/
def Spec.Unpruned (n : Nat) (t : Trial S M St K) : Prop := ∀ e < n, t.prune e = false

/-- a trial that can be run -/
structure Spec.Sound (n : Nat) (t : Trial S M St K) : Prop extends Spec.ProperTrial t where
  hasStruct : t.struct? ≠ none
  scored : Spec.Unpruned n t → ∃ e < n, Spec.score t e ≠ none

/-- what the files of a completed trial hold -/
def TrialFiles (n : Nat) (t : Trial S M St K) (k : Nat) (x : K) (c : Cache M St) : Prop :=
  ∃ e st, Spec.FirstBest n (Spec.score t) e x ∧ t.struct? = some st ∧
    c (modelName k) = some (.model (t.modelOf (Spec.trained t e))) ∧ c (structName k) = some (.struct st)

theorem optimize_ok (n : Nat) (trial : Nat → Trial S M St K) : ∀ todo i (c : Cache M St),
    (∀ j, i ≤ j → j < i + todo → Spec.Sound n (trial j)) →
    ∃ l c', optimize "maximize" n trial todo i c = (.ok l, c') ∧
      (∀ p ∈ l, i ≤ p.1 ∧ p.1 < i + todo ∧ Spec.Unpruned n (trial p.1) ∧ TrialFiles n (trial p.1) p.1 p.2 c') ∧
      (∀ j, i ≤ j → j < i + todo → Spec.Unpruned n (trial j) → ∃ x, (j, x) ∈ l) ∧
      l.Pairwise (fun p q => p.1 < q.1) ∧
      (∀ q, (∀ j, i ≤ j → j < i + todo → q ≠ modelName j ∧ q ≠ structName j) → c' q = c q) := by
  intro todo
  induction todo with
  | zero =>
    intro i c _
    exact ⟨[], c, rfl, by simp, fun j h1 h2 => by omega, .nil, fun _ _ => rfl⟩
  | succ todo ih =>
    intro i c hall
    have hi := hall i le_rfl (by omega)
    by_cases hu : Spec.Unpruned n (trial i)
    · obtain ⟨st, hst⟩ := Option.ne_none_iff_exists'.1 hi.hasStruct
      obtain ⟨e, b, h1, h2, h3, h4, h5⟩ := C84_maximize (trial i) hi.toProperTrial st hst n i hu (hi.scored hu) c
      rcases hx : experiment "maximize" n i (trial i) c with ⟨r, c1⟩
      rw [hx] at h2 h3 h4 h5
      simp only at h2 h3 h4 h5
      subst h2
      obtain ⟨l, c', g1, g2, g3, g4, g5⟩ := ih (i + 1) c1 (fun j hj1 hj2 => hall j (by omega) (by omega))
      refine ⟨(i, b) :: l, c', ?_, ?_, ?_, ?_, ?_⟩
      · rw [optimize, hx]
        simp only [g1]
      · intro p hp
        rcases List.mem_cons.1 hp with rfl | hp
        · refine ⟨le_rfl, by omega, hu, e, st, h1, hst, ?_, ?_⟩
          · simp only
            rw [g5, h3]
            intro j hj1 hj2
            refine ⟨fun h => ?_, modelName_ne _ _⟩
            have := modelName_inj h; omega
          · simp only
            rw [g5, h4]
            intro j hj1 hj2
            refine ⟨fun h => modelName_ne _ _ h.symm, fun h => ?_⟩
            have := structName_inj h; omega
        · obtain ⟨k1, k2, k3, k4⟩ := g2 p hp
          exact ⟨by omega, by omega, k3, k4⟩
      · intro j hj1 hj2 hju
        by_cases hji : j = i
        · subst hji; exact ⟨b, by simp⟩
        · obtain ⟨x, hx⟩ := g3 j (by omega) (by omega) hju
          exact ⟨x, by simp [hx]⟩
      · rw [List.pairwise_cons]
        refine ⟨fun q hq => ?_, g4⟩
        have := (g2 q hq).1
        simp only
        omega
      · intro q hq
        rw [g5 q (fun j hj1 hj2 => hq j (by omega) (by omega))]
        obtain ⟨m1, m2⟩ := hq i le_rfl (by omega)
        exact h5 q m1 m2
    · have hpr : ∃ e < n, (trial i).prune e = true := by
        unfold Spec.Unpruned at hu
        simpa using hu
      have hx := C84_pruned "maximize" (trial i) hi.toProperTrial n i hpr c
      obtain ⟨l, c', g1, g2, g3, g4, g5⟩ := ih (i + 1) c (fun j hj1 hj2 => hall j (by omega) (by omega))
      refine ⟨l, c', ?_, ?_, ?_, g4, ?_⟩
      · rw [optimize, hx]
        exact g1
      · intro p hp
        obtain ⟨k1, k2, k3, k4⟩ := g2 p hp
        exact ⟨by omega, by omega, k3, k4⟩
      · intro j hj1 hj2 hju
        by_cases hji : j = i
        · subst hji; exact absurd hju hu
        · exact g3 j (by omega) (by omega) hju
      · intro q hq
        exact g5 q (fun j hj1 hj2 => hq j (by omega) (by omega))

theorem bestMax_spec (l : List (Nat × K)) :
    (l = [] ∧ bestMax l = none) ∨
    ∃ p, bestMax l = some p ∧ p ∈ l ∧ (∀ q ∈ l, q.2 ≤ p.2) ∧
      (l.Pairwise (fun p q => p.1 < q.1) → ∀ q ∈ l, q.1 < p.1 → q.2 < p.2) := by
  induction l with
  | nil => exact .inl ⟨rfl, rfl⟩
  | cons a l ih =>
    right
    rcases ih with ⟨rfl, h⟩ | ⟨p, h1, h2, h3, h4⟩
    · refine ⟨a, by simp [bestMax], by simp, by simp, fun _ q hq hlt => ?_⟩
      simp only [List.mem_singleton] at hq
      subst hq
      exact absurd hlt (lt_irrefl _)
    · by_cases hlt : a.2 < p.2
      · refine ⟨p, by simp [bestMax, h1, hlt], by simp [h2], ?_, ?_⟩
        · intro q hq
          rcases List.mem_cons.1 hq with rfl | hq
          · exact hlt.le
          · exact h3 q hq
        · intro hp q hq hq2
          rcases List.mem_cons.1 hq with rfl | hq
          · exact hlt
          · exact h4 (List.pairwise_cons.1 hp).2 q hq hq2
      · refine ⟨a, by simp [bestMax, h1, hlt], by simp, ?_, ?_⟩
        · intro q hq
          rcases List.mem_cons.1 hq with rfl | hq
          · exact le_rfl
          · exact le_trans (h3 q hq) (not_lt.1 hlt)
        · intro hp q hq hq2
          rcases List.mem_cons.1 hq with rfl | hq
          · exact absurd hq2 (lt_irrefl _)
          · have := (List.pairwise_cons.1 hp).1 q hq
            omega

/-- C85. A run started in an empty cache directory, with trials that can be run, of which at least one
is not pruned: it answers the first trial `k` whose best score is the greatest over all epochs of all
trials that were not pruned, with the model of its best epoch and its structure, and exactly the two
files of that trial remain. -/
theorem C85_run (n ran : Nat) (trial : Nat → Trial S M St K)
    (hs : ∀ j < ran, Spec.Sound n (trial j)) (hu : ∃ j < ran, Spec.Unpruned n (trial j)) :
    ∃ k e b st c, run "maximize" n ran trial (fun _ => none) =
        (.ok ⟨k, b, (trial k).modelOf (Spec.trained (trial k) e), st⟩, c) ∧
      k < ran ∧ Spec.Unpruned n (trial k) ∧ (trial k).struct? = some st ∧
      Spec.FirstBest n (Spec.score (trial k)) e b ∧
      (∀ j < ran, Spec.Unpruned n (trial j) → ∀ i < n, ∀ x, Spec.score (trial j) i = some x →
        x ≤ b ∧ (j < k → x < b)) ∧
      (∀ q, c q ≠ none ↔ q = modelName k ∨ q = structName k) ∧
      c (modelName k) = some (.model ((trial k).modelOf (Spec.trained (trial k) e))) ∧
      c (structName k) = some (.struct st) := by
  obtain ⟨l, c', g1, g2, g3, g4, g5⟩ := optimize_ok n trial ran 0 (fun _ => none)
    (fun j _ hj => hs j (by omega))
  obtain ⟨j0, hj0, hju⟩ := hu
  obtain ⟨x0, hx0⟩ := g3 j0 (by omega) (by omega) hju
  rcases bestMax_spec l with ⟨rfl, _⟩ | ⟨⟨k, b⟩, m1, m2, m3, m4⟩
  · simp at hx0
  · obtain ⟨_, k2, k3, e, st, k4, k5, k6, k7⟩ := g2 _ m2
    simp only at k2 k3 k4 k5 k6 k7
    have hform : ∀ q, c' q ≠ none → ∃ j, q = modelName j ∨ q = structName j := by
      intro q hq
      by_contra hc
      push Not at hc
      exact hq (g5 q (fun j _ _ => hc j))
    obtain ⟨r1, r2, r3⟩ := C85_removal k c' hform
    refine ⟨k, e, b, st, removeCached k c', ?_, by omega, k3, k5, k4, ?_, ?_, by rw [r2, k6], by rw [r3, k7]⟩
    · unfold run
      rw [g1]
      simp only [m1, r2, r3, k6, k7]
    · intro j hj hjp i hi x hx
      obtain ⟨y, hy⟩ := g3 j (by omega) (by omega) hjp
      obtain ⟨_, _, _, e', st', f1, _⟩ := g2 _ hy
      have hxy : x ≤ y := f1.2.2.1 i hi x hx
      have hyb := m3 _ hy
      simp only at hyb
      refine ⟨le_trans hxy hyb, fun hjk => ?_⟩
      exact lt_of_le_of_lt hxy (m4 g4 _ hy hjk)
    · intro q
      rw [r1]
      constructor
      · rintro ⟨h, _⟩; exact h
      · rintro (rfl | rfl)
        · exact ⟨.inl rfl, by rw [k6]; simp⟩
        · exact ⟨.inr rfl, by rw [k7]; simp⟩

/-- C85. When all trials are pruned the run raises a `ValueError`: there is no best trial. -/
theorem C85_all_pruned_false (n ran : Nat) (trial : Nat → Trial S M St K)
    (hs : ∀ j < ran, Spec.ProperTrial (trial j) ∧ ∃ e < n, (trial j).prune e = true) :
    (run "maximize" n ran trial (fun _ => none)).1 = .error .value := by
  have : ∀ todo i (c : Cache M St), i + todo = ran → optimize "maximize" n trial todo i c = (.ok [], c) := by
    intro todo
    induction todo with
    | zero => intro i c _; rfl
    | succ todo ih =>
      intro i c hi
      obtain ⟨h1, h2⟩ := hs i (by omega)
      rw [optimize, C84_pruned "maximize" (trial i) h1 n i h2 c]
      exact ih (i + 1) c (by omega)
  unfold run
  rw [this ran 0 _ (by omega)]
  rfl

/-- C85. A run with direction `minimize` fails at its first trial that is not pruned. -/
theorem C85_minimize_false (n ran : Nat) (hr : 0 < ran) (trial : Nat → Trial S M St K)
    (hp : Spec.ProperTrial (trial 0)) (hu : Spec.Unpruned n (trial 0)) :
    (run "minimize" n ran trial (fun _ => none)).1 = .error .attribute := by
  obtain ⟨r, rfl⟩ : ∃ r, ran = r + 1 := ⟨ran - 1, by omega⟩
  have h := (C84_minimize_false (trial 0) hp n 0 hu (fun _ => none)).1
  rcases hx : experiment "minimize" n 0 (trial 0) (fun _ => none) with ⟨x, c⟩
  rw [hx] at h
  simp only at h
  subst h
  unfold run
  rw [optimize, hx]

/-! ## Examples -/

/-- a trial whose model counts the epochs and whose scores are 5, 7, 7, NaN -/
def exTrial (off : Nat) (pr : Bool) : Trial Nat Nat Nat Nat where
  init := 0
  train := fun _ s => .ok (s + 1)
  validate := fun e s => .ok ([some (5 + off), some (7 + off), some (7 + off), none].getD e none, s)
  prune := fun e => pr && e == 2
  step := id
  modelOf := id
  hasOptimizer := true
  hasCriterion := true
  struct? := some off

theorem exTrial_sound (off : Nat) (pr : Bool) : Spec.Sound 4 (exTrial off pr) :=
  ⟨⟨rfl, rfl, fun _ _ => ⟨_, rfl⟩, fun _ _ => ⟨_, _, rfl, rfl⟩, fun _ => rfl⟩, by simp [exTrial], fun _ => ⟨0, by omega, by simp [Spec.score, exTrial]⟩⟩

example : (∀ e < 4, (exTrial 0 false).prune e = false) ∧ (exTrial 0 false).struct? = some 0 := by
  constructor
  · intro e _; rfl
  · rfl

example : ∀ j < 3, Spec.Sound 4 (exTrial j (j = 1)) := fun j _ => exTrial_sound j _

example : Spec.Unpruned 4 (exTrial 0 (decide (0 = 1))) := fun e _ => rfl

example : (run "maximize" 4 3 (fun j => exTrial j (j = 1)) (fun _ => none)).1.toOption.map
    (fun r => (r.number, r.score, r.model, r.struct)) = some (2, 9, 2, 2) := by decide +kernel

/-- trial numbers are not confused by common digits: the files of trial 10 go when trial 1 is best -/
example : removeCached (M := Nat) (St := Nat) 1 (fun _ => some .empty) (modelName 10) = none := by
  decide +kernel

end DHG
