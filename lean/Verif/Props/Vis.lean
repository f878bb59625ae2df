import Verif.Vis
import Mathlib.Tactic.LinearCombination
import Mathlib.Tactic.Linarith
import Mathlib.Tactic.Positivity
import Mathlib.Tactic.NormNum
import Mathlib.Data.List.GetD
import Mathlib.Data.List.Rotate

/-!
# Properties of the drawing functions: defaults and layout (C95), outlines (C98), edge centres (C99)
-/

set_option linter.unusedSectionVars false
set_option autoImplicit false

namespace DHG

namespace Spec

/-- inner product -/
def dot (p q : Vis.Pt) : ℝ := p.1 * q.1 + p.2 * q.2

/-- squared distance -/
def dist2 (p q : Vis.Pt) : ℝ := dot (q - p) (q - p)

/-- The segment from `s` to `e` touches the circle of radius `r1` around `p1` at `s` and the circle of radius
`r2` around `p2` at `e`, with both discs on the same side of the line through it. -/
structure Tangent (p1 : Vis.Pt) (r1 : ℝ) (p2 : Vis.Pt) (r2 : ℝ) (s e : Vis.Pt) : Prop where
  on1 : dist2 p1 s = r1 * r1
  on2 : dist2 p2 e = r2 * r2
  perp1 : dot (e - s) (s - p1) = 0
  perp2 : dot (e - s) (e - p2) = 0
  same : ∃ n : Vis.Pt, dot n n = 1 ∧ dot (e - s) n = 0 ∧
    (∀ q, dist2 p1 q ≤ r1 * r1 → dot (q - s) n ≤ 0) ∧ ∀ q, dist2 p2 q ≤ r2 * r2 → dot (q - s) n ≤ 0

/-- how many of the given hyperedges contain `v` -/
def covers (eList : List (List Nat)) (es : List Nat) (v : Nat) : Nat :=
  (es.filter fun e => v ∈ eList.getD e []).length

end Spec

namespace Props
open Vis Finset


/-- C95. Sizes: `None` and numbers are repeated for each element, a list of the right length scales
the default one by one, a list of another length and any other value are refused. -/
theorem C95_fill_sizes (dflt : ℝ) (n : Nat) :
    fillSizes .none dflt n = .ok (List.replicate n dflt) ∧
    (∀ x, fillSizes (.float x) dflt n = .ok (List.replicate n (dflt * x))) ∧
    (∀ z : Int, fillSizes (.int z) dflt n = fillSizes (.float z) dflt n) ∧
    (∀ xs, xs.length = n → ∃ ys, fillSizes (.list xs) dflt n = .ok ys ∧ ys.length = n ∧
      ∀ i (h : i < xs.length) (h' : i < ys.length), ys[i] = dflt * xs[i]) ∧
    (∀ xs, xs.length ≠ n → fillSizes (.list xs) dflt n = .error .assertion) ∧
    fillSizes .other dflt n = .error .value := by
  refine ⟨rfl, fun _ => rfl, fun _ => rfl, fun xs h => ⟨xs.map fun s => dflt * s, if_pos h, by simpa using h, ?_⟩,
    fun xs h => if_neg h, rfl⟩
  intro i h h'
  simp

/-- C95. Strengths: `None` gives the default, a number scales it. -/
theorem C95_fill_strength (dflt x : ℝ) :
    fillStrength none dflt = dflt ∧ fillStrength (some x) dflt = x * dflt := ⟨rfl, rfl⟩

/-- C95, partial. Colours: `None`, a name and a list of numbers are repeated for each element, a list of colours
of the right length is used as it is. Missing: lists of the wrong length, which are not refused
(`C95_fill_color_false`). -/
theorem C95_fill_color_partial (dflt : Col) (n : Nat) :
    fillColor none dflt n = .ok (List.replicate n dflt) ∧
    (∀ s, fillColor (some (.name s)) dflt n = .ok (List.replicate n (.name s))) ∧
    (∀ x xs, fillColor (some (.lst (.num x :: xs))) dflt n = .ok (List.replicate n (.lst (.num x :: xs)))) ∧
    (∀ cs, cs ≠ [] → (∀ c ∈ cs, ∀ x, c ≠ .num x) → fillColor (some (.lst cs)) dflt n = .ok cs) ∧
    (∀ xs, fillColor (some (.tup xs)) dflt n = .error .value) := by
  refine ⟨rfl, fun _ => rfl, fun _ _ => rfl, fun cs h hc => ?_, fun _ => rfl⟩
  cases cs with
  | nil => exact absurd rfl h
  | cons c cs =>
    cases c with
    | num x => exact absurd rfl (hc _ List.mem_cons_self x)
    | name s => rfl
    | tup xs => rfl
    | lst xs => rfl

/-- C95 fails for colours: a list with a wrong number of colours is accepted, although a list with a wrong
number of sizes is refused. -/
theorem C95_fill_color_false :
    ¬ ∀ (cs : List Col) (dflt : Col) (n : Nat) ys, fillColor (some (.lst cs)) dflt n = .ok ys → ys.length = n := by
  intro h
  have := h [.name "r"] (.name "b") 2 [.name "r"] rfl
  simp at this

namespace Vi

theorem minTo_le (f : Nat → ℝ) (n i : Nat) (h : i ≤ n) : minTo f n ≤ f i := by
  induction n with
  | zero => rw [Nat.le_zero.1 h]; exact le_rfl
  | succ n ih =>
    rcases Nat.lt_or_ge i (n + 1) with h' | h'
    · exact (min_le_left _ _).trans (ih (by omega))
    · rw [show i = n + 1 by omega]; exact min_le_right _ _

theorem le_maxTo (f : Nat → ℝ) (n i : Nat) (h : i ≤ n) : f i ≤ maxTo f n := by
  induction n with
  | zero => rw [Nat.le_zero.1 h]; exact le_rfl
  | succ n ih =>
    rcases Nat.lt_or_ge i (n + 1) with h' | h'
    · exact (ih (by omega)).trans (le_max_left _ _)
    · rw [show i = n + 1 by omega]; exact le_max_right _ _

theorem minTo_mem (f : Nat → ℝ) (n : Nat) : ∃ i ≤ n, minTo f n = f i := by
  induction n with
  | zero => exact ⟨0, le_rfl, rfl⟩
  | succ n ih =>
    obtain ⟨i, hi, h⟩ := ih
    rcases min_choice (minTo f n) (f (n + 1)) with h' | h'
    · exact ⟨i, by omega, h'.trans h⟩
    · exact ⟨n + 1, le_rfl, h'⟩

theorem maxTo_mem (f : Nat → ℝ) (n : Nat) : ∃ i ≤ n, maxTo f n = f i := by
  induction n with
  | zero => exact ⟨0, le_rfl, rfl⟩
  | succ n ih =>
    obtain ⟨i, hi, h⟩ := ih
    rcases max_choice (maxTo f n) (f (n + 1)) with h' | h'
    · exact ⟨i, by omega, h'.trans h⟩
    · exact ⟨n + 1, le_rfl, h'⟩

/-- a column of numbers rescaled by the layout functions -/
theorem rescale_spec {n : Nat} (hn : 0 < n) (x : Nat → ℝ) :
    ((∃ i < n, ∃ j < n, x i ≠ x j) →
      ∃ y : Nat → ℝ, (∀ i < n, rescale n x i = some (y i) ∧ 1 / 10 ≤ y i ∧ y i ≤ 9 / 10) ∧
        (∃ i < n, y i = 1 / 10) ∧ (∃ i < n, y i = 9 / 10) ∧ ∀ i < n, ∀ j < n, y i ≤ y j ↔ x i ≤ x j) ∧
    ((∀ i < n, ∀ j < n, x i = x j) → ∀ i < n, rescale n x i = none) := by
  obtain ⟨a, ha, ha'⟩ := minTo_mem x (n - 1)
  obtain ⟨b, hb, hb'⟩ := maxTo_mem x (n - 1)
  refine ⟨?_, fun h i hi => ?_⟩
  · rintro ⟨i, hi, j, hj, hij⟩
    have hpos : 0 < maxTo x (n - 1) - minTo x (n - 1) := by
      have h1 := minTo_le x (n - 1) i (by omega)
      have h2 := le_maxTo x (n - 1) i (by omega)
      have h3 := minTo_le x (n - 1) j (by omega)
      have h4 := le_maxTo x (n - 1) j (by omega)
      rcases lt_or_gt_of_ne hij with h | h <;> linarith
    generalize hm : minTo x (n - 1) = m at *
    generalize hM : maxTo x (n - 1) = M at *
    have hr : ∀ i, rescale n x i = some ((x i - m) / (M - m) * (8 / 10) + 1 / 10) := by
      intro i
      unfold rescale
      rw [hm, hM, if_neg hpos.ne']
    refine ⟨fun i => (x i - m) / (M - m) * (8 / 10) + 1 / 10, fun i hi => ⟨hr i, ?_, ?_⟩, ⟨a, by omega, ?_⟩,
      ⟨b, by omega, ?_⟩, fun i _ j _ => ?_⟩
    · have h1 := minTo_le x (n - 1) i (by omega)
      rw [hm] at h1
      have : 0 ≤ (x i - m) / (M - m) := div_nonneg (by linarith) hpos.le
      linarith
    · have h1 := le_maxTo x (n - 1) i (by omega)
      rw [hM] at h1
      have : (x i - m) / (M - m) ≤ 1 := by rw [div_le_one hpos]; linarith
      linarith
    · simp only [← ha', sub_self, zero_div, zero_mul, zero_add]
    · simp only [← hb']
      rw [div_self hpos.ne']
      norm_num
    · constructor
      · intro h
        have : (x i - m) / (M - m) ≤ (x j - m) / (M - m) := by linarith
        rw [div_le_div_iff_of_pos_right hpos] at this
        linarith
      · intro h
        have : (x i - m) / (M - m) ≤ (x j - m) / (M - m) := by
          rw [div_le_div_iff_of_pos_right hpos]; linarith
        linarith
  · unfold rescale
    rw [if_pos]
    rw [ha', hb', h a (by omega) b (by omega), sub_self]

/-! ### the simulation -/

theorem bind_ok {α β : Type} {x : Except Err α} {f : α → Except Err β} {b : β} (h : (x >>= f) = .ok b) :
    ∃ a, x = .ok a ∧ f a = .ok b := by
  cases x with
  | error e => cases h
  | ok a => exact ⟨a, rfl, h⟩

theorem need_ok {c : Prop} [Decidable c] {e : Err} {u : Unit} (h : need c e = .ok u) : c := by
  by_contra hc
  rw [need, if_neg hc] at h
  cases h

theorem need_pos {c : Prop} {inst : Decidable c} {e : Err} (h : c) : @need c inst e = .ok () := if_pos h

theorem clip_le (x : ℝ) : |clip x| ≤ 1 / 10 := by
  unfold clip
  rw [abs_le]
  refine ⟨le_min (le_max_right _ _) (by norm_num), min_le_right _ _⟩

theorem step_move {s : Sim} {n m : Nat} {H : Nat → Nat → Bool} {jit : Jitter} {d : ℝ} {pos pos' v : Nat → Pt}
    (h : step s n m H jit d pos = .ok (pos', v)) (i : Nat) :
    |(pos' i).1 - (pos i).1| ≤ 2 / 10 ∧ |(pos' i).2 - (pos i).2| ≤ 2 / 10 := by
  unfold step at h
  obtain ⟨f, _, h⟩ := bind_ok h
  have h' := (Prod.mk.injEq _ _ _ _).mp (Except.ok.inj h)
  rw [← h'.1]
  have h1 := clip_le ((f i).1 * d)
  have h2 := clip_le ((f i).2 * d)
  rw [abs_le] at h1 h2 ⊢
  rw [abs_le]
  dsimp only
  refine ⟨⟨?_, ?_⟩, ?_, ?_⟩ <;> linarith [h1.1, h1.2, h2.1, h2.2]

theorem simLoop_move {s : Sim} {n m : Nat} {H : Nat → Nat → Bool} {jit : Nat → Jitter} (k it : Nat) (d : ℝ)
    {pos pos' : Nat → Pt} (h : simLoop s n m H jit k it d pos = .ok pos') (i : Nat) :
    |(pos' i).1 - (pos i).1| ≤ k * (2 / 10) ∧ |(pos' i).2 - (pos i).2| ≤ k * (2 / 10) := by
  induction k generalizing it d pos with
  | zero =>
    rw [simLoop] at h
    rw [Except.ok.inj h]
    simp
  | succ k ih =>
    rw [simLoop] at h
    obtain ⟨⟨q, v⟩, h1, h2⟩ := bind_ok h
    have hm := step_move h1 i
    have hk : (0 : ℝ) ≤ k := Nat.cast_nonneg k
    push_cast
    dsimp only at h2
    split at h2
    · rw [← Except.ok.inj h2]
      rw [abs_le, abs_le] at hm ⊢
      refine ⟨⟨?_, ?_⟩, ?_, ?_⟩ <;> linarith [hm.1.1, hm.1.2, hm.2.1, hm.2.2]
    · have := ih _ _ h2
      rw [abs_le, abs_le] at hm this ⊢
      refine ⟨⟨?_, ?_⟩, ?_, ?_⟩ <;>
        linarith [hm.1.1, hm.1.2, hm.2.1, hm.2.2, this.1.1, this.1.2, this.2.1, this.2.2]

theorem norm2_comm (p q : Pt) : norm2 (p - q) = norm2 (q - p) := by
  unfold norm2
  congr 1
  simp only [Prod.fst_sub, Prod.snd_sub]
  ring

/-- the random value of `safe_div` is multiplied by zero -/
theorem attr_indep (n m : Nat) (H : Nat → Nat → Bool) (pos : Nat → Pt) (j j' : Nat → Nat → Pt) :
    nodeAttraction n m H pos j = nodeAttraction n m H pos j' := by
  funext i
  unfold nodeAttraction
  refine Finset.sum_congr rfl fun e _ => ?_
  dsimp only
  rw [norm2_comm (pos i)]
  by_cases h0 : norm2 (eCenter n H pos e - pos i) = 0
  · rw [h0]
    simp
  · unfold safeDiv
    rw [if_neg h0, if_neg h0]

theorem grav_indep (pos : Nat → Pt) (c : Pt) (j j' : Nat → Pt) :
    centerGravity pos c j = centerGravity pos c j' := by
  funext i
  unfold centerGravity
  rw [norm2_comm (pos i)]
  by_cases h0 : norm2 (c - pos i) = 0
  · rw [h0]; simp
  · unfold safeDiv
    rw [if_neg h0, if_neg h0]

theorem force_indep (s : Sim) (n m : Nat) (H : Nat → Nat → Bool) (pos : Nat → Pt) (j j' : Jitter) :
    force s n m H j pos = force s n m H j' pos := by
  have hg : ∀ gs, gravityAt s gs j.gravity pos = gravityAt s gs j'.gravity pos := by
    intro gs
    funext i
    unfold gravityAt
    refine Finset.sum_congr rfl fun c _ => ?_
    rw [grav_indep]
  unfold force
  rw [attr_indep n m H pos j.attraction j'.attraction]
  simp only [hg]

theorem simLoop_indep (s : Sim) (n m : Nat) (H : Nat → Nat → Bool) (j j' : Nat → Jitter) (k it : Nat) (d : ℝ)
    (pos : Nat → Pt) : simLoop s n m H j k it d pos = simLoop s n m H j' k it d pos := by
  induction k generalizing it d pos with
  | zero => rfl
  | succ k ih =>
    rw [simLoop, simLoop]
    have : step s n m H (j it) d pos = step s n m H (j' it) d pos := by
      unfold step
      rw [force_indep]
    rw [this]
    congr 1
    funext ⟨q, v⟩
    dsimp only
    rw [ih]

/-- one point alone can always be simulated -/
theorem simLoop_one (s : Sim) (H : Nat → Nat → Bool) (hH : H 0 0 = true) (j : Nat → Jitter) (k it : Nat) (d : ℝ)
    (pos : Nat → Pt) : ∃ q, simLoop s 1 1 H j k it d pos = .ok q := by
  induction k generalizing it d pos with
  | zero => exact ⟨pos, rfl⟩
  | succ k ih =>
    have hrep : ∀ p : Nat → Pt, ∃ f, repulsion 1 p = .ok f := by
      intro p
      unfold repulsion
      rw [if_neg]
      · exact ⟨_, rfl⟩
      · rintro ⟨i, hi, j, hj, hij, _⟩
        omega
    have hf : ∃ f, force s 1 1 H (j it) pos = .ok f := by
      obtain ⟨f1, h1⟩ := hrep pos
      obtain ⟨f2, h2⟩ := hrep (eCenter 1 H pos)
      unfold force
      have hn : ∀ e < 1, ∃ i < 1, H i e = true := by
        intro e he
        exact ⟨0, by omega, by rw [show e = 0 by omega]; exact hH⟩
      rw [need_pos hn]
      rw [h1, h2]
      cases s.repulsion <;> cases s.edgeRepulsion <;> exact ⟨_, rfl⟩
    obtain ⟨f, hf⟩ := hf
    rw [simLoop]
    unfold step
    rw [hf]
    simp only [bind, Except.bind, pure, Except.pure]
    split
    · exact ⟨_, rfl⟩
    · exact ih _ _ _

/-- the two coordinates of a finished layout -/
theorem forceLayout_ok {R : Rand} {numV : Nat} {eList : List (List Int)} {pushV pullE pullC : ℝ} {pushE : Option ℝ}
    {q : Nat → NPt} (h : forceLayout R numV eList pushV pushE pullE pullC = .ok q) :
    0 < numV ∧ ∃ p : Nat → Pt, ∀ i, (q i).1 = rescale numV (fun i => (p i).1) i ∧
      (q i).2 = rescale numV (fun i => (p i).2) i := by
  unfold forceLayout at h
  obtain ⟨_, h0, h⟩ := bind_ok h
  obtain ⟨H, _, h⟩ := bind_ok h
  obtain ⟨p, _, h⟩ := bind_ok h
  refine ⟨Nat.pos_of_ne_zero (need_ok h0), p, fun i => ?_⟩
  rw [← Except.ok.inj h]
  exact ⟨rfl, rfl⟩

end Vi

/-- one coordinate of all `n` points: either every value is NaN, or every value lies between 0.1 and 0.9 and both
bounds are attained -/
def Spec.Canvas (n : Nat) (x : Nat → Option ℝ) : Prop :=
  (∀ i < n, x i = none) ∨
  ((∀ i < n, ∃ y, x i = some y ∧ 1 / 10 ≤ y ∧ y ≤ 9 / 10) ∧
    (∃ i < n, x i = some (1 / 10)) ∧ ∃ i < n, x i = some (9 / 10))

namespace Vi
theorem rescale_canvas {n : Nat} (hn : 0 < n) (x : Nat → ℝ) : Spec.Canvas n (rescale n x) := by
  obtain ⟨h1, h2⟩ := rescale_spec hn x
  by_cases hc : ∃ i < n, ∃ j < n, x i ≠ x j
  · obtain ⟨y, hy, ⟨a, ha, ha'⟩, ⟨b, hb, hb'⟩, _⟩ := h1 hc
    exact .inr ⟨fun i hi => ⟨y i, hy i hi⟩, ⟨a, ha, by rw [(hy a ha).1, ha']⟩, b, hb, by rw [(hy b hb).1, hb']⟩
  · push Not at hc
    exact .inl (h2 hc)
end Vi

/-- C95, partial. What `force_layout` returns lies in the canvas, and touches its four sides. Missing: the
coordinates can be NaN, when all points agree in one of them (`C95_layout_false`). -/
theorem C95_layout_partial (R : Rand) (numV : Nat) (eList : List (List Int)) (pushV pullE pullC : ℝ)
    (pushE : Option ℝ) (q : Nat → NPt) (h : forceLayout R numV eList pushV pushE pullE pullC = .ok q) :
    Spec.Canvas numV (fun i => (q i).1) ∧ Spec.Canvas numV (fun i => (q i).2) := by
  obtain ⟨hn, p, hp⟩ := Vi.forceLayout_ok h
  have h1 : (fun i => (q i).1) = rescale numV (fun i => (p i).1) := funext fun i => (hp i).1
  have h2 : (fun i => (q i).2) = rescale numV (fun i => (p i).2) := funext fun i => (hp i).2
  rw [h1, h2]
  exact ⟨Vi.rescale_canvas hn _, Vi.rescale_canvas hn _⟩

/-- C95, partial. The same for `bipartite_force_layout`, for both sides together. Missing: NaN coordinates. -/
theorem C95_bipartite_layout_partial (R : Rand) (numU numV : Nat) (eList : List (List Int))
    (pushU pushV pullE pullU pullV : ℝ) (pushE : Option ℝ) (qu qv : Nat → NPt)
    (h : bipartiteForceLayout R numU numV eList pushU pushV pushE pullE pullU pullV = .ok (qu, qv)) :
    Spec.Canvas (numU + numV) (fun i => if i < numU then (qu i).1 else (qv (i - numU)).1) ∧
    Spec.Canvas (numU + numV) (fun i => if i < numU then (qu i).2 else (qv (i - numU)).2) := by
  unfold bipartiteForceLayout at h
  obtain ⟨_, h0, h⟩ := Vi.bind_ok h
  obtain ⟨H, _, h⟩ := Vi.bind_ok h
  obtain ⟨p, _, h⟩ := Vi.bind_ok h
  have hn := Nat.pos_of_ne_zero (Vi.need_ok h0)
  obtain ⟨hu, hv⟩ := (Prod.mk.injEq _ _ _ _).mp (Except.ok.inj h)
  have e1 : (fun i => if i < numU then (qu i).1 else (qv (i - numU)).1) =
      rescale (numU + numV) (fun i => (p i).1) := by
    funext i
    rw [← hu, ← hv]
    dsimp only
    split
    · rfl
    · rw [show numU + (i - numU) = i by omega]
  have e2 : (fun i => if i < numU then (qu i).2 else (qv (i - numU)).2) =
      rescale (numU + numV) (fun i => (p i).2) := by
    funext i
    rw [← hu, ← hv]
    dsimp only
    split
    · rfl
    · rw [show numU + (i - numU) = i by omega]
  rw [e1, e2]
  exact ⟨Vi.rescale_canvas hn _, Vi.rescale_canvas hn _⟩

/-- C95 fails for a single vertex: the layout of a hypergraph with one vertex and one hyperedge is NaN, for all
draws and strengths. -/
theorem C95_layout_false :
    (∀ (R : Rand) (pushV pullE pullC : ℝ) (pushE : Option ℝ),
      ∃ q, forceLayout R 1 [[0]] pushV pushE pullE pullC = .ok q ∧ q 0 = (none, none)) ∧
    ¬ ∀ (R : Rand) (numV : Nat) (eList : List (List Int)) (pushV pullE pullC : ℝ) (pushE : Option ℝ) (q : Nat → NPt),
      forceLayout R numV eList pushV pushE pullE pullC = .ok q → ∀ i < numV, ∃ x y, q i = (some x, some y) := by
  have key : ∀ (R : Rand) (pushV pullE pullC : ℝ) (pushE : Option ℝ),
      ∃ q, forceLayout R 1 [[0]] pushV pushE pullE pullC = .ok q ∧ q 0 = (none, none) := by
    intro R pushV pullE pullC pushE
    unfold forceLayout
    have h1 : need (¬ (1 = 0)) Err.value = .ok () := rfl
    rw [h1]
    have hi : incidence 1 [[0]] = .ok (incAt 1 [[0]]) := if_pos (by decide)
    rw [hi]
    obtain ⟨p, hp⟩ := Vi.simLoop_one { nums := 1, attraction := some pullE, repulsion := some [pushV]
                                       edgeRepulsion := pushE, gravity := some [pullC], centers := [(0, 0)] }
      (incAt 1 [[0]]) (by decide) R.jit 400 0 1 (initPos R.init (0, 0) 5)
    have hp' : simulate { nums := 1, attraction := some pullE, repulsion := some [pushV]
                          edgeRepulsion := pushE, gravity := some [pullC], centers := [(0, 0)] } 1 1
      (incAt 1 [[0]]) R.jit (initPos R.init (0, 0) 5) = .ok p := hp
    refine ⟨fun i => (rescale 1 (fun i => (p i).1) i, rescale 1 (fun i => (p i).2) i), ?_, ?_⟩
    · show (simulate _ 1 1 _ _ _ >>= _) = _
      rw [hp']
      rfl
    · show (rescale 1 (fun i => (p i).1) 0, rescale 1 (fun i => (p i).2) 0) = _
      unfold rescale
      rw [if_pos (by simp [maxTo, minTo]), if_pos (by simp [maxTo, minTo])]
  refine ⟨key, fun h => ?_⟩
  obtain ⟨q, hq, hq0⟩ := key ⟨fun _ => 0, fun _ => ⟨fun _ _ => 0, fun _ _ => 0⟩⟩ 0 0 0 none
  obtain ⟨x, y, hxy⟩ := h _ _ _ _ _ _ _ _ hq 0 (by decide)
  rw [hq0] at hxy
  cases hxy

/-- C95 fails for the font size of `draw_graph` and `draw_digraph`: the argument has no effect. -/
theorem C95_font_size_false (R : Rand) (arrow : Bool) (A : DrawArgs) (f : Option ℝ) (numV numE : Nat)
    (eList : List (Nat × Nat)) :
    drawLines R arrow { A with font := f } numV numE eList = drawLines R arrow A numV numE eList := rfl

/-- C99. The simulation ends after at most 400 steps, each of which moves every coordinate by at most
0.2, so that no point moves by more than 80. -/
theorem C99_moves_bounded (s : Sim) (n m : Nat) (H : Nat → Nat → Bool) (jit : Nat → Jitter) (pos pos' : Nat → Pt)
    (h : simulate s n m H jit pos = .ok pos') (i : Nat) :
    |(pos' i).1 - (pos i).1| ≤ 80 ∧ |(pos' i).2 - (pos i).2| ≤ 80 := by
  have := Vi.simLoop_move 400 0 1 h i
  norm_num at this
  exact this

/-- C99. The layout depends only on the initial positions: the random numbers used by
`safe_div` when a point coincides with a centre have no effect. -/
theorem C99_determined (R R' : Rand) (hR : R.init = R'.init) (numV : Nat) (eList : List (List Int))
    (pushV pullE pullC : ℝ) (pushE : Option ℝ) :
    forceLayout R numV eList pushV pushE pullE pullC = forceLayout R' numV eList pushV pushE pullE pullC := by
  unfold forceLayout simulate
  rw [hR]
  congr 1
  funext _
  congr 1
  funext H
  rw [Vi.simLoop_indep _ _ _ _ R.jit R'.jit]

/-- C99. The centre of each edge, to which its vertices are pulled, is the mean of the positions of its
vertices. -/
theorem C99_edge_centre (numV : Nat) (eList : List (List Int)) (H : Nat → Nat → Bool)
    (hH : incidence numV eList = .ok H) (hpos : ∀ vs ∈ eList, ∀ v ∈ vs, 0 ≤ v)
    (pos : Nat → Pt) (e : Nat) (he : e < eList.length) :
    eCenter numV H pos e =
      ((∑ v ∈ (eList[e].map Int.toNat).toFinset, (pos v).1) / ((eList[e].map Int.toNat).toFinset.card : ℝ),
       (∑ v ∈ (eList[e].map Int.toNat).toFinset, (pos v).2) / ((eList[e].map Int.toNat).toFinset.card : ℝ)) := by
  unfold incidence at hH
  split at hH
  case isFalse => cases hH
  case isTrue hb =>
  have hH' : H = incAt numV eList := (Except.ok.inj hH).symm
  have hmem : eList[e] ∈ eList := List.getElem_mem he
  have hlt : ∀ v ∈ eList[e], 0 ≤ v ∧ v < numV := by
    intro v hv
    refine ⟨hpos _ hmem v hv, ?_⟩
    have := List.all_eq_true.mp (List.all_eq_true.mp hb _ hmem) v hv
    exact (of_decide_eq_true this).2
  have hfil : (Finset.range numV).filter (fun i => H i e = true) = (eList[e].map Int.toNat).toFinset := by
    ext i
    rw [Finset.mem_filter, Finset.mem_range, List.mem_toFinset, List.mem_map, hH']
    unfold incAt
    rw [List.getElem?_eq_getElem he]
    simp only [List.any_eq_true, decide_eq_true_eq]
    constructor
    · rintro ⟨hi, v, hv, hvi | hvi⟩
      · exact ⟨v, hv, by omega⟩
      · have := hlt v hv
        omega
    · rintro ⟨v, hv, hvi⟩
      have := hlt v hv
      exact ⟨by omega, v, hv, .inl (by omega)⟩
  unfold eCenter
  rw [← hfil, Finset.sum_filter, Finset.sum_filter]
  simp only [ite_mul, one_mul, zero_mul]
  have hc : (∑ i ∈ Finset.range numV, if H i e = true then (1 : ℝ) else 0) =
      (((Finset.range numV).filter fun i => H i e = true).card : ℝ) := by
    rw [← Finset.sum_filter, Finset.sum_const, nsmul_eq_mul, mul_one]
  rw [hc]

/-- C99 fails for `draw_bigraph`: the vertices of the second side are not renumbered before the layout. Two
different bipartite graphs get the same layout, and the centre of an edge is not the mean of its two ends. -/
theorem C99_bipartite_false :
    (∀ (R : Rand) (pushU pushV pullE pullU pullV : ℝ) (pushE : Option ℝ),
      bipartiteForceLayout R 2 2 [[0, 1]] pushU pushV pushE pullE pullU pullV =
        bipartiteForceLayout R 2 2 [[1, 0]] pushU pushV pushE pullE pullU pullV) ∧
    ¬ ∀ (numU numV : Nat) (eList : List (Nat × Nat)) (H : Nat → Nat → Bool) (pos : Nat → Pt) (e : Nat)
        (he : e < eList.length), (∀ p ∈ eList, p.1 < numU ∧ p.2 < numV) →
      incidence (numV + numU) (eList.map fun p => [(p.1 : Int), (p.2 : Int)]) = .ok H →
      eCenter (numU + numV) H pos e =
        (1 / 2 : ℝ) • (pos eList[e].1 + pos (numU + eList[e].2)) := by
  constructor
  · intro R pushU pushV pullE pullU pullV pushE
    have h : incidence (2 + 2) [[0, 1]] = incidence (2 + 2) [[1, 0]] := by
      have h1 : incidence (2 + 2) [[0, 1]] = .ok (incAt (2 + 2) [[0, 1]]) := if_pos (by decide)
      have h2 : incidence (2 + 2) [[1, 0]] = .ok (incAt (2 + 2) [[1, 0]]) := if_pos (by decide)
      rw [h1, h2]
      congr 1
      funext i e
      unfold incAt
      cases e with
      | zero =>
        simp only [List.getElem?_cons_zero, List.any_cons, List.any_nil, Bool.or_false]
        rw [Bool.or_comm]
      | succ e => simp
    unfold bipartiteForceLayout
    rw [h]
    rfl
  · intro h
    have := h 1 1 [(0, 0)] (incAt (1 + 1) [[0, 0]]) (fun i => if i = 0 then (0, 0) else (2, 0)) 0 (by decide)
      (by simp) (if_pos (by decide))
    have h1 := congrArg Prod.fst this
    simp [eCenter, Finset.sum_range_succ, incAt] at h1

/-! ### C98: outlines and lines -/

namespace Vi
open Real

theorem norm2_sq (p : Pt) : norm2 p * norm2 p = p.1 * p.1 + p.2 * p.2 :=
  Real.mul_self_sqrt (add_nonneg (mul_self_nonneg _) (mul_self_nonneg _))

theorem norm2_nonneg (p : Pt) : 0 ≤ norm2 p := Real.sqrt_nonneg _

theorem norm2_eq_zero {p : Pt} : norm2 p = 0 ↔ p = 0 := by
  constructor
  · intro h
    have := norm2_sq p
    rw [h] at this
    have h1 : p.1 = 0 := by nlinarith [mul_self_nonneg p.1, mul_self_nonneg p.2]
    have h2 : p.2 = 0 := by nlinarith [mul_self_nonneg p.1, mul_self_nonneg p.2]
    exact Prod.ext h1 h2
  · rintro rfl
    simp [norm2]

theorem arctan_polar {x y : ℝ} (hx : 0 < x) :
    x = norm2 (x, y) * cos (arctan (y / x)) ∧ y = norm2 (x, y) * sin (arctan (y / x)) := by
  have hr : norm2 (x, y) = x * sqrt (1 + (y / x) ^ 2) := by
    unfold norm2
    rw [show x * x + y * y = x ^ 2 * (1 + (y / x) ^ 2) by field_simp, Real.sqrt_mul (by positivity),
      Real.sqrt_sq hx.le]
  have hs : sqrt (1 + (y / x) ^ 2) ≠ 0 := (Real.sqrt_pos.mpr (by positivity)).ne'
  rw [cos_arctan, sin_arctan, hr]
  constructor
  · field_simp
  · field_simp

theorem radian_polar {x y : ℝ} (h : (x, y) ≠ (0 : Pt)) :
    x = norm2 (x, y) * cos (radianFromAtan x y) ∧ y = norm2 (x, y) * sin (radianFromAtan x y) := by
  unfold radianFromAtan
  split_ifs with h1 h2 h2 h3 h4 h5 h6
  · subst h1
    rw [cos_pi_div_two, sin_pi_div_two]
    simp only [norm2, mul_zero, zero_add, mul_one, true_and]
    rw [Real.sqrt_mul_self h2.le]
  · subst h1
    have hy : y < 0 := lt_of_le_of_ne (not_lt.mp h2) (fun hy => h (by rw [hy]; rfl))
    have hc : cos (3 * π / 2) = 0 := by
      rw [show 3 * π / 2 = π / 2 + π by ring, cos_add_pi, cos_pi_div_two, neg_zero]
    have hs : sin (3 * π / 2) = -1 := by
      rw [show 3 * π / 2 = π / 2 + π by ring, sin_add_pi, sin_pi_div_two]
    rw [hc, hs]
    simp only [norm2, mul_zero, zero_add, mul_neg, mul_one, true_and]
    rw [Real.sqrt_mul_self_eq_abs, abs_of_neg hy, neg_neg]
  · subst h2
    rw [cos_zero, sin_zero]
    simp only [norm2, mul_zero, add_zero, mul_one, and_true]
    rw [Real.sqrt_mul_self h3.le]
  · subst h2
    have hx : x < 0 := lt_of_le_of_ne (not_lt.mp h3) h1
    rw [cos_pi, sin_pi]
    simp only [norm2, mul_zero, add_zero, mul_neg, mul_one, and_true]
    rw [Real.sqrt_mul_self_eq_abs, abs_of_neg hx, neg_neg]
  · exact arctan_polar h4.1
  · rw [cos_add_two_pi, sin_add_two_pi]
    exact arctan_polar h5.1
  all_goals
    have hx : x < 0 := by
      rcases lt_trichotomy x 0 with hx | hx | hx
      · exact hx
      · exact absurd hx h1
      · rcases lt_trichotomy y 0 with hy | hy | hy
        · exact absurd ⟨hx, hy⟩ h5
        · exact absurd hy h2
        · exact absurd ⟨hx, hy⟩ h4
    obtain ⟨e1, e2⟩ := arctan_polar (x := -x) (y := -y) (by linarith)
    rw [neg_div_neg_eq] at e1 e2
    have hn : norm2 (-x, -y) = norm2 (x, y) := by
      unfold norm2
      congr 1
      ring
    rw [hn] at e1 e2
    rw [cos_add_pi, sin_add_pi]
    constructor <;> linarith

/-- the angle between a segment and the normal of its tangent -/
theorem tangent_cos {r1 r2 d a : ℝ} (h : commonTangentRadian r1 r2 d = .ok a) (hd : 0 ≤ d) :
    d * cos a = r1 - r2 ∧ 0 ≤ sin a ∧ 0 < d ∧ |r1 - r2| ≤ d := by
  unfold commonTangentRadian at h
  split at h
  · split at h <;> cases h
  · next hd0 =>
    split at h
    · cases h
    · next hb =>
      have hd' : 0 < d := lt_of_le_of_ne hd (Ne.symm hd0)
      push Not at hb
      have ha := Except.ok.inj h
      have hle : |r2 - r1| ≤ d := (div_le_one hd').mp hb.1
      have hcos : cos (arccos (|r2 - r1| / d)) = |r2 - r1| / d := cos_arccos hb.2 hb.1
      have hsin : 0 ≤ sin (arccos (|r2 - r1| / d)) := by rw [sin_arccos]; exact Real.sqrt_nonneg _
      have habs : |r1 - r2| ≤ d := by rw [abs_sub_comm]; exact hle
      rw [← ha]
      split
      · next hr =>
        refine ⟨?_, hsin, hd', habs⟩
        rw [hcos, abs_of_neg (by linarith)]
        field_simp; ring
      · next hr =>
        rw [cos_pi_sub, sin_pi_sub]
        refine ⟨?_, hsin, hd', habs⟩
        rw [hcos, abs_of_nonneg (by linarith)]
        field_simp; ring

theorem dot_le {r : ℝ} {p n : Pt} (hr : 0 ≤ r) (hn : Spec.dot n n = 1) (h : Spec.dot p p ≤ r * r) :
    Spec.dot p n ≤ r := by
  unfold Spec.dot at *
  by_contra hc
  push Not at hc
  nlinarith [mul_self_nonneg (p.1 * n.2 - p.2 * n.1), mul_self_nonneg (p.1 * n.1 + p.2 * n.2 - r)]

theorem polar_tangent {p1 p2 : Pt} {r1 r2 th : ℝ} (h1 : 0 ≤ r1) (h2 : 0 ≤ r2)
    (h : Spec.dot (p2 - p1) (cos th, sin th) = r1 - r2) :
    Spec.Tangent p1 r1 p2 r2 (polarPosition r1 th p1) (polarPosition r2 th p2) := by
  have hcs := cos_sq_add_sin_sq th
  simp only [Spec.dot, Prod.fst_sub, Prod.snd_sub] at h
  have hn : Spec.dot (cos th, sin th) (cos th, sin th) = 1 := by
    simp only [Spec.dot]
    nlinarith
  have hout : ∀ (r : ℝ) (p q : Pt), 0 ≤ r → Spec.dist2 p q ≤ r * r →
      Spec.dot (q - p) (cos th, sin th) ≤ r := fun r p q hr hq => dot_le hr hn hq
  refine ⟨?_, ?_, ?_, ?_, (cos th, sin th), hn, ?_, ?_, ?_⟩
  · simp only [Spec.dist2, Spec.dot, polarPosition, Prod.fst_sub, Prod.snd_sub]
    linear_combination r1 ^ 2 * hcs
  · simp only [Spec.dist2, Spec.dot, polarPosition, Prod.fst_sub, Prod.snd_sub]
    linear_combination r2 ^ 2 * hcs
  · simp only [Spec.dot, polarPosition, Prod.fst_sub, Prod.snd_sub]
    linear_combination r1 * h + (r2 - r1) * r1 * hcs
  · simp only [Spec.dot, polarPosition, Prod.fst_sub, Prod.snd_sub]
    linear_combination r2 * h + (r2 - r1) * r2 * hcs
  · simp only [Spec.dot, polarPosition, Prod.fst_sub, Prod.snd_sub]
    linear_combination h + (r2 - r1) * hcs
  · intro q hq
    have := hout r1 p1 q h1 hq
    simp only [Spec.dot, polarPosition, Prod.fst_sub, Prod.snd_sub] at this ⊢
    nlinarith
  · intro q hq
    have := hout r2 p2 q h2 hq
    simp only [Spec.dot, polarPosition, Prod.fst_sub, Prod.snd_sub] at this ⊢
    nlinarith

end Vi

/-- C98. The angle computed from the two coordinates of a vector is its polar angle. -/
theorem C98_polar_angle (x y : ℝ) (h : (x, y) ≠ (0 : Pt)) :
    x = norm2 (x, y) * Real.cos (radianFromAtan x y) ∧ y = norm2 (x, y) * Real.sin (radianFromAtan x y) :=
  Vi.radian_polar h

namespace Vi
theorem hullLine_ok {pos : Nat → Pt} {rad : Nat → ℝ} {v w : Nat} {s e : Pt} {th : ℝ} (h1 : 0 ≤ rad v) (h2 : 0 ≤ rad w)
    (h : hullLine pos rad v w = .ok ((s, e), th)) :
    Spec.Tangent (pos v) (rad v) (pos w) (rad w) s e ∧ s = polarPosition (rad v) th (pos v) ∧
      e = polarPosition (rad w) th (pos w) ∧
      (pos w - pos v).1 * Real.sin th - (pos w - pos v).2 * Real.cos th ≤ 0 := by
  unfold hullLine at h
  obtain ⟨a, ha, h⟩ := bind_ok h
  obtain ⟨hse, hth⟩ := (Prod.mk.injEq _ _ _ _).mp (Except.ok.inj h)
  obtain ⟨hs, he⟩ := (Prod.mk.injEq _ _ _ _).mp hse
  obtain ⟨hc, hsin, hd, _⟩ := tangent_cos ha (norm2_nonneg _)
  have hne : (((pos w - pos v).1, (pos w - pos v).2) : Pt) ≠ 0 := by
    intro h0
    have : norm2 (pos w - pos v) = 0 := norm2_eq_zero.mpr h0
    linarith
  obtain ⟨hx, hy⟩ := radian_polar hne
  set b := radianFromAtan (pos w - pos v).1 (pos w - pos v).2 with hb
  have hnn : norm2 (((pos w - pos v).1, (pos w - pos v).2) : Pt) = norm2 (pos w - pos v) := rfl
  rw [hnn] at hx hy
  set d := norm2 (pos w - pos v) with hdd
  have hcb := Real.cos_sq_add_sin_sq b
  have hdot : Spec.dot (pos w - pos v) (Real.cos th, Real.sin th) = rad v - rad w := by
    unfold Spec.dot
    dsimp only
    rw [← hth, Real.cos_sub, Real.sin_sub, hx, hy, ← hc]
    linear_combination d * Real.cos a * hcb
  subst hth
  refine ⟨?_, hs.symm, he.symm, ?_⟩
  · rw [← hs, ← he]
    exact polar_tangent h1 h2 hdot
  · rw [Real.cos_sub, Real.sin_sub, hx, hy]
    have : d * Real.cos b * (Real.sin b * Real.cos a - Real.cos b * Real.sin a) -
        d * Real.sin b * (Real.cos b * Real.cos a + Real.sin b * Real.sin a) =
        -(d * Real.sin a) * (Real.cos b ^ 2 + Real.sin b ^ 2) := by ring
    rw [this, hcb]
    nlinarith
end Vi

/-- C98. The line drawn between two consecutive corners touches the circles around both, starting on the
first and ending on the second, both circles lie on the same side of it, and it runs on the right of the
direction from the first to the second, which is outside for corners in counterclockwise order. -/
theorem C98_tangent (pos : Nat → Pt) (rad : Nat → ℝ) (v w : Nat) (h1 : 0 ≤ rad v) (h2 : 0 ≤ rad w)
    (s e : Pt) (th : ℝ) (h : hullLine pos rad v w = .ok ((s, e), th)) :
    Spec.Tangent (pos v) (rad v) (pos w) (rad w) s e ∧
      (pos w - pos v).1 * (s - pos v).2 - (pos w - pos v).2 * (s - pos v).1 ≤ 0 := by
  obtain ⟨ht, hs, _, hside⟩ := Vi.hullLine_ok h1 h2 h
  refine ⟨ht, ?_⟩
  rw [hs]
  simp only [polarPosition, Prod.snd_sub, Prod.fst_sub] at hside ⊢
  nlinarith

/-- C98, partial. The line exists exactly if the corners differ and neither circle lies inside the other.
Missing: in the other case the call fails and nothing is drawn (`C98_close_false`). -/
theorem C98_exists_partial (pos : Nat → Pt) (rad : Nat → ℝ) (v w : Nat) :
    (∃ r, hullLine pos rad v w = .ok r) ↔ pos v ≠ pos w ∧ |rad v - rad w| ≤ norm2 (pos w - pos v) := by
  constructor
  · rintro ⟨r, h⟩
    unfold hullLine at h
    obtain ⟨a, ha, h⟩ := Vi.bind_ok h
    obtain ⟨_, _, hd, hle⟩ := Vi.tangent_cos ha (Vi.norm2_nonneg _)
    refine ⟨fun he => ?_, hle⟩
    rw [he, sub_self, Vi.norm2_eq_zero.mpr rfl] at hd
    exact lt_irrefl _ hd
  · rintro ⟨hne, hle⟩
    have hd : 0 < norm2 (pos w - pos v) := lt_of_le_of_ne (Vi.norm2_nonneg _) fun h0 =>
      hne (sub_eq_zero.mp (Vi.norm2_eq_zero.mp h0.symm)).symm
    have : ∃ a, commonTangentRadian (rad v) (rad w) (norm2 (pos w - pos v)) = .ok a := by
      unfold commonTangentRadian
      rw [if_neg hd.ne', if_neg]
      · exact ⟨_, rfl⟩
      · push Not
        rw [abs_sub_comm] at hle
        exact ⟨(div_le_one hd).mpr hle, le_trans (by norm_num) (div_nonneg (abs_nonneg _) hd.le)⟩
    obtain ⟨a, ha⟩ := this
    unfold hullLine
    dsimp only
    rw [ha]
    exact ⟨_, rfl⟩

namespace Vi

theorem forall2_get {α β : Type} {R : α → β → Prop} {xs : List α} {ys : List β} (h : List.Forall₂ R xs ys) :
    xs.length = ys.length ∧ ∀ k (hx : k < xs.length) (hy : k < ys.length), R xs[k] ys[k] := by
  induction h with
  | nil => exact ⟨rfl, fun k hx => absurd hx (Nat.not_lt_zero _)⟩
  | cons hab _ ih =>
    refine ⟨congrArg (· + 1) ih.1, fun k hx hy => ?_⟩
    cases k with
    | zero => exact hab
    | succ k => exact ih.2 k (by simpa using hx) (by simpa using hy)

end Vi

/-- The outline runs once around the corners `vs`: it has one line and one arc for each, the `k`-th line goes
from the `k`-th corner to the next one and touches both circles, and the `k`-th arc lies on the circle around
the `k`-th corner, from the end of the line before to the start of the `k`-th line. -/
structure Spec.Encloses (pos : Nat → Pt) (rad : Nat → ℝ) (vs : List Nat) (o : Outline) : Prop where
  lines : o.lines.length = vs.length
  arcs : o.arcs.length = vs.length
  tangent : ∀ k (h : k < o.lines.length),
    Spec.Tangent (pos (vs.getD k 0)) (rad (vs.getD k 0)) (pos (vs.getD ((k + 1) % vs.length) 0))
      (rad (vs.getD ((k + 1) % vs.length) 0)) o.lines[k].1 o.lines[k].2
  corner : ∀ k (h : k < o.arcs.length), o.arcs[k].center = pos (vs.getD k 0) ∧ o.arcs[k].radius = rad (vs.getD k 0)
  joins : ∀ k (h : k < o.arcs.length) (h' : k < o.lines.length)
    (h'' : (k + (vs.length - 1)) % vs.length < o.lines.length),
    polarPosition o.arcs[k].radius (o.arcs[k].theta2 * Real.pi / 180) o.arcs[k].center = o.lines[k].1 ∧
    polarPosition o.arcs[k].radius (o.arcs[k].theta1 * Real.pi / 180) o.arcs[k].center =
      o.lines[(k + (vs.length - 1)) % vs.length].2

namespace Vi

theorem deg_rad (t : ℝ) : rad2deg t * Real.pi / 180 = t := by
  unfold rad2deg
  field_simp

theorem hullOutline_encloses {pos : Nat → Pt} {rad : Nat → ℝ} (hr : ∀ v, 0 ≤ rad v) {vs : List Nat} {o : Outline}
    (h : hullOutline pos rad vs = .ok o) : Spec.Encloses pos rad vs o := by
  unfold hullOutline at h
  obtain ⟨ls, hls, h⟩ := bind_ok h
  have ho := (Except.ok.inj h).symm
  obtain ⟨hlen, hget⟩ := forall2_get (collectE_ok_iff.mp hls)
  have hlen' : ls.length = vs.length := by rw [← hlen]; simp
  have hline : ∀ k (hk : k < ls.length), hullLine pos rad (vs.getD k 0) (vs.getD ((k + 1) % vs.length) 0) = .ok ls[k] := by
    intro k hk
    have := hget k (by rw [hlen]; exact hk) hk
    rw [List.getElem_zip, List.getElem_rotate] at this
    rw [List.getD_eq_getElem _ _ (by omega : k < vs.length), List.getD_eq_getElem _ _ (Nat.mod_lt _ (by omega))]
    exact this
  have hfacts : ∀ k (hk : k < ls.length), _ := fun k hk => hullLine_ok (hr _) (hr _)
    (show hullLine pos rad (vs.getD k 0) (vs.getD ((k + 1) % vs.length) 0) = .ok ((ls[k].1.1, ls[k].1.2), ls[k].2)
      from hline k hk)
  subst ho
  refine ⟨by simpa using hlen', by simp [hlen'], ?_, ?_, ?_⟩
  · intro k hk
    have hk' : k < ls.length := by simpa using hk
    simpa using (hfacts k hk').1
  · intro k hk
    have hk' : k < vs.length := by simp [hlen'] at hk; exact hk
    rw [List.getD_eq_getElem _ _ hk']
    simp
  · intro k hk hk1 hk2
    have hk' : k < ls.length := by simpa using hk1
    have hkv : k < vs.length := by omega
    have hk'' : (k + (vs.length - 1)) % vs.length < ls.length := by simpa using hk2
    have f1 := (hfacts k hk').2.1
    have f2 := (hfacts _ hk'').2.2.1
    have hmod : ((k + (vs.length - 1)) % vs.length + 1) % vs.length = k := by
      rw [Nat.mod_add_mod, show k + (vs.length - 1) + 1 = k + vs.length by omega, Nat.add_mod_right,
        Nat.mod_eq_of_lt hkv]
    rw [hmod, List.getD_eq_getElem _ _ hkv] at f2
    rw [List.getD_eq_getElem _ _ hkv] at f1
    simp only [List.getElem_zipWith, List.getElem_zip, List.getElem_map, List.getElem_rotate, List.length_map, deg_rad]
    refine ⟨f1.symm, ?_⟩
    rw [f2]
    simp only [hlen']

/-- the radius of a vertex after the hyperedges `es` -/
theorem hullLoop_split (hull : List Pt → Except Err (List Nat)) (pos : Nat → Pt) (inc : Nat → ℝ)
    (eList : List (List Nat)) (order : List Nat) (rad : Nat → ℝ) (os : List (Nat × Outline))
    (h : hullLoop hull pos inc eList order rad = .ok os) :
    os.length = order.length ∧ ∀ k (hk : k < os.length) (hk' : k < order.length), os[k].1 = order[k] ∧
      edgeOutline hull pos (fun v => rad v + inc v * Spec.covers eList (order.take k) v)
        (eList.getD order[k] []) = .ok os[k].2 := by
  induction order generalizing rad os with
  | nil =>
    rw [hullLoop] at h
    rw [← Except.ok.inj h]
    exact ⟨rfl, fun k hk => absurd hk (Nat.not_lt_zero _)⟩
  | cons e es ih =>
    rw [hullLoop] at h
    obtain ⟨o, h1, h⟩ := bind_ok h
    obtain ⟨os', h2, h⟩ := bind_ok h
    rw [← Except.ok.inj h]
    obtain ⟨hl, hr⟩ := ih _ _ h2
    refine ⟨congrArg (· + 1) hl, fun k hk hk' => ?_⟩
    cases k with
    | zero =>
      refine ⟨rfl, ?_⟩
      simp only [List.take_zero, Spec.covers, List.filter_nil, List.length_nil, Nat.cast_zero, mul_zero, add_zero,
        List.getElem_cons_zero]
      exact h1
    | succ k =>
      obtain ⟨g1, g2⟩ := hr k (by simpa using hk) (by simpa using hk')
      refine ⟨g1, ?_⟩
      simp only [List.getElem_cons_succ]
      rw [← g2]
      congr 1
      funext v
      simp only [List.take_succ_cons, Spec.covers, List.filter_cons]
      by_cases hv : v ∈ eList.getD e []
      · simp only [hv, decide_true, if_true, List.length_cons]
        push_cast
        ring
      · simp only [hv, decide_false, if_false, Bool.false_eq_true]

end Vi

/-- the radius of the circles drawn around `v` for the `k`-th hyperedge of the order -/
noncomputable def Spec.ring (eList : List (List Nat)) (order : List Nat) (vSize : Nat → ℝ) (k v : Nat) : ℝ :=
  vSize v * (13 / 10 + 3 / 10 * Spec.covers eList (order.take k) v)

/-- C98. Every hyperedge with several vertices gets a closed outline around some of its vertices, a
hyperedge with one vertex a full circle. The circles around a vertex have radius 1.3 times its size for the first
hyperedge containing it that is drawn, and 0.3 times its size more for each further one. -/
theorem C98_outlines (hull : List Pt → Except Err (List Nat))
    (hhull : ∀ pts idx, hull pts = .ok idx → ∀ k ∈ idx, k < pts.length)
    (order : List Nat) (eList : List (List Nat)) (pos : Nat → Pt) (vSize : Nat → ℝ) (hv : ∀ v, 0 ≤ vSize v)
    (os : List (Nat × Outline)) (h : hullLayout hull order eList pos vSize = .ok os) :
    os.length = order.length ∧ ∀ k (hk : k < os.length) (hk' : k < order.length), os[k].1 = order[k] ∧
      ((∃ v, eList.getD order[k] [] = [v] ∧ os[k].2.lines = [] ∧
          os[k].2.arcs = [⟨pos v, 0, 360, Spec.ring eList order vSize k v⟩]) ∨
        ∃ vs : List Nat, (∀ v ∈ vs, v ∈ eList.getD order[k] []) ∧
          Spec.Encloses pos (Spec.ring eList order vSize k) vs os[k].2 ∧
          ((eList.getD order[k] []).length = 2 → vs = eList.getD order[k] [])) := by
  obtain ⟨hl, hr⟩ := Vi.hullLoop_split _ _ _ _ _ _ _ h
  refine ⟨hl, fun k hk hk' => ?_⟩
  obtain ⟨g1, g2⟩ := hr k hk hk'
  refine ⟨g1, ?_⟩
  have hrad : (fun v => vSize v + vSize v * (3 / 10) + vSize v * (3 / 10) * Spec.covers eList (order.take k) v) =
      Spec.ring eList order vSize k := by
    funext v
    unfold Spec.ring
    ring
  rw [hrad] at g2
  have hpos : ∀ v, 0 ≤ Spec.ring eList order vSize k v := fun v =>
    mul_nonneg (hv v) (by positivity)
  generalize eList.getD order[k] [] = edge at *
  unfold edgeOutline at g2
  split at g2
  · next v =>
    rw [← Except.ok.inj g2]
    exact .inl ⟨v, rfl, rfl, rfl⟩
  · next v w =>
    exact .inr ⟨_, fun _ => id, Vi.hullOutline_encloses hpos g2, fun _ => rfl⟩
  · next h1 h2 =>
    obtain ⟨idx, hidx, g2⟩ := Vi.bind_ok g2
    refine .inr ⟨_, ?_, Vi.hullOutline_encloses hpos g2, fun hlen => ?_⟩
    · intro v hv
      obtain ⟨j, hj, rfl⟩ := List.mem_map.mp hv
      have := hhull _ _ hidx j hj
      rw [List.length_map] at this
      rw [List.getD_eq_getElem _ _ this]
      exact List.getElem_mem _
    · obtain ⟨a, b, rfl⟩ := List.length_eq_two.mp hlen
      exact absurd rfl (h2 a b)

/-- C98. The circles drawn around a vertex for two hyperedges containing it differ, if its size is positive. -/
theorem C98_rings_differ (eList : List (List Nat)) (order : List Nat) (vSize : Nat → ℝ) (v j k : Nat)
    (hv : 0 < vSize v) (hjk : j < k) (hk : k < order.length)
    (hj : v ∈ eList.getD (order.getD j 0) []) :
    Spec.ring eList order vSize j v + 3 / 10 * vSize v ≤ Spec.ring eList order vSize k v := by
  have hc : Spec.covers eList (order.take j) v + 1 ≤ Spec.covers eList (order.take k) v := by
    unfold Spec.covers
    have h1 : order.take (j + 1) = order.take j ++ [order.getD j 0] := by
      rw [List.take_succ_eq_append_getElem (by omega), List.getD_eq_getElem _ _ (by omega)]
    have h2 : (order.take (j + 1)).Sublist (order.take k) := (List.take_prefix_take_left (by omega)).sublist
    have h3 := (h2.filter fun e => v ∈ eList.getD e []).length_le
    rw [h1, List.filter_append, List.length_append] at h3
    have h4 : ([order.getD j 0].filter fun e => v ∈ eList.getD e []).length = 1 := by
      rw [List.filter_cons, if_pos (decide_eq_true hj)]
      rfl
    rw [h4] at h3
    exact h3
  unfold Spec.ring
  have hc' : (Spec.covers eList (order.take j) v : ℝ) + 1 ≤ Spec.covers eList (order.take k) v := by exact_mod_cast hc
  nlinarith

/-- C98 fails for points close to each other: with the unit sizes 0.1 and 0.01, two vertices at distance
0.05 and the hyperedge of both, nothing is drawn. -/
theorem C98_close_false :
    ¬ ∀ (hull : List Pt → Except Err (List Nat)) (pos : Nat → Pt) (vSize : Nat → ℝ), (∀ v, 0 < vSize v) →
      pos 0 ≠ pos 1 → ∃ os, hullLayout hull [0] [[0, 1]] pos vSize = .ok os := by
  intro h
  obtain ⟨os, hos⟩ := h (fun _ => .ok []) (fun v => if v = 0 then (0, 0) else (1 / 20, 0))
    (fun v => if v = 0 then 1 / 10 else 1 / 100) (fun v => by split <;> norm_num)
    (by simp)
  obtain ⟨hl, hr⟩ := Vi.hullLoop_split _ _ _ _ _ _ _ hos
  obtain ⟨_, g⟩ := hr 0 (by rw [hl]; decide) (by decide)
  have g' : hullOutline _ _ [0, 1] = .ok _ := g
  unfold hullOutline at g'
  obtain ⟨ls, hls, _⟩ := Vi.bind_ok g'
  obtain ⟨hlen, hget⟩ := Vi.forall2_get (collectE_ok_iff.mp hls)
  have h0 := hget 0 (by decide) (by rw [← hlen]; decide)
  have := (C98_exists_partial _ _ 0 1).mp ⟨_, h0⟩
  have h2 := this.2
  simp [Spec.covers, norm2] at h2
  rw [abs_le] at h2
  norm_num at h2

/-- The picture shows `n` discs and one line for each pair of `es`, from the border of one disc to the border of the
other, along the segment between the centres; only arrows have a head. -/
structure Spec.Shows (n : Nat) (es : List (Nat × Nat)) (arrow : Bool) (P : Picture) : Prop where
  discs : P.discs.length = n
  inside : ∀ d ∈ P.discs, 1 / 10 ≤ d.center.1 ∧ d.center.1 ≤ 9 / 10 ∧ 1 / 10 ≤ d.center.2 ∧ d.center.2 ≤ 9 / 10
  arrows : P.arrows.length = es.length
  ends : ∀ k (h : k < es.length) (h' : k < P.arrows.length), ∃ (ha : es[k].1 < P.discs.length) (hb : es[k].2 < P.discs.length),
    (∃ c : ℝ, P.arrows[k].delta = c • (P.discs[es[k].2].center - P.discs[es[k].1].center)) ∧
    Spec.dist2 P.discs[es[k].1].center P.arrows[k].start = P.discs[es[k].1].radius * P.discs[es[k].1].radius ∧
    Spec.dist2 P.discs[es[k].2].center (P.arrows[k].start + P.arrows[k].delta) =
      P.discs[es[k].2].radius * P.discs[es[k].2].radius ∧
    (arrow = false → P.arrows[k].head = 0)

namespace Vi

theorem fillSizes_length {a : SizeArg} {d : ℝ} {n : Nat} {xs : List ℝ} (h : fillSizes a d n = .ok xs) : xs.length = n := by
  cases a with
  | none => rw [← Except.ok.inj h]; simp
  | list ys =>
    unfold fillSizes at h
    dsimp only at h
    split at h
    · next hl => rw [← Except.ok.inj h]; simpa using hl
    · cases h
  | float x => rw [← Except.ok.inj h]; simp
  | int z => rw [← Except.ok.inj h]; simp
  | other => cases h

theorem elim_ok {α : Type} {o : Option α} {a : α} (h : (o.elim (Except.error Err.index) Except.ok) = .ok a) : o = some a := by
  cases o with
  | none => cases h
  | some b => rw [Except.ok.inj h]

theorem lineEdge_ok {pos : Nat → Pt} {vs : List ℝ} {ar : Bool} {ec : List Col} {el : List ℝ} {k a b : Nat} {w : Arrow}
    (h : lineEdge pos vs ar ec el k a b = .ok w) : ∃ (ha : a < vs.length) (hb : b < vs.length),
      (∃ c : ℝ, w.delta = c • (pos b - pos a)) ∧ Spec.dist2 (pos a) w.start = vs[a] * vs[a] ∧
      Spec.dist2 (pos b) (w.start + w.delta) = vs[b] * vs[b] ∧ (ar = false → w.head = 0) := by
  unfold lineEdge at h
  obtain ⟨s, hs, h⟩ := bind_ok h
  obtain ⟨t, ht, h⟩ := bind_ok h
  obtain ⟨x, _, h⟩ := bind_ok h
  obtain ⟨c, _, h⟩ := bind_ok h
  obtain ⟨ha, hs⟩ := List.getElem?_eq_some_iff.mp (elim_ok hs)
  obtain ⟨hb, ht⟩ := List.getElem?_eq_some_iff.mp (elim_ok ht)
  dsimp only at h
  split at h
  · cases h
  · next hd =>
    rw [← Except.ok.inj h]
    refine ⟨ha, hb, ⟨1 - (s + t) * (1 / norm2 (pos b - pos a)), ?_⟩, ?_, ?_, ?_⟩
    · ext <;> simp only [Prod.smul_fst, Prod.smul_snd, Prod.fst_sub, Prod.snd_sub, Prod.fst_add, Prod.snd_add, smul_eq_mul] <;> ring
    · have hsq := norm2_sq (pos b - pos a)
      rw [hs]
      simp only [Spec.dist2, Spec.dot, Prod.smul_fst, Prod.smul_snd, Prod.fst_sub, Prod.snd_sub, Prod.fst_add,
        Prod.snd_add, smul_eq_mul] at hsq ⊢
      field_simp
      linear_combination (-s ^ 2) * hsq
    · have hsq := norm2_sq (pos b - pos a)
      rw [ht]
      simp only [Spec.dist2, Spec.dot, Prod.smul_fst, Prod.smul_snd, Prod.fst_sub, Prod.snd_sub, Prod.fst_add,
        Prod.snd_add, smul_eq_mul] at hsq ⊢
      field_simp
      linear_combination (-t ^ 2) * hsq
    · intro har
      rw [har]
      rfl

theorem solid_ok {n : Nat} {q : Nat → NPt} {pos : Nat → Pt} (h : solid n q = .ok pos)
    (h1 : Spec.Canvas n fun i => (q i).1) (h2 : Spec.Canvas n fun i => (q i).2) :
    ∀ i < n, 1 / 10 ≤ (pos i).1 ∧ (pos i).1 ≤ 9 / 10 ∧ 1 / 10 ≤ (pos i).2 ∧ (pos i).2 ≤ 9 / 10 := by
  unfold solid at h
  split at h
  case isFalse => cases h
  case isTrue hs =>
  intro i hi
  rw [← Except.ok.inj h]
  obtain ⟨s1, s2⟩ := hs i hi
  dsimp only
  rcases h1 with h1 | ⟨h1, _, _⟩
  · have := h1 i hi; dsimp only at this; rw [this] at s1; cases s1
  rcases h2 with h2 | ⟨h2, _, _⟩
  · have := h2 i hi; dsimp only at this; rw [this] at s2; cases s2
  obtain ⟨x, hx, hx1, hx2⟩ := h1 i hi
  obtain ⟨y, hy, hy1, hy2⟩ := h2 i hi
  dsimp only at hx hy
  rw [hx, hy]
  exact ⟨hx1, hx2, hy1, hy2⟩

theorem shows_of {n : Nat} {pos : Nat → Pt} {vs vl : List ℝ} {label : Option (List String)} {font : ℝ}
    {es : List (Nat × Nat)} {ar : Bool} {ec : List Col} {el : List ℝ} {arrows : List Arrow} {faces : List Col}
    (hl : ∀ l, label = some l → l.length = n) (hvs : vs.length = n) (hvl : vl.length = n)
    (hin : ∀ i < n, 1 / 10 ≤ (pos i).1 ∧ (pos i).1 ≤ 9 / 10 ∧ 1 / 10 ≤ (pos i).2 ∧ (pos i).2 ≤ 9 / 10)
    (ha : drawLineEdge pos vs es ar ec el = .ok arrows) :
    Spec.Shows n es ar { arrows := arrows, discs := (drawVertex n pos label font vs vl).1, faces := faces
                         labels := (drawVertex n pos label font vs vl).2 } := by
  have hll : (label.getD (List.replicate n "")).length = n := by
    cases label with
    | none => simp
    | some l => exact hl l rfl
  have hlen : (drawVertex n pos label font vs vl).1.length = n := by
    unfold drawVertex
    simp [hll, hvs, hvl]
  have hget : ∀ i (hi : i < (drawVertex n pos label font vs vl).1.length) (hi' : i < vs.length),
      (drawVertex n pos label font vs vl).1[i].center = pos i ∧ (drawVertex n pos label font vs vl).1[i].radius = vs[i] := by
    intro i hi hi'
    have hd : (drawVertex n pos label font vs vl).1 =
        ((((List.range n).map pos).zip (label.getD (List.replicate n ""))).zip (vs.zip vl)).map
          fun r => ⟨r.1.1, r.2.1, r.2.2⟩ := rfl
    rw [List.getElem_of_eq hd hi]
    simp only [List.getElem_map, List.getElem_zip, List.getElem_range, and_self]
  obtain ⟨hal, hag⟩ := forall2_get (collectE_ok_iff.mp ha)
  refine ⟨hlen, ?_, by rw [← hal]; simp, ?_⟩
  · intro d hd
    obtain ⟨i, hi, rfl⟩ := List.getElem_of_mem hd
    dsimp only at hi ⊢
    rw [(hget i hi (by omega)).1]
    exact hin i (by omega)
  · intro k hk hk'
    have := hag k (by simpa using hk) hk'
    rw [List.getElem_zipIdx] at this
    obtain ⟨h1, h2, h3, h4, h5, h6⟩ := lineEdge_ok this
    have h1' : es[k].1 < (drawVertex n pos label font vs vl).1.length := by
      rw [hlen, ← hvs]; simpa using h1
    have h2' : es[k].2 < (drawVertex n pos label font vs vl).1.length := by
      rw [hlen, ← hvs]; simpa using h2
    refine ⟨h1', h2', ?_⟩
    rw [(hget _ h1' h1).1, (hget _ h1' h1).2, (hget _ h2' h2).1, (hget _ h2' h2).2]
    exact ⟨h3, h4, h5, h6⟩

end Vi

/-- C98. `draw_graph` and `draw_digraph` draw one disc for each vertex and one line for each edge, between the borders
of the discs of its two ends, arrows for directed graphs only. -/
theorem C98_draw_graph (R : Rand) (arrow : Bool) (A : DrawArgs) (numV numE : Nat) (eList : List (Nat × Nat))
    (hl : ∀ l, A.label = some l → l.length = numV) (P : Picture)
    (h : drawLines R arrow A numV numE eList = .ok P) : Spec.Shows numV eList arrow P := by
  unfold drawLines at h
  obtain ⟨_, _, h⟩ := Vi.bind_ok h
  obtain ⟨vc, _, h⟩ := Vi.bind_ok h
  obtain ⟨ec, _, h⟩ := Vi.bind_ok h
  obtain ⟨z, hz, h⟩ := Vi.bind_ok h
  obtain ⟨q, hq, h⟩ := Vi.bind_ok h
  obtain ⟨pos, hpos, h⟩ := Vi.bind_ok h
  obtain ⟨arrows, ha, h⟩ := Vi.bind_ok h
  unfold defaultSize at hz
  obtain ⟨v, hv, hz⟩ := Vi.bind_ok hz
  obtain ⟨vl, hvl, hz⟩ := Vi.bind_ok hz
  obtain ⟨el, _, hz⟩ := Vi.bind_ok hz
  have hz := Except.ok.inj hz
  rw [← Except.ok.inj h]
  obtain ⟨c1, c2⟩ := C95_layout_partial _ _ _ _ _ _ _ _ hq
  refine Vi.shows_of hl ?_ ?_ (Vi.solid_ok hpos c1 c2) ha
  · rw [← hz]; exact Vi.fillSizes_length hv
  · rw [← hz]; exact Vi.fillSizes_length hvl

/-- C98. `draw_bigraph` draws one disc for each vertex, those of `U` first, and one line for each edge, between the
borders of the discs of its two ends. -/
theorem C98_draw_bigraph (R : Rand) (A : BiDrawArgs) (numU numV : Nat) (eList : List (Nat × Nat))
    (hu : ∀ l, A.uLabel = some l → l.length = numU) (hv : ∀ l, A.vLabel = some l → l.length = numV) (P : Picture)
    (h : drawBigraph R A numU numV eList = .ok P) :
    Spec.Shows (numU + numV) (eList.map fun e => (e.1, e.2 + numU)) false P := by
  unfold drawBigraph at h
  obtain ⟨_, _, h⟩ := Vi.bind_ok h
  obtain ⟨uc, _, h⟩ := Vi.bind_ok h
  obtain ⟨vc, _, h⟩ := Vi.bind_ok h
  obtain ⟨ec, _, h⟩ := Vi.bind_ok h
  obtain ⟨⟨zu, zv⟩, hz, h⟩ := Vi.bind_ok h
  obtain ⟨⟨qu, qv⟩, hq, h⟩ := Vi.bind_ok h
  obtain ⟨pos, hpos, h⟩ := Vi.bind_ok h
  obtain ⟨arrows, ha, h⟩ := Vi.bind_ok h
  unfold defaultBipartiteSize at hz
  obtain ⟨_, _, hz⟩ := Vi.bind_ok hz
  obtain ⟨us, hus, hz⟩ := Vi.bind_ok hz
  obtain ⟨ul, hul, hz⟩ := Vi.bind_ok hz
  obtain ⟨vs, hvs, hz⟩ := Vi.bind_ok hz
  obtain ⟨vl, hvl, hz⟩ := Vi.bind_ok hz
  obtain ⟨el, _, hz⟩ := Vi.bind_ok hz
  obtain ⟨hzu, hzv⟩ := (Prod.mk.injEq _ _ _ _).mp (Except.ok.inj hz)
  rw [← Except.ok.inj h]
  obtain ⟨c1, c2⟩ := C95_bipartite_layout_partial _ _ _ _ _ _ _ _ _ _ _ _ hq
  refine Vi.shows_of ?_ ?_ ?_ (Vi.solid_ok hpos ?_ ?_) ha
  · intro l hl
    cases hA : A.uLabel with
    | none => rw [hA] at hl; cases hl
    | some a =>
      cases hB : A.vLabel with
      | none => rw [hA, hB] at hl; cases hl
      | some b =>
        rw [hA, hB] at hl
        rw [← Option.some.inj hl, List.length_append, hu a hA, hv b hB]
  · rw [← hzu, ← hzv, List.length_append, Vi.fillSizes_length hus, Vi.fillSizes_length hvs]
  · rw [← hzu, ← hzv, List.length_append, Vi.fillSizes_length hul, Vi.fillSizes_length hvl]
  · convert c1 using 2
    split <;> rfl
  · convert c2 using 2
    split <;> rfl

/-- C98 fails for labels in `draw_bigraph`: labels given for one side only are not drawn at all. -/
theorem C98_labels_false (R : Rand) (A : BiDrawArgs) (l : List String) (numU numV : Nat) (eList : List (Nat × Nat)) :
    drawBigraph R { A with uLabel := some l, vLabel := none } numU numV eList =
      drawBigraph R { A with uLabel := none, vLabel := none } numU numV eList := rfl

namespace Vi
theorem drawVertex_labels_none (n : Nat) (pos : Nat → Pt) (font : ℝ) (vs vl : List ℝ) :
    (drawVertex n pos none font vs vl).2 = [] := by
  unfold drawVertex
  simp only [Option.getD_none, List.map_eq_nil_iff, List.filter_eq_nil_iff]
  intro r hr
  have h1 := (List.of_mem_zip (List.of_mem_zip hr).1).2
  rw [List.eq_of_mem_replicate h1]
  simp
end Vi

/-- C98. Each non-empty label is drawn below its vertex, in the order of the vertices. -/
theorem C98_labels (n : Nat) (pos : Nat → Pt) (l : List String) (hl : l.length = n) (font : ℝ) (vs vl : List ℝ)
    (hvs : vs.length = n) (hvl : vl.length = n) :
    (drawVertex n pos (some l) font vs vl).2 =
      ((List.range n).filter fun i => l.getD i "" ≠ "").map fun i =>
        ⟨((pos i).1, (pos i).2 - 13 / 10 * vs.getD i 0), l.getD i "", font⟩ := by
  have hrows : ((((List.range n).map pos).zip l).zip (vs.zip vl)) =
      (List.range n).map fun i => ((pos i, l.getD i ""), (vs.getD i 0, vl.getD i 0)) := by
    apply List.ext_getElem
    · simp [hl, hvs, hvl]
    · intro k h1 h2
      have hk : k < n := by simpa using h2
      simp [hl, hvs, hvl, hk]
  unfold drawVertex
  simp only [Option.getD_some]
  rw [hrows, List.filter_map, List.map_map]
  congr 1
  funext i
  simp only [Function.comp_apply, add_zero]
  congr 2
  ring

/-! ### cases meeting the hypotheses -/

namespace Vi

/-- with all strengths zero the simulation stops where it starts -/
theorem simulate_still {n m : Nat} {H : Nat → Nat → Bool} (hH : ∀ e < m, ∃ i < n, H i e = true) (j : Nat → Jitter)
    {nums : Nat} {cs : List Pt} (pos : Nat → Pt) (hpos : ¬ ∃ i < n, ∃ j < n, i ≠ j ∧ pos i = pos j) :
    simulate { nums := nums, attraction := some 0, repulsion := some [0, 0], edgeRepulsion := none
               gravity := some [0, 0], centers := cs } n m H j pos = .ok pos := by
  have hr : ∃ f, repulsion n pos = .ok f := ⟨_, by unfold repulsion; rw [if_neg hpos]⟩
  obtain ⟨f, hf⟩ := hr
  have hforce : ∀ s : Sim, s.attraction = some 0 → s.repulsion = some [0, 0] → s.edgeRepulsion = none →
      s.gravity = some [0, 0] → force s n m H (j 0) pos = .ok fun _ => 0 := by
    intro s h1 h2 h3 h4
    unfold force
    rw [h1, h2, h3, h4, need_pos hH, hf]
    simp only [bind, Except.bind, pure, Except.pure]
    congr 1
    funext i
    have hg : gravityAt s [0, 0] (j 0).gravity pos i = 0 := by
      unfold gravityAt
      refine Finset.sum_eq_zero fun c hc => ?_
      have : ([0, 0] : List ℝ).getD c 0 = 0 := by
        match c with
        | 0 => rfl
        | 1 => rfl
        | c + 2 => rfl
      rw [this, zero_mul, zero_smul]
    have hk : repFactor s [0, 0] i = 0 := by
      unfold repFactor
      split
      · rfl
      · split <;> rfl
    rw [hg, hk]
    simp
  unfold simulate
  rw [simLoop]
  unfold step
  rw [hforce _ rfl rfl rfl rfl]
  simp only [bind, Except.bind, pure, Except.pure]
  have hc : clip 0 = 0 := by
    unfold clip
    norm_num
  simp [hc]

theorem simulate_still_one {n m : Nat} {H : Nat → Nat → Bool} (hH : ∀ e < m, ∃ i < n, H i e = true) (j : Nat → Jitter)
    {nums : Nat} {c : Pt} (pos : Nat → Pt) (hpos : ¬ ∃ i < n, ∃ j < n, i ≠ j ∧ pos i = pos j) :
    simulate { nums := nums, attraction := some 0, repulsion := some [0], edgeRepulsion := none
               gravity := some [0], centers := [c] } n m H j pos = .ok pos := by
  have hr : ∃ f, repulsion n pos = .ok f := ⟨_, by unfold repulsion; rw [if_neg hpos]⟩
  obtain ⟨f, hf⟩ := hr
  have hforce : ∀ s : Sim, s.attraction = some 0 → s.repulsion = some [0] → s.edgeRepulsion = none →
      s.gravity = some [0] → s.centers = [c] → force s n m H (j 0) pos = .ok fun _ => 0 := by
    intro s h1 h2 h3 h4 h5
    unfold force
    rw [h1, h2, h3, h4, need_pos hH, hf]
    simp only [bind, Except.bind, pure, Except.pure]
    congr 1
    funext i
    have hg : gravityAt s [0] (j 0).gravity pos i = 0 := by
      unfold gravityAt
      refine Finset.sum_eq_zero fun c hc => ?_
      have : ([0] : List ℝ).getD c 0 = 0 := by
        match c with
        | 0 => rfl
        | c + 1 => rfl
      rw [this, zero_mul, zero_smul]
    have hk : repFactor s [0] i = 0 := by
      unfold repFactor
      rw [h5]
      rfl
    rw [hg, hk]
    simp
  unfold simulate
  rw [simLoop]
  unfold step
  rw [hforce _ rfl rfl rfl rfl rfl]
  simp only [bind, Except.bind, pure, Except.pure]
  have hc : clip 0 = 0 := by
    unfold clip
    norm_num
  simp [hc]

/-- two starting points -/
noncomputable def exRand : Rand := ⟨fun i => if i = 0 then (0, 0) else (1 / 2, 1 / 2), fun _ => ⟨fun _ _ => 0, fun _ _ => 0⟩⟩

theorem exRand_pos : initPos exRand.init (0, 0) 5 = fun i => if i = 0 then (-5, -5) else (0, 0) := by
  funext i
  unfold initPos exRand
  dsimp only
  split <;> norm_num

theorem exRand_layout : forceLayout exRand 2 [[0, 1]] 0 none 0 0 =
    .ok fun i => (rescale 2 (fun i => if i = 0 then -5 else 0) i, rescale 2 (fun i => if i = 0 then -5 else 0) i) := by
  have hi : incidence 2 [[0, 1]] = .ok (incAt 2 [[0, 1]]) := if_pos (by decide)
  have hs := simulate_still_one (nums := 2) (c := (0, 0)) (n := 2) (m := 1) (H := incAt 2 [[0, 1]])
    (by
      intro e he
      exact ⟨0, by omega, by rw [show e = 0 by omega]; decide⟩) exRand.jit (initPos exRand.init (0, 0) 5)
    (by
      rintro ⟨i, hi, j, hj, hij, h⟩
      rw [exRand_pos] at h
      match i, j with
      | 0, 0 => exact hij rfl
      | 1, 1 => exact hij rfl
      | 0, 1 => simp at h
      | 1, 0 => simp at h)
  unfold forceLayout
  have h1 : need (¬ (2 = 0)) Err.value = .ok () := rfl
  rw [h1, hi]
  show (simulate _ 2 1 _ _ _ >>= _) = _
  rw [hs, exRand_pos]
  show Except.ok _ = Except.ok _
  congr 1
  funext i
  congr 1 <;> (congr 1; funext k; by_cases hk : k = 0 <;> simp [hk])

theorem exRand_rescale (i : Nat) : rescale 2 (fun i => if i = 0 then -5 else 0) i = some (if i = 0 then 1 / 10 else 9 / 10) := by
  unfold rescale
  have h1 : maxTo (fun i => if i = 0 then (-5 : ℝ) else 0) (2 - 1) = 0 := by simp [maxTo]
  have h2 : minTo (fun i => if i = 0 then (-5 : ℝ) else 0) (2 - 1) = -5 := by simp [minTo]
  rw [h1, h2, if_neg (by norm_num)]
  by_cases hi : i = 0
  · simp [hi]
  · simp [hi]
    norm_num

/-- a drawing of a graph with two vertices and an edge -/
theorem exRand_draw : ∃ P, drawLines exRand true { pushV := some 0, pullE := some 0, pullC := some 0, label := some ["a", "b"] }
    2 1 [(0, 1)] = .ok P := by
  unfold drawLines
  have hz : ∃ z, defaultSize 2 1 (.float 1) (.float 1) (.float 1) (some 1) = .ok z ∧ z.v.length = 2 ∧ z.eLine.length = 1 :=
    ⟨_, rfl, rfl, rfl⟩
  obtain ⟨z, hz, hz1, hz2⟩ := hz
  have hq : forceLayout exRand 2 ([(0, 1)].map fun e : Nat × Nat => [(e.1 : Int), (e.2 : Int)]) (fillStrength (some 0) (6 / 1000))
      none (fillStrength (some 0) (45 / 1000)) (fillStrength (some 0) (1 / 100)) =
      .ok fun i => (rescale 2 (fun i => if i = 0 then -5 else 0) i, rescale 2 (fun i => if i = 0 then -5 else 0) i) := by
    simp only [fillStrength, zero_mul]
    exact exRand_layout
  dsimp only
  have hn : need (1 > 0) Err.assertion = .ok () := rfl
  have hc1 : fillColor (some (.name "r")) (.name "r") 2 = .ok [.name "r", .name "r"] := rfl
  have hc2 : fillColor (some (.name "gray")) (.name "gray") 1 = .ok [.name "gray"] := rfl
  have hz' : defaultSize 2 ([(0, 1)] : List (Nat × Nat)).length (.float 1) (.float 1) (.float 1) (some 1) = .ok z := hz
  rw [hn, hc1, hc2, hz', hq]
  have hsol : ∀ q : Nat → NPt, (∀ i, q i = (some (if i = 0 then 1 / 10 else 9 / 10), some (if i = 0 then 1 / 10 else 9 / 10))) →
      solid 2 q = .ok fun i => (if i = 0 then 1 / 10 else 9 / 10, if i = 0 then 1 / 10 else 9 / 10) := by
    intro q hq
    unfold solid
    rw [if_pos (fun i _ => by rw [hq]; exact ⟨rfl, rfl⟩)]
    congr 1
    funext i
    rw [hq]
    rfl
  show ∃ P, (solid 2 _ >>= _) = Except.ok P
  rw [hsol _ fun i => by rw [exRand_rescale]]
  show ∃ P, (drawLineEdge _ _ _ _ _ _ >>= _) = Except.ok P
  have hl : ∃ a, drawLineEdge (fun i : Nat => ((if i = 0 then 1 / 10 else 9 / 10, if i = 0 then 1 / 10 else 9 / 10) : Pt)) z.v [(0, 1)] true
      [Col.name "gray"] z.eLine = .ok a := by
    have : ∃ a, lineEdge (fun i : Nat => ((if i = 0 then 1 / 10 else 9 / 10, if i = 0 then 1 / 10 else 9 / 10) : Pt)) z.v true
        [Col.name "gray"] z.eLine 0 0 1 = .ok a := by
      unfold lineEdge
      rw [List.getElem?_eq_getElem (show 0 < z.v.length by omega), List.getElem?_eq_getElem (show 1 < z.v.length by omega),
        List.getElem?_eq_getElem (show 0 < z.eLine.length by omega)]
      simp only [Option.elim, bind, Except.bind, List.getElem?_cons_zero]
      rw [if_neg]
      · exact ⟨_, rfl⟩
      · intro h
        have := congrArg Prod.fst (norm2_eq_zero.mp h)
        norm_num at this
    obtain ⟨a, ha⟩ := this
    refine ⟨[a], ?_⟩
    unfold drawLineEdge
    simp only [List.zipIdx_cons, List.zipIdx_nil, collectE, ha]
    rfl
  obtain ⟨a, ha⟩ := hl
  rw [ha]
  exact ⟨_, rfl⟩

end Vi

example : ∃ q, forceLayout Vi.exRand 2 [[0, 1]] 0 none 0 0 = .ok q ∧ q 0 = (some (1 / 10), some (1 / 10)) ∧
    q 1 = (some (9 / 10), some (9 / 10)) := by
  refine ⟨_, Vi.exRand_layout, ?_, ?_⟩ <;> simp only [Vi.exRand_rescale] <;> simp

example : ∃ P, Spec.Shows 2 [(0, 1)] true P := by
  obtain ⟨P, hP⟩ := Vi.exRand_draw
  exact ⟨P, C98_draw_graph _ _ _ _ _ _ (by intro l hl; rw [← Option.some.inj hl]; rfl) P hP⟩

example : ∃ os, hullLayout (fun _ => .error .value) [1, 0] [[0, 1], [0]] (fun v => (v, 0)) (fun _ => 1 / 10) = .ok os := by
  have h : ∀ rad : Nat → ℝ, |rad 0 - rad 1| ≤ 1 →
      ∃ o, hullOutline (fun v : Nat => ((v : ℝ), (0 : ℝ))) rad [0, 1] = .ok o := by
    intro rad hrad
    obtain ⟨a, ha⟩ := (C98_exists_partial (fun v : Nat => ((v : ℝ), (0 : ℝ))) rad 0 1).mpr
      ⟨by simp, by simpa [norm2] using hrad⟩
    obtain ⟨b, hb⟩ := (C98_exists_partial (fun v : Nat => ((v : ℝ), (0 : ℝ))) rad 1 0).mpr
      ⟨by simp, by rw [abs_sub_comm]; simpa [norm2] using hrad⟩
    unfold hullOutline
    have : collectE ([0, 1].zip ([0, 1].rotate 1)) (fun p => hullLine (fun v : Nat => ((v : ℝ), (0 : ℝ))) rad p.1 p.2) =
        .ok [a, b] := by
      show collectE [(0, 1), (1, 0)] _ = _
      simp only [collectE, ha, hb]
      rfl
    rw [this]
    exact ⟨_, rfl⟩
  unfold hullLayout hullLoop hullLoop hullLoop
  have he : ∀ (pos : Nat → Pt) (rad : Nat → ℝ), edgeOutline (fun _ => .error .value) pos rad ([[0, 1], [0]].getD 1 []) =
      .ok { lines := [], arcs := [⟨pos 0, 0, 360, rad 0⟩] } := fun _ _ => rfl
  rw [he]
  obtain ⟨o, ho⟩ := h (fun v => if v ∈ ([[0, 1], [0]] : List (List Nat)).getD 1 [] then
      1 / 10 + 1 / 10 * (3 / 10) + 1 / 10 * (3 / 10) else 1 / 10 + 1 / 10 * (3 / 10)) (by
    simp
    rw [abs_of_nonneg (by norm_num)]
    norm_num)
  have ho' : edgeOutline (fun _ => .error .value) (fun v : Nat => ((v : ℝ), (0 : ℝ)))
      (fun v => if v ∈ ([[0, 1], [0]] : List (List Nat)).getD 1 [] then
      1 / 10 + 1 / 10 * (3 / 10) + 1 / 10 * (3 / 10) else 1 / 10 + 1 / 10 * (3 / 10))
      ([[0, 1], [0]].getD 0 []) = .ok o := ho
  simp only [bind, Except.bind] at ho' ⊢
  rw [ho']
  exact ⟨_, rfl⟩

example : ∃ r, hullLine (fun v => (v, 0)) (fun v => if v = 0 then 1 / 2 else 1 / 4) 0 1 = .ok r :=
  (C98_exists_partial _ _ 0 1).mpr ⟨by simp, by simp [norm2]; rw [abs_le]; norm_num⟩

example : ∃ H, incidence 3 [[0, 2], [1]] = .ok H ∧ ∀ vs ∈ [[(0 : Int), 2], [1]], ∀ v ∈ vs, 0 ≤ v :=
  ⟨_, if_pos (by decide), by decide⟩

end Props
end DHG
