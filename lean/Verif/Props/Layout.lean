import Verif.Props.Vis

/-!
# The forces behind the layout of graphs and hypergraphs (C101)
-/

set_option linter.unusedSectionVars false
set_option autoImplicit false

namespace DHG

namespace Spec
open Vis Finset

/-- length of a vector of the plane -/
noncomputable def dist0 (p : Pt) : ℝ := Real.sqrt (p.1 ^ 2 + p.2 ^ 2)

/-- the vertices of edge `e` -/
def members (eList : List (List Int)) (e : Nat) : Finset Nat := ((eList.getD e []).map Int.toNat).toFinset

/-- the mean of the positions of the vertices of edge `e` -/
noncomputable def centre (eList : List (List Int)) (pos : Nat → Pt) (e : Nat) : Pt :=
  ((members eList e).card : ℝ)⁻¹ • ∑ v ∈ members eList e, pos v

/-- a spring of length 0.1 from `p` to `c`: pulls towards `c` when longer, pushes away when shorter -/
noncomputable def spring (p c : Pt) : Pt := if c = p then 0 else ((dist0 (c - p) - 1 / 10) / dist0 (c - p)) • (c - p)

/-- pushes `p` away from `q`, with the inverse square of the distance -/
noncomputable def push (p q : Pt) : Pt := (1 / dist0 (p - q) ^ 2) • ((1 / dist0 (p - q)) • (p - q))

/-- the force on vertex `i`: springs to the centres of its edges, the push of all other vertices, the pushes
between the centres of its edges and of the other edges, and a pull to the centre `home i` of its part -/
noncomputable def layoutForce (n : Nat) (eList : List (List Int)) (pushV : Nat → ℝ) (pushE : Option ℝ)
    (pullE : ℝ) (pullC : Nat → ℝ) (home : Nat → Pt) (pos : Nat → Pt) (i : Nat) : Pt :=
  pullE • (∑ e ∈ (range eList.length).filter (fun e => i ∈ members eList e), spring (pos i) (centre eList pos e))
  + pushV i • (∑ j ∈ (range n).filter (fun j => j ≠ i), push (pos i) (pos j))
  + pushE.getD 0 • (∑ e ∈ (range eList.length).filter (fun e => i ∈ members eList e),
      ∑ f ∈ (range eList.length).filter (fun f => f ≠ e), push (centre eList pos e) (centre eList pos f))
  + pullC i • (home i - pos i)

/-- both coordinates cut to `[-0.1, 0.1]` -/
noncomputable def cut (p : Pt) : Pt := (max (-1 / 10) (min (1 / 10) p.1), max (-1 / 10) (min (1 / 10) p.2))

/-- `x 0, …, x (n-1)` moved and stretched so that they run from 0.1 to 0.9; NaN if they are all equal -/
def Stretched (n : Nat) (x : Nat → ℝ) (y : Nat → Option ℝ) : Prop :=
  ∃ lo hi, IsLeast {a | ∃ i < n, x i = a} lo ∧ IsGreatest {a | ∃ i < n, x i = a} hi ∧
    (lo = hi → ∀ i < n, y i = none) ∧
    (lo < hi → ∀ i < n, y i = some ((x i - lo) / (hi - lo) * (8 / 10) + 1 / 10))

/-- how far vertex `i` may go in step `k`, half of it: the force reduced by the factor `0.999 ^ k` and cut -/
noncomputable def velocity (F : (Nat → Pt) → Nat → Pt) (k : Nat) (pos : Nat → Pt) (i : Nat) : Pt :=
  cut ((999 / 1000 : ℝ) ^ k • F pos i)

/-- the length of all these together -/
noncomputable def speed (n : Nat) (F : (Nat → Pt) → Nat → Pt) (k : Nat) (pos : Nat → Pt) : ℝ :=
  Real.sqrt (∑ i ∈ range n, dist0 (velocity F k pos i) ^ 2)

/-- `P k i` is the position of vertex `i` after `k` steps -/
def Moves (n : Nat) (F : (Nat → Pt) → Nat → Pt) (P : Nat → Nat → Pt) (T : Nat) : Prop :=
  ∀ k < T, ∀ i < n, P (k + 1) i = P k i + (2 : ℝ) • velocity F k (P k) i

/-- the simulation: it stops after the first step in which the moves are small together, or after 400 steps -/
structure Path (n : Nat) (F : (Nat → Pt) → Nat → Pt) (P : Nat → Nat → Pt) (T : Nat) : Prop where
  le : T ≤ 400
  move : Moves n F P T
  stop : T < 400 → 0 < T ∧ speed n F (T - 1) (P (T - 1)) < 1 / 1000
  go : ∀ k, k + 1 < T → 1 / 1000 ≤ speed n F k (P k)

/-- no two vertices and, if centres push each other, no two centres of edges are at the same place -/
def Apart (n : Nat) (eList : List (List Int)) (pushE : Option ℝ) (pos : Nat → Pt) : Prop :=
  (∀ i < n, ∀ j < n, i ≠ j → pos i ≠ pos j) ∧
  (pushE ≠ none → ∀ e < eList.length, ∀ f < eList.length, e ≠ f → centre eList pos e ≠ centre eList pos f)

end Spec

namespace Props
open Vis Finset

namespace Lay

theorem dist0_eq (p : Pt) : Spec.dist0 p = norm2 p := by
  unfold Spec.dist0 norm2
  rw [pow_two, pow_two]

theorem dist0_sq (p : Pt) : Spec.dist0 p ^ 2 = p.1 * p.1 + p.2 * p.2 := by
  rw [dist0_eq, pow_two, Vi.norm2_sq]

theorem cut_eq (p : Pt) : Spec.cut p = (clip p.1, clip p.2) := by
  have h : ∀ x : ℝ, max (-1 / 10) (min (1 / 10) x) = clip x := by
    intro x
    unfold clip
    rw [show (-1 / 10 : ℝ) = -(1 / 10) by norm_num, max_comm, min_comm, max_min_distrib_right,
      max_eq_left (by norm_num : (-(1 / 10) : ℝ) ≤ 1 / 10)]
  unfold Spec.cut
  rw [h, h]

theorem stretched {n : Nat} (hn : 0 < n) (x : Nat → ℝ) : Spec.Stretched n x (rescale n x) := by
  obtain ⟨a, ha, ha'⟩ := Vi.minTo_mem x (n - 1)
  obtain ⟨b, hb, hb'⟩ := Vi.maxTo_mem x (n - 1)
  refine ⟨minTo x (n - 1), maxTo x (n - 1), ⟨⟨a, by omega, ha'.symm⟩, ?_⟩, ⟨⟨b, by omega, hb'.symm⟩, ?_⟩, ?_, ?_⟩
  · rintro _ ⟨i, hi, rfl⟩; exact Vi.minTo_le x _ i (by omega)
  · rintro _ ⟨i, hi, rfl⟩; exact Vi.le_maxTo x _ i (by omega)
  · intro h i _
    unfold rescale
    rw [if_pos (by rw [h, sub_self])]
  · intro h i _
    unfold rescale
    rw [if_neg (by linarith)]

/-- membership in the incidence matrix -/
theorem inc_members {numV : Nat} {eList : List (List Int)} {H : Nat → Nat → Bool}
    (hH : incidence numV eList = .ok H) (hpos : ∀ vs ∈ eList, ∀ v ∈ vs, 0 ≤ v) {e i : Nat} (he : e < eList.length)
    (hi : i < numV) : H i e = true ↔ i ∈ Spec.members eList e := by
  unfold incidence at hH
  split at hH
  case isFalse => cases hH
  case isTrue hb =>
  cases hH
  unfold Spec.members incAt
  rw [List.getElem?_eq_getElem he, List.getD_eq_getElem _ _ he, List.mem_toFinset, List.mem_map]
  simp only [List.any_eq_true, decide_eq_true_eq]
  have hmem : eList[e] ∈ eList := List.getElem_mem he
  constructor
  · rintro ⟨v, hv, hvi | hvi⟩
    · exact ⟨v, hv, by omega⟩
    · have := hpos _ hmem v hv
      omega
  · rintro ⟨v, hv, hvi⟩
    have := hpos _ hmem v hv
    exact ⟨v, hv, .inl (by omega)⟩

theorem eCenter_eq {numV : Nat} {eList : List (List Int)} {H : Nat → Nat → Bool}
    (hH : incidence numV eList = .ok H) (hpos : ∀ vs ∈ eList, ∀ v ∈ vs, 0 ≤ v) (pos : Nat → Pt) {e : Nat}
    (he : e < eList.length) : eCenter numV H pos e = Spec.centre eList pos e := by
  rw [C99_edge_centre numV eList H hH hpos pos e he]
  unfold Spec.centre Spec.members
  rw [List.getD_eq_getElem _ _ he]
  ext
  · rw [Prod.smul_fst, Prod.fst_sum, smul_eq_mul, div_eq_inv_mul]
  · rw [Prod.smul_snd, Prod.snd_sum, smul_eq_mul]
    exact div_eq_inv_mul _ _

theorem spring_eq (p c jit : Pt) :
    (if 0 < norm2 (p - c) then norm2 (p - c) - 1 / 10 else norm2 (p - c)) • safeDiv (c - p) (norm2 (c - p)) jit =
      Spec.spring p c := by
  unfold Spec.spring
  rw [Vi.norm2_comm p c]
  by_cases h : c = p
  · subst h
    have : norm2 (c - c) = 0 := Vi.norm2_eq_zero.mpr (sub_self c)
    rw [if_pos rfl, this, if_neg (lt_irrefl _), zero_smul]
  · have h0 : norm2 (c - p) ≠ 0 := fun h0 => h (sub_eq_zero.mp (Vi.norm2_eq_zero.mp h0))
    have hp : 0 < norm2 (c - p) := lt_of_le_of_ne (Vi.norm2_nonneg _) (Ne.symm h0)
    rw [if_neg h, if_pos hp, dist0_eq]
    unfold safeDiv
    rw [if_neg h0]
    ext
    · show (norm2 (c - p) - 1 / 10) * ((c - p).1 / norm2 (c - p)) = (norm2 (c - p) - 1 / 10) / norm2 (c - p) * (c - p).1
      ring
    · show (norm2 (c - p) - 1 / 10) * ((c - p).2 / norm2 (c - p)) = (norm2 (c - p) - 1 / 10) / norm2 (c - p) * (c - p).2
      ring

theorem gravity_eq (pos : Nat → Pt) (c : Pt) (jit : Nat → Pt) (i : Nat) : centerGravity pos c jit i = c - pos i := by
  unfold centerGravity safeDiv
  rw [Vi.norm2_comm (pos i) c]
  by_cases h0 : norm2 (c - pos i) = 0
  · rw [h0, zero_smul, Vi.norm2_eq_zero.mp h0]
  · rw [if_neg h0]
    ext
    · show norm2 (c - pos i) * ((c - pos i).1 / norm2 (c - pos i)) = (c - pos i).1
      field_simp
    · show norm2 (c - pos i) * ((c - pos i).2 / norm2 (c - pos i)) = (c - pos i).2
      field_simp

theorem repulsion_eq {n : Nat} {pos : Nat → Pt} {f : Nat → Pt} (h : repulsion n pos = .ok f) (i : Nat) :
    f i = ∑ j ∈ (range n).filter (fun j => j ≠ i), Spec.push (pos i) (pos j) := by
  unfold repulsion at h
  split at h
  · cases h
  · cases h
    have : (range n).erase i = (range n).filter (fun j => j ≠ i) := by
      ext j; simp only [mem_erase, mem_filter]; tauto
    simp only [this]
    refine sum_congr rfl fun j _ => ?_
    unfold Spec.push
    rw [dist0_eq]

theorem push_congr {n : Nat} {p q : Nat → Pt} (h : ∀ i < n, p i = q i) {i : Nat} (hi : i < n) :
    ∑ j ∈ (range n).filter (fun j => j ≠ i), Spec.push (p i) (p j) =
      ∑ j ∈ (range n).filter (fun j => j ≠ i), Spec.push (q i) (q j) := by
  refine sum_congr rfl fun j hj => ?_
  rw [mem_filter, mem_range] at hj
  rw [h i hi, h j hj.1]

/-- the force of the simulation -/
theorem force_eq {n : Nat} {eList : List (List Int)} {H : Nat → Nat → Bool}
    (hH : incidence n eList = .ok H) (hpos : ∀ vs ∈ eList, ∀ v ∈ vs, 0 ≤ v) {s : Sim} {pullE : ℝ} {ks gs : List ℝ}
    (ha : s.attraction = some pullE) (hk : s.repulsion = some ks) (hg : s.gravity = some gs)
    {pullC : Nat → ℝ} {home : Nat → Pt} {jit : Jitter} {pos f : Nat → Pt} {i : Nat}
    (hG : gravityAt s gs jit.gravity pos i = pullC i • (home i - pos i))
    (h : force s n eList.length H jit pos = .ok f) (hi : i < n) :
    f i = Spec.layoutForce n eList (repFactor s ks) s.edgeRepulsion pullE pullC home pos i := by
  unfold force at h
  obtain ⟨_, _, h⟩ := Vi.bind_ok h
  rw [ha, hk, hg] at h
  dsimp only at h
  obtain ⟨fr', hr', h⟩ := Vi.bind_ok h
  obtain ⟨fr, hr, h⟩ := Vi.bind_ok h
  have hr := Except.ok.inj hr
  have hr' := repulsion_eq hr' i
  subst hr
  have hc : ∀ e < eList.length, eCenter n H pos e = Spec.centre eList pos e :=
    fun e he => eCenter_eq hH hpos pos he
  have hA : nodeAttraction n eList.length H pos jit.attraction i =
      ∑ e ∈ (range eList.length).filter (fun e => i ∈ Spec.members eList e),
        Spec.spring (pos i) (Spec.centre eList pos e) := by
    unfold nodeAttraction
    rw [sum_filter]
    refine sum_congr rfl fun e he => ?_
    have he := mem_range.1 he
    dsimp only
    by_cases hm : i ∈ Spec.members eList e
    · rw [if_pos hm, if_pos ((inc_members hH hpos he hi).2 hm), spring_eq, hc e he]
    · rw [if_neg hm, if_neg fun hh => hm ((inc_members hH hpos he hi).1 hh), if_neg (lt_irrefl _), zero_smul]
  unfold Spec.layoutForce
  rw [← hA, ← hr', ← hG]
  rcases hp : s.edgeRepulsion with _ | k
  · rw [hp] at h
    have h := congrFun (Except.ok.inj h) i
    rw [← h, Option.getD_none, zero_smul]
  · rw [hp] at h
    dsimp only at h
    obtain ⟨fe, he, h⟩ := Vi.bind_ok h
    have h := congrFun (Except.ok.inj h) i
    rw [← h, Option.getD_some]
    have hE : (∑ e ∈ range eList.length, if H i e = true then fe e else 0) =
        ∑ e ∈ (range eList.length).filter (fun e => i ∈ Spec.members eList e),
          ∑ f ∈ (range eList.length).filter (fun f => f ≠ e),
            Spec.push (Spec.centre eList pos e) (Spec.centre eList pos f) := by
      rw [sum_filter]
      refine sum_congr rfl fun e he' => ?_
      have he' := mem_range.1 he'
      by_cases hm : i ∈ Spec.members eList e
      · rw [if_pos hm, if_pos ((inc_members hH hpos he' hi).2 hm), repulsion_eq he, push_congr hc he']
      · rw [if_neg hm, if_neg fun hh => hm ((inc_members hH hpos he' hi).1 hh)]
    rw [← hE]

/-- one step -/
theorem step_eq {s : Sim} {n m : Nat} {H : Nat → Nat → Bool} {jit : Jitter} {d : ℝ} {pos q v : Nat → Pt}
    (h : step s n m H jit d pos = .ok (q, v)) :
    ∃ f, force s n m H jit pos = .ok f ∧ (∀ i, v i = Spec.cut (d • f i)) ∧
      ∀ i, q i = pos i + (2 : ℝ) • Spec.cut (d • f i) := by
  unfold step at h
  obtain ⟨f, hf, h1⟩ := Vi.bind_ok h
  have h1 := (Prod.mk.injEq _ _ _ _).mp (Except.ok.inj h1)
  have hv : ∀ i, v i = Spec.cut (d • f i) := by
    intro i
    rw [← h1.2, cut_eq]
    dsimp only
    rw [Prod.smul_fst, Prod.smul_snd, smul_eq_mul, smul_eq_mul, mul_comm d, mul_comm d]
  refine ⟨f, hf, hv, ?_⟩
  intro i
  rw [← hv, ← h1.1, ← h1.2]
  ext
  · rw [Prod.fst_add, Prod.smul_fst, smul_eq_mul]; ring
  · rw [Prod.snd_add, Prod.smul_snd, smul_eq_mul]; ring

/-- the forces behind one step are `F` at the places of the `n` points -/
def Follows (s : Sim) (n m : Nat) (H : Nat → Nat → Bool) (jit : Nat → Jitter) (F : (Nat → Pt) → Nat → Pt) : Prop :=
  ∀ it pos f, force s n m H (jit it) pos = .ok f → ∀ i < n, f i = F pos i

theorem cut_speed {n : Nat} {F : (Nat → Pt) → Nat → Pt} {k : Nat} {pos v f : Nat → Pt} (hF : ∀ i < n, f i = F pos i)
    (hv : ∀ i, v i = Spec.cut ((999 / 1000 : ℝ) ^ k • f i)) :
    Real.sqrt (∑ i ∈ range n, ((v i).1 * (v i).1 + (v i).2 * (v i).2)) = Spec.speed n F k pos := by
  unfold Spec.speed Spec.velocity
  congr 1
  refine sum_congr rfl fun i hi => ?_
  rw [dist0_sq, ← hF i (mem_range.1 hi), ← hv]

/-- the steps of the loop, `it` of them being done -/
theorem simLoop_path {s : Sim} {n m : Nat} {H : Nat → Nat → Bool} {jit : Nat → Jitter} {F : (Nat → Pt) → Nat → Pt}
    (hF : Follows s n m H jit F) (k it : Nat) {pos pos' : Nat → Pt}
    (h : simLoop s n m H jit k it ((999 / 1000) ^ it) pos = .ok pos') :
    ∃ (T : Nat) (P : Nat → Nat → Pt), T ≤ k ∧ P it = pos ∧ P (it + T) = pos' ∧
      (∀ j < T, ∃ f, force s n m H (jit (it + j)) (P (it + j)) = .ok f) ∧
      (∀ j < T, ∀ i < n, P (it + j + 1) i = P (it + j) i + (2 : ℝ) • Spec.velocity F (it + j) (P (it + j)) i) ∧
      (T < k → 0 < T ∧ Spec.speed n F (it + T - 1) (P (it + T - 1)) < 1 / 1000) ∧
      ∀ j, j + 1 < T → 1 / 1000 ≤ Spec.speed n F (it + j) (P (it + j)) := by
  induction k generalizing it pos with
  | zero =>
    rw [simLoop] at h
    cases h
    exact ⟨0, fun _ => pos', le_rfl, rfl, rfl, fun j hj => by omega, fun j hj => by omega, fun h => by omega,
      fun j hj => by omega⟩
  | succ k ih =>
    rw [simLoop] at h
    obtain ⟨⟨q, v⟩, h1, h2⟩ := Vi.bind_ok h
    obtain ⟨f, hf, hv, hq⟩ := step_eq h1
    have hFf := hF _ _ _ hf
    dsimp only at h2
    rw [cut_speed hFf hv] at h2
    split at h2
    · rename_i hsm
      cases h2
      refine ⟨1, fun j => if j = it then pos else pos', by omega, if_pos rfl, if_neg (by omega), ?_, ?_,
        fun _ => ⟨by omega, ?_⟩, fun j hj => by omega⟩
      · intro j hj
        have : j = 0 := by omega
        subst this
        exact ⟨f, by rw [add_zero]; dsimp only; rw [if_pos rfl]; exact hf⟩
      · intro j hj i hi
        have : j = 0 := by omega
        subst this
        rw [add_zero]
        dsimp only
        rw [if_neg (by omega), if_pos rfl, Spec.velocity, ← hFf i hi]
        exact hq i
      · rw [Nat.add_sub_cancel]
        dsimp only
        rw [if_pos rfl]
        exact hsm
    · rename_i hsm
      rw [← pow_succ] at h2
      obtain ⟨T, P, t1, t2, t3, t4, t5, t6, t7⟩ := ih (it + 1) h2
      have hP : ∀ j, (fun j => if j = it then pos else P j) (it + 1 + j) = P (it + 1 + j) := fun j => if_neg (by omega)
      have hP0 : (fun j => if j = it then pos else P j) it = pos := if_pos rfl
      refine ⟨T + 1, fun j => if j = it then pos else P j, by omega, hP0, ?_, ?_, ?_, ?_, ?_⟩
      · rw [show it + (T + 1) = it + 1 + T by omega, hP]; exact t3
      · rintro (_ | j) hj
        · exact ⟨f, by rw [add_zero, hP0]; exact hf⟩
        · rw [show it + (j + 1) = it + 1 + j by omega, hP]; exact t4 j (by omega)
      · rintro (_ | j) hj i hi
        · rw [add_zero, hP0, show it + 1 = it + 1 + 0 by omega, hP, add_zero, t2, Spec.velocity, ← hFf i hi]
          exact hq i
        · rw [show it + (j + 1) + 1 = it + 1 + (j + 1) by omega, hP, show it + (j + 1) = it + 1 + j by omega, hP]
          exact t5 j (by omega) i hi
      · intro hT
        obtain ⟨a, b⟩ := t6 (by omega)
        refine ⟨by omega, ?_⟩
        rw [show it + (T + 1) - 1 = it + 1 + (T - 1) by omega, hP]
        rw [show it + 1 + T - 1 = it + 1 + (T - 1) by omega] at b
        exact b
      · rintro (_ | j) hj
        · rw [add_zero, hP0]; exact not_lt.mp hsm
        · rw [show it + (j + 1) = it + 1 + j by omega, hP]; exact t7 j (by omega)

/-- where the loop fails -/
theorem simLoop_err {s : Sim} {n m : Nat} {H : Nat → Nat → Bool} {jit : Nat → Jitter} {F : (Nat → Pt) → Nat → Pt}
    (hF : Follows s n m H jit F) (k it : Nat) {pos : Nat → Pt} {er : Err}
    (h : simLoop s n m H jit k it ((999 / 1000) ^ it) pos = .error er) :
    ∃ (T : Nat) (P : Nat → Nat → Pt), T < k ∧ P it = pos ∧
      force s n m H (jit (it + T)) (P (it + T)) = .error er ∧
      (∀ j < T, ∀ i < n, P (it + j + 1) i = P (it + j) i + (2 : ℝ) • Spec.velocity F (it + j) (P (it + j)) i) ∧
      ∀ j < T, 1 / 1000 ≤ Spec.speed n F (it + j) (P (it + j)) := by
  induction k generalizing it pos with
  | zero => rw [simLoop] at h; cases h
  | succ k ih =>
    rw [simLoop] at h
    rcases hs : step s n m H (jit it) ((999 / 1000) ^ it) pos with e | ⟨q, v⟩
    · rw [hs] at h
      cases h
      refine ⟨0, fun _ => pos, by omega, rfl, ?_, fun j hj => by omega, fun j hj => by omega⟩
      unfold step at hs
      rcases hf : force s n m H (jit it) pos with e | f
      · rw [hf] at hs
        cases hs
        rfl
      · rw [hf] at hs; cases hs
    · rw [hs] at h
      obtain ⟨f, hf, hv, hq⟩ := step_eq hs
      have hFf := hF _ _ _ hf
      simp only [bind, Except.bind] at h
      rw [cut_speed hFf hv] at h
      split at h
      · cases h
      · rename_i hsm
        rw [← pow_succ] at h
        obtain ⟨T, P, t1, t2, t3, t4, t5⟩ := ih (it + 1) h
        have hP : ∀ j, (fun j => if j = it then pos else P j) (it + 1 + j) = P (it + 1 + j) := fun j => if_neg (by omega)
        have hP0 : (fun j => if j = it then pos else P j) it = pos := if_pos rfl
        refine ⟨T + 1, fun j => if j = it then pos else P j, by omega, hP0, ?_, ?_, ?_⟩
        · rw [show it + (T + 1) = it + 1 + T by omega, hP]; exact t3
        · rintro (_ | j) hj i hi
          · rw [add_zero, hP0, show it + 1 = it + 1 + 0 by omega, hP, add_zero, t2, Spec.velocity, ← hFf i hi]
            exact hq i
          · rw [show it + (j + 1) + 1 = it + 1 + (j + 1) by omega, hP, show it + (j + 1) = it + 1 + j by omega, hP]
            exact t4 j (by omega) i hi
        · rintro (_ | j) hj
          · rw [add_zero, hP0]; exact not_lt.mp hsm
          · rw [show it + (j + 1) = it + 1 + j by omega, hP]; exact t5 j (by omega)

theorem repulsion_apart {n : Nat} {pos : Nat → Pt} :
    (∃ f, repulsion n pos = .ok f) ↔ ∀ i < n, ∀ j < n, i ≠ j → pos i ≠ pos j := by
  unfold repulsion
  split
  · rename_i h
    obtain ⟨i, hi, j, hj, hij, he⟩ := h
    exact ⟨fun ⟨f, hf⟩ => (nomatch hf), fun h => absurd he (h i hi j hj hij)⟩
  · rename_i h
    exact ⟨fun _ i hi j hj hij he => h ⟨i, hi, j, hj, hij, he⟩, fun _ => ⟨_, rfl⟩⟩

/-- when there is a force -/
theorem force_ok {n : Nat} {eList : List (List Int)} {H : Nat → Nat → Bool}
    (hH : incidence n eList = .ok H) (hpos : ∀ vs ∈ eList, ∀ v ∈ vs, 0 ≤ v) {s : Sim} {ks : List ℝ}
    (hk : s.repulsion = some ks) {jit : Jitter} {pos : Nat → Pt} :
    (∃ f, force s n eList.length H jit pos = .ok f) ↔
      (∀ vs ∈ eList, vs ≠ []) ∧ Spec.Apart n eList s.edgeRepulsion pos := by
  have hlt : ∀ vs ∈ eList, ∀ v ∈ vs, v < n := by
    intro vs hvs v hv
    unfold incidence at hH
    split at hH
    case isFalse => cases hH
    case isTrue hb =>
    simp only [List.all_eq_true, decide_eq_true_eq] at hb
    exact (hb vs hvs v hv).2
  have hne : (∀ e < eList.length, ∃ i < n, H i e = true) ↔ ∀ vs ∈ eList, vs ≠ [] := by
    constructor
    · rintro h vs hvs rfl
      obtain ⟨e, he, hee⟩ := List.getElem_of_mem hvs
      obtain ⟨i, hi, hie⟩ := h e he
      rw [inc_members hH hpos he hi] at hie
      unfold Spec.members at hie
      rw [List.getD_eq_getElem _ _ he, hee] at hie
      simp at hie
    · intro h e he
      obtain ⟨v, hv⟩ := List.exists_mem_of_ne_nil _ (h _ (List.getElem_mem he))
      have h1 := hpos _ (List.getElem_mem he) v hv
      have h2 := hlt _ (List.getElem_mem he) v hv
      refine ⟨v.toNat, by omega, (inc_members hH hpos he (by omega)).2 ?_⟩
      unfold Spec.members
      rw [List.getD_eq_getElem _ _ he, List.mem_toFinset]
      exact List.mem_map.2 ⟨v, hv, rfl⟩
  have hce : (∀ e < eList.length, ∀ f < eList.length, e ≠ f → eCenter n H pos e ≠ eCenter n H pos f) ↔
      ∀ e < eList.length, ∀ f < eList.length, e ≠ f → Spec.centre eList pos e ≠ Spec.centre eList pos f := by
    constructor
    · intro h e he f hf hef
      rw [← eCenter_eq hH hpos pos he, ← eCenter_eq hH hpos pos hf]
      exact h e he f hf hef
    · intro h e he f hf hef
      rw [eCenter_eq hH hpos pos he, eCenter_eq hH hpos pos hf]
      exact h e he f hf hef
  unfold Spec.Apart
  rw [← hne, ← hce, ← repulsion_apart, ← repulsion_apart]
  unfold force
  rw [hk]
  dsimp only
  by_cases hn : ∀ e < eList.length, ∃ i < n, H i e = true
  · rw [Vi.need_pos hn]
    rcases h1 : repulsion n pos with e | f
    · exact ⟨fun ⟨f, hf⟩ => (nomatch hf), fun ⟨_, ⟨f, hf⟩, _⟩ => (nomatch hf)⟩
    · rcases hp : s.edgeRepulsion with _ | k
      · exact ⟨fun _ => ⟨hn, ⟨_, rfl⟩, fun h => absurd rfl h⟩, fun _ => ⟨_, rfl⟩⟩
      · rcases h2 : repulsion eList.length (eCenter n H pos) with e | f'
        · refine ⟨fun ⟨f, hf⟩ => (nomatch hf), fun ⟨_, _, h⟩ => ?_⟩
          obtain ⟨f, hf⟩ := h (by simp)
          cases hf
        · exact ⟨fun _ => ⟨hn, ⟨_, rfl⟩, fun _ => ⟨_, rfl⟩⟩, fun _ => ⟨_, rfl⟩⟩
  · refine ⟨fun ⟨f, hf⟩ => ?_, fun h => absurd h.1 hn⟩
    rw [need, if_neg hn] at hf
    cases hf

/-- two runs with corresponding forces and starts correspond -/
theorem moves_rel {n : Nat} {F F' : (Nat → Pt) → Nat → Pt} {σ : Equiv.Perm Nat}
    (hF : ∀ pos pos', (∀ i < n, pos' (σ i) = pos i) → ∀ i < n, F' pos' (σ i) = F pos i) (hσ : ∀ i, σ i < n ↔ i < n)
    {P P' : Nat → Nat → Pt} {T : Nat} (h : Spec.Moves n F P T) (h' : Spec.Moves n F' P' T)
    (h0 : ∀ i < n, P' 0 (σ i) = P 0 i) : ∀ k ≤ T, ∀ i < n, P' k (σ i) = P k i := by
  intro k
  induction k with
  | zero => exact fun _ => h0
  | succ k ih =>
    intro hk i hi
    have := ih (by omega)
    rw [h k (by omega) i hi, h' k (by omega) (σ i) ((hσ i).2 hi), this i hi, Spec.velocity, Spec.velocity,
      hF _ _ this i hi]

theorem sum_perm {A : Type} [AddCommMonoid A] {n : Nat} {σ : Equiv.Perm Nat} (hσ : ∀ i, σ i < n ↔ i < n) (g : Nat → A) :
    ∑ i ∈ range n, g i = ∑ i ∈ range n, g (σ i) :=
  (sum_equiv σ (fun i => by rw [mem_range, mem_range]; exact (hσ i).symm) fun _ _ => rfl).symm

theorem speed_rel {n : Nat} {F F' : (Nat → Pt) → Nat → Pt} {σ : Equiv.Perm Nat}
    (hF : ∀ pos pos', (∀ i < n, pos' (σ i) = pos i) → ∀ i < n, F' pos' (σ i) = F pos i) (hσ : ∀ i, σ i < n ↔ i < n)
    {pos pos' : Nat → Pt} (h : ∀ i < n, pos' (σ i) = pos i) (k : Nat) : Spec.speed n F' k pos' = Spec.speed n F k pos := by
  unfold Spec.speed
  congr 1
  rw [sum_perm hσ]
  refine sum_congr rfl fun i hi => ?_
  rw [Spec.velocity, Spec.velocity, hF _ _ h i (mem_range.1 hi)]

end Lay

/-- what the forces of a layout depend on, and what `simulate` does with them -/
theorem Lay.follows {n : Nat} {eList : List (List Int)} {H : Nat → Nat → Bool}
    (hH : incidence n eList = .ok H) (hpos : ∀ vs ∈ eList, ∀ v ∈ vs, 0 ≤ v) {s : Sim} {pullE : ℝ} {ks gs : List ℝ}
    (ha : s.attraction = some pullE) (hk : s.repulsion = some ks) (hg : s.gravity = some gs)
    {pushV pullC : Nat → ℝ} {home : Nat → Pt} (hV : ∀ i, repFactor s ks i = pushV i) {jit : Nat → Jitter}
    (hG : ∀ it pos, ∀ i < n, gravityAt s gs (jit it).gravity pos i = pullC i • (home i - pos i)) :
    Lay.Follows s n eList.length H jit (Spec.layoutForce n eList pushV s.edgeRepulsion pullE pullC home) := by
  obtain rfl : repFactor s ks = pushV := funext hV
  exact fun it pos f h i hi => Lay.force_eq hH hpos ha hk hg (hG _ _ i hi) h hi


namespace Lay

/-- a successful simulation -/
theorem simulate_ok {n : Nat} {eList : List (List Int)} {H : Nat → Nat → Bool}
    (hH : incidence n eList = .ok H) (hpos : ∀ vs ∈ eList, ∀ v ∈ vs, 0 ≤ v) {s : Sim} {ks : List ℝ}
    (hk : s.repulsion = some ks) {jit : Nat → Jitter} {F : (Nat → Pt) → Nat → Pt}
    (hF : Follows s n eList.length H jit F) {pos pos' : Nat → Pt}
    (h : simulate s n eList.length H jit pos = .ok pos') :
    (∀ vs ∈ eList, vs ≠ []) ∧
    ∃ (T : Nat) (P : Nat → Nat → Pt), P 0 = pos ∧ P T = pos' ∧ Spec.Path n F P T ∧
      ∀ k < T, Spec.Apart n eList s.edgeRepulsion (P k) := by
  have h : simLoop s n eList.length H jit 400 0 ((999 / 1000) ^ 0) pos = .ok pos' := by rw [pow_zero]; exact h
  obtain ⟨T, P, t1, t2, t3, t4, t5, t6, t7⟩ := simLoop_path hF 400 0 h
  simp only [Nat.zero_add] at t3 t4 t5 t6 t7
  have hT : 0 < T := by
    by_contra hT
    exact hT (t6 (by omega)).1
  have hA := fun k hk' => (force_ok hH hpos hk).1 (t4 k hk')
  exact ⟨(hA 0 hT).1, T, P, t2, t3, ⟨t1, t5, t6, t7⟩, fun k hk => (hA k hk).2⟩

/-- a simulation that fails -/
theorem simulate_err {n : Nat} {eList : List (List Int)} {H : Nat → Nat → Bool}
    (hH : incidence n eList = .ok H) (hpos : ∀ vs ∈ eList, ∀ v ∈ vs, 0 ≤ v) {s : Sim} {ks : List ℝ}
    (hk : s.repulsion = some ks) {jit : Nat → Jitter} {F : (Nat → Pt) → Nat → Pt}
    (hF : Follows s n eList.length H jit F) {pos : Nat → Pt} {er : Err}
    (h : simulate s n eList.length H jit pos = .error er) :
    ∃ (k : Nat) (P : Nat → Nat → Pt), k < 400 ∧ P 0 = pos ∧ Spec.Moves n F P k ∧
      (∀ j < k, 1 / 1000 ≤ Spec.speed n F j (P j)) ∧
      ¬ ((∀ vs ∈ eList, vs ≠ []) ∧ Spec.Apart n eList s.edgeRepulsion (P k)) := by
  have h : simLoop s n eList.length H jit 400 0 ((999 / 1000) ^ 0) pos = .error er := by rw [pow_zero]; exact h
  obtain ⟨T, P, t1, t2, t3, t4, t5⟩ := simLoop_err hF 400 0 h
  simp only [Nat.zero_add] at t3 t4 t5
  refine ⟨T, P, t1, t2, t4, t5, fun hA => ?_⟩
  obtain ⟨f, hf⟩ := (force_ok hH hpos hk (jit := jit T)).2 hA
  rw [hf] at t3
  cases t3

theorem inc_ok {n : Nat} {eList : List (List Int)} (hpos : ∀ vs ∈ eList, ∀ v ∈ vs, 0 ≤ v) :
    (∃ H, incidence n eList = .ok H) ↔ ∀ vs ∈ eList, ∀ v ∈ vs, v < n := by
  unfold incidence
  split
  case isTrue hb =>
    simp only [List.all_eq_true, decide_eq_true_eq] at hb
    exact ⟨fun _ vs hvs v hv => (hb vs hvs v hv).2, fun _ => ⟨_, rfl⟩⟩
  case isFalse hb =>
    refine ⟨fun ⟨H, h⟩ => (nomatch h), fun h => absurd ?_ hb⟩
    simp only [List.all_eq_true, decide_eq_true_eq]
    intro vs hvs v hv
    have := hpos vs hvs v hv
    exact ⟨by omega, h vs hvs v hv⟩

/-- the forces of `force_layout` -/
theorem follows_one {numV : Nat} {eList : List (List Int)} {H : Nat → Nat → Bool}
    (hH : incidence numV eList = .ok H) (hpos : ∀ vs ∈ eList, ∀ v ∈ vs, 0 ≤ v) (pushV pullE pullC : ℝ)
    (pushE : Option ℝ) (jit : Nat → Jitter) :
    Follows { nums := numV, attraction := some pullE, repulsion := some [pushV], edgeRepulsion := pushE
              gravity := some [pullC], centers := [(0, 0)] } numV eList.length H jit
      (Spec.layoutForce numV eList (fun _ => pushV) pushE pullE (fun _ => pullC) (fun _ => (0, 0))) :=
  follows (pushV := fun _ => pushV) (pullC := fun _ => pullC) (home := fun _ => (0, 0)) hH hpos rfl rfl rfl
      (fun _ => rfl) fun it pos i hi => by
    unfold gravityAt
    show ∑ c ∈ range 1, _ = _
    rw [sum_range_one, gravity_eq]
    have : ((0 = 0) = (i < numV)) := by simp [hi]
    rw [if_pos this, mul_one]
    rfl

end Lay

/-- C101. What `force_layout` computes: the vertices start at random places of the square `[-5, 5]²`, follow the
forces for at most 400 steps, and their coordinates are stretched to run from 0.1 to 0.9. -/
theorem C101_force_layout (R : Rand) (numV : Nat) (eList : List (List Int)) (hpos : ∀ vs ∈ eList, ∀ v ∈ vs, 0 ≤ v)
    (pushV pullE pullC : ℝ) (pushE : Option ℝ) {q : Nat → NPt}
    (h : forceLayout R numV eList pushV pushE pullE pullC = .ok q) :
    ∃ (T : Nat) (P : Nat → Nat → Pt),
      (∀ i < numV, P 0 i = (10 * (R.init i).1 - 5, 10 * (R.init i).2 - 5)) ∧
      Spec.Path numV (Spec.layoutForce numV eList (fun _ => pushV) pushE pullE (fun _ => pullC) (fun _ => (0, 0))) P T ∧
      Spec.Stretched numV (fun i => (P T i).1) (fun i => (q i).1) ∧
      Spec.Stretched numV (fun i => (P T i).2) (fun i => (q i).2) := by
  unfold forceLayout at h
  obtain ⟨_, h0, h⟩ := Vi.bind_ok h
  obtain ⟨H, hH, h⟩ := Vi.bind_ok h
  obtain ⟨p, hp, h⟩ := Vi.bind_ok h
  have hn := Nat.pos_of_ne_zero (Vi.need_ok h0)
  obtain ⟨_, T, P, t1, t2, t3, _⟩ := Lay.simulate_ok hH hpos rfl (Lay.follows_one hH hpos pushV pullE pullC pushE R.jit) hp
  refine ⟨T, P, fun i _ => ?_, t3, ?_, ?_⟩
  · rw [t1]
    unfold initPos
    ext <;> dsimp only <;> ring
  · rw [t2, ← Except.ok.inj h]
    exact Lay.stretched hn _
  · rw [t2, ← Except.ok.inj h]
    exact Lay.stretched hn _

/-- C101. What `bipartite_force_layout` computes: the first part starts around (5, 0) and is pulled there, the
second part around (-5, 0).  The edges are read as pairs of numbers of points counted over both parts
(see `C99_bipartite_false`). -/
theorem C101_bipartite_force_layout (R : Rand) (numU numV : Nat) (eList : List (List Int))
    (hpos : ∀ vs ∈ eList, ∀ v ∈ vs, 0 ≤ v) (pushU pushV pullE pullU pullV : ℝ) (pushE : Option ℝ) {qu qv : Nat → NPt}
    (h : bipartiteForceLayout R numU numV eList pushU pushV pushE pullE pullU pullV = .ok (qu, qv)) :
    ∃ (T : Nat) (P : Nat → Nat → Pt),
      (∀ i < numU, P 0 i = (9 * (R.init i).1 + 1 / 2, 9 * (R.init i).2 - 9 / 2)) ∧
      (∀ i < numV, P 0 (numU + i) = (9 * (R.init (numU + i)).1 - 19 / 2, 9 * (R.init (numU + i)).2 - 9 / 2)) ∧
      Spec.Path (numU + numV) (Spec.layoutForce (numU + numV) eList (fun i => if i < numU then pushU else pushV) pushE
        pullE (fun i => if i < numU then pullU else pullV) (fun i => if i < numU then (5, 0) else (-5, 0))) P T ∧
      Spec.Stretched (numU + numV) (fun i => (P T i).1) (fun i => if i < numU then (qu i).1 else (qv (i - numU)).1) ∧
      Spec.Stretched (numU + numV) (fun i => (P T i).2) (fun i => if i < numU then (qu i).2 else (qv (i - numU)).2) := by
  unfold bipartiteForceLayout at h
  obtain ⟨_, h0, h⟩ := Vi.bind_ok h
  obtain ⟨H, hH, h⟩ := Vi.bind_ok h
  obtain ⟨p, hp, h⟩ := Vi.bind_ok h
  have hn := Nat.pos_of_ne_zero (Vi.need_ok h0)
  rw [Nat.add_comm numV numU] at hH
  obtain ⟨_, T, P, t1, t2, t3, _⟩ := Lay.simulate_ok hH hpos rfl (Lay.follows (pushV := fun i => if i < numU then pushU else pushV)
    (pullC := fun i => if i < numU then pullU else pullV)
    (home := fun i => if i < numU then (5, 0) else (-5, 0)) hH hpos rfl rfl rfl (fun i => rfl) (fun it pos i hi => by
      unfold gravityAt
      show ∑ c ∈ range 2, _ = _
      rw [sum_range_succ, sum_range_one, Lay.gravity_eq, Lay.gravity_eq]
      dsimp only
      by_cases hu : i < numU
      · simp [hu]
      · simp [hu])) hp
  have h := (Prod.mk.injEq _ _ _ _).mp (Except.ok.inj h)
  refine ⟨T, P, fun i hi => ?_, fun i _ => ?_, t3, ?_, ?_⟩
  · rw [t1]
    unfold initPos
    dsimp only
    rw [if_pos hi]
    ext <;> dsimp only <;> ring
  · rw [t1]
    unfold initPos
    dsimp only
    rw [if_neg (by omega)]
    ext <;> dsimp only <;> ring
  · rw [t2]
    have : (fun i => if i < numU then (qu i).1 else (qv (i - numU)).1) = rescale (numU + numV) (fun i => (p i).1) := by
      funext i
      rw [← h.1, ← h.2]
      dsimp only
      split
      · rfl
      · rw [Nat.add_sub_cancel' (by omega)]
    rw [this]
    exact Lay.stretched hn _
  · rw [t2]
    have : (fun i => if i < numU then (qu i).2 else (qv (i - numU)).2) = rescale (numU + numV) (fun i => (p i).2) := by
      funext i
      rw [← h.1, ← h.2]
      dsimp only
      split
      · rfl
      · rw [Nat.add_sub_cancel' (by omega)]
    rw [this]
    exact Lay.stretched hn _

/-- the start of `force_layout` -/
def Spec.StartsAt (numV : Nat) (R : Rand) (P : Nat → Nat → Pt) : Prop :=
  ∀ i < numV, P 0 i = (10 * (R.init i).1 - 5, 10 * (R.init i).2 - 5)

namespace Lay

theorem start (R : Rand) : initPos R.init (0, 0) 5 = fun i => (10 * (R.init i).1 - 5, 10 * (R.init i).2 - 5) := by
  funext i
  unfold initPos
  ext <;> dsimp only <;> ring

theorem mem_lt {n : Nat} {eList : List (List Int)} (hpos : ∀ vs ∈ eList, ∀ v ∈ vs, 0 ≤ v)
    (hlt : ∀ vs ∈ eList, ∀ v ∈ vs, v < n) {e i : Nat} (h : i ∈ Spec.members eList e) : i < n := by
  unfold Spec.members at h
  rw [List.mem_toFinset] at h
  obtain ⟨v, hv, rfl⟩ := List.mem_map.1 h
  by_cases he : e < eList.length
  · rw [List.getD_eq_getElem _ _ he] at hv
    have h1 := hpos _ (List.getElem_mem he) v hv
    have h2 := hlt _ (List.getElem_mem he) v hv
    omega
  · rw [List.getD_eq_default _ _ (by omega)] at hv
    cases hv

/-- `eList'` is `eList` with the vertices renumbered by `σ` and the edges by `τ` -/
structure Same (n : Nat) (eList eList' : List (List Int)) (σ τ : Equiv.Perm Nat) : Prop where
  lenE : eList'.length = eList.length
  vtx : ∀ i, σ i < n ↔ i < n
  edge : ∀ e, τ e < eList.length ↔ e < eList.length
  mem : ∀ e < eList.length, ∀ i, σ i ∈ Spec.members eList' (τ e) ↔ i ∈ Spec.members eList e

variable {n : Nat} {eList eList' : List (List Int)} {σ τ : Equiv.Perm Nat}

theorem Same.members (h : Same n eList eList' σ τ) {e : Nat} (he : e < eList.length) :
    Spec.members eList' (τ e) = (Spec.members eList e).map σ.toEmbedding := by
  ext j
  rw [mem_map_equiv, ← h.mem e he, Equiv.apply_symm_apply]

theorem Same.centre (h : Same n eList eList' σ τ) (hb : ∀ e i, i ∈ Spec.members eList e → i < n)
    {pos pos' : Nat → Pt} (hp : ∀ i < n, pos' (σ i) = pos i) {e : Nat} (he : e < eList.length) :
    Spec.centre eList' pos' (τ e) = Spec.centre eList pos e := by
  unfold Spec.centre
  rw [h.members he, card_map, sum_map]
  congr 1
  exact sum_congr rfl fun i hi => hp i (hb e i hi)

theorem sum_perm_filter {A : Type} [AddCommMonoid A] {n : Nat} {σ : Equiv.Perm Nat} (hσ : ∀ i, σ i < n ↔ i < n)
    {p p' : Nat → Prop} [DecidablePred p] [DecidablePred p'] (hp : ∀ i < n, (p' (σ i) ↔ p i)) {g g' : Nat → A}
    (hg : ∀ i < n, p i → g' (σ i) = g i) :
    ∑ i ∈ (range n).filter p', g' i = ∑ i ∈ (range n).filter p, g i := by
  refine (sum_equiv σ (fun i => ?_) fun i hi => ?_).symm
  · rw [mem_filter, mem_filter, mem_range, mem_range, hσ]
    constructor
    · exact fun h => ⟨h.1, (hp i h.1).2 h.2⟩
    · exact fun h => ⟨h.1, (hp i h.1).1 h.2⟩
  · rw [mem_filter, mem_range] at hi
    exact (hg i hi.1 hi.2).symm

theorem Same.force (h : Same n eList eList' σ τ) (hb : ∀ e i, i ∈ Spec.members eList e → i < n)
    (pushV pullE pullC : ℝ) (pushE : Option ℝ) (pos pos' : Nat → Pt) (hp : ∀ i < n, pos' (σ i) = pos i) (i : Nat)
    (hi : i < n) :
    Spec.layoutForce n eList' (fun _ => pushV) pushE pullE (fun _ => pullC) (fun _ => (0, 0)) pos' (σ i) =
      Spec.layoutForce n eList (fun _ => pushV) pushE pullE (fun _ => pullC) (fun _ => (0, 0)) pos i := by
  unfold Spec.layoutForce
  rw [h.lenE, hp i hi]
  congr 1
  congr 1
  · congr 1
    · congr 1
      refine sum_perm_filter h.edge (fun e he => h.mem e he i) fun e he _ => ?_
      rw [h.centre hb hp he]
    · congr 1
      refine sum_perm_filter h.vtx (fun j _ => not_congr σ.injective.eq_iff) fun j hj _ => ?_
      rw [hp j hj]
  · congr 1
    refine sum_perm_filter h.edge (fun e he => h.mem e he i) fun e he _ => ?_
    refine sum_perm_filter h.edge (fun f _ => not_congr τ.injective.eq_iff) fun f hf _ => ?_
    rw [h.centre hb hp he, h.centre hb hp hf]

theorem Same.apart (h : Same n eList eList' σ τ) (hb : ∀ e i, i ∈ Spec.members eList e → i < n) (pushE : Option ℝ)
    {pos pos' : Nat → Pt} (hp : ∀ i < n, pos' (σ i) = pos i) (hA : Spec.Apart n eList pushE pos) :
    Spec.Apart n eList' pushE pos' := by
  refine ⟨fun i hi j hj hij => ?_, fun hE e he f hf hef => ?_⟩
  · have hi' : σ.symm i < n := by rw [← h.vtx, Equiv.apply_symm_apply]; exact hi
    have hj' : σ.symm j < n := by rw [← h.vtx, Equiv.apply_symm_apply]; exact hj
    have := hA.1 _ hi' _ hj' fun hh => hij (σ.symm.injective hh)
    rw [← hp _ hi', ← hp _ hj', Equiv.apply_symm_apply, Equiv.apply_symm_apply] at this
    exact this
  · rw [h.lenE] at he hf
    have he' : τ.symm e < eList.length := by rw [← h.edge, Equiv.apply_symm_apply]; exact he
    have hf' : τ.symm f < eList.length := by rw [← h.edge, Equiv.apply_symm_apply]; exact hf
    have := hA.2 hE _ he' _ hf' fun hh => hef (τ.symm.injective hh)
    rw [← h.centre hb hp he', ← h.centre hb hp hf', Equiv.apply_symm_apply, Equiv.apply_symm_apply] at this
    exact this

theorem Same.refl (n : Nat) (eList : List (List Int)) : Same n eList eList (Equiv.refl _) (Equiv.refl _) :=
  ⟨rfl, fun _ => Iff.rfl, fun _ => Iff.rfl, fun _ _ _ => Iff.rfl⟩

/-- two finished runs that correspond take the same number of steps -/
theorem path_len {F F' : (Nat → Pt) → Nat → Pt}
    (hF : ∀ pos pos', (∀ i < n, pos' (σ i) = pos i) → ∀ i < n, F' pos' (σ i) = F pos i) (hσ : ∀ i, σ i < n ↔ i < n)
    {P P' : Nat → Nat → Pt} {T k : Nat} (h : Spec.Path n F P T) (hk : k < 400) (h' : Spec.Moves n F' P' k)
    (hgo : ∀ j < k, 1 / 1000 ≤ Spec.speed n F' j (P' j)) (h0 : ∀ i < n, P' 0 (σ i) = P 0 i) : k < T := by
  by_contra hT
  have hT : T ≤ k := not_lt.mp hT
  obtain ⟨t1, t2⟩ := h.stop (by omega)
  have hr := moves_rel hF hσ h.move (fun j hj => h' j (by omega)) h0 (T - 1) (by omega)
  have := hgo (T - 1) (by omega)
  rw [speed_rel hF hσ hr] at this
  linarith

end Lay

/-- C101. `force_layout` succeeds exactly if there are vertices, the edges join existing vertices, no edge is
empty, and no two vertices (nor, if centres of edges push each other, two centres) come to the same place while
it runs. -/
theorem C101_succeeds (R : Rand) (numV : Nat) (eList : List (List Int)) (hpos : ∀ vs ∈ eList, ∀ v ∈ vs, 0 ≤ v)
    (pushV pullE pullC : ℝ) (pushE : Option ℝ) :
    (∃ q, forceLayout R numV eList pushV pushE pullE pullC = .ok q) ↔
      numV ≠ 0 ∧ (∀ vs ∈ eList, ∀ v ∈ vs, v < numV) ∧ (∀ vs ∈ eList, vs ≠ []) ∧
      ∀ P k, k < 400 → Spec.StartsAt numV R P →
        let F := Spec.layoutForce numV eList (fun _ => pushV) pushE pullE (fun _ => pullC) (fun _ => (0, 0))
        Spec.Moves numV F P k → (∀ j < k, 1 / 1000 ≤ Spec.speed numV F j (P j)) → Spec.Apart numV eList pushE (P k) := by
  constructor
  · rintro ⟨q, h⟩
    unfold forceLayout at h
    obtain ⟨_, h0, h⟩ := Vi.bind_ok h
    obtain ⟨H, hH, h⟩ := Vi.bind_ok h
    obtain ⟨p, hp, h⟩ := Vi.bind_ok h
    have hlt := (Lay.inc_ok hpos).1 ⟨H, hH⟩
    have hb : ∀ e i, i ∈ Spec.members eList e → i < numV := fun e i hi => Lay.mem_lt hpos hlt hi
    obtain ⟨hne, T, P, t1, t2, t3, t4⟩ :=
      Lay.simulate_ok hH hpos rfl (Lay.follows_one hH hpos pushV pullE pullC pushE R.jit) hp
    refine ⟨Vi.need_ok h0, hlt, hne, ?_⟩
    intro P' k hk hs F hm hgo
    have hs' : ∀ i < numV, P' 0 (Equiv.refl _ i) = P 0 i := by
      intro i hi
      rw [t1, Lay.start]
      exact hs i hi
    have hF := (Lay.Same.refl numV eList).force hb pushV pullE pullC pushE
    have hkT := Lay.path_len hF (fun _ => Iff.rfl) t3 hk hm hgo hs'
    have := Lay.moves_rel hF (fun _ => Iff.rfl) (fun j hj => t3.move j (by omega)) hm hs' k le_rfl
    exact (Lay.Same.refl numV eList).apart hb pushE this (t4 k hkT)
  · rintro ⟨h0, hlt, hne, hA⟩
    obtain ⟨H, hH⟩ := (Lay.inc_ok hpos).2 hlt
    unfold forceLayout
    rw [Vi.need_pos h0, hH]
    simp only [bind, Except.bind]
    split
    · rename_i er he
      exfalso
      obtain ⟨k, P, k1, k2, k3, k4, k5⟩ :=
        Lay.simulate_err hH hpos rfl (Lay.follows_one hH hpos pushV pullE pullC pushE R.jit) he
      refine k5 ⟨hne, hA P k k1 (fun i _ => ?_) k3 k4⟩
      rw [k2, Lay.start]
    · exact ⟨_, rfl⟩

/-- C101. The layout does not depend on the numbering of the vertices and edges: if another structure has the same
edges up to a renumbering and starts from the same places, it gets the same layout. -/
theorem C101_renumber (R R' : Rand) (numV : Nat) (eList eList' : List (List Int))
    (hpos : ∀ vs ∈ eList, ∀ v ∈ vs, 0 ≤ v) (hpos' : ∀ vs ∈ eList', ∀ v ∈ vs, 0 ≤ v) (σ τ : Equiv.Perm Nat)
    (hσ : ∀ i, σ i < numV ↔ i < numV) (hτ : ∀ e, τ e < eList.length ↔ e < eList.length)
    (hlen : eList'.length = eList.length)
    (hmem : ∀ e < eList.length, ∀ i, σ i ∈ Spec.members eList' (τ e) ↔ i ∈ Spec.members eList e)
    (hR : ∀ i < numV, R'.init (σ i) = R.init i) (pushV pullE pullC : ℝ) (pushE : Option ℝ) {q : Nat → NPt}
    (h : forceLayout R numV eList pushV pushE pullE pullC = .ok q) :
    ∃ q', forceLayout R' numV eList' pushV pushE pullE pullC = .ok q' ∧ ∀ i < numV, q' (σ i) = q i := by
  have S : Lay.Same numV eList eList' σ τ := ⟨hlen, hσ, hτ, hmem⟩
  obtain ⟨h0, hlt, hne, hA⟩ := (C101_succeeds R numV eList hpos pushV pullE pullC pushE).1 ⟨q, h⟩
  have hb : ∀ e i, i ∈ Spec.members eList e → i < numV := fun e i hi => Lay.mem_lt hpos hlt hi
  have hF := S.force hb pushV pullE pullC pushE
  -- members of the other structure
  have hb' : ∀ vs ∈ eList', ∀ v ∈ vs, v < numV := by
    intro vs hvs v hv
    obtain ⟨e', he', rfl⟩ := List.getElem_of_mem hvs
    rw [hlen] at he'
    have he : τ.symm e' < eList.length := by rw [← hτ, Equiv.apply_symm_apply]; exact he'
    have hm : v.toNat ∈ Spec.members eList' e' := by
      unfold Spec.members
      rw [List.getD_eq_getElem _ _ (by omega), List.mem_toFinset]
      exact List.mem_map.2 ⟨v, hv, rfl⟩
    have := hmem _ he (σ.symm v.toNat)
    rw [Equiv.apply_symm_apply, Equiv.apply_symm_apply] at this
    have := hb _ _ (this.1 hm)
    rw [← hσ, Equiv.apply_symm_apply] at this
    omega
  have hne' : ∀ vs ∈ eList', vs ≠ [] := by
    rintro vs hvs rfl
    obtain ⟨e', he', hnil⟩ := List.getElem_of_mem hvs
    rw [hlen] at he'
    have he : τ.symm e' < eList.length := by rw [← hτ, Equiv.apply_symm_apply]; exact he'
    obtain ⟨v, hv⟩ := List.exists_mem_of_ne_nil _ (hne _ (List.getElem_mem he))
    have hm : v.toNat ∈ Spec.members eList (τ.symm e') := by
      unfold Spec.members
      rw [List.getD_eq_getElem _ _ he, List.mem_toFinset]
      exact List.mem_map.2 ⟨v, hv, rfl⟩
    have := (hmem _ he _).2 hm
    rw [Equiv.apply_symm_apply] at this
    unfold Spec.members at this
    rw [List.getD_eq_getElem _ _ (by omega), hnil] at this
    simp at this
  have hpull : ∀ (P' : Nat → Nat → Pt) (k : Nat),
      let F := Spec.layoutForce numV eList (fun _ => pushV) pushE pullE (fun _ => pullC) (fun _ => (0, 0))
      let F' := Spec.layoutForce numV eList' (fun _ => pushV) pushE pullE (fun _ => pullC) (fun _ => (0, 0))
      Spec.Moves numV F' P' k → Spec.Moves numV F (fun j i => P' j (σ i)) k := by
    intro P' k F F' hm j hj i hi
    dsimp only
    rw [hm j hj (σ i) ((hσ i).2 hi), Spec.velocity, Spec.velocity]
    dsimp only [F, F']
    rw [hF (fun i => P' j (σ i)) (P' j) (fun _ _ => rfl) i hi]
  obtain ⟨q', h'⟩ := (C101_succeeds R' numV eList' hpos' pushV pullE pullC pushE).2 ⟨h0, hb', hne', by
    intro P' k hk hs F' hm hgo
    refine S.apart hb pushE (pos := fun i => P' k (σ i)) (fun _ _ => rfl) ?_
    refine hA (fun j i => P' j (σ i)) k hk (fun i hi => ?_) (hpull P' k hm) fun j hj => ?_
    · dsimp only
      rw [hs (σ i) ((hσ i).2 hi), hR i hi]
    · have := hgo j hj
      rw [Lay.speed_rel hF hσ (pos := fun i => P' j (σ i)) (fun _ _ => rfl)] at this
      exact this⟩
  refine ⟨q', h', ?_⟩
  obtain ⟨T, P, s1, s2, s3, s4⟩ := C101_force_layout R numV eList hpos pushV pullE pullC pushE h
  obtain ⟨T', P', s1', s2', s3', s4'⟩ := C101_force_layout R' numV eList' hpos' pushV pullE pullC pushE h'
  have hs : ∀ i < numV, P' 0 (σ i) = P 0 i := by
    intro i hi
    rw [s1' _ ((hσ i).2 hi), s1 i hi, hR i hi]
  have hTT : T = T' := by
    rcases lt_trichotomy T T' with hlt' | heq | hgt
    · exfalso
      have h400 := s2'.le
      obtain ⟨t1, t2⟩ := s2.stop (by omega)
      have hr := Lay.moves_rel hF hσ s2.move (fun j hj => s2'.move j (by omega)) hs (T - 1) (by omega)
      have := s2'.go (T - 1) (by omega)
      rw [Lay.speed_rel hF hσ hr] at this
      linarith
    · exact heq
    · exfalso
      have h400 := s2.le
      obtain ⟨t1, t2⟩ := s2'.stop (by omega)
      have hr := Lay.moves_rel hF hσ (fun j hj => s2.move j (by omega)) s2'.move hs (T' - 1) (by omega)
      have := s2.go (T' - 1) (by omega)
      rw [← Lay.speed_rel hF hσ hr] at this
      linarith
  subst hTT
  have hr := Lay.moves_rel hF hσ s2.move s2'.move hs T le_rfl
  have hstr : ∀ (x x' : Nat → ℝ) (y y' : Nat → Option ℝ), (∀ i < numV, x' (σ i) = x i) → Spec.Stretched numV x y →
      Spec.Stretched numV x' y' → ∀ i < numV, y' (σ i) = y i := by
    rintro x x' y y' hx ⟨lo, hi, a1, a2, a3, a4⟩ ⟨lo', hi', b1, b2, b3, b4⟩ i hin
    have hset : {a | ∃ i < numV, x' i = a} = {a | ∃ i < numV, x i = a} := by
      ext a
      constructor
      · rintro ⟨j, hj, rfl⟩
        have hj' : σ.symm j < numV := by rw [← hσ, Equiv.apply_symm_apply]; exact hj
        exact ⟨σ.symm j, hj', by rw [← hx _ hj', Equiv.apply_symm_apply]⟩
      · rintro ⟨j, hj, rfl⟩
        exact ⟨σ j, (hσ j).2 hj, hx j hj⟩
    rw [hset] at b1 b2
    obtain rfl := a1.unique b1
    obtain rfl := a2.unique b2
    rcases eq_or_lt_of_le (a1.2 a2.1) with he | hl
    · rw [a3 he i hin, b3 he _ ((hσ i).2 hin)]
    · rw [a4 hl i hin, b4 hl _ ((hσ i).2 hin), hx i hin]
  intro i hi
  ext1
  · exact hstr _ _ _ _ (fun i hi => by rw [hr i hi]) s3 s3' i hi
  · exact hstr _ _ _ _ (fun i hi => by rw [hr i hi]) s4 s4' i hi

/-! ### Examples -/

example : ∃ q, forceLayout Vi.exRand 2 [[0, 1]] 0 none 0 0 = .ok q ∧ ∀ vs ∈ [[(0 : Int), 1]], ∀ v ∈ vs, 0 ≤ v :=
  ⟨_, Vi.exRand_layout, by decide⟩

/-- the hypotheses of `C101_renumber` hold for a swap of the two vertices and the edge written backwards -/
example : ∃ q', forceLayout { Vi.exRand with init := fun i => Vi.exRand.init (Equiv.swap 0 1 i) } 2 [[1, 0]] 0 none 0 0 =
    .ok q' ∧ q' 1 = (some (1 / 10), some (1 / 10)) := by
  have hsw : ∀ i : Nat, i ≠ 0 → i ≠ 1 → Equiv.swap 0 1 i = i := fun i h0 h1 => Equiv.swap_apply_of_ne_of_ne h0 h1
  obtain ⟨q', h, hq⟩ := C101_renumber Vi.exRand { Vi.exRand with init := fun i => Vi.exRand.init (Equiv.swap 0 1 i) } 2
    [[0, 1]] [[1, 0]] (by decide) (by decide) (Equiv.swap 0 1) (Equiv.refl _)
    (fun i => by
      by_cases h0 : i = 0
      · subst h0; rw [Equiv.swap_apply_left]; omega
      by_cases h1 : i = 1
      · subst h1; rw [Equiv.swap_apply_right]; omega
      rw [hsw i h0 h1])
    (fun _ => Iff.rfl) rfl
    (fun e he i => by
      have he : e = 0 := by simpa using he
      subst he
      show Equiv.swap 0 1 i ∈ ({1, 0} : Finset Nat) ↔ i ∈ ({0, 1} : Finset Nat)
      by_cases h0 : i = 0
      · subst h0; rw [Equiv.swap_apply_left]; simp
      by_cases h1 : i = 1
      · subst h1; rw [Equiv.swap_apply_right]; simp
      rw [hsw i h0 h1]; simp [h0, h1])
    (fun i _ => by dsimp only; rw [Equiv.swap_apply_self]) 0 0 0 none Vi.exRand_layout
  refine ⟨q', h, ?_⟩
  have h1 := hq 0 (by omega)
  rw [Equiv.swap_apply_left] at h1
  rw [h1]
  show (rescale 2 _ 0, rescale 2 _ 0) = _
  simp only [Vi.exRand_rescale]
  norm_num

end Props
end DHG
