import Mathlib.Data.Nat.Choose.Basic
import Verif.UtilsSplit
import Verif.BiMat
import Verif.Props.BiGraphMatrices

/-! # Lemmas about user-item splits and the user-item dataset -/

set_option linter.unusedSectionVars false
set_option autoImplicit false

namespace DHG
namespace Utils

section
variable {K : Type} [Field K] [LinearOrder K] [PyReal K]

/-- how the shuffled items of a user are distributed: lines for training and test -/
abbrev Deal : Type := List Nat → Option (List Nat) × Option (List Nat)

/-- `split_by_num` for one user -/
def dealNum (t : Int) : Deal := fun p =>
  if p.length = 0 then (none, none)
  else if (p.length : Int) ≤ t then (some p, none) else (some (slice p 0 t), some (sliceFrom p t))

/-- `split_by_ratio` for one user -/
def dealRatio [FloorRing K] (t : K) : Deal := fun p =>
  if p.length = 0 then (none, none)
  else (some (slice p 0 (truncInt ((p.length : K) * t))), some (sliceFrom p (truncInt ((p.length : K) * t))))

/-- add the lines of user `u` -/
def addLines (u : Nat) (d : Option (List Nat) × Option (List Nat)) (r : AdjList × AdjList) : AdjList × AdjList :=
  ((d.1.map fun l => u :: l).toList ++ r.1, (d.2.map fun l => u :: l).toList ++ r.2)

/-- both loops from raw fields -/
def evUi (F : Deal) : List Nat → Draws → GRaw K → Except Err (AdjList × AdjList)
  | [], _, _ => .ok ([], [])
  | u :: us, ω, r => do
    let nb ← Ord.evNr .bi u r
    let x ← evUi F us (shuffle nb ω).2 r
    .ok (addLines u (F (shuffle nb ω).1) x)

theorem length_shuffle {α : Type} (l : List α) (ω : Draws) : (shuffle l ω).1.length = l.length :=
  (shuffle_perm l ω).length_eq

theorem reads_uiNum (t : Int) (us : List Nat) : ∀ ω : Draws,
    Ord.OReads (K := K) .bi (uiNumLoop t us ω) (evUi (dealNum t) us ω) := by
  induction us with
  | nil => intro ω; exact Reads.pure _
  | cons u us ih =>
    intro ω
    refine (Reads.bind (Ord.reads_getNr u) fun nb => Reads.bind (ih (shuffle nb ω).2) fun r => Reads.pure _).congr ?_
    intro r
    simp only [evUi]
    rcases Ord.evNr .bi u r with e | nb
    · rfl
    · simp only [bind, Except.bind]
      rcases evUi (dealNum t) us (shuffle nb ω).2 r with e | x
      · rfl
      · simp only [addLines, dealNum, length_shuffle]
        by_cases h0 : nb.length = 0
        · simp [h0]
        · by_cases h1 : (nb.length : Int) ≤ t
          · simp [h0, h1]
          · simp [h0, h1]

theorem reads_uiRatio [FloorRing K] (t : K) (us : List Nat) : ∀ ω : Draws,
    Ord.OReads (K := K) .bi (uiRatioLoop t us ω) (evUi (dealRatio t) us ω) := by
  induction us with
  | nil => intro ω; exact Reads.pure _
  | cons u us ih =>
    intro ω
    refine (Reads.bind (Ord.reads_getNr u) fun nb => Reads.bind (ih (shuffle nb ω).2) fun r => Reads.pure _).congr ?_
    intro r
    simp only [evUi]
    rcases Ord.evNr .bi u r with e | nb
    · rfl
    · simp only [bind, Except.bind]
      rcases evUi (dealRatio t) us (shuffle nb ω).2 r with e | x
      · rfl
      · simp only [addLines, dealRatio, length_shuffle]
        by_cases h0 : nb.length = 0
        · simp [h0]
        · simp [h0]

theorem evUi_spec (F : Deal) {r : GRaw K} {f : Nat → List Nat} (us : List Nat) (hus : us.Nodup)
    (hf : ∀ u ∈ us, Ord.evNr .bi u r = .ok (f u)) (ω : Draws) :
    ∃ π : Nat → List Nat, (∀ u, (π u).Perm (f u)) ∧
      evUi F us ω r = .ok (us.filterMap fun u => (F (π u)).1.map fun l => u :: l,
        us.filterMap fun u => (F (π u)).2.map fun l => u :: l) := by
  induction us generalizing ω with
  | nil => exact ⟨f, fun _ => List.Perm.refl _, rfl⟩
  | cons u us ih =>
    rw [List.nodup_cons] at hus
    obtain ⟨π, h1, h2⟩ := ih hus.2 (fun x hx => hf x (List.mem_cons_of_mem _ hx)) (shuffle (f u) ω).2
    have hne : ∀ x ∈ us, x ≠ u := fun x hx h => hus.1 (h ▸ hx)
    refine ⟨fun x => if x = u then (shuffle (f u) ω).1 else π x, ?_, ?_⟩
    · intro x
      by_cases hx : x = u
      · subst hx; simp only [if_true]; exact shuffle_perm _ _
      · simp only [hx, if_false]; exact h1 x
    · have key : ∀ G : Nat → List Nat → Option (List Nat),
          us.filterMap (fun x => G x (if x = u then (shuffle (f u) ω).1 else π x)) = us.filterMap fun x => G x (π x) := by
        intro G
        apply List.filterMap_congr
        intro x hx; simp only [hne x hx, if_false]
      simp only [evUi, hf u List.mem_cons_self, bind, Except.bind, h2, addLines]
      rw [List.filterMap_cons, List.filterMap_cons]
      simp only [if_true]
      rw [key fun x p => (F p).1.map fun l => x :: l, key fun x p => (F p).2.map fun l => x :: l]
      rcases (F (shuffle (f u) ω).1).1 with _ | a <;> rcases (F (shuffle (f u) ω).1).2 with _ | b <;> rfl

theorem itemsOf_filterMap (us : List Nat) (hus : us.Nodup) (G : Nat → Option (List Nat)) (u : Nat) :
    Spec.itemsOf (us.filterMap fun x => (G x).map fun l => x :: l) u = if u ∈ us then (G u).getD [] else [] := by
  induction us with
  | nil => rfl
  | cons x us ih =>
    rw [List.nodup_cons] at hus
    have ih := ih hus.2
    unfold Spec.itemsOf at ih ⊢
    rw [List.filterMap_cons]
    by_cases hx : x = u
    · subst hx
      rw [if_neg hus.1] at ih
      rcases hG : G x with _ | l
      · simp only [Option.map_none]; rw [ih]; simp
      · simp only [Option.map_some, List.flatMap_cons]; rw [ih]; simp
    · have hm : (u ∈ x :: us) ↔ u ∈ us := by simp [Ne.symm hx]
      rcases hG : G x with _ | l
      · simp only [Option.map_none]; rw [ih]; simp only [hm]
      · simp only [Option.map_some, List.flatMap_cons]; rw [ih]; simp only [hm]; simp [hx]

/-- what the two user-item splits return -/
theorem ui_core {g : BSt K} [IsStrictOrderedRing K] (hg : BiGraph.Built Graph.NonNeg g)
    {m n : Nat} (hm : (BiGraph.ask .numU g).1 = .ok (.num m)) (hn : (BiGraph.ask .numV g).1 = .ok (.num n))
    (hx : Spec.Bipartite m n g) (F : Deal) (ω : Draws) :
    ∃ π : Nat → List Nat, evUi F (List.range g.raw.numU) ω g.raw =
        .ok ((List.range m).filterMap fun u => (F (π u)).1.map fun l => u :: l,
          (List.range m).filterMap fun u => (F (π u)).2.map fun l => u :: l) ∧
      ∀ u < m, (π u).Nodup ∧ ∀ v : Nat, v ∈ π u ↔ ∃ w, (((u : Int), (v : Int)), w) ∈ Spec.listingB g := by
  have hn' := Props.Bi.numV_eq hn
  have hm' := Props.Bi.numU_eq hm
  subst hn' hm'
  have h : ∀ u : Nat, ∃ l, u < g.raw.numU → Ord.evNr .bi u g.raw = .ok l ∧ l.Pairwise (· < ·) ∧
      ∀ v : Nat, v ∈ l ↔ ∃ w, (((u : Int), (v : Int)), w) ∈ Graph.lst g.raw := by
    intro u
    by_cases hu : u < g.raw.numU
    · obtain ⟨l, hl⟩ := Ord.nbr_row (c := .bi) (Props.Bi.fits hg hx) (v := u) hu
      exact ⟨l, fun _ => hl⟩
    · exact ⟨[], fun h => absurd h hu⟩
  choose f hf using h
  obtain ⟨π, h1, h2⟩ := evUi_spec F (r := g.raw) (f := f) (List.range g.raw.numU) List.nodup_range
    (fun u hu => (hf u (List.mem_range.1 hu)).1) ω
  refine ⟨π, h2, ?_⟩
  intro u hu
  rw [Props.Bi.listing_lst hg]
  refine ⟨(h1 u).nodup_iff.2 ((hf u hu).2.1.imp fun h => Nat.ne_of_lt h), fun v => ?_⟩
  rw [(h1 u).mem_iff, (hf u hu).2.2]

end

end Utils
end DHG
