import Verif.Props.Task
import Verif.Props.UtilsData

/-!
# Recommender tasks (C79)
-/

set_option linter.unusedSectionVars false
set_option autoImplicit false

namespace DHG
open Tasks Exper Metrics

/-! ## Specification -/

/-- the inner product of two embeddings -/
def Spec.inner (a b : List ℝ) : ℝ := ∑ k ∈ Finset.range a.length, a.getD k 0 * b.getD k 0

/-- the batch fits the embeddings: its users exist, the embeddings have the same width, and the mask has a
row for every user with `0` or minus infinity for every item -/
structure Spec.Fits (eu ei : List (List ℝ)) (b : Batch) : Prop where
  users : ∀ u ∈ b.users, 0 ≤ u ∧ u < eu.length
  width : ∀ a ∈ eu, ∀ v ∈ ei, a.length = v.length
  rows : b.mask.length = b.users.length
  cols : ∀ r ∈ b.mask, r.length = ei.length ∧ ∀ x ∈ r, x = ⊥ ∨ x = 0

/-- `p` are the ratings of the batch: for every user of the batch one row with an entry for every item,
minus infinity where the mask says so, and else the inner product of the embeddings -/
def Spec.Rated (eu ei : List (List ℝ)) (b : Batch) (p : List (List (WithBot ℝ))) : Prop :=
  p.length = b.users.length ∧
  ∀ (r : Nat) (u : Int), b.users[r]? = some u →
    ∃ a pr mr, eu[u.toNat]? = some a ∧ p[r]? = some pr ∧ b.mask[r]? = some mr ∧ pr.length = ei.length ∧
      ∀ (j : Nat) (v : List ℝ), ei[j]? = some v →
        (mr[j]? = some ⊥ → pr[j]? = some ⊥) ∧ (mr[j]? = some 0 → pr[j]? = some (Spec.inner a v : WithBot ℝ))

variable {St S M : Type}

theorem dot_eq : ∀ (a b : List ℝ), a.length = b.length → dot a b = Spec.inner a b := by
  intro a
  induction a with
  | nil => intro b _; simp [dot, Spec.inner]
  | cons x a ih =>
    intro b h
    cases b with
    | nil => simp at h
    | cons y b =>
      have := ih b (by simpa using h)
      simp only [dot, Spec.inner] at this ⊢
      rw [List.zipWith_cons_cons, List.sum_cons, this, List.length_cons, Finset.sum_range_succ', add_comm]
      simp

theorem row_ok (eu : List (List ℝ)) (u : Int) (h : 0 ≤ u ∧ u < eu.length) :
    row eu u = .ok (eu.getD u.toNat []) := by
  have hlt : u.toNat < eu.length := by omega
  unfold row
  rw [if_neg (by omega), List.getElem?_eq_getElem hlt]
  simp only
  rw [if_neg (by omega), List.getD_eq_getElem?_getD, List.getElem?_eq_getElem hlt]
  rfl

theorem ratings_ok (eu ei : List (List ℝ)) (b : Batch) (h : Spec.Fits eu ei b) :
    ∃ p, ratings true eu ei b.users b.mask = .ok p ∧ Spec.Rated eu ei b p := by
  have hrow : collectE b.users (row eu) = .ok (b.users.map fun u => eu.getD u.toNat []) :=
    collectE_ok fun u hu => row_ok eu u (h.users u hu)
  have hmem : ∀ u ∈ b.users, eu.getD u.toNat [] ∈ eu ∧ eu[u.toNat]? = some (eu.getD u.toNat []) := by
    intro u hu
    have := h.users u hu
    have hlt : u.toNat < eu.length := by omega
    rw [List.getD_eq_getElem?_getD, List.getElem?_eq_getElem hlt]
    exact ⟨List.getElem_mem hlt, rfl⟩
  refine ⟨List.zipWith (fun a m => List.zipWith (fun b x => (dot a b : WithBot ℝ) + x) ei m)
    (b.users.map fun u => eu.getD u.toNat []) b.mask, ?_, ?_, ?_⟩
  · unfold ratings
    rw [hrow]
    simp only [bind, Except.bind]
    rw [if_neg, if_neg (by simp), if_pos ⟨by rw [List.length_map, h.rows], fun r hr => (h.cols r hr).1⟩]
    rw [not_not]
    intro a ha v hv
    obtain ⟨u, hu, rfl⟩ := List.mem_map.1 ha
    exact h.width _ (hmem u hu).1 v hv
  · simp [h.rows]
  · intro r u hu
    have hr : r < b.users.length := (List.getElem?_eq_some_iff.1 hu).1
    have hmr : r < b.mask.length := by rw [h.rows]; exact hr
    have hum : u ∈ b.users := List.mem_of_getElem? hu
    obtain ⟨m1, m2⟩ := hmem u hum
    have hm : b.mask[r]? = some b.mask[r] := List.getElem?_eq_getElem hmr
    obtain ⟨c1, c2⟩ := h.cols _ (List.getElem_mem hmr)
    refine ⟨_, List.zipWith (fun v x => (dot (eu.getD u.toNat []) v : WithBot ℝ) + x) ei b.mask[r], b.mask[r],
      m2, ?_, hm, by simp [c1], ?_⟩
    · rw [List.getElem?_zipWith, List.getElem?_map, hu, hm]
      rfl
    · intro j v hv
      rw [List.getElem?_zipWith, hv]
      constructor
      · intro hx; rw [hx]; simp
      · intro hx
        rw [hx]
        simp only [add_zero]
        rw [dot_eq _ _ (h.width _ m1 v (List.mem_of_getElem? hv))]

theorem rated_unique {eu ei : List (List ℝ)} {b : Batch} (h : Spec.Fits eu ei b) {p q : List (List (WithBot ℝ))}
    (hp : Spec.Rated eu ei b p) (hq : Spec.Rated eu ei b q) : p = q := by
  refine List.ext_getElem? fun r => ?_
  rcases hu : b.users[r]? with _ | u
  · rw [List.getElem?_eq_none_iff] at hu
    rw [List.getElem?_eq_none_iff.2 (by rw [hp.1]; exact hu), List.getElem?_eq_none_iff.2 (by rw [hq.1]; exact hu)]
  · obtain ⟨a, pr, mr, a1, a2, a3, a4, a5⟩ := hp.2 r u hu
    obtain ⟨a', qr, mr', b1, b2, b3, b4, b5⟩ := hq.2 r u hu
    rw [a1] at b1; cases b1
    rw [a3] at b3; cases b3
    rw [a2, b2]
    congr 1
    refine List.ext_getElem? fun j => ?_
    rcases hv : ei[j]? with _ | v
    · rw [List.getElem?_eq_none_iff] at hv
      rw [List.getElem?_eq_none_iff.2 (by rw [a4]; exact hv), List.getElem?_eq_none_iff.2 (by rw [b4]; exact hv)]
    · obtain ⟨c1, c2⟩ := h.cols mr (List.mem_of_getElem? a3)
      have hj : j < mr.length := by rw [c1]; exact (List.getElem?_eq_some_iff.1 hv).1
      have hm : mr[j]? = some mr[j] := List.getElem?_eq_getElem hj
      rcases c2 _ (List.getElem_mem hj) with hx | hx
      · rw [hx] at hm
        rw [(a5 j v hv).1 hm, (b5 j v hv).1 hm]
      · rw [hx] at hm
        rw [(a5 j v hv).2 hm, (b5 j v hv).2 hm]

/-! ## C79 -/

theorem validateLoop_ok (emb : Embed St M) (m : M) (st : Option St) (eu ei : List (List ℝ))
    (he : emb m st = .ok (eu, ei)) (f : Metric RIn) : ∀ (bs : List Batch) (ps : List (List (List (WithBot ℝ))))
    (ss : List (List (Option ℝ))) (ev : Ev RIn), ev.vfun = f →
    List.Forall₂ (fun b p => ratings true eu ei b.users b.mask = .ok p) bs ps →
    List.Forall₂ (fun x s => f x (some true) = .ok (.batch s)) (List.zipWith (fun b p => (b.truth, p)) bs ps) ss →
    rValidateLoop emb m st bs ev =
      (.ok (), ev.run ((List.zipWith (fun b p => (b.truth, p)) bs ps).map .validateAdd)) := by
  intro bs
  induction bs with
  | nil => intro ps ss ev _ h1 _; cases h1; rfl
  | cons b bs ih =>
    intro ps ss ev hf h1 h2
    cases h1 with
    | cons h1 h1' =>
      rename_i p ps
      rw [List.zipWith_cons_cons] at h2 ⊢
      cases h2 with
      | cons h2 h2' =>
        have ha : Ev.validateAdd (b.truth, p) ev = (.ok (), ev.after (.validateAdd (b.truth, p))) := by
          simp only [Ev.after, Ev.validateAdd, hf, h2]
        unfold rValidateLoop
        simp only [he, h1, ha]
        rw [ih ps _ _ (by rw [← hf]; exact Ev.run_vfun ev [.validateAdd (b.truth, p)]) h1' h2']
        rfl

theorem vInputs_map (xs : List RIn) : Ev.vInputs (xs.map Ev.Op.validateAdd) = xs := by
  induction xs with
  | nil => rfl
  | cons x xs ih => simp only [List.map_cons, Ev.vInputs, ih]

theorem tInputs_map (xs : List RIn) : Ev.tInputs (xs.map Ev.Op.testAdd) = xs := by
  induction xs with
  | nil => rfl
  | cons x xs ih => simp only [List.map_cons, Ev.tInputs, ih]

theorem ratings_list {eu ei : List (List ℝ)} {bs : List Batch} {ss : List (List (Option ℝ))} {f : Metric RIn}
    (hfit : ∀ b ∈ bs, Spec.Fits eu ei b)
    (hs : List.Forall₂ (fun b s => ∀ p, Spec.Rated eu ei b p → f (b.truth, p) (some true) = .ok (.batch s)) bs ss) :
    ∃ ps, List.Forall₂ (fun b p => ratings true eu ei b.users b.mask = .ok p) bs ps ∧
      List.Forall₂ (fun x s => f x (some true) = .ok (.batch s)) (List.zipWith (fun b p => (b.truth, p)) bs ps) ss := by
  induction hs with
  | nil => exact ⟨[], .nil, .nil⟩
  | @cons b s bs ss h _ ih =>
    obtain ⟨ps, h1, h2⟩ := ih fun b hb => hfit b (List.mem_cons_of_mem _ hb)
    obtain ⟨p, h3, h4⟩ := ratings_ok eu ei b (hfit b List.mem_cons_self)
    exact ⟨p :: ps, .cons h3 h1, .cons (h p h4) h2⟩

/-- C79.  Validation: at the start of an epoch, whatever was evaluated before, the result is the mean over
all users of all batches of the metric of their ratings, with minus infinity for masked items; afterwards the
evaluator is at the start of an epoch again. -/
theorem C79_validate {cfgs : List (String × Metric RIn)} {v : Int} {e0 : Ev RIn} (hnew : Ev.new cfgs v = .ok e0)
    {name : String} {f : Metric RIn} (hf : cfgs[v.toNat]? = some (name, f))
    (h1 : List (Ev.Op RIn)) (hstart : Spec.ValidationStart e0 h1)
    (emb : Embed St M) (m : M) (st : Option St) (eu ei : List (List ℝ)) (he : emb m st = .ok (eu, ei))
    (bs : List Batch) (hne : bs ≠ []) (hfit : ∀ b ∈ bs, Spec.Fits eu ei b) (ss : List (List (Option ℝ)))
    (hs : List.Forall₂ (fun b s => ∀ p, Spec.Rated eu ei b p → f (b.truth, p) (some true) = .ok (.batch s)) bs ss) :
    ∃ h2, rValidate emb m st bs (e0.run h1) = (.ok (Spec.mean ss.flatten), e0.run (h1 ++ h2)) ∧
      Spec.ValidationStart e0 (h1 ++ h2) := by
  obtain ⟨ps, g1, g2⟩ := ratings_list hfit hs
  have hvf : (e0.run h1).vfun = f := by rw [Ev.run_vfun, Props.vfun_new hnew hf]
  have hloop := validateLoop_ok emb m st eu ei he f bs ps ss (e0.run h1) hvf g1 g2
  set xs := List.zipWith (fun b p => (b.truth, p)) bs ps with hxs
  have hxne : xs ≠ [] := by
    intro h0
    rw [h0] at g2
    cases g2
    cases hs
    exact hne rfl
  have hres := Props.C62_validate_epoch hnew hf h1 hstart (xs.map .validateAdd)
    (by intro op hop; obtain ⟨x, _, rfl⟩ := List.mem_map.1 hop; nofun)
    (by rw [vInputs_map]; exact hxne) ss (by rw [vInputs_map]; exact g2)
  refine ⟨xs.map .validateAdd ++ [.validateRes], ?_, .inr ⟨h1 ++ xs.map .validateAdd, _, by simp, hres⟩⟩
  unfold rValidate
  rw [hloop]
  simp only
  rw [← Ev.run_append]
  rw [show h1 ++ (xs.map Ev.Op.validateAdd ++ [.validateRes]) = (h1 ++ xs.map .validateAdd) ++ [.validateRes] by simp,
    Ev.run_append e0 (h1 ++ xs.map Ev.Op.validateAdd) [.validateRes]]
  exact Prod.ext hres rfl

/-! ### the loader of a `UserItemDataset` -/

/-- the batch a loader makes of the records of the given users -/
def Spec.LoaderBatch (d : Utils.UIData) (us : List Nat) (b : Batch) : Prop :=
  ∃ recs, List.Forall₂ (fun (u : Nat) r => d.getTest (K := ℝ) u = .ok r) us recs ∧
    b = ⟨recs.map fun r => r.1, recs.map fun r => r.2.1, recs.map fun r => r.2.2⟩

/-- the true ratings of a user: 1 for the items of the test pairs -/
noncomputable def Spec.truthRow (pairs : List (Int × Int)) (ni u : Nat) : List ℝ :=
  (List.range ni).map fun j : Nat => if ((u : Int), (j : Int)) ∈ pairs then 1 else 0

/-- the predicted ratings of a user: minus infinity for the items of the training pairs, else the inner
product of the embeddings -/
noncomputable def Spec.ratingRow (tp : List (Int × Int)) (eu ei : List (List ℝ)) (u : Nat) : List (WithBot ℝ) :=
  (List.range ei.length).map fun j : Nat =>
    if ((u : Int), (j : Int)) ∈ tp then ⊥ else (Spec.inner (eu.getD u []) (ei.getD j []) : WithBot ℝ)

theorem mean_perm {xs ys : List (Option ℝ)} (h : xs.Perm ys) : Spec.mean xs = Spec.mean ys := by
  unfold Spec.mean Spec.average
  have h0 : (xs = [] ∨ none ∈ xs) ↔ (ys = [] ∨ none ∈ ys) := by
    rw [h.mem_iff]
    constructor
    · rintro (rfl | h1)
      · exact .inl h.nil_eq.symm
      · exact .inr h1
    · rintro (rfl | h1)
      · exact .inl h.eq_nil
      · exact .inr h1
  simp only [h0, (h.map _).sum_eq, List.length_map, h.length_eq]

theorem record_eq {nu : Int} {ni : Nat} {pairs tp : List (Int × Int)} {strict : Bool} {d : Utils.UIData}
    (hd : Utils.UIData.new nu ni pairs (some tp) strict "test" = .ok d)
    (hp : ∀ e ∈ pairs, 0 ≤ e.2 ∧ e.2 < ni) (ht : ∀ e ∈ tp, 0 ≤ e.2 ∧ e.2 < ni) (u : Nat)
    {r : Int × List (WithBot ℝ) × List ℝ} (hr : d.getTest (K := ℝ) u = .ok r) :
    r = ((u : Int), (List.range ni).map (fun j : Nat => if ((u : Int), (j : Int)) ∈ tp then (⊥ : WithBot ℝ) else 0),
      Spec.truthRow pairs ni u) := by
  obtain ⟨m, t, h1, h2, h3, h4⟩ := Props.C56_test_record (K := ℝ) hd hp ht u
  rw [h1] at hr
  cases hr
  congr 2
  · refine List.ext_getElem? fun j => ?_
    by_cases hj : j < ni
    · rw [List.getElem?_map, List.getElem?_range hj]
      by_cases hm : ((u : Int), (j : Int)) ∈ tp
      · rw [(h4 j hj).1 hm]; simp [hm]
      · rw [(h4 j hj).2.1 hm]; simp [hm]
    · rw [List.getElem?_eq_none_iff.2 (by omega), List.getElem?_eq_none_iff.2 (by simp; omega)]
  · unfold Spec.truthRow
    refine List.ext_getElem? fun j => ?_
    by_cases hj : j < ni
    · rw [List.getElem?_map, List.getElem?_range hj]
      by_cases hm : ((u : Int), (j : Int)) ∈ pairs
      · rw [(h4 j hj).2.2.1 hm]; simp [hm]
      · rw [(h4 j hj).2.2.2 hm]; simp [hm]
    · rw [List.getElem?_eq_none_iff.2 (by omega), List.getElem?_eq_none_iff.2 (by simp; omega)]

theorem batch_eq {nu : Int} {ni : Nat} {pairs tp : List (Int × Int)} {strict : Bool} {d : Utils.UIData}
    (hd : Utils.UIData.new nu ni pairs (some tp) strict "test" = .ok d)
    (hp : ∀ e ∈ pairs, 0 ≤ e.2 ∧ e.2 < ni) (ht : ∀ e ∈ tp, 0 ≤ e.2 ∧ e.2 < ni) {us : List Nat} {b : Batch}
    (hb : Spec.LoaderBatch d us b) :
    b.users = us.map (fun u : Nat => (u : Int)) ∧
      b.mask = us.map (fun u : Nat => (List.range ni).map fun j : Nat => if ((u : Int), (j : Int)) ∈ tp then (⊥ : WithBot ℝ) else 0) ∧
      b.truth = us.map (Spec.truthRow pairs ni) := by
  obtain ⟨recs, h1, rfl⟩ := hb
  induction h1 with
  | nil => exact ⟨rfl, rfl, rfl⟩
  | cons h _ ih =>
    have := record_eq hd hp ht _ h
    subst this
    dsimp only at ih
    simp only [List.map_cons]
    exact ⟨by rw [ih.1], by rw [ih.2.1], by rw [ih.2.2]⟩

theorem batch_rated {eu ei : List (List ℝ)} {tp : List (Int × Int)} {us : List Nat} {b : Batch}
    (hu : ∀ u ∈ us, u < eu.length) (hw : ∀ a ∈ eu, ∀ v ∈ ei, a.length = v.length)
    (h1 : b.users = us.map (fun u : Nat => (u : Int)))
    (h2 : b.mask = us.map (fun u : Nat => (List.range ei.length).map fun j : Nat =>
      if ((u : Int), (j : Int)) ∈ tp then (⊥ : WithBot ℝ) else 0)) :
    Spec.Fits eu ei b ∧ ∀ p, Spec.Rated eu ei b p → p = us.map (Spec.ratingRow tp eu ei) := by
  have hfit : Spec.Fits eu ei b := by
    refine ⟨?_, hw, by rw [h1, h2]; simp, ?_⟩
    · intro u hu'
      rw [h1] at hu'
      obtain ⟨k, hk, rfl⟩ := List.mem_map.1 hu'
      have := hu k hk
      omega
    · intro r hr
      rw [h2] at hr
      obtain ⟨k, hk, rfl⟩ := List.mem_map.1 hr
      refine ⟨by simp, ?_⟩
      intro x hx
      obtain ⟨j, _, rfl⟩ := List.mem_map.1 hx
      split
      · exact .inl rfl
      · exact .inr rfl
  refine ⟨hfit, fun p hp => rated_unique hfit hp ?_⟩
  refine ⟨by rw [h1]; simp, ?_⟩
  intro r u hr
  rw [h1, List.getElem?_map] at hr
  rcases hk : us[r]? with _ | k
  · rw [hk] at hr; cases hr
  rw [hk] at hr
  cases hr
  have hkl := hu k (List.mem_of_getElem? hk)
  refine ⟨eu.getD k [], Spec.ratingRow tp eu ei k, (List.range ei.length).map fun j : Nat =>
      if ((k : Int), (j : Int)) ∈ tp then (⊥ : WithBot ℝ) else 0, ?_, ?_, ?_, by simp [Spec.ratingRow], ?_⟩
  · rw [Int.toNat_natCast, List.getD_eq_getElem?_getD, List.getElem?_eq_getElem hkl]; rfl
  · rw [List.getElem?_map, hk]; rfl
  · rw [h2, List.getElem?_map, hk]; rfl
  · intro j v hv
    have hj : j < ei.length := (List.getElem?_eq_some_iff.1 hv).1
    have hvj : ei.getD j [] = v := by rw [List.getD_eq_getElem?_getD, hv]; rfl
    unfold Spec.ratingRow
    rw [List.getElem?_map, List.getElem?_map, List.getElem?_range hj, Option.map_some, Option.map_some, hvj]
    by_cases hm : ((k : Int), (j : Int)) ∈ tp
    · simp [hm]
    · simp [hm]

/-- C79.  With the loader of a `UserItemDataset` for testing, in batches of any sizes and in any order, validation
scores every user exactly once: with the inner products of the embeddings as ratings, except that the items of
the user's training set are rated minus infinity, against the items of the user's test set; the result is the
mean over all users. -/
theorem C79_users {nu ni : Nat} {pairs tp : List (Int × Int)} {strict : Bool} {d : Utils.UIData}
    (hd : Utils.UIData.new nu ni pairs (some tp) strict "test" = .ok d)
    (hp : ∀ e ∈ pairs, 0 ≤ e.2 ∧ e.2 < ni) (ht : ∀ e ∈ tp, 0 ≤ e.2 ∧ e.2 < ni)
    (groups : List (List Nat)) (hg : groups.flatten.Perm (List.range nu)) (h0 : 0 < nu)
    (bs : List Batch) (hb : List.Forall₂ (Spec.LoaderBatch d) groups bs)
    {cfgs : List (String × Metric RIn)} {v : Int} {e0 : Ev RIn} (hnew : Ev.new cfgs v = .ok e0)
    {name : String} {f : Metric RIn} (hf : cfgs[v.toNat]? = some (name, f))
    (g : List ℝ → List (WithBot ℝ) → Option ℝ)
    (hfg : ∀ t p, t.length = p.length → f (t, p) (some true) = .ok (.batch (List.zipWith g t p)))
    (h1 : List (Ev.Op RIn)) (hstart : Spec.ValidationStart e0 h1)
    (emb : Embed St M) (m : M) (st : Option St) (eu ei : List (List ℝ)) (he : emb m st = .ok (eu, ei))
    (hu : eu.length = nu) (hi : ei.length = ni) (hw : ∀ a ∈ eu, ∀ v ∈ ei, a.length = v.length) :
    (rValidate emb m st bs (e0.run h1)).1
      = .ok (Spec.mean ((List.range nu).map fun u => g (Spec.truthRow pairs ni u) (Spec.ratingRow tp eu ei u))) := by
  have hmem : ∀ us ∈ groups, ∀ u ∈ us, u < eu.length := by
    intro us hus u hu'
    have := hg.mem_iff.1 (List.mem_flatten.2 ⟨us, hus, hu'⟩)
    rw [hu]; exact List.mem_range.1 this
  have hne : groups ≠ [] := by
    rintro rfl
    have := hg.length_eq
    simp at this
    omega
  have key : (∀ b ∈ bs, Spec.Fits eu ei b) ∧ List.Forall₂ (fun b s => ∀ p, Spec.Rated eu ei b p →
      f (b.truth, p) (some true) = .ok (.batch s)) bs
      (groups.map fun us => us.map fun u => g (Spec.truthRow pairs ni u) (Spec.ratingRow tp eu ei u)) := by
    clear hg hne
    induction hb with
    | nil => exact ⟨nofun, .nil⟩
    | @cons us b groups bs hb _ ih =>
      obtain ⟨i1, i2⟩ := ih fun us hus => hmem us (List.mem_cons_of_mem _ hus)
      obtain ⟨b1, b2, b3⟩ := batch_eq hd hp ht hb
      rw [← hi] at b2
      obtain ⟨c1, c2⟩ := batch_rated (hmem us List.mem_cons_self) hw b1 b2
      refine ⟨?_, .cons ?_ i2⟩
      · intro x hx
        rcases List.mem_cons.1 hx with rfl | hx
        · exact c1
        · exact i1 x hx
      · intro p hpr
        rw [c2 p hpr, b3, hfg _ _ (by simp), List.zipWith_map_left, List.zipWith_map_right, List.zipWith_self]
  obtain ⟨h2, hv, _⟩ := C79_validate hnew hf h1 hstart emb m st eu ei he bs (by
    rintro rfl
    cases hb
    exact hne rfl) key.1 _ key.2
  rw [hv]
  simp only
  congr 1
  rw [show (groups.map fun us => us.map fun u => g (Spec.truthRow pairs ni u) (Spec.ratingRow tp eu ei u)).flatten
    = groups.flatten.map fun u => g (Spec.truthRow pairs ni u) (Spec.ratingRow tp eu ei u) by rw [List.map_flatten]]
  exact mean_perm (hg.map _)

/-! ### testing -/

/-- all entries of the test results are lists of arrays -/
def AllArrs (ev : Ev RIn) : Prop := ∀ name en, Dict.get? ev.tres name = some en → ∃ bs, en = .arrs bs

theorem addLoop_arrs (x : RIn) (fs : List (String × Metric RIn))
    (hfs : ∀ p ∈ fs, ∃ s, p.2 x (some true) = .ok (.batch s)) :
    ∀ ev : Ev RIn, AllArrs ev → (Ev.addLoop x fs ev).1 = .ok () ∧ AllArrs (Ev.addLoop x fs ev).2 := by
  induction fs with
  | nil => intro ev h; exact ⟨rfl, h⟩
  | cons p fs ih =>
    intro ev h
    obtain ⟨name, f⟩ := p
    obtain ⟨s, hs⟩ := hfs (name, f) List.mem_cons_self
    have hen : ∃ bs, Ev.addEntry (ev.tres.get? name) (.batch s) = .ok (.arrs bs) := by
      rcases hg : Dict.get? ev.tres name with _ | en
      · exact ⟨_, rfl⟩
      · obtain ⟨bs, rfl⟩ := h name en hg
        exact ⟨_, rfl⟩
    obtain ⟨bs, hbs⟩ := hen
    simp only at hs
    simp only [Ev.addLoop, hs, hbs]
    refine ih (fun p hp => hfs p (List.mem_cons_of_mem _ hp)) _ ?_
    intro n en hn
    simp only [Dict.get?_set] at hn
    split at hn
    · cases hn; exact ⟨_, rfl⟩
    · exact h n en hn

theorem testLoop_ok (emb : Embed St M) (m : M) (st : Option St) (eu ei : List (List ℝ))
    (he : emb m st = .ok (eu, ei)) (fs : List (String × Metric RIn)) : ∀ (bs : List Batch)
    (ps : List (List (List (WithBot ℝ)))) (ev : Ev RIn), ev.markers.zip ev.funcs = fs → AllArrs ev →
    List.Forall₂ (fun b p => ratings true eu ei b.users b.mask = .ok p) bs ps →
    (∀ x ∈ List.zipWith (fun b p => (b.truth, p)) bs ps, ∀ p ∈ fs, ∃ s, p.2 x (some true) = .ok (.batch s)) →
    rTestLoop emb true m st bs ev = (.ok (), ev.run ((List.zipWith (fun b p => (b.truth, p)) bs ps).map .testAdd)) := by
  intro bs
  induction bs with
  | nil => intro ps ev _ _ h1 _; cases h1; rfl
  | cons b bs ih =>
    intro ps ev hf hev h1 h2
    cases h1 with
    | cons h1 h1' =>
      rename_i p ps
      rw [List.zipWith_cons_cons] at h2 ⊢
      have hl := addLoop_arrs (b.truth, p) fs (h2 _ List.mem_cons_self) ev hev
      have ha : Ev.testAdd (b.truth, p) ev = (.ok (), ev.after (.testAdd (b.truth, p))) := by
        refine Prod.ext ?_ rfl
        simp only [Ev.testAdd, hf]
        exact hl.1
      have hc := Ev.after_config ev (.testAdd (b.truth, p))
      unfold rTestLoop
      simp only [he, h1, ha]
      rw [ih ps _ (by rw [hc.2.1, hc.2.2]; exact hf) ?_ h1' (fun x hx => h2 x (List.mem_cons_of_mem _ hx))]
      · rfl
      · simp only [Ev.after, Ev.testAdd, hf]; exact hl.2

theorem forall2_left {α β : Type} {R : α → β → Prop} {l : List α} {l' : List β} (h : List.Forall₂ R l l') :
    ∀ x ∈ l, ∃ y, R x y := by
  induction h with
  | nil => nofun
  | cons h _ ih =>
    intro x hx
    rcases List.mem_cons.1 hx with rfl | hx
    · exact ⟨_, h⟩
    · exact ih x hx

/-- C79.  Test: at the start of an epoch the results have exactly the markers of the metrics as keys, and under
each the mean over all users of all batches of the metric of their ratings.  Missing: a loader whose tensors are
on another device. -/
theorem C79_test_partial {cfgs : List (String × Metric RIn)} {v : Int} {e0 : Ev RIn} (hnew : Ev.new cfgs v = .ok e0)
    (hnd : (cfgs.map Prod.fst).Nodup) (h1 : List (Ev.Op RIn)) (hstart : Spec.TestStart e0 h1)
    (emb : Embed St M) (m : M) (st : Option St) (eu ei : List (List ℝ)) (he : emb m st = .ok (eu, ei))
    (bs : List Batch) (hne : bs ≠ []) (hfit : ∀ b ∈ bs, Spec.Fits eu ei b) (ss : String → List (List (Option ℝ)))
    (hs : ∀ c ∈ cfgs, List.Forall₂ (fun b s => ∀ p, Spec.Rated eu ei b p →
      c.2 (b.truth, p) (some true) = .ok (.batch s)) bs (ss c.1)) :
    ∃ ref e1, rTest emb true m st bs (e0.run h1) = (.ok ref, e1) ∧
      ∀ name, Dict.get? (e1.look ref) name
        = if name ∈ cfgs.map Prod.fst then some (.num (Spec.mean (ss name).flatten)) else none := by
  obtain ⟨_, hn2, _, hn4, hn5⟩ := Props.vres_new hnew
  have hzip : e0.markers.zip e0.funcs = cfgs := by
    rw [hn4, hn5, List.zip_map']; simp
  obtain ⟨c1, c2, c3⟩ := Ev.run_config e0 h1
  have hempty : (e0.run h1).tres = [] := by
    rcases hstart with rfl | ⟨h', x, rfl, hx⟩
    · exact hn2
    · rw [Ev.run_append]; exact Props.testRes_flush hx
  have hps : ∃ ps, List.Forall₂ (fun b p => ratings true eu ei b.users b.mask = .ok p) bs ps := by
    clear hs hne
    induction bs with
    | nil => exact ⟨[], .nil⟩
    | cons b bs ih =>
      obtain ⟨p, h3, _⟩ := ratings_ok eu ei b (hfit b List.mem_cons_self)
      obtain ⟨ps, h4⟩ := ih fun b hb => hfit b (List.mem_cons_of_mem _ hb)
      exact ⟨p :: ps, .cons h3 h4⟩
  obtain ⟨ps, hps⟩ := hps
  have hall : ∀ c ∈ cfgs, List.Forall₂ (fun x s => c.2 x (some true) = .ok (.batch s))
      (List.zipWith (fun b p => (b.truth, p)) bs ps) (ss c.1) := by
    intro c hc
    obtain ⟨ps', g1, g2⟩ := ratings_list hfit (hs c hc)
    have : ps' = ps := by
      clear * - g1 hps
      induction hps generalizing ps' with
      | nil => cases g1; rfl
      | cons h _ ih =>
        cases g1 with
        | cons h' g1 => rw [h] at h'; cases h'; rw [ih _ g1]
    rw [← this]; exact g2
  have hloop := testLoop_ok emb m st eu ei he cfgs bs ps (e0.run h1) (by rw [c2, c3]; exact hzip)
    (by intro n en hn; rw [hempty] at hn; cases hn) hps (by
      intro x hx c hc
      have := hall c hc
      exact forall2_left this x hx)
  set xs := List.zipWith (fun b p => (b.truth, p)) bs ps with hxs
  have hxne : xs ≠ [] := by
    intro h0
    cases hps with
    | nil => exact hne rfl
    | cons _ _ => rw [hxs, List.zipWith_cons_cons] at h0; cases h0
  obtain ⟨ref, r1, r2⟩ := Props.C62_test_epoch hnew hnd h1 hstart (xs.map .testAdd)
    (by intro op hop; obtain ⟨x, _, rfl⟩ := List.mem_map.1 hop; nofun)
    (by rw [tInputs_map]; exact hxne) (fun n => (ss n).map .batch) (fun n => .num (Spec.mean (ss n).flatten)) (by
      intro c hc
      refine ⟨?_, .scores _⟩
      rw [tInputs_map, List.forall₂_map_right_iff]
      exact hall c hc)
  refine ⟨ref, (Ev.testRes (e0.run (h1 ++ xs.map .testAdd))).2, ?_, r2⟩
  unfold rTest
  rw [hloop]
  simp only
  rw [← Ev.run_append]
  exact Prod.ext r1 rfl

/-- C79 fails for a task on another device than its loader: validation works (`C79_validate`), but every test
raises `RuntimeError`, and so does the end of every run. -/
theorem C79_device_false (emb : Embed St M) (m : M) (st : Option St) (eu ei : List (List ℝ))
    (he : emb m st = .ok (eu, ei)) (bs : List Batch) (hne : bs ≠ []) (hfit : ∀ b ∈ bs, Spec.Fits eu ei b) (ev : Ev RIn) :
    rTest emb false m st bs ev = (.error .runtime, ev) := by
  obtain ⟨b, bs, rfl⟩ := List.exists_cons_of_ne_nil hne
  have hf := hfit b List.mem_cons_self
  have hr : ratings false eu ei b.users b.mask = .error .runtime := by
    unfold ratings
    rw [collectE_ok fun u hu => row_ok eu u (hf.users u hu)]
    simp only [bind, Except.bind]
    split
    · rfl
    · rfl
  unfold rTest rTestLoop
  simp only [he, hr]

/-- the structure of a trial: the one the builder makes, or that of the data when there is no builder -/
def Spec.TrialStructure (n : RNet St S M) (d : RData St) (st : Option St) : Prop :=
  (n.built? ≠ none → st = n.built?) ∧ (n.built? = none → st = d.struct?)

/-- the training state after epoch `e` when every batch of every epoch is used once, in order, and the
scheduler steps between the epochs -/
def Spec.recTrained (learn : S → List Int × List Int × List Int → S) (step : S → S) (init : S)
    (loader : Nat → List (List Int × List Int × List Int)) : Nat → S
  | 0 => (loader 0).foldl learn init
  | e + 1 => (loader (e + 1)).foldl learn (step (Spec.recTrained learn step init loader e))

/-- C79.  Training uses every batch of every epoch exactly once, in the order of the loader, on the structure
of the trial; validation scores the model on that structure, which is also the one that is saved. -/
theorem C79_training (ev : Ev RIn) (d : RData St) (n : RNet St S M) {st : Option St}
    (hst : Spec.TrialStructure n d st) {learn : S → List Int × List Int × List Int → S}
    (hl : ∀ b s, n.learn st b s = .ok (learn s b)) :
    (∀ e, (Spec.trained (rTrial ev d n) e).1 = Spec.recTrained learn n.step n.init d.trainLoader e) ∧
    (rTrial ev d n).struct? = st ∧
    ∀ e s, ((rTrial ev d n).validate e s).map Prod.fst =
      lift (rValidate n.embed (n.modelOf s.1) st d.testLoader s.2).1 := by
  have hs : rStruct n d = st := by
    unfold rStruct
    cases hb : n.built? with
    | none => exact (hst.2 hb).symm
    | some x => rw [hst.1 (by simp [hb]), hb]
  have ht : ∀ bs s, rTrain n st bs s = .ok (bs.foldl learn s) := by
    intro bs
    induction bs with
    | nil => intro s; rfl
    | cons b bs ih => intro s; simp only [rTrain, hl, bind, Except.bind, ih]; rfl
  have h1 : ∀ e s, (Spec.trainStep (rTrial ev d n) e s).1 = (d.trainLoader e).foldl learn s.1 := by
    intro e s
    simp only [Spec.trainStep, rTrial, hs, ht, bind, Except.bind, lift]
  have h2 : ∀ e s, (Spec.validated (rTrial ev d n) e s).1 = s.1 := by
    intro e s
    simp only [Spec.validated, rTrial]
    rcases rValidate n.embed (n.modelOf s.1) (rStruct n d) d.testLoader s.2 with ⟨_ | _, _⟩ <;> rfl
  refine ⟨fun e => ?_, hs, fun e s => ?_⟩
  · induction e with
    | zero => exact h1 0 _
    | succ e ih =>
      rw [Spec.trained, h1, Spec.recTrained, ← ih]
      show (d.trainLoader (e + 1)).foldl learn (n.step (Spec.validated (rTrial ev d n) e _).1) = _
      rw [h2]
  · simp only [rTrial, hs]
    rcases rValidate n.embed (n.modelOf s.1) st d.testLoader s.2 with ⟨_ | _, _⟩ <;> rfl

/-- C79.  Without a structure (the model needs none), experiments fail with `KeyError` when they save their
structure: no run of a task without `structure` in its data and without a `structure_builder` succeeds. -/
theorem C79_no_structure_false (ev : Ev RIn) (d : RData St) (n : RNet St S M) (hd : d.struct? = none)
    (hb : n.built? = none) (direction : String) (maxEpoch number : Nat) (c : Cache M St) (x : ℝ) :
    (experiment direction maxEpoch number (rTrial ev d n) c).1 ≠ .ok x := by
  have hst : (rTrial ev d n).struct? = none := by simp [rTrial, rStruct, hb, hd]
  unfold experiment
  split
  · nofun
  split
  · nofun
  rcases epochs (decide (direction = "maximize")) (rTrial ev d n) maxEpoch 0 (rTrial ev d n).init none with e | (_ | ⟨y, m⟩)
  · nofun
  · nofun
  · simp only [hst]; nofun

/-- C79 fails after a validation that was interrupted by an exception: the batches scored before count in the
next result. -/
theorem C79_interrupted_false {cfgs : List (String × Metric RIn)} {v : Int} {e0 : Ev RIn} (hnew : Ev.new cfgs v = .ok e0)
    {name : String} {f : Metric RIn} (hf : cfgs[v.toNat]? = some (name, f))
    (emb : Embed St M) (m : M) (st : Option St) (eu ei : List (List ℝ)) (he : emb m st = .ok (eu, ei))
    (b bad : Batch) (hfit : Spec.Fits eu ei b) (er : Err) (hbad : ratings true eu ei bad.users bad.mask = .error er)
    (s : List (Option ℝ)) (hs : ∀ p, Spec.Rated eu ei b p → f (b.truth, p) (some true) = .ok (.batch s))
    (bs : List Batch) (hfits : ∀ b ∈ bs, Spec.Fits eu ei b) (ss : List (List (Option ℝ)))
    (hss : List.Forall₂ (fun b s => ∀ p, Spec.Rated eu ei b p → f (b.truth, p) (some true) = .ok (.batch s)) bs ss) :
    (rValidate emb m st [b, bad] e0).1 = .error er ∧
      (rValidate emb m st bs (rValidate emb m st [b, bad] e0).2).1 = .ok (Spec.mean (s ++ ss.flatten)) := by
  obtain ⟨p, hp1, hp2⟩ := ratings_ok eu ei b hfit
  have hvf : e0.vfun = f := Props.vfun_new hnew hf
  have hadd : Ev.validateAdd (b.truth, p) e0 = (.ok (), e0.run [.validateAdd (b.truth, p)]) := by
    simp only [Ev.run, List.foldl, Ev.after, Ev.validateAdd, hvf, hs p hp2]
  have hbadrun : rValidate emb m st [b, bad] e0 = (.error er, e0.run [.validateAdd (b.truth, p)]) := by
    unfold rValidate
    simp only [rValidateLoop, he, hp1, hadd, hbad]
  refine ⟨by rw [hbadrun], ?_⟩
  rw [hbadrun]
  obtain ⟨ps, g1, g2⟩ := ratings_list hfits hss
  have hloop := validateLoop_ok emb m st eu ei he f bs ps ss (e0.run [.validateAdd (b.truth, p)])
    (by rw [Ev.run_vfun, hvf]) g1 g2
  set xs := List.zipWith (fun b p => (b.truth, p)) bs ps with hxs
  have hres := Props.C62_validate_epoch hnew hf [] (.inl rfl) (((b.truth, p) :: xs).map .validateAdd)
    (by intro op hop; obtain ⟨x, _, rfl⟩ := List.mem_map.1 hop; nofun)
    (by rw [vInputs_map]; simp) (s :: ss) (by rw [vInputs_map]; exact .cons (hs p hp2) g2)
  unfold rValidate
  simp only
  rw [hloop]
  simp only
  rw [List.flatten_cons] at hres
  exact hres

/-! ### the best model is chosen by the test data -/

/-- the sum of the ratings of the true items, for each user -/
noncomputable def exSum : Metric RIn := fun x _ =>
  .ok (.batch (List.zipWith (fun t p => some (List.zipWith (fun a b => a * (WithBot.unbotD 0 b)) t p).sum) x.1 x.2))

/-- an evaluator with this metric -/
noncomputable def exREv (lv : Option (Option ℝ)) : Ev RIn :=
  { vidx := 0, markers := ["sum"], funcs := [exSum], vres := [], tres := [], lastV := lv, objs := [[]], lastT := 0 }

/-- one user and two items; the given items are the user's test items -/
def exRData (t : List ℝ) : RData Unit := ⟨some (), fun _ => [([0], [0], [1])], [⟨[0], [[0, 0]], [t]⟩]⟩

/-- a model that rates the items 1 and 2 after the first epoch, and 2 and 1 after the second -/
noncomputable def exRNet : RNet Unit Nat Nat where
  init := 0
  learn := fun _ _ s => .ok (s + 1)
  embed := fun m _ => .ok ([[1]], [[(m : ℝ)], [3 - m]])
  modelOf := id
  step := id
  prune := fun _ => false
  hasOptimizer := true
  hasCriterion := true
  built? := none

theorem exR_validate (a b : ℝ) (m : Nat) (lv : Option (Option ℝ)) :
    rValidate exRNet.embed m (some ()) (exRData [a, b]).testLoader (exREv lv)
      = (.ok (some (a * m + b * (3 - m))), exREv (some (some (a * m + b * (3 - m))))) := by
  have hr : ratings true [[1]] [[(m : ℝ)], [3 - m]] [0] [[0, 0]] = .ok [[((m : ℝ) : WithBot ℝ), ((3 - m : ℝ) : WithBot ℝ)]] := by
    simp [ratings, collectE, row, dot, bind, Except.bind]
  simp only [rValidate, rValidateLoop, exRData, exRNet, hr, Ev.validateAdd, Ev.vfun, exREv, exSum, Ev.validateRes,
    List.getD_cons_zero, List.zipWith_cons_cons, List.zipWith_nil_left, List.zipWith_nil_right, Ev.slabs, List.map_cons, List.map_nil, List.nil_append,
    WithBot.unbotD_coe, List.sum_cons, List.sum_nil, add_zero]
  have : Ev.stackMean [[[some (a * (m : ℝ) + b * (3 - m))]]] = .ok (some (a * (m : ℝ) + b * (3 - m))) := by
    unfold Ev.stackMean
    rw [if_pos (by simp), Props.fmean_eq]
    simp only [List.flatten_cons, List.flatten_nil, List.append_nil, Props.mean_singleton]
  rw [this]

/-- C79 fails for the choice of the best model: it is made with the data the model is tested on.  Two tasks that
differ in the test items of a user only return models of different epochs. -/
theorem C79_leak_false : ∃ (d d' : RData Unit) (n : RNet Unit Nat Nat) (ev : Ev RIn) (r r' : Result Nat Unit ℝ),
    d.struct? = d'.struct? ∧ d.trainLoader = d'.trainLoader ∧
      d.testLoader.map (fun b => (b.users, b.mask)) = d'.testLoader.map (fun b => (b.users, b.mask)) ∧
      (run "maximize" 2 1 (fun _ => rTrial ev d n) (fun _ => none)).1 = .ok r ∧
      (run "maximize" 2 1 (fun _ => rTrial ev d' n) (fun _ => none)).1 = .ok r' ∧ r.model ≠ r'.model := by
  have hexp : ∀ a b : ℝ, epochs true (rTrial (exREv none) (exRData [a, b]) exRNet) 2 0
      (rTrial (exREv none) (exRData [a, b]) exRNet).init none
      = .ok (keepBest true (some (a * 2 + b * 1)) 2 (some (a * 1 + b * 2, 1))) := by
    intro a b
    have h1 := exR_validate a b 1 none
    have h2 := exR_validate a b 2 (some (some (a * (1 : ℕ) + b * (3 - (1 : ℕ)))))
    have e1 : (3 : ℝ) - 1 = 2 := by norm_num
    have e2 : (3 : ℝ) - 2 = 1 := by norm_num
    have e3 : ((2 : ℕ) : ℝ) = 2 := by norm_num
    have e4 : ((1 : ℕ) : ℝ) = 1 := by norm_num
    simp only [e1, e2, e3, e4] at h1 h2
    have hm : exRNet.modelOf 1 = 1 ∧ exRNet.modelOf 2 = 2 := ⟨rfl, rfl⟩
    have hi : (rTrial (exREv none) (exRData [a, b]) exRNet).init = (0, exREv none) := rfl
    have ht : ∀ e s, (rTrial (exREv none) (exRData [a, b]) exRNet).train e s = .ok (s.1 + 1, s.2) := fun _ _ => rfl
    have hst : rStruct exRNet (exRData [a, b]) = some () := rfl
    have hv1 : (rTrial (exREv none) (exRData [a, b]) exRNet).validate 0 (1, exREv none)
        = .ok (some (a * 1 + b * 2), (1, exREv (some (some (a * 1 + b * 2))))) := by
      simp only [rTrial, hst, hm.1, h1]
    have hv2 : (rTrial (exREv none) (exRData [a, b]) exRNet).validate 1 (2, exREv (some (some (a * 1 + b * 2))))
        = .ok (some (a * 2 + b * 1), (2, exREv (some (some (a * 2 + b * 1))))) := by
      simp only [rTrial, hst, hm.2, h2]
    have hs : ∀ k ev, (rTrial (exREv none) (exRData [a, b]) exRNet).step (k, ev) = (k, ev) := fun _ _ => rfl
    have hp : ∀ e, (rTrial (exREv none) (exRData [a, b]) exRNet).prune e = false := fun _ => rfl
    have hmo : ∀ k ev, (rTrial (exREv none) (exRData [a, b]) exRNet).modelOf (k, ev) = k := fun _ _ => rfl
    simp only [hi, epochs, ht, hv1, hv2, hs, hp, hmo, Bool.false_eq_true, if_false]
    rfl
  have hrun : ∀ (a b x : ℝ) (m : Nat), keepBest true (some (a * 2 + b * 1)) 2 (some (a * 1 + b * 2, 1)) = some (x, m) →
      (run "maximize" 2 1 (fun _ => rTrial (exREv none) (exRData [a, b]) exRNet) (fun _ => none)).1 = .ok ⟨0, x, m, ()⟩ := by
    intro a b x m hk
    have hx : experiment "maximize" 2 0 (rTrial (exREv none) (exRData [a, b]) exRNet) (fun _ => none)
        = (.ok x, put (put (fun _ => none) (modelName 0) (some (.model m))) (structName 0) (some (.struct ()))) := by
      unfold experiment
      have h1 : (rTrial (exREv none) (exRData [a, b]) exRNet).hasOptimizer = true := rfl
      have h2 : (rTrial (exREv none) (exRData [a, b]) exRNet).hasCriterion = true := rfl
      have h3 : (rTrial (exREv none) (exRData [a, b]) exRNet).struct? = some () := rfl
      simp only [h1, h2, h3, Bool.not_true, Bool.false_eq_true, if_false, decide_true, hexp, hk]
    have hn : modelName 0 ≠ structName 0 := by decide
    have e1 := prefix_model 0
    have e2 := prefix_struct 0
    unfold run
    simp only [optimize, hx, bestMax, removeCached, put, hn, if_false, if_true, e1, e2, ne_eq, not_true_eq_false,
      hn.symm]
  refine ⟨exRData [1, 0], exRData [0, 1], exRNet, exREv none, ⟨0, _, 2, ()⟩, ⟨0, _, 1, ()⟩, rfl, rfl, rfl,
    hrun 1 0 2 2 ?_, hrun 0 1 2 1 ?_, by decide⟩
  · unfold keepBest; norm_num
  · unfold keepBest; norm_num

/-! ## Examples -/

/-- two users and two items; the first user has trained the first item -/
def exUI : Utils.UIData :=
  ⟨false, 2, 2, [(0, 1), (1, 0)], Utils.edgeListToAdjDict [(0, 1), (1, 0)], Utils.edgeListToAdjDict [(0, 0)], false⟩

example : Utils.UIData.new (2 : Nat) (2 : Nat) [(0, 1), (1, 0)] (some [(0, 0)]) false "test" = .ok exUI := rfl

/-- a loader with a batch for each user, the second first -/
example : ∃ bs, List.Forall₂ (Spec.LoaderBatch exUI) [[1], [0]] bs ∧ [[1], [0]].flatten.Perm (List.range 2) := by
  have h := fun u : Nat => Props.C56_test_record (K := ℝ) (nu := 2) (ni := 2) (pairs := [(0, 1), (1, 0)]) (tp := [(0, 0)])
    (strict := false) (d := exUI) rfl (by decide) (by decide) u
  obtain ⟨m0, t0, h0, _⟩ := h 0
  obtain ⟨m1, t1, h1, _⟩ := h 1
  exact ⟨_, .cons ⟨[_], .cons h1 .nil, rfl⟩ (.cons ⟨[_], .cons h0 .nil, rfl⟩ .nil), by decide⟩

example : Ev.new [("sum", exSum)] 0 = .ok (exREv none) ∧
    ∀ t p, t.length = p.length → exSum (t, p) (some true) = .ok (.batch (List.zipWith (fun t p =>
      some (List.zipWith (fun a b => a * (WithBot.unbotD 0 b)) t p).sum) t p)) := ⟨rfl, fun _ _ _ => rfl⟩

/-- the example task: two epochs of one batch each -/
example : Spec.TrialStructure exRNet (exRData [1, 0]) (some ()) ∧
    (∀ b s, exRNet.learn (some ()) b s = .ok (s + 1)) ∧
    Spec.recTrained (fun s _ => s + 1) exRNet.step exRNet.init (exRData [1, 0]).trainLoader 1 = 2 :=
  ⟨⟨fun h => absurd rfl h, fun _ => rfl⟩, fun _ _ => rfl, rfl⟩

/-- a batch that fits: the first item of the user is masked -/
example : Spec.Fits [[1, 2]] [[3, 4], [5, 6]] ⟨[0], [[⊥, 0]], [[0, 1]]⟩ :=
  ⟨by simp, by simp, rfl, by simp⟩

/-- a batch with a user that does not exist -/
example : ratings true [[1, 2]] [[3, 4], [5, 6]] [7] [[⊥, 0]] = .error .index := by
  simp [ratings, collectE, row, bind, Except.bind]

end DHG
