import Verif.Props.MetricsRank
import Verif.Props.MetricsAp

/-!
# Moving relevant items up does not make a ranking worse (C114)
-/

set_option linter.unusedSectionVars false
set_option autoImplicit false

namespace DHG

open Metrics Utils

/-! ## Specification -/

namespace Spec

variable {K : Type} [Field K] [LinearOrder K]

/-- marks `a` (not negative) and two lists of scores for the same items, without equal scores: no relevant item has
more items above it with the scores `b'` than with `b` -/
structure MovesUp (a b b' : List K) : Prop where
  len : a.length = b.length
  len' : a.length = b'.length
  marks : ∀ x ∈ a, 0 ≤ x
  distinct : b.Nodup
  distinct' : b'.Nodup
  up : ∀ i < a.length, 0 < a.getD i 0 →
    ({j ∈ Finset.range b'.length | b'.getD i 0 < b'.getD j 0} : Finset Nat).card ≤
      ({j ∈ Finset.range b.length | b.getD i 0 < b.getD j 0} : Finset Nat).card

/-- the same for every sample of the arguments of a metric -/
inductive MovesUps : Arr K → Arr K → Arr K → Prop
  | d1 {a b b' : List K} (h : MovesUp a b b') : MovesUps (.d1 a) (.d1 b) (.d1 b')
  | d2 {w : Nat} {as bs bs' : List (List K)} (hl : as.length = bs.length) (hl' : as.length = bs'.length)
      (h : List.Forall₂ (fun a p => MovesUp a p.1 p.2) as (bs.zip bs')) :
      MovesUps (.d2 w as) (.d2 w bs) (.d2 w bs')

/-- the same value (`none` is not a number), or a larger one -/
def NoWorse1 (x y : Option K) : Prop := x = none ∧ y = none ∨ ∃ u v, x = some u ∧ y = some v ∧ u ≤ v

/-- the second result is at least as good as the first: for every sample, or in the mean; or both raise the same
error -/
def NoWorse : Except Err (Out K) → Except Err (Out K) → Prop
  | .error e, .error e' => e = e'
  | .ok (.batch xs), .ok (.batch ys) => List.Forall₂ NoWorse1 xs ys
  | .ok (.mean x), .ok (.mean y) => NoWorse1 x y
  | _, _ => False

end Spec

namespace Props

namespace Up

section
variable {K : Type} [Field K] [LinearOrder K] [IsStrictOrderedRing K]

theorem rank_le {srt srt' : Argsort K} (hs : Spec.SortsDesc srt) (hs' : Spec.SortsDesc srt') {a b b' : List K}
    (h : Spec.MovesUp a b b') (i : Nat) (hi : i ∈ Spec.relevant a) : rankOf srt' b' i ≤ rankOf srt b i := by
  simp only [Spec.relevant, Finset.mem_filter, Finset.mem_range] at hi
  rw [Spec.ranks_unique b' h.distinct' _ (ranks hs' b') i (h.len' ▸ hi.1),
    Spec.ranks_unique b h.distinct _ (ranks hs b) i (h.len ▸ hi.1)]
  exact h.up i hi.1 hi.2

theorem nw_refl (x : Option K) : Spec.NoWorse1 x x := by
  rcases x with _ | u
  · exact .inl ⟨rfl, rfl⟩
  · exact .inr ⟨u, u, rfl, rfl, le_rfl⟩

theorem mapM_mono {xs ys : List (Option K)} (h : List.Forall₂ Spec.NoWorse1 xs ys) :
    (xs.mapM id = none ∧ ys.mapM id = none) ∨
    ∃ us vs : List K, xs.mapM id = some us ∧ ys.mapM id = some vs ∧ us.length = vs.length ∧ us.sum ≤ vs.sum := by
  induction h with
  | nil => exact .inr ⟨[], [], rfl, rfl, rfl, le_rfl⟩
  | @cons x y xs ys h _ ih =>
    rcases h with ⟨rfl, rfl⟩ | ⟨u, v, rfl, rfl, h⟩
    · exact .inl ⟨by simp [List.mapM_cons], by simp [List.mapM_cons]⟩
    · rcases ih with ⟨e1, e2⟩ | ⟨us, vs, e1, e2, e3, e4⟩
      · exact .inl ⟨by simp [List.mapM_cons, e1], by simp [List.mapM_cons, e2]⟩
      · exact .inr ⟨u :: us, v :: vs, by simp [List.mapM_cons, e1], by simp [List.mapM_cons, e2], by simp [e3],
          by simpa using add_le_add h e4⟩

theorem fmean_mono {xs ys : List (Option K)} (h : List.Forall₂ Spec.NoWorse1 xs ys) :
    Spec.NoWorse1 (fmean xs) (fmean ys) := by
  unfold fmean
  rcases mapM_mono h with ⟨e1, e2⟩ | ⟨us, vs, e1, e2, e3, e4⟩
  · rw [e1, e2]; exact .inl ⟨rfl, rfl⟩
  · rw [e1, e2]
    simp only [fdiv, e3]
    split
    · exact .inl ⟨rfl, rfl⟩
    · exact .inr ⟨_, _, rfl, rfl, div_le_div_of_nonneg_right e4 (Nat.cast_nonneg _)⟩

theorem finish_mono (rb : Bool) {xs ys : List (Option K)} (h : List.Forall₂ Spec.NoWorse1 xs ys) :
    Spec.NoWorse (.ok (finish rb xs)) (.ok (finish rb ys)) := by
  cases rb
  · exact fmean_mono h
  · exact h

theorem zipWith_mono {F F' : List K → List K → Option K} :
    ∀ {as bs bs' : List (List K)}, as.length = bs.length → as.length = bs'.length →
      List.Forall₂ (fun a p => Spec.MovesUp a p.1 p.2) as (bs.zip bs') →
      (∀ a ∈ as, ∀ b b', Spec.MovesUp a b b' → Spec.NoWorse1 (F a b) (F' a b')) →
      List.Forall₂ Spec.NoWorse1 (List.zipWith F as bs) (List.zipWith F' as bs')
  | [], [], [], _, _, _, _ => .nil
  | a :: as, b :: bs, b' :: bs', h1, h2, h, hF => by
    rw [List.zip_cons_cons] at h
    obtain ⟨h, hr⟩ := List.forall₂_cons.1 h
    exact .cons (hF a (List.mem_cons_self ..) b b' h)
      (zipWith_mono (by simpa using h1) (by simpa using h2) hr fun a ha => hF a (List.mem_cons_of_mem _ ha))
  | [], _ :: _, _, h, _, _, _ => by simp at h
  | [], [], _ :: _, _, h, _, _ => by simp at h
  | _ :: _, [], _, h, _, _, _ => by simp at h
  | _ :: _, _ :: _, [], _, h, _, _ => by simp at h

theorem collect_mono {F F' : List K × List K → Except Err (Option K)} :
    ∀ {as bs bs' : List (List K)}, as.length = bs.length → as.length = bs'.length →
      List.Forall₂ (fun a p => Spec.MovesUp a p.1 p.2) as (bs.zip bs') →
      (∀ a b b', Spec.MovesUp a b b' → (∃ e, F (a, b) = .error e ∧ F' (a, b') = .error e) ∨
        ∃ x y, F (a, b) = .ok x ∧ F' (a, b') = .ok y ∧ Spec.NoWorse1 x y) →
      (∃ e, collectE (as.zip bs) F = .error e ∧ collectE (as.zip bs') F' = .error e) ∨
      ∃ xs ys, collectE (as.zip bs) F = .ok xs ∧ collectE (as.zip bs') F' = .ok ys ∧ List.Forall₂ Spec.NoWorse1 xs ys
  | [], [], [], _, _, _, _ => .inr ⟨[], [], rfl, rfl, .nil⟩
  | a :: as, b :: bs, b' :: bs', h1, h2, h, hF => by
    rw [List.zip_cons_cons] at h
    obtain ⟨h, hr⟩ := List.forall₂_cons.1 h
    simp only [List.zip_cons_cons, collectE]
    rcases hF a b b' h with ⟨e, e1, e2⟩ | ⟨x, y, e1, e2, e3⟩
    · exact .inl ⟨e, by rw [e1]; rfl, by rw [e2]; rfl⟩
    · rcases collect_mono (by simpa using h1) (by simpa using h2) hr hF with ⟨e, f1, f2⟩ | ⟨xs, ys, f1, f2, f3⟩
      · exact .inl ⟨e, by rw [e1, f1]; rfl, by rw [e2, f2]; rfl⟩
      · exact .inr ⟨x :: xs, y :: ys, by rw [e1, f1]; rfl, by rw [e2, f2]; rfl, .cons e3 f3⟩
  | [], _ :: _, _, h, _, _, _ => by simp at h
  | [], [], _ :: _, _, h, _, _ => by simp at h
  | _ :: _, [], _, h, _, _, _ => by simp at h
  | _ :: _, _ :: _, [], _, h, _, _ => by simp at h

variable [FloorRing K]

theorem format_rows {yt yp yp' : Arr K} {as bs bs' : List (List K)} (e1 : asRows yt yp = .ok (Spec.targets yt, as, bs))
    (e2 : asRows yt yp' = .ok (Spec.targets yt, as, bs')) (e3 : as = Spec.samples yt) (h1 : as.length = bs.length)
    (h2 : as.length = bs'.length) (h3 : List.Forall₂ (fun a p => Spec.MovesUp a p.1 p.2) as (bs.zip bs'))
    (t : Task) (k : Option Int) (ratio : Option K) :
    (∃ e, format t yt yp k ratio = .error e ∧ format t yt yp' k ratio = .error e) ∨
    ∃ as bs bs', format t yt yp k ratio = .ok (as, bs, Spec.places (Spec.targets yt) k ratio) ∧
      format t yt yp' k ratio = .ok (as, bs', Spec.places (Spec.targets yt) k ratio) ∧ as = Spec.samples yt ∧
      (∀ q, ratio = some q → 0 < q ∧ q ≤ 1) ∧
      as.length = bs.length ∧ as.length = bs'.length ∧
      List.Forall₂ (fun a p => Spec.MovesUp a p.1 p.2) as (bs.zip bs') := by
  rcases t <;> rcases ratio with _ | q
  · exact .inr ⟨as, bs, bs', by cases k <;> simp [format, formatRet, e1, bind, Except.bind, clipK, Spec.places],
      by cases k <;> simp [format, formatRet, e2, bind, Except.bind, clipK, Spec.places], e3, by simp, h1, h2, h3⟩
  · by_cases hq : 0 < q ∧ q ≤ 1
    · exact .inr ⟨as, bs, bs', by simp [format, formatRet, e1, bind, Except.bind, Spec.places, hq],
        by simp [format, formatRet, e2, bind, Except.bind, Spec.places, hq], e3, by
          rintro _ ⟨⟩; exact hq, h1, h2, h3⟩
    · exact .inl ⟨.assertion, by simp only [format, formatRet, e1, bind, Except.bind, if_neg hq],
        by simp only [format, formatRet, e2, bind, Except.bind, if_neg hq]⟩
  · exact .inr ⟨as, bs, bs', by cases k <;> simp [format, formatRec, e1, bind, Except.bind, clipK, Spec.places],
      by cases k <;> simp [format, formatRec, e2, bind, Except.bind, clipK, Spec.places], e3, by simp, h1, h2, h3⟩
  · exact .inl ⟨.name, by simp [format, formatRec, e1, bind, Except.bind],
      by simp [format, formatRec, e2, bind, Except.bind]⟩

theorem format_up {yt yp yp' : Arr K} (h : Spec.MovesUps yt yp yp') (t : Task) (k : Option Int) (ratio : Option K) :
    (∃ e, format t yt yp k ratio = .error e ∧ format t yt yp' k ratio = .error e) ∨
    ∃ as bs bs', format t yt yp k ratio = .ok (as, bs, Spec.places (Spec.targets yt) k ratio) ∧
      format t yt yp' k ratio = .ok (as, bs', Spec.places (Spec.targets yt) k ratio) ∧ as = Spec.samples yt ∧
      (∀ q, ratio = some q → 0 < q ∧ q ≤ 1) ∧
      as.length = bs.length ∧ as.length = bs'.length ∧
      List.Forall₂ (fun a p => Spec.MovesUp a p.1 p.2) as (bs.zip bs') := by
  rcases h with @⟨a, b, b', h⟩ | @⟨w, as, bs, bs', hl, hl', h⟩
  · exact format_rows (as := [a]) (bs := [b]) (bs' := [b']) (by simp [asRows, Arr.shape, h.len, Spec.targets])
      (by simp [asRows, Arr.shape, h.len', Spec.targets]) rfl rfl rfl (.cons h .nil) t k ratio
  · exact format_rows (as := as) (bs := bs) (bs' := bs') (by simp [asRows, Arr.shape, hl, Spec.targets])
      (by simp [asRows, Arr.shape, hl', Spec.targets]) rfl hl hl' h t k ratio

theorem found_le {srt srt' : Argsort K} (hs : Spec.SortsDesc srt) (hs' : Spec.SortsDesc srt') {a b b' : List K}
    (h : Spec.MovesUp a b b') (c : Int) :
    (Spec.found a (rankOf srt b) c).card ≤ (Spec.found a (rankOf srt' b') c).card := by
  refine Finset.card_le_card fun i hi => ?_
  simp only [Spec.found, Finset.mem_filter] at hi ⊢
  have := rank_le hs hs' h i hi.1
  exact ⟨hi.1, by omega⟩

theorem precisionRow_up {srt srt' : Argsort K} (hs : Spec.SortsDesc srt) (hs' : Spec.SortsDesc srt') {a b b' : List K}
    (h : Spec.MovesUp a b b') (ha : ∀ x ∈ a, x = 0 ∨ x = 1) {c : Int} (hc : 0 ≤ c) :
    Spec.NoWorse1 (precisionRow srt c a b) (precisionRow srt' c a b') := by
  rcases hc.eq_or_lt with rfl | hc
  · exact .inl ⟨by simp [precisionRow, fdiv], by simp [precisionRow, fdiv]⟩
  · rw [precisionRow_eq hs h.len ha hc, precisionRow_eq hs' h.len' ha hc]
    refine .inr ⟨_, _, rfl, rfl, div_le_div_of_nonneg_right ?_ (by exact_mod_cast hc.le)⟩
    exact_mod_cast found_le hs hs' h c

theorem recallRow_up {srt srt' : Argsort K} (hs : Spec.SortsDesc srt) (hs' : Spec.SortsDesc srt') {a b b' : List K}
    (h : Spec.MovesUp a b b') (ha : ∀ x ∈ a, x = 0 ∨ x = 1) {c : Int} (hc : 0 ≤ c) :
    Spec.NoWorse1 (recallRow srt c a b) (recallRow srt' c a b') := by
  rw [recallRow_eq hs h.len ha hc, recallRow_eq hs' h.len' ha hc]
  refine .inr ⟨_, _, rfl, rfl, div_le_div_of_nonneg_right ?_ (Nat.cast_nonneg _)⟩
  exact_mod_cast found_le hs hs' h c

/-! average precision -/

theorem precAt {srt : Argsort K} (hs : Spec.SortsDesc srt) {a b : List K} (hab : a.length = b.length) (t : Nat)
    (ht : t < (hits srt a b).length) :
    Spec.precisionAt a (rankOf srt b) (hits srt a b)[t] =
      ((t + 1 : Nat) : K) / ((rankOf srt b (hits srt a b)[t] : K) + 1) := by
  unfold Spec.precisionAt
  congr 2
  have h0 := hits_before hs a b hab t ht
  have hm : (hits srt a b)[t] ∈ Spec.relevant a := (mem_hits hs a b hab _).1 (List.getElem_mem ht)
  generalize (hits srt a b)[t] = x at h0 hm
  subst h0
  rw [← Finset.card_insert_of_notMem (a := x) (by simp)]
  congr 1
  ext j
  simp only [Finset.mem_filter, Finset.mem_insert]
  constructor
  · rintro ⟨h1, h2⟩
    rcases h2.eq_or_lt with h2 | h2
    · left
      have hb : ∀ i, i ∈ Spec.relevant a → i < b.length := fun i hi => by
        simp only [Spec.relevant, Finset.mem_filter, Finset.mem_range] at hi; omega
      exact rankOf_inj hs b _ _ (hb _ h1) (hb _ hm) h2
    · exact .inr ⟨h1, h2⟩
  · rintro (h | ⟨h1, h2⟩)
    · subst h; exact ⟨hm, le_rfl⟩
    · exact ⟨h1, h2.le⟩

theorem hit_le {srt srt' : Argsort K} (hs : Spec.SortsDesc srt) (hs' : Spec.SortsDesc srt') {a b b' : List K}
    (h : Spec.MovesUp a b b') (t : Nat) (ht : t < (hits srt a b).length) (ht' : t < (hits srt' a b').length) :
    rankOf srt' b' (hits srt' a b')[t] ≤ rankOf srt b (hits srt a b)[t] := by
  by_contra hc
  push Not at hc
  have h0 := hits_before hs a b h.len t ht
  have h1 := hits_before hs' a b' h.len' t ht'
  have hm : (hits srt a b)[t] ∈ Spec.relevant a := (mem_hits hs a b h.len _).1 (List.getElem_mem ht)
  have : insert (hits srt a b)[t] ({j ∈ Spec.relevant a | rankOf srt b j < rankOf srt b (hits srt a b)[t]} : Finset Nat) ⊆
      ({j ∈ Spec.relevant a | rankOf srt' b' j < rankOf srt' b' (hits srt' a b')[t]} : Finset Nat) := by
    intro j hj
    rw [Finset.mem_insert, Finset.mem_filter] at hj
    rw [Finset.mem_filter]
    rcases hj with rfl | ⟨hj, hlt⟩
    · have := rank_le hs hs' h _ hm
      exact ⟨hm, by omega⟩
    · have := rank_le hs hs' h j hj
      exact ⟨hj, by omega⟩
  have := Finset.card_le_card this
  rw [Finset.card_insert_of_notMem (by simp), h0, h1] at this
  omega

theorem hits_up {srt srt' : Argsort K} (hs : Spec.SortsDesc srt) (hs' : Spec.SortsDesc srt') {a b b' : List K}
    (h : Spec.MovesUp a b b') :
    List.Forall₂ (· ≤ ·) (precisionAtHits (ranked srt a b)) (precisionAtHits (ranked srt' a b')) := by
  rw [precisionAtHits_eq hs a b h.len, precisionAtHits_eq hs' a b' h.len', List.forall₂_iff_get]
  have hl : (hits srt a b).length = (hits srt' a b').length := by
    rw [hits_length hs a b h.len, hits_length hs' a b' h.len']
  refine ⟨by simp [hl], fun t h1 h2 => ?_⟩
  have h1' : t < (hits srt a b).length := by simpa using h1
  have h2' : t < (hits srt' a b').length := by simpa using h2
  simp only [List.get_eq_getElem, List.getElem_map]
  rw [precAt hs h.len t h1', precAt hs' h.len' t h2']
  refine div_le_div_of_nonneg_left (Nat.cast_nonneg _) (by positivity) ?_
  have := hit_le hs hs' h t h1' h2'
  have : ((rankOf srt' b' (hits srt' a b')[t] : Nat) : K) ≤ (rankOf srt b (hits srt a b)[t] : Nat) := by exact_mod_cast this
  linarith

theorem cummaxFrom_mono {xs ys : List K} (h : List.Forall₂ (· ≤ ·) xs ys) :
    ∀ {m n : K}, m ≤ n → List.Forall₂ (· ≤ ·) (cummaxFrom m xs) (cummaxFrom n ys) := by
  induction h with
  | nil => intros; exact .nil
  | cons h _ ih => intro m n hmn; exact .cons (max_le_max hmn h) (ih (max_le_max hmn h))

theorem cummax_mono {xs ys : List K} (h : List.Forall₂ (· ≤ ·) xs ys) :
    List.Forall₂ (· ≤ ·) (cummax xs) (cummax ys) := by
  cases h with
  | nil => exact .nil
  | cons h hr => exact .cons h (cummaxFrom_mono hr h)

theorem some_mono {xs ys : List K} (h : List.Forall₂ (· ≤ ·) xs ys) :
    List.Forall₂ Spec.NoWorse1 (xs.map some) (ys.map some) := by
  induction h with
  | nil => exact .nil
  | cons h _ ih => exact .cons (.inr ⟨_, _, rfl, rfl, h⟩) ih

theorem ap_up {srt srt' : Argsort K} (hs : Spec.SortsDesc srt) (hs' : Spec.SortsDesc srt') {a b b' : List K}
    (h : Spec.MovesUp a b b') (k : Option Int) (ratio : Option K) (m : Method) :
    (∃ e, ap srt (.d1 a) (.d1 b) k ratio m = .error e ∧ ap srt' (.d1 a) (.d1 b') k ratio m = .error e) ∨
    ∃ x y, ap srt (.d1 a) (.d1 b) k ratio m = .ok x ∧ ap srt' (.d1 a) (.d1 b') k ratio m = .ok y ∧
      Spec.NoWorse1 x y := by
  have s : (Arr.d1 a).shape = (Arr.d1 b).shape := by simp [Arr.shape, h.len]
  have s' : (Arr.d1 a).shape = (Arr.d1 b').shape := by simp [Arr.shape, h.len']
  unfold ap
  by_cases c1 : (ratio.any fun q => !decide (0 < q ∧ q ≤ 1)) = true
  · exact .inl ⟨_, if_pos c1, if_pos c1⟩
  · by_cases c2 : m = .unknown
    · exact .inl ⟨_, (if_neg c1).trans (if_pos c2), (if_neg c1).trans (if_pos c2)⟩
    · refine .inr ⟨_, _, (if_neg c1).trans ((if_neg c2).trans (if_neg fun h => h s)),
        (if_neg c1).trans ((if_neg c2).trans (if_neg fun h => h s')), fmean_mono (some_mono ?_)⟩
      split
      · exact cummax_mono (List.rel_reverse (hits_up hs hs' h))
      · exact hits_up hs hs' h

/-- without a limit on the places, `rr` averages over all relevant items -/
theorem rr_up {srt srt' : Argsort K} (hs : Spec.SortsDesc srt) (hs' : Spec.SortsDesc srt') {a b b' : List K}
    (h : Spec.MovesUp a b b') {k : Option Int} (hk : ∀ x, k = some x → (a.length : Int) ≤ x) :
    ∃ x y, rr srt (.d1 a) (.d1 b) k none = .ok x ∧ rr srt' (.d1 a) (.d1 b') k none = .ok y ∧ Spec.NoWorse1 x y := by
  have s : (Arr.d1 a).shape = (Arr.d1 b).shape := by simp [Arr.shape, h.len]
  have s' : (Arr.d1 a).shape = (Arr.d1 b').shape := by simp [Arr.shape, h.len']
  have hc : clipK a.length k = (a.length : Int) := by
    rcases k with _ | k
    · rfl
    · exact min_eq_right (hk k rfl)
  refine ⟨_, _, if_neg fun h => h s, if_neg fun h => h s', ?_⟩
  show Spec.NoWorse1 (fmean ((recipRanksFrom 0 (slice (ranked srt a b) 0 (clipK a.length k))).map some))
    (fmean ((recipRanksFrom 0 (slice (ranked srt' a b') 0 (clipK a.length k))).map some))
  rw [hc]
  obtain ⟨L, n1, n2, n3⟩ := recip_eq hs a b h.len h.marks a.length (by omega)
  obtain ⟨L', n1', n2', n3'⟩ := recip_eq hs' a b' h.len' h.marks a.length (by omega)
  rw [found_all (ranks hs b) h.len _ le_rfl] at n2
  rw [found_all (ranks hs' b') h.len' _ le_rfl] at n2'
  have hp : L'.Perm L := (List.perm_ext_iff_of_nodup n1' n1).2 fun i => by
    rw [← List.mem_toFinset, ← List.mem_toFinset (l := L), n2, n2']
  rw [n3, n3']
  have hval : ∀ M : List K, fmean (M.map some) = fdiv M.sum (M.length : K) := fun M => by
    unfold fmean; rw [mapM_some]
  rw [hval, hval]
  unfold fdiv
  simp only [List.length_map, hp.length_eq]
  split
  · exact .inl ⟨rfl, rfl⟩
  · refine .inr ⟨_, _, rfl, rfl, div_le_div_of_nonneg_right ?_ (Nat.cast_nonneg _)⟩
    rw [(hp.map fun i => 1 / ((rankOf srt' b' i : K) + 1)).sum_eq]
    refine List.sum_le_sum fun i hi => ?_
    refine div_le_div_of_nonneg_left zero_le_one (by positivity) ?_
    have := rank_le hs hs' h i (by rw [← n2]; exact List.mem_toFinset.2 hi)
    have : ((rankOf srt' b' i : Nat) : K) ≤ (rankOf srt b i : Nat) := by exact_mod_cast this
    linarith

end

end Up

open Up

section
variable {K : Type} [Field K] [LinearOrder K] [IsStrictOrderedRing K] [FloorRing K]

/-- C114 for `precision` and `recall` of both modules, each sample and the mean; marks 0 or 1, as the functions
assume. -/
theorem C114_precision_recall {srt srt' : Argsort K} (hs : Spec.SortsDesc srt) (hs' : Spec.SortsDesc srt')
    {yt yp yp' : Arr K} (h : Spec.MovesUps yt yp yp') (hb : Spec.Binary yt) (t : Task) {k : Option Int}
    (hk : ∀ x, k = some x → 0 < x) (ratio : Option K) (rb : Bool) :
    Spec.NoWorse (precision t srt yt yp k ratio rb) (precision t srt' yt yp' k ratio rb) ∧
    Spec.NoWorse (recall t srt yt yp k ratio rb) (recall t srt' yt yp' k ratio rb) := by
  unfold precision recall
  rcases format_up h t k ratio with ⟨e, h1, h2⟩ | ⟨as, bs, bs', h1, h2, rfl, hq, hl, hl', hf⟩
  · rw [h1, h2]; exact ⟨rfl, rfl⟩
  · rw [h1, h2]
    simp only [bind, Except.bind]
    have hc := places_nonneg (n := Spec.targets yt) hk hq
    rcases checkBinary (Spec.samples yt) with e | u
    · exact ⟨rfl, rfl⟩
    · exact ⟨finish_mono rb (zipWith_mono hl hl' hf fun a ha b b' h => precisionRow_up hs hs' h (hb a ha) hc),
        finish_mono rb (zipWith_mono hl hl' hf fun a ha b b' h => recallRow_up hs hs' h (hb a ha) hc)⟩

/-- C114 for `ap` of one sample, and `map` for each sample and the mean; both methods, any marks that are not
negative. -/
theorem C114_average_precision {srt srt' : Argsort K} (hs : Spec.SortsDesc srt) (hs' : Spec.SortsDesc srt')
    {a b b' : List K} {yt yp yp' : Arr K} (h : Spec.MovesUp a b b') (hm : Spec.MovesUps yt yp yp') (k : Option Int)
    (ratio : Option K) (m : Method) (rb : Bool) :
    Spec.NoWorse ((ap srt (.d1 a) (.d1 b) k ratio m).map .mean) ((ap srt' (.d1 a) (.d1 b') k ratio m).map .mean) ∧
    Spec.NoWorse (Metrics.map srt yt yp k ratio m rb) (Metrics.map srt' yt yp' k ratio m rb) := by
  constructor
  · rcases ap_up hs hs' h k ratio m with ⟨e, h1, h2⟩ | ⟨x, y, h1, h2, h3⟩
    · rw [h1, h2]; exact rfl
    · rw [h1, h2]; exact h3
  · unfold Metrics.map
    split
    · exact rfl
    · have hfs := format_up hm .retrieval k ratio
      simp only [format] at hfs
      rcases hfs with ⟨e, h1, h2⟩ | ⟨as, bs, bs', h1, h2, rfl, hq, hl, hl', hf⟩
      · rw [h1, h2]; exact rfl
      · rw [h1, h2]
        simp only [bind, Except.bind]
        rcases collect_mono hl hl' hf (F := fun p => ap srt (.d1 p.1) (.d1 p.2) (some (Spec.places (Spec.targets yt) k ratio)) none m)
          (F' := fun p => ap srt' (.d1 p.1) (.d1 p.2) (some (Spec.places (Spec.targets yt) k ratio)) none m)
          (fun a b b' h => ap_up hs hs' h _ _ _) with ⟨e, f1, f2⟩ | ⟨xs, ys, f1, f2, f3⟩
        · rw [f1, f2]; exact rfl
        · rw [f1, f2]; exact finish_mono rb f3

/-- C114 for `rr` and `mrr`, if no limit on the places is given. Missing: with a limit the claim is false
(`C114_reciprocal_rank_false`). -/
theorem C114_reciprocal_rank_partial {srt srt' : Argsort K} (hs : Spec.SortsDesc srt) (hs' : Spec.SortsDesc srt')
    {a b b' : List K} {yt yp yp' : Arr K} (h : Spec.MovesUp a b b') (hm : Spec.MovesUps yt yp yp') (hr : yt.Rect)
    (rb : Bool) :
    Spec.NoWorse ((rr srt (.d1 a) (.d1 b) none none).map .mean) ((rr srt' (.d1 a) (.d1 b') none none).map .mean) ∧
    Spec.NoWorse (mrr srt yt yp none none rb) (mrr srt' yt yp' none none rb) := by
  constructor
  · obtain ⟨x, y, h1, h2, h3⟩ := rr_up hs hs' h (k := none) (by simp)
    rw [h1, h2]; exact h3
  · unfold mrr
    have hfs := format_up hm .retrieval none none
    simp only [format] at hfs
    rcases hfs with ⟨e, h1, h2⟩ | ⟨as, bs, bs', h1, h2, rfl, hq, hl, hl', hf⟩
    · rw [h1, h2]; exact rfl
    · rw [h1, h2]
      simp only [bind, Except.bind, Spec.places]
      have hw : ∀ a ∈ Spec.samples yt, a.length = Spec.targets yt := by
        rcases yt with xs | ⟨w, rows⟩ | s
        · intro a ha; rw [List.mem_singleton.1 ha]; rfl
        · exact hr
        · intro a ha; cases ha
      rcases collect_mono hl hl' hf
        (F := fun p => if p.1.length = Spec.targets yt then rr srt (.d1 p.1) (.d1 p.2) (some (Spec.targets yt : Int)) none else .error .value)
        (F' := fun p => if p.1.length = Spec.targets yt then rr srt' (.d1 p.1) (.d1 p.2) (some (Spec.targets yt : Int)) none else .error .value)
        (fun a b b' h => by
          by_cases hc : a.length = Spec.targets yt
          · right
            simp only [hc, if_true]
            exact rr_up hs hs' h (by rintro _ ⟨⟩; omega)
          · left
            exact ⟨.value, if_neg hc, if_neg hc⟩) with ⟨e, f1, f2⟩ | ⟨xs, ys, f1, f2, f3⟩
      all_goals
        rw [collectE_congr fun p hp => if_pos (hw p.1 (List.of_mem_zip hp).1)] at f1 f2
      · rw [f1, f2]; exact rfl
      · rw [f1, f2]; exact finish_mono rb f3

/-- C114 is false for `rr` with a limit on the places: the value is the mean of the reciprocals of *all* relevant
places within the limit, so a further relevant item among the first places lowers it. -/
theorem C114_reciprocal_rank_false (srt : Argsort ℚ) (hs : Spec.SortsDesc srt) :
    Spec.MovesUp (K := ℚ) [1, 0, 1] [3, 2, 1] [3, 1, 2] ∧
    rr srt (.d1 [1, 0, 1]) (.d1 [3, 2, 1]) (some 2) none = .ok (some 1) ∧
    rr srt (.d1 [1, 0, 1]) (.d1 [3, 1, 2]) (some 2) none = .ok (some (3 / 4)) := by
  have h1 : srt [3, 2, 1] = [0, 1, 2] := srt_eq hs [3, 2, 1] [0, 1, 2] (by decide) (by decide +kernel)
  have h2 : srt [3, 1, 2] = [0, 2, 1] := srt_eq hs [3, 1, 2] [0, 2, 1] (by decide) (by decide +kernel)
  refine ⟨⟨rfl, rfl, by decide +kernel, by decide +kernel, by decide +kernel, by decide +kernel⟩, ?_, ?_⟩
  · unfold rr ranked
    rw [if_neg (by simp [Arr.shape])]
    simp only [h1]
    decide +kernel
  · unfold rr ranked
    rw [if_neg (by simp [Arr.shape])]
    simp only [h2]
    decide +kernel

end

theorem dcg_up {a b b' : List ℝ} {srt srt' : Argsort ℝ} (hs : Spec.SortsDesc srt) (hs' : Spec.SortsDesc srt')
    (h : Spec.MovesUp a b b') (c : Int) :
    Spec.dcg a (rankOf srt b) c ≤ Spec.dcg a (rankOf srt' b') c := by
  unfold Spec.dcg
  rw [Finset.sum_filter, Finset.sum_filter]
  refine Finset.sum_le_sum fun i hi => ?_
  have hi' := Finset.mem_range.1 hi
  have h0 : 0 ≤ a.getD i 0 := by
    simp only [List.getD_eq_getElem?_getD, List.getElem?_eq_getElem hi', Option.getD_some]
    exact h.marks _ (List.getElem_mem hi')
  have hlog : ∀ r : Nat, 0 < Real.logb 2 ((r : ℝ) + 2) := fun r =>
    Real.logb_pos (by norm_num) (by have : (0 : ℝ) ≤ r := Nat.cast_nonneg r; linarith)
  rcases h0.eq_or_lt with h0 | h0
  · rw [← h0]; simp
  · have hr := rank_le hs hs' h i (Finset.mem_filter.2 ⟨hi, h0⟩)
    split
    · rw [if_pos (by omega)]
      refine div_le_div_of_nonneg_left h0.le (hlog _) ?_
      refine Real.logb_le_logb_of_le (by norm_num) (by have : (0 : ℝ) ≤ (rankOf srt' b' i : ℝ) := Nat.cast_nonneg _; linarith) ?_
      have : ((rankOf srt' b' i : Nat) : ℝ) ≤ (rankOf srt b i : Nat) := by exact_mod_cast hr
      linarith
    · split
      · exact div_nonneg h0.le (hlog _).le
      · exact le_rfl

/-- C114 for `ndcg` of both modules, each sample and the mean; any marks that are not negative. -/
theorem C114_ndcg {srt srt' : Argsort ℝ} (hs : Spec.SortsDesc srt) (hs' : Spec.SortsDesc srt')
    {yt yp yp' : Arr ℝ} (h : Spec.MovesUps yt yp yp') (t : Task) {k : Option Int}
    (hk : ∀ x, k = some x → 0 < x) (ratio : Option ℝ) (rb : Bool) :
    Spec.NoWorse (ndcg t srt yt yp k ratio rb) (ndcg t srt' yt yp' k ratio rb) := by
  unfold ndcg
  rcases format_up h t k ratio with ⟨e, h1, h2⟩ | ⟨as, bs, bs', h1, h2, rfl, hq, hl, hl', hf⟩
  · rw [h1, h2]; exact rfl
  · rw [h1, h2]
    simp only [bind, Except.bind]
    have hc := places_nonneg (n := Spec.targets yt) hk hq
    refine finish_mono rb (zipWith_mono hl hl' hf fun a _ b b' h => ?_)
    rw [ndcgRow_eq hs h.len hc, ndcgRow_eq hs' h.len' hc]
    refine .inr ⟨_, _, rfl, rfl, div_le_div_of_nonneg_right (dcg_up hs hs' h _) ?_⟩
    unfold Spec.dcg
    refine Finset.sum_nonneg fun i hi => ?_
    have hi' := Finset.mem_range.1 (Finset.mem_filter.1 hi).1
    refine div_nonneg ?_ (Real.logb_nonneg (by norm_num) ?_)
    · simp only [List.getD_eq_getElem?_getD, List.getElem?_eq_getElem hi', Option.getD_some]
      exact h.marks _ (List.getElem_mem hi')
    · have : (0 : ℝ) ≤ (rankOf stableSrt a i : ℝ) := Nat.cast_nonneg _
      linarith

/-! ## Examples -/

example : Spec.MovesUps (K := ℚ) (.d2 3 [[1, 0, 1], [0, 0, 1]]) (.d2 3 [[3, 2, 1], [1, 5, 2]])
    (.d2 3 [[3, 1, 2], [1, 5, 9]]) ∧ Spec.Binary (K := ℚ) (.d2 3 [[1, 0, 1], [0, 0, 1]]) :=
  ⟨.d2 rfl rfl (.cons ⟨rfl, rfl, by decide +kernel, by decide +kernel, by decide +kernel, by decide +kernel⟩
    (.cons ⟨rfl, rfl, by decide +kernel, by decide +kernel, by decide +kernel, by decide +kernel⟩ .nil)),
    by unfold Spec.Binary; decide +kernel⟩

example : Spec.SortsDesc (stableSrt (K := ℝ)) := stableSrt_sorts

end Props
end DHG
