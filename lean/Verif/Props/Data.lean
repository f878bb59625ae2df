import Verif.Data
import Verif.Props.Download

/-!
# Datasets (C82)
-/

set_option linter.unusedSectionVars false
set_option autoImplicit false

namespace DHG
open Download Data

variable {V : Type}

/-- no loader of the dataset answers `None` -/
def Spec.LoadersReturn (D : Dataset V) : Prop :=
  ∀ key upon loader pre, D.item? key = some (.cfg upon loader pre) → ∀ a fs, loader a fs ≠ .ok none

/-- what `data[key]` is meant to be, given what `data.raw(key)` is: the pipes applied one after the
other -/
def Spec.Preprocessed (pre : Option (List (Pipe V))) (x : Val V) (r : Except DErr (Val V)) : Prop :=
  match pre with
  | none => r = .ok x
  | some ps => r = ps.foldlM (fun x p => p x) x

theorem composePipes_foldlM (ps : List (Pipe V)) (x : Val V) :
    composePipes ps x = ps.foldlM (fun x p => p x) x := by
  induction ps generalizing x with
  | nil => rfl
  | cons p ps ih =>
    simp only [composePipes, List.foldlM_cons, bind]
    congr 1
    funext y
    exact ih y

theorem preprocess_spec (pre : Option (List (Pipe V))) (x : Val V) :
    Spec.Preprocessed pre x (preprocess pre x) := by
  cases pre with
  | none => rfl
  | some ps => exact composePipes_foldlM ps x

/-- invariant of a session -/
structure Good (D : Dataset V) (s : DState V) : Prop where
  cached : ∀ key upon loader pre c, D.item? key = some (.cfg upon loader pre) → s.cache key = some c →
    preprocess pre (s.raw key) = .ok (some c) ∧ (upon ≠ [] → s.raw key ≠ none)
  once : ∀ key, s.loads.count key ≤ if s.raw key = none then 0 else 1
  empty : ∀ key loader pre, D.item? key = some (.cfg [] loader pre) → s.raw key = none

theorem good_fresh (D : Dataset V) (w : World) : Good D (fresh w) :=
  ⟨fun _ _ _ _ _ _ h => (by cases h), fun _ => (by simp [fresh]), fun _ _ _ _ => rfl⟩

theorem raw_cases {E : Env} {D : Dataset V} {key : String} {s s' : DState V} {r : Except DErr (Val V)}
    (h : raw E D key s = (r, s')) :
    (s'.raw = s.raw ∧ s'.cache = s.cache ∧ s'.loads = s.loads ∧
      (∀ x, r = .ok x → s' = s ∧ (x = s.raw key ∧ (∃ u l p, D.item? key = some (.cfg u l p) ∧ (x = none → u = [])) ∨
        D.item? key = some (.plain x)))) ∨
    (∃ u l p v, D.item? key = some (.cfg u l p) ∧ u ≠ [] ∧ s.raw key = none ∧ r = .ok v ∧
      (∃ a fs, l a fs = .ok v) ∧
      s'.raw = setKey s.raw key v ∧ s'.cache = s.cache ∧ s'.loads = s.loads ++ [key]) := by
  unfold Data.raw at h
  rcases hi : D.item? key with _ | ⟨v⟩ | ⟨u, l, p⟩
  · rw [hi] at h
    simp only [Prod.mk.injEq] at h
    obtain ⟨rfl, rfl⟩ := h
    exact .inl ⟨rfl, rfl, rfl, fun x hx => by cases hx⟩
  · rw [hi] at h
    simp only [Prod.mk.injEq] at h
    obtain ⟨rfl, rfl⟩ := h
    refine .inl ⟨rfl, rfl, rfl, fun x hx => ?_⟩
    cases hx
    exact ⟨rfl, .inr rfl⟩
  · rw [hi] at h
    simp only at h
    rcases hr : s.raw key with _ | v
    · rw [hr] at h
      simp only at h
      by_cases hu : u = []
      · subst hu
        simp only [List.isEmpty_nil, if_true, Prod.mk.injEq] at h
        obtain ⟨rfl, rfl⟩ := h
        refine .inl ⟨rfl, rfl, rfl, fun x hx => ?_⟩
        cases hx
        exact ⟨rfl, .inl ⟨rfl, _, _, _, rfl, fun _ => rfl⟩⟩
      · rw [if_neg (by simpa using hu)] at h
        unfold loadItem at h
        rcases hf : fetchFiles E D u s.world with ⟨e | _, w⟩
        · rw [hf] at h
          simp only [Prod.mk.injEq] at h
          obtain ⟨rfl, rfl⟩ := h
          exact .inl ⟨rfl, rfl, rfl, fun x hx => by cases hx⟩
        · rw [hf] at h
          simp only at h
          rcases hl : l (larg D u) w.files with e | v
          · rw [hl] at h
            simp only [Prod.mk.injEq] at h
            obtain ⟨rfl, rfl⟩ := h
            exact .inl ⟨rfl, rfl, rfl, fun x hx => by cases hx⟩
          · rw [hl] at h
            simp only [Prod.mk.injEq] at h
            obtain ⟨rfl, rfl⟩ := h
            exact .inr ⟨u, l, p, v, rfl, hu, rfl, rfl, ⟨_, _, hl⟩, rfl, rfl, rfl⟩
    · rw [hr] at h
      simp only [Prod.mk.injEq] at h
      obtain ⟨rfl, rfl⟩ := h
      refine .inl ⟨rfl, rfl, rfl, fun x hx => ?_⟩
      cases hx
      exact ⟨rfl, .inl ⟨rfl, _, _, _, rfl, fun h => by cases h⟩⟩

theorem raw_good {E : Env} {D : Dataset V} (hD : Spec.LoadersReturn D) {key : String} {s : DState V}
    (hg : Good D s) : Good D (raw E D key s).2 ∧
      ∀ k v, s.raw k = some v → (raw E D key s).2.raw k = some v := by
  rcases h : raw E D key s with ⟨r, s'⟩
  rcases raw_cases h with ⟨h1, h2, h3, _⟩ | ⟨u, l, p, v, hi, hu, hn, hr, ⟨a, fs, hl⟩, h1, h2, h3⟩
  · refine ⟨⟨?_, ?_, ?_⟩, ?_⟩
    · intro k u l p c hk hc
      simp only at hc ⊢
      rw [h1]; rw [h2] at hc
      exact hg.cached k u l p c hk hc
    · intro k
      simp only
      rw [h1, h3]; exact hg.once k
    · intro k l p hk
      simp only
      rw [h1]; exact hg.empty k l p hk
    · intro k v hv
      simp only
      rw [h1]; exact hv
  · have hv : v ≠ none := by
      rintro rfl
      exact hD key u l p hi a fs hl
    refine ⟨⟨?_, ?_, ?_⟩, ?_⟩
    · intro k u' l' p' c hk hc
      simp only at hc ⊢
      rw [h2] at hc
      rw [h1]
      by_cases hkk : k = key
      · subst hkk
        rw [hi] at hk
        cases hk
        exact absurd hn ((hg.cached k u l p c hi hc).2 hu)
      · have : setKey s.raw key v k = s.raw k := by simp [setKey, hkk]
        rw [this]
        exact hg.cached k u' l' p' c hk hc
    · intro k
      simp only
      rw [h1, h3, List.count_append]
      by_cases hkk : k = key
      · subst hkk
        have h4 := hg.once k
        rw [hn] at h4
        simp only [if_true] at h4
        have h5 : setKey s.raw k v k = v := by simp [setKey]
        rw [h5, if_neg hv]
        simp
        omega
      · have : setKey s.raw key v k = s.raw k := by simp [setKey, hkk]
        rw [this]
        have h4 := hg.once k
        have h5 : List.count k [key] = 0 := by
          rw [List.count_singleton]
          simp [Ne.symm hkk]
        omega
    · intro k l' p' hk
      simp only
      rw [h1]
      by_cases hkk : k = key
      · subst hkk
        rw [hi] at hk
        cases hk
        exact absurd rfl hu
      · have : setKey s.raw key v k = s.raw k := by simp [setKey, hkk]
        rw [this]
        exact hg.empty k l' p' hk
    · intro k w hw
      simp only
      rw [h1]
      by_cases hkk : k = key
      · subst hkk; rw [hn] at hw; cases hw
      · have : setKey s.raw key v k = s.raw k := by simp [setKey, hkk]
        rw [this]; exact hw

theorem get_good {E : Env} {D : Dataset V} (hD : Spec.LoadersReturn D) {key : String} {s : DState V}
    (hg : Good D s) : Good D (getItem E D key s).2 ∧
      ∀ k v, s.raw k = some v → (getItem E D key s).2.raw k = some v := by
  unfold getItem
  rcases hi : D.item? key with _ | ⟨v⟩ | ⟨u, l, p⟩
  · exact ⟨hg, fun _ _ h => h⟩
  · exact ⟨hg, fun _ _ h => h⟩
  · simp only
    rcases hc : s.cache key with _ | c
    · simp only
      have hr := raw_good (E := E) hD (key := key) hg
      rcases h : raw E D key s with ⟨e | x, s'⟩
      · rw [h] at hr; exact hr
      · rw [h] at hr
        simp only at hr ⊢
        rcases hp : preprocess p x with e | y
        · exact hr
        · refine ⟨⟨?_, hr.1.once, hr.1.empty⟩, hr.2⟩
          intro k u' l' p' c hk hcc
          simp only at hcc ⊢
          by_cases hkk : k = key
          · subst hkk
            rw [hi] at hk
            cases hk
            have hy : y = some c := by simpa [setKey] using hcc
            rw [hy] at hp
            -- the answer of `raw` is what `_raw` holds afterwards
            rcases raw_cases h with ⟨h1, h2, h3, h4⟩ | ⟨u2, l2, p2, v, hi2, hu, hn, hr2, ⟨a, fs, hl⟩, h1, h2, h3⟩
            · obtain ⟨rfl, h5 | h5⟩ := h4 x rfl
              · obtain ⟨h6, u3, l3, p3, h7, h8⟩ := h5
                rw [hi] at h7
                cases h7
                rw [← h6]
                exact ⟨hp, fun hu hx => hu (h8 hx)⟩
              · rw [hi] at h5; cases h5
            · rw [hi] at hi2
              cases hi2
              cases hr2
              have h5 : s'.raw k = x := by rw [h1]; simp [setKey]
              rw [h5]
              refine ⟨hp, fun _ hx => ?_⟩
              rw [hx] at hl
              exact hD k u l p hi a fs hl
          · have : setKey s'.cache key y k = s'.cache k := by simp [setKey, hkk]
            rw [this] at hcc
            exact hr.1.cached k u' l' p' c hk hcc
    · exact ⟨hg, fun _ _ h => h⟩

theorem serve_good {E : Env} {D : Dataset V} (hD : Spec.LoadersReturn D) {q : Req} {s : DState V}
    (hg : Good D s) : Good D (serve E D q s).2 ∧
      ∀ k v, s.raw k = some v → (serve E D q s).2.raw k = some v := by
  cases q with
  | raw k => exact raw_good hD hg
  | get k => exact get_good hD hg

theorem session_good {E : Env} {D : Dataset V} (hD : Spec.LoadersReturn D) :
    ∀ (qs : List Req) (s : DState V), Good D s → Good D (session E D qs s) ∧
      ∀ k v, s.raw k = some v → (session E D qs s).raw k = some v := by
  intro qs
  induction qs with
  | nil => intro s hg; exact ⟨hg, fun _ _ h => h⟩
  | cons q qs ih =>
    intro s hg
    have h1 := serve_good (E := E) (q := q) hD hg
    have h2 := ih _ h1.1
    exact ⟨h2.1, fun k v hv => h2.2 k v (h1.2 k v hv)⟩

theorem raw_cache {E : Env} {D : Dataset V} {key : String} {s : DState V} :
    (raw E D key s).2.cache = s.cache := by
  rcases h : raw E D key s with ⟨r, s'⟩
  rcases raw_cases h with ⟨_, h2, _⟩ | ⟨_, _, _, _, _, _, _, _, _, _, h2, _⟩ <;> exact h2

theorem getItem_cache {E : Env} {D : Dataset V} {key : String} {s : DState V} {upon : List DFile}
    {loader : LArg → (Path → Option Bytes) → Except DErr (Val V)} {pre : Option (List (Pipe V))}
    (hk : D.item? key = some (.cfg upon loader pre)) {c : V}
    (h : (getItem E D key s).1 = .ok (some c)) : (getItem E D key s).2.cache key = some c := by
  unfold getItem at h ⊢
  rw [hk] at h ⊢
  simp only at h ⊢
  rcases hc : s.cache key with _ | c'
  · rw [hc] at h
    simp only at h ⊢
    rcases hr : raw E D key s with ⟨e | x, s'⟩
    · rw [hr] at h; cases h
    · rw [hr] at h
      simp only at h ⊢
      rcases hp : preprocess pre x with e | y
      · rw [hp] at h; cases h
      · rw [hp] at h
        cases h
        simp [setKey]
  · rw [hc] at h
    cases h
    exact hc

theorem serve_cache {E : Env} {D : Dataset V} (q : Req) (s : DState V) (k : String) (c : V)
    (h : s.cache k = some c) : (serve E D q s).2.cache k = some c := by
  cases q with
  | raw key =>
    show (raw E D key s).2.cache k = _
    rw [raw_cache]; exact h
  | get key =>
    show (getItem E D key s).2.cache k = _
    unfold getItem
    rcases hi : D.item? key with _ | ⟨v⟩ | ⟨u, l, p⟩
    · exact h
    · exact h
    · simp only
      rcases hc : s.cache key with _ | c'
      · simp only
        have hr := raw_cache (E := E) (D := D) (key := key) (s := s)
        rcases hq : raw E D key s with ⟨e | x, s'⟩
        · rw [hq] at hr
          simp only at hr ⊢
          rw [hr]; exact h
        · rw [hq] at hr
          simp only at hr ⊢
          rcases hp : preprocess p x with e | y
          · simp only
            rw [hr]; exact h
          · simp only
            by_cases hkk : k = key
            · subst hkk; rw [hc] at h; cases h
            · have : setKey s'.cache key y k = s'.cache k := by simp [setKey, hkk]
              rw [this, hr]; exact h
      · exact h

theorem session_cache {E : Env} {D : Dataset V} (qs : List Req) :
    ∀ (s : DState V) (k : String) (c : V), s.cache k = some c → (session E D qs s).cache k = some c := by
  induction qs with
  | nil => intro s k c h; exact h
  | cons q qs ih => intro s k c h; exact ih _ k c (serve_cache q s k c h)

/-- C82. Once `raw(key)` has answered in a session, every later `raw(key)` gives the same answer and
every later `data[key]` the preprocessed one, without any download, parsing or change of a file,
whatever is requested in between. -/
theorem C82_raw_then (E : Env) (D : Dataset V) (hD : Spec.LoadersReturn D) (w : World)
    (before between : List Req) (key : String) (upon : List DFile)
    (loader : LArg → (Path → Option Bytes) → Except DErr (Val V)) (pre : Option (List (Pipe V)))
    (hk : D.item? key = some (.cfg upon loader pre)) (v : V)
    (h : (raw E D key (session E D before (fresh w))).1 = .ok (some v)) :
    let s := session E D between (raw E D key (session E D before (fresh w))).2
    raw E D key s = (.ok (some v), s) ∧ Spec.Preprocessed pre (some v) (getItem E D key s).1 ∧
      (getItem E D key s).2.world = s.world ∧ (getItem E D key s).2.loads = s.loads := by
  intro s
  have g0 := (session_good (E := E) hD before (fresh w) (good_fresh D w)).1
  have g1 := raw_good (E := E) (key := key) hD g0
  have hv : (raw E D key (session E D before (fresh w))).2.raw key = some v := by
    rcases hr : raw E D key (session E D before (fresh w)) with ⟨r, s'⟩
    rw [hr] at h
    simp only at h
    rcases raw_cases hr with ⟨h1, h2, h3, h4⟩ | ⟨u2, l2, p2, v', hi2, hu, hn, hr2, _, h1, h2, h3⟩
    · obtain ⟨rfl, h5 | h5⟩ := h4 _ h
      · exact h5.1.symm
      · rw [hk] at h5; cases h5
    · rw [hr2] at h
      cases h
      simp only
      rw [h1]
      simp [setKey]
  have g2 := session_good (E := E) hD between _ g1.1
  have hs : s.raw key = some v := g2.2 key v hv
  have hraw : raw E D key s = (.ok (some v), s) := by
    unfold Data.raw
    rw [hk]
    simp only [hs]
  refine ⟨hraw, ?_⟩
  rcases hc : s.cache key with _ | c
  · have hget : getItem E D key s = match preprocess pre (some v) with
        | .error e => (.error e, s)
        | .ok y => (.ok y, { s with cache := setKey s.cache key y }) := by
      unfold getItem
      rw [hk]
      simp only [hc, hraw]
      rfl
    have hp := preprocess_spec pre (some v)
    rw [hget]
    rcases hq : preprocess pre (some v) with e | y
    · rw [hq] at hp; exact ⟨hp, rfl, rfl⟩
    · rw [hq] at hp; exact ⟨hp, rfl, rfl⟩
  · have hget : getItem E D key s = (.ok (some c), s) := by
      unfold getItem
      rw [hk]
      simp only [hc]
    have h5 := (g2.1.cached key upon loader pre c hk hc).1
    have hp := preprocess_spec pre (some v)
    rw [show (session E D between (raw E D key (session E D before (fresh w))).2).raw key = some v from hs] at h5
    rw [h5] at hp
    rw [hget]
    exact ⟨hp, rfl, rfl⟩

/-- C82. Once `data[key]` has answered with something else than `None`, every later `data[key]` gives
the same answer, and every later `raw(key)` answers the item it was made from, all without touching
the world. -/
theorem C82_get_then (E : Env) (D : Dataset V) (hD : Spec.LoadersReturn D) (w : World)
    (before between : List Req) (key : String) (upon : List DFile)
    (loader : LArg → (Path → Option Bytes) → Except DErr (Val V)) (pre : Option (List (Pipe V)))
    (hk : D.item? key = some (.cfg upon loader pre)) (c : V)
    (h : (getItem E D key (session E D before (fresh w))).1 = .ok (some c)) :
    let s := session E D between (getItem E D key (session E D before (fresh w))).2
    getItem E D key s = (.ok (some c), s) ∧
      ∃ x, raw E D key s = (.ok x, s) ∧ Spec.Preprocessed pre x (.ok (some c)) := by
  intro s
  have g0 := (session_good (E := E) hD before (fresh w) (good_fresh D w)).1
  have g1 := get_good (E := E) (key := key) hD g0
  have hcache : (getItem E D key (session E D before (fresh w))).2.cache key = some c :=
    getItem_cache hk h
  have g2 := session_cache (E := E) (D := D) between _ key c hcache
  have g3 := (session_good (E := E) hD between _ g1.1).1
  have hs : s.cache key = some c := g2
  have h4 := g3.cached key upon loader pre c hk hs
  refine ⟨?_, s.raw key, ?_, ?_⟩
  · unfold getItem
    rw [hk]
    simp only [hs]
  · by_cases hu : upon = []
    · subst hu
      have h5 : s.raw key = none := g3.empty key loader pre hk
      unfold Data.raw
      rw [hk]
      simp only [h5, List.isEmpty_nil, if_true]
    · have h5 : s.raw key ≠ none := h4.2 hu
      obtain ⟨v, hv⟩ := Option.ne_none_iff_exists'.1 h5
      unfold Data.raw
      rw [hk]
      simp only [hv]
  · have hp := preprocess_spec pre (s.raw key)
    have h6 : preprocess pre (s.raw key) = .ok (some c) := h4.1
    rw [h6] at hp
    exact hp

/-- C82. Every item is parsed at most once in a session. -/
theorem C82_parsed_once (E : Env) (D : Dataset V) (hD : Spec.LoadersReturn D) (w : World)
    (qs : List Req) (key : String) : (session E D qs (fresh w)).loads.count key ≤ 1 := by
  have h := (session_good (E := E) hD qs (fresh w) (good_fresh D w)).1.once key
  split at h <;> omega

/-- C82. Unknown keys raise and change nothing. -/
theorem C82_unknown (E : Env) (D : Dataset V) (key : String) (hk : key ∉ D.items.map Prod.fst)
    (s : DState V) :
    raw E D key s = (.error .assertion, s) ∧ getItem E D key s = (.error .assertion, s) := by
  have : D.item? key = none := by
    unfold Dataset.item?
    rw [Option.map_eq_none_iff, List.find?_eq_none]
    rintro ⟨k, v⟩ hp
    simp only [decide_eq_true_eq]
    rintro rfl
    exact hk (List.mem_map.2 ⟨_, hp, rfl⟩)
  unfold Data.raw getItem
  rw [this]
  exact ⟨rfl, rfl⟩


/-- C82. Items that are not loaded from files are returned as they are, by both accessors. -/
theorem C82_plain (E : Env) (D : Dataset V) (key : String) (v : Val V)
    (hk : D.item? key = some (.plain v)) (s : DState V) :
    raw E D key s = (.ok v, s) ∧ getItem E D key s = (.ok v, s) := by
  unfold Data.raw getItem
  rw [hk]
  exact ⟨rfl, rfl⟩

/-- the file of the dataset is on disk with the listed checksum -/
def Spec.Verified (E : Env) (root : Path) (f : DFile) (w : World) : Prop :=
  ∃ c, w.files (root ++ [f.filename]) = some c ∧ E.md5 c = f.md5

theorem download_keeps (E : Env) (root : Path) (f : DFile) (w : World) (h : Spec.Verified E root f w)
    (url : Url) (g : String) (md5 : String) (b : Bool)
    (hok : (downloadAndCheck E url (root ++ [g]) md5 w).1 = .ok b) :
    Spec.Verified E root f (downloadAndCheck E url (root ++ [g]) md5 w).2 := by
  obtain ⟨c, hc, hm⟩ := h
  by_cases hg : f.filename = g
  · rw [← hg] at hok ⊢
    by_cases hmd : E.md5 c = md5
    · rw [C80_existing E url _ md5 w c hc hmd]
      exact ⟨c, hc, hm⟩
    · have := retry_err (f := attempt E url (root ++ [f.filename]) md5) (k := 2) (e := .value)
        (by decide) (attempt_corrupt hc hmd)
      unfold downloadAndCheck at hok
      rw [this] at hok
      cases hok
  · refine ⟨c, ?_, hm⟩
    rw [C80_other_files E url _ _ md5 w, hc]
    · intro he
      have := List.append_cancel_left he
      simp only [List.cons.injEq, and_true] at this
      exact hg this
    · intro rel hp hq
      have hlen : root.length ≥ E.home.length + 1 := by
        have := congrArg List.length hp
        simp only [List.length_append, List.length_cons, List.length_nil] at this
        omega
      have h1 : (root ++ [g])[E.home.length]? = some ".cache" := by
        rw [hp]; simp [List.append_assoc]
      have h2 : (root ++ [f.filename])[E.home.length]? = some ".dhg" := by
        rw [hq]; simp [List.append_assoc]
      rw [List.getElem?_append_left (by omega)] at h1 h2
      rw [h1] at h2
      exact absurd (Option.some.inj h2) (by decide)

theorem fetchFiles_verified (E : Env) (D : Dataset V) : ∀ (fs : List DFile) (w w' : World),
    fetchFiles E D fs w = (.ok (), w') →
    (∀ f ∈ fs, Spec.Verified E D.root f w') ∧
      ∀ f, Spec.Verified E D.root f w → Spec.Verified E D.root f w' := by
  intro fs
  induction fs with
  | nil =>
    intro w w' h
    simp only [fetchFiles, Prod.mk.injEq, true_and] at h
    subst h
    exact ⟨by simp, fun _ h => h⟩
  | cons f fs ih =>
    intro w w' h
    unfold fetchFiles at h
    simp only at h
    generalize hu : f.bkUrl.getD (remoteRoot ++ D.name.toList ++ ['/'] ++ f.filename.toList) = url at h
    rcases hd : downloadAndCheck E url (D.root ++ [f.filename]) f.md5 w with ⟨e | b, w1⟩
    · rw [hd] at h; cases h
    · rw [hd] at h
      simp only at h
      obtain ⟨h1, h2⟩ := ih w1 w' h
      have hok : (downloadAndCheck E url (D.root ++ [f.filename]) f.md5 w).1 = .ok b := by rw [hd]
      refine ⟨?_, ?_⟩
      · intro g hg
        rcases List.mem_cons.1 hg with rfl | hg
        · refine h2 _ ?_
          have := (C80_verified E url _ _ w b hok).2
          rw [hd] at this
          exact this
        · exact h1 g hg
      · intro g hg
        refine h2 g ?_
        have := download_keeps E D.root g w hg url f.filename f.md5 b hok
        rw [hd] at this
        exact this

/-- what the loader is meant to be given: the path of the file when there is one, the list of the
paths otherwise -/
def Spec.LoaderArg (root : Path) (upon : List DFile) (a : LArg) : Prop :=
  (∀ f, upon = [f] → a = .one (root ++ [f.filename])) ∧
    (upon.length ≠ 1 → a = .many (upon.map fun f => root ++ [f.filename]))

/-- C82. When an item is read for the first time, all its files are on disk with the listed checksums
when the loader runs, and the answer is what the loader makes of them. -/
theorem C82_parsed_verified (E : Env) (D : Dataset V) (key : String) (upon : List DFile)
    (loader : LArg → (Path → Option Bytes) → Except DErr (Val V)) (pre : Option (List (Pipe V)))
    (hk : D.item? key = some (.cfg upon loader pre)) (hu : upon ≠ []) (s : DState V)
    (hn : s.raw key = none) (v : Val V) (h : (raw E D key s).1 = .ok v) :
    let w := (raw E D key s).2.world
    (∀ f ∈ upon, Spec.Verified E D.root f w) ∧
      ∃ a, Spec.LoaderArg D.root upon a ∧ loader a w.files = .ok v := by
  intro w
  have hraw : raw E D key s = loadItem E D key upon loader s := by
    unfold Data.raw
    rw [hk]
    simp only [hn]
    rw [if_neg (by simpa using hu)]
  rcases hf : fetchFiles E D upon s.world with ⟨e | _, w1⟩
  · rw [hraw] at h
    unfold loadItem at h
    rw [hf] at h
    cases h
  · rcases hl : loader (larg D upon) w1.files with e | x
    · rw [hraw] at h
      unfold loadItem at h
      rw [hf] at h
      simp only [hl] at h
      cases h
    · have hw : w = w1 := by
        show (raw E D key s).2.world = w1
        rw [hraw]
        unfold loadItem
        rw [hf]
        simp only [hl]
      rw [hraw] at h
      unfold loadItem at h
      rw [hf] at h
      simp only [hl, Except.ok.injEq] at h
      subst h
      rw [hw]
      refine ⟨(fetchFiles_verified E D upon s.world w1 hf).1, _, ⟨?_, ?_⟩, hl⟩
      · rintro f rfl; rfl
      · intro hlen
        unfold larg
        match upon, hlen with
        | [], _ => rfl
        | [_], h => exact absurd rfl h
        | _ :: _ :: _, _ => rfl

/-- C82. A failed read stores nothing: after an exception the item is as it was, and can be asked for
again. -/
theorem C82_failure (E : Env) (D : Dataset V) (key : String) (s : DState V) (e : DErr)
    (h : (raw E D key s).1 = .error e) :
    (raw E D key s).2.raw = s.raw ∧ (raw E D key s).2.cache = s.cache ∧
      (raw E D key s).2.loads = s.loads := by
  rcases hr : raw E D key s with ⟨r, s'⟩
  rw [hr] at h
  simp only at h
  rcases raw_cases hr with ⟨h1, h2, h3, _⟩ | ⟨_, _, _, _, _, _, _, h4, _⟩
  · exact ⟨h1, h2, h3⟩
  · rw [h4] at h; cases h

/-! ## Where the code falls short -/

/-- a dataset with one item -/
def oneItem {V : Type} (root : Path) (it : Item V) : Dataset V := ⟨"d", root, [("x", it)]⟩

/-- C82. "At most once" fails for a loader that answers `None`: the absent value and the value `None`
are not told apart, and every request parses again. -/
theorem C82_none_false : ∃ (E : Env) (D : Dataset Nat) (w : World),
    (raw E D "x" (fresh w)).1 = .ok none ∧
    (session E D [.raw "x", .get "x", .raw "x"] (fresh w)).loads = ["x", "x", "x"] := by
  refine ⟨⟨["h"], fun _ => "m", fun _ _ => .refused⟩,
    oneItem ["h", ".cache", "dhg", "datasets", "d"] (.cfg [⟨"f", "m", none⟩] (fun _ _ => .ok none) none),
    ⟨fun _ => some [], []⟩, ?_, ?_⟩ <;> decide +kernel

/-- C82. With a `data_root` outside the cache directory a missing file is never downloaded: the
request raises, whatever the network would have answered. -/
theorem C82_custom_root_false (E : Env) (D : Dataset V) (key : String) (f : DFile) (fs : List DFile)
    (loader : LArg → (Path → Option Bytes) → Except DErr (Val V)) (pre : Option (List (Pipe V)))
    (hk : D.item? key = some (.cfg (f :: fs) loader pre)) (w : World)
    (hroot : ¬ Spec.InCache E (D.root ++ [f.filename]))
    (hmiss : w.files (D.root ++ [f.filename]) = none) :
    (raw E D key (fresh w)).1 = .error (.fetch .value) ∧ (raw E D key (fresh w)).2.world = w := by
  have h1 : ∀ url, downloadAndCheck E url (D.root ++ [f.filename]) f.md5 w = (.error .value, w) := by
    intro url
    refine retry_err (by decide) ?_
    have h2 : relativeTo (D.root ++ [f.filename]) E.cacheRoot = none := by
      unfold relativeTo
      rw [if_neg]
      intro hp
      obtain ⟨t, ht⟩ := List.isPrefixOf_iff_prefix.1 hp
      exact hroot ⟨t, ht.symm⟩
    simp [attempt, stepMigrate, hmiss, tryMigrate, h2]
  have h3 : fetchFiles E D (f :: fs) w = (.error (.fetch .value), w) := by
    unfold fetchFiles
    simp only [h1]
  have hraw : raw E D key (fresh w) = loadItem E D key (f :: fs) loader (fresh w) := by
    unfold Data.raw
    rw [hk]
    rfl
  rw [hraw]
  unfold loadItem
  rw [show (fresh w : DState V).world = w from rfl, h3]
  exact ⟨rfl, rfl⟩

/-! ## Examples -/

/-- a server with the file, a loader counting bytes, and a pipe doubling the count -/
def exData : Dataset Nat :=
  oneItem ["h", ".cache", "dhg", "datasets", "d"]
    (.cfg [⟨"f", "m", none⟩]
      (fun a fs => match a with
        | .one p => match fs p with
          | some b => .ok (some b.length)
          | none => .error .user
        | .many _ => .error .user)
      (some [fun x => .ok (x.map (· * 2))]))

def exDataEnv : Env := ⟨["h"], fun _ => "m", fun _ _ => .body [1, 2, 3] .complete⟩

example : Spec.LoadersReturn exData := by
  intro key upon loader pre h a fs
  unfold Dataset.item? at h
  rcases hf : exData.items.find? (fun p => p.1 = key) with _ | ⟨k, it⟩
  · rw [hf] at h; cases h
  · have hm := List.mem_of_find?_eq_some hf
    rw [hf] at h
    simp only [exData, oneItem, List.mem_singleton, Prod.mk.injEq] at hm
    obtain ⟨_, rfl⟩ := hm
    cases h
    rcases a with p | ps
    · simp only
      rcases fs p with _ | b <;> simp
    · simp

example : (raw exDataEnv exData "x" (fresh ⟨fun _ => none, []⟩)).1 = .ok (some 3) ∧
    (getItem exDataEnv exData "x" (fresh ⟨fun _ => none, []⟩)).1 = .ok (some 6) ∧
    (session exDataEnv exData [.get "x", .raw "x", .get "x"] (fresh ⟨fun _ => none, []⟩)).world.reqs.length = 1 := by
  decide +kernel

example : "y" ∉ exData.items.map Prod.fst := by decide

example : exData.item? "x" ≠ none := by simp [exData, oneItem, Dataset.item?]

end DHG
