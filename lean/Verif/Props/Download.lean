
import Verif.Download

/-!
# Downloads (C80, C81)
-/

set_option linter.unusedSectionVars false
set_option autoImplicit false

namespace DHG
open Download

/-! ## Steps -/

theorem retry_inv {α : Type} {f : World → Except Exc α × World} {P : Except Exc α × World → Prop}
    {I : World → Prop} (hP : ∀ w, I w → P (f w))
    (hI : ∀ w w', I w → f w = (.error .http, w') → I w') :
    ∀ k w, I w → P (retry f k w) := by
  intro k
  induction k with
  | zero => intro w hw; exact hP w hw
  | succ k ih =>
    intro w hw
    unfold retry
    rcases hf : f w with ⟨e | a, w'⟩
    · by_cases he : e = .http
      · subst he
        exact ih w' (hI w w' hw hf)
      · have hp := hP w hw
        rw [hf] at hp
        cases e <;> first | exact absurd rfl he | exact hp
    · have hp := hP w hw
      rw [hf] at hp
      exact hp

theorem setFile_self (fs : Path → Option Bytes) (p : Path) (v : Option Bytes) : setFile fs p v p = v := by
  simp [setFile]

theorem setFile_ne (fs : Path → Option Bytes) {p q : Path} (v : Option Bytes) (h : q ≠ p) :
    setFile fs p v q = fs q := by
  simp [setFile, h]

theorem stepCheck_true {E : Env} {p : Path} {md5 : String} {w w' : World} {b : Bool}
    (h : stepCheck E p md5 w = (.ok b, w')) : b = true ∧ w' = w ∧ ∃ c, w'.files p = some c ∧ E.md5 c = md5 := by
  unfold stepCheck checkFile at h
  rcases hf : w.files p with _ | c
  · rw [hf] at h; cases h
  · rw [hf] at h
    by_cases hm : E.md5 c = md5
    · simp only [hm, decide_true, Prod.mk.injEq, Except.ok.injEq] at h
      obtain ⟨h1, h2⟩ := h
      exact ⟨h1.symm, h2.symm, c, by rw [← h2]; exact hf, hm⟩
    · simp only [hm, decide_false] at h
      cases h

theorem attempt_true {E : Env} {url : Url} {p : Path} {md5 : String} {w w' : World} {b : Bool}
    (h : attempt E url p md5 w = (.ok b, w')) : b = true ∧ ∃ c, w'.files p = some c ∧ E.md5 c = md5 := by
  unfold attempt at h
  rcases h1 : stepMigrate E p w with ⟨e | u, w1⟩
  · rw [h1] at h; cases h
  · rw [h1] at h
    simp only at h
    rcases h2 : stepFetch E url p w1 with ⟨e | u, w2⟩
    · rw [h2] at h; cases h
    · rw [h2] at h
      obtain ⟨h3, _, h4⟩ := stepCheck_true h
      exact ⟨h3, h4⟩

/-- C80. When the call returns, it returns `True`, and the file is there with the requested checksum,
whatever the files were before and whatever the network did. -/
theorem C80_verified (E : Env) (url : Url) (p : Path) (md5 : String) (w : World) (b : Bool)
    (h : (downloadAndCheck E url p md5 w).1 = .ok b) :
    b = true ∧ ∃ c, (downloadAndCheck E url p md5 w).2.files p = some c ∧ E.md5 c = md5 := by
  have := retry_inv (f := attempt E url p md5) (I := fun _ => True)
    (P := fun r => ∀ b, r.1 = .ok b → b = true ∧ ∃ c, r.2.files p = some c ∧ E.md5 c = md5)
    (fun w _ b hb => by
      rcases ha : attempt E url p md5 w with ⟨r, w'⟩
      rw [ha] at hb
      simp only at hb
      subst hb
      exact attempt_true ha) (fun _ _ _ _ => trivial) 2 w trivial
  exact this b h

/-- C80. A valid file is used as it is: no request is made and no file changes. -/
theorem C80_existing (E : Env) (url : Url) (p : Path) (md5 : String) (w : World) (c : Bytes)
    (hc : w.files p = some c) (hm : E.md5 c = md5) :
    downloadAndCheck E url p md5 w = (.ok true, w) := by
  have : attempt E url p md5 w = (.ok true, w) := by
    simp [attempt, stepMigrate, stepFetch, stepCheck, checkFile, hc, hm]
  simp [downloadAndCheck, retry, this]

/-- after a `ValueError` no file is left -/
theorem attempt_value {E : Env} {url : Url} {p : Path} {md5 : String} {w w' : World}
    (h : attempt E url p md5 w = (.error .value, w')) : w'.files p = none := by
  unfold attempt at h
  rcases h1 : stepMigrate E p w with ⟨e | u, w1⟩
  · rw [h1] at h
    simp only [Prod.mk.injEq] at h
    obtain ⟨_, rfl⟩ := h
    unfold stepMigrate at h1
    split at h1
    · rename_i hn
      unfold tryMigrate at h1
      split at h1
      · simp only [Prod.mk.injEq] at h1
        rw [← h1.2]
        simpa using hn
      · simp only at h1
        split at h1 <;> cases h1
    · cases h1
  · rw [h1] at h
    simp only at h
    rcases h2 : stepFetch E url p w1 with ⟨e | u, w2⟩
    · rw [h2] at h
      simp only [Prod.mk.injEq, Except.error.injEq] at h
      obtain ⟨rfl, rfl⟩ := h
      exfalso
      have hd : ∀ url w w', downloadFile E url p w ≠ (.error .value, w') := by
        intro url w w' hc
        unfold downloadFile at hc
        simp only at hc
        split at hc
        · cases hc
        · cases hc
        · split at hc <;> cases hc
      unfold stepFetch at h2
      split at h2
      · rcases h3 : downloadFile E url p w1 with ⟨e | u, w3⟩
        · rw [h3] at h2
          simp only at h2
          split at h2
          · split at h2
            · exact hd _ _ _ h2
            · rename_i he _
              simp only [Prod.mk.injEq, Except.error.injEq] at h2
              rw [h2.1] at he
              simp at he
          · simp only [Prod.mk.injEq, Except.error.injEq] at h2
            rw [h2.1] at h3
            exact hd _ _ _ h3
        · rw [h3] at h2; cases h2
      · cases h2
    · rw [h2] at h
      simp only at h
      unfold stepCheck at h
      split at h
      · rename_i e hc
        simp only [Prod.mk.injEq, Except.error.injEq] at h
        unfold checkFile at hc
        split at hc
        · simp only [Except.error.injEq] at hc
          rw [← hc] at h
          exact absurd h.1 (by decide)
        · cases hc
      · cases h
      · simp only [Prod.mk.injEq] at h
        rw [← h.2]
        exact setFile_self _ _ _

/-- C80. A corrupted file is deleted: after a `ValueError` nothing is left at the path. -/
theorem C80_corrupted_deleted (E : Env) (url : Url) (p : Path) (md5 : String) (w : World)
    (h : (downloadAndCheck E url p md5 w).1 = .error .value) :
    (downloadAndCheck E url p md5 w).2.files p = none := by
  have := retry_inv (f := attempt E url p md5) (I := fun _ => True)
    (P := fun r => r.1 = .error .value → r.2.files p = none)
    (fun w _ hb => by
      rcases ha : attempt E url p md5 w with ⟨r, w'⟩
      rw [ha] at hb
      simp only at hb
      subst hb
      exact attempt_value ha) (fun _ _ _ _ => trivial) 2 w trivial
  exact this h

theorem downloadFile_files (E : Env) (url : Url) (p q : Path) (w : World) (h : q ≠ p) :
    (downloadFile E url p w).2.files q = w.files q := by
  unfold downloadFile
  simp only
  split
  · rfl
  · rfl
  · split <;> exact setFile_ne _ _ h

theorem stepMigrate_files (E : Env) (p q : Path) (w : World) (h : q ≠ p)
    (hl : ∀ rel, relativeTo p E.cacheRoot = some rel → q ≠ E.legacyRoot ++ rel) :
    (stepMigrate E p w).2.files q = w.files q := by
  unfold stepMigrate
  split
  · unfold tryMigrate
    split
    · rfl
    · rename_i rel hr
      simp only
      split
      · rfl
      · show setFile _ _ _ q = _
        rw [setFile_ne _ _ h, setFile_ne _ _ (hl rel hr)]
  · rfl

theorem stepFetch_files (E : Env) (url : Url) (p q : Path) (w : World) (h : q ≠ p) :
    (stepFetch E url p w).2.files q = w.files q := by
  unfold stepFetch
  split
  · rcases h3 : downloadFile E url p w with ⟨e | u, w3⟩
    · have h4 := downloadFile_files E url p q w h
      rw [h3] at h4
      simp only
      split
      · split
        · rw [downloadFile_files _ _ _ _ _ h]; exact h4
        · exact h4
      · exact h4
    · have h4 := downloadFile_files E url p q w h
      rw [h3] at h4
      exact h4
  · rfl

theorem stepCheck_files (E : Env) (p q : Path) (md5 : String) (w : World) (h : q ≠ p) :
    (stepCheck E p md5 w).2.files q = w.files q := by
  unfold stepCheck
  split
  · rfl
  · rfl
  · exact setFile_ne _ _ h

theorem attempt_files (E : Env) (url : Url) (p q : Path) (md5 : String) (w : World) (h : q ≠ p)
    (hl : ∀ rel, relativeTo p E.cacheRoot = some rel → q ≠ E.legacyRoot ++ rel) :
    (attempt E url p md5 w).2.files q = w.files q := by
  have h1 := stepMigrate_files E p q w h hl
  unfold attempt
  rcases hm : stepMigrate E p w with ⟨e | u, w1⟩
  · rw [hm] at h1; exact h1
  · rw [hm] at h1
    simp only at h1 ⊢
    have h2 := stepFetch_files E url p q w1 h
    rcases hf : stepFetch E url p w1 with ⟨e | u, w2⟩
    · rw [hf] at h2; simp only at h2 ⊢; rw [h2, h1]
    · rw [hf] at h2
      simp only at h2 ⊢
      rw [stepCheck_files _ _ _ _ _ h, h2, h1]

/-- C80. No file is touched except the requested one and its counterpart in the old cache
directory. -/
theorem C80_other_files (E : Env) (url : Url) (p q : Path) (md5 : String) (w : World) (h : q ≠ p)
    (hl : ∀ rel, p = E.home ++ [".cache", "dhg"] ++ rel → q ≠ E.home ++ [".dhg"] ++ rel) :
    (downloadAndCheck E url p md5 w).2.files q = w.files q := by
  have hl' : ∀ rel, relativeTo p E.cacheRoot = some rel → q ≠ E.legacyRoot ++ rel := by
    intro rel hr
    refine hl rel ?_
    unfold relativeTo at hr
    split at hr
    · rename_i hp
      simp only [Option.some.injEq] at hr
      obtain ⟨t, ht⟩ := List.isPrefixOf_iff_prefix.1 hp
      rw [← hr, ← ht]
      simp [Env.cacheRoot]
    · cases hr
  have := retry_inv (f := attempt E url p md5) (I := fun w' => w'.files q = w.files q)
    (P := fun r => r.2.files q = w.files q)
    (fun w' hw => by rw [attempt_files E url p q md5 w' h hl', hw])
    (fun w' w'' hw hf => by
      have := attempt_files E url p q md5 w' h hl'
      rw [hf] at this
      rw [← hw]; exact this) 2 w rfl
  exact this

/-! ## C81 -/

theorem downloadFile_reqs (E : Env) (url : Url) (p : Path) (w : World) :
    (downloadFile E url p w).2.reqs = w.reqs ++ [url] := by
  unfold downloadFile
  simp only
  split
  · rfl
  · rfl
  · split <;> rfl

/-- the address at the backup server -/
def Spec.backup (url : Url) : Url := backupRoot ++ url.drop remoteRoot.length

theorem attempt_reqs (E : Env) (url : Url) (p : Path) (md5 : String) (w : World) :
    (attempt E url p md5 w).2.reqs = w.reqs ∨ (attempt E url p md5 w).2.reqs = w.reqs ++ [url] ∨
    (attempt E url p md5 w).2.reqs = w.reqs ++ [url, Spec.backup url] := by
  have h1 : (stepMigrate E p w).2.reqs = w.reqs := by
    unfold stepMigrate
    split
    · unfold tryMigrate
      split
      · rfl
      · simp only
        split <;> rfl
    · rfl
  have h2 : ∀ w, (stepFetch E url p w).2.reqs = w.reqs ∨ (stepFetch E url p w).2.reqs = w.reqs ++ [url] ∨
      (stepFetch E url p w).2.reqs = w.reqs ++ [url, Spec.backup url] := by
    intro w
    unfold stepFetch
    split
    · have h4 := downloadFile_reqs E url p w
      rcases h3 : downloadFile E url p w with ⟨e | u, w3⟩
      · rw [h3] at h4
        simp only at h4 ⊢
        split
        · split
          · right; right
            rw [downloadFile_reqs, h4, List.append_assoc]
            rfl
          · right; left; exact h4
        · right; left; exact h4
      · rw [h3] at h4
        right; left; exact h4
    · left; rfl
  have h3 : ∀ w, (stepCheck E p md5 w).2.reqs = w.reqs := by
    intro w
    unfold stepCheck
    split <;> rfl
  unfold attempt
  rcases hm : stepMigrate E p w with ⟨e | u, w1⟩
  · rw [hm] at h1; left; exact h1
  · rw [hm] at h1
    simp only at h1 ⊢
    have h4 := h2 w1
    rw [h1] at h4
    rcases hf : stepFetch E url p w1 with ⟨e | u, w2⟩
    · rw [hf] at h4; exact h4
    · rw [hf] at h4
      simp only at h4 ⊢
      rw [h3]
      exact h4

theorem retry_reqs (E : Env) (url : Url) (p : Path) (md5 : String) : ∀ k w,
    ∃ r : List Url, (retry (attempt E url p md5) k w).2.reqs = w.reqs ++ r ∧
      (∀ u ∈ r, u = url ∨ u = Spec.backup url) ∧ r.length ≤ 2 * (k + 1) := by
  have hstep : ∀ w, ∃ r : List Url, (attempt E url p md5 w).2.reqs = w.reqs ++ r ∧
      (∀ u ∈ r, u = url ∨ u = Spec.backup url) ∧ r.length ≤ 2 := by
    intro w
    rcases attempt_reqs E url p md5 w with h | h | h
    · exact ⟨[], by simpa using h, by simp, by simp⟩
    · exact ⟨[url], h, by simp, by simp⟩
    · exact ⟨[url, Spec.backup url], h, by simp, by simp⟩
  intro k
  induction k with
  | zero => intro w; exact hstep w
  | succ k ih =>
    intro w
    obtain ⟨r, hr1, hr2, hr3⟩ := hstep w
    unfold retry
    rcases hf : attempt E url p md5 w with ⟨e | a, w'⟩
    · rw [hf] at hr1
      simp only at hr1
      by_cases he : e = .http
      · subst he
        simp only
        obtain ⟨r', h1, h2, h3⟩ := ih w'
        refine ⟨r ++ r', by rw [h1, hr1, List.append_assoc], ?_, by simp; omega⟩
        intro u hu
        rcases List.mem_append.1 hu with hu | hu
        · exact hr2 u hu
        · exact h2 u hu
      · refine ⟨r, ?_, hr2, by omega⟩
        cases e <;> first | exact absurd rfl he | exact hr1
    · rw [hf] at hr1
      exact ⟨r, hr1, hr2, by omega⟩

/-- C81. A call makes at most six requests, all to the given address or to the same file at the
backup server. -/
theorem C81_requests (E : Env) (url : Url) (p : Path) (md5 : String) (w : World) :
    ∃ r : List Url, (downloadAndCheck E url p md5 w).2.reqs = w.reqs ++ r ∧
      (∀ u ∈ r, u = url ∨ u = Spec.backup url) ∧ r.length ≤ 6 :=
  retry_reqs E url p md5 2 w

/-- the network answers every request number `≥ n` for the address with the wanted bytes -/
def Spec.Serves (E : Env) (url : Url) (md5 : String) (n : Nat) : Prop :=
  ∀ k ≥ n, ∃ c, E.net k url = .body c .complete ∧ E.md5 c = md5

/-- the path lies in the cache directory -/
def Spec.InCache (E : Env) (p : Path) : Prop := ∃ rel, p = E.home ++ [".cache", "dhg"] ++ rel

theorem relativeTo_cache {E : Env} {p : Path} (h : Spec.InCache E p) :
    ∃ rel, relativeTo p E.cacheRoot = some rel := by
  obtain ⟨rel, rfl⟩ := h
  refine ⟨_, if_pos ?_⟩
  rw [List.isPrefixOf_iff_prefix]
  exact ⟨rel, rfl⟩

theorem fetch_served {E : Env} {url : Url} {p : Path} {md5 : String} {w : World} {c : Bytes}
    (hn : w.files p = none) (hc : E.net w.reqs.length url = .body c .complete) :
    stepFetch E url p w = (.ok (), ⟨setFile w.files p (some c), w.reqs ++ [url]⟩) := by
  simp [stepFetch, hn, downloadFile, hc]

/-- nothing at the path and nothing to migrate: the served file is fetched -/
theorem attempt_clean {E : Env} {url : Url} {p : Path} {md5 : String} {w : World} {c : Bytes} {rel : Path}
    (hr : relativeTo p E.cacheRoot = some rel) (hl : w.files (E.legacyRoot ++ rel) = none)
    (hn : w.files p = none) (hc : E.net w.reqs.length url = .body c .complete) (hm : E.md5 c = md5) :
    attempt E url p md5 w = (.ok true, ⟨setFile w.files p (some c), w.reqs ++ [url]⟩) := by
  have h1 : stepMigrate E p w = (.ok (), w) := by simp [stepMigrate, hn, tryMigrate, hr, hl]
  unfold attempt
  rw [h1]
  simp only
  rw [fetch_served (md5 := md5) hn hc]
  simp [stepCheck, checkFile, setFile_self, hm]

theorem retry_ok {α : Type} {f : World → Except Exc α × World} {k : Nat} {w w' : World} {a : α}
    (h : f w = (.ok a, w')) : retry f k w = (.ok a, w') := by
  cases k with
  | zero => exact h
  | succ k => unfold retry; rw [h]

theorem retry_err {α : Type} {f : World → Except Exc α × World} {k : Nat} {w w' : World} {e : Exc}
    (he : e ≠ .http) (h : f w = (.error e, w')) : retry f k w = (.error e, w') := by
  cases k with
  | zero => exact h
  | succ k =>
    unfold retry
    rw [h]
    cases e <;> first | exact absurd rfl he | rfl

theorem attempt_corrupt {E : Env} {url : Url} {p : Path} {md5 : String} {w : World} {c : Bytes}
    (hn : w.files p = some c) (hm : E.md5 c ≠ md5) :
    attempt E url p md5 w = (.error .value, ⟨setFile w.files p none, w.reqs⟩) := by
  simp [attempt, stepMigrate, stepFetch, stepCheck, checkFile, hn, hm]

theorem attempt_legacy {E : Env} {url : Url} {p : Path} {md5 : String} {w : World} {c : Bytes} {rel : Path}
    (hr : relativeTo p E.cacheRoot = some rel) (hl : w.files (E.legacyRoot ++ rel) = some c)
    (hn : w.files p = none) :
    attempt E url p md5 w =
      if E.md5 c = md5 then (.ok true, ⟨setFile (setFile w.files (E.legacyRoot ++ rel) none) p (some c), w.reqs⟩)
      else (.error .value,
        ⟨setFile (setFile (setFile w.files (E.legacyRoot ++ rel) none) p (some c)) p none, w.reqs⟩) := by
  have h1 : stepMigrate E p w =
      (.ok (), ⟨setFile (setFile w.files (E.legacyRoot ++ rel) none) p (some c), w.reqs⟩) := by
    simp [stepMigrate, hn, tryMigrate, hr, hl]
  unfold attempt
  rw [h1]
  by_cases hm : E.md5 c = md5
  · simp [stepFetch, stepCheck, checkFile, setFile_self, hm]
  · simp [stepFetch, stepCheck, checkFile, setFile_self, hm]

/-- how many calls are needed on a working network: one more for a corrupted file at the path, one
more for a corrupted file in the old cache directory -/
theorem call_served {E : Env} {url : Url} {p : Path} {md5 : String} {w : World} {rel : Path}
    (hr : relativeTo p E.cacheRoot = some rel) (hne : E.legacyRoot ++ rel ≠ p)
    (hs : Spec.Serves E url md5 w.reqs.length) :
    (∃ w', downloadAndCheck E url p md5 w = (.ok true, w')) ∨
    (∃ w', downloadAndCheck E url p md5 w = (.error .value, w') ∧ w'.files p = none ∧ w'.reqs = w.reqs ∧
      (w.files p = none → w.files (E.legacyRoot ++ rel) ≠ none ∧ w'.files (E.legacyRoot ++ rel) = none) ∧
      (w.files (E.legacyRoot ++ rel) = none → w'.files (E.legacyRoot ++ rel) = none)) := by
  obtain ⟨c, hc, hm⟩ := hs w.reqs.length (Nat.le_refl _)
  rcases hn : w.files p with _ | b
  · rcases hl : w.files (E.legacyRoot ++ rel) with _ | b
    · exact .inl ⟨_, retry_ok (attempt_clean hr hl hn hc hm)⟩
    · have ha := attempt_legacy (url := url) (md5 := md5) hr hl hn
      by_cases hb : E.md5 b = md5
      · rw [if_pos hb] at ha
        exact .inl ⟨_, retry_ok ha⟩
      · rw [if_neg hb] at ha
        refine .inr ⟨_, retry_err (by decide) ha, setFile_self _ _ _, rfl, ?_, ?_⟩
        · intro _
          refine ⟨by simp, ?_⟩
          show setFile _ _ _ _ = _
          rw [setFile_ne _ _ hne, setFile_ne _ _ hne, setFile_self]
        · intro h; cases h
  · by_cases hb : E.md5 b = md5
    · exact .inl ⟨_, C80_existing E url p md5 w b hn hb⟩
    · refine .inr ⟨_, retry_err (by decide) (attempt_corrupt hn hb), setFile_self _ _ _, rfl, ?_, ?_⟩
      · intro h; cases h
      · intro h
        show setFile _ _ _ _ = _
        rw [setFile_ne _ _ hne]
        exact h

theorem legacy_ne {E : Env} {p rel : Path} (hr : relativeTo p E.cacheRoot = some rel) :
    E.legacyRoot ++ rel ≠ p := by
  unfold relativeTo at hr
  split at hr
  · rename_i hp
    simp only [Option.some.injEq] at hr
    obtain ⟨t, ht⟩ := List.isPrefixOf_iff_prefix.1 hp
    intro h
    rw [← ht] at h
    unfold Env.cacheRoot Env.legacyRoot at h
    rw [List.append_assoc, List.append_assoc, List.append_cancel_left_eq] at h
    simp at h
  · cases hr

theorem serves_mono {E : Env} {url : Url} {md5 : String} {m n : Nat} (h : Spec.Serves E url md5 m)
    (hmn : m ≤ n) : Spec.Serves E url md5 n := fun k hk => h k (Nat.le_trans hmn hk)

theorem call_after_ok {E : Env} {url : Url} {p : Path} {md5 : String} {w w' : World}
    (h : downloadAndCheck E url p md5 w = (.ok true, w')) :
    downloadAndCheck E url p md5 w' = (.ok true, w') := by
  have := C80_verified E url p md5 w true (by rw [h])
  rw [h] at this
  obtain ⟨_, c, hc, hm⟩ := this
  exact C80_existing E url p md5 w' c hc hm

/-- C81. Whatever an earlier failure or crash left behind, three calls on a working network are
enough, and two when the old cache directory has no such file.  Missing: the very next call succeeds,
see `C81_next_call_false`. -/
theorem C81_recovers_partial (E : Env) (url : Url) (p : Path) (md5 : String) (w : World)
    (hp : Spec.InCache E p) (hs : Spec.Serves E url md5 w.reqs.length) :
    let call := fun w => downloadAndCheck E url p md5 w
    (call (call (call w).2).2).1 = .ok true ∧
    ((∀ rel, p = E.home ++ [".cache", "dhg"] ++ rel → w.files (E.home ++ [".dhg"] ++ rel) = none) →
      (call (call w).2).1 = .ok true) := by
  obtain ⟨rel, hr⟩ := relativeTo_cache hp
  have hne := legacy_ne hr
  have hrel : p = E.home ++ [".cache", "dhg"] ++ rel := by
    unfold relativeTo at hr
    split at hr
    · rename_i hp
      simp only [Option.some.injEq] at hr
      obtain ⟨t, ht⟩ := List.isPrefixOf_iff_prefix.1 hp
      rw [← hr, ← ht]
      simp [Env.cacheRoot]
    · cases hr
  intro call
  rcases call_served (w := w) hr hne hs with ⟨w1, h1⟩ | ⟨w1, h1, hn1, hq1, ha1, hb1⟩
  · have h2 := call_after_ok h1
    have h3 := call_after_ok h2
    have e1 : (call w).2 = w1 := by show (downloadAndCheck E url p md5 w).2 = w1; rw [h1]
    have e2 : (call w1) = (.ok true, w1) := h2
    rw [e1, e2]
    exact ⟨by show (call w1).1 = _; rw [e2], fun _ => rfl⟩
  · have e1 : (call w).2 = w1 := by show (downloadAndCheck E url p md5 w).2 = w1; rw [h1]
    rw [e1]
    have hs1 : Spec.Serves E url md5 w1.reqs.length := by rw [hq1]; exact hs
    rcases call_served (w := w1) hr hne hs1 with ⟨w2, h2⟩ | ⟨w2, h2, hn2, hq2, ha2, hb2⟩
    · have h3 := call_after_ok h2
      have e2 : (call w1) = (.ok true, w2) := h2
      rw [e2]
      exact ⟨by show (downloadAndCheck E url p md5 w2).1 = _; rw [h3], fun _ => rfl⟩
    · obtain ⟨hx, hy⟩ := ha2 hn1
      have e2 : (call w1) = (.error .value, w2) := h2
      rw [e2]
      refine ⟨?_, fun hl => ?_⟩
      · have hs2 : Spec.Serves E url md5 w2.reqs.length := by rw [hq2]; exact hs1
        rcases call_served (w := w2) hr hne hs2 with ⟨w3, h3⟩ | ⟨w3, h3, hn3, hq3, ha3, hb3⟩
        · show (downloadAndCheck E url p md5 w2).1 = _
          rw [h3]
        · exact absurd hy (ha3 hn2).1
      · have : w.files (E.legacyRoot ++ rel) = none := hl rel hrel
        exact absurd (hb1 this) hx

/-- C81. With nothing at the path and nothing in the old cache directory, one call on a working
network succeeds with one request, and it leaves the served bytes at the path. -/
theorem C81_fresh (E : Env) (url : Url) (p : Path) (md5 : String) (w : World) (hp : Spec.InCache E p)
    (hn : w.files p = none)
    (hl : ∀ rel, p = E.home ++ [".cache", "dhg"] ++ rel → w.files (E.home ++ [".dhg"] ++ rel) = none)
    (c : Bytes) (hc : E.net w.reqs.length url = .body c .complete) (hm : E.md5 c = md5) :
    ∃ w', downloadAndCheck E url p md5 w = (.ok true, w') ∧ w'.files p = some c ∧
      w'.reqs = w.reqs ++ [url] := by
  obtain ⟨rel, hrel⟩ := hp
  have hr : relativeTo p E.cacheRoot = some rel := by
    unfold relativeTo
    rw [if_pos (by rw [List.isPrefixOf_iff_prefix]; exact ⟨rel, hrel.symm⟩), hrel]
    simp [Env.cacheRoot]
  exact ⟨_, retry_ok (attempt_clean hr (hl rel hrel) hn hc hm), setFile_self _ _ _, rfl⟩

/-- both servers answer request `k` with an error status -/
def Spec.Down (E : Env) (url : Url) (k : Nat) : Prop :=
  E.net k url = .status ∧ E.net (k + 1) (Spec.backup url) = .status

theorem attempt_down {E : Env} {url : Url} {p : Path} {md5 : String} {w : World} {rel : Path}
    (hr : relativeTo p E.cacheRoot = some rel) (hl : w.files (E.legacyRoot ++ rel) = none)
    (hn : w.files p = none) (hu : remoteRoot <+: url) (hd : Spec.Down E url w.reqs.length) :
    attempt E url p md5 w = (.error .http, ⟨w.files, w.reqs ++ [url] ++ [Spec.backup url]⟩) := by
  have h1 : stepMigrate E p w = (.ok (), w) := by simp [stepMigrate, hn, tryMigrate, hr, hl]
  have h2 : downloadFile E url p w = (.error .http, ⟨w.files, w.reqs ++ [url]⟩) := by
    simp [downloadFile, hd.1]
  have h3 : downloadFile E (Spec.backup url) p ⟨w.files, w.reqs ++ [url]⟩ =
      (.error .http, ⟨w.files, w.reqs ++ [url] ++ [Spec.backup url]⟩) := by
    have := hd.2
    simp [downloadFile, this]
  unfold attempt
  rw [h1]
  simp only
  unfold stepFetch
  rw [if_pos (by simp [hn]), h2]
  simp only [true_or, if_true]
  rw [if_pos (List.isPrefixOf_iff_prefix.2 hu)]
  show ((match downloadFile E (Spec.backup url) p ⟨w.files, w.reqs ++ [url]⟩ with
    | (.error e, w2) => (.error e, w2)
    | (.ok (), w2) => stepCheck E p md5 w2) : Except Exc Bool × World) = _
  rw [h3]

/-- C81. HTTP failures are retried: when both servers fail in the first one or two attempts and the
main server then delivers, the call succeeds. -/
theorem C81_retries (E : Env) (url : Url) (p : Path) (md5 : String) (w : World) (hp : Spec.InCache E p)
    (hu : remoteRoot <+: url) (hn : w.files p = none)
    (hl : ∀ rel, p = E.home ++ [".cache", "dhg"] ++ rel → w.files (E.home ++ [".dhg"] ++ rel) = none)
    (k : Nat) (hk : k ≤ 2) (hd : ∀ i < k, Spec.Down E url (w.reqs.length + 2 * i)) (c : Bytes)
    (hc : E.net (w.reqs.length + 2 * k) url = .body c .complete) (hm : E.md5 c = md5) :
    ∃ w', downloadAndCheck E url p md5 w = (.ok true, w') ∧ w'.files p = some c ∧
      w'.reqs.length = w.reqs.length + 2 * k + 1 := by
  obtain ⟨rel, hrel⟩ := hp
  have hr : relativeTo p E.cacheRoot = some rel := by
    unfold relativeTo
    rw [if_pos (by rw [List.isPrefixOf_iff_prefix]; exact ⟨rel, hrel.symm⟩), hrel]
    simp [Env.cacheRoot]
  have hlr := hl rel hrel
  have key : ∀ (k j : Nat) (w : World), k ≤ j → w.files p = none → w.files (E.legacyRoot ++ rel) = none →
      (∀ i < k, Spec.Down E url (w.reqs.length + 2 * i)) →
      E.net (w.reqs.length + 2 * k) url = .body c .complete →
      ∃ w', retry (attempt E url p md5) j w = (.ok true, w') ∧ w'.files p = some c ∧
        w'.reqs.length = w.reqs.length + 2 * k + 1 := by
    intro k
    induction k with
    | zero =>
      intro j w _ hn hlr _ hc
      exact ⟨_, retry_ok (attempt_clean hr hlr hn hc hm), setFile_self _ _ _, by simp⟩
    | succ k ih =>
      intro j w hkj hn hlr hd hc
      obtain ⟨j, rfl⟩ : ∃ i, j = i + 1 := ⟨j - 1, by omega⟩
      have ha := attempt_down (md5 := md5) hr hlr hn hu (hd 0 (by omega))
      have hlen : (w.reqs ++ [url] ++ [Spec.backup url]).length = w.reqs.length + 2 := by simp
      obtain ⟨w', h1, h2, h3⟩ := ih j ⟨w.files, w.reqs ++ [url] ++ [Spec.backup url]⟩ (by omega) hn hlr
        (by
          intro i hi
          have := hd (i + 1) (by omega)
          simp only [hlen]
          rw [show w.reqs.length + 2 + 2 * i = w.reqs.length + 2 * (i + 1) by omega]
          exact this)
        (by
          simp only [hlen]
          rw [show w.reqs.length + 2 + 2 * k = w.reqs.length + 2 * (k + 1) by omega]
          exact hc)
      refine ⟨w', ?_, h2, ?_⟩
      · unfold retry
        rw [ha]
        exact h1
      · rw [h3, hlen]; omega
  exact key k 2 w hk hn hlr hd hc

/-- C81. After three attempts at both servers the `HTTPError` is reported; six requests were made and
no file was written. -/
theorem C81_gives_up (E : Env) (url : Url) (p : Path) (md5 : String) (w : World) (hp : Spec.InCache E p)
    (hu : remoteRoot <+: url) (hn : w.files p = none)
    (hl : ∀ rel, p = E.home ++ [".cache", "dhg"] ++ rel → w.files (E.home ++ [".dhg"] ++ rel) = none)
    (hd : ∀ i < 3, Spec.Down E url (w.reqs.length + 2 * i)) :
    ∃ w', downloadAndCheck E url p md5 w = (.error .http, w') ∧ w'.files = w.files ∧
      w'.reqs.length = w.reqs.length + 6 := by
  obtain ⟨rel, hrel⟩ := hp
  have hr : relativeTo p E.cacheRoot = some rel := by
    unfold relativeTo
    rw [if_pos (by rw [List.isPrefixOf_iff_prefix]; exact ⟨rel, hrel.symm⟩), hrel]
    simp [Env.cacheRoot]
  have hlr := hl rel hrel
  have ha := attempt_down (md5 := md5) hr hlr hn hu (hd 0 (by omega))
  have hb := attempt_down (md5 := md5) (w := ⟨w.files, w.reqs ++ [url] ++ [Spec.backup url]⟩) hr hlr hn hu
    (by simpa using hd 1 (by omega))
  have hc := attempt_down (md5 := md5)
    (w := ⟨w.files, w.reqs ++ [url] ++ [Spec.backup url] ++ [url] ++ [Spec.backup url]⟩) hr hlr hn hu
    (by simpa using hd 2 (by omega))
  refine ⟨⟨w.files, w.reqs ++ [url] ++ [Spec.backup url] ++ [url] ++ [Spec.backup url] ++ [url] ++
    [Spec.backup url]⟩, ?_, rfl, ?_⟩
  · unfold downloadAndCheck retry
    rw [ha]
    simp only
    unfold retry
    rw [hb]
    simp only
    unfold retry
    rw [hc]
  · simp

/-- C81 fails for files outside the cache directory (a custom `data_root`): a missing file raises
`ValueError` before any request is made, however well the network works. -/
theorem C81_outside_cache_false (E : Env) (url : Url) (p : Path) (md5 : String) (w : World)
    (hp : ¬ Spec.InCache E p) (hn : w.files p = none) :
    downloadAndCheck E url p md5 w = (.error .value, w) := by
  have hr : relativeTo p E.cacheRoot = none := by
    unfold relativeTo
    rw [if_neg]
    intro h
    obtain ⟨t, ht⟩ := List.isPrefixOf_iff_prefix.1 h
    exact hp ⟨t, ht.symm⟩
  refine retry_err (by decide) ?_
  simp [attempt, stepMigrate, hn, tryMigrate, hr]

/-- a network that breaks off its first transfer after one byte and then works -/
def exNet : Net := fun k _ => if k = 0 then .body [1] .killed else .body [1, 2] .complete

def exEnv : Env := ⟨["home"], fun b => if b = [1, 2] then "good" else "bad", exNet⟩

def exPath : Path := ["home", ".cache", "dhg", "datasets", "x", "f.pkl"]

/-- C81 fails as stated: after a process killed during the transfer, the next call on a working
network raises `ValueError` (it finds the truncated file); only the call after that succeeds. -/
theorem C81_next_call_false :
    let w : World := ⟨fun _ => none, []⟩
    let r0 := downloadAndCheck exEnv (remoteRoot ++ ['f']) exPath "good" w
    let r1 := downloadAndCheck exEnv (remoteRoot ++ ['f']) exPath "good" r0.2
    let r2 := downloadAndCheck exEnv (remoteRoot ++ ['f']) exPath "good" r1.2
    r0.1 = .error .killed ∧ Spec.InCache exEnv exPath ∧
      Spec.Serves exEnv (remoteRoot ++ ['f']) "good" r0.2.reqs.length ∧
      r1.1 = .error .value ∧ r2.1 = .ok true := by
  intro w r0 r1 r2
  have hr : relativeTo exPath exEnv.cacheRoot = some ["datasets", "x", "f.pkl"] := by decide
  have h0 : r0 = (.error .killed, ⟨setFile w.files exPath (some [1]), [remoteRoot ++ ['f']]⟩) := by
    refine retry_err (by decide) ?_
    have h1 : stepMigrate exEnv exPath w = (.ok (), w) := by simp [stepMigrate, tryMigrate, hr, w]
    unfold attempt
    rw [h1]
    simp [stepFetch, downloadFile, w, exEnv, exNet]
  have h1 : r1 = (.error .value, ⟨setFile (setFile w.files exPath (some [1])) exPath none,
      [remoteRoot ++ ['f']]⟩) := by
    show downloadAndCheck _ _ _ _ r0.2 = _
    rw [h0]
    exact retry_err (by decide) (attempt_corrupt (c := [1]) (by simp [setFile]) (by decide))
  have hin : Spec.InCache exEnv exPath := ⟨["datasets", "x", "f.pkl"], rfl⟩
  refine ⟨by rw [h0], hin, ?_, by rw [h1], ?_⟩
  · rw [h0]
    intro k hk
    refine ⟨[1, 2], ?_, by decide⟩
    have : k ≠ 0 := by
      simp at hk
      omega
    simp [exEnv, exNet, this]
  · obtain ⟨w', h2, _⟩ := C81_fresh exEnv (remoteRoot ++ ['f']) exPath "good" r1.2 hin
      (by rw [h1]; simp [setFile])
      (by
        rintro rel h
        rw [h1]
        simp only [setFile, w]
        split
        · rfl
        · rfl) [1, 2] (by rw [h1]; simp [exEnv, exNet]) (by decide)
    show (downloadAndCheck _ _ _ _ r1.2).1 = _
    rw [h2]

/-- C81. A refused connection is not an HTTP failure: it is reported after the first attempt. -/
theorem C81_refused (E : Env) (url : Url) (p : Path) (md5 : String) (w : World) (hp : Spec.InCache E p)
    (hn : w.files p = none)
    (hl : ∀ rel, p = E.home ++ [".cache", "dhg"] ++ rel → w.files (E.home ++ [".dhg"] ++ rel) = none)
    (h1 : E.net w.reqs.length url = .refused)
    (h2 : E.net (w.reqs.length + 1) (Spec.backup url) = .refused) :
    ∃ w', downloadAndCheck E url p md5 w = (.error .conn, w') ∧ w'.files = w.files := by
  obtain ⟨rel, hrel⟩ := hp
  have hr : relativeTo p E.cacheRoot = some rel := by
    unfold relativeTo
    rw [if_pos (by rw [List.isPrefixOf_iff_prefix]; exact ⟨rel, hrel.symm⟩), hrel]
    simp [Env.cacheRoot]
  have hlr : w.files (E.legacyRoot ++ rel) = none := hl rel hrel
  have hm : stepMigrate E p w = (.ok (), w) := by simp [stepMigrate, hn, tryMigrate, hr, hlr]
  have hd : downloadFile E url p w = (.error .conn, ⟨w.files, w.reqs ++ [url]⟩) := by
    simp [downloadFile, h1]
  have hb : downloadFile E (Spec.backup url) p ⟨w.files, w.reqs ++ [url]⟩ =
      (.error .conn, ⟨w.files, w.reqs ++ [url] ++ [Spec.backup url]⟩) := by
    simp [downloadFile, h2]
  by_cases hu : remoteRoot.isPrefixOf url
  · refine ⟨⟨w.files, w.reqs ++ [url] ++ [Spec.backup url]⟩, retry_err (by decide) ?_, rfl⟩
    unfold attempt
    rw [hm]
    simp only
    unfold stepFetch
    rw [if_pos (by simp [hn]), hd]
    simp only [or_true, if_true]
    rw [if_pos hu]
    show ((match downloadFile E (Spec.backup url) p ⟨w.files, w.reqs ++ [url]⟩ with
      | (.error e, w2) => (.error e, w2)
      | (.ok (), w2) => stepCheck E p md5 w2) : Except Exc Bool × World) = _
    rw [hb]
  · refine ⟨⟨w.files, w.reqs ++ [url]⟩, retry_err (by decide) ?_, rfl⟩
    unfold attempt
    rw [hm]
    simp only
    unfold stepFetch
    rw [if_pos (by simp [hn]), hd]
    simp only [or_true, if_true]
    rw [if_neg hu]

end DHG
