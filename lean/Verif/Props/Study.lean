import Mathlib.Data.List.Induction
import Verif.Study
import Verif.Props.StdLog

/-! # Properties of study directories and logs (C87) -/

set_option linter.unusedSectionVars false
set_option autoImplicit false

namespace DHG
namespace Spec

open StdLog

/-- the root is a directory and everything lies in a directory -/
def Tree (fs : FS) : Prop := fs [] = some .dir ∧ ∀ p, p ≠ [] → fs p ≠ none → fs p.dropLast = some .dir

/-- a consistent world: a tree, and the files of the handlers exist unless they were removed -/
def StudyOk (w : Study.World) : Prop :=
  Tree w.fs ∧ ∀ h ∈ w.handlers, h.live = true → ∃ t, w.fs h.path = some (.file t)

/-- some handler writes to the file -/
def Logged (w : Study.World) (q : Path) : Prop := ∃ h ∈ w.handlers, h.live = true ∧ h.path = q

/-- the work directory is there or can be created -/
def Rooted (fs : FS) (root : Path) : Prop :=
  fs root = some .dir ∨ (fs root = none ∧ fs root.dropLast = some .dir)

end Spec

namespace Study
open StdLog Spec

theorem tree_above {fs : FS} (h : Tree fs) : ∀ (b a : Path), fs (a ++ b) ≠ none → b ≠ [] → fs a = some .dir := by
  intro b
  induction b using List.reverseRecOn with
  | nil => intro a _ hb; exact absurd rfl hb
  | append_singleton b x ih =>
    intro a hab _
    have hd : fs (a ++ b) = some .dir := by
      have := h.2 (a ++ (b ++ [x])) (by simp) hab
      rwa [← List.append_assoc, List.dropLast_concat] at this
    by_cases hb : b = []
    · subst hb; simpa using hd
    · exact ih a (by rw [hd]; simp) hb

theorem tree_below {fs : FS} (h : Tree fs) {p q : Path} (hp : fs p ≠ some .dir) (hq : p <+: q) (hne : q ≠ p) :
    fs q = none := by
  obtain ⟨b, rfl⟩ := hq
  by_contra hcon
  refine hp (tree_above h b p hcon ?_)
  rintro rfl
  simp at hne

/-- how many handlers write to a file -/
def hits (q : Path) (hs : List Handler) : Nat := (hs.filter fun h => decide (h.live = true ∧ h.path = q)).length

theorem foldl_append (line : Text) (q : Path) (hs : List Handler) : ∀ fs : FS,
    (hits q hs = 0 → hs.foldl (fun fs h => if h.live then append fs h.path line else fs) fs q = fs q) ∧
    (∀ s, fs q = some (.file s) → hs.foldl (fun fs h => if h.live then append fs h.path line else fs) fs q =
      some (.file (s ++ (List.replicate (hits q hs) line).flatten))) ∧
    (fs q = none → hs.foldl (fun fs h => if h.live then append fs h.path line else fs) fs q = none) ∧
    (fs q = some .dir → hs.foldl (fun fs h => if h.live then append fs h.path line else fs) fs q = some .dir) := by
  induction hs with
  | nil => intro fs; simp [hits]
  | cons h hs ih =>
    intro fs
    simp only [List.foldl_cons]
    rcases hl : h.live with _ | _
    · have : hits q (h :: hs) = hits q hs := by simp [hits, hl]
      rw [this]
      simpa using ih fs
    · by_cases hq : h.path = q
      · have : hits q (h :: hs) = hits q hs + 1 := by simp [hits, hl, hq]
        rw [this]
        simp only [if_true]
        obtain ⟨_, i2, i3, i4⟩ := ih (append fs h.path line)
        refine ⟨fun h0 => by omega, fun s hs => ?_, fun hn => i3 ?_, fun hd => i4 ?_⟩
        · rw [i2 (s ++ line) (by simp [append, hq, hs]), List.replicate_succ]
          simp
        · simp [append, hq, hn]
        · simp [append, hq, hd]
      · have : hits q (h :: hs) = hits q hs := by simp [hits, hq]
        rw [this]
        simp only [if_true]
        have e : append fs h.path line q = fs q := by simp [append, Ne.symm hq]
        obtain ⟨i1, i2, i3, i4⟩ := ih (append fs h.path line)
        rw [e] at i1 i2 i3 i4
        exact ⟨i1, i2, i3, i4⟩

theorem hits_zero {w : World} {q : Path} (h : ¬ Logged w q) : hits q w.handlers = 0 := by
  unfold hits
  rw [List.length_eq_zero_iff, List.filter_eq_nil_iff]
  intro x hx
  simp only [decide_eq_true_eq]
  exact fun hh => h ⟨x, hx, hh⟩

/-- the two lines logged at the end -/
theorem info2 (m1 m2 : Text) (w : World) (q : Path) :
    (hits q w.handlers = 0 → (info m2 (info m1 w)).fs q = w.fs q) ∧
    (∀ s, w.fs q = some (.file s) → hits q w.handlers = 1 →
      (info m2 (info m1 w)).fs q = some (.file (s ++ m1 ++ m2))) ∧
    (w.fs q = none → (info m2 (info m1 w)).fs q = none) ∧
    (w.fs q = some .dir → (info m2 (info m1 w)).fs q = some .dir) := by
  obtain ⟨a1, a2, a3, a4⟩ := foldl_append m1 q w.handlers w.fs
  obtain ⟨b1, b2, b3, b4⟩ := foldl_append m2 q w.handlers (info m1 w).fs
  refine ⟨fun h => (b1 h).trans (a1 h), fun s hs h => ?_, fun h => b3 (a3 h), fun h => b4 (a4 h)⟩
  have := b2 _ (a2 s hs)
  rw [h] at this
  show (info m2 (info m1 w)).fs q = _
  refine Eq.trans ?_ (this.trans (by simp))
  rfl

/-- the steps of the constructor after the study directory was cleared -/
theorem new_steps {root : Path} {name : String} {w0 : World} (ht : Tree w0.fs) (hr : Rooted w0.fs root)
    (hp : w0.fs (root ++ [name]) = some .dir ∨ w0.fs (root ++ [name]) = none)
    (hc : w0.fs (root ++ [name] ++ ["cache"]) = some .dir ∨ w0.fs (root ++ [name] ++ ["cache"]) = none)
    (hl : w0.fs (root ++ [name] ++ ["log.txt"]) ≠ some .dir) :
    ∃ w1, (do
      let w ← ensureRoot root w0
      let _ ← needDir root w
      let w ← mkdir (root ++ [name]) w
      let w ← mkdir (root ++ [name] ++ ["cache"]) w
      addHandler (root ++ [name] ++ ["log.txt"]) w) = .ok w1 ∧
      w1.handlers = w0.handlers ++ [⟨root ++ [name] ++ ["log.txt"], true⟩] ∧
      ∀ q, w1.fs q = if q = root ∨ q = root ++ [name] ∨ q = root ++ [name] ++ ["cache"] then some .dir
        else if q = root ++ [name] ++ ["log.txt"] then
          some (.file (textAt w0.fs (root ++ [name] ++ ["log.txt"]))) else w0.fs q := by
  have n1 : root ++ [name] ≠ root := by simp
  have n2 : root ++ [name] ++ ["cache"] ≠ root := by simp
  have n3 : root ++ [name] ++ ["log.txt"] ≠ root := by simp
  have n4 : root ++ [name] ++ ["cache"] ≠ root ++ [name] := by simp
  have n5 : root ++ [name] ++ ["log.txt"] ≠ root ++ [name] := by simp
  have n6 : root ++ [name] ++ ["log.txt"] ≠ root ++ [name] ++ ["cache"] := by simp
  -- making a directory at a place that is one or empty
  have mk : ∀ (p : Path) (w : World), (w.fs p = some .dir ∨ w.fs p = none) →
      ∃ w', mkdir p w = .ok w' ∧ w'.handlers = w.handlers ∧ ∀ q, w'.fs q = if q = p then some .dir else w.fs q := by
    intro p w h
    rcases h with h | h
    · refine ⟨w, by simp [mkdir, h], rfl, fun q => ?_⟩
      split
      · rename_i e; rw [e, h]
      · rfl
    · exact ⟨{ w with fs := fun q => if q = p then some .dir else w.fs q }, by simp only [mkdir, h], rfl, fun q => rfl⟩
  obtain ⟨wa, ea, ha, fa⟩ : ∃ wa, ensureRoot root w0 = .ok wa ∧ wa.handlers = w0.handlers ∧
      ∀ q, wa.fs q = if q = root then some .dir else w0.fs q := by
    rcases hr with h | ⟨h, h'⟩
    · refine ⟨w0, by simp [ensureRoot, h], rfl, fun q => ?_⟩
      split
      · rename_i e; rw [e, h]
      · rfl
    · obtain ⟨w', e, h1, h2⟩ := mk root w0 (.inr h)
      exact ⟨w', by simp only [ensureRoot, h, if_true, h', e], h1, h2⟩
  have hd : needDir root wa = .ok () := by simp [needDir, fa]
  obtain ⟨wb, eb, hb, fb⟩ := mk (root ++ [name]) wa (by rw [fa, if_neg n1]; exact hp)
  obtain ⟨wc, ec, hc', fc⟩ := mk (root ++ [name] ++ ["cache"]) wb (by rw [fb, if_neg n4, fa, if_neg n2]; exact hc)
  have flog : wc.fs (root ++ [name] ++ ["log.txt"]) = w0.fs (root ++ [name] ++ ["log.txt"]) := by
    rw [fc, if_neg n6, fb, if_neg n5, fa, if_neg n3]
  have fin : ∀ q, wc.fs q = if q = root ∨ q = root ++ [name] ∨ q = root ++ [name] ++ ["cache"] then some .dir
      else w0.fs q := by
    intro q
    rw [fc]
    by_cases h1 : q = root ++ [name] ++ ["cache"]
    · rw [if_pos h1, if_pos (.inr (.inr h1))]
    · rw [if_neg h1, fb]
      by_cases h2 : q = root ++ [name]
      · rw [if_pos h2, if_pos (.inr (.inl h2))]
      · rw [if_neg h2, fa]
        by_cases h3 : q = root
        · rw [if_pos h3, if_pos (.inl h3)]
        · rw [if_neg h3, if_neg (by simp only [not_or]; exact ⟨h3, h2, h1⟩)]
  have hh : wc.handlers = w0.handlers := hc'.trans (hb.trans ha)
  have hlast : ∃ w1, addHandler (root ++ [name] ++ ["log.txt"]) wc = .ok w1 ∧
      w1.handlers = w0.handlers ++ [⟨root ++ [name] ++ ["log.txt"], true⟩] ∧
      ∀ q, w1.fs q = if q = root ++ [name] ++ ["log.txt"] then
        some (.file (textAt w0.fs (root ++ [name] ++ ["log.txt"]))) else wc.fs q := by
    unfold addHandler
    rw [flog]
    rcases hcase : w0.fs (root ++ [name] ++ ["log.txt"]) with _ | (_ | s)
    · refine ⟨_, rfl, by simp only [hh], fun q => ?_⟩
      simp only [textAt, hcase]
    · exact absurd hcase hl
    · refine ⟨_, rfl, by simp only [hh], fun q => ?_⟩
      simp only [textAt, hcase]
      split
      · rename_i e; rw [e, flog, hcase]
      · rfl
  obtain ⟨w1, e1, h1, f1⟩ := hlast
  refine ⟨w1, ?_, h1, fun q => ?_⟩
  · simp only [ea, eb, ec, e1, hd, bind, Except.bind]
  · rw [f1]
    by_cases hq : q = root ++ [name] ++ ["log.txt"]
    · rw [if_pos hq, if_neg, if_pos hq]
      rw [hq]
      simp only [not_or]
      exact ⟨n3, n5, n6⟩
    · rw [if_neg hq, fin, if_neg hq]

theorem new_eq {root : Path} {name : Option String} {ov : Bool} {clock : String} {m1 m2 : Text} {w w0 w1 : World}
    (h0 : clear ov (root ++ [name.getD clock]) w = .ok w0)
    (h1 : (do
      let w ← ensureRoot root w0
      let _ ← needDir root w
      let w ← mkdir (root ++ [name.getD clock]) w
      let w ← mkdir (root ++ [name.getD clock] ++ ["cache"]) w
      addHandler (root ++ [name.getD clock] ++ ["log.txt"]) w) = .ok w1) :
    new (some root) name ov clock m1 m2 w = .ok (⟨root ++ [name.getD clock], root ++ [name.getD clock] ++ ["log.txt"],
      root ++ [name.getD clock] ++ ["cache"]⟩, info m2 (info m1 w1)) := by
  unfold new
  simp only [h0, bind, Except.bind] at h1 ⊢
  rcases ea : ensureRoot root w0 with _ | wa <;> rw [ea] at h1 <;> simp only at h1 ⊢
  · cases h1
  rcases ed : needDir root wa with _ | ⟨⟩ <;> rw [ed] at h1 <;> simp only at h1 ⊢
  · cases h1
  rcases eb : mkdir (root ++ [name.getD clock]) wa with _ | wb <;> rw [eb] at h1 <;> simp only at h1 ⊢
  · cases h1
  rcases ec : mkdir (root ++ [name.getD clock] ++ ["cache"]) wb with _ | wc <;> rw [ec] at h1 <;> simp only at h1 ⊢
  · cases h1
  rw [h1]

theorem info_ok {w : World} {m : Text} (h : StudyOk w) : StudyOk (info m w) := by
  have key : ∀ q, (info m w).fs q = none ∨ (info m w).fs q = some .dir ∨ ∃ s, (info m w).fs q = some (.file s) := by
    intro q; rcases (info m w).fs q with _ | (_ | s) <;> simp
  have up : ∀ q, w.fs q = some .dir → (info m w).fs q = some .dir := fun q => (foldl_append m q w.handlers w.fs).2.2.2
  refine ⟨⟨up [] h.1.1, fun q hq hne => up _ (h.1.2 q hq fun h0 => hne ?_)⟩, fun x hx hl => ?_⟩
  · exact (foldl_append m q w.handlers w.fs).2.2.1 h0
  · obtain ⟨s, hs⟩ := h.2 x hx hl
    exact ⟨_, (foldl_append m x.path w.handlers w.fs).2.1 s hs⟩

theorem hits_append (q : Path) (a b : List Handler) : hits q (a ++ b) = hits q a + hits q b := by
  simp [hits]

end Study

open Study Spec
open StdLog (FS Path Text Node)

theorem Study.overwrite_core (w : World) (hw : StudyOk w) (root : Path) (name : Option String) (clock : String)
    (m1 m2 : Text) (hr : Rooted w.fs root) (hf : ∀ t, w.fs (root ++ [name.getD clock]) ≠ some (.file t)) :
    ∃ t w', new (some root) name true clock m1 m2 w = .ok (t, w') ∧ t.root = root ++ [name.getD clock] ∧
      t.log = t.root ++ ["log.txt"] ∧ t.cache = t.root ++ ["cache"] ∧
      w'.fs root = some .dir ∧ w'.fs t.root = some .dir ∧ w'.fs t.cache = some .dir ∧
      w'.fs t.log = some (.file (m1 ++ m2)) ∧
      (∀ q, t.root <+: q → q ≠ t.root → q ≠ t.cache → q ≠ t.log → w'.fs q = none) ∧
      (∀ q, ¬ t.root <+: q → q ≠ root → (hits q w.handlers = 0 → w'.fs q = w.fs q) ∧
        ∀ s, w.fs q = some (.file s) → hits q w.handlers = 1 → w'.fs q = some (.file (s ++ m1 ++ m2))) ∧
      StudyOk w' ∧ hits t.log w'.handlers = 1 := by
  generalize hn : name.getD clock = n at hf ⊢
  have hroot : ¬ (root ++ [n]) <+: root := by
    intro h; have := h.length_le; simp at this; omega
  -- the cleared world
  obtain ⟨w0, e0, f0, g0⟩ : ∃ w0, clear true (root ++ [n]) w = .ok w0 ∧
      (∀ q, w0.fs q = if (root ++ [n]) <+: q then none else w.fs q) ∧
      (∀ q, (root ++ [n]) <+: q → hits q w0.handlers = 0) ∧
      ∀ q, ¬ (root ++ [n]) <+: q → hits q w0.handlers = hits q w.handlers := by
    rcases hc : w.fs (root ++ [n]) with _ | (_ | t)
    · refine ⟨w, by simp [clear, hc], fun q => ?_, fun q hq => hits_zero ?_, fun q _ => rfl⟩
      · split
        · rename_i hq
          by_cases e : q = root ++ [n]
          · rw [e, hc]
          · exact tree_below hw.1 (by rw [hc]; simp) hq e
        · rfl
      · rintro ⟨h, hh, hl, rfl⟩
        obtain ⟨t, ht⟩ := hw.2 h hh hl
        by_cases e : h.path = root ++ [n]
        · rw [e, hc] at ht; cases ht
        · rw [tree_below hw.1 (by rw [hc]; simp) hq e] at ht; cases ht
    · refine ⟨rmtree (root ++ [n]) w, by simp [clear, hc], fun q => rfl, fun q hq => hits_zero ?_,
        fun q hq => ?_⟩
      · rintro ⟨h, hh, hl, rfl⟩
        simp only [rmtree, List.mem_map] at hh
        obtain ⟨x, _, rfl⟩ := hh
        split at hl
        · cases hl
        · rename_i hx
          rw [if_neg hx] at hq
          exact hx hq
      · simp only [rmtree, hits, List.filter_map, List.length_map]
        congr 1
        apply List.filter_congr
        intro x _
        simp only [Function.comp]
        split
        · rename_i hx
          have : x.path ≠ q := fun e => hq (e ▸ hx)
          simp [this]
        · rfl
    · exact absurd hc (hf t)
  have ht0 : Tree w0.fs := by
    refine ⟨by rw [f0, if_neg (by simp)]; exact hw.1.1, fun p hp hne => ?_⟩
    rw [f0] at hne
    split at hne
    · exact absurd rfl hne
    · rename_i hnp
      rw [f0, if_neg]
      · exact hw.1.2 p hp hne
      · exact fun h => hnp (h.trans (List.dropLast_prefix p))
  have hr0 : Rooted w0.fs root := by
    unfold Rooted at hr ⊢
    rw [f0, if_neg hroot, f0, if_neg (fun h => hroot (h.trans (List.dropLast_prefix _)))]
    exact hr
  have k0 : ∀ h ∈ w0.handlers, h.live = true → ∃ t, w0.fs h.path = some (.file t) := by
    intro h hh hl
    have hnot : ¬ (root ++ [n]) <+: h.path := by
      intro hpre
      have := g0.1 _ hpre
      rw [hits, List.length_eq_zero_iff, List.filter_eq_nil_iff] at this
      exact this h hh (by simp [hl])
    rw [f0, if_neg hnot]
    have h2 : hits h.path w.handlers ≠ 0 := by
      rw [← g0.2 _ hnot]
      intro h0
      rw [hits, List.length_eq_zero_iff, List.filter_eq_nil_iff] at h0
      exact h0 h hh (by simp [hl])
    by_contra hcon
    refine h2 (hits_zero ?_)
    rintro ⟨x, hx, hxl, hxp⟩
    exact hcon (hxp ▸ hw.2 x hx hxl)
  have under : ∀ b, w0.fs (root ++ [n] ++ b) = none := fun b => by rw [f0, if_pos (List.prefix_append _ _)]
  obtain ⟨w1, e1, h1, f1⟩ := new_steps (name := n) ht0 hr0 (.inr (by simpa using under [])) (.inr (under _))
    (by rw [under]; simp)
  have hlog1 : textAt w0.fs (root ++ [n] ++ ["log.txt"]) = [] := by simp only [textAt, under]
  subst hn
  refine ⟨_, _, new_eq e0 e1, rfl, rfl, rfl, ?_, ?_, ?_, ?_, ?_, ?_, info_ok (info_ok ⟨?_, ?_⟩), ?_⟩
  · exact (info2 m1 m2 w1 _).2.2.2 (by rw [f1]; simp)
  · exact (info2 m1 m2 w1 _).2.2.2 (by rw [f1]; simp)
  · exact (info2 m1 m2 w1 _).2.2.2 (by rw [f1]; simp)
  · have := (info2 m1 m2 w1 (root ++ [name.getD clock] ++ ["log.txt"])).2.1 [] (by rw [f1, hlog1]; simp) (by
      rw [h1, hits_append, g0.1 _ (List.prefix_append _ _)]
      simp [hits])
    simpa using this
  · intro q hq h2 h3 h4
    refine (info2 m1 m2 w1 _).2.2.1 ?_
    simp only at h2 h3 h4 hq
    rw [f1, if_neg, if_neg h4, f0, if_pos hq]
    simp only [not_or]
    exact ⟨fun e => hroot (e ▸ hq), h2, h3⟩
  · intro q hq h2
    simp only at hq
    have hne : ∀ b, q ≠ root ++ [name.getD clock] ++ b := fun b e => hq (e ▸ List.prefix_append _ _)
    have hh : hits q w1.handlers = hits q w.handlers := by
      rw [h1, hits_append, g0.2 q hq]
      have := hne ["log.txt"]
      have h0 : hits q [⟨root ++ [name.getD clock] ++ ["log.txt"], true⟩] = 0 := by
        simp only [hits, List.length_eq_zero_iff, List.filter_eq_nil_iff]
        intro x hx
        rw [List.mem_singleton.1 hx]
        simpa using fun e => this (by rw [← e]; simp)
      rw [h0, Nat.add_zero]
    have hfs : w1.fs q = w.fs q := by
      rw [f1, if_neg, if_neg (hne _), f0, if_neg hq]
      simp only [not_or]
      exact ⟨h2, by simpa using hne [], hne _⟩
    refine ⟨fun h0 => ?_, fun s hs h0 => (info2 m1 m2 w1 _).2.1 s (hfs.trans hs) (hh.trans h0)⟩
    rw [(info2 m1 m2 w1 _).1 (hh.trans h0), hfs]
  · have up : ∀ r, w0.fs r = some .dir → w1.fs r = some .dir := by
      intro r hr
      rw [f1]
      split
      · rfl
      · split
        · rename_i h; rw [h, under] at hr; cases hr
        · exact hr
    refine ⟨up [] ht0.1, fun q hq hne => ?_⟩
    rw [f1] at hne
    split at hne
    · rename_i h
      rcases h with rfl | rfl | rfl
      · rcases hr0 with h | h
        · exact up _ (ht0.2 q hq (by rw [h]; simp))
        · exact up _ h.2
      · rw [f1, List.dropLast_concat]; simp
      · rw [f1, List.dropLast_concat]; simp
    · split at hne
      · rename_i h
        rw [h, f1, List.dropLast_concat]; simp
      · exact up _ (ht0.2 q hq hne)
  · intro h hh hl
    rw [h1] at hh
    rcases List.mem_append.1 hh with hh | hh
    · obtain ⟨s, hs⟩ := k0 h hh hl
      refine ⟨s, ?_⟩
      rw [f1, if_neg, if_neg]
      · exact hs
      · intro e; rw [e, under] at hs; cases hs
      · rintro (e | e | e)
        · rcases hr0 with h' | h'
          · rw [e, h'] at hs; cases hs
          · rw [e, h'.1] at hs; cases hs
        · have := under []; rw [List.append_nil, ← e, hs] at this; cases this
        · rw [e, under] at hs; cases hs
    · rw [List.mem_singleton.1 hh, f1]
      refine ⟨[], ?_⟩
      rw [hlog1, if_neg (by simp), if_pos rfl]
  · show hits (root ++ [name.getD clock] ++ ["log.txt"]) w1.handlers = 1
    rw [h1, hits_append, g0.1 _ (List.prefix_append _ _)]
    simp [hits]

/-- C87.  A task that may overwrite gets an empty study: afterwards the study directory holds an empty
directory `cache` and the file `log.txt` with the two first lines, and nothing else, whatever was there
before.  Outside the study directory nothing changes, except that a missing work directory is created and
the files to which other tasks log get the two lines, too. -/
theorem C87_overwrite (w : World) (hw : StudyOk w) (root : Path) (name : Option String) (clock : String)
    (m1 m2 : Text) (hr : Rooted w.fs root) (hf : ∀ t, w.fs (root ++ [name.getD clock]) ≠ some (.file t)) :
    ∃ t w', new (some root) name true clock m1 m2 w = .ok (t, w') ∧ t.root = root ++ [name.getD clock] ∧
      t.log = t.root ++ ["log.txt"] ∧ t.cache = t.root ++ ["cache"] ∧
      w'.fs root = some .dir ∧ w'.fs t.root = some .dir ∧ w'.fs t.cache = some .dir ∧
      w'.fs t.log = some (.file (m1 ++ m2)) ∧
      (∀ q, t.root <+: q → q ≠ t.root → q ≠ t.cache → q ≠ t.log → w'.fs q = none) ∧
      ∀ q, ¬ t.root <+: q → q ≠ root → ¬ Logged w q → w'.fs q = w.fs q := by
  obtain ⟨t, w', h1, h2, h3, h4, h5, h6, h7, h8, h9, h10, _⟩ := overwrite_core w hw root name clock m1 m2 hr hf
  exact ⟨t, w', h1, h2, h3, h4, h5, h6, h7, h8, h9, fun q a b c => (h10 q a b).1 (hits_zero c)⟩

/-- C87.  A task that may not overwrite keeps what is in the study directory: its files stay, the log is
continued.  Missing: a log to which an earlier task of the same program still writes. -/
theorem C87_continue_partial (w : World) (hw : StudyOk w) (root : Path) (name : Option String) (clock : String)
    (m1 m2 : Text) (hr : w.fs root = some .dir) (hp : w.fs (root ++ [name.getD clock]) = some .dir)
    (hc : w.fs (root ++ [name.getD clock] ++ ["cache"]) = some .dir) (s : Text)
    (hl : w.fs (root ++ [name.getD clock] ++ ["log.txt"]) = some (.file s))
    (hno : ¬ Logged w (root ++ [name.getD clock] ++ ["log.txt"])) :
    ∃ t w', new (some root) name false clock m1 m2 w = .ok (t, w') ∧ t.root = root ++ [name.getD clock] ∧
      w'.fs t.log = some (.file (s ++ m1 ++ m2)) ∧
      ∀ q, q ≠ t.log → ¬ Logged w q → w'.fs q = w.fs q := by
  obtain ⟨w1, e1, h1, f1⟩ := new_steps (name := name.getD clock) hw.1 (.inl hr) (.inl hp) (.inl hc)
    (by rw [hl]; simp)
  have hs : textAt w.fs (root ++ [name.getD clock] ++ ["log.txt"]) = s := by simp only [textAt, hl]
  rw [hs] at f1
  refine ⟨_, _, new_eq (w0 := w) rfl e1, rfl, ?_, ?_⟩
  · refine (info2 m1 m2 w1 _).2.1 s (by rw [f1]; simp) ?_
    rw [h1, hits_append, hits_zero hno]
    simp [hits]
  · intro q hq hn
    simp only at hq
    rw [(info2 m1 m2 w1 _).1, f1, if_neg hq]
    · split
      · rename_i h
        rcases h with rfl | rfl | rfl
        · exact hr.symm
        · exact hp.symm
        · exact hc.symm
      · rfl
    · rw [h1, hits_append, hits_zero hn]
      simp only [hits, List.length_eq_zero_iff, List.filter_eq_nil_iff, Nat.zero_add]
      intro x hx
      rw [List.mem_singleton.1 hx]
      simpa using fun e => hq (by rw [← e]; simp)

/-- C87.  A work directory that does not exist, in a directory that does not exist either, is refused with a
`ValueError`. -/
theorem C87_no_root (w : World) (hw : StudyOk w) (root : Path) (name : Option String) (ov : Bool) (clock : String)
    (m1 m2 : Text) (h1 : w.fs root = none) (h2 : w.fs root.dropLast = none) :
    new (some root) name ov clock m1 m2 w = .error .value := by
  have hp : w.fs (root ++ [name.getD clock]) = none :=
    tree_below hw.1 (by rw [h1]; simp) (List.prefix_append _ _) (by simp)
  have hc : clear ov (root ++ [name.getD clock]) w = .ok w := by
    unfold clear; rw [hp]; simp
  unfold new
  simp only [hc, bind, Except.bind, ensureRoot, h1, h2, if_true]

/-- C87 fails for `work_root=None`, which the signature allows: it raises `TypeError`. -/
theorem C87_none_false (w : World) (name : Option String) (ov : Bool) (clock : String) (m1 m2 : Text) :
    new none name ov clock m1 m2 w = .error .type := rfl

/-- C87 fails for tasks without a name created within one second: the second task takes the directory of the
first, and everything in it is gone. -/
theorem C87_same_second_false (w : World) (hw : StudyOk w) (root : Path) (clock : String) (m1 m2 : Text)
    (hr : w.fs root = some .dir) (file : String) (s : Text)
    (hf : w.fs (root ++ [clock] ++ ["cache"] ++ [file]) = some (.file s)) :
    ∃ t w', new (some root) none true clock m1 m2 w = .ok (t, w') ∧
      w'.fs (root ++ [clock] ++ ["cache"] ++ [file]) = none := by
  have hd : w.fs (root ++ [clock]) = some .dir :=
    tree_above hw.1 (["cache"] ++ [file]) _ (by rw [← List.append_assoc, hf]; simp) (by simp)
  obtain ⟨t, w', e, h1, h2, h3, _, _, _, _, h8, _⟩ := C87_overwrite w hw root none clock m1 m2 (.inl hr)
    (fun t => by rw [show (none : Option String).getD clock = clock from rfl, hd]; simp)
  refine ⟨t, w', e, h8 _ ?_ ?_ ?_ ?_⟩
  · rw [h1, Option.getD_none, List.append_assoc]; exact List.prefix_append _ _
  · rw [h1, Option.getD_none]; simp
  · rw [h3, h1, Option.getD_none]; simp
  · rw [h2, h1, Option.getD_none]
    simp

/-- C87 fails for logs: what one task logs is written to the logs of the tasks created before, too. -/
theorem C87_shared_log_false (root : Path) (a b : String) (hab : a ≠ b) (clock : String) (m1 m2 m3 m4 : Text)
    (w : World) (hw : StudyOk w) (hr : w.fs root = some .dir) (ha : w.fs (root ++ [a]) = none)
    (hb : w.fs (root ++ [b]) = none) :
    ∃ t w1 u w2, new (some root) (some a) true clock m1 m2 w = .ok (t, w1) ∧
      new (some root) (some b) true clock m3 m4 w1 = .ok (u, w2) ∧
      w2.fs t.log = some (.file (m1 ++ m2 ++ m3 ++ m4)) := by
  obtain ⟨t, w1, e1, t1, t2, _, t4, _, _, t7, _, t9, t10, t11⟩ := overwrite_core w hw root (some a) clock m1 m2
    (.inl hr) (fun s => by rw [Option.getD_some, ha]; simp)
  have hab' : ¬ (root ++ [a]) <+: (root ++ [b]) := by
    intro h
    have := h.eq_of_length (by simp)
    simp at this
    exact hab this
  have hba' : ¬ (root ++ [b]) <+: (root ++ [a] ++ ["log.txt"]) := by
    rw [List.append_assoc, List.prefix_append_right_inj]
    rintro ⟨l, hl⟩
    simp at hl
    exact hab hl.1.symm
  have hb1 : w1.fs (root ++ [b]) = none := by
    rw [(t9 (root ++ [b]) (by rw [t1]; exact hab') (by simp)).1 (hits_zero ?_), hb]
    rintro ⟨h, hh, hl, hp⟩
    obtain ⟨s, hs⟩ := hw.2 h hh hl
    rw [hp, hb] at hs
    cases hs
  obtain ⟨u, w2, e2, u1, _, _, _, _, _, _, _, u9, _⟩ := overwrite_core w1 t10 root (some b) clock m3 m4
    (.inl t4) (fun s => by rw [Option.getD_some, hb1]; simp)
  have hlog : t.log = root ++ [a] ++ ["log.txt"] := by rw [t2, t1]; rfl
  refine ⟨t, w1, u, w2, e1, e2, (u9 t.log ?_ ?_).2 _ t7 t11⟩
  · rw [u1, hlog]; exact hba'
  · rw [hlog]; simp

/-! An empty file system with the directory `/w`. -/

/-- the root and one directory -/
def exStudy : World := ⟨fun p => if p = [] ∨ p = ["w"] then some .dir else none, []⟩

theorem exStudy_ok : StudyOk exStudy := by
  refine ⟨⟨rfl, fun p hp hne => ?_⟩, fun h hh => by cases hh⟩
  simp only [exStudy] at hne ⊢
  split at hne
  · rename_i h
    rcases h with h | h
    · exact absurd h hp
    · rw [h]; rfl
  · exact absurd rfl hne

example : ∃ t w', new (some ["w"]) (some "s") true "now" [] ['m'] exStudy = .ok (t, w') ∧
    w'.fs ["w", "s", "log.txt"] = some (.file ['m']) := by
  obtain ⟨t, w', e, h1, h2, _, _, _, _, h7, _⟩ := C87_overwrite exStudy exStudy_ok ["w"] (some "s") "now" [] ['m']
    (.inl rfl) (by intro t h; cases h)
  rw [h2, h1] at h7
  exact ⟨t, w', e, h7⟩

example : Rooted exStudy.fs ["w"] ∧ Rooted exStudy.fs ["v"] := ⟨.inl rfl, .inr ⟨rfl, rfl⟩⟩

end DHG
