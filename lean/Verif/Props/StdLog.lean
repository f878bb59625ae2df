import Verif.StdLog

/-! # Properties of the output to terminal and files (C77) -/

set_option linter.unusedSectionVars false
set_option autoImplicit false

namespace DHG
namespace Spec

open StdLog

/-- all text written, in order -/
def printed : List Op → Text
  | [] => []
  | .write m :: ops => m ++ printed ops
  | _ :: ops => printed ops

/-- nothing is redirected and nothing is waiting -/
def Plain (w : World) : Prop := w.out = [] ∧ w.termBuf = []

/-- a file can be created or extended at the path -/
def Openable (fs : FS) (p : Path) : Prop := fs p.dropLast = some .dir ∧ fs p ≠ some .dir

/-- the text in a file, empty if there is none -/
def textAt (fs : FS) (p : Path) : Text :=
  match fs p with
  | some (.file t) => t
  | _ => []

end Spec

namespace StdLog
open Spec

/-- every logger's file exists and nothing waits in its buffer -/
def Good (w : World) : Prop := ∀ l ∈ w.out, l.buf = [] ∧ ∃ t, w.fs l.path = some (.file t)

theorem append_file (fs : FS) (p q : Path) (t : Text) :
    (∃ s, fs q = some (.file s)) → ∃ s, append fs p t q = some (.file s) := by
  rintro ⟨s, hs⟩
  unfold append
  by_cases h : q = p
  · rw [if_pos h, ← h, hs]; exact ⟨_, rfl⟩
  · rw [if_neg h, hs]; exact ⟨_, rfl⟩

theorem append_nil (fs : FS) (p : Path) : append fs p [] = fs := by
  funext q
  unfold append
  split
  · rename_i h; subst h
    split
    · rename_i s hs; rw [hs, List.append_nil]
    · rfl
  · rfl

/-- what the text `t` does to the files of the loggers, the innermost first -/
def put (t : Text) : List Logger → FS → FS
  | [], fs => fs
  | l :: ls, fs => append (put t ls fs) l.path t

theorem flush_clean (ls : List Logger) (w : World) (h : ∀ l ∈ ls, l.buf = []) :
    flush ls w = (ls, { w with shown := w.shown ++ w.termBuf, termBuf := [] }) := by
  induction ls with
  | nil => rfl
  | cons l ls ih =>
    have hl := h l List.mem_cons_self
    rw [flush, ih fun x hx => h x (List.mem_cons_of_mem _ hx)]
    simp only [hl, append_nil]
    congr 2
    cases l
    simp only at hl
    subst hl
    rfl

theorem write_eq (m : Text) (ls : List Logger) (w : World) (h : ∀ l ∈ ls, l.buf = []) (hne : ls ≠ []) :
    write m ls w = (ls, { w with fs := put m ls w.fs, shown := w.shown ++ w.termBuf ++ m, termBuf := [] }) := by
  induction ls with
  | nil => exact absurd rfl hne
  | cons l ls ih =>
    have hl := h l List.mem_cons_self
    have hls := fun x hx => h x (List.mem_cons_of_mem l hx)
    have e : ({ l with buf := [] } : Logger) = l := by cases l; simp only at hl; subst hl; rfl
    rw [write]
    by_cases hn : ls = []
    · subst hn
      simp only [write, flush, put, hl, List.nil_append, e, List.append_assoc]
    · rw [ih hls hn]
      simp only [flush]
      rw [flush_clean ls _ hls]
      simp only [put, hl, List.nil_append, List.append_nil, e]

theorem put_file (t : Text) (ls : List Logger) (fs : FS) (q : Path) :
    (∃ s, fs q = some (.file s)) → ∃ s, put t ls fs q = some (.file s) := by
  intro h
  induction ls with
  | nil => exact h
  | cons l ls ih => exact append_file _ _ _ _ ih

theorem put_other (t : Text) (ls : List Logger) (fs : FS) (q : Path) (h : ∀ l ∈ ls, l.path ≠ q) :
    put t ls fs q = fs q := by
  induction ls with
  | nil => rfl
  | cons l ls ih =>
    rw [put, append, if_neg (fun e => h l List.mem_cons_self e.symm)]
    exact ih fun x hx => h x (List.mem_cons_of_mem _ hx)

/-- how often a path occurs among the loggers -/
def times (q : Path) (ls : List Logger) : Nat := (ls.filter fun l => decide (l.path = q)).length

theorem put_text (t : Text) (ls : List Logger) (fs : FS) (q : Path) (h : ∃ s, fs q = some (.file s)) :
    textAt (put t ls fs) q = textAt fs q ++ (List.replicate (times q ls) t).flatten := by
  induction ls with
  | nil => simp [put, times]
  | cons l ls ih =>
    obtain ⟨s, hs⟩ := put_file t ls fs q h
    by_cases hq : l.path = q
    · have : times q (l :: ls) = times q ls + 1 := by simp [times, hq]
      rw [this, List.replicate_succ', List.flatten_append, ← List.append_assoc, ← ih]
      unfold textAt
      rw [put, append, hq, if_pos rfl, hs]
      simp
    · have : times q (l :: ls) = times q ls := by simp [times, hq]
      rw [this, ← ih]
      unfold textAt
      rw [put, append, if_neg (fun e => hq e.symm)]

theorem attach_ok {p : Path} {w w' : World} (h : stdout2file p w = (.ok (), w')) :
    w'.out = ⟨p, []⟩ :: w.out ∧ w'.shown = w.shown ∧ w'.termBuf = w.termBuf ∧
      (∃ s, w'.fs p = some (.file s)) ∧ textAt w'.fs p = textAt w.fs p ∧ ∀ q, q ≠ p → w'.fs q = w.fs q := by
  unfold stdout2file at h
  split at h
  · cases h
  unfold openAppend at h
  rcases hd : w.fs p.dropLast with _ | (_ | t) <;> rw [hd] at h
  · simp_all
  · rcases hp : w.fs p with _ | (_ | s) <;> rw [hp] at h <;> simp only at h
    · cases h
      refine ⟨rfl, rfl, rfl, ⟨[], by simp⟩, ?_, fun q hq => by simp [hq]⟩
      simp [textAt, hp]
    · cases h
    · cases h
      exact ⟨rfl, rfl, rfl, ⟨s, hp⟩, rfl, fun _ _ => rfl⟩
  · simp only at h
    cases h

theorem attach_err {p : Path} {w w' : World} {e : LErr} (h : stdout2file p w = (.error e, w')) : w' = w := by
  unfold stdout2file at h
  split at h
  · cases h; rfl
  · split at h <;> cases h
    rfl

theorem attach_cases (p : Path) (w : World) :
    (∃ w', stdout2file p w = (.ok (), w')) ∨ (stdout2file p w).2 = w := by
  rcases h : stdout2file p w with ⟨e | ⟨⟩, w'⟩
  · exact .inr (attach_err h)
  · exact .inl ⟨w', rfl⟩

theorem openable_ok {p : Path} {w : World} (h : Openable w.fs p) : ∃ w', stdout2file p w = (.ok (), w') := by
  unfold stdout2file openAppend
  rw [h.1, if_neg (by simp)]
  simp only
  rcases hp : w.fs p with _ | (_ | s)
  · exact ⟨_, rfl⟩
  · exact absurd hp h.2
  · exact ⟨_, rfl⟩

/-- one step from a state with empty buffers -/
theorem step_good (w : World) (op : Op) (h : Good w) : Good (step w op) := by
  cases op with
  | write m =>
    by_cases hn : w.out = []
    · intro l hl
      simp only [step, hn, write] at hl
      exact absurd hl (by simp)
    · simp only [step]
      rw [write_eq m w.out w (fun l hl => (h l hl).1) hn]
      exact fun l hl => ⟨(h l hl).1, put_file _ _ _ _ (h l hl).2⟩
  | flush =>
    simp only [step]
    rw [flush_clean w.out w (fun l hl => (h l hl).1)]
    exact h
  | attach p =>
    simp only [step]
    rcases attach_cases p w with ⟨w', hw⟩ | hw
    · rw [hw]
      obtain ⟨h1, _, _, h4, _, h6⟩ := attach_ok hw
      intro l hl
      rw [show ((Except.ok (), w') : Except LErr Unit × World).2 = w' from rfl] at *
      rw [h1] at hl
      rcases List.mem_cons.1 hl with rfl | hl
      · exact ⟨rfl, h4⟩
      · refine ⟨(h l hl).1, ?_⟩
        by_cases hp : l.path = p
        · rw [hp]; exact h4
        · rw [h6 _ hp]; exact (h l hl).2
    · rw [hw]; exact h

theorem step_terminal (w : World) (op : Op) (h : Good w) :
    (step w op).shown ++ (step w op).termBuf = w.shown ++ w.termBuf ++ printed [op] := by
  cases op with
  | write m =>
    by_cases hn : w.out = []
    · simp [step, hn, write, printed]
    · simp only [step]
      rw [write_eq m w.out w (fun l hl => (h l hl).1) hn]
      simp [printed]
  | flush =>
    simp only [step]
    rw [flush_clean w.out w (fun l hl => (h l hl).1)]
    simp [printed]
  | attach p =>
    simp only [step]
    rcases attach_cases p w with ⟨w', hw⟩ | hw
    · rw [hw]
      obtain ⟨_, h2, h3, _⟩ := attach_ok hw
      simp [printed, h2, h3]
    · rw [hw]; simp [printed]

/-- the effect of one step other than attaching it on a file: the text written, as often as it is attached -/
theorem step_file (w : World) (op : Op) (h : Good w) (q : Path) (hop : op ≠ .attach q) :
    times q (step w op).out = times q w.out ∧
      (times q w.out = 0 → (step w op).fs q = w.fs q) ∧
      ((∃ s, w.fs q = some (.file s)) →
        textAt (step w op).fs q = textAt w.fs q ++ (List.replicate (times q w.out) (printed [op])).flatten) := by
  cases op with
  | write m =>
    by_cases hn : w.out = []
    · simp [step, hn, write, times, textAt]
    · simp only [step]
      rw [write_eq m w.out w (fun l hl => (h l hl).1) hn]
      refine ⟨rfl, fun h0 => put_other _ _ _ _ ?_, fun hs => ?_⟩
      · intro l hl hq
        have : l ∈ w.out.filter fun l => decide (l.path = q) := by simp [hl, hq]
        rw [List.length_eq_zero_iff.1 h0] at this
        exact absurd this (by simp)
      · simp only [printed, List.append_nil]
        exact put_text _ _ _ _ hs
  | flush =>
    simp only [step]
    rw [flush_clean w.out w (fun l hl => (h l hl).1)]
    simp [printed]
  | attach p =>
    simp only [step]
    rcases attach_cases p w with ⟨w', hw⟩ | hw
    · rw [hw]
      obtain ⟨h1, _, _, _, _, h6⟩ := attach_ok hw
      have hpq : p ≠ q := fun e => hop (by rw [e])
      have : w'.fs q = w.fs q := h6 q fun e => hpq e.symm
      refine ⟨by simp [h1, times, hpq], fun _ => this, fun _ => ?_⟩
      simp [printed, textAt, this]
    · rw [hw]; simp [printed]

theorem run_good (ops : List Op) : ∀ w, Good w → Good (run w ops) := by
  induction ops with
  | nil => intro w h; exact h
  | cons op ops ih => intro w h; exact ih _ (step_good w op h)

theorem printed_cons (op : Op) (ops : List Op) : printed (op :: ops) = printed [op] ++ printed ops := by
  cases op <;> simp [printed]

theorem run_terminal (ops : List Op) : ∀ w, Good w →
    (run w ops).shown ++ (run w ops).termBuf = w.shown ++ w.termBuf ++ printed ops := by
  induction ops with
  | nil => intro w _; simp [run, printed]
  | cons op ops ih =>
    intro w h
    have := ih _ (step_good w op h)
    rw [step_terminal w op h] at this
    rw [printed_cons, ← List.append_assoc]
    exact this

theorem run_file (ops : List Op) (q : Path) (hq : .attach q ∉ ops) : ∀ w, Good w →
    times q (run w ops).out = times q w.out ∧ (times q w.out = 0 → (run w ops).fs q = w.fs q) ∧
    ((∃ s, w.fs q = some (.file s)) → times q w.out = 1 → textAt (run w ops).fs q = textAt w.fs q ++ printed ops) := by
  induction ops with
  | nil => intro w _; simp [run, printed]
  | cons op ops ih =>
    intro w h
    have hop : op ≠ .attach q := fun e => hq (e ▸ List.mem_cons_self)
    obtain ⟨s1, s2, s3⟩ := step_file w op h q hop
    obtain ⟨r1, r2, r3⟩ := ih (fun hm => hq (List.mem_cons_of_mem _ hm)) _ (step_good w op h)
    refine ⟨r1.trans s1, fun h0 => (r2 (s1.trans h0)).trans (s2 h0), fun hs h1 => ?_⟩
    have hs' : ∃ s, (step w op).fs q = some (.file s) := by
      have hmem : ∃ l ∈ w.out, l.path = q := by
        by_contra hcon
        push_neg at hcon
        have : times q w.out = 0 := by
          unfold times
          rw [List.length_eq_zero_iff, List.filter_eq_nil_iff]
          intro l hl; simpa using hcon l hl
        omega
      obtain ⟨l, hl, hlq⟩ := hmem
      have h1' : times q (step w op).out ≠ 0 := by rw [s1, h1]; simp
      have hmem' : ∃ l ∈ (step w op).out, l.path = q := by
        by_contra hcon
        push_neg at hcon
        apply h1'
        unfold times
        rw [List.length_eq_zero_iff, List.filter_eq_nil_iff]
        intro l hl; simpa using hcon l hl
      obtain ⟨l', hl', hlq'⟩ := hmem'
      rw [← hlq']
      exact (step_good w op h l' hl').2
    have := r3 hs' (s1.trans h1)
    rw [s3 hs, h1] at this
    rw [printed_cons, ← List.append_assoc]
    simpa [run] using this

theorem run_append (a b : List Op) (w : World) : run w (a ++ b) = run (run w a) b := by
  simp [run]

end StdLog

open StdLog Spec

/-- C77.  However often output is redirected, the terminal gets all the text written, in order. -/
theorem C77_terminal (w : World) (hw : Plain w) (ops : List Op) :
    (run w ops).shown ++ (run w ops).termBuf = w.shown ++ printed ops := by
  have := run_terminal ops w (by intro l hl; rw [hw.1] at hl; cases hl)
  rw [this, hw.2, List.append_nil]

/-- C77.  After a successful `simple_stdout2file(p)` everything written is appended to what the file held
before, at once and in order, whatever other files are attached before and after; the terminal shows it at
once, too.  Missing: the same file attached several times. -/
theorem C77_file_partial (w : World) (hw : Plain w) (a b : List Op) (p : Path)
    (ho : Openable (run w a).fs p) (ha : .attach p ∉ a) (hb : .attach p ∉ b) :
    textAt (run w (a ++ .attach p :: b)).fs p = textAt w.fs p ++ printed b ∧
    (∀ m, (run w (a ++ .attach p :: b ++ [.write m])).termBuf = []) := by
  have hg0 : Good w := by intro l hl; rw [hw.1] at hl; cases hl
  have t0 : times p w.out = 0 := by rw [hw.1]; rfl
  have hg := run_good a w hg0
  obtain ⟨f1, f2, _⟩ := run_file a p ha w hg0
  obtain ⟨w', hw'⟩ := openable_ok ho
  obtain ⟨h1, _, _, h4, h5, _⟩ := attach_ok hw'
  have hst : step (run w a) (.attach p) = w' := by simp only [step, hw']
  have hg' : Good w' := hst ▸ step_good _ (.attach p) hg
  have t1 : times p w'.out = 1 := by
    rw [h1]
    have := f1.trans t0
    unfold times at this ⊢
    simp [this]
  obtain ⟨k1, _, k3⟩ := run_file b p hb w' hg'
  have e : run w (a ++ .attach p :: b) = run w' b := by
    rw [run_append]
    show run (step (run w a) (.attach p)) b = _
    rw [hst]
  refine ⟨?_, fun m => ?_⟩
  · rw [e, k3 h4 t1, h5]
    unfold textAt
    rw [f2 t0]
  · rw [run_append, e]
    show (step (run w' b) (.write m)).termBuf = []
    have hne : (run w' b).out ≠ [] := by
      intro h0
      rw [h0] at k1
      rw [t1] at k1
      cases k1
    simp only [step]
    rw [write_eq m _ _ (fun l hl => (run_good b w' hg' l hl).1) hne]

/-- C77.  Files that are never attached stay as they are. -/
theorem C77_other_files (w : World) (hw : Plain w) (ops : List Op) (p : Path) (h : .attach p ∉ ops) :
    (run w ops).fs p = w.fs p :=
  (run_file ops p h w (by intro l hl; rw [hw.1] at hl; cases hl)).2.1 (by rw [hw.1]; rfl)

/-- C77.  A path whose directory does not exist is refused with an `AssertionError`, a directory with an
`IsADirectoryError`; the output goes where it went before. -/
theorem C77_refused (w : World) (p : Path) :
    (w.fs p.dropLast = none → stdout2file p w = (.error .assertion, w)) ∧
    (w.fs p.dropLast = some .dir → w.fs p = some .dir → stdout2file p w = (.error .isDirectory, w)) := by
  constructor
  · intro h; simp [stdout2file, h]
  · intro h h'; simp [stdout2file, openAppend, h, h']

/-- C77 fails for a file that is attached twice, as by running a cell of a notebook again: it gets every text
twice. -/
theorem C77_twice_false (w : World) (hw : Plain w) (p : Path) (ho : Openable w.fs p) (m : Text) :
    textAt (run w [.attach p, .attach p, .write m]).fs p = textAt w.fs p ++ m ++ m := by
  have hg0 : Good w := by intro l hl; rw [hw.1] at hl; cases hl
  obtain ⟨w1, hw1⟩ := openable_ok ho
  obtain ⟨h1, _, _, ⟨s, h4⟩, h5, h6⟩ := attach_ok hw1
  have hd : p.dropLast ≠ p := by
    intro e
    have h7 := ho.2
    rw [← e, e] at h7
    exact ho.2 (e ▸ ho.1)
  have ho1 : Openable w1.fs p := ⟨by rw [h6 _ hd]; exact ho.1, by rw [h4]; simp⟩
  obtain ⟨w2, hw2⟩ := openable_ok ho1
  obtain ⟨k1, _, _, k4, k5, _⟩ := attach_ok hw2
  have e1 : step w (.attach p) = w1 := by simp only [step, hw1]
  have e2 : step w1 (.attach p) = w2 := by simp only [step, hw2]
  have hg2 : Good w2 := e2 ▸ step_good _ _ (e1 ▸ step_good _ _ hg0)
  have := (step_file w2 (.write m) hg2 p (by simp)).2.2 k4
  have ht : times p w2.out = 2 := by rw [k1, h1, hw.1]; simp [times]
  rw [ht, k5, h5] at this
  show textAt (step (step (step w (.attach p)) (.attach p)) (.write m)).fs p = _
  rw [e1, e2, this]
  simp [printed]

/-! An empty directory, two files attached one after the other. -/

/-- only the root directory -/
def exFS : FS := fun p => if p = [] then some .dir else none

example : Plain ⟨exFS, ['a'], [], []⟩ ∧ Openable exFS ["x"] :=
  ⟨⟨rfl, rfl⟩, by decide, by decide⟩

example : textAt (run ⟨exFS, [], [], []⟩ [.attach ["x"], .write ['a'], .attach ["y"], .write ['b']]).fs ["x"] = ['a', 'b'] ∧
    textAt (run ⟨exFS, [], [], []⟩ [.attach ["x"], .write ['a'], .attach ["y"], .write ['b']]).fs ["y"] = ['b'] := by
  constructor <;> rfl

end DHG
