import Verif.StdLog

/-!
# The directory and the log of an experiment (`BaseTask.__init__`, `dhg/experiments/base.py`)

Paths and file systems are those of `Verif/StdLog.lean`.  A study name is one path component.  All tasks
share optuna's logger, to which every task adds a handler that writes to its log file; on the systems
considered, a handler whose file was removed keeps writing to the removed file, which nobody sees.  The
handlers of other programs and the terminal are left out, and so is the text of time and level in a line.
What a call that raises has done to the files before is not kept.
-/

set_option linter.unusedSectionVars false
set_option autoImplicit false

namespace DHG
namespace Study

open StdLog

/-- the exceptions of experiments/base.py:58-78 -/
inductive SErr
  | type | value | fileExists | notADirectory | isDirectory
  deriving DecidableEq, Repr

/-- a handler: its file, and whether the file is still the one it opened
(experiments/base.py:74-76) -/
structure Handler where
  path : Path
  live : Bool

/-- the files and the handlers of the logger, experiments/base.py:58-78 -/
structure World where
  fs : FS
  handlers : List Handler

/-- one task: where its files are (experiments/base.py:58-63) -/
structure Task where
  root : Path
  log : Path
  cache : Path
  deriving DecidableEq

/-- `logger.info(line)`: every handler writes the line (experiments/base.py:77-78) -/
def info (line : Text) (w : World) : World :=
  { w with fs := w.handlers.foldl (fun fs h => if h.live then append fs h.path line else fs) w.fs }

/-- `shutil.rmtree(p)` of a directory (experiments/base.py:61) -/
def rmtree (p : Path) (w : World) : World :=
  { fs := fun q => if p <+: q then none else w.fs q
    handlers := w.handlers.map fun h => if p <+: h.path then { h with live := false } else h }

/-- `p.mkdir(exist_ok=True)` where the parent is a directory (experiments/base.py:66, 69-70) -/
def mkdir (p : Path) (w : World) : Except SErr World :=
  match w.fs p with
  | some .dir => .ok w
  | some (.file _) => .error .fileExists
  | none => .ok { w with fs := fun q => if q = p then some .dir else w.fs q }

/-- `logging.FileHandler(p, mode="a")` and `addHandler` (base.py:74-76) where the parent is a directory -/
def addHandler (p : Path) (w : World) : Except SErr World :=
  match w.fs p with
  | some .dir => .error .isDirectory
  | some (.file _) => .ok { w with handlers := w.handlers ++ [⟨p, true⟩] }
  | none => .ok { fs := fun q => if q = p then some (.file []) else w.fs q
                  handlers := w.handlers ++ [⟨p, true⟩] }

/-- `work_root` is created in its parent if it is missing (base.py:64-68) -/
def ensureRoot (root : Path) (w : World) : Except SErr World :=
  if w.fs root = none then
    match w.fs root.dropLast with
    | none => .error .value
    | some .dir => mkdir root w
    | some (.file _) => .error .notADirectory
  else .ok w

/-- the study directory is removed if it is to be overwritten (base.py:60-61) -/
def clear (overwrite : Bool) (p : Path) (w : World) : Except SErr World :=
  if overwrite then
    match w.fs p with
    | none => .ok w
    | some .dir => .ok (rmtree p w)
    | some (.file _) => .error .notADirectory
  else .ok w

/-- directories below a `work_root` that is a file (experiments/base.py:64-70) -/
def needDir (root : Path) (w : World) : Except SErr Unit :=
  match w.fs root with
  | some .dir => .ok ()
  | _ => .error .notADirectory

/-- `BaseTask.__init__` (base.py:53-78).  `clock` is the current time as it is used for names, `m1` and `m2`
are the two lines that are logged. -/
def new (workRoot : Option Path) (studyName : Option String) (overwrite : Bool) (clock : String) (m1 m2 : Text)
    (w : World) : Except SErr (Task × World) :=
  match workRoot with
  | none => .error .type
  | some root => do
    let p := root ++ [studyName.getD clock]
    let w ← clear overwrite p w
    let w ← ensureRoot root w
    let _ ← needDir root w
    let w ← mkdir p w
    let w ← mkdir (p ++ ["cache"]) w
    let w ← addHandler (p ++ ["log.txt"]) w
    .ok (⟨p, p ++ ["log.txt"], p ++ ["cache"]⟩, info m2 (info m1 w))

end Study
end DHG
