import Mathlib.Data.List.Basic

/-!
# Output to the terminal and to files (`dhg/utils/logging.py`)

A path is the list of the names in it, absolute and without links; a file system tells for every path
whether there is a directory, a file with some text, or nothing.  A file object opened for appending has
a buffer; flushing it puts the buffer at the end of the file.  How the terminal buffers is left open: text
stays in its buffer until it is flushed.  Encodings, disk errors and other programs writing to the files
are left out.
-/

set_option linter.unusedSectionVars false
set_option autoImplicit false

namespace DHG
namespace StdLog

/-- `pathlib.Path`, utils/logging.py:4 -/
abbrev Path := List String
/-- the messages, utils/logging.py:31 -/
abbrev Text := List Char

/-- files and directories, utils/logging.py:24-29 -/
inductive Node
  | dir
  | file (t : Text)
  deriving DecidableEq

/-- files and directories, utils/logging.py:24-29 -/
abbrev FS := Path → Option Node

/-- the exceptions of utils/logging.py:24-29 -/
inductive LErr
  | assertion | isDirectory | notADirectory
  deriving DecidableEq, Repr

/-- a `SimpleLogger` (logging.py:21-36): its file and what is in the buffer of the file object; its
`terminal` is the rest of the list of loggers, or the terminal itself -/
structure Logger where
  path : Path
  buf : Text

/-- the file system, the terminal with its buffer, and the loggers of `sys.stdout`, the outermost first
(utils/logging.py:27-29, 41) -/
structure World where
  fs : FS
  shown : Text
  termBuf : Text
  out : List Logger

/-- appending to an open file (utils/logging.py:33) -/
def append (fs : FS) (p : Path) (t : Text) : FS := fun q =>
  if q = p then
    match fs p with
    | some (.file s) => some (.file (s ++ t))
    | other => other
  else fs q

/-- `flush` (logging.py:36-38): first of the `terminal`, then of the file -/
def flush : List Logger → World → List Logger × World
  | [], w => ([], { w with shown := w.shown ++ w.termBuf, termBuf := [] })
  | l :: ls, w =>
    let r := flush ls w
    ({ l with buf := [] } :: r.1, { r.2 with fs := append r.2.fs l.path l.buf })

/-- `write` (logging.py:31-34) -/
def write (m : Text) : List Logger → World → List Logger × World
  | [], w => ([], { w with termBuf := w.termBuf ++ m })
  | l :: ls, w =>
    let r := write m ls w
    flush ({ l with buf := l.buf ++ m } :: r.1) r.2

/-- `open(file_path, "a")` (utils/logging.py:29) -/
def openAppend (p : Path) (fs : FS) : Except LErr FS :=
  match fs p.dropLast with
  | some (.file _) => .error .notADirectory
  | _ =>
    match fs p with
    | some .dir => .error .isDirectory
    | some (.file _) => .ok fs
    | none => .ok fun q => if q = p then some (.file []) else fs q

/-- `simple_stdout2file` (logging.py:14-41) -/
def stdout2file (p : Path) (w : World) : Except LErr Unit × World :=
  if w.fs p.dropLast = none then (.error .assertion, w)
  else
    match openAppend p w.fs with
    | .error e => (.error e, w)
    | .ok fs => (.ok (), { w with fs := fs, out := ⟨p, []⟩ :: w.out })

/-- what a program does with `sys.stdout`
(a program printing to utils/logging.py:21-41; no line of its own) -/
inductive Op
  | write (m : Text)
  | flush
  | attach (p : Path)

/-- a program printing to utils/logging.py:21-41; no line of its own -/
def step (w : World) : Op → World
  | .write m => let r := write m w.out w; { r.2 with out := r.1 }
  | .flush => let r := flush w.out w; { r.2 with out := r.1 }
  | .attach p => (stdout2file p w).2

/-- a program printing to utils/logging.py:21-41; no line of its own -/
def run (w : World) (ops : List Op) : World := ops.foldl step w

end StdLog
end DHG
