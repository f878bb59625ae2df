import Mathlib.Data.List.Basic

/-!
# Downloads (`dhg/utils/download.py`)

The file system is a map from paths to contents; directories are not represented (`mkdir` and
`rmdir` have no effect on the model, and no directory stands where a file is expected).  A path is
the list of its components.  The network is a function from the number of the request and its
address to an outcome; an outcome may deliver any bytes and may break off anywhere.  A process killed
during a transfer is an outcome too.  `hashlib.md5` is a parameter.
-/

set_option linter.unusedSectionVars false
set_option autoImplicit false

namespace DHG
namespace Download

/-- `pathlib.Path`, utils/download.py:5 -/
abbrev Path := List String
/-- the `url` arguments, utils/download.py:9, 83 -/
abbrev Url := List Char
/-- the contents of files, utils/download.py:20-23, 39-40 -/
abbrev Bytes := List UInt8

/-- what can end a call early: `requests.HTTPError`, any other `requests.RequestException`,
`ValueError`, `FileNotFoundError`, and the death of the process
(utils/download.py:19, 37, 96, 106) -/
inductive Exc
  | http | conn | value | notFound | killed
  deriving DecidableEq, Repr

/-- how a transfer with status 200 ends after the bytes received so far (utils/download.py:20-23) -/
inductive Ending
  | complete | broken | killed
  deriving DecidableEq, Repr

/-- outcome of `requests.get` followed by the transfer (utils/download.py:17-23) -/
inductive Outcome
  | refused
  | status
  | body (bytes : Bytes) (ending : Ending)
  deriving DecidableEq, Repr

/-- utils/download.py:17 -/
abbrev Net := Nat → Url → Outcome

/-- files, and the requests made so far (utils/download.py:17, 20-23) -/
structure World where
  files : Path → Option Bytes
  reqs : List Url

/-- the environment: home directory, checksum and network (utils/download.py:17, 41, 69) -/
structure Env where
  home : Path
  md5 : Bytes → String
  net : Net

/-- `Path.home() / ".cache" / "dhg"` (_global.py:6) -/
def Env.cacheRoot (E : Env) : Path := E.home ++ [".cache", "dhg"]

/-- `Path.home() / ".dhg"` (download.py:69) -/
def Env.legacyRoot (E : Env) : Path := E.home ++ [".dhg"]

/-- `REMOTE_DATASETS_ROOT` (_global.py:15) -/
def remoteRoot : Url := "https://huggingface.co/datasets/iMoonLab/DHG-data/resolve/main/datasets/".toList

/-- `BACKUP_REMOTE_DATASETS_ROOT` (_global.py:16) -/
def backupRoot : Url := "https://download.moon-lab.tech:28501/datasets/".toList

/-- `p.relative_to(root)`; `none` stands for the `ValueError` (utils/download.py:71) -/
def relativeTo (p root : Path) : Option Path :=
  if root.isPrefixOf p then some (p.drop root.length) else none

/-- utils/download.py:20, 74, 105 -/
def setFile (fs : Path → Option Bytes) (p : Path) (v : Option Bytes) : Path → Option Bytes :=
  fun q => if q = p then v else fs q

/-- `download_file` (download.py:9-23) -/
def downloadFile (E : Env) (url : Url) (p : Path) (w : World) : Except Exc Unit × World :=
  let w' := { w with reqs := w.reqs ++ [url] }
  match E.net w.reqs.length url with
  | .refused => (.error .conn, w')
  | .status => (.error .http, w')
  | .body bytes ending =>
    let w'' := { w' with files := setFile w.files p (some bytes) }
    match ending with
    | .complete => (.ok (), w'')
    | .broken => (.error .conn, w'')
    | .killed => (.error .killed, w'')

/-- `check_file` (download.py:26-42) -/
def checkFile (E : Env) (p : Path) (md5 : String) (w : World) : Except Exc Bool :=
  match w.files p with
  | none => .error .notFound
  | some b => .ok (E.md5 b = md5)

/-- `_try_migrate_from_legacy_cache` (download.py:67-79); the answer is not used by the caller -/
def tryMigrate (E : Env) (p : Path) (w : World) : Except Exc Unit × World :=
  match relativeTo p E.cacheRoot with
  | none => (.error .value, w)
  | some rel =>
    let legacy := E.legacyRoot ++ rel
    match w.files legacy with
    | none => (.ok (), w)
    | some b => (.ok (), { w with files := setFile (setFile w.files legacy none) p (some b) })

/-- the first step of `download_and_check` (download.py:91-92) -/
def stepMigrate (E : Env) (p : Path) (w : World) : Except Exc Unit × World :=
  if (w.files p).isNone then tryMigrate E p w else (.ok (), w)

/-- the second step: the transfer and the fallback to the backup server (download.py:93-103).
`HTTPError` is a `RequestException`. -/
def stepFetch (E : Env) (url : Url) (p : Path) (w : World) : Except Exc Unit × World :=
  if (w.files p).isNone then
    match downloadFile E url p w with
    | (.ok (), w') => (.ok (), w')
    | (.error e, w') =>
      if e = .http ∨ e = .conn then
        if remoteRoot.isPrefixOf url then
          downloadFile E (backupRoot ++ url.drop remoteRoot.length) p w'
        else (.error e, w')
      else (.error e, w')
  else (.ok (), w)

/-- the third step: the check (download.py:104-108) -/
def stepCheck (E : Env) (p : Path) (md5 : String) (w : World) : Except Exc Bool × World :=
  match checkFile E p md5 w with
  | .error e => (.error e, w)
  | .ok true => (.ok true, w)
  | .ok false => (.error .value, { w with files := setFile w.files p none })

/-- the body of `download_and_check` (download.py:82-108) -/
def attempt (E : Env) (url : Url) (p : Path) (md5 : String) (w : World) : Except Exc Bool × World :=
  match stepMigrate E p w with
  | (.error e, w1) => (.error e, w1)
  | (.ok (), w1) =>
    match stepFetch E url p w1 with
    | (.error e, w2) => (.error e, w2)
    | (.ok (), w2) => stepCheck E p md5 w2

/-- `_retry(n)` (download.py:45-64): `k = n - 1` guarded calls, then a last one -/
def retry {α : Type} (f : World → Except Exc α × World) : Nat → World → Except Exc α × World
  | 0, w => f w
  | k + 1, w =>
    match f w with
    | (.error .http, w') => retry f k w'
    | r => r

/-- `download_and_check`, decorated with `@_retry(3)` (utils/download.py:82-108) -/
def downloadAndCheck (E : Env) (url : Url) (p : Path) (md5 : String) (w : World) :
    Except Exc Bool × World :=
  retry (attempt E url p md5) 2 w

end Download
end DHG
