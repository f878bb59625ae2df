import Verif.Download

/-!
# Datasets (`dhg/data/base.py`)

A dataset is a table of items.  Values are opaque; `none` stands for Python's `None`, which the code
uses as the marker of an absent cache.  A loader is a function of the path (or paths) it is given and
of the files; loaders and pipes that modify a value they have returned or received earlier are not
represented.  File names are single path components.  The parts of an item that never change are kept apart from its cache.
-/

set_option linter.unusedSectionVars false
set_option autoImplicit false

namespace DHG
namespace Data
open Download

/-- `{'filename': …, 'md5': …}` with the optional `'bk_url'` (data/base.py:16-19, 107-108) -/
structure DFile where
  filename : String
  md5 : String
  bkUrl : Option Url

/-- the argument of a loader (base.py:92-97): one path, or the list of them -/
inductive LArg
  | one (p : Path)
  | many (ps : List Path)

/-- the exceptions of data/base.py:66-116 and of utils/download.py -/
inductive DErr
  | assertion
  | fetch (e : Exc)
  | user
  deriving DecidableEq, Repr

/-- `None` or a parsed object, data/base.py:70-78 -/
abbrev Val (V : Type) := Option V
/-- `compose_pipes`, data/base.py:73-75 -/
abbrev Pipe (V : Type) := Val V → Except DErr (Val V)

/-- an item with an `upon` list and a `loader`, or anything else (data/base.py:53-64) -/
inductive Item (V : Type)
  | plain (v : Val V)
  | cfg (upon : List DFile) (loader : LArg → (Path → Option Bytes) → Except DErr (Val V))
      (pre : Option (List (Pipe V)))

/-- `BaseData.__init__` (base.py:28-38): `root` is `DATASETS_ROOT / name` or `Path(data_root) / name` -/
structure Dataset (V : Type) where
  name : String
  root : Path
  items : List (String × Item V)

/-- mutable part: the world, `_raw`, the `cache` entries, and a log of the items parsed
(data/base.py:36-38, 69-78, 87-97) -/
structure DState (V : Type) where
  world : World
  raw : String → Val V
  cache : String → Val V
  loads : List String

section
variable {V : Type}

/-- `self._content[key]`, data/base.py:67, 83 -/
def Dataset.item? (D : Dataset V) (key : String) : Option (Item V) :=
  (D.items.find? fun p => p.1 = key).map Prod.snd

/-- the default root (base.py:31-32) -/
def defaultRoot (E : Env) (name : String) : Path := E.cacheRoot ++ ["datasets", name]

/-- `fetch_files` (base.py:102-116) -/
def fetchFiles (E : Env) (D : Dataset V) : List DFile → World → Except DErr Unit × World
  | [], w => (.ok (), w)
  | f :: fs, w =>
    let url := f.bkUrl.getD (remoteRoot ++ D.name.toList ++ ['/'] ++ f.filename.toList)
    match downloadAndCheck E url (D.root ++ [f.filename]) f.md5 w with
    | (.error e, w') => (.error (.fetch e), w')
    | (.ok _, w') => fetchFiles E D fs w'

/-- the loader's argument (base.py:91-97) -/
def larg (D : Dataset V) (upon : List DFile) : LArg :=
  match upon with
  | [f] => .one (D.root ++ [f.filename])
  | fs => .many (fs.map fun f => D.root ++ [f.filename])

/-- assignment to a key, data/base.py:75-77, 94-97 -/
def setKey {α : Type} (m : String → α) (k : String) (v : α) : String → α := fun q => if q = k then v else m q

/-- the part of `raw` below the test of `_raw` (base.py:88-97) -/
def loadItem (E : Env) (D : Dataset V) (key : String) (upon : List DFile)
    (loader : LArg → (Path → Option Bytes) → Except DErr (Val V)) (s : DState V) :
    Except DErr (Val V) × DState V :=
  match fetchFiles E D upon s.world with
  | (.error e, w) => (.error e, { s with world := w })
  | (.ok (), w) =>
    match loader (larg D upon) w.files with
    | .error e => (.error e, { s with world := w })
    | .ok v => (.ok v, { s with world := w, raw := setKey s.raw key v, loads := s.loads ++ [key] })

/-- `raw` (base.py:82-100) -/
def raw (E : Env) (D : Dataset V) (key : String) (s : DState V) : Except DErr (Val V) × DState V :=
  match D.item? key with
  | none => (.error .assertion, s)
  | some (.plain v) => (.ok v, s)
  | some (.cfg upon loader _) =>
    match s.raw key with
    | some v => (.ok (some v), s)
    | none => if upon.isEmpty then (.ok none, s) else loadItem E D key upon loader s

/-- `compose_pipes(*pipes)` (datapipe/common.py:90-102) -/
def composePipes (ps : List (Pipe V)) (x : Val V) : Except DErr (Val V) :=
  match ps with
  | [] => .ok x
  | p :: ps => (p x).bind (composePipes ps)

/-- base.py:73-77 -/
def preprocess (pre : Option (List (Pipe V))) (x : Val V) : Except DErr (Val V) :=
  match pre with
  | none => .ok x
  | some ps => composePipes ps x

/-- `__getitem__` (base.py:66-80) -/
def getItem (E : Env) (D : Dataset V) (key : String) (s : DState V) : Except DErr (Val V) × DState V :=
  match D.item? key with
  | none => (.error .assertion, s)
  | some (.plain v) => (.ok v, s)
  | some (.cfg _ _ pre) =>
    match s.cache key with
    | some c => (.ok (some c), s)
    | none =>
      match raw E D key s with
      | (.error e, s') => (.error e, s')
      | (.ok x, s') =>
        match preprocess pre x with
        | .error e => (.error e, s')
        | .ok y => (.ok y, { s' with cache := setKey s'.cache key y })

/-- a request to a dataset (`data[key]` and `data.raw(key)`, data/base.py:66, 82) -/
inductive Req
  | raw (key : String)
  | get (key : String)

/-- data/base.py:66-100 -/
def serve (E : Env) (D : Dataset V) (r : Req) (s : DState V) : Except DErr (Val V) × DState V :=
  match r with
  | .raw k => raw E D k s
  | .get k => getItem E D k s

/-- a session: requests one after the other, exceptions caught by the caller
(a caller of data/base.py:66-100; no line of its own) -/
def session (E : Env) (D : Dataset V) : List Req → DState V → DState V
  | [], s => s
  | r :: rs, s => session E D rs (serve E D r s).2

/-- a dataset object just constructed (data/base.py:28-38) -/
def fresh (w : World) : DState V := ⟨w, fun _ => none, fun _ => none, []⟩

end
end Data
end DHG
