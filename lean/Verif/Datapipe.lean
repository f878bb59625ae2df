import Mathlib.Analysis.SpecialFunctions.Pow.Real
import Verif.Data
import Verif.Py

/-!
# Data pipes (`dhg/datapipe`)

Tensors are lists (one dimension) or lists of rows (two dimensions); numbers are reals.  A division
by zero of tensors is the infinity that the code replaces by zero at once, so it is written as that
zero; a division by zero of Python floats is the exception `Err.zeroDiv`.
-/

set_option linter.unusedSectionVars false
set_option autoImplicit false

namespace DHG
namespace Pipe

/-- the `ord` argument of `torch.linalg.norm` on vectors (datapipe/normalize.py:5, 29) -/
inductive Ord
  | default          -- `None`: the 2-norm
  | inf              -- `float('inf')`
  | neginf           -- `float('-inf')`
  | zero             -- `0`: the number of non-zero entries
  | pow (p : ℝ)      -- any other number

/-- `torch.linalg.norm(x, ord)` of a vector, as documented there.  The maximum and the minimum over an
empty vector raise in torch; they are `0` here, which only concerns vectors without entries.
(datapipe/normalize.py:29) -/
noncomputable def vecNorm (o : Ord) (x : List ℝ) : ℝ :=
  match o with
  | .default => Real.sqrt (x.map fun a => a ^ 2).sum
  | .inf => (x.map abs).foldl max 0
  | .neginf => match x with
    | [] => 0
    | a :: x => (x.map abs).foldl min |a|
  | .zero => ((x.filter (fun a => decide (a ≠ 0))).length : ℝ)
  | .pow p => ((x.map fun a => |a| ^ p).sum) ^ (1 / p)

/-- lines 28-31 and 32-35: `1 / norm` with infinities replaced by `0`, times the row -/
noncomputable def normRow (o : Ord) (x : List ℝ) : List ℝ :=
  let n := vecNorm o x
  let s := if n = 0 then 0 else 1 / n
  x.map fun a => a * s

/-- `norm_ft` on a matrix (normalize.py:32-35) -/
noncomputable def normFt (o : Ord) (X : List (List ℝ)) : List (List ℝ) := X.map (normRow o)

/-- the outcome of `min_max_scaler`
(the exceptions of datapipe/normalize.py:42-66 and datapipe/loader.py:9-80) -/
inductive PErr
  | assertion | runtime | zeroDiv | value | key
  deriving DecidableEq, Repr

section
variable {K : Type} [Field K] [LinearOrder K]

/-- `min_max_scaler` (normalize.py:42-69); the minimum of a tensor without entries raises -/
def minMaxScaler (X : List (List K)) (ftMin ftMax : K) : Except PErr (List (List K)) :=
  if ¬ ftMin < ftMax then .error .assertion else
  match X.flatten with
  | [] => .error .runtime
  | a :: xs =>
    let xMin := xs.foldl min a
    let xMax := xs.foldl max a
    if xMax - xMin = 0 then .error .zeroDiv else
      let scale := (ftMax - ftMin) / (xMax - xMin)
      let mn := ftMin - xMin * scale
      .ok (X.map fun r => r.map fun x => x * scale + mn)

end

/-! ## Loaders -/

/-- characters removed by `str.strip()` (datapipe/loader.py:60) -/
def isSpace (c : Char) : Bool :=
  c.toNat ∈ [0x09, 0x0a, 0x0b, 0x0c, 0x0d, 0x1c, 0x1d, 0x1e, 0x1f, 0x20, 0x85, 0xa0, 0x1680, 0x2000, 0x2001,
    0x2002, 0x2003, 0x2004, 0x2005, 0x2006, 0x2007, 0x2008, 0x2009, 0x200a, 0x2028, 0x2029, 0x202f, 0x205f, 0x3000]

/-- `str.strip()`, datapipe/loader.py:60 -/
def strip (s : List Char) : List Char := ((s.dropWhile isSpace).reverse.dropWhile isSpace).reverse

/-- the characters matched by the default `sep`, `",| |\t"` (loader.py:39) -/
def isSep (c : Char) : Bool := c = ',' || c = ' ' || c = '\t'

/-- cutting a text at every character that satisfies `p`; the pieces are those between the cuts
(`re.split`, datapipe/loader.py:60) -/
def cut (p : Char → Bool) : List Char → List (List Char)
  | [] => [[]]
  | c :: cs =>
    if p c then [] :: cut p cs else
      match cut p cs with
      | [] => [[c]]
      | l :: ls => (c :: l) :: ls

/-- `f.readlines()`: the text cut after every newline; text after the last newline is a line only if
it is not empty.  The newlines themselves are dropped here (`strip` removes them in the code).
Universal newlines (`\r`) are assumed translated already. (datapipe/loader.py:60) -/
def readLines (s : List Char) : List (List Char) :=
  let ls := cut (· = '\n') s
  if ls.getLast? = some [] then ls.dropLast else ls

/-- a list comprehension that may raise, datapipe/loader.py:60 -/
def mapE {α β : Type} (f : α → Except PErr β) : List α → Except PErr (List β)
  | [] => .ok []
  | a :: as =>
    match f a with
    | .error e => .error e
    | .ok b =>
      match mapE f as with
      | .error e => .error e
      | .ok bs => .ok (b :: bs)

/-- the `dtype` argument: a string or a function (datapipe/loader.py:40, 64) -/
inductive Dtype (α : Type)
  | name (s : String)
  | fn (f : List Char → Except PErr α)

/-- Python's `int`, `float` and `str` on texts (datapipe/loader.py:70-80) -/
structure Builtins (α : Type) where
  int : List Char → Except PErr α
  float : List Char → Except PErr α
  str : List Char → Except PErr α

/-- `ret_cast_fun` (loader.py:64-80) -/
def retCastFun {α : Type} (b : Builtins α) : Dtype α → Except PErr (List Char → Except PErr α)
  | .name s =>
    if s = "int" then .ok b.int
    else if s = "float" then .ok b.float
    else if s = "str" then .ok b.str
    else .error .value
  | .fn f => .ok f

/-- `load_from_txt` (loader.py:39-61) with the default separators; `file` is the text of the file if it
exists -/
def loadFromTxt {α : Type} (b : Builtins α) (dtype : Dtype α) (ignoreHeader : Nat) (file : Option (List Char)) :
    Except PErr (List (List α)) :=
  match retCastFun b dtype with
  | .error e => .error e
  | .ok cast =>
    match file with
    | none => .error .assertion
    | some text => mapE (fun line => mapE cast (cut isSep (strip line))) ((readLines text).drop ignoreHeader)

/-- the `keys` argument of `load_from_pickle` (datapipe/loader.py:9) -/
inductive Keys
  | none
  | one (k : String)
  | many (ks : List String)

/-- what `load_from_pickle` answers: the object, one of its entries, or a dictionary of some
(datapipe/loader.py:20-25) -/
inductive Loaded (V : Type)
  | all (d : List (String × V))
  | entry (v : V)
  | sub (d : Dict String V)

/-- `data[key]`, datapipe/loader.py:23, 25 -/
def lookup {V : Type} (d : List (String × V)) (k : String) : Except PErr V :=
  match d.find? (fun p => p.1 = k) with
  | some p => .ok p.2
  | .none => .error .key

/-- `load_from_pickle` (loader.py:9-26) on a file holding a pickled dictionary -/
def loadFromPickle {V : Type} (d : List (String × V)) (keys : Keys) : Except PErr (Loaded V) :=
  match keys with
  | .none => .ok (.all d)
  | .one k => (lookup d k).map .entry
  | .many ks => (mapE (fun k => (lookup d k).map fun v => (k, v)) ks).map fun ps =>
      .sub (ps.foldl (fun acc p => Dict.set acc p.1 p.2) [])

end Pipe
end DHG
