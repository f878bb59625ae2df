import Mathlib.Data.List.Sort
import Verif.Sparse

/-!
# Random features (`dhg/random/feature.py`)

`np.random.normal(centers, noise, size)` is `centers + noise * z` for a table `z` of standard normal
draws, which is a parameter.  The conversion to single precision is not modelled.
-/

set_option linter.unusedSectionVars false
set_option autoImplicit false

namespace DHG
namespace RandGen

/-- `np.unique(labels).tolist()` (feature.py:32): ascending, without repetitions -/
def npUnique (ls : List Int) : List Int := ls.dedup.insertionSort (· ≤ ·)

/-- `normal_features` (feature.py:6-40) for a one-dimensional list of integer labels.  An empty list
gives an index array of floats, which numpy refuses (`IndexError`); a negative scale is refused by
`np.random.normal` (`ValueError`).  `label_set.index` raises `ValueError` for a missing label. -/
def normalFeatures {K : Type} [Field K] [LinearOrder K] (labels : List Int) (noise : K)
    (z : Nat → Nat → K) : Except Err (Dense K) :=
  let labelSet := npUnique labels
  if ∃ l ∈ labels, l ∉ labelSet then .error .value
  else
    let idx := labels.map fun l => labelSet.idxOf l
    if labels = [] then .error .index
    else if noise < 0 then .error .value
    else .ok ⟨labels.length, labelSet.length, fun i j =>
      (if idx[i]? = some j then 1 else 0) + noise * z i j⟩

end RandGen
end DHG
