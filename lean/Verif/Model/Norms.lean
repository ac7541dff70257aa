import Mathlib.Analysis.Real.Sqrt
import Verif.Model.WeigherData

/-!
# Norms

Model of `scaled_norm`, `euclidean_norm` and `scaled_euclidean_norm` (`/repo/hrosailing/core/computing.py:101-166`) and of
`hrosailing_standard_scaled_euclidean_norm` (`/repo/hrosailing/processing/weigher.py:899-924`) over the real numbers. An
array of shape (n, d) is its list of rows together with d.
-/

namespace Verif.Norms

open Verif.Weigher (broadcastMul normScale)

/-- `np.linalg.norm` of one row (`/repo/hrosailing/core/computing.py:140`). -/
noncomputable def euclid (row : List ℝ) : ℝ := Real.sqrt (row.map fun x => x ^ 2).sum

/-- `euclidean_norm` (`/repo/hrosailing/core/computing.py:127-140`). -/
noncomputable def euclideanNorm (rows : List (List ℝ)) : List ℝ := rows.map euclid

/-- `scaled_norm(norm, scal_factors)(vec)` for a `norm` that works row by row
(`/repo/hrosailing/core/computing.py:119-124`). -/
noncomputable def scaledNorm (norm : List ℝ → ℝ) (scales : List ℝ) (rows : List (List ℝ)) : Except PyErr (List ℝ) :=
  rows.mapM fun row =>
    match broadcastMul scales row with
    | .ok r => .ok (norm r)
    | .error e => .error e

/-- `scaled_euclidean_norm` (`/repo/hrosailing/core/computing.py:143-166`) for an array with `d` columns;
`NotImplementedError` is `otherError`. -/
noncomputable def scaledEuclideanNorm (d : Nat) (rows : List (List ℝ)) : Except PyErr (List ℝ) :=
  if d = 2 then scaledNorm euclid [1 / 40, 1 / 360] rows
  else if d = 3 then scaledNorm euclid [1 / 40, 1 / 360, 1 / 20] rows
  else .error .otherError

/-- `hrosailing_standard_scaled_euclidean_norm(dimensions)` (`/repo/hrosailing/processing/weigher.py:919-924`). -/
noncomputable def standardNorm (dims : Option (List String)) : List (List ℝ) → Except PyErr (List ℝ) :=
  scaledNorm euclid ((dims.getD ["TWS", "TWA"]).map normScale)

end Verif.Norms
