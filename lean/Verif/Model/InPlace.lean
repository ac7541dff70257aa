import Mathlib.Data.Rat.Floor
import Verif.Model.Table
import Verif.Model.Pointcloud

/-!
# Arrays of the caller

The functions of tables and point clouds that take arrays, together with the contents of the array of the caller after
the call. The array is a numpy array of floats; other arguments are copied by numpy.
-/

namespace Verif

open Verif.Interp

variable {K : Type} [Field K] [LinearOrder K] [FloorRing K]

namespace Table

/-- `_custom_iterable_resolution` for wind angles (`/repo/hrosailing/polardiagram/_polardiagramtable.py:731-755`):
`np.asarray_chkfinite` does not copy an array, and `res %= 360` writes to it. -/
def buildWaArray (res : List K) : Except PyErr (List K) × List K :=
  if res.isEmpty then (.error .valueError, res)
  else (.ok (res.map fun x => pmod x 360), res.map fun x => pmod x 360)

/-- `__init__` with an array of wind angles (`/repo/hrosailing/polardiagram/_polardiagramtable.py:143-167`), and the array
afterwards: the wind speeds are processed before. -/
def initArray (ws : List K) (waArray : List K) (bsps : List (List K)) : Except PyErr (Table K) × List K :=
  match buildWs (.values ws) with
  | .error e => (.error e, waArray)
  | .ok _ => (init (.values ws) (.values waArray) (some bsps), (buildWaArray waArray).2)

/-- `_get_indices` with an array of wind angles (`/repo/hrosailing/polardiagram/_polardiagramtable.py:311-330`,
`:773-783`): `np.atleast_1d` does not copy, and `wind %= 360` writes to the array. -/
def waIndicesArray (t : Table K) (waArray : List K) : Except PyErr (List Nat) × List K :=
  (waIndices t (some waArray), waArray.map fun x => pmod x 360)

end Table

namespace Cloud

/-- `PolarDiagramPointcloud(points)` (`/repo/hrosailing/polardiagram/_polardiagrampointcloud.py:133-141`) and the array of
points afterwards: selecting with `np.where` copies. -/
def initArray (points : List (Pt K)) : List (Pt K) × List (Pt K) := (init points, points)

/-- `add_points` (`/repo/hrosailing/polardiagram/_polardiagrampointcloud.py:318-326`) and the array of new points
afterwards: `new_pts[:, 1] %= 360` writes to it. -/
def addPointsArray (cloud new : List (Pt K)) : Res (List (Pt K)) × List (Pt K) :=
  (addPoints cloud new,
    if new.any fun p => decide (p.1.1 ≤ 0) then new else new.map fun p => ((p.1.1, pmod p.1.2 360), p.2))

end Cloud

end Verif
