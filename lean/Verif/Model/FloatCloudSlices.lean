import Verif.Model.Float64
import Verif.Model.Pointcloud

/-!
# Slices of point clouds in double precision
-/

namespace Verif.F64

open Verif.Interp

variable {K : Type} [Field K] [LinearOrder K] [FloorRing K]

/-- `ws_to_slices` without interpolator (`/repo/hrosailing/polardiagram/_polardiagrampointcloud.py:127-131`) for doubles: the
differences of the wind speeds are rounded. A slice is given by its columns. -/
def cloudSlices (range : K) (cloud : List (Pt K)) (ws : List K) : List (List (Pt K)) :=
  ws.map fun w => cloud.filter fun p => decide (|fl (p.1.1 - w)| ≤ range)

end Verif.F64
