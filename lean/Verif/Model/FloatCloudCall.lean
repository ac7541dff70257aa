import Verif.Model.FloatCloud
import Verif.Model.Pointcloud

/-!
# Evaluating point clouds in double precision
-/

namespace Verif.F64

open Verif.Interp

/-- `PolarDiagramPointcloud.__call__` for numbers (`/repo/hrosailing/polardiagram/_polardiagrampointcloud.py:161-215`) for doubles: the
remainder and the differences to the given wind are rounded. `interpolate` is the method of the interpolator, `nbh` that of the
neighbourhood, as in `Verif.Cloud.call`. -/
def cloudCall (interpolate : List (Pt ℚ) → List ℚ → ℚ × ℚ → Except PyErr ℚ)
    (nbh : List (ℚ × ℚ) → Except PyErr (List Bool)) (cloud : List (Pt ℚ)) (ws wa : ℚ) : Except PyErr ℚ :=
  if ws ≤ 0 then .error .valueError
  else
    let wa := mod wa 360
    match cloud.filter fun p => decide (p.1.1 = ws) && decide (p.1.2 = wa) with
    | p :: _ => .ok p.2
    | [] =>
      let weights := List.replicate cloud.length (1 : ℚ)
      match nbh (cloud.map fun p => (fl (p.1.1 - ws), fl (p.1.2 - wa))) with
      | .error e => .error e
      | .ok mask => interpolate (Cloud.select mask cloud) (Cloud.select mask weights) (ws, wa)

end Verif.F64
