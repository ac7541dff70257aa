import Verif.Model.FloatTable
import Verif.Model.Pointcloud

/-!
# Point clouds in double precision

Model of the constructor and the reader of point clouds (`/repo/hrosailing/polardiagram/_polardiagrampointcloud.py`) and of
`PointcloudExtension.process` (`/repo/hrosailing/pipeline/extensions.py:295-321`) where the remainder modulo 360 of a negative wind
angle is rounded to the nearest double. The exact versions are `Verif.Cloud` and `Verif.Ext.cloudProcess`.
-/

namespace Verif.F64

open Verif.Interp
open Verif.Table (Text lines readRows parseRows)

/-- `PolarDiagramPointcloud(points)` for true wind (`/repo/hrosailing/polardiagram/_polardiagrampointcloud.py:133-141`) for
doubles. -/
def cloudInit (points : List (Pt ℚ)) : List (Pt ℚ) :=
  (points.filter fun p => decide (p.1.1 ≥ 0)).map fun p => ((p.1.1, mod p.1.2 360), p.2)

/-- `from_csv` for point clouds (`/repo/hrosailing/polardiagram/_reading.py:80-90`,
`/repo/hrosailing/polardiagram/_polardiagrampointcloud.py:263-270`) for doubles. -/
def cloudFromCsv (parse : Text → Except PyErr ℚ) (text : Text) : Except PyErr (List (Pt ℚ)) :=
  match lines text with
  | [] => .error .otherError
  | first :: ls =>
    if first ≠ "PolarDiagramPointcloud".toList then .error .otherError
    else
      match readRows ',' ls with
      | [] => .error .otherError
      | _ :: rows =>
        match parseRows parse rows with
        | .error e => .error e
        | .ok rows =>
          if rows.isEmpty then .error .indexError
          else
            match Cloud.toPoints rows with
            | .error e => .error e
            | .ok pts => .ok (cloudInit pts)

/-- `PointcloudExtension(sampler, neighbourhood=Ball(ballNorm, radius), interpolator).process`
(`/repo/hrosailing/pipeline/extensions.py:295-321`) for doubles; `sample` is the method of the sampler. An empty sample raises
`IndexError` at `points[:, 0]` (`/repo/hrosailing/polardiagram/_polardiagrampointcloud.py:138`). -/
def cloudProcess (sample : List (Pt ℚ) → Except PyErr (List (ℚ × ℚ))) (ballNorm : ℚ × ℚ → ℚ) (radius : ℚ)
    (interpolate : List (Pt ℚ × ℚ) → ℚ × ℚ → Except PyErr ℚ) (points : List (Pt ℚ × ℚ)) : Except PyErr (List (Pt ℚ)) := do
  let gs ← sample (points.map Prod.fst)
  let pts ← Ext.interpolatePoints (inBall ballNorm radius) interpolate points gs
  match pts with
  | [] => .error .indexError
  | _ :: _ => .ok (cloudInit pts)

end Verif.F64
