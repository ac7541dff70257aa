import Verif.Model.Extension
import Verif.Model.Neighbourhood

/-!
# Interpolating with neighbourhoods that look at all points

`Verif.Model.Extension` models neighbourhoods by their decision for a single point. A `ScalingBall` decides for all points
together, so here the neighbourhood is its method `is_contained_in`.
-/

namespace Verif.Ext

open Verif.Interp

variable {K : Type} [Field K] [LinearOrder K]

/-- `weighted_points[considered]` for an array of truth values
(`/repo/hrosailing/pipeline/extensions.py:356`, `/repo/hrosailing/core/data.py:629-638`). -/
def selectMask (points : List (Pt K × K)) (m : List Bool) : List (Pt K × K) :=
  ((points.zip m).filter Prod.snd).map Prod.fst

/-- `_interpolate_point` (`/repo/hrosailing/pipeline/extensions.py:341-359`), without the warning. The constant `True`
is returned by neighbourhoods only if there are no points; this case is not modelled any further (`otherError`). -/
def interpolatePointMask (nbh : List (K × K) → Except PyErr Nbh.Mask)
    (interpolate : List (Pt K × K) → K × K → Except PyErr K) (points : List (Pt K × K)) (g : K × K) : Except PyErr (Pt K) :=
  match nbh (points.map fun p => p.1.1 - g) with
  | .error e => .error e
  | .ok .all => .error .otherError
  | .ok (.arr m) =>
    if m.any id then do
      let v ← interpolate (selectMask points m) g
      .ok (g, v)
    else .ok (g, 0)

end Verif.Ext
