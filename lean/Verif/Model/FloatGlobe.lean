import Verif.Model.Float64
import Verif.Model.Globe

/-!
# Distances on the spherical globe in double precision

Model of `SphericalGlobe` (`/repo/hrosailing/models/globe_model.py:228-329`) as it is calculated: the result of each
arithmetic operation and of the square root is rounded to the nearest double. The functions `np.sin`, `np.cos` (of angles in
radians), `np.arccos`, `np.rad2deg(np.arcsin(x))` and `np.rad2deg(np.arctan2(y, x))` are parameters, because their accuracy
depends on the mathematical library. The sum in `np.dot` is calculated from left to right. `none` stands for `nan`.
-/

namespace Verif.F64

open Verif.Globe (Vec)

/-- `np.deg2rad` (`/repo/hrosailing/models/globe_model.py:310`) in double precision: the product with the double `π / 180`. -/
noncomputable def toRad (x : ℝ) : ℝ := fl (x * fl (fl Real.pi / 180))

/-- `_on_ball` (`/repo/hrosailing/models/globe_model.py:309-314`) in double precision. -/
noncomputable def ballPoint (sinD cosD : ℝ → ℝ) (p : ℝ × ℝ) : Vec :=
  let lat := toRad p.1
  let lon := toRad p.2
  ⟨fl (cosD lat * cosD lon), fl (cosD lat * sinD lon), sinD lat⟩

/-- `np.dot(u, v)` (`/repo/hrosailing/models/globe_model.py:328`) in double precision. -/
noncomputable def vecDot (v w : Vec) : ℝ := fl (fl (fl (v.x * w.x) + fl (v.y * w.y)) + fl (v.z * w.z))

/-- `np.linalg.norm(v)` (`/repo/hrosailing/models/globe_model.py:328`) in double precision. -/
noncomputable def vecNorm (v : Vec) : ℝ := fl (Real.sqrt (vecDot v v))

/-- The argument of `np.arccos` in `_angle` (`/repo/hrosailing/models/globe_model.py:327-329`) in double precision for vectors
different from 0. -/
noncomputable def angleCosine (v w : Vec) : ℝ := fl (fl (vecDot v w / vecNorm v) / vecNorm w)

open Classical in
/-- `_angle` (`/repo/hrosailing/models/globe_model.py:323-329`) in double precision. The arc cosine of a number outside of the
interval from -1 to 1 is `nan`, and so is the result if one of the vectors is 0. -/
noncomputable def angle (acosD : ℝ → ℝ) (v w : Vec) : Option ℝ :=
  if vecNorm v = 0 ∨ vecNorm w = 0 then none
  else if angleCosine v w < -1 ∨ 1 < angleCosine v w then none
  else some (acosD (angleCosine v w))

/-- `SphericalGlobe.distance` (`/repo/hrosailing/models/globe_model.py:264-273`) in double precision. -/
noncomputable def distance (sinD cosD acosD : ℝ → ℝ) (R : ℝ) (p q : ℝ × ℝ) : Option ℝ :=
  (angle acosD (ballPoint sinD cosD p) (ballPoint sinD cosD q)).map fun a => fl (R * a)

/-- `SphericalGlobe.project` (`/repo/hrosailing/models/globe_model.py:246-252`) in double precision. -/
noncomputable def project (sinD cosD : ℝ → ℝ) (R : ℝ) (p : ℝ × ℝ) : Vec :=
  let v := ballPoint sinD cosD p
  ⟨fl (R * v.x), fl (R * v.y), fl (R * v.z)⟩

open Classical in
/-- `SphericalGlobe.lat_lon` (`/repo/hrosailing/models/globe_model.py:254-262,317-320`) in double precision. The arc sine of a
number outside of the interval from -1 to 1 is `nan`. -/
noncomputable def latLon (asinD : ℝ → ℝ) (atanD : ℝ → ℝ → ℝ) (R : ℝ) (v : Vec) : Option ℝ × ℝ :=
  let z := fl (v.z / R)
  (if z < -1 ∨ 1 < z then none else some (asinD z), atanD (fl (v.y / R)) (fl (v.x / R)))

end Verif.F64
