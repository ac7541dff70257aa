import Mathlib.Analysis.SpecialFunctions.Arsinh
import Mathlib.Analysis.SpecialFunctions.Complex.Arg
import Mathlib.Analysis.SpecialFunctions.Trigonometric.Inverse
import Verif.Model.Curve
import Verif.Model.Injector

/-!
# `hrosailing.models.globe_model`

Model of the globe models (`/repo/hrosailing/models/globe_model.py`) for single points instead of arrays of points. Real
arithmetic; `np.arctan2` is the argument of a complex number, signed zeros are not modelled.
-/

namespace Verif.Globe

open Verif.Curve (rad2deg deg2rad)

/-- A row of length 3 of an array of points of space (`/repo/hrosailing/models/globe_model.py:309-314`). -/
@[ext]
structure Vec where
  x : ℝ
  y : ℝ
  z : ℝ

/-- `np.dot(u, v)` (`/repo/hrosailing/models/globe_model.py:328`). -/
def Vec.dot (u v : Vec) : ℝ := u.x * v.x + u.y * v.y + u.z * v.z

/-- `np.linalg.norm(u)` (`/repo/hrosailing/models/globe_model.py:328`). -/
noncomputable def Vec.norm (u : Vec) : ℝ := Real.sqrt (u.dot u)

/-- `c * u` (`/repo/hrosailing/models/globe_model.py:252`). -/
def Vec.smul (c : ℝ) (u : Vec) : Vec := ⟨c * u.x, c * u.y, c * u.z⟩

/-- `u + v`, used in matrix products (`/repo/hrosailing/models/globe_model.py:300`). -/
def Vec.add (u v : Vec) : Vec := ⟨u.x + v.x, u.y + v.y, u.z + v.z⟩

/-- `np.cross(u, v)` (`/repo/hrosailing/models/globe_model.py:163`). -/
def Vec.cross (u v : Vec) : Vec := ⟨u.y * v.z - u.z * v.y, u.z * v.x - u.x * v.z, u.x * v.y - u.y * v.x⟩

/-- `_on_ball` (`/repo/hrosailing/models/globe_model.py:309-314`). -/
noncomputable def onBall (p : ℝ × ℝ) : Vec :=
  ⟨Real.cos (deg2rad p.1) * Real.cos (deg2rad p.2), Real.cos (deg2rad p.1) * Real.sin (deg2rad p.2),
    Real.sin (deg2rad p.1)⟩

/-- `_on_lat_lon` (`/repo/hrosailing/models/globe_model.py:317-320`). -/
noncomputable def onLatLon (v : Vec) : ℝ × ℝ := (rad2deg (Real.arcsin v.z), rad2deg (Complex.arg ⟨v.x, v.y⟩))

/-- `_angle` (`/repo/hrosailing/models/globe_model.py:323-329`) for points different from the origin. -/
noncomputable def angle (u v : Vec) : ℝ := Real.arccos (u.dot v / u.norm / v.norm)

/-- `SphericalGlobe.project` (`/repo/hrosailing/models/globe_model.py:246-252`). -/
noncomputable def project (R : ℝ) (p : ℝ × ℝ) : Vec := (onBall p).smul R

/-- `SphericalGlobe.lat_lon` (`/repo/hrosailing/models/globe_model.py:254-262`). -/
noncomputable def latLon (R : ℝ) (v : Vec) : ℝ × ℝ := onLatLon ⟨v.x / R, v.y / R, v.z / R⟩

/-- `SphericalGlobe.distance` (`/repo/hrosailing/models/globe_model.py:264-273`). -/
noncomputable def distance (R : ℝ) (p q : ℝ × ℝ) : ℝ := R * angle (onBall p) (onBall q)

open Classical in
/-- `SphericalGlobe.shortest_projected_path` (`/repo/hrosailing/models/globe_model.py:275-300`): the matrix of line 288 is
singular if the sine of the angle is 0 (`LinAlgError`), its inverse is `[[1, -cos/sin], [0, 1/sin]]`; the product of
`proj3`, `proj2` and this inverse maps `(c, s)` to `(c - s cos/sin) start + (s/sin) end`. -/
noncomputable def projectedPath (start stop : Vec) (res : Nat) : Except PyErr (List Vec) :=
  if Real.sin (angle start stop) = 0 then .error .otherError
  else
    .ok ((Injector.linspace 0 (angle start stop) res).map fun ang =>
      (start.smul (Real.cos ang - Real.cos (angle start stop) / Real.sin (angle start stop) * Real.sin ang)).add
        (stop.smul (1 / Real.sin (angle start stop) * Real.sin ang)))

/-- `GlobeModel.shortest_path` of a `SphericalGlobe` (`/repo/hrosailing/models/globe_model.py:107-138`). -/
noncomputable def shortestPath (R : ℝ) (start stop : ℝ × ℝ) (res : Nat) : Except PyErr (List (ℝ × ℝ)) :=
  (projectedPath (project R start) (project R stop) res).map (List.map (latLon R))

/-- The attributes of a `FlatMercatorProjection` (`/repo/hrosailing/models/globe_model.py:158-167`): the columns of
`_transform_mat` and the radius. -/
structure Flat where
  zero : Vec
  east : Vec
  pole : Vec
  radius : ℝ

open Classical in
/-- `FlatMercatorProjection.__init__` (`/repo/hrosailing/models/globe_model.py:158-167`); `np.linalg.inv` raises if the
matrix is singular. -/
noncomputable def mkFlat (northpole zero : ℝ × ℝ) (radius : ℝ) : Except PyErr Flat :=
  let f : Flat := ⟨onBall zero, (onBall northpole).cross (onBall zero), onBall northpole, radius⟩
  if f.zero.dot (f.east.cross f.pole) = 0 then .error .otherError else .ok f

/-- The product of `_transform_mat` with a vector (`/repo/hrosailing/models/globe_model.py:172`). -/
def Flat.apply (f : Flat) (v : Vec) : Vec := ((f.zero.smul v.x).add (f.east.smul v.y)).add (f.pole.smul v.z)

/-- The product of `_inverse_transform_mat` with a vector (`/repo/hrosailing/models/globe_model.py:165,172`), by Cramer's
rule. -/
noncomputable def Flat.applyInv (f : Flat) (v : Vec) : Vec :=
  let det := f.zero.dot (f.east.cross f.pole)
  ⟨v.dot (f.east.cross f.pole) / det, v.dot (f.pole.cross f.zero) / det, v.dot (f.zero.cross f.east) / det⟩

/-- `FlatMercatorProjection.project` (`/repo/hrosailing/models/globe_model.py:176-195`). -/
noncomputable def Flat.project (f : Flat) (p : ℝ × ℝ) : ℝ × ℝ :=
  let q := onLatLon (f.apply (onBall p))
  (f.radius * deg2rad q.2, f.radius * Real.arsinh (Real.tan (deg2rad q.1)))

/-- `FlatMercatorProjection.lat_lon` (`/repo/hrosailing/models/globe_model.py:197-208`). -/
noncomputable def Flat.latLon (f : Flat) (q : ℝ × ℝ) : ℝ × ℝ :=
  onLatLon (f.applyInv (onBall (rad2deg (Real.arcsin (Real.tanh (q.2 / f.radius))), rad2deg (q.1 / f.radius))))

/-- `FlatMercatorProjection.distance` (`/repo/hrosailing/models/globe_model.py:210-217`). -/
noncomputable def Flat.distance (f : Flat) (p q : ℝ × ℝ) : ℝ :=
  Real.sqrt (((f.project p).1 - (f.project q).1) ^ 2 + ((f.project p).2 - (f.project q).2) ^ 2)

open Classical in
/-- `FlatMercatorProjection.project` (`/repo/hrosailing/models/globe_model.py:176-195`) with `none` for what is not a place of the
map: `np.arcsin(z)` is `nan` if `|z| > 1`, and the poles of the projection (`|z| = 1`) are mapped to infinity. -/
noncomputable def Flat.projectNan (f : Flat) (p : ℝ × ℝ) : Option (ℝ × ℝ) :=
  if |(f.apply (onBall p)).z| < 1 then some (f.project p) else none

/-- `FlatMercatorProjection.distance` (`/repo/hrosailing/models/globe_model.py:210-217`) with `none` for `nan` and infinite
values. -/
noncomputable def Flat.distanceNan (f : Flat) (p q : ℝ × ℝ) : Option ℝ :=
  match f.projectNan p, f.projectNan q with
  | some a, some b => some (Real.sqrt ((a.1 - b.1) ^ 2 + (a.2 - b.2) ^ 2))
  | _, _ => none

/-- `FlatMercatorProjection.shortest_projected_path` (`/repo/hrosailing/models/globe_model.py:219-225`): `np.linspace` of both
coordinates. -/
noncomputable def Flat.projectedPath (start stop : ℝ × ℝ) (res : Nat) : List (ℝ × ℝ) :=
  (Injector.linspace start.1 stop.1 res).zip (Injector.linspace start.2 stop.2 res)

/-- `GlobeModel.shortest_path` of a `FlatMercatorProjection` (`/repo/hrosailing/models/globe_model.py:107-138`). -/
noncomputable def Flat.shortestPath (f : Flat) (start stop : ℝ × ℝ) (res : Nat) : List (ℝ × ℝ) :=
  (Flat.projectedPath (f.project start) (f.project stop) res).map f.latLon

end Verif.Globe
