import Verif.Model.Plot
import Verif.Model.PlotHull

/-!
# What the projections draw

Model of `_plot` and of the methods `plot` and `scatter` of the projections
(`/repo/hrosailing/plotting/projections.py`): the sequence of calls of the methods of matplotlib and their points. The
colours of the slices are modelled in `Verif.Model.PlotColors`.
-/

namespace Verif.Plot

open Verif.Curve (deg2rad)

/-- A call of `ax.plot` or `ax.scatter` with arrays of angles and boat speeds; `none` is `nan`
(`/repo/hrosailing/plotting/projections.py:468-471`). -/
structure Call where
  scatter : Bool
  points : List (Option ℝ × Option ℝ)

/-- The projections for slices: `HROPolar` (`/repo/hrosailing/plotting/projections.py:50-171`) and `HROFlat`
(`/repo/hrosailing/plotting/projections.py:174-236`). -/
inductive Projection
  | polar
  | flat
  deriving DecidableEq

/-- The unit of the angles: `use_radians` is `True` for `HROPolar`, `False` for `HROFlat`
(`/repo/hrosailing/plotting/projections.py:134`, `:162`, `:207`, `:236`, `:464-465`). -/
noncomputable def Projection.angle : Projection → ℝ → ℝ
  | .polar, a => deg2rad a
  | .flat, a => a

variable {L : Type} [DecidableEq L]

/-- The body of the loop of `_plot` (`/repo/hrosailing/plotting/projections.py:458-471`) for a slice given by its columns.
`np.argsort` is modelled by a stable sort. With `use_convex_hull` the information is not used for drawing. The angles and
boat speeds are merged together instead of separately. -/
noncomputable def sliceCall (hull : List (ℝ × ℝ) → Option (List Nat)) (proj : Projection) (useHull scatter : Bool)
    (slice : List Col) (info : Option (List L)) : Except PyErr Call :=
  let slice := slice.insertionSort fun c d => c.wa ≤ d.wa
  if useHull then
    match convexSlice hull (slice.map fun c => (c, ())) with
    | .error e => .error e
    | .ok r => .ok ⟨scatter, r.map fun d => (some (proj.angle d.1), d.2.1.map Prod.snd)⟩
  else
    match info with
    | none => .ok ⟨scatter, slice.map fun c => (some (proj.angle c.wa), some c.bsp)⟩
    | some l =>
      match merge (slice.map fun c => (proj.angle c.wa, c.bsp)) (infoIntervals l) with
      | .error e => .error e
      | .ok pts => .ok ⟨scatter, pts.map fun p => (p.map Prod.fst, p.map Prod.snd)⟩

/-- `safe_zip` (`/repo/hrosailing/plotting/projections.py:447-452`). -/
def safeZip (slices : List (List Col)) : Option (List (List L)) → List (List Col × Option (List L))
  | none => slices.map fun s => (s, none)
  | some info => slices.zip (info.map some)

/-- The loop of `_plot` (`/repo/hrosailing/plotting/projections.py:458-471`): what was drawn before an exception stays. -/
noncomputable def plotLoop (hull : List (ℝ × ℝ) → Option (List Nat)) (proj : Projection) (useHull scatter : Bool) :
    List (List Col × Option (List L)) → Res (List Call)
  | [] => ([], none)
  | (s, i) :: rest =>
    match sliceCall hull proj useHull scatter s i with
    | .error e => ([], some e)
    | .ok c => (c :: (plotLoop hull proj useHull scatter rest).1, (plotLoop hull proj useHull scatter rest).2)

/-- `plot` (`scatter = False`) and `scatter` of `HROPolar` and `HROFlat` for the slices and the information returned by
`get_slices` (`/repo/hrosailing/plotting/projections.py:127-134`, `:155-162`, `:200-207`, `:229-236`, `:454-471`). -/
noncomputable def plotCalls (hull : List (ℝ × ℝ) → Option (List Nat)) (proj : Projection) (useHull scatter : Bool)
    (slices : List (List Col)) (info : Option (List (List L))) : Res (List Call) :=
  if slices.length = 0 then ([⟨false, []⟩], none)
  else plotLoop hull proj useHull scatter (safeZip slices info)

/-- `HROColorGradient.scatter` (`/repo/hrosailing/plotting/projections.py:299-311`) for the points returned by `get_points`
and the red, green and blue parts of two colours: positions (wind speed, wind angle) with their colours; `none` is a colour
of `nan`. No points raise `ValueError` (`min` of an empty array, line 738). -/
noncomputable def gradientScatter (minColor maxColor : List ℝ) (points : List Col) :
    Except PyErr (List ((ℝ × ℝ) × Option (List ℝ))) :=
  if points.length = 0 then .error .valueError
  else .ok (List.zipWith (fun c k => ((c.ws, c.wa), k.map (mixColor minColor maxColor))) points
    (coefficients (points.map fun c => c.bsp)))

/-- `Axes3D.scatter` (`/repo/hrosailing/plotting/projections.py:336-343`, `:413-429`): positions and the values given to the
colour map. -/
noncomputable def scatter3d (points : List Col) : List ((ℝ × ℝ × ℝ) × ℝ) :=
  points.map fun c => (surfacePoint c, (surfacePoint c).2.2)

end Verif.Plot
