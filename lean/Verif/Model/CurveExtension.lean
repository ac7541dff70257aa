import Verif.Model.Curve
import Verif.Model.Quality

/-!
# `CurveExtension`

Model of `CurveExtension.process` (`/repo/hrosailing/pipeline/extensions.py:223-252`) over the real numbers. The regressor
is a parameter (see `Verif.Model.Regressor` for the regressors).
-/

namespace Verif.CurveExt

open Verif.Curve (deg2rad rad2deg)
open Verif.Interp (Pt)

/-- A `PolarDiagramCurve` (`/repo/hrosailing/polardiagram/_polardiagramcurve.py:57-68`). -/
structure Diagram where
  func : ℝ → ℝ → List ℝ → Except PyErr ℝ
  params : List ℝ
  radians : Bool

/-- `PolarDiagramCurve.__init__` (`/repo/hrosailing/polardiagram/_polardiagramcurve.py:57-68`, `:116-122`) for a function:
`ValueError` if a call with these parameters raises `IndexError` or `TypeError`; other exceptions are passed on. -/
noncomputable def Diagram.init (func : ℝ → ℝ → List ℝ → Except PyErr ℝ) (params : List ℝ) (radians : Bool) : Except PyErr Diagram :=
  match func 1 1 params with
  | .ok _ => .ok ⟨func, params, radians⟩
  | .error .indexError => .error .valueError
  | .error .typeError => .error .valueError
  | .error e => .error e

/-- `PolarDiagramCurve.__call__` (`/repo/hrosailing/polardiagram/_polardiagramcurve.py:130-145`). -/
noncomputable def Diagram.call (d : Diagram) (ws wa : ℝ) : Except PyErr ℝ :=
  if ws < 0 then .error .valueError
  else if d.radians then d.func ws (deg2rad (pmod (rad2deg wa) 360)) d.params
  else d.func ws (pmod wa 360) d.params

/-- `_convert_angles_to_radians` (`/repo/hrosailing/pipeline/extensions.py:251-252`). -/
noncomputable def toRadians (points : List (Pt ℝ)) : List (Pt ℝ) := points.map fun p => ((p.1.1, deg2rad p.1.2), p.2)

/-- `CurveExtension.process` (`/repo/hrosailing/pipeline/extensions.py:223-245`): the diagram, and the data of the
weighted points afterwards. `fit` is the regressor: the optimal parameters for given data. -/
noncomputable def process (fit : List (Pt ℝ) → Except PyErr (List ℝ)) (func : ℝ → ℝ → List ℝ → Except PyErr ℝ) (radians : Bool)
    (points : List (Pt ℝ)) : Except PyErr Diagram × List (Pt ℝ) :=
  let points := if radians then toRadians points else points
  match fit points with
  | .error e => (.error e, points)
  | .ok params => (Diagram.init func params radians, points)

end Verif.CurveExt
