import Verif.Model.Float64
import Verif.Model.Diagram

/-!
# Equally spaced numbers and wind speeds of slices in double precision

Model of `np.linspace` as used in `/repo/hrosailing` for doubles, and of `_get_windspeeds`
(`/repo/hrosailing/polardiagram/_basepolardiagram.py:100-128`) with it.
-/

namespace Verif.F64

variable {K : Type} [Field K] [LinearOrder K] [FloorRing K]

/-- `np.linspace(a, b, n)` (`/repo/hrosailing/polardiagram/_basepolardiagram.py:124`,
`/repo/hrosailing/polardiagram/_polardiagrampointcloud.py:119`, `:220`, `/repo/hrosailing/processing/injector.py:99`,
`/repo/hrosailing/models/globe_model.py:284`) for doubles: numpy divides the difference by `n - 1`, multiplies the step by
`0, 1, …`, adds the start and replaces the last number by `b` if `n > 1`. -/
def linspace (a b : K) (n : Nat) : List K :=
  let delta := fl (b - a)
  let step := if n = 1 then delta else fl (delta / ((n : K) - 1))
  (List.range n).map fun (i : Nat) => if 1 < n ∧ i + 1 = n then b else fl (fl ((i : K) * step) + a)

/-- `_get_windspeeds` for an iterable of numbers (`/repo/hrosailing/polardiagram/_basepolardiagram.py:118-128`) for
doubles. -/
def spread (l : List K) : Option Int → Except PyErr (List K)
  | none => .ok l
  | some n =>
    if n ≤ 0 then .error .valueError
    else
      match l.getLast? with
      | none => .error .indexError
      | some last =>
        .ok ((l.zip l.tail).flatMap (fun p => (linspace p.1 p.2 (n + 2).toNat).dropLast) ++ [last])

/-- `_get_windspeeds` (`/repo/hrosailing/polardiagram/_basepolardiagram.py:100-128`) for doubles. -/
def windSpeeds (defaults : List K) (ws : Diagram.WsArg K) (nSteps : Option Int) : Except PyErr (List K) :=
  match ws with
  | .default => spread defaults nSteps
  | .number w => .ok [w]
  | .list l => spread l nSteps
  | .other => .error .typeError

/-- `default_slices` of point clouds and of diagrams of several sails
(`/repo/hrosailing/polardiagram/_polardiagrampointcloud.py:218-220`,
`/repo/hrosailing/polardiagram/_polardiagrammultisails.py:221-226`) for the least and the largest wind speed. -/
def defaultSlices (lo hi : K) : List K := linspace lo hi 20

/-- `default_slices` of curves (`/repo/hrosailing/polardiagram/_polardiagramcurve.py:153`). -/
def curveSlices : List K := linspace 5 20 16

/-- The wind angles of slices of curves (`/repo/hrosailing/polardiagram/_polardiagramcurve.py:110`) and of point clouds
(`/repo/hrosailing/polardiagram/_polardiagrampointcloud.py:119`). -/
def sliceAngles (resolution : Nat) : List K := linspace 0 360 resolution

end Verif.F64
