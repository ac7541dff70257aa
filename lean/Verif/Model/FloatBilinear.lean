import Verif.Model.Float64
import Verif.Model.Interpolator

/-!
# `BilinearGridInterpolator` in double precision

Model of `/repo/hrosailing/processing/interpolator.py:505-624` as it is calculated: the result of each arithmetic operation is
rounded to the nearest double. The search for the neighbouring wind speeds and wind angles and for the stored speeds only
compares numbers and is the same as in `Verif.Model.Interpolator`. A rounded difference is zero only if the numbers are equal
(`Verif.F64.fl_eq_zero`), so that there is no division by zero.
-/

namespace Verif.F64

variable {K : Type} [Field K] [LinearOrder K] [FloorRing K]

/-- `ws_factor` and `wa_factor` (`/repo/hrosailing/processing/interpolator.py:574-576`, `:597-599`) in double precision. -/
def gridFactor (x lo up : K) : K := fl (fl (x - lo) / fl (up - lo))

/-- `(1.0 - factor) * lower + factor * upper` (`/repo/hrosailing/processing/interpolator.py:577-579`, `:600`) in double
precision. -/
def gridMix (t zl zu : K) : K := fl (fl (fl (1 - t) * zl) + fl (t * zu))

/-- `_convex_interpolation_1d` (`/repo/hrosailing/processing/interpolator.py:581-600`) in double precision. -/
def convex1d (pts : List (Interp.Pt K)) (ws wa lo up : K) : Except Interp.BilErr K := do
  let zl ← Interp.bsInGrid pts ws lo
  let zu ← Interp.bsInGrid pts ws up
  if lo = up then return zl
  return gridMix (gridFactor wa lo up) zl zu

/-- `BilinearGridInterpolator.interpolate` (`/repo/hrosailing/processing/interpolator.py:505-579`) in double precision. -/
def bilinear (pts : List (Interp.Pt K)) (g : K × K) : Except Interp.BilErr K := do
  let wsl ← Interp.maxSmaller (pts.map fun p => p.1.1) g.1
  let wsu ← Interp.minBigger (pts.map fun p => p.1.1) g.1
  let wal ← Interp.maxSmaller (pts.map fun p => p.1.2) g.2
  let wau ← Interp.minBigger (pts.map fun p => p.1.2) g.2
  let zl ← convex1d pts wsl g.2 wal wau
  let zu ← convex1d pts wsu g.2 wal wau
  if wsu = wsl then return zl
  return gridMix (gridFactor g.1 wsl wsu) zl zu

end Verif.F64
