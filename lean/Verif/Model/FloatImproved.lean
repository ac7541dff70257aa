import Verif.Model.FloatIdw

/-!
# Improved inverse distance weighting in double precision

Model of `ImprovedIDWInterpolator.interpolate` (`/repo/hrosailing/processing/interpolator.py:288-319`) where the result of each
operation is rounded to the nearest double. As in `Verif.F64.Idw` sums are calculated in any order. A sum of weights that is
zero gives `nan`, which is modelled as `none`: `wts /= np.sum(wts)` divides zeros by zero.
-/

namespace Verif.F64

open Verif.Interp

variable {K : Type} [Field K] [LinearOrder K] [IsStrictOrderedRing K] [FloorRing K]

/-- One weight of `_set_weights` (`/repo/hrosailing/processing/interpolator.py:436-440`) for doubles. -/
def setWeight (r d : K) : K :=
  if 0 < d ∧ d ≤ fl (r / 3) then fl (1 / d)
  else if fl (r / 3) < d ∧ d ≤ r then fl (fl (27 / fl (4 * r)) * square (fl (fl (d / r) - 1)))
  else 0

/-- `_set_weights` (`/repo/hrosailing/processing/interpolator.py:431-442`) for doubles; `np.max` of an empty array raises
`ValueError`. -/
def setWeights : List K → Except PyErr (List K)
  | [] => .error .valueError
  | d :: ds => .ok ((d :: ds).map (setWeight (maxOf d ds)))

/-- `ImprovedIDWInterpolator.interpolate` (`/repo/hrosailing/processing/interpolator.py:288-319`) for doubles. -/
def Improved (norm : K × K → K) (pts : List (Pt K)) (g : K × K) (r : Except PyErr (Option K)) : Prop :=
  match firstAtZero (rdist norm) g pts with
  | some z => r = .ok (some z)
  | none =>
    match setWeights (dists (rdist norm) pts g) with
    | .error e => r = .error e
    | .ok wts =>
      ∃ s, Summed (wts.map square) s ∧
        if s = 0 then r = .ok none
        else ∃ y, Dotted ((wts.map fun w => fl (square w / s)).zip (pts.map Prod.snd)) y ∧ r = .ok (some y)

end Verif.F64
