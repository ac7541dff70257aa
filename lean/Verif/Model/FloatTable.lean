import Verif.Model.FloatIdw
import Verif.Model.Extension

/-!
# Tables from data in double precision

Model of `ArithmeticMeanInterpolator.interpolate` (`/repo/hrosailing/processing/interpolator.py:223-252`) with all operations
rounded, and of the tables that `TableExtension` (`/repo/hrosailing/pipeline/extensions.py:90-120`) makes with it. The weights
are calculated by any function `distr`; for `_gauss_potential` this is the function that numpy calculates for
`np.exp(-alpha * weights * distances)`.
-/

namespace Verif.F64

open Verif.Interp

variable {K : Type} [Field K] [LinearOrder K] [IsStrictOrderedRing K] [FloorRing K]

/-- `ArithmeticMeanInterpolator(s, norm, distr).interpolate` (`/repo/hrosailing/processing/interpolator.py:223-252`) for doubles.
`np.average` adds in any order and raises `ZeroDivisionError` if the sum of the weights is zero, also without points. -/
def Arith (norm : K × K → K) (s : K) (distr : K → K → K) (pts : List (Pt K)) (weights : List K) (g : K × K)
    (r : Except PyErr K) : Prop :=
  if pts.length = 0 then r = .error .zeroDivisionError
  else
    match firstAtZero (rdist norm) g pts with
    | some z => r = .ok z
    | none =>
      ∃ d, Summed (List.zipWith distr (dists (rdist norm) pts g) weights) d ∧
        if d = 0 then r = .error .zeroDivisionError
        else ∃ n, Summed (List.zipWith (fun a b => fl (a * b)) (pts.map Prod.snd)
            (List.zipWith distr (dists (rdist norm) pts g) weights)) n ∧ r = .ok (fl (s * fl (n / d)))

/-- `interpolate` is `ArithmeticMeanInterpolator(s, norm, distr).interpolate`
(`/repo/hrosailing/processing/interpolator.py:223-252`) with the sums in some order. -/
def Performs (norm : K × K → K) (s : K) (distr : K → K → K) (interpolate : List (Pt K × K) → K × K → Except PyErr K) : Prop :=
  ∀ pts g, Arith norm s distr (pts.map Prod.fst) (pts.map Prod.snd) g (interpolate pts g)

/-- `Ball(norm, radius).is_contained_in` (`/repo/hrosailing/processing/neighbourhood.py:98-102`) for one row of the rounded
differences `weighted_points.data[:, :2] - point` (`/repo/hrosailing/pipeline/extensions.py:342-344`). -/
def inBall (norm : K × K → K) (radius : K) (x : K × K) : Bool := decide (rdist norm x ≤ radius)

/-- `TableExtension(neighbourhood=Ball(ballNorm, radius), interpolator=...).process`
(`/repo/hrosailing/pipeline/extensions.py:90-120`) for doubles; the winds of the resolution `"min_max"` are integers. -/
def tableProcess (ballNorm : K × K → K) (radius : K) (interpolate : List (Pt K × K) → K × K → Except PyErr K)
    (points : List (Pt K × K)) : Except PyErr (Table K) :=
  Ext.tableProcess .minMax (inBall ballNorm radius) interpolate points

end Verif.F64
