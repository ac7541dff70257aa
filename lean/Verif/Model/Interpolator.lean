import Mathlib.Algebra.Order.Field.Basic
import Mathlib.Analysis.SpecialFunctions.Exp
import Mathlib.Analysis.Real.Sqrt
import Verif.Model.Py

/-!
# `hrosailing.processing.interpolator`

Model of `/repo/hrosailing/processing/interpolator.py`. Points are triples `((ws, wa), bsp)`; the data of the
weighted points is an array of shape `(n, 3)`. Numbers are the elements of an ordered field `K`, norms are arbitrary
functions `K × K → K` (applied to each row of an array). The results are `Option K`, where `none` is the `nan`
that numpy computes for `0 / 0`.
-/

namespace Verif.Interp

variable {K : Type} [Field K] [LinearOrder K]

/-- A data point: wind speed and wind angle, and boat speed (`/repo/hrosailing/processing/interpolator.py:121-134`). -/
abbrev Pt (K : Type) := (K × K) × K

/-- The distances `self._norm(pts[:, :2] - grid_pt)` (`/repo/hrosailing/processing/interpolator.py:126`, `:245`,
`:310`). -/
def dists (norm : K × K → K) (pts : List (Pt K)) (g : K × K) : List K := pts.map fun p => norm (p.1 - g)

/-- `if np.any(dist == 0): return pts[dist == 0][0, 2]` (`/repo/hrosailing/processing/interpolator.py:127-129`,
`:246-248`, `:311-313`): the value of the first point at distance zero, if there is one. -/
def firstAtZero (norm : K × K → K) (g : K × K) : List (Pt K) → Option K
  | [] => none
  | p :: ps => if norm (p.1 - g) = 0 then some p.2 else firstAtZero norm g ps

/-- The product `v @ w` of two vectors (`/repo/hrosailing/processing/interpolator.py:134`, `:319`). -/
def dot (v w : List K) : K := (List.zipWith (· * ·) v w).sum

/-- `wts /= np.sum(wts); return wts @ z` (`/repo/hrosailing/processing/interpolator.py:132-134`, `:317-319`); `none`
if numpy divides by zero. -/
def normalisedDot (wts z : List K) : Option K :=
  if wts.sum = 0 then none else some (dot (wts.map (· / wts.sum)) z)

/-- `IDWInterpolator(p)` for an integer `p` (`/repo/hrosailing/processing/interpolator.py:86-95`). -/
def idwInit (p : Int) : Except PyErr Nat := if p < 0 then .error .valueError else .ok p.toNat

/-- `IDWInterpolator.interpolate` (`/repo/hrosailing/processing/interpolator.py:100-134`). -/
def idw (norm : K × K → K) (p : Nat) (pts : List (Pt K)) (g : K × K) : Except PyErr (Option K) :=
  if pts.length = 0 then .error .valueError
  else
    match firstAtZero norm g pts with
    | some z => .ok (some z)
    | none => .ok (normalisedDot ((dists norm pts g).map fun d => 1 / d ^ p) (pts.map Prod.snd))

/-- `np.average(z, weights=wts)` (`/repo/hrosailing/processing/interpolator.py:252`), which raises
`ZeroDivisionError` if the weights sum up to zero. -/
def average (z wts : List K) : Except PyErr K :=
  if wts.sum = 0 then .error .zeroDivisionError else .ok (dot z wts / wts.sum)

/-- `ArithmeticMeanInterpolator(s, ...)` (`/repo/hrosailing/processing/interpolator.py:195-214`), the check of
`s`. -/
def arithInit (s : K) : Except PyErr K := if s ≤ 0 then .error .valueError else .ok s

/-- `ArithmeticMeanInterpolator.interpolate` (`/repo/hrosailing/processing/interpolator.py:223-252`). The distribution
with its parameters is the function `distr` of a distance and a weight. -/
def arith (norm : K × K → K) (s : K) (distr : K → K → K) (pts : List (Pt K)) (weights : List K) (g : K × K) :
    Except PyErr K :=
  match firstAtZero norm g pts with
  | some z => .ok z
  | none =>
    match average (pts.map Prod.snd) (List.zipWith distr (dists norm pts g) weights) with
    | .error e => .error e
    | .ok a => .ok (s * a)

/-- `_gauss_potential` (`/repo/hrosailing/processing/interpolator.py:137-139`). -/
noncomputable def gauss (alpha : ℝ) (d w : ℝ) : ℝ := Real.exp (-alpha * w * d)

/-- `np.max(dist)` (`/repo/hrosailing/processing/interpolator.py:434`). -/
def maxOf : K → List K → K
  | a, [] => a
  | a, b :: l => maxOf (max a b) l

/-- One weight of `_set_weights` (`/repo/hrosailing/processing/interpolator.py:436-440`). -/
def setWeight (r d : K) : K :=
  if 0 < d ∧ d ≤ r / 3 then 1 / d
  else if r / 3 < d ∧ d ≤ r then 27 / (4 * r) * (d / r - 1) ^ 2
  else 0

/-- `_set_weights` (`/repo/hrosailing/processing/interpolator.py:431-442`); `np.max` of an empty array raises
`ValueError`. -/
def setWeights : List K → Except PyErr (List K)
  | [] => .error .valueError
  | d :: ds => .ok ((d :: ds).map (setWeight (maxOf d ds)))

/-- `ImprovedIDWInterpolator.interpolate` (`/repo/hrosailing/processing/interpolator.py:288-319`). -/
def improved (norm : K × K → K) (pts : List (Pt K)) (g : K × K) : Except PyErr (Option K) :=
  match firstAtZero norm g pts with
  | some z => .ok (some z)
  | none =>
    match setWeights (dists norm pts g) with
    | .error e => .error e
    | .ok wts => .ok (normalisedDot (wts.map (· ^ 2)) (pts.map Prod.snd))

/-! ### Bilinear interpolation -/

/-- The exceptions raised by `BilinearGridInterpolator` (`/repo/hrosailing/core/exceptions.py`, used in
`/repo/hrosailing/processing/interpolator.py:539`, `:609`, `:616`, `:623`). -/
inductive BilErr
  | noGrid | outsideGrid
  deriving DecidableEq, Repr

/-- `_get_maximum_of_smaller_values` (`/repo/hrosailing/processing/interpolator.py:612-617`). -/
def maxSmaller (points : List K) (t : K) : Except BilErr K :=
  match points.filter fun x => decide (x ≤ t) with
  | [] => .error .outsideGrid
  | a :: l => .ok (maxOf a l)

/-- The minimum of a non-empty array (`/repo/hrosailing/processing/interpolator.py:624`). -/
def minOf : K → List K → K
  | a, [] => a
  | a, b :: l => minOf (min a b) l

/-- `_get_minimum_of_bigger_values` (`/repo/hrosailing/processing/interpolator.py:619-624`). -/
def minBigger (points : List K) (t : K) : Except BilErr K :=
  match points.filter fun x => decide (x ≥ t) with
  | [] => .error .outsideGrid
  | a :: l => .ok (minOf a l)

/-- `_bs_in_grid` (`/repo/hrosailing/processing/interpolator.py:602-610`). -/
def bsInGrid (pts : List (Pt K)) (ws wa : K) : Except BilErr K :=
  match pts.filter fun p => decide (p.1.1 = ws) && decide (p.1.2 = wa) with
  | [] => .error .noGrid
  | p :: _ => .ok p.2

/-- `_convex_interpolation_1d` (`/repo/hrosailing/processing/interpolator.py:581-600`). -/
def convex1d (pts : List (Pt K)) (ws wa lo up : K) : Except BilErr K := do
  let zl ← bsInGrid pts ws lo
  let zu ← bsInGrid pts ws up
  if lo = up then return zl
  let t := (wa - lo) / (up - lo)
  return (1 - t) * zl + t * zu

/-- `BilinearGridInterpolator.interpolate` (`/repo/hrosailing/processing/interpolator.py:505-579`). -/
def bilinear (pts : List (Pt K)) (g : K × K) : Except BilErr K := do
  let wsl ← maxSmaller (pts.map fun p => p.1.1) g.1
  let wsu ← minBigger (pts.map fun p => p.1.1) g.1
  let wal ← maxSmaller (pts.map fun p => p.1.2) g.2
  let wau ← minBigger (pts.map fun p => p.1.2) g.2
  let zl ← convex1d pts wsl g.2 wal wau
  let zu ← convex1d pts wsu g.2 wal wau
  if wsu = wsl then return zl
  let t := (g.1 - wsl) / (wsu - wsl)
  return (1 - t) * zl + t * zu

/-- `scaled_euclidean_norm` on rows of length two (`/repo/hrosailing/core/computing.py:143-159`). -/
noncomputable def scaledEuclidean (x : ℝ × ℝ) : ℝ := Real.sqrt ((1 / 40 * x.1) ^ 2 + (1 / 360 * x.2) ^ 2)

end Verif.Interp
