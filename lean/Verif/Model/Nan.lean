import Verif.Model.DefaultTable
import Verif.Model.WeigherData

/-!
# Measurements which are not numbers

Missing values in numpy arrays are usually written as `nan` ("not a number"). Here a number is `some x` or `nan`, which is `none`.
Arithmetic operations with `nan` yield `nan`, comparisons with `nan` are false. A point consists of its first components, which are
`none` if one of them is `nan` (a norm of such a vector is `nan`), and its last component, the boat speed.
-/

namespace Verif.Nan

section general

variable {K : Type} [Field K] [LinearOrder K]

/-- `x <= y` (used in `/repo/hrosailing/processing/filter.py:103`, `:154-155`, `/repo/hrosailing/processing/weigher.py:321`,
`:446-447` and `/repo/hrosailing/processing/neighbourhood.py:100`, `:175`). -/
def le : Option K → Option K → Bool
  | some x, some y => decide (x ≤ y)
  | _, _ => false

/-- The numbers of an array, if none of them is `nan`: sums, means, standard deviations, maxima and percentiles of arrays with
`nan` are `nan` (numpy; used in `/repo/hrosailing/processing/weigher.py:325-339` and
`/repo/hrosailing/processing/filter.py:103`). -/
def numbers {α : Type} (l : List (Option α)) : Option (List α) := l.mapM id

/-- `BoundFilter.filter` (`/repo/hrosailing/processing/filter.py:139-157`). -/
def boundFilter (lower upper : K) (wts : List (Option K)) : List Bool × Filter.Stats :=
  let mask := List.zipWith (· && ·) (wts.map fun w => le (some lower) w) (wts.map fun w => le w (some upper))
  (mask, Filter.statistics mask)

/-- `QuantileFilter.filter` (`/repo/hrosailing/processing/filter.py:86-103`). -/
def quantileFilter [FloorRing K] (percent : K) (wts : List (Option K)) : List Bool × Option Filter.Stats :=
  if wts.length = 0 then ([], none)
  else
    let q := (numbers wts).map fun w => Filter.percentile w percent
    let mask := wts.map fun w => le q w
    (mask, some (Filter.statistics mask))

variable {P : Type} [Sub P]

/-- `norm(q - p)` for the first components of two points (`/repo/hrosailing/processing/weigher.py:321`, `:447`). -/
def dist {R : Type} (norm : P → R) : Option P → Option P → Option R
  | some q, some p => some (norm (q - p))
  | _, _ => none

/-- `np.abs(x - y)` (`/repo/hrosailing/processing/weigher.py:316`, `:446`). -/
def absDiff : Option K → Option K → Option K
  | some x, some y => some |x - y|
  | _, _ => none

/-- `_count_points_in_cylinder` (`/repo/hrosailing/processing/weigher.py:445-451`). -/
def countInCylinder (norm : P → K) (radius length : K) (points : List (Option P × Option K)) (point : Option P × Option K) : Nat :=
  (points.filter fun q => le (absDiff q.2 point.2) (some length) && le (dist norm q.1 point.1) (some radius)).length

/-- `CylindricMemberWeigher.weigh` for an array (`/repo/hrosailing/processing/weigher.py:425-443`); the weights are numbers. -/
def memberWeigh (norm : P → K) (radius length : K) (points : List (Option P × Option K)) : List K :=
  Weigher.normalize (points.map fun p => (countInCylinder norm radius length points p : K) - 1)

/-- `Ball.is_contained_in` (`/repo/hrosailing/processing/neighbourhood.py:98-102`) for the differences to a grid point. -/
def inBall (norm : P → K) (radius : K) (pts : List (Option P)) : List Bool :=
  pts.map fun x => le (x.map norm) (some radius)

/-- `ScalingBall.is_contained_in` (`/repo/hrosailing/processing/neighbourhood.py:167-175`) for the distances of at least one
point; `sorted` is the function of python. `sorted(dist)[min_pts - 1]` raises `IndexError` if there are less points. -/
def scalingBall (sorted : List (Option K) → List (Option K)) (minPts : Nat) (dists : List (Option K)) : Except PyErr (List Bool) :=
  match (sorted dists)[minPts - 1]? with
  | none => .error .indexError
  | some radius => .ok (dists.map fun d => le d radius)

/-- `1 / np.power(wts, self._p)` (`/repo/hrosailing/processing/interpolator.py:131`); `nan ** 0` is 1. -/
def idwWeight (p : Nat) (d : Option K) : Option K := if p = 0 then some 1 else d.map fun d => 1 / d ^ p

/-- `IDWInterpolator.interpolate` (`/repo/hrosailing/processing/interpolator.py:100-134`): if one of the weights is `nan`, so is their
sum, and with it all weights; if one of the speeds is `nan`, so is the sum of the products. -/
def idw (norm : K × K → K) (p : Nat) (pts : List (Option (K × K) × Option K)) (g : K × K) : Except PyErr (Option K) :=
  if pts.length = 0 then .error .valueError
  else
    match pts.find? fun q => decide (dist norm q.1 (some g) = some 0) with
    | some q => .ok q.2
    | none =>
      match numbers (pts.map fun q => idwWeight p (dist norm q.1 (some g))), numbers (pts.map Prod.snd) with
      | some wts, some zs => .ok (Interp.normalisedDot wts zs)
      | _, _ => .ok none

end general

section real

variable {P : Type} [Sub P]

/-- The boat speeds in the cylinder around a point (`/repo/hrosailing/processing/weigher.py:318-322`). -/
noncomputable def cylinderSpeeds (norm : P → ℝ) (radius : ℝ) (points : List (Option P × Option ℝ)) (p : Option P) : List (Option ℝ) :=
  (points.filter fun q => le (dist norm q.1 p) (some radius)).map Prod.snd

/-- `CylindricMeanWeigher._calculate_weight` (`/repo/hrosailing/processing/weigher.py:308-330`): `np.std(…) or 1` is `nan` if
the standard deviation is, as `nan` counts as true. -/
noncomputable def meanRaw (norm : P → ℝ) (radius : ℝ) (points : List (Option P × Option ℝ)) (point : Option P × Option ℝ) : Option ℝ :=
  match (numbers (cylinderSpeeds norm radius points point.1)).bind Weigher.stdOr1,
    (numbers (cylinderSpeeds norm radius points point.1)).bind Weigher.meanOf, point.2 with
  | some s, some m, some b => some (|m - b| / s)
  | _, _, _ => none

/-- `CylindricMeanWeigher.weigh` for an array (`/repo/hrosailing/processing/weigher.py:288-306`, `:333-339`): if the maximum of the
weights is `nan`, it is not 0, and all weights are divided by it. -/
noncomputable def meanWeigh (norm : P → ℝ) (radius : ℝ) (points : List (Option P × Option ℝ)) : List (Option ℝ) :=
  match numbers (points.map (meanRaw norm radius points)) with
  | some raw => ((Weigher.normalize raw).map (1 - ·)).map some
  | none => points.map fun _ => none

/-- `_weigh_and_filter` (`/repo/hrosailing/pipeline/pipeline.py:542-568`) for an array and the default classes: the rows which are
kept. -/
noncomputable def weighAndFilter (s : Default.Settings) (data : List (Option (ℝ × ℝ) × Option ℝ)) :
    List (Option (ℝ × ℝ) × Option ℝ) :=
  Data.maskList (quantileFilter s.percent (meanWeigh s.weigherNorm s.radius data)).1 data

/-- The check of `execute` (`/repo/hrosailing/pipeline/pipeline.py:319-327`) after weighing and filtering. -/
noncomputable def usable (s : Default.Settings) (data : List (Option (ℝ × ℝ) × Option ℝ)) :
    Except PyErr (List (Option (ℝ × ℝ) × Option ℝ)) :=
  if (weighAndFilter s data).length = 0 then .error .runtimeError else .ok (weighAndFilter s data)

/-- One step of the loop over the attributes in `FluctuationWeigher.weigh` (`/repo/hrosailing/processing/weigher.py:536-542`) for the
measurements in the time interval: `std > ub` is false for `nan`. -/
noncomputable def fluctuationStep (w : Option ℝ) (c : List (Option ℝ) × ℝ) : Option ℝ :=
  match (numbers c.1).bind Weigher.stdOf with
  | none => none
  | some std =>
    if c.2 < std then some 0
    else if c.2 = 0 then none
    else w.map (· * ((c.2 - std) / c.2))

/-- The weight of a point (`/repo/hrosailing/processing/weigher.py:525-542`), given its measurements in the time interval and the upper
bound for each attribute. -/
noncomputable def fluctuationWeight (cols : List (List (Option ℝ) × ℝ)) : Option ℝ := cols.foldl fluctuationStep (some 1)

end real

end Verif.Nan
