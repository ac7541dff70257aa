import Verif.Model.Float64
import Verif.Model.Weigher
import Verif.Model.Filter

/-!
# Weighing and filtering in double precision

Model of `CylindricMeanWeigher.weigh` (`/repo/hrosailing/processing/weigher.py:271-330`) and `QuantileFilter.filter`
(`/repo/hrosailing/processing/filter.py:86-103`) where the result of each operation is rounded to the nearest double. Sums may
be calculated in any order (see `Verif.F64.Summed`), so that means, standard deviations and weights are relations. The root is
rounded correctly. The norm is any function (its rounded values).
-/

namespace Verif.F64

section filter

variable {K : Type} [Field K] [LinearOrder K] [IsStrictOrderedRing K] [FloorRing K]

/-- `_lerp(a, b, t)` of numpy, the interpolation used by `np.percentile` (`/repo/hrosailing/processing/filter.py:103`). -/
def lerp (a b t : K) : K :=
  if t ≥ 1 / 2 then fl (b - fl (fl (b - a) * fl (1 - t))) else fl (a + fl (fl (b - a) * t))

/-- `np.percentile(wts, percent)` (`/repo/hrosailing/processing/filter.py:103`), method `linear`, for doubles: the position
is `(n - 1) * (percent / 100)`; from the last position on, the last value is taken twice. -/
def percentile (wts : List K) (percent : K) : K :=
  let s := wts.insertionSort (· ≤ ·)
  let v := fl (((wts.length : K) - 1) * fl (percent / 100))
  let i := ⌊v⌋.toNat
  let last := wts.length - 1
  if v ≥ (last : K) then lerp (s.getD last 0) (s.getD last 0) (fl (v - (last : K)))
  else lerp (s.getD i 0) (s.getD (i + 1) 0) (fl (v - ⌊v⌋))

/-- `QuantileFilter.filter` (`/repo/hrosailing/processing/filter.py:86-103`) for doubles. -/
def quantileFilter (percent : K) (wts : List K) : List Bool :=
  if wts.length = 0 then [] else wts.map fun w => decide (w ≥ percentile wts percent)

/-- `_normalize(weights, np.max)` (`/repo/hrosailing/processing/weigher.py:333-339`) for doubles. -/
def normalize (weights : List K) : List K :=
  match weights with
  | [] => []
  | a :: l => if Weigher.maxOf a l = 0 then weights else weights.map fun w => fl (w / Weigher.maxOf a l)

/-- `np.mean` of doubles (`/repo/hrosailing/processing/weigher.py:329-330`). -/
def Mean (l : List K) (m : K) : Prop := ∃ s, Summed l s ∧ m = fl (s / (l.length : K))

end filter

section weigher

variable {P : Type} [Sub P]

/-- `np.std(points) or 1` (`/repo/hrosailing/processing/weigher.py:325-326`) for doubles. -/
def StdOr1 (l : List ℝ) (σ : ℝ) : Prop :=
  ∃ m v, Mean l m ∧ Mean (l.map fun x => fl (fl (x - m) * fl (x - m))) v ∧
    σ = if fl (Real.sqrt v) = 0 then 1 else fl (Real.sqrt v)

/-- `_calculate_weight` (`/repo/hrosailing/processing/weigher.py:308-316`) for doubles. -/
def MeanRaw (norm : P → ℝ) (radius : ℝ) (points : List (P × ℝ)) (p : P × ℝ) (r : ℝ) : Prop :=
  ∃ σ m, StdOr1 (Weigher.cylinderSpeeds norm radius points p.1) σ ∧
    Mean (Weigher.cylinderSpeeds norm radius points p.1) m ∧ r = fl (|fl (m - p.2)| / σ)

/-- `CylindricMeanWeigher.weigh` (`/repo/hrosailing/processing/weigher.py:288-306`) for doubles. -/
def MeanWeighed (norm : P → ℝ) (radius : ℝ) (points : List (P × ℝ)) (w : List ℝ) : Prop :=
  ∃ raw, List.Forall₂ (MeanRaw norm radius points) points raw ∧ w = (normalize raw).map fun x => fl (1 - x)

end weigher

end Verif.F64
