import Mathlib.Algebra.Order.Floor.Ring
import Mathlib.Data.Rat.Floor
import Mathlib.Data.List.Sort
import Verif.Model.Py

/-!
# `hrosailing.processing.filter`

Model of `/repo/hrosailing/processing/filter.py`. Weights and bounds are elements of an ordered field.
-/

namespace Verif.Filter

variable {K : Type} [Field K] [LinearOrder K]

/-- The statistics recorded by `Filter.set_statistics` (`/repo/hrosailing/processing/filter.py:50-56`). -/
structure Stats where
  nFiltered : Int
  nRows : Int
  deriving DecidableEq, Repr

/-- `set_statistics` (`/repo/hrosailing/processing/filter.py:41-56`). -/
def statistics (mask : List Bool) : Stats :=
  let n := (mask.filter fun f => ! f).length
  ⟨n, mask.length - n⟩

/-- `np.percentile(wts, percent)` (`/repo/hrosailing/processing/filter.py:103`), method `linear`: the sorted
values are interpolated at the position `(n - 1) * percent / 100`. The default `0` of `getD` is never used
if `wts` is not empty and `0 ≤ percent ≤ 100` (see `percentile_index`). -/
def percentile [FloorRing K] (wts : List K) (percent : K) : K :=
  let s := wts.insertionSort (· ≤ ·)
  let v := ((wts.length : K) - 1) * percent / 100
  let i := ⌊v⌋.toNat
  let g := v - ⌊v⌋
  let a := s.getD i 0
  let b := s.getD (min (i + 1) (wts.length - 1)) 0
  a + g * (b - a)

/-- `QuantileFilter(percent)` (`/repo/hrosailing/processing/filter.py:76-81`). -/
def quantileInit (percent : K) : Except PyErr K :=
  if percent < 0 ∨ percent > 100 then .error .valueError else .ok percent

/-- `QuantileFilter.filter` (`/repo/hrosailing/processing/filter.py:86-103`). The statistics are `none` if
they are not set. -/
def quantileFilter [FloorRing K] (percent : K) (wts : List K) : List Bool × Option Stats :=
  if wts.length = 0 then ([], none)
  else
    let q := percentile wts percent
    let mask := wts.map fun w => decide (w ≥ q)
    (mask, some (statistics mask))

/-- `BoundFilter(lower_bound, upper_bound)` (`/repo/hrosailing/processing/filter.py:128-134`). -/
def boundInit (lower upper : K) : Except PyErr (K × K) :=
  if upper < lower then .error .valueError else .ok (lower, upper)

/-- `BoundFilter.filter` (`/repo/hrosailing/processing/filter.py:139-157`). -/
def boundFilter (lower upper : K) (wts : List K) : List Bool × Stats :=
  let mask := List.zipWith (· && ·) (wts.map fun w => decide (w ≥ lower)) (wts.map fun w => decide (w ≤ upper))
  (mask, statistics mask)

end Verif.Filter
