import Verif.Model.Extension
import Verif.Model.Filter
import Verif.Model.Injector
import Verif.Model.Interpolator
import Verif.Model.Weigher
import Verif.Model.Norms

/-!
# From true wind data to a table

The last part of `PolarPipeline.execute` (`/repo/hrosailing/pipeline/pipeline.py:214-382`) with components of the default
classes: weighing by `CylindricMeanWeigher`, filtering by `QuantileFilter`, injecting zeros by `ZeroInjector` and
`TableExtension` with a `Ball`, an `ArithmeticMeanInterpolator` and the resolution `"min_max"`. The data is what the
influence model returns: an array whose rows are wind speed, wind angle and boat speed.

Simplification: a weight `nan` is reported as an exception; it does not occur (see `weighAndFilter_eq`).
-/

namespace Verif.Default

open Verif.Interp

/-- The parameters of the components: norm and radius of the weigher
(`/repo/hrosailing/processing/weigher.py:252-263`), percentage of the filter
(`/repo/hrosailing/processing/filter.py:76-81`), number of zeros (`/repo/hrosailing/processing/injector.py:57-59`), norm and
radius of the ball (`/repo/hrosailing/processing/neighbourhood.py:66-75`), norm and parameter of the interpolator
(`/repo/hrosailing/processing/interpolator.py:195-214`). -/
structure Settings where
  weigherNorm : ℝ × ℝ → ℝ
  radius : ℝ
  percent : ℝ
  nZeros : ℤ
  ballNorm : ℝ × ℝ → ℝ
  ballRadius : ℝ
  norm : ℝ × ℝ → ℝ
  alpha : ℝ

/-- `hrosailing_standard_scaled_euclidean_norm(None)` for one row of length two
(`/repo/hrosailing/processing/weigher.py:318-322`, `:899-924`). -/
noncomputable def standardNorm (x : ℝ × ℝ) : ℝ :=
  Norms.euclid [Weigher.normScale "TWS" * x.1, Weigher.normScale "TWA" * x.2]

/-- The defaults (`/repo/hrosailing/pipeline/pipeline.py:157-173`, `/repo/hrosailing/pipeline/extensions.py:79-88`,
`/repo/hrosailing/processing/weigher.py:252`, `/repo/hrosailing/processing/filter.py:76`). -/
noncomputable def defaults : Settings where
  weigherNorm := standardNorm
  radius := 1 / 20
  percent := 50
  nZeros := 500
  ballNorm := scaledEuclidean
  ballRadius := 1
  norm := scaledEuclidean
  alpha := 50

/-- `_weigh_and_filter` (`/repo/hrosailing/pipeline/pipeline.py:542-568`) for an array. -/
noncomputable def weighAndFilter (s : Settings) (data : List (Pt ℝ)) : Except PyErr (List (Pt ℝ × ℝ)) :=
  if data.length = 0 then .ok []
  else
    match Weigher.meanWeigh s.weigherNorm s.radius data with
    | none => .error .otherError
    | some weights => .ok (Data.maskList (Filter.quantileFilter s.percent weights).1 (data.zip weights))

/-- A row of an array as a point (`/repo/hrosailing/pipeline/pipeline.py:341`). -/
def rowPoint (row : List ℝ) : Pt ℝ := ((row.getD 0 0, row.getD 1 0), row.getD 2 0)

/-- `self.injector.inject(...)` (`/repo/hrosailing/pipeline/pipeline.py:331-341`). -/
noncomputable def inject (s : Settings) (pts : List (Pt ℝ × ℝ)) : Except PyErr (List (Pt ℝ × ℝ)) :=
  match Injector.inject s.nZeros (.array 3 (pts.map fun p => [p.1.1.1, p.1.1.2, p.1.2])) with
  | .error e => .error e
  | .ok i => .ok ((i.data.map rowPoint).zip i.weights)

/-- `Ball.is_contained_in` for one row (`/repo/hrosailing/processing/neighbourhood.py:98-102`). -/
noncomputable def inBall (s : Settings) (x : ℝ × ℝ) : Bool := decide (s.ballNorm x ≤ s.ballRadius)

/-- `interpolator.interpolate(weighted_points[considered], point)` (`/repo/hrosailing/pipeline/extensions.py:355-357`). -/
noncomputable def interpolate (s : Settings) (pts : List (Pt ℝ × ℝ)) (g : ℝ × ℝ) : Except PyErr ℝ :=
  arith s.norm 1 (gauss s.alpha) (pts.map Prod.fst) (pts.map Prod.snd) g

/-- The end of `execute` (`/repo/hrosailing/pipeline/pipeline.py:456-467`, `:319-338`). -/
noncomputable def makeTable (s : Settings) (data : List (Pt ℝ)) : Except PyErr (Table ℝ) := do
  let pts ← weighAndFilter s data
  if pts.length = 0 then .error .runtimeError
  else
    let zeros ← inject s pts
    Ext.tableProcess .minMax (inBall s) (interpolate s) (pts ++ zeros)

end Verif.Default
