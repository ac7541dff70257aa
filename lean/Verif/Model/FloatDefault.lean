import Verif.Model.FloatTable
import Verif.Model.FloatMember
import Verif.Model.DefaultTable

/-!
# The default pipeline in double precision

`Verif.Default.makeTable` (the last part of `PolarPipeline.execute`, `/repo/hrosailing/pipeline/pipeline.py:214-382`, with the
default components) where the result of each operation is rounded to the nearest double and sums are calculated in any order.
The norms are any functions (their rounded values), `e` is what numpy calculates for the exponential function.
-/

namespace Verif.F64

open Verif.Interp
open Verif.Default (Settings rowPoint)

/-- `_gauss_potential` (`/repo/hrosailing/processing/interpolator.py:137-139`) for doubles. -/
noncomputable def gauss (e : ℝ → ℝ) (alpha d w : ℝ) : ℝ := e (fl (fl (-alpha * w) * d))

/-- The points that are kept (`/repo/hrosailing/pipeline/pipeline.py:542-568`). -/
noncomputable def keptOf (s : Settings) (data : List (Pt ℝ)) (w : List ℝ) : List (Pt ℝ × ℝ) :=
  Data.maskList (quantileFilter s.percent w) (data.zip w)

/-- The end of `execute` (`/repo/hrosailing/pipeline/pipeline.py:456-467`, `:319-338`) for doubles. -/
def MakesTable (s : Settings) (e : ℝ → ℝ) (data : List (Pt ℝ)) (r : Except PyErr (Table ℝ)) : Prop :=
  if data.length = 0 then r = .error .runtimeError
  else
    ∃ w, MeanWeighed (rdist s.weigherNorm) s.radius data w ∧
      if (keptOf s data w).length = 0 then r = .error .runtimeError
      else
        match zeroInject s.nZeros (.array 3 ((keptOf s data w).map fun p => [p.1.1.1, p.1.1.2, p.1.2])) with
        | .error err => r = .error err
        | .ok i =>
          ∃ interpolate, Performs s.norm 1 (gauss e s.alpha) interpolate ∧
            r = tableProcess s.ballNorm s.ballRadius interpolate
              (keptOf s data w ++ (i.data.map rowPoint).zip i.weights)

/-- The defaults (`/repo/hrosailing/pipeline/pipeline.py:157-173`, `/repo/hrosailing/pipeline/extensions.py:79-88`,
`/repo/hrosailing/processing/weigher.py:252`, `/repo/hrosailing/processing/filter.py:76`) with the norm calculated in double
precision by `scaled_euclidean_norm`; `weigherNorm` is the calculated norm of the weigher. -/
noncomputable def defaults (weigherNorm : ℝ × ℝ → ℝ) : Settings where
  weigherNorm := weigherNorm
  radius := fl (1 / 20)
  percent := 50
  nZeros := 500
  ballNorm := scaledEuclidean
  ballRadius := 1
  norm := scaledEuclidean
  alpha := 50

end Verif.F64
