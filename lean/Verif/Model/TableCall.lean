import Verif.Model.Table
import Verif.Model.Interpolator

/-!
# Evaluating tables with the default interpolation

Model of the default arguments of `__call__` (`/repo/hrosailing/polardiagram/_polardiagramtable.py:247-301`).
-/

namespace Verif.Table

open Verif.Interp

/-- The default `interpolator=ArithmeticMeanInterpolator(params=(50,))`
(`/repo/hrosailing/polardiagram/_polardiagramtable.py:251`) applied to points with weights 1 (`:293`, `:299-301`). -/
noncomputable def defaultInterpolate (pts : List ((ℝ × ℝ) × ℝ)) (g : ℝ × ℝ) : Except PyErr ℝ :=
  arith scaledEuclidean 1 (gauss 50) pts (List.replicate pts.length 1) g

open Classical in
/-- The default `neighbourhood=Ball(radius=1)` (`/repo/hrosailing/polardiagram/_polardiagramtable.py:252`,
`:295-297`). -/
noncomputable def defaultNbh (p : ℝ × ℝ) : Bool := decide (scaledEuclidean p ≤ 1)

end Verif.Table
