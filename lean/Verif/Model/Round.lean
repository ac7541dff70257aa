import Mathlib.Algebra.Order.Floor.Ring
import Mathlib.Algebra.Order.Field.Basic

/-!
# python's `round`
-/

namespace Verif

variable {K : Type} [Field K] [LinearOrder K] [FloorRing K]

/-- `round(x)` (`/repo/hrosailing/pipeline/extensions.py:146-147`, `:155-156`,
`/repo/hrosailing/pipeline/quality_assurance.py:115`): the nearest integer, ties to the even one. -/
def pyRound (x : K) : ℤ :=
  let f := ⌊x⌋
  let d := x - (f : K)
  if d < 1 / 2 then f else if 1 / 2 < d then f + 1 else if f % 2 = 0 then f else f + 1

end Verif
