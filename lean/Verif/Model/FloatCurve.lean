import Verif.Model.Float64

/-!
# Symmetrised curves in double precision
-/

namespace Verif.F64

variable {K : Type} [Field K] [LinearOrder K] [FloorRing K]

/-- `sym_func` in `symmetrize` (`/repo/hrosailing/polardiagram/_polardiagramcurve.py:209-212`) in double precision: `360 - wa`, the sum
and the product are rounded; the values of the function `f` are doubles. -/
def symFunc (f : K → K → K) (ws wa : K) : K := fl (1 / 2 * fl (f ws wa + f ws (fl (360 - wa))))

end Verif.F64
