import Mathlib.Algebra.Order.Floor.Ring
import Mathlib.Algebra.Order.Floor.Semiring
import Mathlib.Algebra.Order.Field.Basic

/-! # The python operator `%` on numbers -/

namespace Verif

/-- `x % m` for numbers with `m > 0` (used e.g. in `/repo/hrosailing/polardiagram/_polardiagrampointcloud.py:139`,
`:201` and `/repo/hrosailing/core/computing.py:29`). -/
def pmod {K : Type} [Field K] [LinearOrder K] [FloorRing K] (x m : K) : K := x - m * ⌊x / m⌋

end Verif
