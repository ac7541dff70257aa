import Verif.Model.FloatTableEntries

/-!
# Evaluating tables in double precision
-/

namespace Verif.F64

/-- `PolarDiagramTable.__call__` for numbers (`/repo/hrosailing/polardiagram/_polardiagramtable.py:247-301`) for doubles: the remainder in
`self[ws, wa]` (`:284`) and the differences to the given wind (`:295-297`) are rounded. `interpolate` is the method of the interpolator,
`nbh` that of the neighbourhood, as in `Verif.Table.call`. -/
def tableCall (interpolate : List ((ℚ × ℚ) × ℚ) → ℚ × ℚ → Except PyErr ℚ) (nbh : ℚ × ℚ → Bool) (t : Table ℚ) (ws wa : ℚ) :
    Except PyErr ℚ :=
  match tableGet t ws wa with
  | .ok x => .ok x
  | .error .typeError | .error .valueError =>
    interpolate (t.points.filter fun p => nbh (fl (p.1.1 - ws), fl (p.1.2 - wa))) (ws, wa)
  | .error e => .error e

end Verif.F64
