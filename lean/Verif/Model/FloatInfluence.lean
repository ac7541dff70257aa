import Verif.Model.Float64
import Verif.Model.Influence

/-!
# Correction of wind angles in double precision

Model of `WindAngleCorrectingInfluenceModel` (`/repo/hrosailing/models/influencemodel.py:142-227`) as it is calculated: differences,
sums and `% 360` are rounded to the nearest double. The exact version is `Verif.Influence`.
-/

namespace Verif.F64

open Verif.Influence

/-- `(wa - self._wa_shift) % 360` (`/repo/hrosailing/models/influencemodel.py:178`) for doubles. -/
def removeShift (shift wa : ℚ) : ℚ := mod (fl (wa - shift)) 360

/-- `(wa + self._wa_shift) % 360` (`/repo/hrosailing/models/influencemodel.py:192`) for doubles. -/
def addShift (shift wa : ℚ) : ℚ := mod (fl (wa + shift)) 360

/-- `WindAngleCorrectingInfluenceModel.remove_influence` (`/repo/hrosailing/models/influencemodel.py:168-179`) for doubles. -/
def correctingRemove (shift : ℚ) : TrueWind ℚ → Except PyErr (List (Row ℚ))
  | .rows r => .ok (r.map fun row => { row with wa := removeShift shift row.wa })
  | .single _ => .error .indexError

/-- `WindAngleCorrectingInfluenceModel.add_influence` (`/repo/hrosailing/models/influencemodel.py:181-196`) for doubles. -/
def correctingAdd (shift : ℚ) (pd : ℚ → ℚ → Except PyErr ℚ) : WindData ℚ → Except PyErr (Speeds ℚ)
  | .many ws wa => (evalAll pd ((ws.zip wa).map fun w => (w.1, addShift shift w.2))).map .many
  | .one ws wa => (pd ws wa).map .one

end Verif.F64
