import Mathlib.Data.Rat.Defs
import Verif.Model.Data

/-!
# Concrete values of `Data` columns

The python values that occur in `Data` columns as far as `hrosailing_standard_format`
(`/repo/hrosailing/core/data.py:370-427`) distinguishes them.
-/

namespace Verif

/-- python values stored in `Data` (`/repo/hrosailing/core/data.py:407-427`). Simplifications: floats and
decimals are exact rationals, a date is a day number, a time is a number of microseconds, all other
objects are tagged by a number. -/
inductive Val
  | int (z : Int)
  | float (q : Rat)
  | str (s : List Char)
  | decimal (q : Rat)
  | date (day : Int)
  | time (us : Int)
  | datetime (day us : Int)
  | other (n : Nat)
  deriving DecidableEq

/-- python types (`type(entry)`, `/repo/hrosailing/core/data.py:436`). -/
inductive Ty
  | int | float | str | decimal | date | time | datetime | other
  deriving DecidableEq

/-- The type of a value (`type(entry)`, `/repo/hrosailing/core/data.py:436`). -/
def Val.type : Val → Ty
  | .int _ => .int
  | .float _ => .float
  | .str _ => .str
  | .decimal _ => .decimal
  | .date _ => .date
  | .time _ => .time
  | .datetime _ _ => .datetime
  | .other _ => .other

/-- `type(entry)` (`/repo/hrosailing/core/data.py:436`). -/
instance : HasType Val Ty := ⟨Val.type⟩

end Verif
