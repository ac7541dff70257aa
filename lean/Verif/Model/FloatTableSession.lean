import Verif.Model.FloatTableEntries
import Verif.Model.Session

/-!
# Sessions with tables and files in double precision
-/

namespace Verif.F64

open Verif.Table (Text)

/-- The table after a step of a session (`/repo/hrosailing/polardiagram/_polardiagramtable.py:430-661`,
`/repo/hrosailing/polardiagram/_reading.py:70-143`) for doubles, as `Verif.Table.step`. The angles of a table are not negative, so that
the remainders of the angles that are read from its file are exact. -/
def tableStep (print : ℚ → Text) (parse : Text → Except PyErr ℚ) (t : Table ℚ) : Table.Step ℚ → Except PyErr (Table ℚ)
  | .change c => .ok (tableChange t c.new c.ws c.wa).1
  | .symmetrize =>
    match symmetrize t with
    | .ok t' => .ok t'
    | .error _ => .ok t
  | .file fmt => Table.fromCsv parse (Table.toCsv print t fmt) fmt

/-- The table after several steps (`/repo/hrosailing/polardiagram/_polardiagramtable.py:430-661`) for doubles. -/
def tableSession (print : ℚ → Text) (parse : Text → Except PyErr ℚ) (t : Table ℚ) : List (Table.Step ℚ) → Except PyErr (Table ℚ)
  | [] => .ok t
  | s :: ss =>
    match tableStep print parse t s with
    | .error e => .error e
    | .ok t' => tableSession print parse t' ss

end Verif.F64
