import Verif.Model.Table

/-!
# Histories of tables

Sequences of calls of `change_entries` on the same table, as in a session of a user. A call that raises leaves the table as it is; the
user goes on with the next one.
-/

namespace Verif.Table

variable {K : Type} [Field K] [LinearOrder K] [FloorRing K]

/-- The arguments of a call of `change_entries` (`/repo/hrosailing/polardiagram/_polardiagramtable.py:567`). -/
structure Change (K : Type) where
  new : NewBsps K
  ws : Option (List K)
  wa : Option (List K)

/-- `change_entries(x, ws=w, wa=a)` for numbers (`/repo/hrosailing/polardiagram/_polardiagramtable.py:630-635`). -/
def Change.single (w a x : K) : Change K := ⟨.d1 [x], some [w], some [a]⟩

/-- The table after several calls of `change_entries` (`/repo/hrosailing/polardiagram/_polardiagramtable.py:567-661`). -/
def history (t : Table K) : List (Change K) → Table K
  | [] => t
  | c :: cs => history (changeEntries t c.new c.ws c.wa).1 cs

end Verif.Table
