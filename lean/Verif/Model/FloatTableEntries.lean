import Verif.Model.Float64
import Verif.Model.TableHistory

/-!
# Making, reading and changing tables in double precision

The only operation that is rounded is the remainder modulo 360 of the wind angles.
-/

namespace Verif.F64

open Verif.Table (NewBsps Change)

/-- `PolarDiagramTable(ws, wa, bsps)` for sequences of numbers (`/repo/hrosailing/polardiagram/_polardiagramtable.py:143-167`,
`:732-755`) for doubles. -/
def tableInit (ws wa : List ℚ) (bsps : List (List ℚ)) : Except PyErr (Table ℚ) :=
  if ws.isEmpty then .error .valueError
  else if ws.any (· < 0) then .error .valueError
  else if wa.isEmpty then .error .valueError
  else if ¬ Table.goodShape bsps ws (wa.map fun a => mod a 360) then .error .valueError
  else .ok (Table.sortTable ws (wa.map fun a => mod a 360) bsps)

/-- `_get_indices` for wind angles (`/repo/hrosailing/polardiagram/_polardiagramtable.py:311-330`, `:773-783`) for doubles. -/
def tableRows (t : Table ℚ) : Option (List ℚ) → Except PyErr (List Nat)
  | none => .ok (List.range t.wa.length)
  | some sel => Table.indices t.wa (sel.map fun a => mod a 360)

/-- `__getitem__` for numbers (`/repo/hrosailing/polardiagram/_polardiagramtable.py:303-309`) for doubles. -/
def tableGet (t : Table ℚ) (ws wa : ℚ) : Except PyErr ℚ := do
  let col ← Table.wsIndices t (some [ws])
  let row ← tableRows t (some [wa])
  match row, col with
  | [i], [j] => .ok ((t.bsps.getD i []).getD j 0)
  | _, _ => if row.length = col.length ∨ row.length = 1 ∨ col.length = 1 then .error .typeError else .error .indexError

/-- `change_entries` (`/repo/hrosailing/polardiagram/_polardiagramtable.py:567-661`) for doubles. -/
def tableChange (t : Table ℚ) (new : NewBsps ℚ) (ws wa : Option (List ℚ)) : Res (Table ℚ) :=
  match Table.wsIndices t ws with
  | .error e => (t, some e)
  | .ok cols =>
    match tableRows t wa with
    | .error e => (t, some e)
    | .ok rows =>
      if ¬ Table.correctShape new cols.length rows.length then (t, some .valueError)
      else ({ t with bsps := Table.assign rows cols 0 t.bsps new.flat }, none)

/-- The table after several calls of `change_entries` (`/repo/hrosailing/polardiagram/_polardiagramtable.py:567-661`) for doubles. -/
def tableHistory (t : Table ℚ) : List (Change ℚ) → Table ℚ
  | [] => t
  | c :: cs => tableHistory (tableChange t c.new c.ws c.wa).1 cs

end Verif.F64
