import Verif.Model.Table
import Verif.Model.Diagram

/-!
# Slices of tables

Model of `ws_to_slices` (`/repo/hrosailing/polardiagram/_polardiagramtable.py:116-141`).
-/

namespace Verif.Table

variable {K : Type} [Field K] [LinearOrder K] [FloorRing K]

/-- The slice of one wind speed, given by its columns
(`/repo/hrosailing/polardiagram/_polardiagramtable.py:129-140`). `asList` tells that the wind speeds of the table are a
python list (as made by `_create_zero_table`, `:169-173`) and that the wind speed is a python number. Then
`self.wind_speeds == ws_` is `False`, nothing is selected and `[0]` raises `IndexError` (line 131). -/
def sliceAt (interpolate : List ((K × K) × K) → K × K → Except PyErr K) (nbh : K × K → Bool) (asList : Bool)
    (t : Table K) (w : K) : Except PyErr (List ((K × K) × K)) :=
  if w ∈ t.ws then
    if asList then .error .indexError
    else .ok ((t.wa.zip t.bsps).map fun p => ((w, p.1), p.2.getD (t.ws.idxOf w) 0))
  else Diagram.evalWinds (call interpolate nbh t) (t.wa.map fun a => (w, a))

/-- `ws_to_slices` (`/repo/hrosailing/polardiagram/_polardiagramtable.py:116-141`). -/
def wsToSlices (interpolate : List ((K × K) × K) → K × K → Except PyErr K) (nbh : K × K → Bool) (asList : Bool)
    (t : Table K) : List K → Except PyErr (List (List ((K × K) × K)))
  | [] => .ok []
  | w :: ws =>
    match sliceAt interpolate nbh asList t w with
    | .error e => .error e
    | .ok s =>
      match wsToSlices interpolate nbh asList t ws with
      | .error e => .error e
      | .ok r => .ok (s :: r)

end Verif.Table
