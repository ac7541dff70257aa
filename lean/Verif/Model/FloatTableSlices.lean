import Verif.Model.FloatSlices
import Verif.Model.FloatTableCall

/-!
# Slices of tables in double precision
-/

namespace Verif.F64

/-- The slice of one wind speed, given by its columns (`/repo/hrosailing/polardiagram/_polardiagramtable.py:129-140`), for doubles and a
table with given boat speeds (whose wind speeds are an array). -/
def tableSliceAt (interpolate : List ((ℚ × ℚ) × ℚ) → ℚ × ℚ → Except PyErr ℚ) (nbh : ℚ × ℚ → Bool) (t : Table ℚ) (w : ℚ) :
    Except PyErr (List ((ℚ × ℚ) × ℚ)) :=
  if w ∈ t.ws then .ok ((t.wa.zip t.bsps).map fun p => ((w, p.1), p.2.getD (t.ws.idxOf w) 0))
  else Diagram.evalWinds (tableCall interpolate nbh t) (t.wa.map fun a => (w, a))

/-- `ws_to_slices` (`/repo/hrosailing/polardiagram/_polardiagramtable.py:116-141`) for doubles. -/
def tableWsToSlices (interpolate : List ((ℚ × ℚ) × ℚ) → ℚ × ℚ → Except PyErr ℚ) (nbh : ℚ × ℚ → Bool) (t : Table ℚ) :
    List ℚ → Except PyErr (List (List ((ℚ × ℚ) × ℚ)))
  | [] => .ok []
  | w :: ws =>
    match tableSliceAt interpolate nbh t w with
    | .error e => .error e
    | .ok s =>
      match tableWsToSlices interpolate nbh t ws with
      | .error e => .error e
      | .ok r => .ok (s :: r)

/-- `get_slices` without information (`/repo/hrosailing/polardiagram/_polardiagramtable.py:92-114`, `:342-349`,
`/repo/hrosailing/polardiagram/_basepolardiagram.py:92-98`) for doubles: the wind speeds and their slices. -/
def tableGetSlices (interpolate : List ((ℚ × ℚ) × ℚ) → ℚ × ℚ → Except PyErr ℚ) (nbh : ℚ × ℚ → Bool) (t : Table ℚ)
    (ws : Diagram.WsArg ℚ) (nSteps : Option Int) : Except PyErr (List ℚ × List (List ((ℚ × ℚ) × ℚ))) :=
  match windSpeeds t.ws ws nSteps with
  | .error e => .error e
  | .ok l =>
    match tableWsToSlices interpolate nbh t l with
    | .error e => .error e
    | .ok r => .ok (l, r)

end Verif.F64
