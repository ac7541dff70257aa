import Verif.Model.Course

/-!
# The paces of `isochrone` and `cost_cruise`

Both functions ask `_get_inverse_bsp` for the time per distance at the places of the way. The speed of the boat is a parameter: a
function of the place (latitude and longitude), of the time and of the heading, which stands for the weather model and the polar
diagram or influence model; the weather is defined everywhere.
-/

namespace Verif.Course

open Verif.Cruising (invSpeed inverseMercator)

/-- `dt_ds` of `isochrone` (`/repo/hrosailing/cruising/basics.py:448-452`, `:502-522`). -/
noncomputable def isoPace (speed : ℝ × ℝ → ℝ → ℝ → ℝ) (start : ℝ × ℝ) (direction s t : ℝ) : ℝ :=
  let p := Cruising.mercator start.1 start
  let pos := (p.1 + s * (isoDirection direction).1, p.2 + s * (isoDirection direction).2)
  invSpeed (speed (inverseMercator start.1 pos) t direction)

/-- The position on the way as latitude and longitude (`/repo/hrosailing/cruising/basics.py:355`, `:504`). -/
noncomputable def costPlace (start stop : ℝ × ℝ) (s : ℝ) : Option (ℝ × ℝ) :=
  (position start stop s).map (inverseMercator ((start.1 + stop.1) / 2))

/-- `dt_ds` of `cost_cruise` (`/repo/hrosailing/cruising/basics.py:346-359`, `:502-522`); without a position or a course it
is nan. -/
noncomputable def costPace (speed : ℝ × ℝ → ℝ → ℝ → ℝ) (start stop : ℝ × ℝ) (s t : ℝ) : Option ℝ :=
  match costPlace start stop s, rightHandingCourse start stop with
  | some p, some hdt => some (invSpeed (speed p t hdt))
  | _, _ => none

end Verif.Course
