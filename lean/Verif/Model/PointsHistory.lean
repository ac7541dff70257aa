import Verif.Model.WeightedPoints

/-!
# Histories of `WeightedPoints`

What happens to a variable holding a `WeightedPoints` object under a sequence of statements `points = points[mask]` and
`points.extend(other)` (`/repo/hrosailing/core/data.py:629-665`), as in `/repo/hrosailing/pipeline/pipeline.py`, where filters mask the
points and injectors extend them. An exception leaves the variable and the object unchanged: the mask makes a new object, and `extend`
assigns its attributes after everything that may raise.
-/

namespace Verif.WPoints

variable {κ V τ : Type} [DecidableEq κ] [DecidableEq τ] [HasType V τ]

/-- A statement (`/repo/hrosailing/core/data.py:629`, `:640`). -/
inductive Op (κ V τ : Type)
  | mask (m : List Bool)
  | extend (other : WPoints κ V τ)

/-- One statement (`/repo/hrosailing/core/data.py:629-665`): the object afterwards and the exception raised. -/
def step (wp : WPoints κ V τ) : Op κ V τ → WPoints κ V τ × Option PyErr
  | .mask m =>
    match getItem wp m with
    | .error e => (wp, some e)
    | .ok wp' => (wp', none)
  | .extend other =>
    match extend wp other with
    | .error e => (wp, some e)
    | .ok wp' => (wp', none)

/-- A sequence of statements, each in `try … except` (`/repo/hrosailing/core/data.py:629-665`): the object afterwards and the exceptions
raised by the statements. -/
def run (wp : WPoints κ V τ) : List (Op κ V τ) → WPoints κ V τ × List (Option PyErr)
  | [] => (wp, [])
  | op :: ops => ((run (step wp op).1 ops).1, (step wp op).2 :: (run (step wp op).1 ops).2)

end Verif.WPoints
