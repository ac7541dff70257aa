import Mathlib.Algebra.Order.Field.Basic
import Mathlib.Data.List.Sort
import Verif.Model.Dict
import Verif.Model.Py

/-!
# `hrosailing.plotting.projections`

Model of how slices with sail information are drawn and of the colour gradient
(`/repo/hrosailing/plotting/projections.py`). Drawing itself is not modelled.
-/

namespace Verif.Plot

section
variable {L : Type} [DecidableEq L]

/-- The body of the loop of `_get_info_intervals` (`/repo/hrosailing/plotting/projections.py:476-479`). -/
def addIndex (d : Dict L (List Nat)) (entry : L × Nat) : Dict L (List Nat) :=
  match d.get? entry.1 with
  | none => d.set entry.1 [entry.2]
  | some is => d.set entry.1 (is ++ [entry.2])

/-- `_get_info_intervals` (`/repo/hrosailing/plotting/projections.py:474-480`). -/
def infoIntervals (info : List L) : List (List Nat) := (info.zipIdx.foldl addIndex []).map Prod.snd

/-- `wa[interval]` (`/repo/hrosailing/plotting/projections.py:487`); an index out of range raises `IndexError`. -/
def pick {α : Type} (l : List α) : List Nat → Except PyErr (List α)
  | [] => .ok []
  | i :: is =>
    match l[i]? with
    | none => .error .indexError
    | some x =>
      match pick l is with
      | .error e => .error e
      | .ok xs => .ok (x :: xs)

/-- The list in lines 486-488 (`/repo/hrosailing/plotting/projections.py:486-488`) joined; `none` is `np.NAN`. -/
def pickAll {α : Type} (l : List α) : List (List Nat) → Except PyErr (List (Option α))
  | [] => .ok []
  | is :: rest =>
    match pick l is with
    | .error e => .error e
    | .ok xs =>
      match pickAll l rest with
      | .error e => .error e
      | .ok ys => .ok (xs.map some ++ [none] ++ ys)

/-- `_merge` (`/repo/hrosailing/plotting/projections.py:483-489`). -/
def merge {α : Type} (l : List α) (intervals : List (List Nat)) : Except PyErr (List (Option α)) :=
  if intervals.length = 0 then .ok []
  else (pickAll l intervals).map List.dropLast

variable {K : Type} [LinearOrder K]

/-- The points given to `ax.plot` for a slice with information, without convex hull
(`/repo/hrosailing/plotting/projections.py:458-471`, `:492-496`): the pairs of angle and boat speed are sorted by angle, the
information is not. (`np.argsort` is modelled by a stable sort; the pairs are merged together instead of both columns
separately.) -/
def drawn (points : List (K × K)) (info : List L) : Except PyErr (List (Option (K × K))) :=
  merge (points.insertionSort fun p q => p.1 ≤ q.1) (infoIntervals info)

end

section
variable {K : Type} [Field K] [LinearOrder K]

/-- `_get_gradient_coefficients` (`/repo/hrosailing/plotting/projections.py:736-744`) for a non-empty list; `none` stands for
`nan` (division of zero by zero). -/
def coefficients (gradient : List K) : List (Option K) :=
  match gradient.min?, gradient.max? with
  | some lo, some hi => gradient.map fun g => if hi - lo = 0 then none else some ((g - lo) / (hi - lo))
  | _, _ => []

/-- An entry of a colour computed in `_determine_colors_from_coefficients`
(`/repo/hrosailing/plotting/projections.py:747-753`). -/
def mixColor (minColor maxColor : List K) (c : K) : List K :=
  List.zipWith (fun a b => (1 - c) * a + c * b) minColor maxColor

end

end Verif.Plot
