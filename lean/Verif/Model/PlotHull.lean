import Verif.Model.Curve

/-!
# Convex hulls and surfaces in plots

Model of `_get_convex_hull` and of the points and the mask of `Axes3D.plot_surface`
(`/repo/hrosailing/plotting/projections.py`).

External: `scipy.spatial.ConvexHull` (a parameter giving the indices of the vertices, or `none` if an exception is
raised) and `Triangulation`. Drawing is not modelled.
-/

namespace Verif.Plot

open Verif.Curve (deg2rad)

/-- A column of a slice: wind speed, wind angle and boat speed (`/repo/hrosailing/plotting/projections.py:500`). -/
structure Col where
  ws : ℝ
  wa : ℝ
  bsp : ℝ

/-- The point of a column in the plane (`/repo/hrosailing/plotting/projections.py:501-502`). -/
noncomputable def Col.point (c : Col) : ℝ × ℝ := (c.bsp * Real.cos (deg2rad c.wa), c.bsp * Real.sin (deg2rad c.wa))

/-- `lamb`, `approx_ws` and `approx_bsp` (`/repo/hrosailing/plotting/projections.py:541-547`) for the first and the last
column; `none` stands for `nan`, if the denominator is zero. -/
noncomputable def closing (p q : Col) : Option (ℝ × ℝ) :=
  let x0 := p.bsp * Real.sin (deg2rad p.wa)
  let x1 := q.bsp * Real.sin (deg2rad q.wa)
  let y0 := p.bsp * Real.cos (deg2rad p.wa)
  let y1 := q.bsp * Real.cos (deg2rad q.wa)
  if x0 - x1 = 0 then none
  else
    let lamb := x0 / (x0 - x1)
    some (lamb * p.ws + (1 - lamb) * q.ws, lamb * y0 + (1 - lamb) * y1)

variable {L : Type}

/-- What is drawn: an angle, the wind speed and boat speed there (`none` for `nan`) and the information (`none` for
`None`) (`/repo/hrosailing/plotting/projections.py:549-557`). -/
abbrev Drawn (L : Type) := ℝ × Option (ℝ × ℝ) × Option L

/-- A column with its information (`/repo/hrosailing/plotting/projections.py:508-514`). -/
def draw (c : Col × L) : Drawn L := (c.1.wa, some (c.1.ws, c.1.bsp), some c.2)

open Classical in
/-- The end of `_get_convex_hull` for the sorted vertices (`/repo/hrosailing/plotting/projections.py:516-557`). Without
information the labels are to be ignored. -/
noncomputable def wrap (vs : List (Col × L)) : Except PyErr (List (Drawn L)) :=
  match vs.head?, vs.getLast? with
  | some p, some q =>
    if p.1.wa = 0 ∧ q.1.wa = 360 then .ok (vs.map draw)
    else if q.1.wa - p.1.wa < 180 then .ok (vs.map draw)
    else if p.1.wa = 0 then .ok (vs.map draw ++ [(360, some (p.1.ws, p.1.bsp), some p.2)])
    else if q.1.wa = 360 then .ok ((0, some (q.1.ws, q.1.bsp), some q.2) :: vs.map draw)
    else .ok ((0, closing p.1 q.1, none) :: vs.map draw ++ [(360, closing p.1 q.1, none)])
  | _, _ => .error .indexError

open Classical in
/-- `_get_convex_hull` (`/repo/hrosailing/plotting/projections.py:499-557`) for a slice whose columns are given together
with their information. -/
noncomputable def convexSlice (hull : List (ℝ × ℝ) → Option (List Nat)) (slice : List (Col × L)) :
    Except PyErr (List (Drawn L)) :=
  match hull (slice.map fun c => c.1.point) with
  | none => .ok (slice.map draw)
  | some vertices => wrap ((vertices.filterMap (slice[·]?)).insertionSort fun c d => c.1.wa ≤ d.1.wa)

/-! ### Surfaces -/

/-- `_prepare_points` (`/repo/hrosailing/plotting/projections.py:413-421`) for one point. -/
noncomputable def surfacePoint (c : Col) : ℝ × ℝ × ℝ :=
  (c.bsp * Real.sin (deg2rad c.wa), c.bsp * Real.cos (deg2rad c.wa), c.ws)

section
variable {K : Type} [Field K] [LinearOrder K]

/-- A vertex of a triangle: its coordinates (`/repo/hrosailing/plotting/projections.py:384-386`). -/
abbrev Vertex (K : Type) := K × K × K

/-- `not_too_narrow` (`/repo/hrosailing/plotting/projections.py:388-395`); the third argument of `np.logical_or` is the
array the result is written to, so its value does not matter. -/
def notTooNarrow (a b c : Vertex K) : Bool :=
  decide (1 / 5 < (a.2.2 - b.2.2) ^ 2) || decide (1 / 5 < (a.2.2 - c.2.2) ^ 2)

/-- `np.sign` (`/repo/hrosailing/plotting/projections.py:397-398`). -/
def sign (x : K) : Int := if 0 < x then 1 else if x < 0 then -1 else 0

/-- `axis_skip` (`/repo/hrosailing/plotting/projections.py:396-399`). -/
def axisSkip (a b c : Vertex K) : Bool :=
  decide (sign a.1 ≠ sign b.1) || decide (sign a.1 ≠ sign c.1)

/-- `northern` (`/repo/hrosailing/plotting/projections.py:400`): the first two vertices only. -/
def northern (a b : Vertex K) : Bool := decide (0 < a.2.1) && decide (0 < b.2.1)

/-- `mask` (`/repo/hrosailing/plotting/projections.py:401-402`): whether a triangle is drawn. -/
def mask (a b c : Vertex K) : Bool := notTooNarrow a b c && !(axisSkip a b c && northern a b)

end

end Verif.Plot
