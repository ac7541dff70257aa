import Verif.Model.Interpolator
import Verif.Model.Mod
import Verif.Model.TableText

/-!
# `PolarDiagramPointcloud`

Model of `/repo/hrosailing/polardiagram/_polardiagrampointcloud.py` over an ordered field with a floor function.
A point is `((ws, wa), bsp)`.
-/

namespace Verif.Cloud

open Verif.Interp

variable {K : Type} [Field K] [LinearOrder K] [FloorRing K]

/-- `PolarDiagramPointcloud(points)` for true wind (`/repo/hrosailing/polardiagram/_polardiagrampointcloud.py:133-141`). -/
def init (points : List (Pt K)) : List (Pt K) :=
  (points.filter fun p => decide (p.1.1 ≥ 0)).map fun p => ((p.1.1, pmod p.1.2 360), p.2)

/-- `weighted_points[mask]` on lists (`/repo/hrosailing/polardiagram/_polardiagrampointcloud.py:213`). -/
def select {α : Type} : List Bool → List α → List α
  | b :: bs, x :: xs => if b then x :: select bs xs else select bs xs
  | _, _ => []

/-- `PolarDiagramPointcloud.__call__` for numbers
(`/repo/hrosailing/polardiagram/_polardiagrampointcloud.py:161-215`). `interpolate` is the method `interpolate` of the
interpolator (applied to points, weights and the query), `nbh` the method `is_contained_in` of the neighbourhood,
which is assumed to return an array. -/
def call (interpolate : List (Pt K) → List K → K × K → Except PyErr K)
    (nbh : List (K × K) → Except PyErr (List Bool)) (cloud : List (Pt K)) (ws wa : K) : Except PyErr K :=
  if ws ≤ 0 then .error .valueError
  else
    let wa := pmod wa 360
    match cloud.filter fun p => decide (p.1.1 = ws) && decide (p.1.2 = wa) with
    | p :: _ => .ok p.2
    | [] =>
      let weights := List.replicate cloud.length (1 : K)
      match nbh (cloud.map fun p => p.1 - (ws, wa)) with
      | .error e => .error e
      | .ok mask => interpolate (select mask cloud) (select mask weights) (ws, wa)

/-- The default `interpolator=ArithmeticMeanInterpolator(50)`
(`/repo/hrosailing/polardiagram/_polardiagrampointcloud.py:165`): the number `50` is the parameter `s`, and `params`
has its default value `(100,)` (`/repo/hrosailing/processing/interpolator.py:195-214`). -/
noncomputable def defaultInterpolate : List (Pt ℝ) → List ℝ → ℝ × ℝ → Except PyErr ℝ :=
  arith scaledEuclidean 50 (gauss 100)

open Classical in
/-- The default `neighbourhood=Ball(radius=1)` (`/repo/hrosailing/polardiagram/_polardiagrampointcloud.py:166`). -/
noncomputable def defaultNbh : List (ℝ × ℝ) → Except PyErr (List Bool) := fun pts =>
  .ok (pts.map fun p => decide (scaledEuclidean p ≤ 1))

/-- `symmetrize` (`/repo/hrosailing/polardiagram/_polardiagrampointcloud.py:272-299`), without the warning. -/
def symmetrize (cloud : List (Pt K)) : List (Pt K) :=
  if cloud.isEmpty then cloud
  else init (cloud ++ cloud.map fun p => ((p.1.1, 360 - p.1.2), p.2))

/-- `add_points` for true wind (`/repo/hrosailing/polardiagram/_polardiagrampointcloud.py:301-326`). -/
def addPoints (cloud new : List (Pt K)) : Res (List (Pt K)) :=
  if new.any fun p => decide (p.1.1 ≤ 0) then (cloud, some .valueError)
  else (cloud ++ new.map fun p => ((p.1.1, pmod p.1.2 360), p.2), none)

/-- `ws_to_slices` without interpolator (`/repo/hrosailing/polardiagram/_polardiagrampointcloud.py:127-131`); a slice is
given by its columns. -/
def wsToSlices (range : K) (cloud : List (Pt K)) (ws : List K) : List (List (Pt K)) :=
  ws.map fun w => cloud.filter fun p => decide (|p.1.1 - w| ≤ range)

/-- `wind_speeds` (`/repo/hrosailing/polardiagram/_polardiagrampointcloud.py:222-225`). -/
def windSpeeds (cloud : List (Pt K)) : List K := (cloud.map fun p => p.1.1).dedup.insertionSort (· ≤ ·)

/-- `wind_angles` (`/repo/hrosailing/polardiagram/_polardiagrampointcloud.py:227-230`). -/
def windAngles (cloud : List (Pt K)) : List K := (cloud.map fun p => p.1.2).dedup.insertionSort (· ≤ ·)

open Verif.Table (Text writeRows lines readRows parseRows)

/-- `to_csv` (`/repo/hrosailing/polardiagram/_polardiagrampointcloud.py:244-261`); `print` is the conversion of numbers
to text. -/
def toCsv (print : K → Text) (cloud : List (Pt K)) : Text :=
  writeRows ',' (["PolarDiagramPointcloud".toList] :: ["TWS".toList, "TWA".toList, "BSP".toList] ::
    cloud.map fun p => [print p.1.1, print p.1.2, print p.2])

/-- `np.array(points)` and the indexing `points[:, 0]`, `points[:, 1]` for lists of rows
(`/repo/hrosailing/polardiagram/_polardiagrampointcloud.py:268-270`, `:137-139`): no rows give an array of dimension
one and the indexing raises `IndexError`; rows with other than three numbers are not considered and raise some other
exception. -/
def toPoints : List (List K) → Except PyErr (List (Pt K))
  | [] => .ok []
  | [w, a, b] :: rows =>
    match toPoints rows with
    | .error e => .error e
    | .ok pts => .ok (((w, a), b) :: pts)
  | _ :: _ => .error .otherError

/-- `from_csv` for point clouds (`/repo/hrosailing/polardiagram/_reading.py:80-90`,
`/repo/hrosailing/polardiagram/_polardiagrampointcloud.py:263-270`). -/
def fromCsv (parse : Text → Except PyErr K) (text : Text) : Except PyErr (List (Pt K)) :=
  match lines text with
  | [] => .error .otherError
  | first :: ls =>
    if first ≠ "PolarDiagramPointcloud".toList then .error .otherError
    else
      match readRows ',' ls with
      | [] => .error .otherError
      | _ :: rows =>
        match parseRows parse rows with
        | .error e => .error e
        | .ok rows =>
          if rows.isEmpty then .error .indexError
          else
            match toPoints rows with
            | .error e => .error e
            | .ok pts => .ok (init pts)

end Verif.Cloud
