import Mathlib.Algebra.Order.Floor.Ring
import Mathlib.Data.Rat.Floor
import Verif.Model.Round
import Verif.Model.Table
import Verif.Model.Pointcloud

/-!
# `hrosailing.pipeline.extensions`

Model of `/repo/hrosailing/pipeline/extensions.py`. A weighted point is a point `((ws, wa), bsp)` with its weight;
interpolators and neighbourhoods are parameters.
-/

namespace Verif.Ext

open Verif.Interp

variable {K : Type} [Field K] [LinearOrder K] [FloorRing K]

/-- python's `range(start, stop, step)` for a positive step (`/repo/hrosailing/pipeline/extensions.py:148-149`, `:161`). -/
def pyRange (start stop step : ℤ) : List ℤ :=
  (List.range ((stop - start + step - 1) / step).toNat).map fun (i : Nat) => start + (i : ℤ) * step

/-- `round(x.min())` and `round(x.max())` (`/repo/hrosailing/pipeline/extensions.py:146-147`, `:155-156`); numpy raises
`ValueError` for an empty array. -/
def roundedSpan : List K → Except PyErr (ℤ × ℤ)
  | [] => .error .valueError
  | x :: xs => .ok (pyRound (xs.foldl min x), pyRound (xs.foldl max x))

/-- `_min_max_resolution` (`/repo/hrosailing/pipeline/extensions.py:145-151`). -/
def minMaxResolution (points : List (Pt K)) : Except PyErr (List ℤ × List ℤ) := do
  let (wsMin, wsMax) ← roundedSpan (points.map fun p => p.1.1)
  .ok (pyRange wsMin (wsMax + 1) 2, pyRange 5 356 5)

/-- The number of entries selected by the mask for the multiple `w` of `n`
(`/repo/hrosailing/pipeline/extensions.py:162-169`). -/
def countNear (points : List K) (n wMin wMax wStart wEnd w : ℤ) : Nat :=
  (points.filter fun p =>
    if w = wStart then decide (p ≤ (w : K)) && decide ((wMin : K) ≤ p)
    else if w = wEnd then decide (p ≤ (wMax : K)) && decide ((w : K) ≤ p)
    else decide (p ≤ (w : K)) && decide (((w - n : ℤ) : K) ≤ p)).length

/-- `_extract_wind` (`/repo/hrosailing/pipeline/extensions.py:154-172`); `//` is the floor division. -/
def extractWind (points : List K) (n : ℤ) (threshold : Nat) : Except PyErr (List ℤ) := do
  let (wMin, wMax) ← roundedSpan points
  let wStart := (wMin / n + 1) * n
  let wEnd := wMax / n * n
  .ok ([wMax, wMin] ++ (pyRange wStart (wEnd + n) n).filter fun w =>
    decide (threshold ≤ countNear points n wMin wMax wStart wEnd w))

/-- `_automatically_determined_resolution` (`/repo/hrosailing/pipeline/extensions.py:138-142`). -/
def autoResolution (points : List (Pt K)) : Except PyErr (List ℤ × List ℤ) := do
  let ws ← extractWind (points.map fun p => p.1.1) 2 100
  let wa ← extractWind (points.map fun p => p.1.2) 5 30
  .ok (ws, wa)

/-- The argument `wind_resolution` (`/repo/hrosailing/pipeline/extensions.py:122-135`). -/
inductive WindResolution (K : Type)
  | auto
  | minMax
  | standard
  | pair (ws wa : Table.Resolution K)

/-- `_determine_table_size` (`/repo/hrosailing/pipeline/extensions.py:122-135`). -/
def tableSize (points : List (Pt K)) : WindResolution K → Except PyErr (List K × List K)
  | .auto => do
    let (ws, wa) ← autoResolution points
    .ok (ws.map fun (w : ℤ) => (w : K), wa.map fun (w : ℤ) => (w : K))
  | .minMax => do
    let (ws, wa) ← minMaxResolution points
    .ok (ws.map fun (w : ℤ) => (w : K), wa.map fun (w : ℤ) => (w : K))
  | .standard => do
    let ws ← Table.buildWs (K := K) .standard
    let wa ← Table.buildWa (K := K) .standard
    .ok (ws, wa)
  | .pair ws wa => do
    let ws ← Table.buildWs ws
    let wa ← Table.buildWa wa
    .ok (ws, wa)

/-- `_interpolate_point` (`/repo/hrosailing/pipeline/extensions.py:341-359`), without the warning. -/
def interpolatePoint (nbh : K × K → Bool) (interpolate : List (Pt K × K) → K × K → Except PyErr K)
    (points : List (Pt K × K)) (g : K × K) : Except PyErr (Pt K) :=
  match points.filter fun p => nbh (p.1.1 - g) with
  | [] => .ok (g, 0)
  | p :: ps => do
    let v ← interpolate (p :: ps) g
    .ok (g, v)

/-- `_interpolate_points` (`/repo/hrosailing/pipeline/extensions.py:330-338`). -/
def interpolatePoints (nbh : K × K → Bool) (interpolate : List (Pt K × K) → K × K → Except PyErr K)
    (points : List (Pt K × K)) (gs : List (K × K)) : Except PyErr (List (Pt K)) :=
  gs.mapM (interpolatePoint nbh interpolate points)

/-- `np.column_stack` of the ravelled `np.meshgrid(ws, wa)` (`/repo/hrosailing/pipeline/extensions.py:110-111`): the wind
speed varies first. -/
def gridPoints (ws wa : List K) : List (K × K) := wa.flatMap fun a => ws.map fun w => (w, a)

/-- `l.reshape(rows, cols)` (`/repo/hrosailing/pipeline/extensions.py:177`) for a list of length `rows * cols`. -/
def reshape (rows cols : Nat) (l : List K) : List (List K) :=
  (List.range rows).map fun i => (l.drop (i * cols)).take cols

/-- `TableExtension.process` (`/repo/hrosailing/pipeline/extensions.py:90-120`). An empty grid raises `IndexError` at
`interpolated_points[:, 2]` (line 176). -/
def tableProcess (res : WindResolution K) (nbh : K × K → Bool)
    (interpolate : List (Pt K × K) → K × K → Except PyErr K) (points : List (Pt K × K)) : Except PyErr (Table K) := do
  let (ws, wa) ← tableSize (points.map Prod.fst) res
  let pts ← interpolatePoints nbh interpolate points (gridPoints ws wa)
  match pts with
  | [] => .error .indexError
  | _ :: _ => Table.init (.values ws) (.values wa) (some (reshape wa.length ws.length (pts.map Prod.snd)))

/-- `PointcloudExtension.process` (`/repo/hrosailing/pipeline/extensions.py:295-321`); `sample` is the method of the
sampler. An empty sample raises `IndexError` at `points[:, 0]`
(`/repo/hrosailing/polardiagram/_polardiagrampointcloud.py:138`). -/
def cloudProcess (sample : List (Pt K) → Except PyErr (List (K × K))) (nbh : K × K → Bool)
    (interpolate : List (Pt K × K) → K × K → Except PyErr K) (points : List (Pt K × K)) : Except PyErr (List (Pt K)) := do
  let gs ← sample (points.map Prod.fst)
  let pts ← interpolatePoints nbh interpolate points gs
  match pts with
  | [] => .error .indexError
  | _ :: _ => .ok (Cloud.init pts)

/-- `CurveExtension.process` (`/repo/hrosailing/pipeline/extensions.py:223-252`): the parameters found by the regressor,
and the data of the caller afterwards, whose angles are converted in place if `radians` is set. `rad` is the factor
of `np.deg2rad`. -/
def curveProcess {P : Type} (fit : List (Pt K) → P) (rad : K) (radians : Bool) (points : List (Pt K)) : P × List (Pt K) :=
  let points := if radians then points.map fun p => ((p.1.1, rad * p.1.2), p.2) else points
  (fit points, points)

end Verif.Ext
