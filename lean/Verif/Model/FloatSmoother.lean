import Verif.Model.Float64
import Verif.Model.Smoother

/-!
# The affine smoother in double precision

Model of `AffineSmoother` (`/repo/hrosailing/processing/smoother.py`) with every operation on doubles rounded. Multiplication
by `1 / 2` is exact. Comparisons are those of the exact model.
-/

namespace Verif.F64

open Verif.Smoother (Plateau Seg advance Col)

variable {K : Type} [Field K] [LinearOrder K] [FloorRing K]

/-- `1 / 2 * (a + b)` (`/repo/hrosailing/processing/smoother.py:135`, `:137`, `:157`, `:160`): the sum is rounded. -/
def halfSum (a b : K) : K := 1 / 2 * fl (a + b)

/-- The loop of `_get_interval_bounds` (`/repo/hrosailing/processing/smoother.py:127-139`). -/
def boundsLoop : K → K → K × K → List (K × K) → List (Plateau K)
  | _, _, _, [] => []
  | xlb, ylb, p, q :: l =>
    if l.isEmpty then [⟨xlb, q.1, p.2⟩]
    else if p.2 = q.2 then boundsLoop xlb ylb q l
    else ⟨xlb, halfSum p.1 q.1, ylb⟩ :: boundsLoop (halfSum p.1 q.1) q.2 q l

/-- `_get_interval_bounds` (`/repo/hrosailing/processing/smoother.py:122-141`). -/
def intervalBounds : List (K × K) → List (Plateau K)
  | [] => []
  | p :: l => boundsLoop p.1 p.2 p l

/-- The loop of `_approximate_intervals` (`/repo/hrosailing/processing/smoother.py:151-175`). -/
def approxLoop (timespan last : K) : K → List (Plateau K) → List (Seg K)
  | _, [] => []
  | before, p :: ps =>
    let after := match ps with
      | [] => last
      | q :: _ => q.y
    (if fl (p.ub - p.lb) < 2 * timespan then
      let mid := halfSum p.ub p.lb
      [⟨p.lb, mid, halfSum before p.y, p.y⟩, ⟨mid, p.ub, p.y, halfSum after p.y⟩]
    else
      [⟨p.lb, fl (p.lb + timespan), halfSum before p.y, p.y⟩,
       ⟨fl (p.lb + timespan), fl (p.ub - timespan), p.y, p.y⟩,
       ⟨fl (p.ub - timespan), p.ub, p.y, halfSum after p.y⟩]) ++ approxLoop timespan last p.y ps

/-- The value assigned to an entry (`/repo/hrosailing/processing/smoother.py:194-198`). -/
def value (s : Seg K) (x : K) : K :=
  if fl (s.xub - s.xlb) = 0 then s.yub
  else
    let mu := fl (fl (x - s.xlb) / fl (s.xub - s.xlb))
    fl (fl (mu * s.yub) + fl (fl (1 - mu) * s.ylb))

/-- `_smooth_data_from_approx_intervals` (`/repo/hrosailing/processing/smoother.py:182-200`). -/
def smoothLoop : Seg K → List (Seg K) → List (K × K) → List K
  | _, _, [] => []
  | cur, rest, (x, y) :: l =>
    match advance x cur rest with
    | none => y :: l.map Prod.snd
    | some (c, r) => value c x :: smoothLoop c r l

/-- `_smooth_field` (`/repo/hrosailing/processing/smoother.py:103-120`): differences of time stamps are exact,
`total_seconds` rounds them to a double. -/
def smoothField (timespan : K) (times ys : List K) : Except PyErr (List K) :=
  match times, ys with
  | t0 :: _, y0 :: ys' =>
    let pts := (times.map fun t => fl (t - t0)).zip ys
    match approxLoop timespan (((y0 :: ys').getLast?).getD 0) y0 (intervalBounds pts) with
    | [] => .error .indexError
    | s :: segs => .ok (smoothLoop s segs pts)
  | _, _ => .error .indexError

/-- `AffineSmoother.smooth` (`/repo/hrosailing/processing/smoother.py:85-101`); `timespan` is the result of
`total_seconds` (`:83`). -/
def smooth {κ V : Type} (timespan : K) (times : List K) (cols : Dict κ (Col K V)) :
    Except PyErr (Dict κ (Col K V)) :=
  if times.any fun t => decide (t < times.headD t) then .error .valueError
  else
    cols.mapM fun p =>
      match p.2 with
      | .other l => .ok (p.1, .other l)
      | .floats ys =>
        match smoothField (fl timespan) times ys with
        | .error e => .error e
        | .ok l => .ok (p.1, .floats l)

end Verif.F64
