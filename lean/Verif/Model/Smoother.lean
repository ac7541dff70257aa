import Mathlib.Algebra.Order.Field.Basic
import Verif.Model.Py
import Verif.Model.Dict

/-!
# `hrosailing.processing.smoother`

Model of `/repo/hrosailing/processing/smoother.py` over an arbitrary ordered field: time stamps and time spans are
given in seconds.
-/

namespace Verif.Smoother

variable {K : Type} [Field K] [LinearOrder K]

/-- A plateau: the interval of times and the value (`/repo/hrosailing/processing/smoother.py:125-126`). -/
structure Plateau (K : Type) where
  lb : K
  ub : K
  y : K
  deriving DecidableEq, Repr

/-- The loop of `_get_interval_bounds` (`/repo/hrosailing/processing/smoother.py:127-139`) with the current values of
`x_lb` and `y_lb`, the current pair `(x, y)` and the following pairs. The condition `i == len(ys) - 2` says that there
is only one following pair. -/
def boundsLoop : K → K → K × K → List (K × K) → List (Plateau K)
  | _, _, _, [] => []
  | xlb, ylb, p, q :: l =>
    if l.isEmpty then [⟨xlb, q.1, p.2⟩]
    else if p.2 = q.2 then boundsLoop xlb ylb q l
    else ⟨xlb, 1 / 2 * (p.1 + q.1), ylb⟩ :: boundsLoop (1 / 2 * (p.1 + q.1)) q.2 q l

/-- `_get_interval_bounds` (`/repo/hrosailing/processing/smoother.py:122-141`) on the list of pairs of times and
values. -/
def intervalBounds : List (K × K) → List (Plateau K)
  | [] => []
  | p :: l => boundsLoop p.1 p.2 p l

/-- An interval of times with the values at both ends (`/repo/hrosailing/processing/smoother.py:144-145`). -/
structure Seg (K : Type) where
  xlb : K
  xub : K
  ylb : K
  yub : K
  deriving DecidableEq, Repr

/-- The loop of `_approximate_intervals` (`/repo/hrosailing/processing/smoother.py:151-175`) with the current value of
`y_before`; `last` is `ys[-1]`. -/
def approxLoop (timespan last : K) : K → List (Plateau K) → List (Seg K)
  | _, [] => []
  | before, p :: ps =>
    let after := match ps with
      | [] => last
      | q :: _ => q.y
    (if p.ub - p.lb < 2 * timespan then
      let mid := 1 / 2 * (p.ub + p.lb)
      [⟨p.lb, mid, 1 / 2 * (before + p.y), p.y⟩, ⟨mid, p.ub, p.y, 1 / 2 * (after + p.y)⟩]
    else
      [⟨p.lb, p.lb + timespan, 1 / 2 * (before + p.y), p.y⟩,
       ⟨p.lb + timespan, p.ub - timespan, p.y, p.y⟩,
       ⟨p.ub - timespan, p.ub, p.y, 1 / 2 * (after + p.y)⟩]) ++ approxLoop timespan last p.y ps

/-- The `while` loop moving to the interval of `x` (`/repo/hrosailing/processing/smoother.py:187-190`): the interval
and the remaining ones, `none` for the `IndexError` after the last interval. -/
def advance (x : K) : Seg K → List (Seg K) → Option (Seg K × List (Seg K))
  | cur, [] => if x > cur.xub then none else some (cur, [])
  | cur, n :: rest => if x > cur.xub then advance x n rest else some (cur, n :: rest)

/-- The value assigned to an entry (`/repo/hrosailing/processing/smoother.py:194-198`). -/
def value (s : Seg K) (x : K) : K :=
  if s.xub - s.xlb = 0 then s.yub
  else
    let mu := (x - s.xlb) / (s.xub - s.xlb)
    mu * s.yub + (1 - mu) * s.ylb

/-- `_smooth_data_from_approx_intervals` (`/repo/hrosailing/processing/smoother.py:182-200`) on the list of pairs of
times and values: the new values. After an `IndexError` the remaining values are not changed. -/
def smoothLoop : Seg K → List (Seg K) → List (K × K) → List K
  | _, _, [] => []
  | cur, rest, (x, y) :: l =>
    match advance x cur rest with
    | none => y :: l.map Prod.snd
    | some (c, r) => value c x :: smoothLoop c r l

/-- `_smooth_field` (`/repo/hrosailing/processing/smoother.py:103-120`): the new values of a column. No interval
(fewer than two rows) results in an `IndexError`. -/
def smoothField (timespan : K) (times ys : List K) : Except PyErr (List K) :=
  match times, ys with
  | t0 :: _, y0 :: ys' =>
    let pts := (times.map fun t => t - t0).zip ys
    match approxLoop timespan (((y0 :: ys').getLast?).getD 0) y0 (intervalBounds pts) with
    | [] => .error .indexError
    | s :: segs => .ok (smoothLoop s segs pts)
  | _, _ => .error .indexError

/-- A column of the data: numbers (type `float`, no missing values) or something else
(`/repo/hrosailing/processing/smoother.py:98-100`). -/
inductive Col (K V : Type)
  | floats (l : List K)
  | other (l : List V)
  deriving DecidableEq, Repr

/-- `AffineSmoother.smooth` (`/repo/hrosailing/processing/smoother.py:85-101`) for data with the column `"datetime"`
given by `times` and other columns `cols`. The check of the order only involves the first time stamp. -/
def smooth {κ V : Type} (timespan : K) (times : List K) (cols : Dict κ (Col K V)) :
    Except PyErr (Dict κ (Col K V)) :=
  if times.any fun t => decide (t < times.headD t) then .error .valueError
  else
    cols.mapM fun p =>
      match p.2 with
      | .other l => .ok (p.1, .other l)
      | .floats ys =>
        match smoothField timespan times ys with
        | .error e => .error e
        | .ok l => .ok (p.1, .floats l)

end Verif.Smoother
