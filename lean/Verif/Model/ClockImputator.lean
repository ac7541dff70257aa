import Verif.Model.Float64
import Verif.Model.Imputator

/-!
# `FillLocalImputator` with python's time stamps

Model of `/repo/hrosailing/processing/imputator.py:144-305` with the arithmetic of python: time stamps and time spans are whole
numbers of microseconds, quotients of integers and of time spans are doubles, and the product of a double and a time span is
rounded to the nearest microsecond, ties to even.
-/

namespace Verif.Clock

open Verif.Imputator Verif.F64

/-- `last_dt + mu * (dt - last_dt)` with `mu = (j - last_i) / (i - last_i)` (`/repo/hrosailing/processing/imputator.py:202-203`). -/
def stamp (lastI i : Nat) (lastDt dt : Int) (j : Nat) : Int :=
  lastDt + pyRound (fl (((j : ℚ) - lastI) / ((i : ℚ) - lastI)) * ((dt - lastDt : Int) : ℚ))

/-- The inner loop of `_interpolate_datetime` (`/repo/hrosailing/processing/imputator.py:201-203`). -/
def fillStamps (col : List (Option Int)) (lastI : Nat) (lastDt : Int) (i : Nat) (dt : Int) : List (Option Int) :=
  (List.range' (lastI + 1) (i - (lastI + 1))).foldl (fun c j => c.set j (some (stamp lastI i lastDt dt j))) col

/-- The loop of `_interpolate_datetime` (`/repo/hrosailing/processing/imputator.py:191-204`), see `Imputator.interpLoop`. -/
def stampLoop (maxDiff : Int) : Nat → List (Option Int) → Option (Int × Nat) → List (Option Int) → List (Option Int)
  | _, [], _, col => col
  | i, none :: rest, last, col => stampLoop maxDiff (i + 1) rest last col
  | i, some dt :: rest, none, col => stampLoop maxDiff (i + 1) rest (some (dt, i)) col
  | i, some dt :: rest, some (lastDt, lastI), col =>
    if |dt - lastDt| > maxDiff then stampLoop maxDiff (i + 1) rest (some (lastDt, lastI)) col
    else stampLoop maxDiff (i + 1) rest (some (dt, i)) (fillStamps col lastI lastDt i dt)

/-- `_interpolate_datetime` (`/repo/hrosailing/processing/imputator.py:190-206`). -/
def interpolateStamps (maxDiff : Int) (times : List (Option Int)) : List (Option Int) := stampLoop maxDiff 0 times none times

/-- The fill functions get the quotient `mu` of two time spans as a double (`/repo/hrosailing/processing/imputator.py:284`,
`:290`, `:295-300`). -/
def rounded {κ V : Type} (f : Fills κ V) : Fills κ V :=
  ⟨fun k v mu => f.before k v (fl mu), fun k v w mu => f.between k v w (fl mu), fun k v mu => f.after k v (fl mu)⟩

/-- `FillLocalImputator.impute` (`/repo/hrosailing/processing/imputator.py:144-188`), see `Imputator.impute`. Differences and
comparisons of time stamps are exact. -/
def impute {κ V : Type} (f : Fills κ V) (maxDiff : Int) (times : List (Option Int)) (cols : Dict κ (List (Option V))) :
    Except PyErr ((List Int × Dict κ (List (Option V))) × Stats) :=
  let given := cols.length
  let cols := Dict.filterItems (fun _ v => ! v.all Option.isNone) cols
  if times.all Option.isNone then .error .keyError
  else
    let times := interpolateStamps maxDiff times
    let remove := indicesFrom Option.isNone 0 times
    let times := (Data.dropIdx (remove.map Int.ofNat) 0 times).filterMap id
    let cols := Dict.mapVals (Data.dropIdx (remove.map Int.ofNat) 0) cols
    let filled := cols.map fun p => (p.1, fillCol (rounded f) (maxDiff : ℚ) (times.map (fun (t : Int) => (t : ℚ))) p.1 p.2)
    let nFilled := (filled.map fun p => p.2.2).sum
    let cols := filled.map fun p => (p.1, p.2.1)
    let remove' := incomplete times.length cols
    let times := Data.dropIdx (remove'.map Int.ofNat) 0 times
    let cols := Dict.mapVals (Data.dropIdx (remove'.map Int.ofNat) 0) cols
    .ok ((times, cols), ⟨(given : Int) - cols.length, remove.length + remove'.length, nFilled, times.length, cols.length + 1⟩)

end Verif.Clock
