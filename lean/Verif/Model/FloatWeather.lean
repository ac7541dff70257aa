import Verif.Model.Float64
import Verif.Model.Weather

/-!
# `hrosailing.models.weather_model` in double precision

Model of `_recursive_affine_interpolation` (`/repo/hrosailing/models/weather_model.py:249-313`) as it is calculated: the
result of each arithmetic operation is rounded to the nearest double. The search for the cell of the grid only compares
numbers and is the same as in `Verif.Model.Weather`. Times are numbers of microseconds; differences of times are whole
numbers, which are not changed by rounding below `2 ^ 53` (about 285 years).
-/

namespace Verif.F64

variable {K : Type} [Field K] [LinearOrder K] [FloorRing K]

/-- `lamb = (comp - val1) / (val0 - val1)` (`/repo/hrosailing/models/weather_model.py:303`) in double precision. -/
def lamb (comp val0 val1 : K) : K := fl (fl (comp - val1) / fl (val0 - val1))

/-- `lamb * term0 + (1 - lamb) * term1` (`/repo/hrosailing/models/weather_model.py:311`) in double precision. -/
def combine (l : K) (t0 t1 : List K) : List K :=
  List.zipWith (fun a b => fl (fl (l * a) + fl (fl (1 - l) * b))) t0 t1

/-- The inner function `recursion` (`/repo/hrosailing/models/weather_model.py:283-311`) in double precision; the divisor is
zero if the rounded difference is. -/
def recursion (get : List Nat → Except PyErr (List K)) : List (Weather.Dim K) → List Nat → Except PyErr (List K)
  | [], completed => get completed
  | d :: ds, completed =>
    if d.comp ∈ d.vals then recursion get ds (completed ++ [d.vals.idxOf d.comp])
    else
      match d.cuboid with
      | [idx0, idx1] =>
        match d.grid[idx1]?, d.grid[idx0]? with
        | some val1, some val0 =>
          if fl (val0 - val1) = 0 then .error .zeroDivisionError
          else
            match recursion get ds (completed ++ [idx0]) with
            | .error e => .error e
            | .ok t0 =>
              match recursion get ds (completed ++ [idx1]) with
              | .error e => .error e
              | .ok t1 => .ok (combine (lamb d.comp val0 val1) t0 t1)
        | _, _ => .error .indexError
      | _ => .error .indexError

/-- `_recursive_affine_interpolation` (`/repo/hrosailing/models/weather_model.py:249-313`) in double precision. -/
def interpolate {κ : Type} (G : Weather.Gridded κ K) (t la lo : K) : Except PyErr (List K) :=
  match Weather.anyOutside G t la lo with
  | .error e => .error e
  | .ok true => .error .valueError
  | .ok false =>
    match Weather.mkDim G.times t, Weather.mkDim G.lats la, Weather.mkDim G.lons lo with
    | .ok d0, .ok d1, .ok d2 => recursion G.getData [d0, d1, d2] []
    | _, _, _ => .error .indexError

/-- `get_weather` (`/repo/hrosailing/models/weather_model.py:118-133`) in double precision. -/
def getWeather {κ : Type} (G : Weather.Gridded κ K) (t la lo : K) : Except PyErr (Dict κ K) :=
  match interpolate G t la lo with
  | .error e => .error e
  | .ok vals => .ok (G.attrs.zip vals)

end Verif.F64
