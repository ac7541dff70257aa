import Mathlib.Algebra.Order.Field.Basic
import Verif.Model.Py
import Verif.Model.Dict

/-!
# `hrosailing.models.weather_model`

Model of `GriddedWeatherModel.get_weather`, `_recursive_affine_interpolation` and `MultiWeatherModel`
(`/repo/hrosailing/models/weather_model.py`). Times are numbers like the other coordinates (only differences and
quotients of differences of times are used, lines 302-304); arithmetic is exact.
-/

namespace Verif.Weather

variable {K : Type} [Field K] [LinearOrder K]

/-- The loop of `bisect.bisect_left(a, x, lo, hi)` of the python standard library, used in
`/repo/hrosailing/models/weather_model.py:261-263`; `none` stands for `IndexError` (impossible if `hi ≤ len(a)`). -/
def bisectLoop (a : List K) (x : K) (lo hi : Nat) : Option Nat :=
  if h : lo < hi then
    match a[(lo + hi) / 2]? with
    | none => none
    | some y => if y < x then bisectLoop a x ((lo + hi) / 2 + 1) hi else bisectLoop a x lo ((lo + hi) / 2)
  else some lo
termination_by hi - lo
decreasing_by all_goals omega

/-- `bisect_left(a, x)` (`/repo/hrosailing/models/weather_model.py:262`). -/
def bisectLeft (a : List K) (x : K) : Option Nat := bisectLoop a x 0 a.length

/-- The entries of `grid`, `point`, `cuboid` and `cuboid_vals` for one dimension
(`/repo/hrosailing/models/weather_model.py:262-281`). -/
structure Dim (K : Type) where
  grid : List K
  comp : K
  cuboid : List Nat
  vals : List K

/-- `idxs`, `flags`, `cuboid`, `cuboid_vals` for one dimension
(`/repo/hrosailing/models/weather_model.py:262-281`). -/
def mkDim (g : List K) (x : K) : Except PyErr (Dim K) :=
  match bisectLeft g x with
  | none => .error .indexError
  | some idx =>
    match g[idx]? with
    | none => .error .indexError
    | some y =>
      if y = x then .ok ⟨g, x, [idx], [y]⟩
      else
        match pyIndex g ((idx : Int) - 1) with
        | none => .error .indexError
        | some z => .ok ⟨g, x, [idx - 1, idx], [z, y]⟩

/-- The check whether one coordinate lies outside of the grid
(`/repo/hrosailing/models/weather_model.py:250-259`). -/
def outside (g : List K) (x : K) : Except PyErr Bool :=
  match g.head?, g.getLast? with
  | some l, some r => .ok (decide (x < l) || decide (r < x))
  | _, _ => .error .indexError

/-- `lamb * term0 + (1 - lamb) * term1` for numpy arrays (`/repo/hrosailing/models/weather_model.py:311`). -/
def combine (lamb : K) (t0 t1 : List K) : List K := List.zipWith (fun a b => lamb * a + (1 - lamb) * b) t0 t1

/-- The inner function `recursion` (`/repo/hrosailing/models/weather_model.py:283-311`) for the dimensions that are not
completed yet. The list `point_` is only changed at completed dimensions, hence not needed as an argument. -/
def recursion (get : List Nat → Except PyErr (List K)) : List (Dim K) → List Nat → Except PyErr (List K)
  | [], completed => get completed
  | d :: ds, completed =>
    if d.comp ∈ d.vals then recursion get ds (completed ++ [d.vals.idxOf d.comp])
    else
      match d.cuboid with
      | [idx0, idx1] =>
        match d.grid[idx1]?, d.grid[idx0]? with
        | some val1, some val0 =>
          if val0 = val1 then .error .zeroDivisionError
          else
            match recursion get ds (completed ++ [idx0]) with
            | .error e => .error e
            | .ok t0 =>
              match recursion get ds (completed ++ [idx1]) with
              | .error e => .error e
              | .ok t1 => .ok (combine ((d.comp - val1) / (val0 - val1)) t0 t1)
        | _, _ => .error .indexError
      | _ => .error .indexError

/-- The grid and the data of a `GriddedWeatherModel` (`/repo/hrosailing/models/weather_model.py:86-91`): the data is an
array of shape `(n, m, r, s)`. -/
structure Gridded (κ K : Type) where
  times : List K
  lats : List K
  lons : List K
  attrs : List κ
  data : List (List (List (List K)))

/-- `_get_data`: indexing of the array `_data` (`/repo/hrosailing/models/weather_model.py:135-136`) with three
indices. -/
def Gridded.getData {κ : Type} (G : Gridded κ K) : List Nat → Except PyErr (List K)
  | [i, j, k] =>
    match G.data[i]? with
    | none => .error .indexError
    | some a =>
      match a[j]? with
      | none => .error .indexError
      | some b =>
        match b[k]? with
        | none => .error .indexError
        | some c => .ok c
  | _ => .error .indexError

/-- Whether any of the coordinates lies outside (`/repo/hrosailing/models/weather_model.py:250-259`). -/
def anyOutside {κ : Type} (G : Gridded κ K) (t la lo : K) : Except PyErr Bool :=
  match outside G.times t, outside G.lats la, outside G.lons lo with
  | .ok a, .ok b, .ok c => .ok (a || b || c)
  | _, _, _ => .error .indexError

/-- `_recursive_affine_interpolation` (`/repo/hrosailing/models/weather_model.py:249-313`) for a point with three
coordinates. -/
def interpolate {κ : Type} (G : Gridded κ K) (t la lo : K) : Except PyErr (List K) :=
  match anyOutside G t la lo with
  | .error e => .error e
  | .ok true => .error .valueError
  | .ok false =>
    match mkDim G.times t, mkDim G.lats la, mkDim G.lons lo with
    | .ok d0, .ok d1, .ok d2 => recursion G.getData [d0, d1, d2] []
    | _, _, _ => .error .indexError

/-- `get_weather` (`/repo/hrosailing/models/weather_model.py:118-133`), the dictionary as a list of pairs. -/
def getWeather {κ : Type} (G : Gridded κ K) (t la lo : K) : Except PyErr (Dict κ K) :=
  match interpolate G t la lo with
  | .error e => .error e
  | .ok vals => .ok (G.attrs.zip vals)

end Verif.Weather
