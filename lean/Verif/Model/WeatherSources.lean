import Verif.Model.Weather
import Mathlib.Data.Rat.Floor

/-!
# Sources of gridded weather

Model of `NetCDFWeatherModel.__init__`, as far as times and attributes are concerned, and of
`GriddedWeatherModel.from_meteostat` (`/repo/hrosailing/models/weather_model.py:337-412`, `:139-199`). Times are seconds.
-/

namespace Verif.Sources

open Verif.Weather (Gridded)

/-! ### NetCDF -/

/-- `int(plain_time)` (`/repo/hrosailing/models/weather_model.py:401-404`) of a float: towards 0. -/
def truncate (x : ℚ) : ℤ := if 0 ≤ x then ⌊x⌋ else ⌈x⌉

/-- `"hours since "` (`/repo/hrosailing/models/weather_model.py:376`). -/
def hoursSince : List Char := ['h', 'o', 'u', 'r', 's', ' ', 's', 'i', 'n', 'c', 'e', ' ']

/-- `"seconds since "` (`/repo/hrosailing/models/weather_model.py:379`). -/
def secondsSince : List Char := ['s', 'e', 'c', 'o', 'n', 'd', 's', ' ', 's', 'i', 'n', 'c', 'e', ' ']

/-- `timestep` and `datetime_str` (`/repo/hrosailing/models/weather_model.py:375-386`); `NotImplementedError` is
`otherError`. -/
def unit (units : List Char) : Except PyErr (ℚ × List Char) :=
  if hoursSince.isPrefixOf units then .ok (3600, units.drop 12)
  else if secondsSince.isPrefixOf units then .ok (1, units.drop 14)
  else .error .otherError

/-- The two formats (`/repo/hrosailing/models/weather_model.py:387`). -/
inductive Fmt
  | minutes
  | seconds
  deriving DecidableEq

/-- `starting_time` (`/repo/hrosailing/models/weather_model.py:387-399`); `strptime` gives `none` for `ValueError`. -/
def startTime (strptime : List Char → Fmt → Option ℚ) (s : List Char) : Except PyErr ℚ :=
  match strptime s .minutes with
  | some t => .ok t
  | none =>
    match strptime s .seconds with
    | some t => .ok t
    | none => .error .otherError

/-- `times` (`/repo/hrosailing/models/weather_model.py:373-404`). -/
def netTimes (strptime : List Char → Fmt → Option ℚ) (units : List Char) (plain : List ℚ) : Except PyErr (List ℚ) :=
  match unit units with
  | .error e => .error e
  | .ok (step, s) =>
    match startTime strptime s with
    | .error e => .error e
    | .ok start => .ok (plain.map fun x => start + truncate x * step)

/-- `attrs` (`/repo/hrosailing/models/weather_model.py:406-410`). -/
def netAttrs {κ : Type} [DecidableEq κ] (aliases : List κ) (vars : List κ) : List κ :=
  vars.filter fun v => decide (v ∉ aliases)

/-! ### meteostat -/

variable {K T κ : Type}

/-- The data frame of a station (`/repo/hrosailing/models/weather_model.py:180-185`): its times, and its rows restricted to
the keys. -/
structure Frame (K T : Type) where
  times : List T
  rows : List (List K)
  deriving DecidableEq

/-- `max_len` (`/repo/hrosailing/models/weather_model.py:188`) for at least one longitude. -/
def maxLen (frames : List (Frame K T)) : Nat := (frames.map fun f => f.rows.length).foldl max 0

/-- `np.stack(lon_data, axis=0)` after the replacement of empty arrays (`/repo/hrosailing/models/weather_model.py:188-193`):
`max` of nothing and stacking arrays of different shapes are `ValueError`s. Comparing an array that is not empty with `[]`
is false (numpy 1.22). -/
def stackLons [OfNat K 0] (nKeys : Nat) (frames : List (Frame K T)) : Except PyErr (List (List (List K))) :=
  match frames with
  | [] => .error .valueError
  | _ :: _ =>
    let filled := frames.map fun f => if f.rows.isEmpty then List.replicate (maxLen frames) (List.replicate nKeys 0) else f.rows
    if filled.all fun d => d.length == (filled.headD []).length then .ok filled else .error .valueError

/-- The loop over the latitudes (`/repo/hrosailing/models/weather_model.py:176-193`). -/
def fetchLats [OfNat K 0] (fetch : ℚ → ℚ → Frame K T) (nKeys : Nat) (lons : List ℚ) : List ℚ → Except PyErr (List (List (List (List K))))
  | [] => .ok []
  | lat :: lats =>
    match stackLons nKeys (lons.map (fetch lat)) with
    | .error e => .error e
    | .ok d =>
      match fetchLats fetch nKeys lons lats with
      | .error e => .error e
      | .ok ds => .ok (d :: ds)

/-- A weather model made from stations (`/repo/hrosailing/models/weather_model.py:195-199`). -/
structure Fetched (K T κ : Type) where
  times : List T
  lats : List ℚ
  lons : List ℚ
  attrs : List κ
  data : List (List (List (List K)))
  deriving DecidableEq

/-- The number of hours of stacked data of a latitude (`/repo/hrosailing/models/weather_model.py:195`). -/
def hours (d : List (List (List K))) : Nat := (d.headD []).length

/-- `from_meteostat` (`/repo/hrosailing/models/weather_model.py:139-199`). Without latitudes or longitudes there are no
`times` (`UnboundLocalError`) resp. no maximum (`ValueError`); `np.stack` raises `ValueError` for different shapes. -/
def fromMeteostat [OfNat K 0] (fetch : ℚ → ℚ → Frame K T) (keys : List κ) (lats lons : List ℚ) : Except PyErr (Fetched K T κ) :=
  match lats.getLast?, lons.getLast? with
  | none, _ => .error .otherError
  | some _, none => .error .valueError
  | some la, some lo =>
    match fetchLats fetch keys.length lons lats with
    | .error e => .error e
    | .ok datas =>
      if datas.all fun d => hours d == hours (datas.headD []) then
        .ok ⟨(fetch la lo).times, lats, lons, keys,
          (List.range (hours (datas.headD []))).map fun t => datas.map fun d => d.map fun r => r.getD t []⟩
      else .error .valueError

end Verif.Sources
