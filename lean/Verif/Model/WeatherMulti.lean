import Verif.Model.Weather

/-!
# `MultiWeatherModel`, `NetCDFWeatherModel._get_data` and weather files

Model of further parts of `/repo/hrosailing/models/weather_model.py`.
-/

namespace Verif.Weather

/-! ### `MultiWeatherModel` -/

/-- `d.update(e)` for dictionaries (`/repo/hrosailing/models/weather_model.py:493`). -/
def dictUpdate {κ V : Type} [DecidableEq κ] (d e : Dict κ V) : Dict κ V := e.foldl (fun d p => d.set p.1 p.2) d

/-- The exceptions caught in `/repo/hrosailing/models/weather_model.py:494-498`. `NotImplementedError` is a
`RuntimeError` and not among them. -/
def caught : PyErr → Bool
  | .valueError | .typeError | .keyError => true
  | _ => false

/-- The loop of `MultiWeatherModel.get_weather` (`/repo/hrosailing/models/weather_model.py:490-501`), starting with the
dictionary collected so far. -/
def multiLoop {κ V P : Type} [DecidableEq κ] (sensitive : Bool) (p : P) :
    List (P → Except PyErr (Dict κ V)) → Dict κ V → Except PyErr (Dict κ V)
  | [], d => .ok d
  | m :: ms, d =>
    match m p with
    | .ok w => multiLoop sensitive p ms (dictUpdate d w)
    | .error e =>
      if caught e then
        if sensitive then .error e else multiLoop sensitive p ms d
      else .error e

/-- `MultiWeatherModel.get_weather` (`/repo/hrosailing/models/weather_model.py:482-501`). -/
def multiWeather {κ V P : Type} [DecidableEq κ] (sensitive : Bool) (models : List (P → Except PyErr (Dict κ V)))
    (p : P) : Except PyErr (Dict κ V) := multiLoop sensitive p models []

/-! ### `NetCDFWeatherModel` -/

/-- The dimensions of a NetCDF variable: the aliases of time, latitude and longitude, or another coordinate
(`/repo/hrosailing/models/weather_model.py:429-445`). -/
inductive Coord (κ : Type)
  | time | lat | lon
  | other (name : κ)
  deriving DecidableEq, Repr

/-- A variable of a NetCDF file: its dimensions in the order of the file, and its entries
(`/repo/hrosailing/models/weather_model.py:423-428`). -/
structure Var (κ V : Type) where
  dims : List (Coord κ)
  entry : List Nat → V

/-- `lats[-1] < lats[0]` (`/repo/hrosailing/models/weather_model.py:361-367`); empty dimensions raise. -/
def isFlipped {K : Type} [LinearOrder K] (file : List K) : Except PyErr Bool :=
  match file.getLast?, file.head? with
  | some l, some h => .ok (decide (l < h))
  | _, _ => .error .indexError

/-- The coordinates of the grid (`/repo/hrosailing/models/weather_model.py:368-371`). -/
def gridCoords {K : Type} (flipped : Bool) (file : List K) : List K := if flipped then file.reverse else file

/-- `len(lats) - idxs[1] - 1 if self._lats_flipped else idxs[1]`
(`/repo/hrosailing/models/weather_model.py:417-418`); grid indices are always smaller than the length. -/
def fileIdx (flipped : Bool) (len idx : Nat) : Nat := if flipped then len - idx - 1 else idx

/-- The loop building `new_idxs` (`/repo/hrosailing/models/weather_model.py:429-445`); the other branch raises
`NotImplementedError`. -/
def varIdxs {κ : Type} [DecidableEq κ] (further : Dict κ Nat) (t la lo : Nat) :
    List (Coord κ) → Except PyErr (List Nat)
  | [] => .ok []
  | c :: cs =>
    match (match c with
      | .lat => (.ok la : Except PyErr Nat)
      | .lon => .ok lo
      | .time => .ok t
      | .other n =>
        match further.get? n with
        | some i => .ok i
        | none => .error .runtimeError) with
    | .error e => .error e
    | .ok i =>
      match varIdxs further t la lo cs with
      | .error e => .error e
      | .ok r => .ok (i :: r)

/-- The loop over the attributes (`/repo/hrosailing/models/weather_model.py:422-448`), the dimensions of the variables
being known (the fallback for `AttributeError`, lines 425-427, is left out). -/
def netData {κ V : Type} [DecidableEq κ] (further : Dict κ Nat) (t la lo : Nat) :
    List (Var κ V) → Except PyErr (List V)
  | [] => .ok []
  | v :: vs =>
    match varIdxs further t la lo v.dims with
    | .error e => .error e
    | .ok is =>
      match netData further t la lo vs with
      | .error e => .error e
      | .ok r => .ok (v.entry is :: r)

/-- `NetCDFWeatherModel._get_data` (`/repo/hrosailing/models/weather_model.py:414-448`). -/
def netGetData {κ V : Type} [DecidableEq κ] (further : Dict κ Nat) (latsFlipped lonsFlipped : Bool)
    (nLats nLons : Nat) (vars : List (Var κ V)) (t la lo : Nat) : Except PyErr (List V) :=
  netData further t (fileIdx latsFlipped nLats la) (fileIdx lonsFlipped nLons lo) vars

/-! ### Weather files -/

/-- `to_file` (`/repo/hrosailing/models/weather_model.py:201-212`, encoder `:231-246`): the five parts in the file, the
times being formatted by `"%d.%m.%Y:%X"`. JSON represents the numbers and names exactly. -/
def toFile {κ K T S : Type} (fmt : T → S) (data : List (List (List (List K)))) (times : List T) (lats lons : List K)
    (attrs : List κ) : List (List (List (List K))) × List S × List K × List K × List κ :=
  (data, times.map fmt, lats, lons, attrs)

/-- `from_file` (`/repo/hrosailing/models/weather_model.py:214-228`); `parse` is `strptime`, which raises a
`ValueError` for other formats. -/
def fromFile {κ K T S : Type} (parse : S → Option T)
    (f : List (List (List (List K))) × List S × List K × List K × List κ) :
    Except PyErr (List (List (List (List K))) × List T × List K × List K × List κ) :=
  match f.2.1.mapM parse with
  | none => .error .valueError
  | some ts => .ok (f.1, ts, f.2.2.1, f.2.2.2.1, f.2.2.2.2)

end Verif.Weather
