import Verif.Model.WeatherMulti

/-!
# `NetCDFWeatherModel._get_dimensions`

The dimensions of a variable are read from its description `str(dataset[attr])`
(`/repo/hrosailing/models/weather_model.py:450-456`).
-/

namespace Verif.Weather

/-- Texts as lists of characters (`/repo/hrosailing/models/weather_model.py:450-456`). -/
abbrev Letters : Type := List Char

/-- `s.split(c)` for a single character (`/repo/hrosailing/models/weather_model.py:451,453`). -/
def splitAtChar (c : Char) : Letters → List Letters
  | [] => [[]]
  | x :: xs =>
    if x = c then [] :: splitAtChar c xs
    else
      match splitAtChar c xs with
      | [] => [[x]]
      | h :: t => (x :: h) :: t

/-- `s.strip(cs)` (`/repo/hrosailing/models/weather_model.py:453`). -/
def stripChars (cs : List Char) (s : Letters) : Letters :=
  ((s.dropWhile fun c => decide (c ∈ cs)).reverse.dropWhile fun c => decide (c ∈ cs)).reverse

/-- `c.split("(")[1].strip(",)") if "(" in c else c.strip(",)")` (`/repo/hrosailing/models/weather_model.py:453`); the
index 1 exists if there is a bracket. -/
def dimensionName (c : Letters) : Letters :=
  stripChars [',', ')'] (if '(' ∈ c then (splitAtChar '(' c).getD 1 [] else c)

/-- `_get_dimensions` of the description (`/repo/hrosailing/models/weather_model.py:450-456`). -/
def getDimensions (description : Letters) : Except PyErr (List Letters) :=
  match (splitAtChar '\n' description)[1]? with
  | none => .error .indexError
  | some line => .ok (((splitAtChar ' ' line).drop 1).map dimensionName)

/-- The comparisons with the aliases (`/repo/hrosailing/models/weather_model.py:430-435`). -/
def coordOf (lat lon time name : Letters) : Coord Letters :=
  if name = lat then .lat else if name = lon then .lon else if name = time then .time else .other name

/-- The loop over the attributes with the dimensions read from the descriptions
(`/repo/hrosailing/models/weather_model.py:422-448`). A variable is given by its description and its entries. The descriptions
are texts, so the branch for `AttributeError` (lines 425-427) is not reached. -/
def describedData {V : Type} (lat lon time : Letters) (further : Dict Letters Nat) (t la lo : Nat) :
    List (Letters × (List Nat → V)) → Except PyErr (List V)
  | [] => .ok []
  | v :: vs =>
    match getDimensions v.1 with
    | .error e => .error e
    | .ok dims =>
      match varIdxs further t la lo (dims.map (coordOf lat lon time)) with
      | .error e => .error e
      | .ok is =>
        match describedData lat lon time further t la lo vs with
        | .error e => .error e
        | .ok r => .ok (v.2 is :: r)

/-- `NetCDFWeatherModel._get_data` (`/repo/hrosailing/models/weather_model.py:414-448`). -/
def describedGetData {V : Type} (lat lon time : Letters) (further : Dict Letters Nat) (latsFlipped lonsFlipped : Bool)
    (nLats nLons : Nat) (vars : List (Letters × (List Nat → V))) (t la lo : Nat) : Except PyErr (List V) :=
  describedData lat lon time further t (fileIdx latsFlipped nLats la) (fileIdx lonsFlipped nLons lo) vars

end Verif.Weather
