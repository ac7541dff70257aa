import Verif.Model.Data

/-!
# `hrosailing.pipeline.expander.WeatherExpander`

Model of `/repo/hrosailing/pipeline/expander.py:56-133`. The weather model is an arbitrary function from a time and
place to a dictionary or an exception; `hrosailing_standard_format` (`/repo/hrosailing/core/data.py:370-385`,
modelled in `Verif.Model.StdFormat`) is a parameter `std`. Simplifications: the values of the weather
dictionaries are single entries (no lists), the statistics (line 101) are left out.
-/

namespace Verif.Expander

open Verif.Data

variable {κ V τ : Type} [DecidableEq κ] [DecidableEq τ] [HasType V τ]

/-- The documented values of `exception_handling_mode` (`/repo/hrosailing/pipeline/expander.py:69-75`, `:82`). -/
inductive Mode
  | delete | ignore
  deriving DecidableEq, Repr

/-- What `get_weather` returns (`/repo/hrosailing/pipeline/expander.py:112`): a dictionary. -/
abbrev Weather (κ V : Type) := Dict κ (Option V)

/-- A time and place `[datetime, lat, lon]` (`/repo/hrosailing/pipeline/expander.py:108-112`). -/
structure Place (V : Type) where
  time : Option V
  lat : Option V
  lon : Option V
  deriving DecidableEq, Repr

/-- The local variables `weather_keys`, `none_idxs`, `weather_list` of `_get_weather`
(`/repo/hrosailing/pipeline/expander.py:105-107`). -/
structure Acc (κ V : Type) where
  keys : Option (List κ)
  nones : List Nat
  list : List (Option (Weather κ V))
  deriving DecidableEq, Repr

/-- The loop of `_get_weather` (`/repo/hrosailing/pipeline/expander.py:108-119`): `ValueError` is caught, other
exceptions are not. -/
def collect (getW : Place V → Except PyErr (Weather κ V)) (mode : Mode) :
    Nat → List (Place V) → Acc κ V → Except PyErr (Acc κ V)
  | _, [], acc => .ok acc
  | i, p :: ps, acc =>
    match getW p with
    | .ok w =>
      collect getW mode (i + 1) ps
        { acc with list := acc.list ++ [some w], keys := if acc.keys = none then some (Dict.keys w) else acc.keys }
    | .error .valueError =>
      collect getW mode (i + 1) ps
        { acc with list := if mode = .ignore then acc.list ++ [none] else acc.list, nones := acc.nones ++ [i] }
    | .error e => .error e

/-- `weather_list[idx] = {key: None for key in weather_keys}` for all `idx`
(`/repo/hrosailing/pipeline/expander.py:124-125`); iterating over `None` raises a `TypeError`. -/
def fillNones (keys : Option (List κ)) :
    List Nat → List (Option (Weather κ V)) → Except PyErr (List (Option (Weather κ V)))
  | [], l => .ok l
  | i :: is, l =>
    match keys with
    | none => .error .typeError
    | some ks =>
      if i < l.length then fillNones keys is (l.set i (some (ks.map fun k => (k, none)))) else .error .indexError

/-- The update of `Data.concatenate` with an element of the list (`/repo/hrosailing/core/data.py:460-461`); an entry
`None` raises `TypeError` (`:196-197`). -/
def updateWeather (W : Data κ V τ) : Option (Weather κ V) → Res (Data κ V τ)
  | none => (W, some .typeError)
  | some w => update W (Dict.mapVals Arg.scalar w) false

/-- `Data.concatenate(weather_list)` (`/repo/hrosailing/core/data.py:445-462`, called in
`/repo/hrosailing/pipeline/expander.py:127`). -/
def concatWeather (l : List (Option (Weather κ V))) : Res (Data κ V τ) := Res.forEach updateWeather l Data.empty

/-- `data.rows(["datetime", "lat", "lon"], return_type=tuple)` (`/repo/hrosailing/pipeline/expander.py:108-110`,
`/repo/hrosailing/core/data.py:104-110`). -/
def places (kt klat klon : κ) (D : Data κ V τ) : Except PyErr (List (Place V)) :=
  (List.range D.maxLen.toNat).mapM fun (i : Nat) =>
    match D.cols.get? kt, D.cols.get? klat, D.cols.get? klon with
    | some t, some la, some lo =>
      match t[i]?, la[i]?, lo[i]? with
      | some a, some b, some c => .ok ⟨a, b, c⟩
      | _, _, _ => .error .indexError
    | _, _, _ => .error .keyError

/-- `_get_weather` (`/repo/hrosailing/pipeline/expander.py:104-127`); the first component is `data`, which is changed
in the mode `"delete"`. -/
def getWeather (kt klat klon : κ) (getW : Place V → Except PyErr (Weather κ V)) (mode : Mode) (D : Data κ V τ) :
    Except PyErr (Data κ V τ × Data κ V τ) :=
  match places kt klat klon D with
  | .error e => .error e
  | .ok ps =>
    match collect getW mode 0 ps ⟨none, [], []⟩ with
    | .error e => .error e
    | .ok acc =>
      let D1 := if mode = .delete then deleteRows D (acc.nones.map fun (i : Nat) => (i : Int)) else D
      match (if mode = .delete then .ok acc.list else fillNones acc.keys acc.nones acc.list) with
      | .error e => .error e
      | .ok l =>
        match concatWeather l with
        | (W, none) => .ok (D1, W)
        | (_, some e) => .error e

/-- `_mark_duplicate_keys` (`/repo/hrosailing/pipeline/expander.py:129-133`); `dup key` is
`f"{key}(duplicate)"`. -/
def markDuplicates (dup : κ → κ) (D W : Data κ V τ) : Res (Data κ V τ) :=
  Res.forEach (fun W k => if k ∈ D.keys then rename W k (dup k) else (W, none)) W.keys W

/-- `expand` (`/repo/hrosailing/pipeline/expander.py:87-102`). -/
def expand (kt klat klon : κ) (dup : κ → κ) (std : Data κ V τ → Res (Data κ V τ))
    (getW : Place V → Except PyErr (Weather κ V)) (mode : Mode) (D : Data κ V τ) : Except PyErr (Data κ V τ) :=
  match getWeather kt klat klon getW mode D with
  | .error e => .error e
  | .ok (D1, W) =>
    match std W with
    | (_, some e) => .error e
    | (W1, none) =>
      match markDuplicates dup D1 W1 with
      | (_, some e) => .error e
      | (W2, none) =>
        match updateData D1 W2 with
        | (_, some e) => .error e
        | (D2, none) =>
          match std D2 with
          | (_, some e) => .error e
          | (D3, none) => .ok D3

end Verif.Expander
