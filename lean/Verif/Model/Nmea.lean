import Mathlib.Algebra.Order.Field.Basic
import Mathlib.Algebra.Order.Floor.Defs
import Verif.Model.Dict
import Verif.Model.Py

/-!
# `NMEAFileHandler`

Model of the decoding of NMEA sentences (`/repo/hrosailing/processing/datahandler.py:190-382`). Strings are lists of
characters; `int` is modelled for strings of digits only. Parsing sentences (`pynmea2`) is external.
-/

namespace Verif.Nmea

/-- The value of a decimal digit, used by `int` (`/repo/hrosailing/processing/datahandler.py:367-370`). -/
def digitVal (c : Char) : Option Nat := if '0' ≤ c ∧ c ≤ '9' then some (c.toNat - '0'.toNat) else none

/-- The loop of `int` over the digits (`/repo/hrosailing/processing/datahandler.py:367-370`). -/
def parseDigits : Nat → List Char → Option Nat
  | acc, [] => some acc
  | acc, c :: cs =>
    match digitVal c with
    | none => none
    | some d => parseDigits (10 * acc + d) cs

/-- `int(s)` (`/repo/hrosailing/processing/datahandler.py:367-370`); `ValueError` for the empty string and for other
characters than digits. -/
def pyInt : List Char → Except PyErr Nat
  | [] => .error .valueError
  | s =>
    match parseDigits 0 s with
    | none => .error .valueError
    | some n => .ok n

/-- `s.split(".")[1]` (`/repo/hrosailing/processing/datahandler.py:370`); `IndexError` if there is no dot. -/
def afterDot (s : List Char) : Except PyErr (List Char) :=
  match s.dropWhile (· ≠ '.') with
  | [] => .error .indexError
  | _ :: rest => .ok (rest.takeWhile (· ≠ '.'))

/-- `datetime.time` (`/repo/hrosailing/processing/datahandler.py:377-382`). -/
structure Time where
  hour : Nat
  minute : Nat
  second : Nat
  microsecond : Nat
  deriving DecidableEq, Repr

/-- `time(hour=…, minute=…, second=…, microsecond=…)` (`/repo/hrosailing/processing/datahandler.py:377-382`). -/
def mkTime (h m s us : Nat) : Except PyErr Time :=
  if h < 24 ∧ m < 60 ∧ s < 60 ∧ us < 1000000 then .ok ⟨h, m, s, us⟩ else .error .valueError

/-- Lines 371-382 of `_time_from_nmea_format` (`/repo/hrosailing/processing/datahandler.py:371-382`). -/
def carry (hours minutes seconds us : Nat) : Except PyErr Time :=
  let m1 := if 60 ≤ seconds then minutes + seconds / 60 else minutes
  let s1 := if 60 ≤ seconds then seconds % 60 else seconds
  let h2 := if 60 ≤ m1 then hours + m1 / 60 else hours
  let m2 := if 60 ≤ m1 then m1 % 60 else m1
  mkTime h2 m2 s1 us

/-- `_time_from_nmea_format` (`/repo/hrosailing/processing/datahandler.py:366-382`). -/
def timeFromNmea (s : List Char) : Except PyErr Time :=
  match pyInt (s.take 2) with
  | .error e => .error e
  | .ok h =>
    match pyInt ((s.drop 2).take 2) with
    | .error e => .error e
    | .ok m =>
      match pyInt ((s.drop 4).take 2) with
      | .error e => .error e
      | .ok sec =>
        match afterDot s with
        | .error e => .error e
        | .ok f =>
          match pyInt f with
          | .error e => .error e
          | .ok us => carry h m sec us

section
variable {K : Type} [Field K] [LinearOrder K] [FloorRing K]

/-- python's `int(x)` of a number (`/repo/hrosailing/processing/datahandler.py:362`): rounding towards zero. -/
def trunc (x : K) : Int := if 0 ≤ x then ⌊x⌋ else -⌊-x⌋

/-- `_from_nmea_format` (`/repo/hrosailing/processing/datahandler.py:360-364`) after `float(value)`. -/
def fromNmea (value : K) : K := (trunc (value / 100) : K) + (value - 100 * (trunc (value / 100) : K)) / 60

end

section
variable {V : Type}

/-- A key of a sentence (`/repo/hrosailing/processing/datahandler.py:325-358`). -/
abbrev Key := List Char

/-- The first part of `_postprocess` (`/repo/hrosailing/processing/datahandler.py:325-341`); `isR` and `isT` compare with
`"R"` and `"T"`. -/
def windPart (isR isT : V → Bool) (d : Dict Key V) : Dict Key V :=
  match d.get? "Wind angle".toList, d.get? "Reference".toList, d.get? "Wind speed".toList with
  | some wa, some ref, some ws =>
    let d1 :=
      if isR ref then (d.set "AWA".toList wa).set "AWS".toList ws
      else if isT ref then (d.set "TWA".toList wa).set "TWS".toList ws
      else d
    ((d1.del "Reference".toList).del "Wind angle".toList).del "Wind speed".toList
  | _, _, _ => d

/-- The treatment of `"Latitude"` and `"Longitude"` (`/repo/hrosailing/processing/datahandler.py:342-351`) with the
conversion `conv` (`_from_nmea_format`). -/
def coordPart (conv : V → Except PyErr V) (source target : Key) (d : Dict Key V) : Except PyErr (Dict Key V) :=
  match d.get? source with
  | none => .ok d
  | some v =>
    match conv v with
    | .error e => .error e
    | .ok v' => .ok ((d.set target v').del source)

/-- The treatment of `"Timestamp"` (`/repo/hrosailing/processing/datahandler.py:352-357`); `stamp` is the conversion of strings
and leaves other values unchanged. -/
def timePart (stamp : V → Except PyErr V) (d : Dict Key V) : Except PyErr (Dict Key V) :=
  match d.get? "Timestamp".toList with
  | none => .ok d
  | some v =>
    match stamp v with
    | .error e => .error e
    | .ok v' => .ok (d.set "Timestamp".toList v')

/-- `_postprocess` (`/repo/hrosailing/processing/datahandler.py:324-358`). -/
def postprocess (isR isT : V → Bool) (conv stamp : V → Except PyErr V) (d : Dict Key V) : Except PyErr (Dict Key V) :=
  match coordPart conv "Latitude".toList "lat".toList (windPart isR isT d) with
  | .error e => .error e
  | .ok d1 =>
    match coordPart conv "Longitude".toList "lon".toList d1 with
    | .error e => .error e
    | .ok d2 => timePart stamp d2

/-- `HROSAILING_TO_NMEA` (`/repo/hrosailing/core/constants.py:92-102`). -/
def hrosailingToNmea : Dict Key (List Key) :=
  [("TWS".toList, ["Wind speed".toList, "Reference".toList]), ("AWS".toList, ["Wind speed".toList, "Reference".toList]),
   ("TWA".toList, ["Wind angle".toList, "Reference".toList]), ("AWA".toList, ["Wind angle".toList, "Reference".toList]),
   ("lat".toList, ["Latitude".toList]), ("lon".toList, ["Longitude".toList]),
   ("SOG".toList, ["Speed Over Ground".toList]), ("date".toList, ["Datestamp".toList]),
   ("time".toList, ["Timestamp".toList])]

/-- `wanted_nmea_attributes` (`/repo/hrosailing/processing/datahandler.py:254-260`). -/
def wantedNmea (wanted : List Key) : List Key :=
  (wanted.map fun k => match hrosailingToNmea.get? k with | some ks => ks | none => [k]).flatten

/-- `parsed_dict` (`/repo/hrosailing/processing/datahandler.py:299-309`) for given `wanted_attributes` and the fields
of a sentence. -/
def parsedDict (wanted : List Key) (fields : List (Key × V)) : Dict Key V :=
  (fields.filter fun f => (wantedNmea wanted).any fun a => f.1 = a).foldl (fun d f => d.set f.1 f.2) []

end

end Verif.Nmea
