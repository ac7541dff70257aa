import Verif.Model.Py

/-!
# Dates and times as text

Model of the formats used with `datetime.strptime` and `datetime.strftime`
(`/repo/hrosailing/models/weather_model.py:227,241,243,387-394`, `/repo/hrosailing/processing/datahandler.py:137,178`). Both belong
to the python standard library: `strptime` translates a format to a regular expression, matches it at the beginning of the text
(alternatives in the order of the expression, with backtracking) and raises `ValueError` if there is no match, if text remains or if
the values are no date. Digits are ASCII digits, `%X` is `%H:%M:%S` as in the default locale.
-/

namespace Verif.Stamps

/-- A `datetime` without time zone (`/repo/hrosailing/models/weather_model.py:227`). -/
structure Stamp where
  year : Nat
  month : Nat
  day : Nat
  hour : Nat
  minute : Nat
  second : Nat
  micro : Nat
  deriving DecidableEq, Repr

/-- Leap years of `datetime` (`/repo/hrosailing/models/weather_model.py:227`). -/
def leap (y : Nat) : Bool := (y % 4 == 0 && y % 100 != 0) || y % 400 == 0

/-- The number of days of a month (`/repo/hrosailing/models/weather_model.py:227`). -/
def daysIn (y m : Nat) : Nat :=
  if m = 2 then (if leap y then 29 else 28) else if m = 4 ∨ m = 6 ∨ m = 9 ∨ m = 11 then 30 else 31

/-- The values accepted by the constructor of `datetime` (`/repo/hrosailing/models/weather_model.py:227`). -/
def Stamp.ok (t : Stamp) : Bool :=
  decide (1 ≤ t.year ∧ t.year ≤ 9999 ∧ 1 ≤ t.month ∧ t.month ≤ 12 ∧ 1 ≤ t.day ∧ t.day ≤ daysIn t.year t.month ∧ t.hour < 24 ∧
    t.minute < 60 ∧ t.second < 60 ∧ t.micro < 1000000)

/-- The directives `%d %m %Y %H %M %S %f`, other characters and white space of a format
(`/repo/hrosailing/models/weather_model.py:227,387`, `/repo/hrosailing/processing/datahandler.py:137`). -/
inductive Item
  | day | month | year | hour | minute | second | micro
  | lit (c : Char)
  | blank
  deriving DecidableEq, Repr

/-- `"%d.%m.%Y:%X"` (`/repo/hrosailing/models/weather_model.py:227,241,243`). -/
def weatherFormat : List Item :=
  [.day, .lit '.', .month, .lit '.', .year, .lit ':', .hour, .lit ':', .minute, .lit ':', .second]

/-- `"%Y-%m-%d %H:%M"` (`/repo/hrosailing/models/weather_model.py:387`). -/
def minutesFormat : List Item :=
  [.year, .lit '-', .month, .lit '-', .day, .blank, .hour, .lit ':', .minute]

/-- `"%Y-%m-%d %H:%M:%S"` (`/repo/hrosailing/models/weather_model.py:387`). -/
def secondsFormat : List Item := minutesFormat ++ [.lit ':', .second]

/-- `"%Y-%m-%d %H:%M:%S.%f"` (`/repo/hrosailing/processing/datahandler.py:137`). -/
def csvFormat : List Item := secondsFormat ++ [.lit '.', .micro]

/-- A decimal digit (`/repo/hrosailing/models/weather_model.py:241`). -/
def digit (n : Nat) : Char := Char.ofNat (48 + n % 10)

/-- `strftime` for one directive (`/repo/hrosailing/models/weather_model.py:241,243`). Years have four digits (for years before 1000
this depends on the C library). -/
def Item.print (t : Stamp) : Item → List Char
  | .day => [digit (t.day / 10), digit t.day]
  | .month => [digit (t.month / 10), digit t.month]
  | .year => [digit (t.year / 1000), digit (t.year / 100), digit (t.year / 10), digit t.year]
  | .hour => [digit (t.hour / 10), digit t.hour]
  | .minute => [digit (t.minute / 10), digit t.minute]
  | .second => [digit (t.second / 10), digit t.second]
  | .micro => [digit (t.micro / 100000), digit (t.micro / 10000), digit (t.micro / 1000), digit (t.micro / 100),
      digit (t.micro / 10), digit t.micro]
  | .lit c => [c]
  | .blank => [' ']

/-- `strftime` (`/repo/hrosailing/models/weather_model.py:241,243`). -/
def strftime (fmt : List Item) (t : Stamp) : List Char := fmt.flatMap (Item.print t)

/-- `str(t)` for a `datetime`: the fraction is only printed if it is not zero
(`/repo/hrosailing/processing/datahandler.py:178` reads such texts). -/
def str (t : Stamp) : List Char := strftime (if t.micro = 0 then secondsFormat else csvFormat) t

/-- A range of characters of a regular expression (`/repo/hrosailing/models/weather_model.py:227`). -/
def upTo (lo hi : Char) (c : Char) : Bool := decide (lo ≤ c ∧ c ≤ hi)

/-- White space of regular expressions, ASCII (`/repo/hrosailing/models/weather_model.py:391`). -/
def isBlank (c : Char) : Bool := c = ' ' || c = '\t' || c = '\n' || c = '\r' || c = '\x0b' || c = '\x0c'

/-- The alternatives of the regular expression of a directive, each a sequence of ranges
(`/repo/hrosailing/models/weather_model.py:227`): `%d` is `3[0-1]|[1-2]\d|0[1-9]|[1-9]| [1-9]`, `%m` is `1[0-2]|0[1-9]|[1-9]`,
`%Y` is `\d\d\d\d`, `%H` is `2[0-3]|[0-1]\d|\d`, `%M` is `[0-5]\d|\d`, `%S` is `6[0-1]|[0-5]\d|\d`, `%f` is `[0-9]{1,6}`. -/
def alternatives : Item → List (List (Char → Bool))
  | .day => [[upTo '3' '3', upTo '0' '1'], [upTo '1' '2', upTo '0' '9'], [upTo '0' '0', upTo '1' '9'], [upTo '1' '9'],
      [upTo ' ' ' ', upTo '1' '9']]
  | .month => [[upTo '1' '1', upTo '0' '2'], [upTo '0' '0', upTo '1' '9'], [upTo '1' '9']]
  | .year => [List.replicate 4 (upTo '0' '9')]
  | .hour => [[upTo '2' '2', upTo '0' '3'], [upTo '0' '1', upTo '0' '9'], [upTo '0' '9']]
  | .minute => [[upTo '0' '5', upTo '0' '9'], [upTo '0' '9']]
  | .second => [[upTo '6' '6', upTo '0' '1'], [upTo '0' '5', upTo '0' '9'], [upTo '0' '9']]
  | .micro => [6, 5, 4, 3, 2, 1].map fun n => List.replicate n (upTo '0' '9')
  | .lit c => [[upTo c c]]
  | .blank => []

/-- Matching a sequence of ranges: the matched text and the rest (`/repo/hrosailing/models/weather_model.py:227`). -/
def matchSeq : List (Char → Bool) → List Char → Option (List Char × List Char)
  | [], s => some ([], s)
  | _ :: _, [] => none
  | p :: ps, c :: s => if p c then (matchSeq ps s).map fun q => (c :: q.1, q.2) else none

/-- `int` of the matched text (`/repo/hrosailing/models/weather_model.py:227`); blanks do not count. -/
def number (s : List Char) : Nat := s.foldl (fun n c => if c = ' ' then n else 10 * n + (c.toNat - 48)) 0

/-- The value of a directive: `%f` is padded with zeros to the right (`/repo/hrosailing/processing/datahandler.py:178`). -/
def Item.value (i : Item) (s : List Char) : Nat := if i = .micro then number s * 10 ^ (6 - s.length) else number s

/-- `\s+`: the possible rests, longest match first (`/repo/hrosailing/models/weather_model.py:391`). -/
def blankRests : List Char → List (List Char)
  | [] => []
  | c :: s => if isBlank c then blankRests s ++ [s] else []

/-- The matches of one directive, in the order of preference (`/repo/hrosailing/models/weather_model.py:227`). -/
def matchItem (i : Item) (s : List Char) : List (Nat × List Char) :=
  if i = .blank then (blankRests s).map fun r => (0, r)
  else (alternatives i).filterMap fun a => (matchSeq a s).map fun q => (i.value q.1, q.2)

/-- All matches of a format at the beginning of a text, in the order of preference
(`/repo/hrosailing/models/weather_model.py:227`). -/
def matchAll : List Item → List Char → List (List (Item × Nat) × List Char)
  | [], s => [([], s)]
  | i :: is, s => (matchItem i s).flatMap fun v => (matchAll is v.2).map fun q => ((i, v.1) :: q.1, q.2)

/-- The value found for a directive, or its default (`/repo/hrosailing/models/weather_model.py:227`). -/
def found (vs : List (Item × Nat)) (i : Item) (default : Nat) : Nat :=
  match vs.find? fun p => decide (p.1 = i) with
  | some p => p.2
  | none => default

/-- The values found (`/repo/hrosailing/models/weather_model.py:227`), by default the beginning of 1900. -/
def assemble (vs : List (Item × Nat)) : Stamp :=
  ⟨found vs .year 1900, found vs .month 1, found vs .day 1, found vs .hour 0, found vs .minute 0, found vs .second 0,
    found vs .micro 0⟩

/-- `datetime.strptime` (`/repo/hrosailing/models/weather_model.py:227,391`, `/repo/hrosailing/processing/datahandler.py:178`);
`none` is `ValueError`. -/
def strptime (fmt : List Item) (s : List Char) : Option Stamp :=
  match (matchAll fmt s).head? with
  | none => none
  | some (vs, rest) => if rest = [] ∧ (assemble vs).ok = true then some (assemble vs) else none

end Verif.Stamps
