import Mathlib.Data.List.DropRight
import Verif.Model.Float64
import Verif.Model.TableText

/-!
# The text of doubles

`csv.writer` writes the numbers of a polar diagram with `str`, `from_csv` reads them with `literal_eval` or `float`
(`/repo/hrosailing/polardiagram/_polardiagramtable.py:442-491`). The other models take these conversions as parameters; here
they are defined for doubles (see `Verif.Model.Float64`). There is no negative zero, infinity and nan.
-/

namespace Verif.FloatText

open Verif.F64 (fl)
open Verif.Table (Text)

/-- Of the two decimal numbers with `n` digits next to `x > 0`, the closer one of those that are rounded to `x`, as digits and
exponent (first step of `str`, used in `/repo/hrosailing/polardiagram/_polardiagramtable.py:457-479`). -/
def closest (x : ℚ) (n : Nat) : Option (Nat × ℤ) :=
  let q : ℤ := Int.log 10 x - (n - 1 : Nat)
  let r := x / 10 ^ q
  let lo := ⌊r⌋₊
  let hi := ⌈r⌉₊
  let ok (d : Nat) : Bool := decide (fl ((d : ℚ) * 10 ^ q) = x)
  let nearer : Bool := decide (r - lo < hi - r ∨ r - lo = hi - r ∧ lo % 2 = 0)
  if ok lo && (!ok hi || nearer) then some (lo, q) else if ok hi then some (hi, q) else none

/-- The decimal number with the least number of digits that is rounded to `x > 0`
(`str`, used in `/repo/hrosailing/polardiagram/_polardiagramtable.py:457-479`). -/
def shortest (x : ℚ) : Option (Nat × ℤ) := ((List.range 17).filterMap fun i => closest x (i + 1)).head?

/-- The text of the number `0.s * 10 ^ decpt`: the exponent is used if it is less than -4 or at least 16
(`str`, used in `/repo/hrosailing/polardiagram/_polardiagramtable.py:457-479`). -/
def layout (s : Text) (decpt : ℤ) : Text :=
  if decpt ≤ -4 ∨ 16 < decpt then
    let e := Nat.toDigits 10 (decpt - 1).natAbs
    s.take 1 ++ (if s.length = 1 then [] else '.' :: s.drop 1) ++ 'e' :: (if decpt - 1 < 0 then '-' else '+') ::
      (if e.length = 1 then '0' :: e else e)
  else if decpt ≤ 0 then '0' :: '.' :: (List.replicate (-decpt).toNat '0' ++ s)
  else if s.length ≤ decpt.toNat then s ++ List.replicate (decpt.toNat - s.length) '0' ++ ['.', '0']
  else s.take decpt.toNat ++ '.' :: s.drop decpt.toNat

/-- `str` of a positive double (used in `/repo/hrosailing/polardiagram/_polardiagramtable.py:457-479`). -/
def printPos (x : ℚ) : Text :=
  match shortest x with
  | none => []
  | some (d, q) => layout ((Nat.toDigits 10 d).rdropWhile (· = '0')) ((Nat.toDigits 10 d).length + q)

/-- `str` of a double, used by `csv.writer` (`/repo/hrosailing/polardiagram/_polardiagramtable.py:442-479`,
`/repo/hrosailing/polardiagram/_polardiagrampointcloud.py:258-261`,
`/repo/hrosailing/polardiagram/_polardiagramcurve.py:185-189`). -/
def print (x : ℚ) : Text :=
  if x = 0 then ['0', '.', '0'] else if x < 0 then '-' :: printPos (-x) else printPos x

/-- A number written with digits (`literal_eval`, `/repo/hrosailing/polardiagram/_polardiagramtable.py:485`). -/
def digits (s : Text) : Option Nat := if s ≠ [] ∧ s.all Char.isDigit then some (Nat.ofDigitChars 10 s 0) else none

/-- The exponent of a number (`literal_eval`, `/repo/hrosailing/polardiagram/_polardiagramtable.py:485`). -/
def exponent : Text → Option ℤ
  | '-' :: s => (digits s).map fun n : Nat => -(n : ℤ)
  | '+' :: s => (digits s).map fun n : Nat => (n : ℤ)
  | s => (digits s).map fun n : Nat => (n : ℤ)

/-- The digits before the exponent (`literal_eval`, `/repo/hrosailing/polardiagram/_polardiagramtable.py:485`). -/
def mantissa (s : Text) : Option ℚ :=
  let a := s.takeWhile (· ≠ '.')
  let b := (s.dropWhile (· ≠ '.')).drop 1
  (digits (a ++ b)).map fun n : Nat => (n : ℚ) / 10 ^ b.length

/-- A number without sign (`literal_eval`, `/repo/hrosailing/polardiagram/_polardiagramtable.py:485`). -/
def unsigned (s : Text) : Option ℚ :=
  match s.dropWhile (fun c => c ≠ 'e' ∧ c ≠ 'E') with
  | [] => mantissa s
  | _ :: e =>
    match mantissa (s.takeWhile fun c => c ≠ 'e' ∧ c ≠ 'E'), exponent e with
    | some m, some k => some (m * 10 ^ k)
    | _, _ => none

/-- Reading a number: the decimal number is rounded to double precision (`literal_eval` and `float`,
`/repo/hrosailing/polardiagram/_polardiagramtable.py:485-491`, `/repo/hrosailing/polardiagram/_polardiagrampointcloud.py:267`,
`/repo/hrosailing/polardiagram/_polardiagramcurve.py:196`). -/
def parse (s : Text) : Except PyErr ℚ :=
  let r :=
    match s with
    | '-' :: t => (unsigned t).map fun v => -v
    | '+' :: t => unsigned t
    | t => unsigned t
  match r with
  | some v => .ok (fl v)
  | none => .error .valueError

end Verif.FloatText
