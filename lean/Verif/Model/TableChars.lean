import Verif.Model.CloudText
import Verif.Model.Table

/-!
# The characters of printed tables

Model of `PolarDiagramTable.__str__` (`/repo/hrosailing/polardiagram/_polardiagramtable.py:175-239`) with the formatting of the
numbers, which `Verif.Table.str` leaves out.
-/

namespace Verif.TableChars

open Verif.CloudText (fixed2 rjust)


/-- The absolute value in tenths, rounded as by the format `.1f`
(`/repo/hrosailing/polardiagram/_polardiagramtable.py:191`). -/
def tenths (x : ℚ) : Nat := (pyRound (|x| * 10)).toNat

/-- `f"{float(x):.1f}"` (`/repo/hrosailing/polardiagram/_polardiagramtable.py:191`, `:195`, `:201`). -/
def fixed1 (x : ℚ) : List Char :=
  (if x < 0 then ['-'] else []) ++ Nat.toDigits 10 (tenths x / 10) ++ ['.', Nat.digitChar (tenths x % 10)]

/-- `str.ljust` (`/repo/hrosailing/polardiagram/_polardiagramtable.py:196`, `:201`). -/
def ljust (width : Nat) (fill : Char) (s : List Char) : List Char := s ++ List.replicate (width - s.length) fill

/-- `"  TWA / TWS"` (`/repo/hrosailing/polardiagram/_polardiagramtable.py:176`). -/
def corner : List Char := "  TWA / TWS".toList

/-- `"+++++++++++"` (`/repo/hrosailing/polardiagram/_polardiagramtable.py:192`, `:218`). -/
def cornerPlus : List Char := List.replicate 11 '+'

/-- The header of a wind speed (`/repo/hrosailing/polardiagram/_polardiagramtable.py:191`, `:216`). -/
def head (ws : ℚ) : List Char := "    ".toList ++ fixed1 ws

/-- The line under the header (`/repo/hrosailing/polardiagram/_polardiagramtable.py:195-196`, `:224-225`). -/
def plus (ws : ℚ) : List Char := ljust ((fixed1 ws).length + 4) '+' [' ', ' ']

/-- A boat speed (`/repo/hrosailing/polardiagram/_polardiagramtable.py:204-205`, `:236-237`). -/
def cell (ws bsp : ℚ) : List Char := rjust (4 + (fixed1 ws).length) (fixed2 bsp)

/-- `_create_short_table` (`/repo/hrosailing/polardiagram/_polardiagramtable.py:188-207`) after the corner. -/
def shortText (t : Table ℚ) : List Char :=
  t.ws.flatMap head ++ '\n' :: cornerPlus ++ t.ws.flatMap plus ++ ['\n'] ++
    t.wa.zipIdx.flatMap fun (a, i) =>
      ljust 11 ' ' (fixed1 a) ++ t.ws.zipIdx.flatMap (fun (w, j) => cell w ((t.bsps.getD i []).getD j 0)) ++ ['\n']

/-- `enumerate` with an additional piece before the entry with number 5
(`/repo/hrosailing/polardiagram/_polardiagramtable.py:212-216`, `:220-225`, `:232-237`). -/
def withDots (dots : List Char) (f : Nat → ℚ → List Char) (wind : List ℚ) : List Char :=
  wind.zipIdx.flatMap fun (w, j) => (if j = 5 then dots else []) ++ f j w

/-- `_create_long_table` (`/repo/hrosailing/polardiagram/_polardiagramtable.py:209-239`) after the corner. -/
def longText (t : Table ℚ) (wind : List ℚ) : List Char :=
  withDots "  ...".toList (fun _ w => head w) wind ++ '\n' :: cornerPlus ++ withDots "  +++".toList (fun _ w => plus w) wind ++
    ['\n'] ++
    t.wa.zipIdx.flatMap fun (a, i) =>
      rjust 11 (fixed1 a) ++ withDots "  ...".toList (fun j w => cell w ((t.bsps.getD i []).getD j 0)) wind ++ ['\n']

/-- `__str__` (`/repo/hrosailing/polardiagram/_polardiagramtable.py:175-186`). -/
def text (t : Table ℚ) : List Char :=
  corner ++ if t.ws.length ≤ 15 then shortText t else longText t (t.ws.take 5 ++ t.ws.drop (t.ws.length - 5))

end Verif.TableChars
