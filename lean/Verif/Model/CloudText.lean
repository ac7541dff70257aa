import Verif.Model.Pointcloud
import Verif.Model.Round
import Mathlib.Data.Rat.Floor

/-!
# Printed point clouds

Model of `PolarDiagramPointcloud.__str__` (`/repo/hrosailing/polardiagram/_polardiagrampointcloud.py:143-156`).
-/

namespace Verif.CloudText

open Verif.Interp (Pt)

/-- The absolute value in hundredths, rounded as by the format `.2f`
(`/repo/hrosailing/polardiagram/_polardiagrampointcloud.py:147`): to the nearest, ties to the even one. -/
def hundredths (x : ℚ) : Nat := (pyRound (|x| * 100)).toNat

/-- `f"{float(x):.2f}"` (`/repo/hrosailing/polardiagram/_polardiagrampointcloud.py:147`); negative zeros are not
considered, negative numbers keep their sign even if rounded to 0. -/
def fixed2 (x : ℚ) : List Char :=
  (if x < 0 then ['-'] else []) ++ Nat.toDigits 10 (hundredths x / 100) ++
    ['.', Nat.digitChar (hundredths x % 100 / 10), Nat.digitChar (hundredths x % 10)]

/-- `str.rjust` (`/repo/hrosailing/polardiagram/_polardiagrampointcloud.py:149`, `:153`). -/
def rjust (width : Nat) (s : List Char) : List Char := List.replicate (width - s.length) ' ' ++ s

/-- The line of one point (`/repo/hrosailing/polardiagram/_polardiagrampointcloud.py:145-155`). -/
def line (p : Pt ℚ) : List Char :=
  rjust 6 (fixed2 p.1.1) ++ [' ', ' '] ++ (rjust 7 (fixed2 p.1.2) ++ [' ', ' ']) ++ (rjust 6 (fixed2 p.2) ++ [' ', ' ']) ++ ['\n']

/-- The two lines of the header (`/repo/hrosailing/polardiagram/_polardiagrampointcloud.py:144`). -/
def header : List Char := "   TWS      TWA     BSP\n++++++  +++++++  ++++++\n".toList

/-- `__str__` (`/repo/hrosailing/polardiagram/_polardiagrampointcloud.py:143-156`). -/
def str (cloud : List (Pt ℚ)) : List Char := header ++ cloud.flatMap line

end Verif.CloudText
