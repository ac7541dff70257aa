import Mathlib.Data.Int.Log
import Mathlib.Data.Rat.Floor
import Verif.Model.Cruising
import Verif.Model.Round
import Verif.Model.Table

/-!
# Double precision arithmetic

The other models calculate exactly. Here numbers are rounded after every operation as in IEEE 754 double precision: to the
nearest number with 53 significant bits, ties to even. The exponent is not bounded, so overflow and subnormal numbers are left
out. The functions below are those of `/repo/hrosailing/polardiagram/_polardiagramtable.py` where rounding decides about
equality of numbers.
-/

namespace Verif.F64

variable {K : Type} [Field K] [LinearOrder K] [IsStrictOrderedRing K] [FloorRing K]

/-- Rounding to double precision: the values of `np.array(ws_resolution, float)`, `np.array(wa_resolution, float)`
(`/repo/hrosailing/polardiagram/_polardiagramtable.py:801-805`) and of python numbers like the step size
(`:757-770`). -/
def fl (x : K) : K :=
  if x = 0 then 0
  else
    let e := Int.log 2 |x| - 52
    (pyRound (x / 2 ^ e) : K) * 2 ^ e

/-- `np.arange(start, stop, step)` (`/repo/hrosailing/polardiagram/_polardiagramtable.py:770`) for doubles: numpy takes
`ceil((stop - start) / step)` values, the first two are `start` and `start + step`, and number `i` is `start + i * delta` where
`delta` is their difference. -/
def arange (start stop step : ℚ) : List ℚ :=
  let delta := fl (fl (start + step) - start)
  (List.range ⌈fl (fl (stop - start) / step)⌉.toNat).map fun i : Nat =>
    if i = 0 then start else if i = 1 then fl (start + step) else fl (start + fl ((i : ℚ) * delta))

/-- `_custom_stepsize_resolution` for wind speeds (`/repo/hrosailing/polardiagram/_polardiagramtable.py:757-770`), where the
step size is a double. -/
def stepsize (max step : ℚ) : Except PyErr (List ℚ) :=
  if step ≤ 0 then .error .valueError else if max < step then .error .valueError else .ok (arange step max step)

/-- The remainder of the division rounding towards zero: `fmod` of C, which is exact. It is the first step of `%` for doubles
(`/repo/hrosailing/polardiagram/_polardiagramtable.py:753`, `:781`). -/
def fmod (x m : ℚ) : ℚ := if 0 ≤ x then pmod x m else -pmod (-x) m

/-- `x % m` for doubles and `m > 0` (`/repo/hrosailing/polardiagram/_polardiagramtable.py:753`, `:781`,
`/repo/hrosailing/polardiagram/_polardiagrampointcloud.py:139`): if the remainder is negative then `m` is added. -/
def mod (x m : ℚ) : ℚ :=
  let r := fmod x m
  if r < 0 then fl (r + m) else r

/-- `symmetrize` (`/repo/hrosailing/polardiagram/_polardiagramtable.py:493-565`, `:808-817`) for doubles: the mirrored angles
`360 - wa` are rounded; the remainder modulo 360 of numbers that are not negative is exact. -/
def symmetrize (t : Table ℚ) : Except PyErr (Table ℚ) :=
  let wa := t.wa ++ t.wa.reverse.map (fun a => fl (360 - a))
  let bsps := t.bsps ++ t.bsps.reverse
  let mid := wa.idxOf 180
  let p := if 180 ∈ t.wa then (wa.eraseIdx mid, bsps.eraseIdx mid) else (wa, bsps)
  let p := if 0 ∈ t.wa then (p.1.dropLast, p.2.dropLast) else p
  Table.init (.values t.ws) (.values p.1) (some p.2)

/-- `np.sum` of doubles (used by `np.average`, `/repo/hrosailing/processing/interpolator.py:252`). The order in which numpy
adds depends on the memory layout and the processor, so every order and every way to put brackets is allowed. -/
inductive Summed : List K → K → Prop
  | one (x : K) : Summed [x] x
  | add {l m : List K} {a b : K} : Summed l a → Summed m b → Summed (l ++ m) (fl (a + b))
  | perm {l m : List K} {a : K} : l.Perm m → Summed l a → Summed m a

/-- `np.average(z, weights=wts)` of doubles (`/repo/hrosailing/processing/interpolator.py:252`): the sum of the products
divided by the sum of the weights. -/
def Averaged (z wts : List K) (x : K) : Prop :=
  ∃ n d, Summed (List.zipWith (fun a b => fl (a * b)) z wts) n ∧ Summed wts d ∧ d ≠ 0 ∧ x = fl (n / d)

section isochrone

open Verif.Cruising

/-- The restart of `isochrone` with a smaller step size (`/repo/hrosailing/cruising/basics.py:461-465`) for doubles. -/
def isoRestart (minNodes : Nat) (st : Iso K) : Iso K :=
  { st with step := fl (st.step * fl ((st.steps : K) / (minNodes : K))), s := 0, t := 0, steps := 0 }

/-- One step of `isochrone` (`/repo/hrosailing/cruising/basics.py:466-469`) for doubles. -/
def isoAdvance (dtds : K → K → K) (st : Iso K) : Iso K :=
  { st with
    der := dtds st.s st.t
    s := fl (st.s + st.step)
    t := fl (st.t + fl (dtds st.s st.t * st.step))
    steps := st.steps + 1 }

/-- The loop of `isochrone` (`/repo/hrosailing/cruising/basics.py:460-469`) for doubles, run for at most `fuel` iterations;
`none` means that it is still running. -/
def isoLoop (dtds : K → K → K) (total : K) (minNodes : Nat) : Nat → Iso K → Option (Iso K)
  | 0, _ => none
  | fuel + 1, st =>
    if st.t < total ∨ st.steps < minNodes then
      if total ≤ st.t then isoLoop dtds total minNodes fuel (isoRestart minNodes st)
      else isoLoop dtds total minNodes fuel (isoAdvance dtds st)
    else some st

/-- The state before the loop (`/repo/hrosailing/cruising/basics.py:454-458`) for doubles. -/
def isoStart (total : K) (minNodes : Nat) : Iso K := ⟨fl (fl (5 * total) / (minNodes : K)), 0, 0, 0, 0⟩

/-- The distance returned by `isochrone` (`/repo/hrosailing/cruising/basics.py:455-474`) for doubles if the loop stops within
`fuel` iterations. The time per distance is any function and does not raise; `steps` and `min_nodes` are python integers. A
division of doubles by zero is an error here as in the exact model. -/
def isochrone (dtds : K → K → K) (total : K) (minNodes : Nat) (fuel : Nat) : Option (Except PyErr K) :=
  if minNodes = 0 then some (.error .zeroDivisionError)
  else
    match isoLoop dtds total minNodes fuel (isoStart total minNodes) with
    | none => none
    | some st =>
      if st.der = 0 then some (.error .zeroDivisionError)
      else some (.ok (fl (fl (fl (total + fl (st.der * st.s)) - st.t) / st.der)))

end isochrone

end Verif.F64
