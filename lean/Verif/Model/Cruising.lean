import Mathlib.Analysis.SpecialFunctions.Arsinh
import Mathlib.Analysis.SpecialFunctions.Trigonometric.Inverse
import Mathlib.Analysis.SpecialFunctions.Trigonometric.DerivHyp
import Verif.Model.Py

/-!
# `hrosailing.cruising.basics`

Model of the time per distance, of `isochrone` and of the mercator projection
(`/repo/hrosailing/cruising/basics.py`). Arithmetic is exact.
-/

namespace Verif.Cruising

section
variable {K : Type} [Field K] [LinearOrder K]

/-- The last lines of `_get_inverse_bsp` (`/repo/hrosailing/cruising/basics.py:519-522`). -/
def invSpeed (bsp : K) : K := if bsp ≠ 0 then 1 / bsp else 0

/-- `_get_inverse_bsp` (`/repo/hrosailing/cruising/basics.py:502-522`); `weather` is the outcome of
`wm.get_weather`, `speed` the computation of the boat speed from the weather (lines 510-517). -/
def inverseBsp {W : Type} (weather : Except PyErr W) (speed : W → Except PyErr K) : Except PyErr K :=
  match weather with
  | .error .valueError => .ok 1000
  | .error e => .error e
  | .ok w =>
    match speed w with
    | .error e => .error e
    | .ok bsp => .ok (invSpeed bsp)

/-- The local variables `step_size`, `s`, `t`, `steps`, `der` of `isochrone`
(`/repo/hrosailing/cruising/basics.py:455-458`). -/
structure Iso (K : Type) where
  step : K
  s : K
  t : K
  steps : Nat
  der : K
  deriving DecidableEq, Repr

/-- The restart with a smaller step size (`/repo/hrosailing/cruising/basics.py:461-465`). -/
def restart (minNodes : Nat) (st : Iso K) : Iso K :=
  { st with step := st.step * ((st.steps : K) / (minNodes : K)), s := 0, t := 0, steps := 0 }

/-- One step (`/repo/hrosailing/cruising/basics.py:466-469`); `dtds` is the time per distance. -/
def advance (dtds : K → K → K) (st : Iso K) : Iso K :=
  { st with der := dtds st.s st.t, s := st.s + st.step, t := st.t + dtds st.s st.t * st.step, steps := st.steps + 1 }

/-- The loop of `isochrone` (`/repo/hrosailing/cruising/basics.py:460-469`), run for at most `fuel` iterations; `none`
means that it is still running. -/
def isoLoop (dtds : K → K → K) (total : K) (minNodes : Nat) : Nat → Iso K → Option (Iso K)
  | 0, _ => none
  | fuel + 1, st =>
    if st.t < total ∨ st.steps < minNodes then
      if total ≤ st.t then isoLoop dtds total minNodes fuel (restart minNodes st)
      else isoLoop dtds total minNodes fuel (advance dtds st)
    else some st

/-- The state before the loop (`/repo/hrosailing/cruising/basics.py:454-458`). -/
def isoStart (total : K) (minNodes : Nat) : Iso K := ⟨5 * total / (minNodes : K), 0, 0, 0, 0⟩

/-- The distance returned by `isochrone` (`/repo/hrosailing/cruising/basics.py:455-474`) if the loop stops within
`fuel` iterations; the time per distance does not raise here. -/
def isochrone (dtds : K → K → K) (total : K) (minNodes : Nat) (fuel : Nat) : Option (Except PyErr K) :=
  if minNodes = 0 then some (.error .zeroDivisionError)
  else
    match isoLoop dtds total minNodes fuel (isoStart total minNodes) with
    | none => none
    | some st => if st.der = 0 then some (.error .zeroDivisionError) else some (.ok ((total + st.der * st.s - st.t) / st.der))

end

/-- `_mercator_proj` (`/repo/hrosailing/cruising/basics.py:490-499`). There is no exact tangent at odd multiples of 90 degrees, where
the code calculates a large number and Lean's tangent is 0: theorems without a hypothesis on the second coordinate hold whatever the
value of the projection there is. -/
noncomputable def mercator (latMp : ℝ) (p : ℝ × ℝ) : ℝ × ℝ :=
  (69 * (p.1 - latMp), 69 * Real.arsinh (Real.tan (Real.pi * p.2 / 180)))

/-- `_inverse_mercator_proj` (`/repo/hrosailing/cruising/basics.py:482-487`). -/
noncomputable def inverseMercator (latMp : ℝ) (q : ℝ × ℝ) : ℝ × ℝ :=
  (q.1 / 69 + latMp, 180 / Real.pi * Real.arcsin (Real.tanh (q.2 / 69)))

end Verif.Cruising
