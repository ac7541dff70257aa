import Mathlib.Analysis.SpecialFunctions.Pow.Real
import Verif.Model.Curve

/-!
# Model functions of one variable

Model of `/repo/hrosailing/core/modelfunctions/_models2d.py` over the real numbers, with all their options. A tuple of
parameters which is too short raises `IndexError` (`Curve.param`). Results `nan` and `inf` are `none`.
-/

namespace Verif.Models2d

open Verif.Curve

/-- The loop in `polynomial_function` (`/repo/hrosailing/core/modelfunctions/_models2d.py:11-15`). -/
def polyLoop (x : ℝ) (params : List ℝ) : List Nat → ℝ → Except PyErr ℝ
  | [], val => .ok val
  | i :: l, val => do polyLoop x params l (val + (← param params i) * x ^ i)

/-- `polynomial_function` (`/repo/hrosailing/core/modelfunctions/_models2d.py:6-15`). -/
def polynomial (x : ℝ) (params : List ℝ) (deg : Nat) : Except PyErr ℝ := polyLoop x params (List.range (deg + 1)) 0

/-- `inverted_parabola` (`/repo/hrosailing/core/modelfunctions/_models2d.py:18-23`). -/
def invertedParabola (x : ℝ) (params : List ℝ) : Except PyErr ℝ := do
  return (← param params 1) + (← param params 2) * (x - (← param params 0)) ^ 2

/-- `concave_function` (`/repo/hrosailing/core/modelfunctions/_models2d.py:40-80`). -/
noncomputable def concave (x : ℝ) (params : List ℝ) (downturn satLimit : Bool) : Except PyErr ℝ :=
  if satLimit && downturn then do
    return (← param params 2) - (← param params 0) * Real.exp ((← param params 1) - x) - (← param params 3) * x ^ 2
  else if satLimit then do
    return (← param params 2) - (← param params 0) * Real.exp ((← param params 1) - x)
  else if downturn then do
    polynomial x [← param params 0, ← param params 1, -(← param params 2)] 2
  else .error .valueError

/-- `s_shaped` (`/repo/hrosailing/core/modelfunctions/_models2d.py:83-105`). -/
noncomputable def sShaped (x : ℝ) (params : List ℝ) (downturn : Bool) : Except PyErr ℝ := do
  let val := (← param params 2) / (1 + Real.exp ((← param params 0) - (← param params 1) * x))
  if downturn then return val - (← param params 3) * x ^ 2
  else return val

/-- `np.power(b, x)` for floats (`/repo/hrosailing/core/modelfunctions/_models2d.py:110`, `:112`): `nan` for negative `b`
unless `x` is an integer, `inf` for `b = 0` and negative `x`. -/
noncomputable def power (b x : ℝ) : Option ℝ :=
  if 0 < b then some (b ^ x)
  else if b = 0 then (if x < 0 then none else if x = 0 then some 1 else some 0)
  else if x = ⌊x⌋ then some (b ^ ⌊x⌋)
  else none

/-- `gompertz_model` (`/repo/hrosailing/core/modelfunctions/_models2d.py:108-112`). -/
noncomputable def gompertz (x : ℝ) (params : List ℝ) (neg : Bool) : Except PyErr (Option ℝ) :=
  if neg then do
    let a2 ← param params 2
    let a0 ← param params 0
    let a1 ← param params 1
    return (power (-a1) x).map fun p => a2 * Real.exp (-a0 * p)
  else do
    let a2 ← param params 2
    let a0 ← param params 0
    let a1 ← param params 1
    return (power a1 x).map fun p => a2 * Real.exp (-a0 * p)

/-- `a * np.exp(-0.5 * np.square(x - m) / s)` (`/repo/hrosailing/core/modelfunctions/_models2d.py:132`, `:141-142`). For
`s = 0` the quotient is `nan` if `x = m` (`none`), otherwise it is infinite and negative and its exponential is 0 (`-0.0` is left
aside). -/
noncomputable def bump (x a m s : ℝ) : Option ℝ :=
  if s = 0 then (if x = m then none else some 0) else some (a * Real.exp (-(1 / 2) * (x - m) ^ 2 / s))

/-- `gaussian_model` (`/repo/hrosailing/core/modelfunctions/_models2d.py:115-136`). -/
noncomputable def gaussian (x : ℝ) (params : List ℝ) (offset : Bool) : Except PyErr (Option ℝ) := do
  let val := bump x (← param params 0) (← param params 1) (← param params 2)
  if offset then
    let a3 ← param params 3
    return val.map (· + a3)
  else return val

/-- `gmm_model` (`/repo/hrosailing/core/modelfunctions/_models2d.py:139-144`). -/
noncomputable def gmm (x : ℝ) (params : List ℝ) : Except PyErr (Option ℝ) := do
  let b0 := bump x (← param params 0) (← param params 1) (← param params 2)
  let b1 := bump x (← param params 3) (← param params 4) (← param params 5)
  let a6 ← param params 6
  return b0.bind fun u => b1.map fun v => u + v + a6

end Verif.Models2d
