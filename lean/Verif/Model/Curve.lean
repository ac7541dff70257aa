import Mathlib.Analysis.SpecialFunctions.Exp
import Mathlib.Analysis.Real.Pi.Bounds
import Verif.Model.Py
import Verif.Model.Mod
import Verif.Model.Injector
import Verif.Model.TableText

/-!
# `PolarDiagramCurve` and the model functions

Model of `/repo/hrosailing/polardiagram/_polardiagramcurve.py`, `/repo/hrosailing/core/modelfunctions/__init__.py` and
`/repo/hrosailing/core/modelfunctions/_models2d.py` over the real numbers.
-/

namespace Verif.Curve

open Verif.Injector (linspace)
open Verif.Table (Text writeRows lines readRows parseAll)

/-- `np.rad2deg` (`/repo/hrosailing/polardiagram/_polardiagramcurve.py:139`). -/
noncomputable def rad2deg (x : ℝ) : ℝ := x * 180 / Real.pi

/-- `np.deg2rad` (`/repo/hrosailing/polardiagram/_polardiagramcurve.py:141`). -/
noncomputable def deg2rad (x : ℝ) : ℝ := x * Real.pi / 180

/-- `__call__` (`/repo/hrosailing/polardiagram/_polardiagramcurve.py:130-145`) for a function `f` of wind speed and wind
angle which does not raise exceptions. -/
noncomputable def call (f : ℝ → ℝ → ℝ) (radians : Bool) (ws wa : ℝ) : Except PyErr ℝ :=
  if ws < 0 then .error .valueError
  else if radians then .ok (f ws (deg2rad (pmod (rad2deg wa) 360)))
  else .ok (f ws (pmod wa 360))

/-- `sym_func` in `symmetrize` (`/repo/hrosailing/polardiagram/_polardiagramcurve.py:209-212`). The flag `radians` is
kept (`:214-216`). -/
noncomputable def symFunc (f : ℝ → ℝ → ℝ) (ws wa : ℝ) : ℝ := 1 / 2 * (f ws wa + f ws (360 - wa))

/-- The wind angles and boat speeds of one slice (`/repo/hrosailing/polardiagram/_polardiagramcurve.py:103-114`). -/
noncomputable def evalAngles (f : ℝ → ℝ → ℝ) (radians : Bool) (ws : ℝ) : List ℝ → Except PyErr (List ((ℝ × ℝ) × ℝ))
  | [] => .ok []
  | a :: l =>
    match call f radians ws a with
    | .error e => .error e
    | .ok b =>
      match evalAngles f radians ws l with
      | .error e => .error e
      | .ok r => .ok (((ws, a), b) :: r)

/-- One slice of `ws_to_slices` (`/repo/hrosailing/polardiagram/_polardiagramcurve.py:103-114`) for a non-negative
`wa_resolution`. -/
noncomputable def slice (f : ℝ → ℝ → ℝ) (radians : Bool) (waResolution : Nat) (ws : ℝ) :
    Except PyErr (List ((ℝ × ℝ) × ℝ)) :=
  evalAngles f radians ws (linspace 0 360 waResolution)

/-! ### csv files -/

/-- A curve as far as csv files are concerned: the name of its function, its parameters and the unit
(`/repo/hrosailing/polardiagram/_polardiagramcurve.py:66-68`). -/
structure Named (K : Type) where
  name : Text
  params : List K
  radians : Bool
  deriving DecidableEq

/-- `to_csv` (`/repo/hrosailing/polardiagram/_polardiagramcurve.py:165-188`). -/
def toCsv {K : Type} (print : K → Text) (c : Named K) : Text :=
  writeRows ':' [["PolarDiagramCurve".toList], ["Function".toList, c.name],
    ["Radians".toList, if c.radians then "True".toList else "False".toList], "Parameters".toList :: c.params.map print]

/-- `from_csv` for curves (`/repo/hrosailing/polardiagram/_reading.py:80-90`,
`/repo/hrosailing/polardiagram/_polardiagramcurve.py:191-202`, `:57-68`). `known` tells whether a name is in
`MODEL_FUNCTIONS`, `enough` whether the function with this name accepts the parameters (lines `:116-122`). Other values
of `radians` than `True` and `False` and files with missing rows are not considered and raise some other exception. -/
def fromCsv {K : Type} (parse : Text → Except PyErr K) (known : Text → Bool) (enough : Text → List K → Bool)
    (text : Text) : Except PyErr (Named K) :=
  match lines text with
  | [] => .error .otherError
  | first :: ls =>
    if first ≠ "PolarDiagramCurve".toList then .error .otherError
    else
      match readRows ':' ls with
      | (_ :: function :: _) :: (_ :: radians :: _) :: (_ :: params) :: _ =>
        if radians ≠ "True".toList ∧ radians ≠ "False".toList then .error .otherError
        else
          match parseAll parse params with
          | .error e => .error e
          | .ok params =>
            if ¬ known function then .error .runtimeError
            else if ¬ enough function params then .error .valueError
            else .ok ⟨function, params, radians = "True".toList⟩
      | _ => .error .otherError

/-! ### Model functions -/

/-- `params[i]` of a tuple (`/repo/hrosailing/core/modelfunctions/_models2d.py:23`). -/
def param (params : List ℝ) (i : Nat) : Except PyErr ℝ :=
  match params[i]? with
  | some x => .ok x
  | none => .error .indexError

/-- `ws_times_wa` (`/repo/hrosailing/core/modelfunctions/__init__.py:16-33`). -/
def wsTimesWa (ws wa scal : ℝ) : ℝ := scal * ws * wa

/-- `inverted_shifted_parabola` (`/repo/hrosailing/core/modelfunctions/_models2d.py:26-37`). -/
def invertedShiftedParabola (x : ℝ) (params : List ℝ) : Except PyErr ℝ := do
  return (← param params 0) * x + (← param params 2) * (x - (← param params 1)) ^ 2

/-- `concave_function` with the default `downturn=True`, `sat_limit=False`
(`/repo/hrosailing/core/modelfunctions/_models2d.py:40-80`, `:6-15`). -/
def concaveFunction (x : ℝ) (params : List ℝ) : Except PyErr ℝ := do
  return 0 + (← param params 0) * x ^ 0 + (← param params 1) * x ^ 1 + (-(← param params 2)) * x ^ 2

/-- `s_shaped` with the default `downturn=True` (`/repo/hrosailing/core/modelfunctions/_models2d.py:83-105`). -/
noncomputable def sShaped (x : ℝ) (params : List ℝ) : Except PyErr ℝ := do
  let val := (← param params 2) / (1 + Real.exp ((← param params 0) - (← param params 1) * x))
  return val - (← param params 3) * x ^ 2

/-- `gaussian_model` with the default `offset=False` (`/repo/hrosailing/core/modelfunctions/_models2d.py:115-136`) for a
third parameter other than 0. -/
noncomputable def gaussianModel (x : ℝ) (params : List ℝ) : Except PyErr ℝ := do
  return (← param params 0) * Real.exp (-(1 / 2) * (x - (← param params 1)) ^ 2 / (← param params 2))

/-- `f(x, params[i], params[j], params[k])` (`/repo/hrosailing/core/modelfunctions/__init__.py:50-54`). -/
def pick (params : List ℝ) : List Nat → Except PyErr (List ℝ)
  | [] => .ok []
  | i :: l => do return (← param params i) :: (← pick params l)

/-- `ws_concave_dt_wa` (`/repo/hrosailing/core/modelfunctions/__init__.py:36-55`). -/
def wsConcaveDtWa (ws wa : ℝ) (params : List ℝ) : Except PyErr ℝ := do
  return (← concaveFunction ws (← pick params [0, 1, 2])) + (← invertedShiftedParabola wa (← pick params [3, 4, 5])) +
    wsTimesWa ws wa (← param params 6) + (← invertedShiftedParabola (360 - wa) (← pick params [7, 8, 9])) +
    wsTimesWa ws (360 - wa) (← param params 10)

/-- `ws_wa_s_dt` (`/repo/hrosailing/core/modelfunctions/__init__.py:58-79`). -/
noncomputable def wsWaSDt (ws wa : ℝ) (params : List ℝ) : Except PyErr ℝ := do
  return (← sShaped ws (← pick params [0, 1, 2, 3])) + (← sShaped wa (← pick params [4, 5, 6, 7])) +
    wsTimesWa ws wa (← param params 8) + (← sShaped (360 - wa) (← pick params [9, 10, 11, 12])) +
    wsTimesWa ws (360 - wa) (← param params 13)

/-- `ws_s_dt_wa_gauss` (`/repo/hrosailing/core/modelfunctions/__init__.py:82-101`). -/
noncomputable def wsSDtWaGauss (ws wa : ℝ) (params : List ℝ) : Except PyErr ℝ := do
  return (← sShaped ws (← pick params [0, 1, 2, 3])) + (← gaussianModel wa (← pick params [4, 5, 6])) +
    (← gaussianModel (360 - wa) (← pick params [7, 8, 9]))

/-- `ws_s_s_dt_wa_gauss_comb` (`/repo/hrosailing/core/modelfunctions/__init__.py:104-125`). -/
noncomputable def wsSSDtWaGaussComb (ws wa : ℝ) (params : List ℝ) : Except PyErr ℝ := do
  return (← sShaped ws (← pick params [0, 1, 2, 3])) + (← gaussianModel wa (← pick params [4, 5, 6])) +
    wsTimesWa ws wa (← param params 7) + (← gaussianModel (360 - wa) (← pick params [8, 9, 10])) +
    wsTimesWa ws (360 - wa) (← param params 11)

/-- `ws_s_wa_gauss` (`/repo/hrosailing/core/modelfunctions/__init__.py:128-147`). -/
noncomputable def wsSWaGauss (ws wa : ℝ) (params : List ℝ) : Except PyErr ℝ := do
  return (← sShaped ws (params.take 4)) + (← gaussianModel wa ((params.take 8).drop 4)) +
    (← gaussianModel (360 - wa) ((params.take 12).drop 8))

/-- `ws_s_wa_gauss_and_square` (`/repo/hrosailing/core/modelfunctions/__init__.py:150-176`). -/
noncomputable def wsSWaGaussAndSquare (ws wa : ℝ) (params : List ℝ) : Except PyErr ℝ := do
  return ((← sShaped ws (← pick params [0, 1, 2, 3])) + ws * ((← gaussianModel wa (← pick params [4, 5, 6])) +
    (← gaussianModel (360 - wa) (← pick params [7, 8, 9])))) * wa * (360 - wa)

end Verif.Curve
