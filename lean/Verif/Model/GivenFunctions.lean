import Verif.Model.Curve
import Verif.Model.Regressor

/-!
# The given model functions as model functions of regressors

The functions of `/repo/hrosailing/core/modelfunctions/__init__.py` as arguments of `LeastSquareRegressor`
(`/repo/hrosailing/processing/regressor.py:142-191`).
-/

namespace Verif.Given

open Verif.Curve
open Verif.Regr (Func)

/-- A function `f(ws, wa, *params)` (`/repo/hrosailing/core/modelfunctions/__init__.py:36`, `:58`, `:82`, `:104`, `:128`,
`:150`), evaluated for each entry of the arrays; two named parameters and `*params`. -/
def vectorised (f : ℝ → ℝ → List ℝ → Except PyErr ℝ) : Func ℝ :=
  ⟨2, 2, true, false, fun ws wa params => (ws.zip wa).mapM fun p => f p.1 p.2 params⟩

/-- The six functions with the number of parameters they read
(`/repo/hrosailing/core/modelfunctions/__init__.py:36-176`). -/
inductive Name
  | concaveDtWa
  | waSDt
  | sDtWaGauss
  | sSDtWaGaussComb
  | sWaGauss
  | sWaGaussAndSquare
  deriving DecidableEq, Repr

/-- The functions (`/repo/hrosailing/core/modelfunctions/__init__.py:36-176`). -/
noncomputable def Name.func : Name → ℝ → ℝ → List ℝ → Except PyErr ℝ
  | .concaveDtWa => wsConcaveDtWa
  | .waSDt => wsWaSDt
  | .sDtWaGauss => wsSDtWaGauss
  | .sSDtWaGaussComb => wsSSDtWaGaussComb
  | .sWaGauss => wsSWaGauss
  | .sWaGaussAndSquare => wsSWaGaussAndSquare

end Verif.Given
