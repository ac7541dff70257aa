import Verif.Model.Py
import Mathlib.Algebra.Order.Field.Rat

/-!
# Regressors

Model of `ODRegressor`, `LeastSquareRegressor` and `_determine_params`
(`/repo/hrosailing/processing/regressor.py`).

`scipy.optimize.curve_fit` and `scipy.odr.ODR` are parameters. A model function is given by its signature and by what
its body does for given wind speeds, wind angles and parameters.
-/

namespace Verif.Regr

variable {K : Type}

/-- A model function (`/repo/hrosailing/processing/regressor.py:147-152`, `:173-182`): number of positional parameters
without default value, number of all positional parameters, is there a `*params`, is there a keyword-only parameter without
default value, and the body. -/
structure Func (K : Type) where
  required : Nat
  named : Nat
  star : Bool
  keyword : Bool
  body : List K → List K → List K → Except PyErr (List K)

/-- `model_func(ws, wa, *params)` (`/repo/hrosailing/processing/regressor.py:171`): a `TypeError` if the number of
arguments is wrong. -/
def Func.call (f : Func K) (ws wa params : List K) : Except PyErr (List K) :=
  if params.length + 2 < f.required ∨ (f.named < params.length + 2 ∧ f.star = false) ∨ f.keyword = true then .error .typeError
  else f.body ws wa params

/-- `fitting_func` (`/repo/hrosailing/processing/regressor.py:168-171`). -/
def Func.fitting (f : Func K) (wind : List (K × K)) (params : List K) : Except PyErr (List K) :=
  f.call (wind.map (·.1)) (wind.map (·.2)) params

variable [OfNat K 0] [OfNat K 1]

/-- `_determine_params` (`/repo/hrosailing/processing/regressor.py:244-253`), at most `fuel` passes of the loop; `none` if
they do not suffice. -/
def determine (func : List (K × K) → List K → Except PyErr (List K)) : Nat → List K → Option (Except PyErr (List K))
  | 0, _ => none
  | fuel + 1, params =>
    match func [(0, 0)] params with
    | .ok _ => some (.ok params)
    | .error .indexError => determine func fuel (params ++ [1])
    | .error .typeError => determine func fuel (params ++ [1])
    | .error e => some (.error e)

/-- The initial values `LeastSquareRegressor.__init__` chooses (`/repo/hrosailing/processing/regressor.py:173-187`). -/
def initVals (f : Func K) (given : Option (List K)) (fuel : Nat) : Option (Except PyErr (List K)) :=
  match given with
  | some v => some (.ok v)
  | none =>
    if f.named < 3 then determine f.fitting fuel []
    else some (.ok (List.replicate f.named 1))

/-- The argument `data` of `fit` (`/repo/hrosailing/processing/regressor.py:45-48`): a two-dimensional array with its
number of columns, or another array like, i.e. a list of lists. -/
inductive Input (K : Type)
  | array (cols : Nat) (rows : List (List K))
  | list (rows : List (List K))
  deriving DecidableEq, Repr

/-- A regressor (`/repo/hrosailing/processing/regressor.py:84-90`, `:189-191`): function, initial values, `_popt`. -/
structure State (K : Type) where
  func : Func K
  init : List K
  popt : Option (List K)

/-- The points `X`, `y` of a row (`/repo/hrosailing/processing/regressor.py:126`, `:230`): `data[:, :2]`, `data[:, 2]`. -/
def split (row : List K) : (K × K) × K := ((row.getD 0 0, row.getD 1 0), row.getD 2 0)

/-- `LeastSquareRegressor.fit` (`/repo/hrosailing/processing/regressor.py:213-241`). An index `[:, :2]` of a list is a
`TypeError`, a missing third column is an `IndexError`. -/
def fitLS (curveFit : (List (K × K) → List K → Except PyErr (List K)) → List (K × K) → List K → List K →
    Except PyErr (List K)) (s : State K) : Input K → Res (State K)
  | .list _ => (s, some .typeError)
  | .array cols rows =>
    if cols < 3 then (s, some .indexError)
    else
      match curveFit s.func.fitting (rows.map fun r => (split r).1) (rows.map fun r => (split r).2) s.init with
      | .error e => (s, some e)
      | .ok p => ({ s with popt := some p }, none)

/-- `odr_model_func` (`/repo/hrosailing/processing/regressor.py:79-82`). -/
def odrFunc (f : Func K) (params : List K) (x : List K × List K) : Except PyErr (List K) := f.call x.1 x.2 params

/-- `ODRegressor.fit` (`/repo/hrosailing/processing/regressor.py:110-139`). Lists have no attribute `shape`. -/
def fitODR (odr : (List K → List K × List K → Except PyErr (List K)) → List K × List K → List K → List K →
    Except PyErr (List K)) (s : State K) : Input K → Res (State K)
  | .list _ => (s, some .attributeError)
  | .array cols rows =>
    if cols ≠ 3 then (s, some .valueError)
    else if rows = [] then (s, some .valueError)
    else
      match odr (odrFunc s.func) (rows.map fun r => (split r).1.1, rows.map fun r => (split r).1.2)
          (rows.map fun r => (split r).2) s.init with
      | .error e => (s, some e)
      | .ok p => ({ s with popt := some p }, none)

end Verif.Regr
