import Mathlib.Analysis.SpecialFunctions.Exp
import Verif.Model.Injector
import Verif.Model.Mod
import Verif.Model.Py

/-!
# `hrosailing.models.influencemodel`

Model of the influence models (`/repo/hrosailing/models/influencemodel.py`). Exact arithmetic.
-/

namespace Verif.Influence

section
variable {K : Type} [Field K] [LinearOrder K] [FloorRing K]

/-- The wind in `influence_data` (`/repo/hrosailing/models/influencemodel.py:124-129`): lists or single values of `"TWS"`
and `"TWA"`. -/
inductive WindData (K : Type)
  | many (ws wa : List K)
  | one (ws wa : K)

/-- The returned speeds (`/repo/hrosailing/models/influencemodel.py:54-58`). -/
inductive Speeds (K : Type)
  | many (speeds : List K)
  | one (speed : K)
  deriving DecidableEq, Repr

/-- `[pd(ws, wa) for ws, wa in wind]` (`/repo/hrosailing/models/influencemodel.py:126`, `:192`). -/
def evalAll (pd : K → K → Except PyErr K) : List (K × K) → Except PyErr (List K)
  | [] => .ok []
  | (ws, wa) :: rest =>
    match pd ws wa with
    | .error e => .error e
    | .ok b =>
      match evalAll pd rest with
      | .error e => .error e
      | .ok bs => .ok (b :: bs)

/-- `IdentityInfluenceModel.add_influence` (`/repo/hrosailing/models/influencemodel.py:106-130`). -/
def identityAdd (pd : K → K → Except PyErr K) : WindData K → Except PyErr (Speeds K)
  | .many ws wa => (evalAll pd (ws.zip wa)).map .many
  | .one ws wa => (pd ws wa).map .one

/-- `WindAngleCorrectingInfluenceModel.add_influence` (`/repo/hrosailing/models/influencemodel.py:181-196`). -/
def correctingAdd (shift : K) (pd : K → K → Except PyErr K) : WindData K → Except PyErr (Speeds K)
  | .many ws wa => (evalAll pd ((ws.zip wa).map fun w => (w.1, pmod (w.2 + shift) 360))).map .many
  | .one ws wa => (pd ws wa).map .one

/-- A row of the array of true wind data (`/repo/hrosailing/models/influencemodel.py:230-245`). -/
structure Row (K : Type) where
  ws : K
  wa : K
  bsp : K
  deriving DecidableEq, Repr

/-- The result of `_get_true_wind_data` (`/repo/hrosailing/models/influencemodel.py:230-245`) for data with `"TWS"` and
`"TWA"`: an array with three columns for lists, an array of dimension one for single values. -/
inductive TrueWind (K : Type)
  | rows (r : List (Row K))
  | single (r : Row K)

/-- `WindAngleCorrectingInfluenceModel.remove_influence` (`/repo/hrosailing/models/influencemodel.py:168-179`):
`wind_data[:, 1]` raises `IndexError` for an array of dimension one. -/
def correctingRemove (shift : K) : TrueWind K → Except PyErr (List (Row K))
  | .rows r => .ok (r.map fun row => { row with wa := pmod (row.wa - shift) 360 })
  | .single _ => .error .indexError

end

/-- `(abs(wa - other_wa) % 360)` (`/repo/hrosailing/models/influencemodel.py:219`). -/
noncomputable def gap (wa other : ℝ) : ℝ := pmod |wa - other| 360

/-- An entry of `counts` (`/repo/hrosailing/models/influencemodel.py:215-224`) for measurements `(other_wa, other_ws)`. -/
noncomputable def density (interval : ℝ) (data : List (ℝ × ℝ)) (wa : ℝ) : ℝ :=
  (data.map fun d => d.2 * Real.exp (-((gap wa d.1 / interval) ^ 2))).sum

open Classical in
/-- python's `min(…, key=…)` of the sampled angles (`/repo/hrosailing/models/influencemodel.py:225`): the first of the
smallest ones. -/
noncomputable def minKey (key : ℝ → ℝ) : ℝ → List ℝ → ℝ
  | best, [] => best
  | best, x :: rest => if key x < key best then minKey key x rest else minKey key best rest

/-- `min(zip(sample, counts), key=…)` (`/repo/hrosailing/models/influencemodel.py:225`) for a sample which is not empty. -/
noncomputable def firstMin (key : ℝ → ℝ) : List ℝ → ℝ
  | [] => 0
  | x :: rest => minKey key x rest

/-- `fit` (`/repo/hrosailing/models/influencemodel.py:198-227`): the fitted `_wa_shift`, for a non-zero interval size. -/
noncomputable def fit (interval : ℝ) (data : List (ℝ × ℝ)) : ℝ :=
  firstMin (density interval data) (Injector.linspace 0 359 (10 * 360))

end Verif.Influence
