import Mathlib.Algebra.Order.Field.Basic
import Mathlib.Data.Nat.Cast.Defs
import Verif.Model.Py

/-!
# `hrosailing.processing.injector`

Model of `/repo/hrosailing/processing/injector.py` over an arbitrary ordered field.
-/

namespace Verif.Injector

variable {K : Type} [Field K] [LinearOrder K]

/-- `np.linspace(a, b, n)` (`/repo/hrosailing/processing/injector.py:99`) for `n ≥ 0`: for `n = 1` the only value is
`a`. -/
def linspace (a b : K) (n : Nat) : List K :=
  if n = 1 then [a] else (List.range n).map fun (i : Nat) => a + (i : K) * ((b - a) / ((n : K) - 1))

/-- The attribute `data` of the given points (`/repo/hrosailing/processing/injector.py:82-92`): a numpy array of
dimension two given by its number of columns and its rows, an array of another dimension or something else. -/
inductive Input (K : Type)
  | array (width : Nat) (rows : List (List K))
  | otherDim
  | notArray

/-- The result of `inject`: the data and weights of the new points and the statistics `n_injected`
(`/repo/hrosailing/processing/injector.py:106-110`). -/
structure Injected (K : Type) where
  data : List (List K)
  weights : List K
  nInjected : Int
  deriving DecidableEq, Repr

/-- `ZeroInjector(n_zeros).inject` (`/repo/hrosailing/processing/injector.py:61-110`). The condition `len(data.T) == 0` in
line 93 is never satisfied for three columns; `min` of an empty array and `np.linspace` with a negative number raise
`ValueError`. -/
def inject (nZeros : Int) : Input K → Except PyErr (Injected K)
  | .notArray => .error .typeError
  | .otherDim => .error .valueError
  | .array width rows =>
    if width ≠ 3 then .error .valueError
    else
      let ws := rows.map fun r => r.getD 0 0
      match ws.min?, ws.max? with
      | some a, some b =>
        if nZeros < 0 then .error .valueError
        else
          let ws := linspace a b nZeros.toNat
          let zeros := ws.map fun x => [x, 0, 0]
          let fulls := ws.map fun x => [x, 360, 0]
          .ok ⟨zeros ++ fulls, List.replicate (2 * nZeros).toNat 1, 2 * nZeros⟩
      | _, _ => .error .valueError

end Verif.Injector
