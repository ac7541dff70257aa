import Verif.Model.FloatSlices
import Verif.Model.FloatWeigher
import Verif.Model.Injector

/-!
# `CylindricMemberWeigher` and `ZeroInjector` in double precision

Model of `/repo/hrosailing/processing/weigher.py:425-451` and `/repo/hrosailing/processing/injector.py:61-110` where the result of each
operation is rounded to the nearest double. The norm is any function (its rounded values).
-/

namespace Verif.F64

variable {K : Type} [Field K] [LinearOrder K] [IsStrictOrderedRing K] [FloorRing K] {P : Type} [Sub P]

/-- Whether `q` is in the cylinder of `p` (`/repo/hrosailing/processing/weigher.py:446-449`). -/
def inCylinder (norm : P → K) (radius length : K) (p q : P × K) : Bool :=
  decide (|fl (q.2 - p.2)| ≤ length) && decide (norm (q.1 - p.1) ≤ radius)

/-- `_count_points_in_cylinder` (`/repo/hrosailing/processing/weigher.py:445-451`). -/
def memberCount (norm : P → K) (radius length : K) (points : List (P × K)) (p : P × K) : Nat :=
  (points.filter (inCylinder norm radius length p)).length

/-- `CylindricMemberWeigher.weigh` for an array (`/repo/hrosailing/processing/weigher.py:425-443`); the numbers of points are
integers, their quotients are doubles. -/
def memberWeigh (norm : P → K) (radius length : K) (points : List (P × K)) : List K :=
  normalize (points.map fun p => (memberCount norm radius length points p : K) - 1)

/-- `ZeroInjector(n_zeros).inject` (`/repo/hrosailing/processing/injector.py:61-110`), see `Injector.inject`. -/
def zeroInject (nZeros : Int) : Injector.Input K → Except PyErr (Injector.Injected K)
  | .notArray => .error .typeError
  | .otherDim => .error .valueError
  | .array width rows =>
    if width ≠ 3 then .error .valueError
    else
      let ws := rows.map fun r => r.getD 0 0
      match ws.min?, ws.max? with
      | some a, some b =>
        if nZeros < 0 then .error .valueError
        else
          let ws := linspace a b nZeros.toNat
          let zeros := ws.map fun x => [x, 0, 0]
          let fulls := ws.map fun x => [x, 360, 0]
          .ok ⟨zeros ++ fulls, List.replicate (2 * nZeros).toNat 1, 2 * nZeros⟩
      | _, _ => .error .valueError

end Verif.F64
