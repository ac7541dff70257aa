import Verif.Model.Float64
import Verif.Model.Sampler

/-!
# The search for the scale of a spiral in double precision

Model of `_binary_rescale` and `_sample_generator` (`/repo/hrosailing/processing/sampler.py:240-275`) where every operation is
rounded. The exponent is not bounded. The product of matrices is taken to round both products and their sum.
-/

namespace Verif.F64

variable {K : Type} [Field K] [LinearOrder K] [IsStrictOrderedRing K] [FloorRing K]

/-- The `while` loop of `_binary_rescale` (`/repo/hrosailing/processing/sampler.py:250-259`). -/
def rescaleLoop {α : Type} (n : Nat) (generate : K → List α) : Nat → K → Option K → K → List α → Option (List α)
  | 0, _, _, _, _ => none
  | fuel + 1, lb, ub, t, sample =>
    if sample.length ≠ n then
      let lb' := if n < sample.length then t else lb
      let ub' := if n < sample.length then ub else some t
      let t' := match ub' with
        | none => fl (t * 2)
        | some u => fl (fl (u + lb') / 2)
      rescaleLoop n generate fuel lb' ub' t' (generate t')
    else some sample

/-- `_binary_rescale` (`/repo/hrosailing/processing/sampler.py:240-261`); the start value is a double. -/
def binaryRescale {α : Type} (n : Nat) (generate : K → List α) (start : K) (fuel : Nat) : Option (List α) :=
  rescaleLoop n generate fuel 0 none start (generate start)

/-- One entry of `mask` (`/repo/hrosailing/processing/sampler.py:272`). -/
def inHull (ineqs : List (Sampler.Facet K)) (p : K × K) : Bool :=
  ineqs.all fun q => decide (fl (fl (q.1 * p.1) + fl (q.2.1 * p.2)) ≤ -q.2.2)

/-- A point of `spiral` (`/repo/hrosailing/processing/sampler.py:271`). -/
def spiralPoint (mid : K × K) (t : K) (p : K × K) : K × K :=
  (fl (mid.1 + fl (t * p.1)), fl (mid.2 + fl (t * p.2)))

/-- `_sample_generator` (`/repo/hrosailing/processing/sampler.py:264-275`). -/
def sampleGenerator (base : List (K × K)) (mid : K × K) (ineqs : List (Sampler.Facet K)) (t : K) : List (K × K) :=
  (base.map (spiralPoint mid t)).filter (inHull ineqs)

end Verif.F64
