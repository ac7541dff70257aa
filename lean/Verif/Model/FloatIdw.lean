import Verif.Model.Float64
import Verif.Model.Interpolator

/-!
# Inverse distance weighting in double precision

Model of `IDWInterpolator.interpolate` (`/repo/hrosailing/processing/interpolator.py:100-134`) and of
`scaled_euclidean_norm` (`/repo/hrosailing/core/computing.py:143-159`) where the result of each operation is rounded to the
nearest double. Sums may be calculated in any order (`Verif.F64.Summed`), products of vectors also with fused multiplications
and additions. The root is rounded correctly. Powers are calculated by any function `pw`; for the default exponent 2 numpy
multiplies (`square`).
-/

namespace Verif.F64

open Verif.Interp

section

variable {K : Type} [Field K] [LinearOrder K] [IsStrictOrderedRing K] [FloorRing K]

/-- `v @ w` for doubles (`/repo/hrosailing/processing/interpolator.py:134`): products and additions are rounded, or a product
is added to a sum with a single rounding; the order is arbitrary. -/
inductive Dotted : List (K × K) → K → Prop
  | one (p : K × K) : Dotted [p] (fl (p.1 * p.2))
  | add {l m : List (K × K)} {a b : K} : Dotted l a → Dotted m b → Dotted (l ++ m) (fl (a + b))
  | fma {l : List (K × K)} {a : K} (p : K × K) : Dotted l a → Dotted (p :: l) (fl (p.1 * p.2 + a))
  | perm {l m : List (K × K)} {a : K} : l.Perm m → Dotted l a → Dotted m a

/-- `wts /= np.sum(wts); return wts @ z` (`/repo/hrosailing/processing/interpolator.py:132-134`) for doubles. -/
def IdwMean (wts z : List K) (y : K) : Prop :=
  ∃ s, Summed wts s ∧ Dotted ((wts.map fun w => fl (w / s)).zip z) y

/-- The distance of the rounded differences `pts[:, :2] - grid_pt` (`/repo/hrosailing/processing/interpolator.py:126`). -/
def rdist (norm : K × K → K) (x : K × K) : K := norm (fl x.1, fl x.2)

/-- `np.power(wts, 2)` (`/repo/hrosailing/processing/interpolator.py:131`). -/
def square (d : K) : K := fl (d * d)

/-- `IDWInterpolator.interpolate` (`/repo/hrosailing/processing/interpolator.py:100-134`) for doubles. -/
def Idw (norm : K × K → K) (pw : K → K) (pts : List (Pt K)) (g : K × K) (r : Except PyErr K) : Prop :=
  if pts.length = 0 then r = .error .valueError
  else
    match firstAtZero (rdist norm) g pts with
    | some z => r = .ok z
    | none => ∃ y, IdwMean ((dists (rdist norm) pts g).map fun d => fl (1 / pw d)) (pts.map Prod.snd) y ∧ r = .ok y

end

/-- `scaled_euclidean_norm` on rows of length two (`/repo/hrosailing/core/computing.py:143-159`) for doubles. -/
noncomputable def scaledEuclidean (x : ℝ × ℝ) : ℝ :=
  let a := fl (fl (1 / 40) * x.1)
  let b := fl (fl (1 / 360) * x.2)
  fl (Real.sqrt (fl (fl (a * a) + fl (b * b))))

end Verif.F64
