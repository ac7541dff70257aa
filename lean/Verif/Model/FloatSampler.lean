import Verif.Model.FloatRescale

/-!
# `UniformRandomSampler` in double precision

Model of `UniformRandomSampler.sample` (`/repo/hrosailing/processing/sampler.py:57-90`) where the result of each operation is
rounded to the nearest double. The generator is a sequence of multiples of `2^-53` in `[0, 1)`; `rng.uniform(a, b, m)` takes the next
`m` of them and calculates `a + (b - a) * u` for each. The equations of the convex hull are given. `none` means that the loop is
still running. The test of the inequalities
(`/repo/hrosailing/processing/sampler.py:87`) is `Verif.F64.inHull`. The exact version is `Verif.Sampler.uniformSample`.
-/

namespace Verif.F64

open Verif.Sampler (Facet)

variable {K : Type} [Field K] [LinearOrder K] [IsStrictOrderedRing K] [FloorRing K]

/-- One number of `rng.uniform(lo, hi, m)` (`/repo/hrosailing/processing/sampler.py:80-85`). -/
def uniformValue (lo hi z : K) : K := fl (lo + fl (fl (hi - lo) * z))

/-- The array `wind` of one round with `m` missing samples (`/repo/hrosailing/processing/sampler.py:80-86`) for doubles. -/
def uniformWinds (bounds : (K × K) × (K × K)) (m : Nat) (z : Nat → K) : List (K × K) :=
  (List.range m).map fun j => (uniformValue bounds.1.1 bounds.1.2 (z j), uniformValue bounds.2.1 bounds.2.2 (z (m + j)))

/-- The `while` loop (`/repo/hrosailing/processing/sampler.py:79-88`) for doubles. -/
def uniformDraws (ineqs : List (Facet K)) (bounds : (K × K) × (K × K)) (n : Nat) :
    Nat → (Nat → K) → List (K × K) → Option (List (K × K))
  | 0, _, _ => none
  | fuel + 1, z, samples =>
    if samples.length < n then
      let m := n - samples.length
      uniformDraws ineqs bounds n fuel (fun k => z (2 * m + k))
        (samples ++ (uniformWinds bounds m z).filter (inHull ineqs))
    else some samples

/-- `_create_bounds` (`/repo/hrosailing/processing/sampler.py:93-96`); `np.amin` of an empty array raises `ValueError`. -/
def createBounds : List (K × K) → Except PyErr ((K × K) × (K × K))
  | [] => .error .valueError
  | p :: ps => .ok (((ps.map Prod.fst).foldl min p.1, (ps.map Prod.fst).foldl max p.1),
      ((ps.map Prod.snd).foldl min p.2, (ps.map Prod.snd).foldl max p.2))

/-- `UniformRandomSampler.sample` (`/repo/hrosailing/processing/sampler.py:57-90`) for doubles. -/
def uniformSample (hull : List (K × K) → Except PyErr (List (Facet K))) (n fuel : Nat) (pts : List (K × K)) (z : Nat → K) :
    Option (Except PyErr (List (K × K))) :=
  match hull pts with
  | .error e => some (.error e)
  | .ok ineqs =>
    match createBounds pts with
    | .error e => some (.error e)
    | .ok bounds => (uniformDraws ineqs bounds n fuel z []).map .ok

end Verif.F64
