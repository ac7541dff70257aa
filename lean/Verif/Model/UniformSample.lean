import Verif.Model.Spiral

/-!
# `UniformRandomSampler.sample` with its stream of random numbers

Model of `UniformRandomSampler.sample` (`/repo/hrosailing/processing/sampler.py:57-90`) together with the way in which
it consumes the numbers of the generator. The generator is a sequence of numbers in `[0, 1)`; `rng.uniform(a, b, m)`
takes the next `m` of them and returns `a + (b - a) u` for each. `none` means that the loop is still running.
-/

namespace Verif.Sampler

noncomputable section

/-- The array `wind` of one round with `m` missing samples (`/repo/hrosailing/processing/sampler.py:80-86`): the first
`m` numbers give the wind speeds, the next `m` the wind angles. -/
def uniformWinds (bounds : (ℝ × ℝ) × (ℝ × ℝ)) (m : Nat) (z : Nat → ℝ) : List (ℝ × ℝ) :=
  (List.range m).map fun j =>
    (bounds.1.1 + (bounds.1.2 - bounds.1.1) * z j, bounds.2.1 + (bounds.2.2 - bounds.2.1) * z (m + j))

/-- The `while` loop (`/repo/hrosailing/processing/sampler.py:79-88`). `z` are the numbers of the generator that are not
yet used. -/
def uniformDraws (ineqs : List (Facet ℝ)) (bounds : (ℝ × ℝ) × (ℝ × ℝ)) (n : Nat) :
    Nat → (Nat → ℝ) → List (ℝ × ℝ) → Option (List (ℝ × ℝ))
  | 0, _, _ => none
  | fuel + 1, z, samples =>
    if samples.length < n then
      let m := n - samples.length
      uniformDraws ineqs bounds n fuel (fun k => z (2 * m + k))
        (samples ++ (uniformWinds bounds m z).filter (inHull ineqs))
    else some samples

/-- `UniformRandomSampler.sample` (`/repo/hrosailing/processing/sampler.py:57-90`) for points with two columns. -/
def uniformSample (hull : Hull) (n fuel : Nat) (pts : List (ℝ × ℝ)) (z : Nat → ℝ) :
    Option (Except PyErr (List (ℝ × ℝ))) :=
  match hull pts with
  | .error e => some (.error e)
  | .ok (_, ineqs) =>
    match createBounds pts with
    | .error e => some (.error e)
    | .ok bounds => (uniformDraws ineqs bounds n fuel z []).map .ok

end

end Verif.Sampler
