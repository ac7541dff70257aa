import Mathlib.Analysis.Real.Sqrt
import Verif.Model.Py

/-!
# `hrosailing.processing.sampler`

Model of `/repo/hrosailing/processing/sampler.py`. Random numbers are given by arbitrary streams, the convex hull by
its list of facet inequalities; `while` loops are bounded by fuel, `none` meaning that the loop is still running.
-/

namespace Verif.Sampler

section Uniform

variable {K : Type} [Add K] [Mul K] [Neg K] [LE K] [DecidableLE K]

/-- A row `(a, b, c)` of `ConvexHull(...).equations` (`/repo/hrosailing/processing/sampler.py:76`); the facet
inequality is `a x + b y + c ≤ 0`. -/
abbrev Facet (K : Type) := K × K × K

/-- One entry of `mask` (`/repo/hrosailing/processing/sampler.py:87`, `:272`):
`np.all(ineqs[:, :2] @ p <= -ineqs[:, 2])`. -/
def inHull (ineqs : List (Facet K)) (p : K × K) : Bool :=
  ineqs.all fun q => decide (q.1 * p.1 + q.2.1 * p.2 ≤ -q.2.2)

/-- `UniformRandomSampler.__init__` and its siblings (`/repo/hrosailing/processing/sampler.py:51-55`, `:120-124`,
`:189-193`). -/
def init (n : Int) : Except PyErr Nat :=
  if n ≤ 0 then .error .valueError else .ok n.toNat

/-- The `while` loop of `UniformRandomSampler.sample` (`/repo/hrosailing/processing/sampler.py:77-88`). `rng i m` are
the `m` winds drawn in round `i`. -/
def uniformLoop (ineqs : List (Facet K)) (rng : Nat → Nat → List (K × K)) (n : Nat) :
    Nat → Nat → List (K × K) → Option (List (K × K))
  | 0, _, _ => none
  | fuel + 1, i, samples =>
    if samples.length < n then
      uniformLoop ineqs rng n fuel (i + 1) (samples ++ (rng i (n - samples.length)).filter (inHull ineqs))
    else some samples

/-- `UniformRandomSampler.sample` (`/repo/hrosailing/processing/sampler.py:57-90`). -/
def uniform (ineqs : List (Facet K)) (rng : Nat → Nat → List (K × K)) (n fuel : Nat) : Option (List (K × K)) :=
  uniformLoop ineqs rng n fuel 0 []

/-- `_sample_generator` (`/repo/hrosailing/processing/sampler.py:264-275`). -/
def sampleGenerator (base : List (K × K)) (mid : K × K) (ineqs : List (Facet K)) (t : K) : List (K × K) :=
  (base.map fun p => (mid.1 + t * p.1, mid.2 + t * p.2)).filter (inHull ineqs)

end Uniform

section Rescale

variable {K : Type} [Add K] [Mul K] [Div K] [OfNat K 0] [OfNat K 2]

/-- The `while` loop of `_binary_rescale` (`/repo/hrosailing/processing/sampler.py:250-259`). -/
def rescaleLoop {α : Type} (n : Nat) (generate : K → List α) : Nat → K → Option K → K → List α → Option (List α)
  | 0, _, _, _, _ => none
  | fuel + 1, lb, ub, t, sample =>
    if sample.length ≠ n then
      let lb' := if n < sample.length then t else lb
      let ub' := if n < sample.length then ub else some t
      let t' := match ub' with
        | none => t * 2
        | some u => (u + lb') / 2
      rescaleLoop n generate fuel lb' ub' t' (generate t')
    else some sample

/-- `_binary_rescale` (`/repo/hrosailing/processing/sampler.py:240-261`). -/
def binaryRescale {α : Type} (n : Nat) (generate : K → List α) (start : K) (fuel : Nat) : Option (List α) :=
  rescaleLoop n generate fuel 0 none start (generate start)

end Rescale

/-! ### Smallest enclosing circle -/

noncomputable section

/-- A circle is a pair of midpoint and radius (`/repo/hrosailing/processing/sampler.py:283`). -/
abbrev Circle := (ℝ × ℝ) × ℝ

/-- `np.linalg.norm` of a plane vector (`/repo/hrosailing/processing/sampler.py:313`). -/
def norm2 (p : ℝ × ℝ) : ℝ := Real.sqrt (p.1 ^ 2 + p.2 ^ 2)

/-- `_is_in_circle` (`/repo/hrosailing/processing/sampler.py:310-313`). -/
def isInCircle (p : ℝ × ℝ) (c : Circle) (eps : ℝ) : Prop :=
  norm2 (p.1 - c.1.1, p.2 - c.1.2) < c.2 + eps

/-- The branch for two points of `_small_circle` (`/repo/hrosailing/processing/sampler.py:324-328`). -/
def circle2 (p q : ℝ × ℝ) : Circle :=
  ((1 / 2 * (p.1 + q.1), 1 / 2 * (p.2 + q.2)), 1 / 2 * norm2 (p.1 - q.1, p.2 - q.2))

/-- Determinant of a 3×3 matrix given by its rows, used for `np.linalg.inv`
(`/repo/hrosailing/processing/sampler.py:333`). -/
def det3 (a b c d e f g h i : ℝ) : ℝ :=
  a * (e * i - f * h) - b * (d * i - f * g) + c * (d * h - e * g)

/-- `np.linalg.inv(circle_m) @ circle_b` (`/repo/hrosailing/processing/sampler.py:329-333`) by Cramer's rule; `none`
stands for `LinAlgError`, raised for singular matrices. -/
def solveCircle (p q r : ℝ × ℝ) : Option (ℝ × ℝ × ℝ) :=
  let D := det3 1 (-p.1) (-p.2) 1 (-q.1) (-q.2) 1 (-r.1) (-r.2)
  let bp := -(norm2 p) ^ 2
  let bq := -(norm2 q) ^ 2
  let br := -(norm2 r) ^ 2
  open Classical in
  if D = 0 then none
  else some (det3 bp (-p.1) (-p.2) bq (-q.1) (-q.2) br (-r.1) (-r.2) / D,
    det3 1 bp (-p.2) 1 bq (-q.2) 1 br (-r.2) / D,
    det3 1 (-p.1) bp 1 (-q.1) bq 1 (-r.1) br / D)

/-- The test in the fallback loop of `_small_circle` (`/repo/hrosailing/processing/sampler.py:341`). -/
def fits (p : ℝ × ℝ) (c : Circle) : Prop := norm2 (p.1 - c.1.1, p.2 - c.1.2) ≤ c.2

open Classical in
/-- `_small_circle` (`/repo/hrosailing/processing/sampler.py:316-344`). -/
def smallCircle : List (ℝ × ℝ) → Except PyErr Circle
  | [] => .ok ((0, 0), 0)
  | [p] => .ok (p, 0)
  | [p, q] => .ok (circle2 p q)
  | [p, q, r] =>
    match solveCircle p q r with
    | some (a, b, c) => .ok ((b / 2, c / 2), Real.sqrt (b ^ 2 / 4 + c ^ 2 / 4 - a))
    | none =>
      if fits p (circle2 q r) then .ok (circle2 q r)
      else if fits q (circle2 p r) then .ok (circle2 p r)
      else if fits r (circle2 p q) then .ok (circle2 p q)
      else .error .runtimeError
  | _ => .error .valueError

open Classical in
/-- The `while` loop of `_make_circle` (`/repo/hrosailing/processing/sampler.py:286-305`); `pts` are the shuffled
points. `none` means that the loop is still running after the given number of rounds. -/
def circleLoop (pts : List (ℝ × ℝ)) (eps : ℝ) : Nat → Nat → Nat → List Nat → Circle → Option (Except PyErr Circle)
  | 0, _, _, _, _ => none
  | fuel + 1, i, j, k, circle =>
    match pts[i]? with
    | none => some (.ok circle)
    | some p =>
      if isInCircle p circle eps then circleLoop pts eps fuel (i + 1) (max (i + 1) j) k circle
      else
        let k' := if i = j then [i] else k.filter (fun t => decide (i < t)) ++ [i]
        match smallCircle (k'.filterMap fun t => pts[t]?) with
        | .error e => some (.error e)
        | .ok circle' => circleLoop pts eps fuel 0 j k' circle'

/-- `_make_circle` (`/repo/hrosailing/processing/sampler.py:278-307`) after shuffling. -/
def makeCircle (pts : List (ℝ × ℝ)) (eps : ℝ) (fuel : Nat) : Option (Except PyErr Circle) :=
  match smallCircle [] with
  | .error e => some (.error e)
  | .ok circle => circleLoop pts eps fuel 0 0 [] circle

end

end Verif.Sampler
