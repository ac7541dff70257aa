import Mathlib.Analysis.SpecialFunctions.Trigonometric.Basic
import Mathlib.Algebra.Order.Floor.Ring
import Verif.Model.Sampler

/-!
# The samplers that place points on a spiral

Model of `FibonacciSampler.sample` and `ArchimedeanSampler.sample`
(`/repo/hrosailing/processing/sampler.py:99-237`) and of `_create_bounds`. The given array is a list of rows, each of
which is the list of its entries. The convex hull is a parameter that yields the area and the facet inequalities, or
raises an exception; shuffling is a parameter as well. `none` means that one of the loops is still running.
-/

namespace Verif.Sampler

noncomputable section

/-- The rows of an array as points of the plane. The first comparison in `_make_circle` subtracts the midpoint, an array
of shape `(2,)`, from a row (`/repo/hrosailing/processing/sampler.py:283-289`, `:313`), which raises `ValueError` unless
the row has two entries (arrays with one column are rejected by `ConvexHull` with a `ValueError` later). -/
def toPlane : List (List ℝ) → Except PyErr (List (ℝ × ℝ))
  | [] => .ok []
  | [x, y] :: rows =>
    match toPlane rows with
    | .error e => .error e
    | .ok pts => .ok ((x, y) :: pts)
  | _ :: _ => .error .valueError

/-- `ub_n_samples` (`/repo/hrosailing/processing/sampler.py:151`, `:224`). -/
def upperBound (r vol : ℝ) (n : Nat) : Nat := ⌊Real.pi * r ^ 2 * n / vol⌋.toNat + 10

/-- `base_spiral` of `FibonacciSampler.sample` (`/repo/hrosailing/processing/sampler.py:154-158`). -/
def fibonacciBase (ub : Nat) : List (ℝ × ℝ) :=
  (List.range (ub - 1)).map fun (k : Nat) =>
    let i : ℝ := (k : ℝ) + 1
    let beta := 2 * Real.pi * i * ((1 + Real.sqrt 5) / 2)⁻¹
    let radius := Real.sqrt (i / ub)
    (radius * Real.cos beta, radius * Real.sin beta)

/-- The entries of `beta` in `ArchimedeanSampler.sample` (`/repo/hrosailing/processing/sampler.py:228-230`). -/
def archimedeanBeta : Nat → ℝ
  | 0 => 0
  | k + 1 => archimedeanBeta k + 8 / (archimedeanBeta k + 2)

/-- `base_spiral` of `ArchimedeanSampler.sample` (`/repo/hrosailing/processing/sampler.py:228-233`). -/
def archimedeanBase (ub : Nat) : List (ℝ × ℝ) :=
  (List.range (ub + 1)).map fun k =>
    (archimedeanBeta k * Real.cos (archimedeanBeta k), archimedeanBeta k * Real.sin (archimedeanBeta k))

/-- What `ConvexHull(pts)` yields: the area and the equations, or an exception
(`/repo/hrosailing/processing/sampler.py:148-150`, `:220-222`). -/
abbrev Hull := List (ℝ × ℝ) → Except PyErr (ℝ × List (Facet ℝ))

/-- The common part of `FibonacciSampler.sample` and `ArchimedeanSampler.sample`
(`/repo/hrosailing/processing/sampler.py:143-166`, `:216-237`). For an area of zero `int` would raise `OverflowError`.
-/
def spiralSample (base : Nat → List (ℝ × ℝ)) (hull : Hull) (shuffle : List (ℝ × ℝ) → List (ℝ × ℝ)) (n fuel : Nat)
    (rows : List (List ℝ)) : Option (Except PyErr (List (ℝ × ℝ))) :=
  match toPlane rows with
  | .error e => some (.error e)
  | .ok pts =>
    match makeCircle (shuffle pts) (1 / 10000) fuel with
    | none => none
    | some (.error e) => some (.error e)
    | some (.ok (mid, r)) =>
      match hull pts with
      | .error e => some (.error e)
      | .ok (vol, ineqs) =>
        open Classical in
        if vol = 0 then some (.error .otherError)
        else (binaryRescale n (sampleGenerator (base (upperBound r vol n)) mid ineqs) r fuel).map .ok

/-- `FibonacciSampler.sample` (`/repo/hrosailing/processing/sampler.py:126-166`). -/
def fibonacci (hull : Hull) (shuffle : List (ℝ × ℝ) → List (ℝ × ℝ)) (n fuel : Nat) (rows : List (List ℝ)) :
    Option (Except PyErr (List (ℝ × ℝ))) :=
  spiralSample fibonacciBase hull shuffle n fuel rows

/-- `ArchimedeanSampler.sample` (`/repo/hrosailing/processing/sampler.py:195-237`). -/
def archimedean (hull : Hull) (shuffle : List (ℝ × ℝ) → List (ℝ × ℝ)) (n fuel : Nat) (rows : List (List ℝ)) :
    Option (Except PyErr (List (ℝ × ℝ))) :=
  if rows.length < 2 then some (.error .valueError) else spiralSample archimedeanBase hull shuffle n fuel rows

/-- `_create_bounds` (`/repo/hrosailing/processing/sampler.py:93-96`); `np.amin` of an empty array raises
`ValueError`. -/
def createBounds : List (ℝ × ℝ) → Except PyErr ((ℝ × ℝ) × (ℝ × ℝ))
  | [] => .error .valueError
  | p :: ps => .ok (((ps.map Prod.fst).foldl min p.1, (ps.map Prod.fst).foldl max p.1),
      ((ps.map Prod.snd).foldl min p.2, (ps.map Prod.snd).foldl max p.2))

end

end Verif.Sampler
