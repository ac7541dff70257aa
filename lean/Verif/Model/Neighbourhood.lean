import Mathlib.Algebra.Order.Field.Basic
import Mathlib.Data.List.Sort
import Verif.Model.Py

/-!
# `hrosailing.processing.neighbourhood`

Model of `/repo/hrosailing/processing/neighbourhood.py` over an arbitrary ordered field. The points are an array of
shape `(n, 2)`. Norms are arbitrary functions; all but `Ball` use them on whole arrays only, so they are modelled
there by the function applied to each row.
-/

namespace Verif.Nbh

variable {K : Type} [Field K] [LinearOrder K]

/-- What `is_contained_in` returns: an array with one entry per point or the python constant `True`
(`/repo/hrosailing/processing/neighbourhood.py:171`, `:260`, `:403`). -/
inductive Mask
  | all
  | arr (l : List Bool)
  deriving DecidableEq, Repr

/-- A norm as passed to `Ball` (`/repo/hrosailing/processing/neighbourhood.py:66-75`): its behaviour on an array of
points and on a single point. -/
structure Norm (K : Type) where
  array : List (K × K) → Except PyErr (List K)
  point : K × K → Except PyErr K

/-- `Ball(radius, norm)` (`/repo/hrosailing/processing/neighbourhood.py:66-75`); the result is the radius. -/
def ballInit (radius : K) : Except PyErr K :=
  if radius ≤ 0 then .error .valueError else .ok radius

/-- `np.asarray([self._norm(pt) <= self._radius for pt in pts])`
(`/repo/hrosailing/processing/neighbourhood.py:102`). -/
def ballPointwise (norm : Norm K) (radius : K) : List (K × K) → Except PyErr (List Bool)
  | [] => .ok []
  | p :: ps =>
    match norm.point p with
    | .error e => .error e
    | .ok d =>
      match ballPointwise norm radius ps with
      | .error e => .error e
      | .ok l => .ok (decide (d ≤ radius) :: l)

/-- `Ball.is_contained_in` (`/repo/hrosailing/processing/neighbourhood.py:80-102`). -/
def ball (norm : Norm K) (radius : K) (pts : List (K × K)) : Except PyErr Mask :=
  match norm.array pts with
  | .ok d => .ok (.arr (d.map fun x => decide (x ≤ radius)))
  | .error e =>
    if e = .valueError ∨ e = .indexError then
      match ballPointwise norm radius pts with
      | .ok l => .ok (.arr l)
      | .error e => .error e
    else .error e

/-- `ScalingBall(min_pts, norm)` (`/repo/hrosailing/processing/neighbourhood.py:130-143`). -/
def scalingInit (minPts : Int) : Except PyErr Int :=
  if minPts ≤ 0 then .error .valueError else .ok minPts

/-- `ScalingBall.is_contained_in` (`/repo/hrosailing/processing/neighbourhood.py:150-177`). -/
def scalingBall (norm : K × K → K) (minPts : Int) (pts : List (K × K)) : Except PyErr Mask :=
  if pts.length = 0 then .ok .all
  else
    let dist := pts.map norm
    match pyIndex (dist.insertionSort (· ≤ ·)) (minPts - 1) with
    | none => .error .indexError
    | some radius => .ok (.arr (dist.map fun d => decide (d ≤ radius)))

/-- A matrix of shape `(2, 2)` (`/repo/hrosailing/processing/neighbourhood.py:221-224`). -/
structure Mat (K : Type) where
  a : K
  b : K
  c : K
  d : K
  deriving DecidableEq, Repr

namespace Mat

/-- Matrix times vector, one column of `self._T @ pts.T` (`/repo/hrosailing/processing/neighbourhood.py:270`). -/
def mulVec (m : Mat K) (x : K × K) : K × K := (m.a * x.1 + m.b * x.2, m.c * x.1 + m.d * x.2)

/-- `np.linalg.det` (`/repo/hrosailing/processing/neighbourhood.py:226`). -/
def det (m : Mat K) : K := m.a * m.d - m.b * m.c

/-- `np.linalg.inv` of a regular matrix (`/repo/hrosailing/processing/neighbourhood.py:232`). -/
def inv (m : Mat K) : Mat K := ⟨m.d / m.det, -m.b / m.det, -m.c / m.det, m.a / m.det⟩

/-- `np.eye(2)` (`/repo/hrosailing/processing/neighbourhood.py:219`). -/
def eye : Mat K := ⟨1, 0, 0, 1⟩

end Mat

/-- The attributes `_T` and `_radius` of an `Ellipsoid` (`/repo/hrosailing/processing/neighbourhood.py:232-234`). -/
structure Ellipsoid (K : Type) where
  T : Mat K
  radius : K
  deriving DecidableEq, Repr

/-- `Ellipsoid(lin_trans, norm, radius)` (`/repo/hrosailing/processing/neighbourhood.py:212-234`); the check of the
shape is part of the type. -/
def ellipsoidInit (linTrans : Option (Mat K)) (radius : K) : Except PyErr (Ellipsoid K) :=
  let m := linTrans.getD Mat.eye
  if m.det = 0 then .error .valueError
  else if radius ≤ 0 then .error .valueError
  else .ok ⟨m.inv, radius⟩

/-- `Ellipsoid.is_contained_in` (`/repo/hrosailing/processing/neighbourhood.py:242-270`). -/
def ellipsoid (norm : K × K → K) (e : Ellipsoid K) (pts : List (K × K)) : Mask :=
  if pts.length = 0 then .all
  else .arr ((pts.map e.T.mulVec).map fun x => decide (norm x ≤ e.radius))

/-- `Cuboid.is_contained_in` (`/repo/hrosailing/processing/neighbourhood.py:305-334`). -/
def cuboid (norm : K → K) (dimensions : K × K) (pts : List (K × K)) : Mask :=
  .arr (List.zipWith (· && ·)
    (List.zipWith (· && ·) (List.replicate pts.length true)
      (pts.map fun p => decide (norm p.1 ≤ dimensions.1)))
    (pts.map fun p => decide (norm p.2 ≤ dimensions.2)))

/-- `Polytope(mat, b)` (`/repo/hrosailing/processing/neighbourhood.py:366-380`); a row of `mat` is a pair. The result
is the list of pairs traversed by `zip(self._mat, self._b)` in line 409. -/
def polytopeInit (mat : List (K × K)) (b : List K) : Except PyErr (List ((K × K) × K)) :=
  if b.length ≠ mat.length then .error .valueError else .ok (mat.zip b)

/-- The loop of `Polytope.is_contained_in` (`/repo/hrosailing/processing/neighbourhood.py:408-410`). -/
def polytopeLoop (pts : List (K × K)) : List ((K × K) × K) → List Bool → List Bool
  | [], mask => mask
  | (a, bound) :: rest, mask =>
    polytopeLoop pts rest
      (List.zipWith (· && ·) mask (pts.map fun p => decide (a.1 * p.1 + a.2 * p.2 ≤ bound)))

/-- `Polytope.is_contained_in` (`/repo/hrosailing/processing/neighbourhood.py:385-411`). -/
def polytope (ineqs : List ((K × K) × K)) (pts : List (K × K)) : Mask :=
  if pts.length = 0 then .all
  else .arr (polytopeLoop pts ineqs (List.replicate pts.length true))

/-- The default values of `Polytope` (`/repo/hrosailing/processing/neighbourhood.py:366-368`). -/
def polytopeDefault : List (K × K) × List K :=
  ([(1, 0), (0, 1), (-1, 0), (0, -1)], [5 / 100, 5 / 100, 5 / 100, 5 / 100])

end Verif.Nbh
