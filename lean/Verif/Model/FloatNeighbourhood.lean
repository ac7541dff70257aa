import Verif.Model.FloatIdw
import Verif.Model.Neighbourhood

/-!
# Neighbourhoods of grid points in double precision

The differences of the winds of the measurements and the grid point are rounded, and so are the products, sums and roots in the
conditions of the neighbourhoods (`/repo/hrosailing/processing/neighbourhood.py`). Comparisons and absolute values are exact.
-/

namespace Verif.F64

section

variable {K : Type} [Field K] [LinearOrder K] [IsStrictOrderedRing K] [FloorRing K]

/-- `weighted_points.data[:, :2] - point` (`/repo/hrosailing/pipeline/extensions.py:342-344`,
`/repo/hrosailing/polardiagram/_polardiagrampointcloud.py:211`) in double precision. -/
def shift (g : K × K) (pts : List (K × K)) : List (K × K) := pts.map fun p => (fl (p.1 - g.1), fl (p.2 - g.2))

/-- `Cuboid(dimensions=b).is_contained_in(data[:, :2] - g)` (`/repo/hrosailing/processing/neighbourhood.py:305-334`,
`/repo/hrosailing/pipeline/extensions.py:342-344`) for doubles. -/
def nearCuboid (b g : K × K) (pts : List (K × K)) : Nbh.Mask := Nbh.cuboid (fun x => |x|) b (shift g pts)

/-- The possible values of an entry of `ineq @ pts.T` (`/repo/hrosailing/processing/neighbourhood.py:410`) for doubles: the
products are rounded, or one of them is added without rounding (fused multiply and add). -/
def RoundedDot (a x : K × K) (s : K) : Prop :=
  s = fl (fl (a.1 * x.1) + fl (a.2 * x.2)) ∨ s = fl (a.1 * x.1 + fl (a.2 * x.2)) ∨ s = fl (fl (a.1 * x.1) + a.2 * x.2)

/-- The loop of `Polytope.is_contained_in` (`/repo/hrosailing/processing/neighbourhood.py:408-411`) for doubles; `dot` is the
product. -/
def polytopeLoop (dot : K × K → K × K → K) (pts : List (K × K)) : List ((K × K) × K) → List Bool → List Bool
  | [], mask => mask
  | (a, bound) :: rest, mask =>
    polytopeLoop dot pts rest (List.zipWith (· && ·) mask (pts.map fun p => decide (dot a p ≤ bound)))

/-- `Polytope(mat, b).is_contained_in(data[:, :2] - g)` (`/repo/hrosailing/processing/neighbourhood.py:385-411`,
`/repo/hrosailing/pipeline/extensions.py:342-344`) for doubles; `ineqs` are the pairs of `zip(mat, b)`. -/
def nearPolytope (dot : K × K → K × K → K) (ineqs : List ((K × K) × K)) (g : K × K) (pts : List (K × K)) : Nbh.Mask :=
  if (shift g pts).length = 0 then .all
  else .arr (polytopeLoop dot (shift g pts) ineqs (List.replicate (shift g pts).length true))

/-- The default values of `Polytope` (`/repo/hrosailing/processing/neighbourhood.py:366-368`) as doubles. -/
def polytopeDefault : List ((K × K) × K) :=
  [((1, 0), fl (5 / 100)), ((0, 1), fl (5 / 100)), ((-1, 0), fl (5 / 100)), ((0, -1), fl (5 / 100))]

/-- The default values of `Cuboid` (`/repo/hrosailing/processing/neighbourhood.py:294-298`) as doubles. -/
def cuboidDefault : K × K := (fl (5 / 100), fl (5 / 100))

end

/-- `Ball(radius).is_contained_in(data[:, :2] - g)` (`/repo/hrosailing/processing/neighbourhood.py:78-101`,
`/repo/hrosailing/pipeline/extensions.py:342-344`) for doubles and the default norm. -/
noncomputable def nearBall (radius : ℝ) (g : ℝ × ℝ) (pts : List (ℝ × ℝ)) : Except PyErr Nbh.Mask :=
  Nbh.ball ⟨fun l => .ok (l.map scaledEuclidean), fun p => .ok (scaledEuclidean p)⟩ radius (shift g pts)

end Verif.F64
