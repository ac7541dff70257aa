import Mathlib.Data.List.Sort
import Verif.Model.Curve
import Verif.Model.Py

/-!
# `convex_direction` and `cruise` of `hrosailing.cruising.basics`

Model of `/repo/hrosailing/cruising/basics.py:17-265`. A slice of a polar diagram is a pair of arrays of the same length
`n`. The vertices of the convex hull (`scipy.spatial.ConvexHull`) are a parameter; its contract is part of the
theorems. Arithmetic is exact.
-/

namespace Verif.Convex

open Curve (deg2rad rad2deg)

/-- `Direction` (`/repo/hrosailing/cruising/basics.py:17-31`); `none` as a proportion is `inf` or `nan`. -/
structure Direction (σ : Type) where
  angle : ℝ
  proportion : Option ℝ
  sail : Option σ

/-- A course as a vector (`/repo/hrosailing/cruising/basics.py:153-156`). -/
noncomputable def unit (direction : ℝ) : ℝ × ℝ :=
  (Real.cos (deg2rad direction), Real.sin (deg2rad direction))

/-- One row of `polar_pts` (`/repo/hrosailing/cruising/basics.py:100-108`). -/
noncomputable def polarPoint (wa bsp : ℝ) : ℝ × ℝ :=
  (bsp * Real.cos (deg2rad wa), bsp * Real.sin (deg2rad wa))

/-- `np.linalg.solve` for the matrix with columns `p` and `q` (`/repo/hrosailing/cruising/basics.py:157-159`);
a singular matrix raises `LinAlgError`, a subclass of `ValueError`. -/
noncomputable def solve2 (p q u : ℝ × ℝ) : Except PyErr (ℝ × ℝ) :=
  let det := p.1 * q.2 - q.1 * p.2
  if det = 0 then .error .valueError
  else .ok ((u.1 * q.2 - q.1 * u.2) / det, (p.1 * u.2 - u.1 * p.2) / det)

/-- `_get_first_proportion` (`/repo/hrosailing/cruising/basics.py:152-160`); `none` is a division by zero. -/
noncomputable def firstProportion (p q : ℝ × ℝ) (direction : ℝ) : Except PyErr (Option ℝ) :=
  match solve2 p q (unit direction) with
  | .error e => .error e
  | .ok s => .ok (if s.1 + s.2 = 0 then none else some (s.1 / (s.1 + s.2)))

section
variable {n : Nat} {σ : Type}

/-- The loop over neighbouring vertices (`/repo/hrosailing/cruising/basics.py:110-118`). -/
noncomputable def findEdge (wa : Fin n → ℝ) (direction : ℝ) : List (Fin n) → Option (Fin n × Fin n)
  | l :: r :: rest =>
    if wa l ≤ direction ∧ direction ≤ wa r then some (l, r) else findEdge wa direction (r :: rest)
  | _ => none

/-- `i1, i2` (`/repo/hrosailing/cruising/basics.py:110-126`). -/
noncomputable def chooseEdge (wa : Fin n → ℝ) (direction : ℝ) (vert : List (Fin n)) :
    Except PyErr (Fin n × Fin n) :=
  match findEdge wa direction vert with
  | some e => .ok e
  | none =>
    match vert.head?, vert.getLast? with
    | some i1, some i2 => if |wa i1 - wa i2| < 180 then .error .valueError else .ok (i1, i2)
    | _, _ => .error .indexError

/-- The correction of the proportion (`/repo/hrosailing/cruising/basics.py:145-146`); the infinite quotients of
`firstProportion` are above `1` or below `0`. -/
noncomputable def correct (lam : Option ℝ) (direction w1 w2 : ℝ) : Option ℝ :=
  let other := if w1 + 360 - w2 = 0 then none else some ((direction + 360 - w2) / (w1 + 360 - w2))
  match lam with
  | none => other
  | some l => if 1 < l ∨ l < 0 then other else some l

/-- `convex_direction` (`/repo/hrosailing/cruising/basics.py:99-149`) for the slice with the angles `wa` and the boat
speeds `bsp` (after adding influences) and the sails `info`; `vertices` is the result of `ConvexHull`. The comparisons
`edge[0] == direction` and `edge[1] == direction` (lines 128-132) compare an instance of `Direction` with a number and
are never true. -/
noncomputable def convexDirection [DecidableEq σ] (vertices : List (Fin n)) (wa bsp : Fin n → ℝ)
    (info : Option (Fin n → σ)) (direction : ℝ) : Except PyErr (List (Direction σ)) :=
  match chooseEdge wa direction (vertices.insertionSort (· ≤ ·)) with
  | .error e => .error e
  | .ok (i1, i2) =>
    let sail1 := info.map fun f => f i1
    let sail2 := info.map fun f => f i2
    if ((i1 : Nat) + 1 = i2 ∨ (i2 : Nat) + 1 = i1) ∧ sail1 = sail2 then .ok [⟨wa i1, some 1, sail1⟩]
    else
      match firstProportion (polarPoint (wa i1) (bsp i1)) (polarPoint (wa i2) (bsp i2)) direction with
      | .error e => .error e
      | .ok lam =>
        let lam := correct lam direction (wa i1) (wa i2)
        .ok [⟨wa i1, lam, sail1⟩, ⟨wa i2, lam.map fun l => 1 - l, sail2⟩]

/-- `bsp[np.where(wa == angle)[0]]` used as a number (`/repo/hrosailing/cruising/basics.py:255,260`): `float` of the
quotient needs exactly one entry. -/
noncomputable def speedAt (wa bsp : Fin n → ℝ) (angle : ℝ) : Except PyErr ℝ :=
  match (List.finRange n).filter fun i => decide (wa i = angle) with
  | [i] => .ok (bsp i)
  | _ => .error .typeError

/-- The end of `cruise` (`/repo/hrosailing/cruising/basics.py:251-265`) for the recommended directions and the
distance `dist`; `none` is `inf` or `nan`. -/
noncomputable def cruiseTimes (wa bsp : Fin n → ℝ) (dist : ℝ) :
    List (Direction σ) → Except PyErr (List (ℝ × Option ℝ))
  | [] => .error .valueError
  | [d1] =>
    match speedAt wa bsp d1.angle with
    | .error e => .error e
    | .ok b1 => .ok [(d1.angle, if b1 = 0 then none else some (dist / b1))]
  | d1 :: d2 :: _ =>
    match speedAt wa bsp d1.angle, speedAt wa bsp d2.angle with
    | .ok b1, .ok b2 =>
      match d1.proportion, d2.proportion with
      | some l1, some l2 =>
        let t := if l1 * b1 + l2 * b2 = 0 then none else some (dist / (l1 * b1 + l2 * b2))
        .ok [(d1.angle, t.map fun t => l1 * t), (d2.angle, t.map fun t => l2 * t)]
      | _, _ => .ok [(d1.angle, none), (d2.angle, none)]
    | .error e, _ => .error e
    | _, .error e => .error e

end

end Verif.Convex
