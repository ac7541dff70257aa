import Verif.Model.Convex
import Verif.Model.FloatGlobe

/-!
# `convex_direction` and `cruise` in double precision

Model of the angles in `convex_direction` (`/repo/hrosailing/cruising/basics.py:99-149`) and of the end of `cruise`
(`/repo/hrosailing/cruising/basics.py:251-265`) as they are calculated: `convex_direction` converts the angles of the slice to
radians and back, and `cruise` looks for the converted angles among those of the slice. The indices of the vertices of the
convex hull and the proportion of the first direction are parameters.
-/

namespace Verif.F64

open Verif.Convex (Direction chooseEdge speedAt)

/-- `np.rad2deg` (`/repo/hrosailing/cruising/basics.py:112`) in double precision: the product with the double `180 / π`. -/
noncomputable def toDeg (x : ℝ) : ℝ := fl (x * fl (180 / fl Real.pi))

/-- `np.rad2deg(np.deg2rad(x))` (`/repo/hrosailing/cruising/basics.py:104,112`) in double precision. -/
noncomputable def thereAndBack (x : ℝ) : ℝ := toDeg (toRad x)

section
variable {n : Nat} {σ : Type}

/-- `convex_direction` (`/repo/hrosailing/cruising/basics.py:99-149`) for the slice with the angles `wa` and the sails `info`;
`vertices` is the result of `ConvexHull` and `prop i1 i2` is the value of `lambda_` (lines 141-146, `none` for `inf` or
`nan`). -/
noncomputable def directions [DecidableEq σ] (vertices : List (Fin n)) (wa : Fin n → ℝ) (info : Option (Fin n → σ))
    (prop : Fin n → Fin n → Except PyErr (Option ℝ)) (direction : ℝ) : Except PyErr (List (Direction σ)) :=
  match chooseEdge (fun i => thereAndBack (wa i)) direction (vertices.insertionSort (· ≤ ·)) with
  | .error e => .error e
  | .ok (i1, i2) =>
    let sail1 := info.map fun f => f i1
    let sail2 := info.map fun f => f i2
    if ((i1 : Nat) + 1 = i2 ∨ (i2 : Nat) + 1 = i1) ∧ sail1 = sail2 then .ok [⟨thereAndBack (wa i1), some 1, sail1⟩]
    else
      match prop i1 i2 with
      | .error e => .error e
      | .ok lam =>
        .ok [⟨thereAndBack (wa i1), lam, sail1⟩, ⟨thereAndBack (wa i2), lam.map fun l => fl (1 - l), sail2⟩]

/-- The end of `cruise` (`/repo/hrosailing/cruising/basics.py:251-265`) in double precision for the recommended directions and
the distance `dist`; `none` is `inf` or `nan`. -/
noncomputable def times (wa bsp : Fin n → ℝ) (dist : ℝ) : List (Direction σ) → Except PyErr (List (ℝ × Option ℝ))
  | [] => .error .valueError
  | [d1] =>
    match speedAt wa bsp d1.angle with
    | .error e => .error e
    | .ok b1 => .ok [(d1.angle, if b1 = 0 then none else some (fl (dist / b1)))]
  | d1 :: d2 :: _ =>
    match speedAt wa bsp d1.angle, speedAt wa bsp d2.angle with
    | .ok b1, .ok b2 =>
      match d1.proportion, d2.proportion with
      | some l1, some l2 =>
        let s := fl (fl (l1 * b1) + fl (l2 * b2))
        let t := if s = 0 then none else some (fl (dist / s))
        .ok [(d1.angle, t.map fun t => fl (l1 * t)), (d2.angle, t.map fun t => fl (l2 * t))]
      | _, _ => .ok [(d1.angle, none), (d2.angle, none)]
    | .error e, _ => .error e
    | _, .error e => .error e

/-- `convex_direction` followed by the end of `cruise` (`/repo/hrosailing/cruising/basics.py:249-265`) for the heading
`direction`. -/
noncomputable def cruise [DecidableEq σ] (vertices : List (Fin n)) (wa bsp : Fin n → ℝ) (info : Option (Fin n → σ))
    (prop : Fin n → Fin n → Except PyErr (Option ℝ)) (direction dist : ℝ) : Except PyErr (List (ℝ × Option ℝ)) :=
  match directions vertices wa info prop direction with
  | .error e => .error e
  | .ok ds => times wa bsp dist ds

end

end Verif.F64
