import Verif.Model.FloatCruise

/-!
# The heading of `cruise` in double precision

Model of the heading relative to the wind in `cruise` (`/repo/hrosailing/cruising/basics.py:245-250`) as it is calculated, and of
what `convex_direction` and `cruise` do if it is `nan`. Sine, cosine and arc cosine are parameters.
-/

namespace Verif.F64

open Verif.Convex (Direction)

/-- `np.cos(rhc) * np.cos(wdir) + np.sin(rhc) * np.sin(wdir)` (`/repo/hrosailing/cruising/basics.py:248`) in double
precision. -/
noncomputable def courseCosine (sinD cosD : ℝ → ℝ) (rhc wdir : ℝ) : ℝ :=
  fl (fl (cosD rhc * cosD wdir) + fl (sinD rhc * sinD wdir))

/-- The variable `heading` of `cruise` (`/repo/hrosailing/cruising/basics.py:247-250`) in double precision; `none` is `nan`, the
arc cosine of numbers outside of the interval from -1 to 1. -/
noncomputable def cruiseHeading (sinD cosD acosD : ℝ → ℝ) (rhc wdir : ℝ) : Option ℝ :=
  let q := courseCosine sinD cosD rhc wdir
  if q < -1 ∨ 1 < q then none else some (fl (180 - toDeg (acosD q)))

section
variable {n : Nat} {σ : Type}

/-- `convex_direction` (`/repo/hrosailing/cruising/basics.py:99-149`) for the direction `nan`: no comparison with it is true, so
that the loop of lines 114-118 finds no edge and the proportions are `nan`. `singular` says that `np.linalg.solve` (line 158)
raises `LinAlgError` for the points of the two vertices. -/
noncomputable def directionsNan [DecidableEq σ] (vertices : List (Fin n)) (wa : Fin n → ℝ) (info : Option (Fin n → σ))
    (singular : Fin n → Fin n → Bool) : Except PyErr (List (Direction σ)) :=
  let vert := vertices.insertionSort (· ≤ ·)
  match vert.head?, vert.getLast? with
  | some i1, some i2 =>
    if |thereAndBack (wa i1) - thereAndBack (wa i2)| < 180 then .error .valueError
    else
      let sail1 := info.map fun f => f i1
      let sail2 := info.map fun f => f i2
      if ((i1 : Nat) + 1 = i2 ∨ (i2 : Nat) + 1 = i1) ∧ sail1 = sail2 then .ok [⟨thereAndBack (wa i1), some 1, sail1⟩]
      else if singular i1 i2 then .error .otherError
      else .ok [⟨thereAndBack (wa i1), none, sail1⟩, ⟨thereAndBack (wa i2), none, sail2⟩]
  | _, _ => .error .indexError

/-- `cruise` (`/repo/hrosailing/cruising/basics.py:245-265`) in double precision for the course `rhc` and the direction of the
wind `wdir`. -/
noncomputable def cruiseCourse [DecidableEq σ] (sinD cosD acosD : ℝ → ℝ) (vertices : List (Fin n)) (wa bsp : Fin n → ℝ)
    (info : Option (Fin n → σ)) (prop : ℝ → Fin n → Fin n → Except PyErr (Option ℝ)) (singular : Fin n → Fin n → Bool)
    (rhc wdir dist : ℝ) : Except PyErr (List (ℝ × Option ℝ)) :=
  match cruiseHeading sinD cosD acosD rhc wdir with
  | some heading => cruise vertices wa bsp info (prop heading) heading dist
  | none =>
    match directionsNan vertices wa info singular with
    | .error e => .error e
    | .ok ds => times wa bsp dist ds

end

end Verif.F64
